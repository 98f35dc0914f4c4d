import Verif.Auth.Proofs

/-!
# C40: authenticated ciphers

`history_exact`: for every history of calls, right or wrong ones, every result of the object, exceptions included, is the one of the machine in `Verif.Auth.Spec`, which only remembers the strings entered.
So the order of calls is enforced, and the text and the authentication code depend on the strings and not on how they were divided between calls. `encrypt_exact` and `decrypt_exact` are the two one-call functions.
They are for any mode whose virtual functions meet `Hooks.Ok`; `Verif.Gcm` shows that those of GCM do.
-/
namespace Verif.Auth

variable {σ κ α : Type} {Hk : Hooks σ κ} {A : Spec.Alg κ} {I : Impl κ α} {Key : κ → σ → Prop} {Rep : κ → List Byte → α → Nat → σ → Prop}

/-- C40, every history of calls on a new object. -/
theorem history_exact (ok : Hk.Ok A I Key Rep) (o : σ) (ops : List (Op κ)) (hb : updated ops < 2 ^ 64) : run Hk (fresh o) ops = Spec.run A Spec.init ops :=
  run_sim ok ops _ _ (by simpa [Spec.init] using hb) (fresh_sim o)

/-- A key, an initialisation vector, the pieces of a header, the pieces of a text, and a last call. -/
def session (k : κ) (iv : List Byte) (hs xs : List (List Byte)) (last : Op κ) : List (Op κ) :=
  .setKey k none :: .resync iv :: (hs.map .update ++ (xs.map .process ++ [last]))

/-- The pieces of text transformed at their positions. -/
def pieces (ks : Mem) : Nat → List (List Byte) → List (List Byte)
  | _, [] => []
  | q, x :: xs => xorBytes x (load ks q x.length) :: pieces ks (q + x.length) xs

theorem pieces_flatten (ks : Mem) : ∀ (xs : List (List Byte)) (q : Nat), (pieces ks q xs).flatten = xorBytes xs.flatten (load ks q xs.flatten.length) := by
  intro xs
  induction xs with
  | nil => intro q; rfl
  | cons x xs ih =>
    intro q
    rw [pieces, List.flatten_cons, ih, List.flatten_cons, List.length_append, load_add, xorBytes_append _ _ _ _ (by simp)]

theorem spec_header (k : κ) (iv : List Byte) : ∀ (hs : List (List Byte)) (H : List Byte) (ops : List (Op κ)),
    Spec.run A ⟨.header k iv, H, [], [], 0⟩ (hs.map .update ++ ops) = hs.map (fun _ => .ok .nothing) ++ Spec.run A ⟨.header k iv, H ++ hs.flatten, [], [], 0⟩ ops := by
  intro hs
  induction hs with
  | nil => intro H ops; simp
  | cons h hs ih =>
    intro H ops
    have e : Spec.step A ⟨.header k iv, H, [], [], 0⟩ (.update h) = (⟨.header k iv, H ++ h, [], [], 0⟩, .ok .nothing) := by
      unfold Spec.step
      by_cases hz : h.length = 0
      · dsimp only; rw [if_pos hz, List.eq_nil_of_length_eq_zero hz, List.append_nil]
      · dsimp only; rw [if_neg hz]
    rw [List.map_cons, List.cons_append, Spec.run, e, ih, List.map_cons, List.flatten_cons, List.append_assoc]
    rfl

/-- What is authenticated of a text. -/
def authText (A : Spec.Alg κ) (k : κ) (iv : List Byte) (q : Nat) (x : List Byte) : List Byte := if A.authInput then x else xorBytes x (load (A.keystream k iv) q x.length)

theorem authText_append (k : κ) (iv : List Byte) (q : Nat) (x y : List Byte) : authText A k iv q (x ++ y) = authText A k iv q x ++ authText A k iv (q + x.length) y := by
  unfold authText
  split
  · rfl
  · rw [List.length_append, load_add, xorBytes_append _ _ _ _ (by simp)]

theorem authText_length (k : κ) (iv : List Byte) (q : Nat) (x : List Byte) : (authText A k iv q x).length = x.length := by
  unfold authText; split <;> simp

theorem spec_text (k : κ) (iv : List Byte) : ∀ (xs : List (List Byte)) (H C : List Byte) (ops : List (Op κ)), C.length + xs.flatten.length ≤ A.maxMessage →
    Spec.run A ⟨.message k iv, H, C, [], C.length⟩ (xs.map .process ++ ops) =
      (pieces (A.keystream k iv) C.length xs).map (fun y => .ok (.bytes y)) ++ Spec.run A ⟨.message k iv, H, C ++ authText A k iv C.length xs.flatten, [], C.length + xs.flatten.length⟩ ops := by
  intro xs
  induction xs with
  | nil => intro H C ops _; simp [pieces, authText, xorBytes]
  | cons x xs ih =>
    intro H C ops hl
    rw [List.flatten_cons, List.length_append] at hl
    have hal := authText_length (A := A) k iv C.length x
    have e : Spec.step A ⟨.message k iv, H, C, [], C.length⟩ (.process x) =
        (⟨.message k iv, H, C ++ authText A k iv C.length x, [], (C ++ authText A k iv C.length x).length⟩, .ok (.bytes (xorBytes x (load (A.keystream k iv) C.length x.length)))) := by
      unfold Spec.step
      dsimp only
      rw [if_neg (by omega), List.length_append, hal]
      rfl
    have hlen : (C ++ authText A k iv C.length x).length = C.length + x.length := by rw [List.length_append, hal]
    rw [List.map_cons, List.cons_append, Spec.run, e]
    dsimp only
    rw [ih H _ ops (by omega), pieces, List.map_cons, List.flatten_cons, authText_append, hlen, List.length_append, List.append_assoc]
    simp only [List.cons_append, Nat.add_assoc]

/-- C40. Whatever pieces the header and the text come in, the text pieces return the transformed text and the last call gets the code for the whole strings. There may be no text piece, or empty ones. -/
theorem session_exact (ok : Hk.Ok A I Key Rep) (o : σ) (k : κ) (iv : List Byte) (hs xs : List (List Byte)) (hiv : A.ivOk iv.length = true)
    (hh : hs.flatten.length ≤ A.maxHeader) (hh' : hs.flatten.length < 2 ^ 64) (hx : xs.flatten.length ≤ A.maxMessage) (last : Op κ) (T : Nat → List Byte)
    (hT : T = A.tag k iv hs.flatten (authText A k iv 0 xs.flatten) []) (res : Except Err Out)
    (hlast : (∃ n, n ≤ A.digestSize ∧ last = .final n ∧ res = .ok (.bytes (T n))) ∨
      (∃ mac : List Byte, mac.length ≤ A.digestSize ∧ last = .verify mac ∧ res = .ok (.bool (T mac.length == mac)))) :
    run Hk (fresh o) (session k iv hs xs last) =
      [.ok .nothing, .ok .nothing] ++ hs.map (fun _ => .ok .nothing) ++ (pieces (A.keystream k iv) 0 xs).map (fun y => .ok (.bytes y)) ++ [res] := by
  have hupd : ∀ (hs : List (List Byte)) (ops : List (Op κ)), updated (hs.map .update ++ ops) = hs.flatten.length + updated ops := by
    intro hs ops
    induction hs with
    | nil => simp
    | cons h hs ih => rw [List.map_cons, List.cons_append, updated, ih, List.flatten_cons, List.length_append, Nat.add_assoc]
  have hpro : ∀ (xs : List (List Byte)) (ops : List (Op κ)), updated (xs.map .process ++ ops) = updated ops := by
    intro xs ops
    induction xs with
    | nil => simp
    | cons h hs ih => exact ih
  have hlast0 : updated [last] = 0 := by
    rcases hlast with ⟨n, _, h, _⟩ | ⟨m, _, h, _⟩ <;> subst h <;> rfl
  have hu : updated (session k iv hs xs last) = hs.flatten.length := by
    show updated (hs.map .update ++ (xs.map .process ++ [last])) = _
    rw [hupd, hpro, hlast0, Nat.add_zero]
  rw [history_exact ok o _ (by omega)]
  have e1 : Spec.run A Spec.init (session k iv hs xs last) =
      .ok .nothing :: .ok .nothing :: Spec.run A ⟨.header k iv, [], [], [], 0⟩ (hs.map .update ++ (xs.map .process ++ [last])) := by
    unfold session
    rw [Spec.run, Spec.run]
    simp only [Spec.step, Spec.init, Spec.begin, if_pos hiv]
  rw [e1, spec_header]
  simp only [List.cons_append, List.nil_append, List.append_assoc]
  congr 3
  have hfin : ∀ (life : Spec.Life κ) (off : Nat), life = .header k iv ∨ life = .message k iv → Spec.run A ⟨life, hs.flatten, authText A k iv 0 xs.flatten, [], off⟩ [last] = [res] := by
    intro life off hlife
    have hf : ∀ n, n ≤ A.digestSize → (Spec.finish A ⟨life, hs.flatten, authText A k iv 0 xs.flatten, [], off⟩ n).2 = .ok (T n) := by
      intro n hn
      unfold Spec.finish
      rw [if_neg (fun h => h.elim (fun h => by omega) (fun h => h.elim (fun h => absurd hh (Nat.not_le_of_gt h)) (fun h => absurd h (Nat.not_lt_zero _)))), hT]
      rcases hlife with h | h <;> subst h <;> rfl
    rw [Spec.run, Spec.run]
    rcases hlast with ⟨n, hn, h1, h2⟩ | ⟨m, hn, h1, h2⟩
    · subst h1 h2; simp only [Spec.step, hf n hn]; rfl
    · subst h1 h2; simp only [Spec.step, hf _ hn]; rfl
  cases xs with
  | nil =>
    rw [List.map_nil, List.nil_append, pieces, List.map_nil, List.nil_append]
    have h0 : authText A k iv 0 ([] : List (List Byte)).flatten = [] := List.eq_nil_of_length_eq_zero (by rw [authText_length]; rfl)
    have := hfin (.header k iv) 0 (Or.inl rfl)
    rw [h0] at this
    exact this
  | cons x xs =>
    -- the first piece ends the header
    have e2 : ∀ op : List Byte → Op κ, op = .process → ∀ ops, Spec.run A ⟨.header k iv, hs.flatten, [], [], 0⟩ (op x :: ops) = Spec.run A ⟨.message k iv, hs.flatten, [], [], 0⟩ (op x :: ops) := by
      intro op hop ops; subst hop
      rw [List.flatten_cons, List.length_append] at hx
      rw [Spec.run, Spec.run]
      simp only [Spec.step]
      rw [if_neg (by omega), if_neg (by omega)]
      rfl
    rw [List.map_cons, List.cons_append, e2 _ rfl]
    have := spec_text (A := A) k iv (x :: xs) hs.flatten [] [last] (by rw [List.length_nil]; omega)
    rw [List.map_cons, List.cons_append] at this
    simp only [List.length_nil, List.nil_append] at this
    rw [this]
    congr 1
    exact hfin _ _ (Or.inr rfl)

/-- What one state of the object has to satisfy for the one-call functions. -/
theorem oneshot (ok : Hk.Ok A I Key Rep) (s : State σ) (k : κ) (iv header text : List Byte) (hp : s.phase ≠ .start) (hk : Key k s.o) (hiv : A.ivOk iv.length = true)
    (hh : header.length ≤ A.maxHeader) (hh' : header.length < 2 ^ 64) (hx : text.length ≤ A.maxMessage) :
    ∃ s1 s2 s3, resynchronize Hk s iv = (s1, .ok ()) ∧ update Hk s1 header = (s2, .ok ()) ∧ processData Hk s2 text = (s3, .ok (xorBytes text (load (A.keystream k iv) 0 text.length))) ∧
      Sim Hk I Key Rep s3 ⟨.message k iv, header, authText A k iv 0 text, [], text.length⟩ := by
  obtain ⟨r1, r2⟩ := resync_sim ok s Spec.init k iv hp hk
  have hb : Spec.begin A k iv = (⟨.header k iv, [], [], [], 0⟩, .ok .nothing) := by unfold Spec.begin; rw [if_pos hiv]
  rw [hb] at r1 r2
  have e1 : (resynchronize Hk s iv).2 = .ok () := by
    generalize (resynchronize Hk s iv).2 = r at r1
    cases r with
    | error e => cases r1
    | ok u => rfl
  obtain ⟨u1, u2⟩ := step_sim ok _ _ (.update header) (by simp [updated]; omega) r2
  have hu : Spec.step A ⟨.header k iv, [], [], [], 0⟩ (.update header) = (⟨.header k iv, header, [], [], 0⟩, .ok .nothing) := by
    unfold Spec.step
    by_cases hz : header.length = 0
    · dsimp only; rw [if_pos hz, List.eq_nil_of_length_eq_zero hz]
    · dsimp only; rw [if_neg hz, List.nil_append]
  rw [hu] at u1 u2
  have e2 : (update Hk (resynchronize Hk s iv).1 header).2 = .ok () := by
    simp only [step] at u1
    generalize (update Hk (resynchronize Hk s iv).1 header).2 = r at u1
    cases r with
    | error e => cases u1
    | ok u => rfl
  obtain ⟨p1, p2⟩ := process_sim ok _ _ text u2
  have hpp : Spec.step A ⟨.header k iv, header, [], [], 0⟩ (.process text) =
      (⟨.message k iv, header, authText A k iv 0 text, [], text.length⟩, .ok (.bytes (xorBytes text (load (A.keystream k iv) 0 text.length)))) := by
    unfold Spec.step
    dsimp only
    rw [if_neg (by omega)]
    unfold Spec.text authText
    simp only [List.length_nil, List.nil_append, Nat.zero_add]
  rw [hpp] at p1 p2
  have e3 : (processData Hk (step Hk (resynchronize Hk s iv).1 (.update header)).1 text).2 = .ok (xorBytes text (load (A.keystream k iv) 0 text.length)) := by
    generalize (processData Hk (step Hk (resynchronize Hk s iv).1 (.update header)).1 text).2 = r at p1
    cases r with
    | error e => cases p1
    | ok u => injection p1 with p1; injection p1 with p1; rw [p1]
  refine ⟨(resynchronize Hk s iv).1, (update Hk (resynchronize Hk s iv).1 header).1, _, ?_, ?_, ?_, p2⟩
  · rw [← e1]
  · rw [← e2]
  · show processData Hk (update Hk (resynchronize Hk s iv).1 header).1 text = _
    rw [← e3]; rfl

theorem finish_message (A : Spec.Alg κ) (k : κ) (iv H C : List Byte) (off n : Nat) (hn : n ≤ A.digestSize) (hh : H.length ≤ A.maxHeader) :
    (Spec.finish A ⟨.message k iv, H, C, [], off⟩ n).2 = .ok (A.tag k iv H C [] n) := by
  unfold Spec.finish
  rw [if_neg (fun h => h.elim (fun h => by omega) (fun h => h.elim (fun h => absurd hh (Nat.not_le_of_gt h)) (fun h => absurd h (Nat.not_lt_zero _))))]

/-- C40, `EncryptAndAuthenticate` on a keyed object, whatever it was used for before. -/
theorem encrypt_exact (ok : Hk.Ok A I Key Rep) (s : State σ) (k : κ) (iv header text : List Byte) (n : Nat) (hiv : A.ivOk iv.length = true)
    (hh : header.length ≤ A.maxHeader) (hh' : header.length < 2 ^ 64) (hx : text.length ≤ A.maxMessage) (hn : n ≤ A.digestSize) :
    (encryptAndAuthenticate Hk (setKey Hk s k none).1 iv header text n).2 =
      .ok (xorBytes text (load (A.keystream k iv) 0 text.length), A.tag k iv header (authText A k iv 0 text) [] n) := by
  obtain ⟨s1, s2, s3, e1, e2, e3, hs⟩ := oneshot ok (setKey Hk s k none).1 k iv header text (by simp [setKey]) (ok.setKey _ _) hiv hh hh' hx
  have e4 := (final_sim ok s3 _ n hs).1
  rw [finish_message A k iv _ _ _ n hn hh] at e4
  unfold encryptAndAuthenticate
  rw [e1]
  dsimp only
  rw [show specifyDataLengths Hk header.length text.length = .ok () by
    unfold specifyDataLengths; rw [if_neg (by rw [← ok.maxHeader]; omega), if_neg (by rw [← ok.maxMessage]; omega)]]
  dsimp only
  rw [e2]
  dsimp only
  rw [e3]
  dsimp only
  generalize truncatedFinal Hk s3 n = r at e4
  obtain ⟨s4, r⟩ := r
  dsimp only at e4
  rw [e4]

/-- C40, `DecryptAndVerify`. -/
theorem decrypt_exact (ok : Hk.Ok A I Key Rep) (s : State σ) (k : κ) (iv header text mac : List Byte) (hiv : A.ivOk iv.length = true)
    (hh : header.length ≤ A.maxHeader) (hh' : header.length < 2 ^ 64) (hx : text.length ≤ A.maxMessage) (hn : mac.length ≤ A.digestSize) :
    (decryptAndVerify Hk (setKey Hk s k none).1 iv header text mac).2 =
      .ok (xorBytes text (load (A.keystream k iv) 0 text.length), A.tag k iv header (authText A k iv 0 text) [] mac.length == mac) := by
  obtain ⟨s1, s2, s3, e1, e2, e3, hs⟩ := oneshot ok (setKey Hk s k none).1 k iv header text (by simp [setKey]) (ok.setKey _ _) hiv hh hh' hx
  have e4 := (final_sim ok s3 _ mac.length hs).1
  obtain ⟨_, e5⟩ := verify_of_final s3 _ mac ok.digestSize e4
  rw [finish_message A k iv _ _ _ _ hn hh] at e5
  unfold decryptAndVerify
  rw [e1]
  dsimp only
  rw [show specifyDataLengths Hk header.length text.length = .ok () by
    unfold specifyDataLengths; rw [if_neg (by rw [← ok.maxHeader]; omega), if_neg (by rw [← ok.maxMessage]; omega)]]
  dsimp only
  rw [e2]
  dsimp only
  rw [e3]
  dsimp only
  generalize truncatedVerify Hk s3 mac = r at e5
  obtain ⟨s4, r⟩ := r
  dsimp only at e5
  rw [e5]
  rfl

theorem spec_run_append (A : Spec.Alg κ) : ∀ (ops : List (Op κ)) (t : Spec.St κ), ∃ t', ∀ ops', Spec.run A t (ops ++ ops') = Spec.run A t ops ++ Spec.run A t' ops' := by
  intro ops
  induction ops with
  | nil => intro t; exact ⟨t, fun _ => rfl⟩
  | cons op ops ih =>
    intro t
    obtain ⟨t', h⟩ := ih (Spec.step A t op).1
    exact ⟨t', fun ops' => by rw [List.cons_append, Spec.run, h, Spec.run]; rfl⟩

theorem spec_used_up (A : Spec.Alg κ) (s : Spec.St κ) (n : Nat) (t : List Byte) (op : Op κ) (h : (Spec.step A s (.final n)).2 = .ok (.bytes t))
    (hop : (∃ x, op = .process x) ∨ (∃ x, op = .update x ∧ x ≠ []) ∨ ∃ m, op = .final m ∧ m ≤ A.digestSize) :
    (Spec.step A (Spec.step A s (.final n)).1 op).2 = .error .badState := by
  have hk : ∃ k, (Spec.finish A s n).1 = { s with life := .keyed k } ∧ ¬ (s.H.length > A.maxHeader ∨ s.F.length > A.maxFooter) := by
    have h' : (Spec.finish A s n).2.map Out.bytes = .ok (.bytes t) := h
    unfold Spec.finish at h' ⊢
    by_cases hc : n > A.digestSize ∨ s.H.length > A.maxHeader ∨ s.F.length > A.maxFooter
    · rw [if_pos hc] at h'; cases h'
    rw [if_neg hc] at h' ⊢
    have hc' := fun h => hc (Or.inr h)
    cases hl : s.life with
    | noKey => rw [hl] at h'; cases h'
    | keyed k => rw [hl] at h'; cases h'
    | header k iv => exact ⟨k, rfl, hc'⟩
    | message k iv => exact ⟨k, rfl, hc'⟩
    | footer k iv => exact ⟨k, rfl, hc'⟩
  obtain ⟨k, e, hc⟩ := hk
  have e' : (Spec.step A s (.final n)).1 = { s with life := .keyed k } := e
  rw [e']
  rcases hop with ⟨x, rfl⟩ | ⟨x, rfl, hx⟩ | ⟨m, rfl, hm⟩
  · rfl
  · unfold Spec.step
    dsimp only
    rw [if_neg (fun h => hx (List.eq_nil_of_length_eq_zero h))]
  · unfold Spec.step Spec.finish
    dsimp only
    rw [if_neg (fun h => h.elim (fun h => absurd hm (Nat.not_le_of_gt h)) hc)]
    rfl

/-- C40. After an authentication code was produced, whatever came before, a call that enters text or a header, or asks for a code again, throws `BadState`: the initialisation vector is used up. -/
theorem used_up (ok : Hk.Ok A I Key Rep) (o : σ) (ops : List (Op κ)) (n : Nat) (t : List Byte) (op : Op κ) (hb : updated (ops ++ [.final n, op]) < 2 ^ 64)
    (h : (run Hk (fresh o) (ops ++ [.final n])).getLast? = some (.ok (.bytes t)))
    (hop : (∃ x, op = .process x) ∨ (∃ x, op = .update x ∧ x ≠ []) ∨ ∃ m, op = .final m ∧ m ≤ A.digestSize) :
    (run Hk (fresh o) (ops ++ [.final n, op])).getLast? = some (.error .badState) := by
  have hu : ∀ (a b : List (Op κ)), updated (a ++ b) = updated a + updated b := by
    intro a b
    induction a with
    | nil => simp [updated]
    | cons x a ih => cases x <;> simp only [List.cons_append, updated, ih]; omega
  have hb' : updated (ops ++ [.final n]) < 2 ^ 64 := by
    rw [hu] at hb ⊢
    have : updated [Op.final n, op] = updated [op] := rfl
    have : updated [(Op.final n : Op κ)] = 0 := rfl
    omega
  rw [history_exact ok o _ hb] 
  rw [history_exact ok o _ hb'] at h
  obtain ⟨s, hs⟩ := spec_run_append A ops Spec.init
  rw [hs] at h ⊢
  simp only [Spec.run, List.getLast?_append, List.getLast?_singleton, List.getLast?_cons_cons, Option.some_or, Option.some.injEq] at h ⊢
  exact spec_used_up A s n t op h hop

end Verif.Auth
