import Verif.Eax.Proofs

/-!
# C63: EAX

`eax_history`: every result of every history of calls is that of EAX, if no message is given up, that is, if `Resynchronize` is called only right after a key was set or after the last message was finished by
`TruncatedFinal` or `TruncatedVerify`. `eax_abandon_defect`: without that condition it is false of the code.
-/
namespace Verif.Eax

open Verif.Auth (Op Out updated session pieces pieces_flatten authText)

section
variable {κ : Type} (A : Auth.Spec.Alg κ)

/-- Whether a message is open after a call that returned `r`. -/
def opened (was : Bool) : Op κ → Except Err Out → Bool
  | .setKey _ none, _ => false
  | .setKey _ (some _), .ok _ => true
  | .setKey _ (some _), .error _ => false
  | .resync _, .ok _ => true
  | .final _, .ok _ => false
  | .verify _, .ok _ => false
  | _, _ => was

/-- No message is given up by `Resynchronize`. -/
def Tidy (t : Auth.Spec.St κ) (o : Bool) : List (Op κ) → Prop
  | [] => True
  | op :: ops => (∀ iv, op = .resync iv → o = false) ∧ Tidy (Auth.Spec.step A t op).1 (opened o op (Auth.Spec.step A t op).2) ops

end

section
variable {b par : Nat}

theorem clean_idem (s : Cmac.St) : clean b (clean b s) = clean b s := rfl

theorem cmacFinal_clean (s s' : Cmac.St) (n : Nat) (d : List Byte) (h : Cmac.truncatedFinal b s n = .ok (s', d)) : clean b s' = s' := by
  unfold Cmac.truncatedFinal at h
  split at h
  · cases h
  · generalize (if s.counter < b then _ else _ : Except Err (List Byte)) = r at h
    cases r with
    | error e => cases h
    | ok a => injection h with h; injection h with h _; rw [← h]; rfl

def Idle (b : Nat) (s : Auth.State Obj) (o : Bool) : Prop := o = false → s.phase = .start ∨ (s.phase = .keySet ∧ clean b s.o.mac = s.o.mac)

theorem resync_same (fwd : Bool) (s : Auth.State Obj) (iv : List Byte) (h : s.phase = .start ∨ clean b s.o.mac = s.o.mac) :
    Auth.resynchronize (eax b par fwd) s iv = Auth.resynchronize (mended b par fwd) s iv := by
  unfold Auth.resynchronize
  rcases h with h | h
  · rw [if_pos h, if_pos h]
  · have : (mended b par fwd).resync s.o iv = (eax b par fwd).resync s.o iv := by
      show ({ s.o with mac := clean b s.o.mac } : Obj).resync b par iv = s.o.resync b par iv
      rw [h]
    dsimp only
    rw [this]
    rfl

theorem finalFooter_clean (fwd : Bool) (s s' : Auth.State Obj) (n : Nat) (m : List Byte) (h : Auth.finalFooter (eax b par fwd) s n = (s', .ok m)) :
    s'.phase = .keySet ∧ clean b s'.o.mac = s'.o.mac := by
  unfold Auth.finalFooter at h
  cases e : (eax b par fwd).lastFooter s.o s.pending n with
  | error x => rw [e] at h; cases h
  | ok r =>
    rw [e] at h
    obtain ⟨o, mac⟩ := r
    injection h with h _
    rw [← h]
    refine ⟨rfl, ?_⟩
    replace e : s.o.lastFooter b n = .ok (o, mac) := e
    unfold Obj.lastFooter at e
    cases e2 : Cmac.truncatedFinal b s.o.mac n with
    | error x => rw [e2] at e; cases e
    | ok r =>
      obtain ⟨mc, d⟩ := r
      rw [e2] at e
      injection e with e
      injection e with e _
      rw [← e]
      exact cmacFinal_clean _ _ _ _ e2

theorem finalMessage_clean (fwd : Bool) (s s' : Auth.State Obj) (n : Nat) (m : List Byte) (h : Auth.finalMessage (eax b par fwd) s n = (s', .ok m)) :
    s'.phase = .keySet ∧ clean b s'.o.mac = s'.o.mac := finalFooter_clean fwd _ s' n m h

theorem final_clean (fwd : Bool) (s s' : Auth.State Obj) (n : Nat) (m : List Byte) (h : Auth.truncatedFinal (eax b par fwd) s n = (s', .ok m)) :
    s'.phase = .keySet ∧ clean b s'.o.mac = s'.o.mac := by
  unfold Auth.truncatedFinal at h
  split at h
  · cases h
  split at h
  · cases h
  split at h
  · cases h
  split at h
  · cases h
  · cases h
  · split at h
    · cases h
    · exact finalMessage_clean fwd _ s' n m h
  · exact finalMessage_clean fwd _ s' n m h
  · exact finalMessage_clean fwd _ s' n m h
  · exact finalFooter_clean fwd _ s' n m h

theorem setKey_clean (s : Obj) (k : Cipher b) : clean b (s.setKey b k).mac = (s.setKey b k).mac := rfl

theorem step_same (fwd : Bool) (s : Auth.State Obj) (o : Bool) (op : Op (Cipher b)) (hi : Idle b s o) (ht : ∀ iv, op = .resync iv → o = false) :
    Auth.step (eax b par fwd) s op = Auth.step (mended b par fwd) s op := by
  cases op with
  | setKey k iv =>
    cases iv with
    | none => rfl
    | some iv =>
      have : Auth.setKey (eax b par fwd) s k (some iv) = Auth.setKey (mended b par fwd) s k (some iv) := by
        unfold Auth.setKey
        dsimp only
        rw [resync_same fwd _ iv (.inr (setKey_clean s.o k))]
        rfl
      unfold Auth.step
      dsimp only
      rw [this]
  | resync iv =>
    have : Auth.resynchronize (eax b par fwd) s iv = Auth.resynchronize (mended b par fwd) s iv := by
      refine resync_same fwd s iv ?_
      rcases hi (ht iv rfl) with h | h
      · exact .inl h
      · exact .inr h.2
    unfold Auth.step
    dsimp only
    rw [this]
  | restart => rfl
  | update x => rfl
  | process x => rfl
  | final n => rfl
  | verify mac => rfl

theorem step_idle (fwd : Bool) (s : Auth.State Obj) (o : Bool) (op : Op (Cipher b)) (hi : Idle b s o) (ht : ∀ iv, op = .resync iv → o = false)
    (hp : ∀ x, op = .process x → (s.phase = .start ∨ s.phase = .keySet) → (Auth.step (eax b par fwd) s op).1.o = s.o ∧ (Auth.step (eax b par fwd) s op).1.phase = s.phase) :
    Idle b (Auth.step (eax b par fwd) s op).1 (opened o op (Auth.step (eax b par fwd) s op).2) := by
  cases op with
  | setKey k iv =>
    cases iv with
    | none => intro _; exact .inr ⟨rfl, setKey_clean s.o k⟩
    | some iv =>
      intro h
      unfold Auth.step Auth.setKey at h ⊢
      dsimp only at h ⊢
      by_cases hiv : (eax b par fwd).ivOk iv.length = true
      · rw [if_pos hiv] at h ⊢
        unfold Auth.resynchronize at h ⊢
        rw [if_neg (show ¬ Auth.Phase.keySet = Auth.Phase.start by decide)] at h ⊢
        dsimp only at h ⊢
        rw [if_pos hiv] at h ⊢
        split at h
        · exact .inr ⟨rfl, setKey_clean s.o k⟩
        · cases h
      · rw [if_neg hiv] at h ⊢
        exact .inr ⟨rfl, setKey_clean s.o k⟩
  | resync iv =>
    intro h
    have h0 := hi (ht iv rfl)
    unfold Auth.step Auth.resynchronize at h ⊢
    dsimp only at h ⊢
    by_cases hs : s.phase = .start
    · rw [if_pos hs]; exact .inl hs
    · rw [if_neg hs] at h ⊢
      by_cases hiv : (eax b par fwd).ivOk iv.length = true
      · rw [if_pos hiv] at h ⊢
        split at h
        · exact .inr ⟨rfl, (h0.resolve_left hs).2⟩
        · cases h
      · rw [if_neg hiv]
        exact .inr ⟨rfl, (h0.resolve_left hs).2⟩
  | restart =>
    intro h
    rcases hi h with h | ⟨h, h2⟩
    · left; show (Auth.restart s).phase = _; unfold Auth.restart; rw [h]; exact h
    · right; show (Auth.restart s).phase = _ ∧ _; unfold Auth.step Auth.restart; rw [h]; exact ⟨h, h2⟩
  | update x =>
    intro h
    have h0 := hi h
    unfold Auth.step Auth.update
    dsimp only
    by_cases hx : x.length = 0
    · rw [if_pos hx]; exact h0
    · rw [if_neg hx]
      rcases h0 with h | ⟨h, h2⟩
      · rw [h]; exact .inl h
      · rw [h]; exact .inr ⟨h, h2⟩
  | process x =>
    intro h
    have h0 := hi h
    have := hp x rfl (h0.imp id And.left)
    unfold Idle at hi
    rw [this.1, this.2]
    exact h0
  | final n =>
    intro h
    unfold Auth.step at h ⊢
    dsimp only at h ⊢
    rcases e : Auth.truncatedFinal (eax b par fwd) s n with ⟨s', _ | m⟩
    · rw [e] at h
      have h0 := hi h
      have : s' = s := by
        unfold Auth.truncatedFinal at e
        split at e
        · injection e with e; exact e.symm
        split at e
        · injection e with e; exact e.symm
        split at e
        · injection e with e; exact e.symm
        rcases h0 with h | ⟨h, _⟩ <;> rw [h] at e <;> (injection e with e; exact e.symm)
      rw [this]; exact h0
    · exact .inr (final_clean fwd s s' n m e)
  | verify mac =>
    intro h
    unfold Auth.step at h ⊢
    dsimp only at h ⊢
    unfold Auth.truncatedVerify at h ⊢
    by_cases hm : mac.length > (eax b par fwd).digestSize
    · rw [if_pos hm] at h ⊢; exact hi h
    rw [if_neg hm] at h ⊢
    rcases e : Auth.truncatedFinal (eax b par fwd) s mac.length with ⟨s', _ | m⟩
    · rw [e] at h
      have h0 := hi h
      have : s' = s := by
        unfold Auth.truncatedFinal at e
        split at e
        · injection e with e; exact e.symm
        split at e
        · injection e with e; exact e.symm
        split at e
        · injection e with e; exact e.symm
        rcases h0 with h | ⟨h, _⟩ <;> rw [h] at e <;> (injection e with e; exact e.symm)
      rw [this]; exact h0
    · exact .inr (final_clean fwd s s' _ m e)

theorem process_idle (fwd : Bool) (s : Auth.State Obj) (x : List Byte) (h : s.phase = .start ∨ s.phase = .keySet) :
    (Auth.step (eax b par fwd) s (.process x : Op (Cipher b))).1.o = s.o ∧ (Auth.step (eax b par fwd) s (.process x : Op (Cipher b))).1.phase = s.phase := by
  unfold Auth.step Auth.processData
  dsimp only
  rw [if_neg (fun hh => h.elim (fun e => hh.1.1 e) (fun e => hh.1.2 e))]
  rcases h with h | h <;> rw [h] <;> exact ⟨rfl, rfl⟩

theorem run_same (hw : Cmac.Width b) (hb : 0 < b) (hp : 0 < par) (fwd : Bool) (ops : List (Op (Cipher b))) : ∀ (s : Auth.State Obj) (t : Auth.Spec.St (Cipher b)) (o : Bool),
    t.H.length + t.F.length + updated ops < 2 ^ 64 → Auth.Sim (mended b par fwd) (impl b) (Key b) (GRep b par hb) s t → Idle b s o → Tidy (alg b fwd) t o ops →
    Auth.run (eax b par fwd) s ops = Auth.Spec.run (alg b fwd) t ops := by
  induction ops with
  | nil => intro s t o _ _ _ _; rfl
  | cons op ops ih =>
    intro s t o hl hs hi ht
    have ok := mended_ok (par := par) hw hb hp fwd
    have hu : updated (op :: ops) = updated [op] + updated ops := by cases op <;> simp [updated]
    obtain ⟨e1, e2⟩ := Auth.step_sim ok s t op (by omega) hs
    have hent := Auth.step_entered ok t op
    have hsame := step_same (par := par) fwd s o op hi ht.1
    have hid := step_idle (par := par) fwd s o op hi ht.1 (fun x hx h => by subst hx; exact process_idle fwd s x h)
    unfold Auth.run Auth.Spec.run
    rw [hsame] at hid ⊢
    rw [e1] at hid ⊢
    rw [ih _ _ _ (by omega) e2 hid ht.2]

/-- C63, part: histories in which no message is given up. A block cipher of 8, 16, 32, 64 or 128 bytes; any number of parallel blocks. -/
theorem eax_history_partial (hw : Cmac.Width b) (hp : 0 < par) (fwd : Bool) (o : Obj) (ops : List (Op (Cipher b))) (hl : updated ops < 2 ^ 64)
    (ht : Tidy (alg b fwd) Auth.Spec.init false ops) : Auth.run (eax b par fwd) (Auth.fresh o) ops = Auth.Spec.run (alg b fwd) Auth.Spec.init ops :=
  run_same hw (by unfold Cmac.Width at hw; omega) hp fwd ops _ _ false (by simpa [Auth.Spec.init] using hl) (Auth.fresh_sim o) (fun _ => .inl rfl) ht

theorem encrypt_same (fwd : Bool) (s : Auth.State Obj) (iv aad text : List Byte) (n : Nat) (h : clean b s.o.mac = s.o.mac) :
    Auth.encryptAndAuthenticate (eax b par fwd) s iv aad text n = Auth.encryptAndAuthenticate (mended b par fwd) s iv aad text n := by
  unfold Auth.encryptAndAuthenticate
  rw [resync_same fwd s iv (.inr h)]
  rfl

theorem decrypt_same (fwd : Bool) (s : Auth.State Obj) (iv aad text mac : List Byte) (h : clean b s.o.mac = s.o.mac) :
    Auth.decryptAndVerify (eax b par fwd) s iv aad text mac = Auth.decryptAndVerify (mended b par fwd) s iv aad text mac := by
  unfold Auth.decryptAndVerify
  rw [resync_same fwd s iv (.inr h)]
  rfl

/-- C63: `EncryptAndAuthenticate` after `SetKey` is EAX encryption, whatever the object was used for before. -/
theorem eax_encrypt (hw : Cmac.Width b) (hp : 0 < par) (s : Auth.State Obj) (k : Cipher b) (iv aad text : List Byte) (n : Nat) (hiv : iv.length < 2 ^ 31) (hh : aad.length < 2 ^ 64)
    (hx : text.length < 2 ^ 64) (hn : n ≤ b) :
    (Auth.encryptAndAuthenticate (eax b par true) (Auth.setKey (eax b par true) s k none).1 iv aad text n).2 = .ok (Spec.encrypt k.1 b iv aad text n) := by
  rw [encrypt_same true _ iv aad text n (setKey_clean s.o k)]
  exact Auth.encrypt_exact (mended_ok hw (by unfold Cmac.Width at hw; omega) hp true) s k iv aad text n (decide_eq_true hiv) (show aad.length ≤ 2 ^ 64 - 1 by omega) hh
    (show text.length ≤ 2 ^ 64 - 1 by omega) hn

/-- C63: `DecryptAndVerify` after `SetKey` is EAX decryption. -/
theorem eax_decrypt (hw : Cmac.Width b) (hp : 0 < par) (s : Auth.State Obj) (k : Cipher b) (iv aad text mac : List Byte) (hiv : iv.length < 2 ^ 31) (hh : aad.length < 2 ^ 64)
    (hx : text.length < 2 ^ 64) (hn : mac.length ≤ b) :
    (Auth.decryptAndVerify (eax b par false) (Auth.setKey (eax b par false) s k none).1 iv aad text mac).2 = .ok (Spec.decrypt k.1 b iv aad text mac) := by
  rw [decrypt_same false _ iv aad text mac (setKey_clean s.o k)]
  exact Auth.decrypt_exact (mended_ok hw (by unfold Cmac.Width at hw; omega) hp false) s k iv aad text mac (decide_eq_true hiv) (show aad.length ≤ 2 ^ 64 - 1 by omega) hh
    (show text.length ≤ 2 ^ 64 - 1 by omega) hn

theorem tidy_of_no_resync (A : Auth.Spec.Alg (Cipher b)) : ∀ (ops : List (Op (Cipher b))) (t : Auth.Spec.St (Cipher b)) (o : Bool), (∀ op ∈ ops, ∀ iv, op ≠ .resync iv) → Tidy A t o ops := by
  intro ops
  induction ops with
  | nil => intro _ _ _; trivial
  | cons op ops ih => intro t o h; exact ⟨fun iv e => absurd e (h op (by simp) iv), ih _ _ (fun op' h' => h op' (by simp [h']))⟩

theorem session_same (hw : Cmac.Width b) (hb : 0 < b) (hp : 0 < par) (fwd : Bool) (o : Obj) (k : Cipher b) (iv : List Byte) (hs xs : List (List Byte)) (last : Op (Cipher b))
    (hl : updated (session k iv hs xs last) < 2 ^ 64) (hlast : ∀ v, last ≠ .resync v) :
    Auth.run (eax b par fwd) (Auth.fresh o) (session k iv hs xs last) = Auth.run (mended b par fwd) (Auth.fresh o) (session k iv hs xs last) := by
  rw [eax_history_partial hw hp fwd o _ hl, Auth.history_exact (mended_ok hw hb hp fwd) o _ hl]
  refine ⟨fun _ e => (by cases e), fun _ _ => rfl, tidy_of_no_resync _ _ _ _ ?_⟩
  intro op hop v hv
  subst hv
  simp only [List.mem_append, List.mem_map, List.mem_singleton] at hop
  rcases hop with ⟨_, _, h⟩ | ⟨_, _, h⟩ | h
  · cases h
  · cases h
  · exact hlast v h.symm

/-- C63: what one object encrypts, in any pieces, another decrypts, in any other pieces, and finds authentic. -/
theorem eax_round_trip (hw : Cmac.Width b) (par par' : Nat) (hp : 0 < par) (hp' : 0 < par') (o o' : Obj) (k : Cipher b) (iv : List Byte) (hs xs hs' xs' : List (List Byte)) (n : Nat) (hiv : iv.length < 2 ^ 31)
    (hh : hs.flatten.length < 2 ^ 64) (hx : xs.flatten.length < 2 ^ 64) (hn : n ≤ b) (hhs : hs'.flatten = hs.flatten) :
    ∃ (cs : List (List Byte)) (mac : List Byte), Auth.run (eax b par true) (Auth.fresh o) (session k iv hs xs (.final n)) =
        [.ok .nothing, .ok .nothing] ++ hs.map (fun _ => .ok .nothing) ++ cs.map (fun c => .ok (.bytes c)) ++ [.ok (.bytes mac)] ∧ (cs.flatten, mac) = Spec.encrypt k.1 b iv hs.flatten xs.flatten n ∧
      (xs'.flatten = cs.flatten → ∃ ms : List (List Byte), Auth.run (eax b par' false) (Auth.fresh o') (session k iv hs' xs' (.verify mac)) =
        [.ok .nothing, .ok .nothing] ++ hs'.map (fun _ => .ok .nothing) ++ ms.map (fun m => .ok (.bytes m)) ++ [.ok (.bool true)] ∧ ms.flatten = xs.flatten) := by
  have hb : 0 < b := by unfold Cmac.Width at hw; omega
  have hupd : ∀ (hs : List (List Byte)) (ops : List (Op (Cipher b))), updated (hs.map .update ++ ops) = hs.flatten.length + updated ops := by
    intro hs ops
    induction hs with
    | nil => simp
    | cons h hs ih => rw [List.map_cons, List.cons_append, updated, ih, List.flatten_cons, List.length_append, Nat.add_assoc]
  have hpro : ∀ (xs : List (List Byte)) (ops : List (Op (Cipher b))), updated (xs.map .process ++ ops) = updated ops := by
    intro xs ops
    induction xs with
    | nil => simp
    | cons h hs ih => exact ih
  have hlen : ∀ (hs xs : List (List Byte)) (last : Op (Cipher b)), updated (session k iv hs xs last) = hs.flatten.length + updated [last] := by
    intro hs xs last
    show updated (hs.map .update ++ (xs.map .process ++ [last])) = _
    rw [hupd, hpro]
  let ks := (alg b true).keystream k iv
  let c := xorBytes xs.flatten (load ks 0 xs.flatten.length)
  let T := Spec.tag k.1 b iv hs.flatten c n
  have hcl : c.length = xs.flatten.length := by simp [c]
  have hmac : T.length = n := by
    simp only [T, Spec.tag, List.length_take, xorBytes_length, omac_length b k hb]; omega
  refine ⟨pieces ks 0 xs, T, ?_, ?_, ?_⟩
  · rw [session_same hw hb hp true o k iv hs xs (.final n) (by rw [hlen]; simpa [updated] using hh) (fun v e => by cases e)]
    exact Auth.session_exact (mended_ok hw hb hp true) o k iv hs xs (decide_eq_true hiv) (show _ ≤ 2 ^ 64 - 1 by omega) hh (show _ ≤ 2 ^ 64 - 1 by omega) (.final n) _ rfl _ (Or.inl ⟨n, hn, rfl, rfl⟩)
  · rw [pieces_flatten]; rfl
  · intro he
    rw [pieces_flatten] at he
    refine ⟨pieces ks 0 xs', ?_, ?_⟩
    · have hlx : xs'.flatten.length ≤ 2 ^ 64 - 1 := by rw [he]; have : c.length ≤ 2 ^ 64 - 1 := by omega
                                                       exact this
      rw [session_same hw hb hp' false o' k iv hs' xs' (.verify T) (by rw [hlen, hhs]; simpa [updated] using hh) (fun v e => by cases e),
        Auth.session_exact (mended_ok hw hb hp' false) o' k iv hs' xs' (decide_eq_true hiv) (show _ ≤ 2 ^ 64 - 1 by rw [hhs]; omega) (by rw [hhs]; exact hh) hlx
        (.verify T) _ rfl _ (Or.inr ⟨_, by rw [hmac]; exact hn, rfl, rfl⟩)]
      have ht : (alg b false).tag k iv hs'.flatten (authText (alg b false) k iv 0 xs'.flatten) [] T.length = T := by
        rw [hmac, hhs, authText]
        simp only [alg, Bool.not_false, if_true]
        rw [he]
      rw [ht]
      simp only [beq_self_eq_true]
      rfl
    · rw [pieces_flatten, he]
      have : (xorBytes xs.flatten (load ks 0 xs.flatten.length)).length = xs.flatten.length := hcl
      rw [this]
      exact Verif.xorBytes_cancel _ _ (by simp)

end

/-! ## Hypotheses that hold, and the defect -/

/-- A permutation of 8-byte blocks. -/
def toy : Cipher 8 := ⟨fun x => (x.drop 1 ++ x.take 1).map (· * 5 + 0x3b), by intro x h; simp; omega⟩

def someObj : Obj := ⟨⟨id, [], [], [], 0⟩, [], ⟨⟨[], []⟩, [], 0⟩, fun _ => 0⟩

/-- Two messages with one key, the second after the first is finished. -/
def tidyOps : List (Op (Cipher 8)) :=
  [.setKey toy (some [1, 2, 3]), .update [4, 5], .process [6, 7, 8, 9, 10, 11, 12, 13, 14], .final 8, .resync [9], .restart, .process [1], .setKey toy none, .resync [7], .process [1, 2, 3], .verify [0]]

example : Auth.run (eax 8 4 true) (Auth.fresh someObj) tidyOps = Auth.Spec.run (alg 8 true) Auth.Spec.init tidyOps :=
  eax_history_partial (.inl rfl) (by decide) true someObj tidyOps (by decide) (by
    refine ⟨?_, ?_, ?_, ?_, ?_, ?_, ?_, ?_, ?_, ?_, ?_, trivial⟩ <;> intro iv h <;> first | (cases h; done) | rfl)

example : (Auth.encryptAndAuthenticate (eax 8 1 true) (Auth.setKey (eax 8 1 true) (Auth.fresh someObj) toy none).1 [1, 2] [3] [4, 5, 6] 8).2 = .ok (Spec.encrypt toy.1 8 [1, 2] [3] [4, 5, 6] 8) :=
  eax_encrypt (.inl rfl) (by decide) _ toy _ _ _ 8 (by decide) (by decide) (by decide) (by decide)

/-- C63 is false of histories that give a message up: after `Resynchronize`, the next one gets another ciphertext and another code than those of EAX. -/
theorem eax_abandon_defect : ∃ (iv x c mac : List Byte),
    Auth.run (eax 8 1 true) (Auth.fresh someObj) [.setKey toy (some [1]), .update [2], .resync iv, .process x, .final 8] =
      [.ok .nothing, .ok .nothing, .ok .nothing, .ok (.bytes c), .ok (.bytes mac)] ∧
    Auth.Spec.run (alg 8 true) Auth.Spec.init [.setKey toy (some [1]), .update [2], .resync iv, .process x, .final 8] =
      [.ok .nothing, .ok .nothing, .ok .nothing, .ok (.bytes (Spec.encrypt toy.1 8 iv [] x 8).1), .ok (.bytes (Spec.encrypt toy.1 8 iv [] x 8).2)] ∧
    (Spec.encrypt toy.1 8 iv [] x 8).1 ≠ c ∧ (Spec.encrypt toy.1 8 iv [] x 8).2 ≠ mac := by
  refine ⟨[3], [4, 5], [196, 69], [96, 230, 230, 230, 201, 0, 95, 18], ?_, ?_, ?_, ?_⟩ <;> decide +kernel

end Verif.Eax
