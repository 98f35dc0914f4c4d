import Verif.Gcm.Proofs
import Verif.Auth.Props

/-!
# C40 for GCM

For every block cipher with 16-byte blocks, both table sizes and byte orders. `gcm_history` is `Auth.history_exact`. `gcm_encrypt_exact` and `gcm_decrypt_exact`: the one-call functions are GCM-AE and GCM-AD of
SP 800-38D, with initialisation vectors of 12 bytes always, with others unless the first counter block ends in four bytes `ff`; then the code carries into the first twelve bytes, and `gcm_counter_wrap` shows that the
result differs from the standard. `gcm_round_trip` holds for all.
-/
namespace Verif.Gcm

open Verif.Auth

section
variable (order : ByteOrder) (large : Bool) (par : Nat)

/-- C40, every history of calls. -/
theorem gcm_history (hp : 0 < par) (forward : Bool) (o : Obj) (ops : List (Op Cipher)) (hb : updated ops < 2 ^ 64) :
    run (gcm order large par forward) (fresh o) ops = Auth.Spec.run (alg forward) Auth.Spec.init ops :=
  history_exact (gcm_ok order large par hp forward) o ops hb

theorem counterBlock_zero (c : List Byte) (hc : c.length = 16) : counterBlock c 0 = c := by
  have := beBytes_beVal (c.drop 12)
  rw [List.length_drop, hc] at this
  rw [counterBlock, Nat.add_zero, this, List.take_append_drop]

theorem inc32_counterBlock (c : List Byte) (hc : c.length = 16) (i : Nat) : Spec.inc32 (counterBlock c i) = counterBlock c (i + 1) := by
  unfold Spec.inc32 counterBlock
  have hl : (c.take 12).length = 12 := by rw [List.length_take, hc]; rfl
  rw [List.take_left' hl, List.drop_left' hl, beVal_beBytes, ← beBytes_mod 4, Nat.mod_add_mod, beBytes_mod, Nat.add_assoc]

/-- GCTR is the keystream. -/
theorem gctr_eq (E : List Byte → List Byte) (hE : ∀ b, b.length = 16 → (E b).length = 16) (c : List Byte) (hc : c.length = 16) :
    ∀ (n : Nat) (X : List Byte) (i : Nat), X.length ≤ n → Spec.gctrBlocks E (counterBlock c i) (chunks 16 X) = xorBytes X (load (keystream E c) (i * 16) X.length) := by
  intro n
  induction n with
  | zero =>
    intro X i h
    have : X = [] := List.eq_nil_of_length_eq_zero (by omega)
    subst this; rfl
  | succ n ih =>
    intro X i h
    by_cases hX : X = []
    · subst hX; rfl
    have hpos : 0 < X.length := List.length_pos_iff.2 hX
    rw [chunks_of_ne_nil 16 (by omega) X hX, Spec.gctrBlocks, inc32_counterBlock c hc, ih _ _ (by rw [List.length_drop]; omega)]
    have hblk : load (keystream E c) (i * 16) 16 = E (counterBlock c i) := by
      have h := Modes.load_byBlocks 16 (by omega) (fun k => E (counterBlock c k)) (fun k => hE _ (counterBlock_length c hc k)) i 1
      have e : Modes.blocksOf 1 (fun k => E (counterBlock c (i + k))) = E (counterBlock c i) := by simp [Modes.blocksOf]
      rw [e] at h
      exact h
    rw [← hblk, List.length_take, load_take _ _ _ _ (Nat.min_le_left _ _)]
    have hlen : X.length = min 16 X.length + (X.drop 16).length := by rw [List.length_drop]; omega
    have hs : xorBytes X (load (keystream E c) (i * 16) X.length) =
        xorBytes (X.take 16 ++ X.drop 16) (load (keystream E c) (i * 16) (min 16 X.length) ++ load (keystream E c) (i * 16 + min 16 X.length) (X.drop 16).length) := by
      rw [List.take_append_drop, ← load_add, ← hlen]
    rw [hs, xorBytes_append _ _ _ _ (by simp)]
    congr 1
    by_cases h16 : 16 ≤ X.length
    · rw [Nat.min_eq_left h16, Nat.succ_mul]
    · rw [List.drop_eq_nil_of_le (by omega)]; rfl

theorem gctr_load (k : Cipher) (c X : List Byte) (hc : c.length = 16) : Spec.gctr k.1 c X = xorBytes X (load (keystream k.1 c) 0 X.length) := by
  have := gctr_eq k.1 k.2 c hc X.length X 0 (Nat.le_refl _)
  rw [counterBlock_zero c hc, Nat.zero_mul] at this
  exact this

/-- Without a carry out of its last four bytes, the code's first counter is the standard's. -/
theorem first_counter (J : List Byte) (hJ : J.length = 16) (h : J.drop 12 ≠ [0xff, 0xff, 0xff, 0xff]) : beBytes 16 (beVal J + 1) = Spec.inc32 J := by
  unfold Spec.inc32
  have hl : (J.drop 12).length = 4 := by rw [List.length_drop, hJ]
  have hlt := beVal_lt (J.drop 12)
  rw [hl] at hlt
  have hne : beVal (J.drop 12) ≠ 256 ^ 4 - 1 := by
    intro e
    apply h
    have := beBytes_beVal (J.drop 12)
    rw [hl, e] at this
    rw [← this]; decide
  have hsplit : beVal J = beVal (J.take 12) * 256 ^ 4 + beVal (J.drop 12) := by
    have := beVal_append (J.take 12) (J.drop 12)
    rw [List.take_append_drop, hl] at this
    exact this
  have hp4 : (256 : Nat) ^ 4 = 4294967296 := by decide
  rw [show 16 = 12 + 4 from rfl, beBytes_append, hsplit]
  have e1 : (beVal (J.take 12) * 256 ^ 4 + beVal (J.drop 12) + 1) / 256 ^ 4 = beVal (J.take 12) := by rw [hp4] at hlt hne ⊢; omega
  have e2 : beBytes 4 (beVal (J.take 12) * 256 ^ 4 + beVal (J.drop 12) + 1) = beBytes 4 (beVal (J.drop 12) + 1) := by
    rw [← beBytes_mod 4 (beVal (J.take 12) * 256 ^ 4 + beVal (J.drop 12) + 1), Nat.add_assoc, Nat.mul_add_mod_self_right, beBytes_mod]
  have e3 : beBytes 12 (beVal (J.take 12)) = J.take 12 := by
    have := beBytes_beVal (J.take 12)
    rw [List.length_take, hJ] at this
    exact this
  rw [e1, e2, e3]

/-- A 12-byte initialisation vector never makes the counter wrap. -/
theorem no_wrap_12 (k : Cipher) (iv : List Byte) (h : iv.length = 12) : (Spec.J0 k.1 iv).drop 12 ≠ [0xff, 0xff, 0xff, 0xff] := by
  unfold Spec.J0
  rw [if_pos h, List.drop_left' h]
  decide

/-- C40: `EncryptAndAuthenticate` is GCM-AE. The object may have been used before. -/
theorem gcm_encrypt_exact (hp : 0 < par) (s : State Obj) (k : Cipher) (iv header text : List Byte) (n : Nat) (hiv : 1 ≤ iv.length ∧ iv.length < 2 ^ 31)
    (hw : (Spec.J0 k.1 iv).drop 12 ≠ [0xff, 0xff, 0xff, 0xff]) (hh : header.length ≤ 2 ^ 61 - 1) (hx : text.length ≤ (2 ^ 39 - 256) / 8) (hn : n ≤ 16) :
    (encryptAndAuthenticate (gcm order large par true) (setKey (gcm order large par true) s k none).1 iv header text n).2 = .ok (Spec.encrypt k.1 iv text header n) := by
  rw [encrypt_exact (gcm_ok order large par hp true) s k iv header text n (decide_eq_true hiv) hh (Nat.lt_of_le_of_lt hh (by decide)) hx hn]
  unfold Spec.encrypt authText
  simp only [alg, Bool.not_true, Bool.false_eq_true, if_false]
  rw [first_counter _ (J0_length k iv) hw, gctr_load k _ _ (by simp [Spec.inc32, J0_length])]

/-- C40: `DecryptAndVerify` is GCM-AD. -/
theorem gcm_decrypt_exact (hp : 0 < par) (s : State Obj) (k : Cipher) (iv header text mac : List Byte) (hiv : 1 ≤ iv.length ∧ iv.length < 2 ^ 31)
    (hw : (Spec.J0 k.1 iv).drop 12 ≠ [0xff, 0xff, 0xff, 0xff]) (hh : header.length ≤ 2 ^ 61 - 1) (hx : text.length ≤ (2 ^ 39 - 256) / 8) (hn : mac.length ≤ 16) :
    (decryptAndVerify (gcm order large par false) (setKey (gcm order large par false) s k none).1 iv header text mac).2 = .ok (Spec.decrypt k.1 iv text header mac) := by
  rw [decrypt_exact (gcm_ok order large par hp false) s k iv header text mac (decide_eq_true hiv) hh (Nat.lt_of_le_of_lt hh (by decide)) hx hn]
  unfold Spec.decrypt authText
  simp only [alg, Bool.not_false, if_true]
  rw [first_counter _ (J0_length k iv) hw, gctr_load k _ _ (by simp [Spec.inc32, J0_length])]

/-- C40: a header after text is accepted by `Update`, and then no authentication code can be had. -/
theorem gcm_late_header (hp : 0 < par) (forward : Bool) (o : Obj) (k : Cipher) (iv x h : List Byte) (n : Nat) (hiv : 1 ≤ iv.length ∧ iv.length < 2 ^ 31) (hx : x.length ≤ (2 ^ 39 - 256) / 8)
    (hh : h ≠ []) (hb : h.length < 2 ^ 64) :
    (run (gcm order large par forward) (fresh o) [.setKey k none, .resync iv, .process x, .update h, .final n]).drop 3 = [.ok .nothing, .error .invalidArgument] := by
  rw [gcm_history order large par hp forward o _ (by simpa [updated] using hb)]
  have h1 : (alg forward).ivOk iv.length = true := decide_eq_true hiv
  have h2 : ¬ (0 + x.length > (alg forward).maxMessage) := by rw [Nat.zero_add]; exact Nat.not_lt.2 hx
  have h3 : ¬ h.length = 0 := fun e => hh (List.eq_nil_of_length_eq_zero e)
  have h4 : ([] ++ h).length > (alg forward).maxFooter := Nat.pos_of_ne_zero h3
  simp only [Auth.Spec.run, Auth.Spec.step, Auth.Spec.begin, Auth.Spec.init, h1, if_true, if_neg h2, Auth.Spec.text, if_neg h3, Auth.Spec.finish, h4, or_true, Except.map, List.drop]

/-- C40, for every initialisation vector: what one object encrypts, in any pieces, another decrypts, in any other pieces, and finds authentic; the machines and the tables may differ. -/
theorem gcm_round_trip (order' : ByteOrder) (large' : Bool) (par' : Nat) (hp : 0 < par) (hp' : 0 < par') (o o' : Obj) (k : Cipher) (iv : List Byte) (hs xs hs' xs' : List (List Byte)) (n : Nat)
    (hiv : 1 ≤ iv.length ∧ iv.length < 2 ^ 31) (hh : hs.flatten.length ≤ 2 ^ 61 - 1) (hx : xs.flatten.length ≤ (2 ^ 39 - 256) / 8) (hn : n ≤ 16) (hhs : hs'.flatten = hs.flatten) :
    ∃ (cs : List (List Byte)) (mac : List Byte), run (gcm order large par true) (fresh o) (session k iv hs xs (.final n)) =
        [.ok .nothing, .ok .nothing] ++ hs.map (fun _ => .ok .nothing) ++ cs.map (fun c => .ok (.bytes c)) ++ [.ok (.bytes mac)] ∧ mac.length = n ∧
      (xs'.flatten = cs.flatten → ∃ ms : List (List Byte), run (gcm order' large' par' false) (fresh o') (session k iv hs' xs' (.verify mac)) =
        [.ok .nothing, .ok .nothing] ++ hs'.map (fun _ => .ok .nothing) ++ ms.map (fun m => .ok (.bytes m)) ++ [.ok (.bool true)] ∧ ms.flatten = xs.flatten) := by
  have hh2 : hs.flatten.length < 2 ^ 64 := Nat.lt_of_le_of_lt hh (by decide)
  let ks := (alg true).keystream k iv
  let c := xorBytes xs.flatten (load ks 0 xs.flatten.length)
  have hcl : c.length = xs.flatten.length := by simp [c]
  have hmac : (Spec.tag k.1 iv hs.flatten c n).length = n := by
    have hSl : (Spec.S k.1 hs.flatten c).length = 16 := by simp [Spec.S, Spec.ghash]
    rw [Spec.tag, List.length_take, gctr_load k _ _ (J0_length k iv), xorBytes_length, load_length, hSl]
    omega
  refine ⟨pieces ks 0 xs, Spec.tag k.1 iv hs.flatten c n, ?_, hmac, ?_⟩
  · exact session_exact (gcm_ok order large par hp true) o k iv hs xs (decide_eq_true hiv) hh hh2 hx (.final n) _ rfl _ (Or.inl ⟨n, hn, rfl, rfl⟩)
  · intro he
    rw [pieces_flatten] at he
    refine ⟨pieces ks 0 xs', ?_, ?_⟩
    · have hlen : xs'.flatten.length ≤ (2 ^ 39 - 256) / 8 := by rw [he]; exact Nat.le_trans (Nat.le_of_eq hcl) hx
      rw [session_exact (gcm_ok order' large' par' hp' false) o' k iv hs' xs' (decide_eq_true hiv) (by rw [hhs]; exact hh) (by rw [hhs]; exact hh2) hlen
        (.verify (Spec.tag k.1 iv hs.flatten c n)) _ rfl _ (Or.inr ⟨_, by rw [hmac]; exact hn, rfl, rfl⟩)]
      have ht : (alg false).tag k iv hs'.flatten (authText (alg false) k iv 0 xs'.flatten) [] (Spec.tag k.1 iv hs.flatten c n).length = Spec.tag k.1 iv hs.flatten c n := by
        rw [hmac, hhs, authText]
        simp only [alg, Bool.not_false, if_true]
        rw [he]
      rw [ht]
      simp only [beq_self_eq_true]
      rfl
    · rw [pieces_flatten, he]
      have : (xorBytes xs.flatten (load ks 0 xs.flatten.length)).length = xs.flatten.length := hcl
      rw [this]
      exact xorBytes_cancel _ _ (by simp)

end

/-- A cipher for examples: it adds 1 to the first bit, so the hash subkey is the one of the field. -/
def flip : Cipher := ⟨fun b => match b with
  | [] => []
  | x :: t => (x ^^^ 0x80) :: t, by intro b hb; cases b with
    | nil => exact hb
    | cons x t => exact hb⟩

/-- The code differs from SP 800-38D: with this 16-byte initialisation vector the first counter block ends in `ffffffff`, and the code's next counter has a carry in its twelfth byte. -/
theorem gcm_counter_wrap : ∃ (k : Cipher) (iv : List Byte), iv.length = 16 ∧ ∀ (order : ByteOrder) (large : Bool) (par : Nat) (s : State Obj), 0 < par →
    (encryptAndAuthenticate (gcm order large par true) (setKey (gcm order large par true) s k none).1 iv [] (List.replicate 16 0) 16).2 ≠ .ok (Spec.encrypt k.1 iv (List.replicate 16 0) [] 16) := by
  refine ⟨flip, List.replicate 12 0 ++ [0xff, 0xff, 0xff, 0x7f], rfl, ?_⟩
  intro order large par s hp
  rw [encrypt_exact (gcm_ok order large par hp true) s flip _ [] (List.replicate 16 0) 16 (by decide) (by decide) (by decide) (by decide) (by decide)]
  intro h
  have h' := congrArg (fun r => match r with | Except.ok (a : List Byte × List Byte) => a.1.getD 11 0 | Except.error _ => 0) h
  revert h'
  simp only [Spec.encrypt, alg]
  decide +kernel

/-- The hypotheses of the exactness theorems hold for a 13-byte initialisation vector too. -/
example : (Spec.J0 flip.1 [1, 2, 3, 4, 5, 6, 7, 8, 9, 10, 11, 12, 13]).drop 12 ≠ [0xff, 0xff, 0xff, 0xff] := by decide +kernel

example (s : State Obj) : (encryptAndAuthenticate (gcm .little false 8 true) (setKey (gcm .little false 8 true) s flip none).1 [1, 2, 3, 4, 5, 6, 7, 8, 9, 10, 11, 12] [0xaa] [1, 2, 3] 4).2 =
    .ok (Spec.encrypt flip.1 [1, 2, 3, 4, 5, 6, 7, 8, 9, 10, 11, 12] [1, 2, 3] [0xaa] 4) :=
  gcm_encrypt_exact .little false 8 (by decide) s flip _ _ _ 4 (by decide) (no_wrap_12 flip _ rfl) (by decide) (by decide) (by decide)

/-- The result is not constant. -/
example : (Spec.encrypt flip.1 [1, 2, 3, 4, 5, 6, 7, 8, 9, 10, 11, 12] [1, 2, 3] [0xaa] 4).1 = [0x80, 0, 0] := by decide +kernel

end Verif.Gcm
