import Verif.Buf.Model

/-! # Buffer utilities: proofs -/
namespace Verif.Buf

/-- The output does not start inside a source that is still to be read: it begins at or before it, or after its end. -/
def Apart (out src n : Nat) : Prop := out ≤ src ∨ src + n ≤ out

/-- The first `k` bytes have been done. -/
def Done (m : Mem) (out inp mask k : Nat) : Mem := store m out (xorBytes (load m inp k) (load m mask k))

theorem Done_zero (m : Mem) (out inp mask : Nat) : Done m out inp mask 0 = m := by simp [Done, xorBytes, store_nil]

theorem Done_add (m : Mem) (out inp mask a b : Nat) (h1 : Apart out inp (a + b)) (h2 : Apart out mask (a + b)) :
    Done (Done m out inp mask a) (out + a) (inp + a) (mask + a) b = Done m out inp mask (a + b) := by
  unfold Done
  unfold Apart at h1 h2
  rw [load_store_disj _ _ _ _ _ (by simp; omega), load_store_disj _ _ _ _ _ (by simp; omega), load_add, load_add, xorBytes_append _ _ _ _ (by simp), store_append]
  simp

/-- What a stride loop leaves: some `k` bytes done and the pointers moved on. -/
theorem strideLoop_spec (o : ByteOrder) (w f : Nat) (a : Args) (h1 : Apart a.out a.inp a.count) (h2 : Apart a.out a.mask a.count) :
    ∃ k, k ≤ a.count ∧ strideLoop o w f a = ⟨Done a.mem a.out a.inp a.mask k, a.out + k, a.inp + k, a.mask + k, a.count - k⟩ := by
  induction f generalizing a with
  | zero => exact ⟨0, by omega, by rw [Done_zero]; rfl⟩
  | succ f ih =>
    simp only [strideLoop]
    split
    · rename_i hw
      have e : store a.mem a.out (o.bytes w (o.val (load a.mem a.inp w) ^^^ o.val (load a.mem a.mask w))) = Done a.mem a.out a.inp a.mask w := by
        rw [ByteOrder.bytes_xor_val o w _ _ (by simp) (by simp)]; rfl
      rw [e]
      obtain ⟨k, hk, ek⟩ := ih ⟨Done a.mem a.out a.inp a.mask w, a.out + w, a.inp + w, a.mask + w, a.count - w⟩
        (by unfold Apart at h1 ⊢; simp only; omega) (by unfold Apart at h2 ⊢; simp only; omega)
      simp only at hk ek
      refine ⟨w + k, by omega, ?_⟩
      rw [ek, Done_add _ _ _ _ _ _ (by unfold Apart at h1 ⊢; omega) (by unfold Apart at h2 ⊢; omega)]
      simp only [Nat.add_assoc, Nat.sub_sub]
    · exact ⟨0, by omega, by rw [Done_zero]; rfl⟩

theorem byteLoop_spec (a : Args) (n i : Nat) (m : Mem) (h1 : Apart (a.out + i) (a.inp + i) n) (h2 : Apart (a.out + i) (a.mask + i) n) :
    byteLoop a n i m = Done m (a.out + i) (a.inp + i) (a.mask + i) n := by
  induction n generalizing i m with
  | zero => rw [Done_zero]; rfl
  | succ n ih =>
    have e : store m (a.out + i) [m (a.inp + i) ^^^ m (a.mask + i)] = Done m (a.out + i) (a.inp + i) (a.mask + i) 1 := by
      simp [Done, load, xorBytes]
    simp only [byteLoop]
    rw [e, ih (i + 1) _ (by unfold Apart at h1 ⊢; omega) (by unfold Apart at h2 ⊢; omega)]
    have := Done_add m (a.out + i) (a.inp + i) (a.mask + i) 1 n (by unfold Apart at h1 ⊢; omega) (by unfold Apart at h2 ⊢; omega)
    rw [Nat.add_comm n 1]
    exact this

theorem wide_spec (o : ByteOrder) (wide : List Nat) (a : Args) (h1 : Apart a.out a.inp a.count) (h2 : Apart a.out a.mask a.count) :
    ∃ k, k ≤ a.count ∧ wide.foldl (fun a w => strideLoop o w a.count a) a = ⟨Done a.mem a.out a.inp a.mask k, a.out + k, a.inp + k, a.mask + k, a.count - k⟩ := by
  induction wide generalizing a with
  | nil => exact ⟨0, by omega, by rw [Done_zero]; rfl⟩
  | cons w wide ih =>
    obtain ⟨k, hk, e⟩ := strideLoop_spec o w a.count a h1 h2
    rw [List.foldl_cons, e]
    obtain ⟨j, hj, e'⟩ := ih ⟨Done a.mem a.out a.inp a.mask k, a.out + k, a.inp + k, a.mask + k, a.count - k⟩
      (by unfold Apart at h1 ⊢; simp only; omega) (by unfold Apart at h2 ⊢; simp only; omega)
    simp only at hj e'
    refine ⟨k + j, by omega, ?_⟩
    rw [e', Done_add _ _ _ _ _ _ (by unfold Apart at h1 ⊢; omega) (by unfold Apart at h2 ⊢; omega)]
    simp only [Nat.add_assoc, Nat.sub_sub]

theorem xorbuf3_spec (o : ByteOrder) (wide : List Nat) (m : Mem) (out inp mask count : Nat) (h1 : Apart out inp count) (h2 : Apart out mask count) :
    xorbuf3 o wide m out inp mask count = Done m out inp mask count := by
  unfold xorbuf3
  obtain ⟨k, hk, e⟩ := wide_spec o wide ⟨m, out, inp, mask, count⟩ h1 h2
  simp only at hk e
  simp only [e]
  split
  · rename_i hc
    have : k = count := by omega
    rw [this]
  · obtain ⟨j, hj, e'⟩ := strideLoop_spec o 4 (count - k) ⟨Done m out inp mask k, out + k, inp + k, mask + k, count - k⟩
      (by unfold Apart at h1 ⊢; simp only; omega) (by unfold Apart at h2 ⊢; simp only; omega)
    simp only at hj e'
    simp only [e']
    rw [byteLoop_spec _ _ _ _ (by unfold Apart at h1 ⊢; simp only; omega) (by unfold Apart at h2 ⊢; simp only; omega)]
    simp only [Nat.add_zero]
    rw [Done_add _ _ _ _ _ _ (by unfold Apart at h1 ⊢; omega) (by unfold Apart at h2 ⊢; omega)]
    rw [show j + (count - k - j) = count - k by omega, Done_add _ _ _ _ _ _ (by unfold Apart at h1 ⊢; omega) (by unfold Apart at h2 ⊢; omega)]
    congr 1; omega

/-! ## Comparison -/

theorem xor_eq_zero (a b : Nat) : a ^^^ b = 0 ↔ a = b := by
  constructor
  · intro h
    have : a ^^^ b ^^^ b = 0 ^^^ b := by rw [h]
    rwa [Nat.xor_assoc, Nat.xor_self, Nat.xor_zero, Nat.zero_xor] at this
  · rintro rfl; exact Nat.xor_self a

theorem ByteOrder.val_inj (o : ByteOrder) (a b : List Byte) (hl : a.length = b.length) (h : o.val a = o.val b) : a = b := by
  rw [← ByteOrder.bytes_val o a, ← ByteOrder.bytes_val o b, h, hl]

theorem ByteOrder.val_lt (o : ByteOrder) (a : List Byte) : o.val a < 256 ^ a.length := by
  cases o
  · exact leVal_lt a
  · exact beVal_lt a

theorem verifyLoop_spec (o : ByteOrder) (m : Mem) (w f buf mask count acc : Nat) (ha : acc < 256 ^ w) :
    ∃ k acc', k ≤ count ∧ verifyLoop o m w f buf mask count acc = (acc', buf + k, mask + k, count - k) ∧ acc' < 256 ^ w ∧
      (acc' = 0 ↔ acc = 0 ∧ load m buf k = load m mask k) := by
  induction f generalizing buf mask count acc with
  | zero => exact ⟨0, acc, by omega, rfl, ha, by simp⟩
  | succ f ih =>
    simp only [verifyLoop]
    split
    · rename_i hw
      have hx : o.val (load m buf w) ^^^ o.val (load m mask w) < 256 ^ w := by
        have h1 := ByteOrder.val_lt o (load m buf w)
        have h2 := ByteOrder.val_lt o (load m mask w)
        rw [load_length] at h1 h2
        rw [show (256 : Nat) = 2 ^ 8 from rfl, ← Nat.pow_mul] at h1 h2 ⊢
        exact Nat.xor_lt_two_pow h1 h2
      have hor : acc ||| (o.val (load m buf w) ^^^ o.val (load m mask w)) < 256 ^ w := by
        rw [show (256 : Nat) = 2 ^ 8 from rfl, ← Nat.pow_mul] at hx ha ⊢
        exact Nat.or_lt_two_pow ha hx
      obtain ⟨k, acc', hk, e, hlt, hz⟩ := ih (buf + w) (mask + w) (count - w) _ hor
      refine ⟨w + k, acc', by omega, by rw [e]; simp only [Nat.add_assoc, Nat.sub_sub], hlt, ?_⟩
      rw [hz, Nat.or_eq_zero_iff, xor_eq_zero, load_add, load_add]
      constructor
      · rintro ⟨⟨h1, h2⟩, h3⟩
        have := ByteOrder.val_inj o _ _ (by simp) h2
        exact ⟨h1, by rw [this, h3]⟩
      · rintro ⟨h1, h2⟩
        obtain ⟨h3, h4⟩ := List.append_inj h2 (by simp)
        exact ⟨⟨h1, by rw [h3]⟩, h4⟩
    · exact ⟨0, acc, by omega, rfl, ha, by simp⟩

theorem verifyBytes_zero (m : Mem) (n buf mask acc : Nat) : verifyBytes m n buf mask acc = 0 ↔ acc = 0 ∧ load m buf n = load m mask n := by
  induction n generalizing buf mask acc with
  | zero => simp [verifyBytes]
  | succ n ih =>
    rw [verifyBytes, ih, Nat.or_eq_zero_iff, Nat.add_comm n 1, load_add, load_add, BitVec.toNat_xor, xor_eq_zero]
    have e : ∀ a, load m a 1 = [m a] := fun a => by simp [load]
    rw [e, e]
    constructor
    · rintro ⟨⟨h1, h2⟩, h3⟩
      exact ⟨h1, by rw [BitVec.eq_of_toNat_eq h2, h3]⟩
    · rintro ⟨h1, h2⟩
      obtain ⟨h3, h4⟩ := List.append_inj h2 (by simp)
      exact ⟨⟨h1, by rw [(List.cons.inj h3).1]⟩, h4⟩

theorem fold8_zero (x : Nat) (h : x < 2 ^ 32) : fold8 x = 0 ↔ x = 0 := by
  unfold fold8
  rw [Nat.or_eq_zero_iff, Nat.or_eq_zero_iff, Nat.or_eq_zero_iff]
  omega

theorem fold64_zero (x : Nat) (h : x < 2 ^ 64) : (x / 2 ^ 32 ||| x % 2 ^ 32) % 2 ^ 32 = 0 ↔ x = 0 := by
  rw [Nat.mod_eq_of_lt (Nat.or_lt_two_pow (by omega) (by omega)), Nat.or_eq_zero_iff]
  omega

theorem verifyBufsEqual_spec (o : ByteOrder) (wide : Bool) (m : Mem) (buf mask count : Nat) :
    verifyBufsEqual o wide m buf mask count = true ↔ load m buf count = load m mask count := by
  have app : ∀ k, k ≤ count → (load m buf k = load m mask k ∧ load m (buf + k) (count - k) = load m (mask + k) (count - k) ↔ load m buf count = load m mask count) := by
    intro k hk
    have e : ∀ p, load m p count = load m p k ++ load m (p + k) (count - k) := fun p => by rw [← load_add]; congr 1; omega
    rw [e, e]
    constructor
    · rintro ⟨h1, h2⟩; rw [h1, h2]
    · intro h; exact List.append_inj h (by simp)
  unfold verifyBufsEqual
  cases wide
  · simp only [Bool.false_eq_true, if_false]
    obtain ⟨k, acc, hk, e, hlt, hz⟩ := verifyLoop_spec o m 4 count buf mask count 0 (by omega)
    rw [e]
    simp only
    rw [beq_iff_eq, verifyBytes_zero, fold8_zero _ (by omega), hz, ← app k hk]
    simp
  · simp only [if_true]
    obtain ⟨k, acc, hk, e, hlt, hz⟩ := verifyLoop_spec o m 8 count buf mask count 0 (by omega)
    rw [e]
    simp only
    rw [beq_iff_eq, verifyBytes_zero, fold8_zero _ (Nat.mod_lt _ (by omega)), fold64_zero _ (by omega), hz, ← app k hk]
    simp

end Verif.Buf
