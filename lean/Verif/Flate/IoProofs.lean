import Verif.Flate.Io

/-!
# Bit writer and bit reader as strings of bits
-/
namespace Verif.Flate

theorem or_shift {a v n : Nat} (ha : a < 2 ^ n) (h : 2 ^ n * v < 2 ^ 32) : (a ||| ((v <<< n) % 2 ^ 32)) = a + 2 ^ n * v := by
  rw [Nat.shiftLeft_eq, Nat.mul_comm v, Nat.mod_eq_of_lt h]
  have := Nat.shiftLeft_add_eq_or_of_lt ha v
  rw [Nat.shiftLeft_eq] at this
  rw [Nat.or_comm, Nat.mul_comm, ← this, Nat.add_comm]

theorem add_shift_lt {a v n m : Nat} (ha : a < 2 ^ n) (hv : v < 2 ^ m) : a + 2 ^ n * v < 2 ^ (n + m) := by
  rw [Nat.pow_add]
  have : 2 ^ n * (v + 1) ≤ 2 ^ n * 2 ^ m := Nat.mul_le_mul_left _ hv
  rw [Nat.mul_add, Nat.mul_one] at this
  omega

/-! ## The writer -/

/-- The writer between two calls. -/
structure Writer.Ok (w : Writer) : Prop where
  real : w.counting = false
  bits : w.bits < 8
  buf : w.buf < 2 ^ w.bits

/-- All the bits written. -/
def Writer.str (w : Writer) : List Bool := byteBits (w.out ++ w.pend) ++ Flate.bits w.bits w.buf

theorem bits_byte (n v : Nat) (h : 8 ≤ n) : Flate.bits 8 (BitVec.ofNat 8 v).toNat ++ Flate.bits (n - 8) (v >>> 8) = Flate.bits n v := by
  rw [BitVec.toNat_ofNat, bits_mod, Nat.shiftRight_eq_div_pow, ← bits_drop 8 n v h, ← bits_take 8 n v h, List.take_append_drop]

theorem drain1_spec (w : Writer) (h : 8 ≤ w.bits) (hb : w.buf < 2 ^ w.bits) : w.drain1.str = w.str ∧ w.drain1.counting = w.counting ∧
    w.drain1.bits = w.bits - 8 ∧ w.drain1.buf < 2 ^ w.drain1.bits := by
  have key : byteBits (w.out ++ (w.pend ++ [BitVec.ofNat 8 w.buf])) ++ Flate.bits (w.bits - 8) (w.buf >>> 8) = w.str := by
    unfold Writer.str
    rw [← List.append_assoc, byteBits_append, List.append_assoc, byteBits_cons, byteBits_nil, List.append_nil, bits_byte _ _ h]
  have hlt : w.buf >>> 8 < 2 ^ (w.bits - 8) := by
    rw [Nat.shiftRight_eq_div_pow, Nat.div_lt_iff_lt_mul (by decide), ← Nat.pow_add]
    rw [show w.bits - 8 + 8 = w.bits by omega]; exact hb
  unfold Writer.drain1
  simp only []
  split
  · refine ⟨?_, rfl, rfl, hlt⟩
    rw [← key, Writer.str]
    simp only [List.append_nil]
  · exact ⟨key, rfl, rfl, hlt⟩

theorem drain_spec (k : Nat) : ∀ w : Writer, w.bits < 8 * k + 8 → w.buf < 2 ^ w.bits →
    (Writer.drain k w).str = w.str ∧ (Writer.drain k w).counting = w.counting ∧ (Writer.drain k w).bits < 8 ∧
      (Writer.drain k w).buf < 2 ^ (Writer.drain k w).bits := by
  induction k with
  | zero => intro w h1 h2; exact ⟨rfl, rfl, by rw [Writer.drain]; omega, h2⟩
  | succ k ih =>
    intro w h1 h2
    rw [Writer.drain]
    split
    · rename_i h
      obtain ⟨d1, d2, d3, d4⟩ := drain1_spec w h h2
      obtain ⟨i1, i2, i3, i4⟩ := ih w.drain1 (by omega) d4
      exact ⟨by rw [i1, d1], by rw [i2, d2], i3, i4⟩
    · exact ⟨rfl, rfl, by omega, h2⟩

theorem putBits_spec {w : Writer} (hw : w.Ok) {v n : Nat} (hn : n ≤ 24) (hv : v < 2 ^ n) :
    (w.putBits v n).Ok ∧ (w.putBits v n).str = w.str ++ Flate.bits n v := by
  obtain ⟨h1, h2, h3⟩ := hw
  have hlt := add_shift_lt h3 hv
  have hle : 2 ^ (w.bits + n) ≤ 2 ^ 32 := Nat.pow_le_pow_right (by decide) (by omega)
  unfold Writer.putBits
  rw [if_neg (by rw [h1]; decide), or_shift h3 (by omega)]
  obtain ⟨d1, d2, d3, d4⟩ := drain_spec (w.bits + n) { w with buf := w.buf + 2 ^ w.bits * v, bits := w.bits + n } (by simp only []; omega) hlt
  refine ⟨⟨by rw [d2]; exact h1, d3, d4⟩, ?_⟩
  rw [d1, Writer.str, Writer.str, List.append_assoc, bits_append _ _ _ _ h3]

/-- In counting mode nothing is written. -/
structure Writer.Same (w w' : Writer) : Prop where
  buf : w'.buf = w.buf
  bits : w'.bits = w.bits
  pend : w'.pend = w.pend
  out : w'.out = w.out
  counting : w'.counting = w.counting

theorem putBits_counting {w : Writer} (h : w.counting = true) (v n : Nat) : w.Same (w.putBits v n) := by
  unfold Writer.putBits
  rw [if_pos h]
  exact ⟨rfl, rfl, rfl, rfl, rfl⟩

theorem flush_spec {w : Writer} (hw : w.Ok) : w.flush.Ok ∧ w.flush.bits = 0 ∧ w.flush.pend = [] ∧
    ∃ z, z < 8 ∧ (w.str.length + z) % 8 = 0 ∧ byteBits w.flush.out = w.str ++ List.replicate z false := by
  obtain ⟨h1, h2, h3⟩ := hw
  have hz : ∀ o : List Byte, (byteBits o).length % 8 = 0 := by intro o; rw [byteBits_length]; omega
  have e : w.flush = if w.bits > 0 then { w with out := (w.out ++ w.pend) ++ [BitVec.ofNat 8 w.buf], pend := [], buf := 0, bits := 0 }
      else { w with out := w.out ++ w.pend, pend := [] } := by
    obtain ⟨c, n, buf, nb, pend, out⟩ := w
    unfold Writer.flush
    simp only [] at h1 ⊢
    rw [if_neg (by rw [h1]; decide)]
    cases pend with
    | nil => simp
    | cons a l => simp
  rw [e]
  by_cases hb : w.bits > 0
  · rw [if_pos hb]
    refine ⟨⟨h1, by simp, by simp⟩, rfl, rfl, 8 - w.bits, by omega, ?_, ?_⟩
    · rw [Writer.str, List.length_append, bits_length]
      have := hz (w.out ++ w.pend)
      omega
    · simp only []
      rw [byteBits_append, byteBits_cons, byteBits_nil, List.append_nil, Writer.str, List.append_assoc, ← bits_zero,
        bits_append _ _ _ _ h3, BitVec.toNat_ofNat, bits_mod, Nat.mul_zero, Nat.add_zero]
      rw [show w.bits + (8 - w.bits) = 8 by omega]
  · rw [if_neg hb]
    have hb0 : w.bits = 0 := by omega
    refine ⟨⟨h1, h2, h3⟩, hb0, rfl, 0, by omega, ?_, ?_⟩
    · rw [Writer.str, List.length_append, bits_length]
      have := hz (w.out ++ w.pend)
      omega
    · rw [Writer.str, hb0, Flate.bits, List.append_nil, List.replicate_zero, List.append_nil]

theorem flush_counting {w : Writer} (h : w.counting = true) : w.Same w.flush := by
  unfold Writer.flush
  rw [if_pos h]
  exact ⟨rfl, rfl, rfl, rfl, rfl⟩

/-! ## The reader -/

/-- The buffer holds no more than the bits counted. -/
def Reader.Ok (r : Reader) : Prop := r.buf < 2 ^ r.bits ∧ r.bits ≤ 32

/-- All the bits there are to read. -/
def Reader.str (r : Reader) : List Bool := Flate.bits r.bits r.buf ++ byteBits r.queue

theorem Reader.str_length (r : Reader) : r.str.length = r.bits + 8 * r.queue.length := by
  rw [Reader.str, List.length_append, bits_length, byteBits_length]

theorem fillLoop_spec (len : Nat) (q : List Byte) : ∀ buf n, (len ≤ 25 ∨ (len ≤ 32 ∧ n % 8 = 0)) → buf < 2 ^ n → n ≤ 32 →
    (fillLoop len q buf n).2.Ok ∧ (fillLoop len q buf n).2.str = bits n buf ++ byteBits q ∧
    ((fillLoop len q buf n).1 = true → len ≤ (fillLoop len q buf n).2.bits) ∧
    ((fillLoop len q buf n).1 = false → (fillLoop len q buf n).2.queue = [] ∧ (fillLoop len q buf n).2.bits < len) ∧
    (fillLoop len q buf n).2.bits ≤ max n (len + 7) ∧
    ∃ k, (fillLoop len q buf n).2.queue = q.drop k ∧ (fillLoop len q buf n).2.bits = n + 8 * k := by
  induction q with
  | nil =>
    intro buf n hlen h1 h2
    rw [fillLoop]
    split
    · exact ⟨⟨h1, h2⟩, rfl, nofun, fun _ => ⟨rfl, by assumption⟩, by simp only []; omega, 0, rfl, rfl⟩
    · exact ⟨⟨h1, h2⟩, rfl, fun _ => by simp only []; omega, nofun, by simp only []; omega, 0, rfl, rfl⟩
  | cons b q ih =>
    intro buf n hlen h1 h2
    rw [fillLoop]
    split
    · rename_i h
      have hb : b.toNat < 2 ^ 8 := b.isLt
      have hlt := add_shift_lt h1 hb
      have hle : 2 ^ (n + 8) ≤ 2 ^ 32 := Nat.pow_le_pow_right (by decide) (by omega)
      rw [or_shift h1 (by omega)]
      obtain ⟨i1, i2, i3, i4, i5, k, i6, i7⟩ := ih (buf + 2 ^ n * b.toNat) (n + 8) (by omega) hlt (by omega)
      refine ⟨i1, ?_, i3, i4, by omega, k + 1, by rw [i6]; rfl, by omega⟩
      rw [i2, byteBits_cons, ← List.append_assoc, bits_append _ _ _ _ h1]
    · exact ⟨⟨h1, h2⟩, rfl, fun _ => by simp only []; omega, nofun, by simp only []; omega, 0, rfl, rfl⟩

theorem Reader.ext' {r s : Reader} (h1 : r.buf = s.buf) (h2 : r.bits = s.bits) (h3 : r.queue = s.queue) : r = s := by
  cases r; cases s; simp_all

/-- `FillBuffer`: the bits are the same, and there are enough of them, or all of them are in the buffer. -/
theorem fill_spec {r : Reader} (hr : r.Ok) {len : Nat} (hlen : len ≤ 25 ∨ (len ≤ 32 ∧ r.bits % 8 = 0)) :
    (r.fill len).2.Ok ∧ (r.fill len).2.str = r.str ∧ ((r.fill len).1 = true → len ≤ (r.fill len).2.bits) ∧
    ((r.fill len).1 = false → (r.fill len).2.queue = [] ∧ (r.fill len).2.bits < len) ∧ (r.fill len).2.bits ≤ max r.bits (len + 7) := by
  obtain ⟨h1, h2, h3, h4, h5, _⟩ := fillLoop_spec len r.queue r.buf r.bits hlen hr.1 hr.2
  exact ⟨h1, h2, h3, h4, h5⟩

theorem fill_true_iff {r : Reader} (hr : r.Ok) {len : Nat} (hlen : len ≤ 25 ∨ (len ≤ 32 ∧ r.bits % 8 = 0)) : (r.fill len).1 = true ↔ len ≤ r.str.length := by
  obtain ⟨h1, h2, h3, h4, h5⟩ := fill_spec hr hlen
  have hl := congrArg List.length h2
  rw [Reader.str_length] at hl
  constructor
  · intro h
    have := h3 h
    omega
  · intro h
    by_contra hc
    rw [Bool.not_eq_true] at hc
    obtain ⟨a, b⟩ := h4 hc
    rw [a, List.length_nil] at hl
    omega

theorem skip_spec {r : Reader} (hr : r.Ok) {len : Nat} (h : len ≤ r.bits) : (r.skip len).Ok ∧ (r.skip len).str = r.str.drop len ∧
    (r.skip len).bits = r.bits - len ∧ (r.skip len).queue = r.queue := by
  obtain ⟨h1, h2⟩ := hr
  have hb : (r.bits + 2 ^ 32 - len) % 2 ^ 32 = r.bits - len := by omega
  have hlt : r.buf >>> len < 2 ^ (r.bits - len) := by
    rw [Nat.shiftRight_eq_div_pow, Nat.div_lt_iff_lt_mul (Nat.two_pow_pos _), ← Nat.pow_add]
    rw [show r.bits - len + len = r.bits by omega]; exact h1
  refine ⟨⟨by rw [Reader.skip]; simp only [hb]; exact hlt, by rw [Reader.skip]; simp only [hb]; omega⟩, ?_, hb, rfl⟩
  rw [Reader.skip, Reader.str, Reader.str]
  simp only [hb]
  rw [List.drop_append_of_le_length (by rw [bits_length]; exact h), bits_drop _ _ _ h, Nat.shiftRight_eq_div_pow]

/-- `GetBits`, when there are enough bits. -/
theorem get_spec {r : Reader} (hr : r.Ok) {len : Nat} (hlen : len ≤ 25) (h : len ≤ r.str.length) :
    (r.get len).2.Ok ∧ (r.get len).1 = val (r.str.take len) ∧ (r.get len).2.str = r.str.drop len ∧
    (r.get len).2.bits ≤ max r.bits (len + 7) - len := by
  obtain ⟨h1, h2, h3, h4, h5⟩ := fill_spec hr (.inl hlen)
  have hle := h3 ((fill_true_iff hr (.inl hlen)).2 h)
  obtain ⟨s1, s2, s3, s4⟩ := skip_spec h1 hle
  refine ⟨s1, ?_, by rw [Reader.get, s2, h2], by rw [Reader.get, s3]; omega⟩
  rw [Reader.get, Nat.and_two_pow_sub_one_eq_mod, ← h2, Reader.str,
    List.take_append_of_le_length (by rw [bits_length]; exact hle), bits_take _ _ _ hle, val_bits]

/-- `GetBits`, reading a number that was written. -/
theorem get_bits {r : Reader} (hr : r.Ok) {len v : Nat} {rest : List Bool} (hlen : len ≤ 25) (hv : v < 2 ^ len)
    (h : r.str = Flate.bits len v ++ rest) :
    (r.get len).2.Ok ∧ (r.get len).1 = v ∧ (r.get len).2.str = rest ∧ (r.get len).2.bits ≤ max r.bits (len + 7) - len := by
  obtain ⟨g1, g2, g3, g4⟩ := get_spec hr hlen (by rw [h, List.length_append, bits_length]; omega)
  refine ⟨g1, ?_, ?_, g4⟩
  · rw [g2, h, List.take_left' (bits_length _ _), val_bits, Nat.mod_eq_of_lt hv]
  · rw [g3, h, List.drop_left' (bits_length _ _)]

end Verif.Flate
