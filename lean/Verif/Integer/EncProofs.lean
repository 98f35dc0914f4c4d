import Verif.Integer.ClsProofs3
import Verif.Integer.Spec

/-!
# Proofs about Integer::Encode, Decode and MinEncodedSize
-/
namespace Verif.Integer

open Verif.Misc

variable {ws : Nat}

theorem ofNat8_mod (n : Nat) : BitVec.ofNat 8 (n % 256) = BitVec.ofNat 8 n := by
  apply BitVec.eq_of_toNat_eq; simp

theorem beBytes_succ (n v : Nat) : beBytes (n + 1) v = BitVec.ofNat 8 (v / 256 ^ n) :: beBytes n v := by
  have := beBytes_append 1 n v
  rw [Nat.add_comm] at this
  rw [this]
  rfl

theorem encodeLoop_spec (hw : 0 < ws) {x : Obj} (hx : Ok ws x) (n : Nat) :
    encodeLoop ws x n = beBytes n (value ws x).natAbs := by
  induction n with
  | zero => rfl
  | succ n ih => rw [encodeLoop, ih, getByte_spec hw hx, wval_eq_natAbs, beBytes_succ]

theorem encode_unsigned_spec (hw : 0 < ws) {x : Obj} (hx : Ok ws x) (n : Nat) :
    encode ws x n false = beBytes n (value ws x).natAbs := by
  unfold encode
  rw [if_pos (Or.inl rfl)]
  exact encodeLoop_spec hw hx n

theorem encode_signed_spec (hws : ∃ k, ws = 2 ^ k) {x : Obj} (hx : Ok ws x) (n : Nat) :
    encode ws x n true = twosBytes n (value ws x) := by
  have hw : 0 < ws := by obtain ⟨k, e⟩ := hws; rw [e]; exact Nat.two_pow_pos k
  unfold encode twosBytes
  split
  · rename_i h
    have hn : x.neg = false := by rcases h with h | h; cases h; exact h
    rw [encodeLoop_spec hw hx, value_pos hn]
    have : ((wval (base ws) x.reg : Int) % 256 ^ n).toNat = wval (base ws) x.reg % 256 ^ n := by
      have e : ((wval (base ws) x.reg : Int) % 256 ^ n) = ((wval (base ws) x.reg % 256 ^ n : Nat) : Int) := by push_cast; rfl
      rw [e, Int.toNat_natCast]
    rw [this, beBytes_mod]; simp
  · rename_i h
    have hn : x.neg = true := by
      cases hx : x.neg
      · exact absurd (Or.inr hx) h
      · rfl
    obtain ⟨p1, p2⟩ := power2_spec hw (8 * max (byteCount ws x) n)
    obtain ⟨q1, q2⟩ := plus_spec hw p1 hx
    rw [encodeLoop_spec hw q1, q2, p2]
    have hbc := byteCount_spec hws hx
    have hv := value_neg (ws := ws) hn
    generalize hM : wval (base ws) x.reg = M at *
    have hlt : M < 256 ^ max (byteCount ws x) n := by
      have h1 := byteLen_lt (value ws x).natAbs
      rw [← hbc] at h1
      have h2 := Nat.pow_le_pow_right (n := 256) (by omega) (Nat.le_max_left (byteCount ws x) n)
      rw [hv] at h1
      simp at h1
      omega
    have e256 : (2 : Int) ^ (8 * max (byteCount ws x) n) = ((256 ^ max (byteCount ws x) n : Nat) : Int) := by
      rw [pow_mul]; push_cast; norm_num
    rw [hv, e256]
    generalize hN : max (byteCount ws x) n = N at *
    have hnN : n ≤ N := by omega
    rw [show (((256 ^ N : Nat) : Int) + -(M : Int)).natAbs = 256 ^ N - M by omega]
    have e1 : ((-(M : Int)) % 256 ^ n).toNat = (256 ^ N - M) % 256 ^ n := by
      have hd : (256 : Int) ^ n ∣ 256 ^ N := pow_dvd_pow _ hnN
      have e2 : (-(M : Int)) % 256 ^ n = ((256 ^ N - M : Nat) : Int) % 256 ^ n := by
        rw [Nat.cast_sub (by omega)]
        push_cast
        rw [sub_eq_add_neg, Int.add_emod, Int.emod_eq_zero_of_dvd hd]
        simp
      rw [e2]
      have : (((256 ^ N - M : Nat) : Int) % 256 ^ n) = (((256 ^ N - M) % 256 ^ n : Nat) : Int) := by push_cast; rfl
      rw [this, Int.toNat_natCast]
    rw [e1, beBytes_mod]

/-! ### MinEncodedSize -/

theorem byte_and_80 (b : Byte) : (b &&& 0x80) ≠ 0 ↔ 128 ≤ b.toNat := by
  have key : ∀ b : Byte, decide ((b &&& 0x80) ≠ 0) = decide (128 ≤ b.toNat) := by decide +kernel
  exact decide_eq_decide.mp (key b)

/-- the result of `minEncodedSize` for unsigned encodings -/
theorem minEncodedSize_unsigned (hws : ∃ k, ws = 2 ^ k) {x : Obj} (hx : Ok ws x) :
    minEncodedSize ws x false = max 1 (byteLen (value ws x).natAbs) := by
  simp only [minEncodedSize, byteCount_spec hws hx]
  simp

theorem minEncodedSize_signed (hws : ∃ k, ws = 2 ^ k) {x : Obj} (hx : Ok ws x) :
    1 ≤ minEncodedSize ws x true ∧ FitsSigned (minEncodedSize ws x true) (value ws x) ∧
      ∀ n, 1 ≤ n → FitsSigned n (value ws x) → minEncodedSize ws x true ≤ n := by
  have hw : 0 < ws := by obtain ⟨k, e⟩ := hws; rw [e]; exact Nat.two_pow_pos k
  have hbc := byteCount_spec hws hx
  have p256 : ∀ n : Nat, 1 ≤ n → (256 : Nat) ^ n = 2 * 2 ^ (8 * n - 1) ∧ 2 ^ (8 * n - 1) = 128 * 256 ^ (n - 1) := by
    intro n hn
    constructor
    · rw [show (256 : Nat) = 2 ^ 8 from rfl, ← Nat.pow_mul, ← Nat.pow_succ']; congr 1; omega
    · rw [show (256 : Nat) = 2 ^ 8 from rfl, show (128 : Nat) = 2 ^ 7 from rfl, ← Nat.pow_mul, ← Nat.pow_add]; congr 1; omega
  have mono : ∀ m n : Nat, m ≤ n → (2 : Nat) ^ (8 * m - 1) ≤ 2 ^ (8 * n - 1) := fun m n h =>
    Nat.pow_le_pow_right (by omega) (by omega)
  have cast2 : ∀ e : Nat, (2 : Int) ^ e = ((2 ^ e : Nat) : Int) := fun e => by push_cast; rfl
  simp only [minEncodedSize, hbc]
  generalize hL : max 1 (byteLen (value ws x).natAbs) = L
  have hL1 : 1 ≤ L := by omega
  have hlt : (value ws x).natAbs < 256 ^ L := by
    have h1 := byteLen_lt (value ws x).natAbs
    have h2 := Nat.pow_le_pow_right (n := 256) (by omega) (by omega : byteLen (value ws x).natAbs ≤ L)
    omega
  have hge : 1 < L → 256 ^ (L - 1) ≤ (value ws x).natAbs := by
    intro h
    have e : byteLen (value ws x).natAbs = L := by omega
    have hne : (value ws x).natAbs ≠ 0 := by intro h0; rw [h0] at e; simp at e; omega
    have := byteLen_pos_le hne
    rwa [e] at this
  cases hs : x.neg
  · -- non-negative
    have hv := value_pos (ws := ws) hs
    have hvn := wval_eq_natAbs (ws := ws) x
    simp only [true_and, Bool.true_eq_false, if_false, Bool.false_eq_true, false_and]
    have hbit : ((getByte ws x (L - 1) &&& 0x80) ≠ 0) ↔ 128 * 256 ^ (L - 1) ≤ (value ws x).natAbs := by
      rw [byte_and_80, getByte_spec hw hx, hvn, BitVec.toNat_ofNat]
      have hp : 0 < 256 ^ (L - 1) := Nat.pow_pos (by omega)
      have hq : (value ws x).natAbs / 256 ^ (L - 1) < 256 := by
        apply Nat.div_lt_of_lt_mul
        rw [← Nat.pow_succ, show (L - 1).succ = L by omega]; exact hlt
      rw [show (2 : Nat) ^ 8 = 256 from rfl, Nat.mod_eq_of_lt hq, Nat.le_div_iff_mul_le hp]
    have pL := p256 L hL1
    split
    · rename_i hb
      rw [hbit] at hb
      have hm := mono L (L + 1) (by omega)
      have pL1 := p256 (L + 1) (by omega)
      refine ⟨by omega, ⟨?_, ?_⟩, ?_⟩
      · rw [hv, cast2]; omega
      · rw [cast2, hv, hvn]
        have : (256 : Nat) ^ (L + 1) = 256 * 256 ^ L := by rw [Nat.pow_succ]; ring
        omega
      · intro n hn hf
        by_contra hlt'
        have hm := mono n L (by omega)
        have := hf.2
        rw [cast2, hv, hvn] at this
        omega
    · rename_i hb
      rw [hbit] at hb
      refine ⟨hL1, ⟨?_, ?_⟩, ?_⟩
      · rw [hv, cast2]; omega
      · rw [cast2, hv, hvn]; omega
      · intro n hn hf
        by_contra hlt'
        have hg := hge (by omega)
        have hm := mono n (L - 1) (by omega)
        have pm := p256 (L - 1) (by omega)
        have := hf.2
        rw [cast2, hv, hvn] at this
        omega
  · -- negative
    have hv := value_neg (ws := ws) hs
    have hvn := wval_eq_natAbs (ws := ws) x
    have hnz := hx.sign hs
    simp only [true_and, Bool.true_eq_false, if_false, false_and]
    have pL := p256 L hL1
    obtain ⟨q1, q2⟩ := power2_spec hw (L * 8 - 1)
    obtain ⟨n1, n2⟩ := neg_spec hw q1
    have hcmp := compare_spec hw hx n1
    have hlt1 : (compare x (neg (power2 ws (L * 8 - 1))) < 0) ↔ value ws x < -(2 ^ (8 * L - 1) : Int) := by
      rw [hcmp, n2, q2, Nat.mul_comm L 8]
      split
      · constructor
        · intro h; omega
        · intro h; omega
      · split
        · rename_i h1 h2; exact ⟨fun _ => h2, fun _ => by decide⟩
        · rename_i h1 h2; exact ⟨fun h => absurd h (by decide), fun h => absurd h h2⟩
    simp only [hlt1, cast2]
    split
    · rename_i hb
      have pL1 := p256 (L + 1) (by omega)
      refine ⟨by omega, ⟨?_, ?_⟩, ?_⟩
      · rw [cast2, hv, hvn]
        have : (256 : Nat) ^ (L + 1) = 256 * 256 ^ L := by rw [Nat.pow_succ]; ring
        omega
      · rw [cast2, hv]; omega
      · intro n hn hf
        by_contra hlt'
        have hm := mono n L (by omega)
        have := hf.1
        rw [cast2] at this
        omega
    · rename_i hb
      refine ⟨hL1, ⟨by rw [cast2]; omega, by rw [cast2, hv]; omega⟩, ?_⟩
      intro n hn hf
      by_contra hlt'
      have hg := hge (by omega)
      have hm := mono n (L - 1) (by omega)
      have pm := p256 (L - 1) (by omega)
      have := hf.1
      rw [cast2, hv, hvn] at this
      omega

/-! ### Decode -/

theorem skipSign_spec (neg : Bool) : ∀ (bs : List Byte) (n : Nat), n ≤ bs.length →
    (skipSign neg bs n).2 ≤ n ∧ (skipSign neg bs n).2 ≤ (skipSign neg bs n).1.length ∧
      (skipSign neg bs n).1.drop (skipSign neg bs n).2 = bs.drop n ∧
      bs.take n = List.replicate (n - (skipSign neg bs n).2) (if neg then 0xff else 0) ++ (skipSign neg bs n).1.take (skipSign neg bs n).2 := by
  intro bs
  induction bs with
  | nil =>
    intro n h
    have : n = 0 := by simpa using h
    subst this
    simp [skipSign]
  | cons b bs ih =>
    intro n h
    cases n with
    | zero => simp [skipSign]
    | succ n =>
      by_cases hb : b = (if neg then 0xff else 0)
      · simp only [skipSign, if_pos hb]
        obtain ⟨h1, h2, h3, h4⟩ := ih n (by simpa using h)
        refine ⟨by omega, h2, by simpa using h3, ?_⟩
        rw [List.take_succ_cons, h4, show n + 1 - (skipSign neg bs n).2 = (n - (skipSign neg bs n).2) + 1 by omega,
          List.replicate_succ, List.cons_append, ← hb]
      · simp only [skipSign, if_neg hb]
        exact ⟨by omega, h, trivial, by simp⟩

theorem fillBytes_spec (hw : 0 < ws) (bs : List Byte) : ∀ reg : List Nat, Words (base ws) reg → bs.length ≤ reg.length * ws →
    256 ^ bs.length ∣ wval (base ws) reg →
    (fillBytes ws reg bs).length = reg.length ∧ Words (base ws) (fillBytes ws reg bs) ∧
      wval (base ws) (fillBytes ws reg bs) = wval (base ws) reg + beVal bs := by
  have hB := base_gt hw
  induction bs with
  | nil => intro reg hr _ _; exact ⟨rfl, hr, by simp [fillBytes]⟩
  | cons b bs ih =>
    intro reg hr hl hd
    simp only [List.length_cons] at hl hd
    have hi := Nat.div_add_mod bs.length ws
    have hm : bs.length % ws < ws := Nat.mod_lt _ hw
    have hj : bs.length / ws < reg.length := by
      apply Nat.div_lt_of_lt_mul; rw [Nat.mul_comm]; omega
    unfold fillBytes
    generalize hjd : bs.length / ws = j at *
    generalize hmd : bs.length % ws = m at *
    obtain ⟨q, hq⟩ := hd
    have hdig : reg.getD j 0 = 2 ^ (8 * (m + 1)) * (q % 256 ^ (ws - (m + 1))) := by
      rw [digit hr j hj, hq, base_eq, ← Nat.pow_mul]
      have e1 : 256 ^ (bs.length + 1) * q = 256 ^ (ws * j) * (256 ^ (m + 1) * q) := by
        rw [← Nat.mul_assoc, ← Nat.pow_add]; congr 2; omega
      have e2 : (256 : Nat) ^ ws = 256 ^ (m + 1) * 256 ^ (ws - (m + 1)) := by
        rw [← Nat.pow_add]; congr 1; omega
      rw [e1, Nat.mul_div_cancel_left _ (Nat.pow_pos (by omega)), e2, Nat.mul_mod_mul_left, Nat.pow_mul]
    have hbl : b.toNat <<< (m * 8) < 2 ^ (8 * (m + 1)) := by
      rw [Nat.shiftLeft_eq, show 8 * (m + 1) = 8 + m * 8 by ring, Nat.pow_add]
      exact (Nat.mul_lt_mul_right (Nat.two_pow_pos _)).mpr b.isLt
    have hor : reg.getD j 0 ||| b.toNat <<< (m * 8) = reg.getD j 0 + b.toNat * 256 ^ m := by
      rw [hdig, ← Nat.two_pow_add_eq_or_of_lt hbl, Nat.shiftLeft_eq, Nat.mul_comm m 8, Nat.pow_mul 2 8 m]
    have hlt : reg.getD j 0 ||| b.toNat <<< (m * 8) < base ws := by
      apply Nat.or_lt_two_pow (hr.getD (by omega) j)
      exact Nat.lt_of_lt_of_le hbl (Nat.pow_le_pow_right (by omega) (by omega))
    have hset := wval_set (base ws) (A := reg) j (reg.getD j 0 ||| b.toNat <<< (m * 8)) hj
    have hval : wval (base ws) (reg.set j (reg.getD j 0 ||| b.toNat <<< (m * 8))) = wval (base ws) reg + b.toNat * 256 ^ bs.length := by
      rw [hor] at hset ⊢
      have e3 : (256 : Nat) ^ bs.length = base ws ^ j * 256 ^ m := by
        rw [base_eq, ← Nat.pow_mul, ← Nat.pow_add, hi]
      rw [e3]
      rw [Nat.mul_add (base ws ^ j)] at hset
      have : base ws ^ j * (b.toNat * 256 ^ m) = b.toNat * (base ws ^ j * 256 ^ m) := by ring
      omega
    obtain ⟨h1, h2, h3⟩ := ih _ (hr.set j _ hlt) (by rw [List.length_set]; omega) (by
      rw [hval, hq, Nat.pow_succ]
      exact Nat.dvd_add (Dvd.intro (256 * q) (by ring)) (Dvd.intro_left _ rfl))
    refine ⟨by rw [h1, List.length_set], h2, ?_⟩
    rw [h3, hval, beVal_cons]
    omega

theorem signFill_spec (hw : 0 < ws) (k : Nat) : ∀ (reg : List Nat) (i : Nat), Words (base ws) reg → i + k ≤ reg.length * ws →
    wval (base ws) reg < 256 ^ i →
    (signFill ws k reg i).length = reg.length ∧ Words (base ws) (signFill ws k reg i) ∧
      wval (base ws) (signFill ws k reg i) + 256 ^ i = wval (base ws) reg + 256 ^ (i + k) := by
  have hB := base_gt hw
  induction k with
  | zero => intro reg i hr _ _; exact ⟨rfl, hr, by simp [signFill]⟩
  | succ k ih =>
    intro reg i hr hl hV
    have hi := Nat.div_add_mod i ws
    have hm : i % ws < ws := Nat.mod_lt _ hw
    have hj : i / ws < reg.length := by
      apply Nat.div_lt_of_lt_mul; rw [Nat.mul_comm]; omega
    unfold signFill
    generalize hjd : i / ws = j at *
    generalize hmd : i % ws = m at *
    have hdig : reg.getD j 0 < 2 ^ (m * 8) := by
      rw [digit hr j hj]
      apply Nat.lt_of_le_of_lt (Nat.mod_le _ _)
      apply Nat.div_lt_of_lt_mul
      have e3 : base ws ^ j * 2 ^ (m * 8) = 256 ^ i := by
        rw [base_eq, ← Nat.pow_mul, Nat.mul_comm m 8, Nat.pow_mul 2 8 m, ← Nat.pow_add, hi]
      rw [e3]
      exact hV
    have hor : reg.getD j 0 ||| 0xff <<< (m * 8) = reg.getD j 0 + 255 * 256 ^ m := by
      rw [Nat.or_comm, Nat.shiftLeft_eq, Nat.mul_comm 0xff, ← Nat.two_pow_add_eq_or_of_lt hdig, Nat.mul_comm m 8, Nat.pow_mul 2 8 m]
      have : (2 : Nat) ^ 8 = 256 := rfl
      rw [this]
      omega
    have hlt : reg.getD j 0 ||| 0xff <<< (m * 8) < base ws := by
      apply Nat.or_lt_two_pow (hr.getD (by omega) j)
      rw [Nat.shiftLeft_eq]
      have h1 : 0xff * 2 ^ (m * 8) < 2 ^ (8 * (m + 1)) := by
        rw [show 8 * (m + 1) = 8 + m * 8 by ring, Nat.pow_add]
        exact (Nat.mul_lt_mul_right (Nat.two_pow_pos _)).mpr (by decide)
      exact Nat.lt_of_lt_of_le h1 (Nat.pow_le_pow_right (by omega) (by omega))
    have hset := wval_set (base ws) (A := reg) j (reg.getD j 0 ||| 0xff <<< (m * 8)) hj
    have hval : wval (base ws) (reg.set j (reg.getD j 0 ||| 0xff <<< (m * 8))) = wval (base ws) reg + 255 * 256 ^ i := by
      rw [hor] at hset ⊢
      have e3 : (256 : Nat) ^ i = base ws ^ j * 256 ^ m := by
        rw [base_eq, ← Nat.pow_mul, ← Nat.pow_add, hi]
      rw [e3]
      rw [Nat.mul_add] at hset
      have : base ws ^ j * (255 * 256 ^ m) = 255 * (base ws ^ j * 256 ^ m) := by ring
      omega
    have e256 : (256 : Nat) ^ (i + 1) = 256 * 256 ^ i := by rw [Nat.pow_succ]; ring
    obtain ⟨h1, h2, h3⟩ := ih _ (i + 1) (hr.set j _ hlt) (by rw [List.length_set]; omega) (by rw [hval]; omega)
    refine ⟨by rw [h1, List.length_set], h2, ?_⟩
    rw [hval] at h3
    rw [show i + (k + 1) = i + 1 + k by omega]
    omega

theorem bytesToWords_ge (hw : 0 < ws) (n : Nat) : n ≤ bytesToWords ws n * ws := by
  unfold bytesToWords
  have h := Nat.div_add_mod (n + ws - 1) ws
  have hm := Nat.mod_lt (n + ws - 1) hw
  rw [Nat.mul_comm]
  omega

theorem beVal_replicate_zero (j : Nat) : beVal (List.replicate j (0 : Byte)) = 0 := by
  induction j with
  | zero => rfl
  | succ j ih => rw [List.replicate_succ, beVal_cons, ih]; simp

theorem beVal_replicate_ff (j : Nat) : beVal (List.replicate j (0xff : Byte)) + 1 = 256 ^ j := by
  induction j with
  | zero => rfl
  | succ j ih =>
    rw [List.replicate_succ, beVal_cons, Nat.pow_succ, List.length_replicate]
    have : (0xff : Byte).toNat = 255 := rfl
    rw [this]; omega

/-- What `Decode` builds, before looking at the exceptional case. -/
theorem decode_core (hw : 0 < ws) (bt : List Byte) (n : Nat) (signed : Bool) (hn : n ≤ bt.length) (hs : signed = true → bt ≠ []) :
    ∃ (reg : List Nat) (m j : Nat) (k : Nat), 
      decode ws bt n signed = .ok (⟨reg, signed && ((bt.headD 0 &&& 0x80) != 0)⟩, bt.drop n) ∧
      Words (base ws) reg ∧ reg.length = 2 ^ (k + 1) ∧ n = j + m ∧ m ≤ reg.length * ws ∧
      (∃ rest : List Byte, rest.length = m ∧
        ((signed && ((bt.headD 0 &&& 0x80) != 0)) = false → bt.take n = List.replicate j 0 ++ rest ∧ wval (base ws) reg = beVal rest) ∧
        ((signed && ((bt.headD 0 &&& 0x80) != 0)) = true → bt.take n = List.replicate j 0xff ++ rest ∧
          wval (base ws) reg = (256 ^ m - beVal rest) % 256 ^ (reg.length * ws))) := by
  have hB := base_gt hw
  unfold decode
  rw [if_neg (by omega), if_neg (by rintro ⟨h1, h2⟩; exact hs h1 h2)]
  generalize hneg : (signed && ((bt.headD 0 &&& 0x80) != 0)) = neg
  obtain ⟨s1, s2, s3, s4⟩ := skipSign_spec neg bt n hn
  simp only
  generalize skipSign neg bt n = S at *
  obtain ⟨⟨k, hk⟩, r2, r3⟩ := roundupSize_spec (bytesToWords ws S.2)
  have hge := bytesToWords_ge hw S.2
  have hR : S.2 ≤ roundupSize (bytesToWords ws S.2) * ws := Nat.le_trans hge (Nat.mul_le_mul_right ws r2)
  generalize roundupSize (bytesToWords ws S.2) = L at *
  have hrl : (S.1.take S.2).length = S.2 := by simp; omega
  obtain ⟨f1, f2, f3⟩ := fillBytes_spec hw (S.1.take S.2) (List.replicate L 0) (Words.replicate (by omega) _)
    (by rw [hrl, List.length_replicate]; exact hR) (by rw [wval_zeros]; exact Nat.dvd_zero _)
  rw [wval_zeros, Nat.zero_add] at f3
  rw [List.length_replicate] at f1
  have hbv := beVal_lt (S.1.take S.2)
  rw [hrl] at hbv
  cases neg with
  | false =>
    refine ⟨_, S.2, n - S.2, k, ?_, f2, by rw [f1, hk], by omega, by rw [f1]; exact hR, S.1.take S.2, hrl, ?_, ?_⟩
    · simp [s3]
    · intro _; exact ⟨s4, f3⟩
    · intro h; cases h
  | true =>
    generalize hF : fillBytes ws (List.replicate L 0) (S.1.take S.2) = F at *
    obtain ⟨g1, g2, g3⟩ := signFill_spec hw (L * ws - S.2) F S.2 f2 (by rw [f1]; omega) (by rw [f3]; exact hbv)
    rw [f1] at g1
    have hLpos : 0 < L := by rw [hk]; exact Nat.two_pow_pos _
    have hne : signFill ws (L * ws - S.2) F S.2 ≠ [] := by
      intro h; rw [h] at g1; simp at g1; omega
    obtain ⟨t1, t2, t3⟩ := twosComplement_spec hB _ g2 hne
    rw [g1] at t1 t3
    refine ⟨twosComplement (base ws) (signFill ws (L * ws - S.2) F S.2), S.2, n - S.2, k, ?_, t2, by rw [t1, hk], by omega,
      by rw [t1]; exact hR, S.1.take S.2, hrl, ?_, ?_⟩
    · simp [s3, f1]
    · intro h; cases h
    · intro _
      refine ⟨s4, ?_⟩
      rw [t3, t1]
      have e : base ws ^ L = 256 ^ (L * ws) := by rw [base_eq, ← Nat.pow_mul, Nat.mul_comm]
      rw [e]
      congr 1
      rw [show S.2 + (L * ws - S.2) = L * ws by omega, f3] at g3
      have hmono := Nat.pow_le_pow_right (n := 256) (by omega) hR
      omega

theorem decode_unsigned_spec (hw : 0 < ws) (bt : List Byte) (n : Nat) (hn : n ≤ bt.length) :
    ∃ x, decode ws bt n false = .ok (x, bt.drop n) ∧ Ok ws x ∧ value ws x = beVal (bt.take n) := by
  obtain ⟨reg, m, j, k, h1, h2, h3, h4, h5, rest, h6, h7, _⟩ := decode_core hw bt n false hn (by simp)
  obtain ⟨e1, e2⟩ := h7 rfl
  refine ⟨_, h1, ⟨h2, ⟨k, h3⟩, by simp⟩, ?_⟩
  rw [value_pos (by simp)]
  simp only
  rw [e2, e1, beVal_append, beVal_replicate_zero]; simp

theorem headD_take {bt : List Byte} {n : Nat} (h : 0 < n) : (bt.take n).headD 0 = bt.headD 0 := by
  cases bt with
  | nil => simp
  | cons b bs => cases n with
    | zero => omega
    | succ n => simp

theorem ofTwos_ff (j : Nat) (rest : List Byte) (h : 128 ≤ ((List.replicate j (0xff : Byte) ++ rest).headD 0).toNat) :
    ofTwos (List.replicate j 0xff ++ rest) = (beVal rest : Int) - 256 ^ rest.length := by
  unfold ofTwos
  rw [if_pos h, beVal_append, List.length_append, List.length_replicate]
  have := beVal_replicate_ff j
  have e : beVal (List.replicate j (0xff : Byte)) = 256 ^ j - 1 := by omega
  rw [e]
  have hp : 1 ≤ 256 ^ j := Nat.one_le_pow _ _ (by omega)
  push_cast [hp]
  rw [pow_add]
  ring

/-- Signed decoding: the exact outcome for every non-empty encoding. -/
theorem decode_signed_core (hw : 0 < ws) (bt : List Byte) (n : Nat) (hn : n ≤ bt.length) (h0 : 0 < n) :
    ∃ x, decode ws bt n true = .ok (x, bt.drop n) ∧
      ((∀ k, ofTwos (bt.take n) ≠ -(2 ^ (8 * ws * 2 ^ (k + 1)))) → Ok ws x ∧ value ws x = ofTwos (bt.take n)) ∧
      ((∃ k, ofTwos (bt.take n) = -(2 ^ (8 * ws * 2 ^ (k + 1)))) → x.neg = true) := by
  have hne : bt ≠ [] := by intro h; rw [h] at hn; simp at hn; omega
  obtain ⟨reg, m, j, k, h1, h2, h3, h4, h5, rest, h6, h7, h8⟩ := decode_core hw bt n true hn (fun _ => hne)
  have hneg : (true && ((bt.headD 0 &&& 0x80) != 0)) = decide (128 ≤ ((bt.take n).headD 0).toNat) := by
    rw [headD_take h0, Bool.true_and]
    have := byte_and_80 (bt.headD 0)
    by_cases hb : 128 ≤ (bt.headD 0).toNat
    · rw [decide_eq_true hb]; simpa using this.mpr hb
    · rw [decide_eq_false hb]
      have := mt this.mp hb
      simpa using this
  rw [hneg] at h1 h7 h8
  by_cases hb : 128 ≤ ((bt.take n).headD 0).toNat
  · rw [decide_eq_true hb] at h1 h8
    obtain ⟨e1, e2⟩ := h8 rfl
    refine ⟨_, h1, ?_, fun _ => rfl⟩
    intro hex
    have ho : ofTwos (bt.take n) = (beVal rest : Int) - 256 ^ m := by
      rw [e1] at hb ⊢
      rw [ofTwos_ff j rest hb, h6]
    have hlt := beVal_lt rest
    rw [h6] at hlt
    have hmag : wval (base ws) reg = 256 ^ m - beVal rest := by
      rw [e2]
      apply Nat.mod_eq_of_lt
      have hmono := Nat.pow_le_pow_right (n := 256) (by omega) h5
      rcases Nat.eq_zero_or_pos (beVal rest) with hz | hz
      · rcases Nat.lt_or_ge m (reg.length * ws) with hlt' | hge'
        · have := Nat.pow_lt_pow_right (a := 256) (by omega) hlt'
          omega
        · exfalso
          apply hex k
          have em : m = reg.length * ws := by omega
          rw [ho, hz, em, h3]
          have : (2 : Int) ^ (8 * ws * 2 ^ (k + 1)) = 256 ^ (2 ^ (k + 1) * ws) := by
            rw [Nat.mul_assoc, pow_mul, Nat.mul_comm ws]; norm_num
          rw [this]; simp
      · omega
    have hp : 0 < wval (base ws) reg := by rw [hmag]; omega
    refine ⟨⟨h2, ⟨k, h3⟩, fun _ => by simp only; omega⟩, ?_⟩
    rw [value_neg rfl, ho]
    simp only
    rw [hmag, Nat.cast_sub (by omega)]
    push_cast; ring
  · rw [decide_eq_false hb] at h1 h7
    obtain ⟨e1, e2⟩ := h7 rfl
    have ho : ofTwos (bt.take n) = (beVal (bt.take n) : Int) := by unfold ofTwos; rw [if_neg hb]
    refine ⟨_, h1, fun _ => ⟨⟨h2, ⟨k, h3⟩, by simp⟩, ?_⟩, ?_⟩
    · rw [value_pos rfl, ho, e1, beVal_append, beVal_replicate_zero]
      simp only
      rw [e2]; simp
    · rintro ⟨k', hk'⟩
      rw [ho] at hk'
      have : (0 : Int) < 2 ^ (8 * ws * 2 ^ (k' + 1)) := by positivity
      omega

/-! ### Two's complement -/

theorem twosBytes_length (n : Nat) (v : Int) : (twosBytes n v).length = n := by simp [twosBytes]

theorem ofTwos_twosBytes {n : Nat} {v : Int} (hn : 1 ≤ n) (h : FitsSigned n v) : ofTwos (twosBytes n v) = v := by
  have e256 : (256 : Int) ^ n = 2 * 2 ^ (8 * n - 1) := by
    rw [show (256 : Int) = 2 ^ 8 by norm_num, ← pow_mul, ← pow_succ']; congr 1; omega
  have e2 : (2 : Int) ^ (8 * n - 1) = 128 * 256 ^ (n - 1) := by
    rw [show (256 : Int) = 2 ^ 8 by norm_num, show (128 : Int) = 2 ^ 7 by norm_num, ← pow_mul, ← pow_add]; congr 1; omega
  obtain ⟨h1, h2⟩ := h
  have hpos : (0 : Int) < 256 ^ n := by positivity
  have hm0 := Int.emod_nonneg v (by omega : (256 : Int) ^ n ≠ 0)
  have hm1 := Int.emod_lt_of_pos v hpos
  generalize hu : (v % 256 ^ n).toNat = u
  have hu' : (u : Int) = v % 256 ^ n := by rw [← hu, Int.toNat_of_nonneg hm0]
  have hult : u < 256 ^ n := by
    have : (u : Int) < ((256 ^ n : Nat) : Int) := by rw [hu']; push_cast; exact hm1
    exact_mod_cast this
  obtain ⟨m, rfl⟩ : ∃ m, n = m + 1 := ⟨n - 1, by omega⟩
  have hhead : ((twosBytes (m + 1) v).headD 0).toNat = u / 256 ^ m := by
    unfold twosBytes
    rw [hu, beBytes_succ]
    simp only [List.headD_cons, BitVec.toNat_ofNat]
    apply Nat.mod_eq_of_lt
    apply Nat.div_lt_of_lt_mul
    rw [Nat.pow_succ] at hult; omega
  have hval : beVal (twosBytes (m + 1) v) = u := by
    unfold twosBytes
    rw [hu, beVal_beBytes, Nat.mod_eq_of_lt hult]
  unfold ofTwos
  rw [hhead, hval, twosBytes_length, hu']
  simp only [Nat.le_div_iff_mul_le (Nat.pow_pos (n := m) (by omega : 0 < 256))]
  have hc : ((128 * 256 ^ m : Nat) : Int) = 2 ^ (8 * (m + 1) - 1) := by rw [e2]; push_cast; simp
  rcases Int.lt_or_le v 0 with hv | hv
  · have e3 : v % 256 ^ (m + 1) = v + 256 ^ (m + 1) := by
      rw [← Int.add_emod_right]
      exact Int.emod_eq_of_lt (by omega) (by omega)
    rw [e3] at hu' ⊢
    rw [if_pos (by
      have : ((128 * 256 ^ m : Nat) : Int) ≤ u := by rw [hc, hu']; omega
      exact_mod_cast this)]
    omega
  · have e3 : v % 256 ^ (m + 1) = v := Int.emod_eq_of_lt hv (by omega)
    rw [e3] at hu' ⊢
    rw [if_neg (by
      intro h
      have : ((128 * 256 ^ m : Nat) : Int) ≤ u := by exact_mod_cast h
      rw [hc, hu'] at this
      omega)]

end Verif.Integer
