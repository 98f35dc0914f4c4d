import Verif.Cipher.Classic
import Verif.Cipher.FeistelProofs
import Mathlib.FieldTheory.Finite.Basic
import Mathlib.Tactic.NormNum.Prime
import Mathlib.Tactic.Ring

/-! # IDEA: proofs -/
namespace Verif.Cipher.Idea
open Verif

/-! ## The low 16 bits -/

/-- The low 16 bits of a variable. -/
def lo {w : Nat} (x : BitVec w) : BitVec 16 := x.setWidth 16

theorem low16_toNat {w : Nat} (hw : 16 ≤ w) (x : BitVec w) : (low16 x).toNat = x.toNat % 65536 := by
  unfold low16
  have h1 : (65535 : Nat) < 2 ^ w := Nat.lt_of_lt_of_le (by decide) (Nat.pow_le_pow_right (by decide) hw)
  rw [BitVec.toNat_and, BitVec.toNat_ofNat, Nat.mod_eq_of_lt h1]
  exact Nat.and_two_pow_sub_one_eq_mod x.toNat 16

theorem lo_toNat {w : Nat} (x : BitVec w) : (lo x).toNat = x.toNat % 65536 := BitVec.toNat_setWidth 16 x

theorem lo_low16 {w : Nat} (hw : 16 ≤ w) (x : BitVec w) : lo (low16 x) = lo x := by
  apply BitVec.eq_of_toNat_eq
  rw [lo_toNat, lo_toNat, low16_toNat hw, Nat.mod_mod]

theorem dvd_pow {w : Nat} (hw : 16 ≤ w) : 65536 ∣ 2 ^ w := by
  obtain ⟨k, rfl⟩ := Nat.exists_eq_add_of_le hw
  exact ⟨2 ^ k, by rw [Nat.pow_add]⟩

theorem lo_add {w : Nat} (hw : 16 ≤ w) (x y : BitVec w) : lo (x + y) = lo x + lo y := by
  apply BitVec.eq_of_toNat_eq
  rw [lo_toNat, BitVec.toNat_add, BitVec.toNat_add, lo_toNat, lo_toNat, Nat.mod_mod_of_dvd _ (dvd_pow hw), ← Nat.add_mod]

theorem lo_xor {w : Nat} (x y : BitVec w) : lo (x ^^^ y) = lo x ^^^ lo y := BitVec.setWidth_xor

theorem lo_sub {w : Nat} (hw : 16 ≤ w) (x y : BitVec w) : lo (x - y) = lo x - lo y := by
  have h := lo_add hw (x - y) y
  rw [BitVec.sub_add_cancel] at h
  rw [h, BitVec.add_sub_cancel]

/-- Words of the key have 16 bits. -/
def Small {w : Nat} (x : BitVec w) : Prop := x.toNat < 65536

theorem lo_mul {w : Nat} (hw : 16 ≤ w) (a b : BitVec w) (hb : Small b) : lo (mul a b) = mul (lo a) (lo b) := by
  have hp : (low16 a).setWidth 32 * b.setWidth 32 = (low16 (lo a)).setWidth 32 * (lo b).setWidth 32 := by
    congr 1
    · apply BitVec.eq_of_toNat_eq
      rw [BitVec.toNat_setWidth, BitVec.toNat_setWidth, low16_toNat hw, low16_toNat (Nat.le_refl 16), lo_toNat, Nat.mod_mod]
    · apply BitVec.eq_of_toNat_eq
      rw [BitVec.toNat_setWidth, BitVec.toNat_setWidth, lo_toNat, Nat.mod_eq_of_lt (a := b.toNat) (b := 65536) hb]
  unfold mul
  simp only []
  rw [hp]
  generalize (low16 (lo a)).setWidth 32 * (lo b).setWidth 32 = p
  by_cases h : p ≠ 0
  · rw [if_pos h, if_pos h, lo_sub hw]
    unfold lo
    rw [BitVec.setWidth_setWidth_of_le _ hw, BitVec.setWidth_setWidth_of_le _ hw]
  · rw [if_neg h, if_neg h, lo_sub hw, lo_sub hw]
    congr 2
    apply BitVec.eq_of_toNat_eq
    rw [lo_toNat]
    obtain ⟨k, rfl⟩ := Nat.exists_eq_add_of_le hw
    show (1 % 2 ^ (16 + k)) % 65536 = 1
    have : 1 < 2 ^ (16 + k) := Nat.one_lt_two_pow (by omega)
    rw [Nat.mod_eq_of_lt this]

/-! ## Multiplication modulo 65537 -/

/-- The number a word of 16 bits stands for. -/
def phi (x : BitVec 16) : Nat := if x.toNat = 0 then 65536 else x.toNat

theorem phi_pos (x : BitVec 16) : 0 < phi x ∧ phi x < 65537 := by
  unfold phi
  have := x.isLt
  split <;> omega

theorem phi_inj {x y : BitVec 16} (h : phi x = phi y) : x = y := by
  apply BitVec.eq_of_toNat_eq
  have hx := x.isLt
  have hy := y.isLt
  unfold phi at h
  split at h <;> split at h <;> omega

theorem prime65537 : Nat.Prime 65537 := by norm_num

theorem reduce_eq (P : Nat) (hlt : P < 65536 * 65536) (hmod : P % 65537 ≠ 0) :
    (if (65536 - (2 ^ 32 - P / 65536 + P % 65536) % 2 ^ 32 / 65536 % 65536 + (2 ^ 32 - P / 65536 + P % 65536) % 2 ^ 32 % 65536) % 65536 = 0 then 65536
      else (65536 - (2 ^ 32 - P / 65536 + P % 65536) % 2 ^ 32 / 65536 % 65536 + (2 ^ 32 - P / 65536 + P % 65536) % 2 ^ 32 % 65536) % 65536) = P % 65537 := by
  have hP := Nat.div_add_mod P 65536
  have hH : P / 65536 < 65536 := by omega
  have hL : P % 65536 < 65536 := Nat.mod_lt _ (by decide)
  generalize P / 65536 = H at *
  generalize P % 65536 = L at *
  by_cases h : H ≤ L
  · have e : P % 65537 = L - H := by
      have : P = L - H + 65537 * H := by omega
      rw [this, Nat.add_mul_mod_self_left, Nat.mod_eq_of_lt (by omega)]
    have q : (2 ^ 32 - H + L) % 2 ^ 32 = L - H := by
      have : 2 ^ 32 - H + L = L - H + 2 ^ 32 := by omega
      rw [this, Nat.add_mod_right, Nat.mod_eq_of_lt (by omega)]
    have r : (65536 - (L - H) / 65536 % 65536 + (L - H) % 65536) % 65536 = L - H := by
      have h1 : L - H < 65536 := by omega
      rw [Nat.div_eq_of_lt h1, Nat.mod_eq_of_lt h1]
      have : 65536 - 0 % 65536 + (L - H) = L - H + 65536 := by omega
      rw [this, Nat.add_mod_right, Nat.mod_eq_of_lt h1]
    rw [q, r, if_neg (by omega), e]
  · have e : P % 65537 = 65537 + L - H := by
      have : P = 65537 + L - H + 65537 * (H - 1) := by omega
      rw [this, Nat.add_mul_mod_self_left, Nat.mod_eq_of_lt (by omega)]
    have q : (2 ^ 32 - H + L) % 2 ^ 32 = 2 ^ 32 - H + L := Nat.mod_eq_of_lt (by omega)
    have r1 : (2 ^ 32 - H + L) / 65536 = 65535 := by omega
    have r2 : (2 ^ 32 - H + L) % 65536 = 65536 - H + L := by omega
    rw [q, r1, r2, e]
    split <;> omega

theorem negate_mod (b : Nat) (h0 : 0 < b) (h : b < 65537) : 65536 * b % 65537 = 65537 - b := by
  have : 65536 * b = 65537 - b + 65537 * (b - 1) := by omega
  rw [this, Nat.add_mul_mod_self_left, Nat.mod_eq_of_lt (by omega)]

theorem phi_mul (a b : BitVec 16) : phi (mul a b) = phi a * phi b % 65537 := by
  have ha := a.isLt
  have hb := b.isLt
  have hp : ((low16 a).setWidth 32 * b.setWidth 32).toNat = a.toNat * b.toNat := by
    rw [BitVec.toNat_mul, BitVec.toNat_setWidth, BitVec.toNat_setWidth, low16_toNat (Nat.le_refl 16), Nat.mod_eq_of_lt (a := a.toNat) (b := 65536) ha,
      Nat.mod_eq_of_lt (a := a.toNat) (b := 2 ^ 32) (by omega), Nat.mod_eq_of_lt (a := b.toNat) (b := 2 ^ 32) (by omega)]
    have : a.toNat * b.toNat ≤ 65535 * 65535 := Nat.mul_le_mul (by omega) (by omega)
    exact Nat.mod_eq_of_lt (by omega)
  unfold mul
  simp only []
  generalize (low16 a).setWidth 32 * b.setWidth 32 = p at hp
  by_cases h : p ≠ 0
  · rw [if_pos h]
    have hp0 : a.toNat * b.toNat ≠ 0 := by
      intro h0; apply h; apply BitVec.eq_of_toNat_eq; rw [hp, h0]; rfl
    have ha0 : a.toNat ≠ 0 := fun h0 => hp0 (by rw [h0, Nat.zero_mul])
    have hb0 : b.toNat ≠ 0 := fun h0 => hp0 (by rw [h0, Nat.mul_zero])
    have hnd : ¬ 65537 ∣ a.toNat * b.toNat := by
      intro hd
      rcases (Nat.Prime.dvd_mul prime65537).mp hd with hd | hd
      · have := Nat.le_of_dvd (by omega) hd; omega
      · have := Nat.le_of_dvd (by omega) hd; omega
    have ea : phi a = a.toNat := if_neg ha0
    have eb : phi b = b.toNat := if_neg hb0
    rw [ea, eb]
    have hmod : a.toNat * b.toNat % 65537 ≠ 0 := fun h => hnd (Nat.dvd_of_mod_eq_zero h)
    have hlt : a.toNat * b.toNat < 65536 * 65536 := by
      have : a.toNat * b.toNat ≤ 65535 * 65535 := Nat.mul_le_mul (by omega) (by omega)
      omega
    have e : ((low16 p - p >>> 16).setWidth 16 - ((low16 p - p >>> 16) >>> 16).setWidth 16 : BitVec 16).toNat =
        (65536 - (2 ^ 32 - a.toNat * b.toNat / 65536 + a.toNat * b.toNat % 65536) % 2 ^ 32 / 65536 % 65536 + (2 ^ 32 - a.toNat * b.toNat / 65536 + a.toNat * b.toNat % 65536) % 2 ^ 32 % 65536) % 65536 := by
      rw [BitVec.toNat_sub, BitVec.toNat_setWidth, BitVec.toNat_setWidth, BitVec.toNat_ushiftRight, BitVec.toNat_sub, low16_toNat (by decide), BitVec.toNat_ushiftRight, hp]
      simp only [Nat.shiftRight_eq_div_pow]
    unfold phi
    rw [e]
    exact reduce_eq _ hlt hmod
  · rw [if_neg h]
    have hp0 : a.toNat * b.toNat = 0 := by
      rw [← hp, Classical.not_not.mp h]; rfl
    have e : (1 - a - b : BitVec 16).toNat = (65536 - b.toNat + (65536 - a.toNat + 1) % 65536) % 65536 := by
      rw [BitVec.toNat_sub, BitVec.toNat_sub]; rfl
    unfold phi
    rw [e]
    rcases Nat.mul_eq_zero.mp hp0 with h0 | h0
    · rw [h0]
      by_cases hb0 : b.toNat = 0
      · rw [hb0]; decide
      · rw [if_neg hb0, if_pos rfl, negate_mod _ (by omega) (by omega)]
        have : (65536 - b.toNat + (65536 - 0 + 1) % 65536) % 65536 = (65536 - b.toNat + 1) % 65536 := rfl
        rw [this]
        by_cases h1 : b.toNat = 1
        · rw [h1]; decide
        · rw [Nat.mod_eq_of_lt (by omega), if_neg (by omega)]; omega
    · rw [h0]
      by_cases ha0 : a.toNat = 0
      · rw [ha0]; decide
      · rw [if_neg ha0, if_pos rfl, Nat.mul_comm a.toNat, negate_mod _ (by omega) (by omega)]
        have : (65536 - 0 + (65536 - a.toNat + 1) % 65536) % 65536 = (65536 - a.toNat + 1) % 65536 := by
          rw [Nat.sub_zero, Nat.add_mod_left, Nat.mod_mod]
        rw [this]
        by_cases h1 : a.toNat = 1
        · rw [h1]; decide
        · rw [Nat.mod_eq_of_lt (by omega), if_neg (by omega)]; omega

/-- In the field. -/
def psi (x : BitVec 16) : ZMod 65537 := (phi x : ZMod 65537)

theorem psi_mul (a b : BitVec 16) : psi (mul a b) = psi a * psi b := by
  unfold psi
  rw [phi_mul, ZMod.natCast_mod, Nat.cast_mul]

theorem psi_inj {x y : BitVec 16} (h : psi x = psi y) : x = y := by
  apply phi_inj
  have := (ZMod.natCast_eq_natCast_iff' _ _ _).mp h
  rwa [Nat.mod_eq_of_lt (phi_pos x).2, Nat.mod_eq_of_lt (phi_pos y).2] at this

instance : Fact (Nat.Prime 65537) := ⟨prime65537⟩

theorem psi_ne (x : BitVec 16) : psi x ≠ 0 := by
  intro h
  have := (ZMod.natCast_eq_zero_iff _ _).mp h
  have h2 := Nat.le_of_dvd (phi_pos x).1 this
  have := (phi_pos x).2
  omega

/-- One is the multiplicative inverse of the other. -/
def MInv (x y : BitVec 16) : Prop := psi x * psi y = 1

theorem MInv.symm {x y : BitVec 16} (h : MInv x y) : MInv y x := by
  unfold MInv at *; rw [mul_comm]; exact h

theorem MInv.cancel {x y : BitVec 16} (h : MInv x y) (a : BitVec 16) : mul (mul a x) y = a := by
  apply psi_inj
  rw [psi_mul, psi_mul, mul_assoc, h, mul_one]

theorem psi_square_step (x y : BitVec 16) (n : Nat) (h : psi y = psi x ^ n) : psi (mul (mul y y) x) = psi x ^ (2 * n + 1) := by
  rw [psi_mul, psi_mul, h]; ring

theorem mulInv_inv {w : Nat} (hw : 16 ≤ w) (x : BitVec w) (hx : Small x) : MInv (lo x) (lo (mulInv x)) := by
  have step : ∀ (y : BitVec w) (n : Nat), psi (lo y) = psi (lo x) ^ n → psi (lo (mul (mul y (low16 y)) x)) = psi (lo x) ^ (2 * n + 1) := by
    intro y n h
    have h1 : Small (low16 y) := by
      unfold Small; rw [low16_toNat hw]; exact Nat.mod_lt _ (by decide)
    rw [lo_mul hw _ _ hx, lo_mul hw _ _ h1, lo_low16 hw]
    exact psi_square_step _ _ n h
  have rep : ∀ k, psi (lo (Nat.repeat (fun y => mul (mul y (low16 y)) x) k x)) = psi (lo x) ^ (2 ^ (k + 1) - 1) := by
    intro k
    induction k with
    | zero => show psi (lo x) = _; simp
    | succ k ih =>
      have := step _ _ ih
      have e : 2 * (2 ^ (k + 1) - 1) + 1 = 2 ^ (k + 1 + 1) - 1 := by
        have : 0 < 2 ^ (k + 1) := Nat.two_pow_pos _
        rw [Nat.pow_succ 2 (k + 1)]; omega
      rw [e] at this
      exact this
  unfold MInv mulInv
  rw [lo_low16 hw, rep 15]
  have := ZMod.pow_card_sub_one_eq_one (psi_ne (lo x))
  rw [← pow_succ']
  exact this

/-! ## Rounds on words of 16 bits -/

/-- The states that a key of 16-bit words and rounds on 16-bit variables go through. -/
def los {w : Nat} (s : St w) : St 16 := (lo s.1, lo s.2.1, lo s.2.2.1, lo s.2.2.2)

/-- The words of a key added and multiplied. -/
def T (a b c d : BitVec 16) (s : St 16) : St 16 := (mul s.1 a, s.2.1 + b, s.2.2.1 + c, mul s.2.2.2 d)
/-- The middle words exchanged. -/
def S (s : St 16) : St 16 := (s.1, s.2.2.1, s.2.1, s.2.2.2)
/-- The multiplication-addition structure. -/
def N (e f : BitVec 16) (s : St 16) : St 16 :=
  let t0 := mul (s.1 ^^^ s.2.2.1) e
  let t1 := mul (t0 + (s.2.1 ^^^ s.2.2.2)) f
  (s.1 ^^^ t1, s.2.1 ^^^ (t0 + t1), s.2.2.1 ^^^ t1, s.2.2.2 ^^^ (t0 + t1))

theorem S_S (s : St 16) : S (S s) = s := rfl

theorem xor_cancel2 (a b c : BitVec 16) : (a ^^^ c) ^^^ (b ^^^ c) = a ^^^ b := by
  rw [BitVec.xor_assoc, BitVec.xor_comm b c, ← BitVec.xor_assoc c, BitVec.xor_self, BitVec.zero_xor]

theorem N_N (e f : BitVec 16) (s : St 16) : N e f (N e f s) = s := by
  unfold N
  simp only [xor_cancel2, xor_xor_cancel]

theorem T_T {a b c d a' b' c' d' : BitVec 16} (h1 : MInv a a') (h2 : b + b' = 0) (h3 : c + c' = 0) (h4 : MInv d d') (s : St 16) : T a' b' c' d' (T a b c d s) = s := by
  unfold T
  simp only [h1.cancel, h4.cancel, BitVec.add_assoc, h2, h3]
  simp

theorem T_S_T {a b c d a' b' c' d' : BitVec 16} (h1 : MInv a a') (h2 : b + c' = 0) (h3 : c + b' = 0) (h4 : MInv d d') (s : St 16) : T a' b' c' d' (S (T a b c d s)) = S s := by
  unfold T S
  simp only [h1.cancel, h4.cancel, BitVec.add_assoc, h2, h3]
  simp

/-- A round on 16-bit words. -/
def round16 (K : Nat → BitVec 16) (i : Nat) (s : St 16) : St 16 :=
  S (N (K (i * 6 + 4)) (K (i * 6 + 5)) (T (K (i * 6)) (K (i * 6 + 1)) (K (i * 6 + 2)) (K (i * 6 + 3)) s))

/-- The whole transformation on 16-bit words. -/
def process16 (K : Nat → BitVec 16) (s : St 16) : St 16 :=
  T (K 48) (K 49) (K 50) (K 51) (S ((List.range 8).foldl (fun s i => round16 K i s) s))

theorem round_lo {w : Nat} (hw : 16 ≤ w) {k : List (BitVec w)} (hk : ∀ i, Small (wd k i)) (i : Nat) (s : St w) :
    los (round k i s) = round16 (fun j => lo (wd k j)) i (los s) := by
  obtain ⟨x0, x1, x2, x3⟩ := s
  simp only [los, round, round16, S, N, T, lo_mul hw _ _ (hk _), lo_add hw, lo_xor]
  simp only [Prod.mk.injEq, true_and, and_true]
  exact BitVec.xor_comm _ _

/-- Four words as a state. -/
def inp (l : List W16) : St 16 := (wd l 0, wd l 1, wd l 2, wd l 3)
/-- And back. -/
def out (s : St 16) : List W16 := [s.1, s.2.1, s.2.2.1, s.2.2.2]

theorem inp_out (s : St 16) : inp (out s) = s := rfl
theorem out_inp (l : List W16) (h : l.length = 4) : out (inp l) = l := by
  match l, h with
  | [a, b, c, d], _ => rfl

theorem process_lo {w : Nat} (hw : 16 ≤ w) {k : List (BitVec w)} (hk : ∀ i, Small (wd k i)) (l : List W16) :
    process k l = out (process16 (fun j => lo (wd k j)) (inp l)) := by
  have h0 : ∀ x : BitVec 16, lo (x.setWidth w) = x := by
    intro x; unfold lo; rw [BitVec.setWidth_setWidth_of_le _ hw]; exact BitVec.setWidth_eq x
  have hf : ∀ (n : Nat) (s : St w), los ((List.range n).foldl (fun s i => round k i s) s) = (List.range n).foldl (fun s i => round16 (fun j => lo (wd k j)) i s) (los s) := by
    intro n s
    induction n with
    | zero => rfl
    | succ n ih => rw [List.range_succ, List.foldl_append, List.foldl_append, List.foldl_cons, List.foldl_nil, round_lo hw hk, ih, List.foldl_cons, List.foldl_nil]
  have h8 := hf 8 ((wd l 0).setWidth w, (wd l 1).setWidth w, (wd l 2).setWidth w, (wd l 3).setWidth w)
  unfold process process16
  simp only []
  generalize List.foldl (fun s i => round k i s) _ (List.range 8) = t at h8 ⊢
  rw [show los ((wd l 0).setWidth w, (wd l 1).setWidth w, (wd l 2).setWidth w, (wd l 3).setWidth w) = inp l from by
    unfold los inp; simp only [h0]] at h8
  rw [← h8]
  obtain ⟨x0, x1, x2, x3⟩ := t
  simp only [S, T, los]
  rw [← lo_mul hw _ _ (hk _), ← lo_mul hw _ _ (hk _), ← lo_add hw, ← lo_add hw]
  rfl

/-- One key undoes the other. -/
def Rel (K K' : Nat → BitVec 16) : Prop :=
  (∀ i, i ≤ 8 → MInv (K (6 * (8 - i))) (K' (6 * i)) ∧ MInv (K (6 * (8 - i) + 3)) (K' (6 * i + 3))) ∧
  (∀ i, 1 ≤ i → i ≤ 7 → K (6 * (8 - i) + 1) + K' (6 * i + 2) = 0 ∧ K (6 * (8 - i) + 2) + K' (6 * i + 1) = 0) ∧
  (∀ i, i = 0 ∨ i = 8 → K (6 * (8 - i) + 1) + K' (6 * i + 1) = 0 ∧ K (6 * (8 - i) + 2) + K' (6 * i + 2) = 0) ∧
  (∀ i, i < 8 → K' (6 * i + 4) = K (6 * (7 - i) + 4) ∧ K' (6 * i + 5) = K (6 * (7 - i) + 5))

theorem Rel.symm {K K' : Nat → BitVec 16} (h : Rel K K') : Rel K' K := by
  obtain ⟨h1, h2, h3, h4⟩ := h
  refine ⟨fun i hi => ?_, fun i hi hi' => ?_, fun i hi => ?_, fun i hi => ?_⟩
  · have := h1 (8 - i) (by omega)
    rw [show 8 - (8 - i) = i by omega] at this
    exact ⟨this.1.symm, this.2.symm⟩
  · have := h2 (8 - i) (by omega) (by omega)
    rw [show 8 - (8 - i) = i by omega, BitVec.add_comm, BitVec.add_comm (K (6 * i + 2))] at this
    exact ⟨this.2, this.1⟩
  · have := h3 (8 - i) (by omega)
    rw [show 8 - (8 - i) = i by omega, BitVec.add_comm, BitVec.add_comm (K (6 * i + 2))] at this
    exact this
  · have := h4 (7 - i) (by omega)
    rw [show 7 - (7 - i) = i by omega] at this
    exact ⟨this.1.symm, this.2.symm⟩

theorem process_rel {K K' : Nat → BitVec 16} (h : Rel K K') (s : St 16) : process16 K' (process16 K s) = s := by
  obtain ⟨h1, h2, h3, h4⟩ := h
  have t0 := fun s => T_T (h1 0 (by decide)).1 (h3 0 (.inl rfl)).1 (h3 0 (.inl rfl)).2 (h1 0 (by decide)).2 s
  have t8 := fun s => T_T (h1 8 (by decide)).1 (h3 8 (.inr rfl)).1 (h3 8 (.inr rfl)).2 (h1 8 (by decide)).2 s
  have t1 := fun s => T_S_T (h1 1 (by decide)).1 (h2 1 (by decide) (by decide)).1 (h2 1 (by decide) (by decide)).2 (h1 1 (by decide)).2 s
  have t2 := fun s => T_S_T (h1 2 (by decide)).1 (h2 2 (by decide) (by decide)).1 (h2 2 (by decide) (by decide)).2 (h1 2 (by decide)).2 s
  have t3 := fun s => T_S_T (h1 3 (by decide)).1 (h2 3 (by decide) (by decide)).1 (h2 3 (by decide) (by decide)).2 (h1 3 (by decide)).2 s
  have t4 := fun s => T_S_T (h1 4 (by decide)).1 (h2 4 (by decide) (by decide)).1 (h2 4 (by decide) (by decide)).2 (h1 4 (by decide)).2 s
  have t5 := fun s => T_S_T (h1 5 (by decide)).1 (h2 5 (by decide) (by decide)).1 (h2 5 (by decide) (by decide)).2 (h1 5 (by decide)).2 s
  have t6 := fun s => T_S_T (h1 6 (by decide)).1 (h2 6 (by decide) (by decide)).1 (h2 6 (by decide) (by decide)).2 (h1 6 (by decide)).2 s
  have t7 := fun s => T_S_T (h1 7 (by decide)).1 (h2 7 (by decide) (by decide)).1 (h2 7 (by decide) (by decide)).2 (h1 7 (by decide)).2 s
  obtain ⟨e0, f0⟩ := h4 0 (by decide)
  obtain ⟨e1, f1⟩ := h4 1 (by decide)
  obtain ⟨e2, f2⟩ := h4 2 (by decide)
  obtain ⟨e3, f3⟩ := h4 3 (by decide)
  obtain ⟨e4, f4⟩ := h4 4 (by decide)
  obtain ⟨e5, f5⟩ := h4 5 (by decide)
  obtain ⟨e6, f6⟩ := h4 6 (by decide)
  obtain ⟨e7, f7⟩ := h4 7 (by decide)
  simp only [Nat.reduceMul, Nat.reduceSub, Nat.reduceAdd] at t0 t1 t2 t3 t4 t5 t6 t7 t8 e0 f0 e1 f1 e2 f2 e3 f3 e4 f4 e5 f5 e6 f6 e7 f7
  have hr : List.range 8 = [0, 1, 2, 3, 4, 5, 6, 7] := by decide
  unfold process16
  rw [hr]
  simp only [List.foldl_cons, List.foldl_nil, round16, Nat.reduceMul, Nat.reduceAdd, S_S, t0, t1, t2, t3, t4, t5, t6, t7, t8, N_N, e0, f0, e1, f1, e2, f2, e3, f3, e4, f4, e5, f5, e6, f6, e7, f7]

/-! ## Keys -/

theorem small_low16 {w : Nat} (hw : 16 ≤ w) (x : BitVec w) : Small (low16 x) := by
  unfold Small; rw [low16_toNat hw]; exact Nat.mod_lt _ (by decide)

theorem small_wd {w : Nat} {k : List (BitVec w)} (hk : ∀ x ∈ k, Small x) (i : Nat) : Small (wd k i) := by
  unfold wd
  rw [List.getD_eq_getElem?_getD]
  cases h : k[i]? with
  | none => show (0#w).toNat < 65536; simp
  | some x => exact hk x (List.mem_of_getElem? h)

theorem enKeyLoop_spec {w : Nat} (hw : 16 ≤ w) : ∀ (n : Nat) (k : List (BitVec w)), (∀ x ∈ k, Small x) →
    (∀ x ∈ enKeyLoop n k, Small x) ∧ (enKeyLoop n k).length = k.length + n
  | 0, k, h => ⟨h, rfl⟩
  | n + 1, k, h => by
    unfold enKeyLoop
    obtain ⟨i1, i2⟩ := enKeyLoop_spec hw n (k ++ [low16 ((wd k (k.length / 8 * 8 - 8 + (k.length + 1) % 8) <<< 9) ||| (wd k (k.length / 8 * 8 - 8 + (k.length + 2) % 8) >>> 7))]) (by
      intro x hx
      rcases List.mem_append.mp hx with hx | hx
      · exact h x hx
      · rw [List.mem_singleton.mp hx]; exact small_low16 hw _)
    refine ⟨i1, ?_⟩
    rw [i2, List.length_append, List.length_singleton]; omega

theorem first_small {w : Nat} (hw : 16 ≤ w) (key : List Byte) :
    ∀ x ∈ (List.range 8).map (fun i => ((key.getD (2 * i) 0).setWidth w <<< 8) ||| (key.getD (2 * i + 1) 0).setWidth w), Small x := by
  intro x hx
  obtain ⟨i, _, rfl⟩ := List.mem_map.mp hx
  generalize key.getD (2 * i) 0 = a
  generalize key.getD (2 * i + 1) 0 = b
  have hp : 2 ^ 16 ≤ 2 ^ w := Nat.pow_le_pow_right (by decide) hw
  have ha := a.isLt
  have hb := b.isLt
  unfold Small
  rw [BitVec.toNat_or, BitVec.toNat_shiftLeft, BitVec.toNat_setWidth, BitVec.toNat_setWidth, Nat.mod_eq_of_lt (a := a.toNat) (by omega), Nat.mod_eq_of_lt (a := b.toNat) (by omega),
    Nat.shiftLeft_eq, Nat.mod_eq_of_lt (by omega)]
  apply Nat.or_lt_two_pow (n := 16) <;> omega

theorem enKey_small {w : Nat} (hw : 16 ≤ w) (key : List Byte) : ∀ x ∈ enKey w key, Small x :=
  (enKeyLoop_spec hw 44 _ (first_small hw key)).1

theorem addInv_zero {w : Nat} (hw : 16 ≤ w) (x : BitVec w) : lo x + lo (addInv x) = 0 := by
  unfold addInv
  rw [lo_low16 hw, lo_sub hw]
  have : lo (0 : BitVec w) = 0 := by
    apply BitVec.eq_of_toNat_eq; rw [lo_toNat]; simp
  rw [this, BitVec.add_comm, BitVec.sub_add_cancel]

theorem deKey_small {w : Nat} (hw : 16 ≤ w) {k : List (BitVec w)} (hk : ∀ x ∈ k, Small x) : ∀ x ∈ deKey k, Small x := by
  intro x hx
  have hm : ∀ y : BitVec w, Small (mulInv y) := fun y => small_low16 hw _
  have ha : ∀ y : BitVec w, Small (addInv y) := fun y => small_low16 hw _
  unfold deKey at hx
  rcases List.mem_append.mp hx with hx | hx
  · obtain ⟨i, _, hx⟩ := List.mem_flatMap.mp hx
    simp only [List.mem_cons, List.not_mem_nil, or_false] at hx
    rcases hx with rfl | rfl | rfl | rfl | rfl | rfl
    · exact hm _
    · exact ha _
    · exact ha _
    · exact hm _
    · exact small_wd hk _
    · exact small_wd hk _
  · simp only [List.mem_cons, List.not_mem_nil, or_false] at hx
    rcases hx with rfl | rfl | rfl | rfl
    · exact hm _
    · exact ha _
    · exact ha _
    · exact hm _

theorem deKey_rel {w : Nat} (hw : 16 ≤ w) {k : List (BitVec w)} (hk : ∀ x ∈ k, Small x) : Rel (fun j => lo (wd k j)) (fun j => lo (wd (deKey k) j)) := by
  have e : ∀ j, wd (deKey k) j = wd (deKey k) j := fun _ => rfl
  unfold deKey at e ⊢
  have hr : List.range 8 = [0, 1, 2, 3, 4, 5, 6, 7] := by decide
  rw [hr]
  simp only [List.flatMap_cons, List.flatMap_nil, List.cons_append, List.nil_append, Nat.reduceSub, Nat.reduceMul, Nat.reduceAdd, List.append_nil]
  refine ⟨fun i hi => ?_, fun i hi hi' => ?_, fun i hi => ?_, fun i hi => ?_⟩
  · have hi : i = 0 ∨ i = 1 ∨ i = 2 ∨ i = 3 ∨ i = 4 ∨ i = 5 ∨ i = 6 ∨ i = 7 ∨ i = 8 := by omega
    rcases hi with rfl | rfl | rfl | rfl | rfl | rfl | rfl | rfl | rfl <;>
      exact ⟨mulInv_inv hw _ (small_wd hk _), mulInv_inv hw _ (small_wd hk _)⟩
  · have hi : i = 1 ∨ i = 2 ∨ i = 3 ∨ i = 4 ∨ i = 5 ∨ i = 6 ∨ i = 7 := by omega
    rcases hi with rfl | rfl | rfl | rfl | rfl | rfl | rfl <;>
      exact ⟨addInv_zero hw _, addInv_zero hw _⟩
  · rcases hi with rfl | rfl <;>
      exact ⟨addInv_zero hw _, addInv_zero hw _⟩
  · have hi : i = 0 ∨ i = 1 ∨ i = 2 ∨ i = 3 ∨ i = 4 ∨ i = 5 ∨ i = 6 ∨ i = 7 := by omega
    rcases hi with rfl | rfl | rfl | rfl | rfl | rfl | rfl | rfl <;>
      exact ⟨rfl, rfl⟩

theorem process_pair {w : Nat} (hw : 16 ≤ w) {k : List (BitVec w)} (hk : ∀ x ∈ k, Small x) : Pair 4 (process k) (process (deKey k)) := by
  intro l hl
  have h1 := process_lo hw (small_wd hk)
  have h2 := process_lo hw (small_wd (deKey_small hw hk))
  have hR := deKey_rel hw hk
  refine ⟨by rw [h1]; rfl, ?_, by rw [h2]; rfl, ?_⟩
  · rw [h1, h2, inp_out, process_rel hR, out_inp l hl]
  · rw [h2, h1, inp_out, process_rel hR.symm, out_inp l hl]

/-! ## The width of the variables does not matter -/

theorem wd_map_lo {w : Nat} (k : List (BitVec w)) (i : Nat) : wd (k.map lo) i = lo (wd k i) := by
  unfold wd
  rw [List.getD_eq_getElem?_getD, List.getD_eq_getElem?_getD, List.getElem?_map]
  cases k[i]? with
  | none => apply BitVec.eq_of_toNat_eq; rw [lo_toNat]; simp
  | some x => rfl

theorem lo16 (x : BitVec 16) : lo x = x := BitVec.setWidth_eq x

theorem lo_next {w : Nat} (hw : 16 ≤ w) (x y : BitVec w) (hy : Small y) : lo (low16 ((x <<< 9) ||| (y >>> 7))) = low16 ((lo x <<< 9) ||| (lo y >>> 7)) := by
  rw [lo_low16 hw]
  have e : ∀ z : BitVec 16, low16 z = z := by
    intro z
    have := lo_low16 (Nat.le_refl 16) z
    rwa [lo16, lo16] at this
  rw [e]
  apply BitVec.eq_of_getLsbD_eq
  intro i hi
  unfold lo
  have hi' : i < w := by omega
  simp only [BitVec.getLsbD_setWidth, BitVec.getLsbD_or, BitVec.getLsbD_shiftLeft, BitVec.getLsbD_ushiftRight, hi, hi', decide_true, Bool.true_and]
  have h1 : i - 9 < 16 := by omega
  congr 1
  · simp [h1]
  · by_cases h2 : 7 + i < 16
    · simp [h2]
    · have : y.getLsbD (7 + i) = false := by
        have hy' : y.toNat < 2 ^ (7 + i) := Nat.lt_of_lt_of_le hy (Nat.pow_le_pow_right (n := 2) (i := 16) (by decide) (by omega))
        exact Nat.testBit_lt_two_pow hy'
      simp [h2, this]

theorem enKeyLoop_lo {w : Nat} (hw : 16 ≤ w) : ∀ (n : Nat) (k : List (BitVec w)), (∀ x ∈ k, Small x) → (enKeyLoop n k).map lo = enKeyLoop n (k.map lo)
  | 0, _, _ => rfl
  | n + 1, k, h => by
    unfold enKeyLoop
    simp only []
    rw [enKeyLoop_lo hw n _ (by
      intro x hx
      rcases List.mem_append.mp hx with hx | hx
      · exact h x hx
      · rw [List.mem_singleton.mp hx]; exact small_low16 hw _), List.map_append, List.map_cons, List.map_nil, lo_next hw _ _ (small_wd h _), List.length_map, wd_map_lo, wd_map_lo]

theorem enKey_lo {w : Nat} (hw : 16 ≤ w) (key : List Byte) : (fun j => lo (wd (enKey w key) j)) = fun j => lo (wd (enKey 16 key) j) := by
  funext j
  rw [lo16, ← wd_map_lo]
  unfold enKey
  rw [enKeyLoop_lo hw _ _ (first_small hw key), List.map_map]
  congr 3
  funext i
  apply BitVec.eq_of_getLsbD_eq
  intro t ht
  have ht' : t < w := by omega
  simp only [Function.comp, lo, BitVec.getLsbD_setWidth, BitVec.getLsbD_or, BitVec.getLsbD_shiftLeft, ht, ht', decide_true, Bool.true_and]
  have h1 : t - 8 < 16 := by omega
  have h2 : t - 8 < w := by omega
  simp [h1, h2]

end Verif.Cipher.Idea
