import Verif.Keccak.Model
import Verif.Keccak.Spec

/-! # The two halves of the loop body are rounds of KECCAK-f[1600] -/
namespace Verif.Keccak
open Verif.Cipher (rotl rotl_eq)

def Lanes.list (s : Lanes) : List Word :=
  [s.ba, s.be, s.bi, s.bo, s.bu, s.ga, s.ge, s.gi, s.go, s.gu, s.ka, s.ke, s.ki, s.ko, s.ku, s.ma, s.me, s.mi, s.mo, s.mu, s.sa, s.se, s.si, s.so, s.su]

def bit (w : Word) (z : Fin 64) : Bool := w.getLsbD z.val

/-- The state array held by the local variables. -/
def arr (s : Lanes) : Spec.Array := fun x y z => bit (s.list.getD (5 * y.val + x.val) 0) z

theorem bit_xor (a b : Word) (z) : bit (a ^^^ b) z = (bit a z ^^ bit b z) := by simp [bit]
theorem bit_and (a b : Word) (z) : bit (a &&& b) z = (bit a z && bit b z) := by simp [bit]
theorem bit_not (a : Word) (z) : bit (~~~a) z = (bit a z ^^ true) := by simp [bit]
theorem bit_rotl (a : Word) (k : Nat) (z) : bit (rotl a k) z = bit a (z - Fin.ofNat 64 k) := by
  unfold bit
  rw [rotl_eq, BitVec.getLsbD_rotateLeft, Fin.sub_def]
  have hz := z.isLt
  simp only [Fin.ofNat]
  have := Nat.mod_lt k (by omega : 64 > 0)
  by_cases h : z.val < k % 64
  · rw [cond_eq_ite, if_pos (by simpa using h)]
    congr 1; omega
  · rw [cond_eq_ite, if_neg (by simpa using h), decide_eq_true hz, Bool.true_and]
    congr 1; omega

/-- The rotation offsets of ρ modulo 64. -/
def off (x y : Fin 5) : Nat :=
  (([[0, 36, 3, 41, 18], [1, 44, 10, 45, 2], [62, 6, 43, 15, 61], [28, 55, 25, 21, 56], [27, 20, 39, 8, 14]] : List (List Nat)).getD x.val []).getD y.val 0

theorem fin5 {P : Fin 5 → Prop} (h0 : P 0) (h1 : P 1) (h2 : P 2) (h3 : P 3) (h4 : P 4) : ∀ x, P x
  | 0 => h0 | 1 => h1 | 2 => h2 | 3 => h3 | 4 => h4

/-- `z - k` modulo 64, written so that `z - 0` is `z` by computation. -/
def back (z : Fin 64) : Nat → Fin 64
  | 0 => z
  | k + 1 => z - Fin.ofNat 64 (k + 1)

theorem rho_eq (A : Spec.Array) (x y : Fin 5) (z : Fin 64) : Spec.rho A x y z = A x y (back z (off x y)) := by
  revert x y
  refine fin5 ?_ ?_ ?_ ?_ ?_ <;> refine fin5 ?_ ?_ ?_ ?_ ?_ <;> rfl

theorem arr_ba (s : Lanes) (z) : arr s 0 0 z = bit s.ba z := rfl
theorem arr_be (s : Lanes) (z) : arr s 1 0 z = bit s.be z := rfl
theorem arr_bi (s : Lanes) (z) : arr s 2 0 z = bit s.bi z := rfl
theorem arr_bo (s : Lanes) (z) : arr s 3 0 z = bit s.bo z := rfl
theorem arr_bu (s : Lanes) (z) : arr s 4 0 z = bit s.bu z := rfl
theorem arr_ga (s : Lanes) (z) : arr s 0 1 z = bit s.ga z := rfl
theorem arr_ge (s : Lanes) (z) : arr s 1 1 z = bit s.ge z := rfl
theorem arr_gi (s : Lanes) (z) : arr s 2 1 z = bit s.gi z := rfl
theorem arr_go (s : Lanes) (z) : arr s 3 1 z = bit s.go z := rfl
theorem arr_gu (s : Lanes) (z) : arr s 4 1 z = bit s.gu z := rfl
theorem arr_ka (s : Lanes) (z) : arr s 0 2 z = bit s.ka z := rfl
theorem arr_ke (s : Lanes) (z) : arr s 1 2 z = bit s.ke z := rfl
theorem arr_ki (s : Lanes) (z) : arr s 2 2 z = bit s.ki z := rfl
theorem arr_ko (s : Lanes) (z) : arr s 3 2 z = bit s.ko z := rfl
theorem arr_ku (s : Lanes) (z) : arr s 4 2 z = bit s.ku z := rfl
theorem arr_ma (s : Lanes) (z) : arr s 0 3 z = bit s.ma z := rfl
theorem arr_me (s : Lanes) (z) : arr s 1 3 z = bit s.me z := rfl
theorem arr_mi (s : Lanes) (z) : arr s 2 3 z = bit s.mi z := rfl
theorem arr_mo (s : Lanes) (z) : arr s 3 3 z = bit s.mo z := rfl
theorem arr_mu (s : Lanes) (z) : arr s 4 3 z = bit s.mu z := rfl
theorem arr_sa (s : Lanes) (z) : arr s 0 4 z = bit s.sa z := rfl
theorem arr_se (s : Lanes) (z) : arr s 1 4 z = bit s.se z := rfl
theorem arr_si (s : Lanes) (z) : arr s 2 4 z = bit s.si z := rfl
theorem arr_so (s : Lanes) (z) : arr s 3 4 z = bit s.so z := rfl
theorem arr_su (s : Lanes) (z) : arr s 4 4 z = bit s.su z := rfl

/-- A round, without the round constant, in terms of θ. -/
theorem round_eq (A : Spec.Array) (ir : Nat) (x y : Fin 5) (z : Fin 64) : Spec.round A ir x y z =
    (let T := Spec.theta A
     let B := fun x y => T (x + 3 * y) x (back z (off (x + 3 * y) x))
     let v := B x y ^^ ((B (x + 1) y ^^ true) && B (x + 2) y)
     if x = 0 ∧ y = 0 then v ^^ Spec.roundConstant ir z else v) := by
  unfold Spec.round Spec.iota Spec.chi Spec.pi
  simp only [rho_eq]

theorem even_round (c : Word) (ir : Nat) (hc : ∀ z, bit c z = Spec.roundConstant ir z) (s : Lanes) : arr (evenRound c s) = Spec.round (arr s) ir := by
  funext x y z
  rw [round_eq, ← hc z]
  revert x y
  refine fin5 ?_ ?_ ?_ ?_ ?_ <;> refine fin5 ?_ ?_ ?_ ?_ ?_ <;>
    simp only [arr_ba, arr_be, arr_bi, arr_bo, arr_bu, arr_ga, arr_ge, arr_gi, arr_go, arr_gu, arr_ka, arr_ke, arr_ki, arr_ko, arr_ku, arr_ma, arr_me, arr_mi, arr_mo, arr_mu, arr_sa, arr_se, arr_si, arr_so, arr_su, evenRound, bit_xor, bit_and, bit_not, bit_rotl] <;>
    rfl

theorem odd_round (c : Word) (ir : Nat) (hc : ∀ z, bit c z = Spec.roundConstant ir z) (s : Lanes) : arr (oddRound c s) = Spec.round (arr s) ir := by
  funext x y z
  rw [round_eq, ← hc z]
  revert x y
  refine fin5 ?_ ?_ ?_ ?_ ?_ <;> refine fin5 ?_ ?_ ?_ ?_ ?_ <;>
    simp only [arr_ba, arr_be, arr_bi, arr_bo, arr_bu, arr_ga, arr_ge, arr_gi, arr_go, arr_gu, arr_ka, arr_ke, arr_ki, arr_ko, arr_ku, arr_ma, arr_me, arr_mi, arr_mo, arr_mu, arr_sa, arr_se, arr_si, arr_so, arr_su, oddRound, bit_xor, bit_and, bit_not, bit_rotl] <;>
    rfl

end Verif.Keccak
