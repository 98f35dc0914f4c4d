import Verif.Sha.Model
import Verif.Sha.Spec
import Verif.Hash.Iterated

/-! The circular buffers of the code hold the last sixteen words of the message schedule, and its arrays are rotated working variables. -/
namespace Verif.Sha
open Verif.Cipher (rotl rotr rotl_eq rotr_eq)

theorem ch_eq {w : Nat} (x y z : BitVec w) : ch x y z = Spec.Ch x y z := by
  apply BitVec.eq_of_getLsbD_eq
  intro i hi
  simp only [ch, Spec.Ch, BitVec.getLsbD_xor, BitVec.getLsbD_and, BitVec.getLsbD_not, hi, decide_true, Bool.true_and]
  cases x.getLsbD i <;> cases y.getLsbD i <;> cases z.getLsbD i <;> rfl

theorem maj_eq {w : Nat} (x y z : BitVec w) : maj x y z = Spec.Maj x y z := by
  apply BitVec.eq_of_getLsbD_eq
  intro i hi
  simp only [maj, Spec.Maj, BitVec.getLsbD_xor, BitVec.getLsbD_and]
  cases x.getLsbD i <;> cases y.getLsbD i <;> cases z.getLsbD i <;> rfl

theorem maj_eq' {w : Nat} (x y z : BitVec w) : (x &&& y) ||| (z &&& (x ||| y)) = Spec.Maj x y z := by
  apply BitVec.eq_of_getLsbD_eq
  intro i hi
  simp only [Spec.Maj, BitVec.getLsbD_xor, BitVec.getLsbD_and, BitVec.getLsbD_or]
  cases x.getLsbD i <;> cases y.getLsbD i <;> cases z.getLsbD i <;> rfl

theorem at_set_eq {w : Nat} (l : List (BitVec w)) (i : Nat) (x : BitVec w) (h : i < l.length) : at_ (l.set i x) i = x := by
  simp [at_, List.getD_eq_getElem?_getD, h]

theorem at_set_ne {w : Nat} (l : List (BitVec w)) (i j : Nat) (x : BitVec w) (h : i ≠ j) : at_ (l.set i x) j = at_ l j := by
  simp [at_, List.getD_eq_getElem?_getD, List.getElem?_set_ne h]

/-! ## SHA-2 -/

/-- The code and the standard have the same functions and constants. -/
structure Match {w : Nat} (F : Fns w) (v : Spec.Variant w) : Prop where
  s0 : ∀ x, F.s0 x = v.sig0 x
  s1 : ∀ x, F.s1 x = v.sig1 x
  S0 : ∀ x, F.S0 x = v.Sig0 x
  S1 : ∀ x, F.S1 x = v.Sig1 x
  K : F.K = v.K
  rounds : v.rounds = 16 * F.turns
  pos : 1 ≤ F.turns

theorem schedule_length {w : Nat} (v : Spec.Variant w) (M : List (BitVec w)) (hM : M.length = 16) (n : Nat) : (Spec.schedule v M n).length = 16 + n := by
  induction n with
  | zero => exact hM
  | succ n ih => simp [Spec.schedule, ih]; omega

theorem schedule_mono {w : Nat} (v : Spec.Variant w) (M : List (BitVec w)) (hM : M.length = 16) (n m t : Nat) (ht : t < 16 + n) :
    (Spec.schedule v M (n + m)).getD t 0 = (Spec.schedule v M n).getD t 0 := by
  induction m with
  | zero => rfl
  | succ m ih =>
    rw [← ih, ← Nat.add_assoc]
    simp only [Spec.schedule, List.getD_eq_getElem?_getD]
    rw [List.getElem?_append_left (by rw [schedule_length v M hM]; omega)]

theorem schedule_first {w : Nat} (v : Spec.Variant w) (M : List (BitVec w)) (hM : M.length = 16) (n t : Nat) (ht : t < 16) :
    (Spec.schedule v M n).getD t 0 = M.getD t 0 := by
  have := schedule_mono v M hM 0 n t (by omega)
  rw [Nat.zero_add] at this
  exact this

theorem schedule_next {w : Nat} (v : Spec.Variant w) (M : List (BitVec w)) (hM : M.length = 16) (n t : Nat) (ht : t < n) :
    let W := Spec.schedule v M n
    W.getD (t + 16) 0 = v.sig1 (W.getD (t + 14) 0) + W.getD (t + 9) 0 + v.sig0 (W.getD (t + 1) 0) + W.getD t 0 := by
  intro W
  have hn : n = (t + 1) + (n - (t + 1)) := by omega
  have hn' : n = t + (n - t) := by omega
  have e : ∀ u, u < 16 + t → W.getD u 0 = (Spec.schedule v M t).getD u 0 := by
    intro u hu
    show (Spec.schedule v M n).getD u 0 = _
    rw [hn', schedule_mono v M hM t _ u hu]
  rw [e (t + 14) (by omega), e (t + 9) (by omega), e (t + 1) (by omega), e t (by omega)]
  show (Spec.schedule v M n).getD (t + 16) 0 = _
  rw [hn, schedule_mono v M hM (t + 1) _ _ (by omega)]
  simp only [Spec.schedule]
  rw [List.getD_eq_getElem?_getD, List.getElem?_append_right (by rw [schedule_length v M hM]; omega), schedule_length v M hM]
  have : t + 16 - (16 + t) = 0 := by omega
  rw [this]; rfl

/-- The working variables in the array `T` before round `t`. -/
def rot {w : Nat} (x : Spec.Vars w) (r : Nat) : List (BitVec w) := (List.range 8).map fun p => at_ x.list ((p + r) % 8)

/-- Before round `t`. -/
structure Inv {w : Nat} (Ws : List (BitVec w)) (x : Spec.Vars w) (t : Nat) (s : List (BitVec w) × List (BitVec w)) : Prop where
  len : s.1.length = 16
  buf : ∀ u, u < t → t ≤ u + 16 → at_ s.1 (u % 16) = Ws.getD u 0
  vars : s.2 = rot x (t % 8)

theorem vars_step {w : Nat} (x : Spec.Vars w) (F : Fns w) (v : Spec.Variant w) (hF : Match F v) (i : Nat) (hi : i < 16) (k c : BitVec w) (W : List (BitVec w)) (t : Nat)
    (hk : k = BitVec.ofNat w (v.K.getD t 0)) (hc : c = W.getD t 0) :
    (let T := rot x (i % 8)
     let T := T.set (slot 7 i) (at_ T (slot 7 i) + (F.S1 (at_ T (slot 4 i)) + ch (at_ T (slot 4 i)) (at_ T (slot 5 i)) (at_ T (slot 6 i)) + k + c))
     let T := T.set (slot 3 i) (at_ T (slot 3 i) + at_ T (slot 7 i))
     T.set (slot 7 i) (at_ T (slot 7 i) + (F.S0 (at_ T (slot 0 i)) + maj (at_ T (slot 0 i)) (at_ T (slot 1 i)) (at_ T (slot 2 i))))) =
    rot (Spec.round v W x t) ((i + 1) % 8) := by
  have hT1 : x.h + (v.Sig1 x.e + Spec.Ch x.e x.f x.g + k + c) = x.h + v.Sig1 x.e + Spec.Ch x.e x.f x.g + k + c := by
    simp only [BitVec.add_assoc]
  simp only [hF.S0, hF.S1, ch_eq, maj_eq]
  have key : ∀ j, j < 8 → (let T := rot x j
     let T := T.set (slot 7 j) (at_ T (slot 7 j) + (v.Sig1 (at_ T (slot 4 j)) + Spec.Ch (at_ T (slot 4 j)) (at_ T (slot 5 j)) (at_ T (slot 6 j)) + k + c))
     let T := T.set (slot 3 j) (at_ T (slot 3 j) + at_ T (slot 7 j))
     T.set (slot 7 j) (at_ T (slot 7 j) + (v.Sig0 (at_ T (slot 0 j)) + Spec.Maj (at_ T (slot 0 j)) (at_ T (slot 1 j)) (at_ T (slot 2 j))))) =
    rot (Spec.round v W x t) ((j + 1) % 8) := by
    intro j hj
    have : j = 0 ∨ j = 1 ∨ j = 2 ∨ j = 3 ∨ j = 4 ∨ j = 5 ∨ j = 6 ∨ j = 7 := by omega
    rcases this with rfl | rfl | rfl | rfl | rfl | rfl | rfl | rfl <;>
    · simp only [Spec.round, ← hk, ← hc, ← hT1]
      rfl
  have hs : ∀ p, slot p i = slot p (i % 8) := by intro p; simp only [slot]; omega
  have h8 : (i + 1) % 8 = (i % 8 + 1) % 8 := by omega
  simp only [hs, h8]
  exact key (i % 8) (by omega)

theorem round_step {w : Nat} (F : Fns w) (v : Spec.Variant w) (hF : Match F v) (M : List (BitVec w)) (hM : M.length = 16) (x : Spec.Vars w) (q i : Nat)
    (hq : q < F.turns) (hi : i < 16) (s : List (BitVec w) × List (BitVec w)) (hs : Inv (Spec.schedule v M (v.rounds - 16)) x (16 * q + i) s) :
    Inv (Spec.schedule v M (v.rounds - 16)) (Spec.round v (Spec.schedule v M (v.rounds - 16)) x (16 * q + i)) (16 * q + i + 1) (round F M (16 * q) i s) := by
  have hr := hF.rounds
  have hb : (blk F M (16 * q) i s.1).length = 16 ∧ at_ (blk F M (16 * q) i s.1) i = (Spec.schedule v M (v.rounds - 16)).getD (16 * q + i) 0 ∧
      ∀ j, j ≠ i → at_ (blk F M (16 * q) i s.1) j = at_ s.1 j := by
    unfold blk
    by_cases hj : 16 * q = 0
    · rw [if_pos hj]
      have hq0 : q = 0 := by omega
      subst hq0
      refine ⟨by simp [hs.len], ?_, fun j hj => at_set_ne _ _ _ _ (Ne.symm hj)⟩
      rw [at_set_eq _ _ _ (by rw [hs.len]; exact hi), schedule_first v M hM _ _ (by omega)]
      simp [at_]
    · rw [if_neg hj]
      refine ⟨by simp [hs.len], ?_, fun j hj => at_set_ne _ _ _ _ (Ne.symm hj)⟩
      rw [at_set_eq _ _ _ (by rw [hs.len]; exact hi)]
      have e : 16 * q + i = (16 * (q - 1) + i) + 16 := by omega
      rw [e, schedule_next v M hM _ _ (by omega), hF.s0, hF.s1]
      have b0 := hs.buf (16 * (q - 1) + i) (by omega) (by omega)
      have b14 := hs.buf (16 * (q - 1) + i + 14) (by omega) (by omega)
      have b9 := hs.buf (16 * (q - 1) + i + 9) (by omega) (by omega)
      have b1 := hs.buf (16 * (q - 1) + i + 1) (by omega) (by omega)
      have m0 : (16 * (q - 1) + i) % 16 = i := by omega
      have m14 : (16 * (q - 1) + i + 14) % 16 = (i + 14) % 16 := by omega
      have m9 : (16 * (q - 1) + i + 9) % 16 = (i + 9) % 16 := by omega
      have m1 : (16 * (q - 1) + i + 1) % 16 = (i + 1) % 16 := by omega
      rw [m0] at b0; rw [m14] at b14; rw [m9] at b9; rw [m1] at b1
      rw [b0, b14, b9, b1, BitVec.add_comm]
  refine ⟨hb.1, ?_, ?_⟩
  · intro u hu ht
    show at_ (blk F M (16 * q) i s.1) (u % 16) = _
    by_cases h : u = 16 * q + i
    · subst h
      have : (16 * q + i) % 16 = i := by omega
      rw [this]; exact hb.2.1
    · rw [hb.2.2 _ (by omega)]
      exact hs.buf u (by omega) (by omega)
  · have hv := hs.vars
    have m : (16 * q + i) % 8 = i % 8 := by omega
    have m' : (16 * q + i + 1) % 8 = (i + 1) % 8 := by omega
    rw [m] at hv
    rw [m', ← vars_step x F v hF i hi (BitVec.ofNat w (F.K.getD (i + 16 * q) 0)) (at_ (blk F M (16 * q) i s.1) i) _ _ (by rw [hF.K, Nat.add_comm]) hb.2.1]
    show (round F M (16 * q) i s).2 = _
    unfold round
    rw [hv]

theorem turn_step {w : Nat} (F : Fns w) (v : Spec.Variant w) (hF : Match F v) (M : List (BitVec w)) (hM : M.length = 16) (q : Nat)
    (hq : q < F.turns) (x : Spec.Vars w) (s : List (BitVec w) × List (BitVec w)) (hs : Inv (Spec.schedule v M (v.rounds - 16)) x (16 * q) s) (n : Nat) (hn : n ≤ 16) :
    Inv (Spec.schedule v M (v.rounds - 16)) ((List.range n).foldl (fun x i => Spec.round v (Spec.schedule v M (v.rounds - 16)) x (16 * q + i)) x) (16 * q + n)
      ((List.range n).foldl (fun s i => round F M (16 * q) i s) s) := by
  induction n with
  | zero => exact hs
  | succ n ih =>
    rw [List.range_succ, List.foldl_append, List.foldl_append]
    exact round_step F v hF M hM _ q n hq (by omega) _ (ih (by omega))

theorem foldl_nest {α : Type} (f : α → Nat → α) (x : α) (q : Nat) :
    (List.range (16 * (q + 1))).foldl f x = (List.range 16).foldl (fun x i => f x (16 * q + i)) ((List.range (16 * q)).foldl f x) := by
  rw [Nat.mul_succ, List.range_add, List.foldl_append, List.foldl_map]

theorem turns_step {w : Nat} (F : Fns w) (v : Spec.Variant w) (hF : Match F v) (M : List (BitVec w)) (hM : M.length = 16) (x : Spec.Vars w) (q : Nat) (hq : q ≤ F.turns) :
    Inv (Spec.schedule v M (v.rounds - 16)) ((List.range (16 * q)).foldl (Spec.round v (Spec.schedule v M (v.rounds - 16))) x) (16 * q)
      ((List.range q).foldl (fun s q => (List.range 16).foldl (fun s i => round F M (16 * q) i s) s) (List.replicate 16 0, x.list)) := by
  induction q with
  | zero => exact ⟨by simp, fun u h => by omega, rfl⟩
  | succ q ih =>
    rw [foldl_nest, List.range_succ (n := q), List.foldl_append]
    exact turn_step F v hF M hM q (by omega) _ _ (ih (by omega)) 16 (by omega)

theorem hashBlock_eq {w : Nat} (F : Fns w) (v : Spec.Variant w) (hF : Match F v) (M : List (BitVec w)) (hM : M.length = 16) (x : Spec.Vars w) :
    hashBlock F x.list M = (Spec.compress v x M).list := by
  have h := (turns_step F v hF M hM x F.turns (by omega)).vars
  rw [← hF.rounds] at h
  have : v.rounds % 8 = 0 := by have := hF.rounds; omega
  rw [this] at h
  unfold hashBlock Spec.compress
  generalize (List.range F.turns).foldl (fun s q => (List.range 16).foldl (fun s i => round F M (16 * q) i s) s) (List.replicate 16 0, x.list) = s at h ⊢
  simp only [h]
  rfl

theorem match256 : Match fns256 Spec.v256 where
  s0 x := by simp only [fns256, Spec.v256, rotr_eq]
  s1 x := by simp only [fns256, Spec.v256, rotr_eq]
  S0 x := by simp only [fns256, Spec.v256, rotr_eq]
  S1 x := by simp only [fns256, Spec.v256, rotr_eq]
  K := by
    have : k256 = Spec.cubeRoots 32 64 := by decide +kernel
    exact this
  rounds := rfl
  pos := by decide

theorem match512 : Match fns512 Spec.v512 where
  s0 x := by simp only [fns512, Spec.v512, rotr_eq]
  s1 x := by simp only [fns512, Spec.v512, rotr_eq]
  S0 x := by simp only [fns512, Spec.v512, rotr_eq]
  S1 x := by simp only [fns512, Spec.v512, rotr_eq]
  K := by
    have : k512 = Spec.cubeRoots 64 80 := by decide +kernel
    exact this
  rounds := rfl
  pos := by decide

/-! ## SHA-1 -/

theorem f1_eq (t : Nat) (x y z : BitVec 32) : f1 t x y z = Spec.f t x y z := by
  unfold f1 Spec.f
  rw [maj_eq', ← ch_eq]; rfl

theorem schedule1_length (M : List (BitVec 32)) (hM : M.length = 16) (n : Nat) : (Spec.schedule1 M n).length = 16 + n := by
  induction n with
  | zero => exact hM
  | succ n ih => simp [Spec.schedule1, ih]; omega

theorem schedule1_mono (M : List (BitVec 32)) (hM : M.length = 16) (n m t : Nat) (ht : t < 16 + n) :
    (Spec.schedule1 M (n + m)).getD t 0 = (Spec.schedule1 M n).getD t 0 := by
  induction m with
  | zero => rfl
  | succ m ih =>
    rw [← ih, ← Nat.add_assoc]
    simp only [Spec.schedule1, List.getD_eq_getElem?_getD]
    rw [List.getElem?_append_left (by rw [schedule1_length M hM]; omega)]

theorem schedule1_first (M : List (BitVec 32)) (hM : M.length = 16) (n t : Nat) (ht : t < 16) :
    (Spec.schedule1 M n).getD t 0 = M.getD t 0 := by
  have := schedule1_mono M hM 0 n t (by omega)
  rw [Nat.zero_add] at this
  exact this

theorem schedule1_next (M : List (BitVec 32)) (hM : M.length = 16) (n t : Nat) (ht : t < n) :
    let W := Spec.schedule1 M n
    W.getD (t + 16) 0 = (W.getD (t + 13) 0 ^^^ W.getD (t + 8) 0 ^^^ W.getD (t + 2) 0 ^^^ W.getD t 0).rotateLeft 1 := by
  intro W
  have hn : n = (t + 1) + (n - (t + 1)) := by omega
  have hn' : n = t + (n - t) := by omega
  have e : ∀ u, u < 16 + t → W.getD u 0 = (Spec.schedule1 M t).getD u 0 := by
    intro u hu
    show (Spec.schedule1 M n).getD u 0 = _
    rw [hn', schedule1_mono M hM t _ u hu]
  rw [e (t + 13) (by omega), e (t + 8) (by omega), e (t + 2) (by omega), e t (by omega)]
  show (Spec.schedule1 M n).getD (t + 16) 0 = _
  rw [hn, schedule1_mono M hM (t + 1) _ _ (by omega)]
  simp only [Spec.schedule1]
  rw [List.getD_eq_getElem?_getD, List.getElem?_append_right (by rw [schedule1_length M hM]; omega), schedule1_length M hM]
  have : t + 16 - (16 + t) = 0 := by omega
  rw [this]; rfl

/-- The working variables before round `t`: each holds the one `t` places on, but for rotations that are still to come. -/
def rot1 (x : Spec.Vars1) (r : Nat) : List (BitVec 32) := (List.range 5).map fun p => at_ x.list ((p + r) % 5)

structure Inv1 (Ws : List (BitVec 32)) (x : Spec.Vars1) (t : Nat) (s : List (BitVec 32) × List (BitVec 32)) : Prop where
  len : s.1.length = 16
  buf : ∀ u, u < t → t ≤ u + 16 → at_ s.1 (u % 16) = Ws.getD u 0
  vars : s.2 = rot1 x (t % 5)

theorem vars_step1 (x : Spec.Vars1) (t : Nat) (ht : t < 80) (c : BitVec 32) (W : List (BitVec 32)) (hc : c = W.getD t 0) :
    (let T := rot1 x (t % 5)
     let T := T.set (slot1 4 t) (at_ T (slot1 4 t) + (f1 t (at_ T (slot1 1 t)) (at_ T (slot1 2 t)) (at_ T (slot1 3 t)) + c + kst1 t + rotl (at_ T (slot1 0 t)) 5))
     T.set (slot1 1 t) (rotl (at_ T (slot1 1 t)) 30)) =
    rot1 (Spec.round1 W x t) ((t + 1) % 5) := by
  have hT : x.e + (Spec.f t x.b x.c x.d + c + Spec.K1 t + x.a.rotateLeft 5) = x.a.rotateLeft 5 + Spec.f t x.b x.c x.d + x.e + Spec.K1 t + c := by
    ac_rfl
  have hk : kst1 t = Spec.K1 t := rfl
  simp only [f1_eq, hk, rotl_eq]
  have key : ∀ j, j < 5 → (let T := rot1 x j
     let T := T.set (slot1 4 j) (at_ T (slot1 4 j) + (Spec.f t (at_ T (slot1 1 j)) (at_ T (slot1 2 j)) (at_ T (slot1 3 j)) + c + Spec.K1 t + (at_ T (slot1 0 j)).rotateLeft 5))
     T.set (slot1 1 j) ((at_ T (slot1 1 j)).rotateLeft 30)) =
    rot1 (Spec.round1 W x t) ((j + 1) % 5) := by
    intro j hj
    have : j = 0 ∨ j = 1 ∨ j = 2 ∨ j = 3 ∨ j = 4 := by omega
    rcases this with rfl | rfl | rfl | rfl | rfl <;>
    · simp only [Spec.round1, ← hc, ← hT]
      rfl
  have hs : ∀ p, slot1 p t = slot1 p (t % 5) := by intro p; simp only [slot1]; omega
  have h8 : (t + 1) % 5 = (t % 5 + 1) % 5 := by omega
  simp only [hs, h8]
  exact key (t % 5) (by omega)

theorem round1_step (M : List (BitVec 32)) (hM : M.length = 16) (x : Spec.Vars1) (t : Nat) (ht : t < 80) (s : List (BitVec 32) × List (BitVec 32))
    (hs : Inv1 (Spec.schedule1 M 64) x t s) : Inv1 (Spec.schedule1 M 64) (Spec.round1 (Spec.schedule1 M 64) x t) (t + 1) (round1 M t s) := by
  have hb : (blk1 M t s.1).length = 16 ∧ at_ (blk1 M t s.1) (t % 16) = (Spec.schedule1 M 64).getD t 0 ∧ ∀ j, j ≠ t % 16 → at_ (blk1 M t s.1) j = at_ s.1 j := by
    unfold blk1
    by_cases hj : t < 16
    · rw [if_pos hj]
      have e : t % 16 = t := by omega
      rw [e]
      refine ⟨by simp [hs.len], ?_, fun j hj => at_set_ne _ _ _ _ (Ne.symm hj)⟩
      rw [at_set_eq _ _ _ (by rw [hs.len]; exact hj), schedule1_first M hM _ _ hj]
      rfl
    · rw [if_neg hj]
      refine ⟨by simp [hs.len], ?_, fun j hj => at_set_ne _ _ _ _ (Ne.symm hj)⟩
      rw [at_set_eq _ _ _ (by rw [hs.len]; omega)]
      obtain ⟨u, rfl⟩ : ∃ u, t = u + 16 := ⟨t - 16, by omega⟩
      rw [schedule1_next M hM _ _ (by omega), rotl_eq]
      have b0 := hs.buf u (by omega) (by omega)
      have b13 := hs.buf (u + 13) (by omega) (by omega)
      have b8 := hs.buf (u + 8) (by omega) (by omega)
      have b2 := hs.buf (u + 2) (by omega) (by omega)
      have m0 : (u + 16) % 16 = u % 16 := by omega
      have m13 : (u + 16 + 13) % 16 = (u + 13) % 16 := by omega
      have m8 : (u + 16 + 8) % 16 = (u + 8) % 16 := by omega
      have m2 : (u + 16 + 2) % 16 = (u + 2) % 16 := by omega
      rw [m0, m13, m8, m2, b0, b13, b8, b2]
  refine ⟨hb.1, ?_, ?_⟩
  · intro u hu ht'
    show at_ (blk1 M t s.1) (u % 16) = _
    by_cases h : u = t
    · subst h; exact hb.2.1
    · rw [hb.2.2 _ (by omega)]
      exact hs.buf u (by omega) (by omega)
  · have hv := hs.vars
    rw [← vars_step1 x t ht _ _ hb.2.1]
    show (round1 M t s).2 = _
    unfold round1
    rw [hv]

theorem hashBlock1_eq (M : List (BitVec 32)) (hM : M.length = 16) (x : Spec.Vars1) : hashBlock1 x.list M = (Spec.compress1 x M).list := by
  have h : ∀ n, n ≤ 80 → Inv1 (Spec.schedule1 M 64) ((List.range n).foldl (Spec.round1 (Spec.schedule1 M 64)) x) n
      ((List.range n).foldl (fun s i => round1 M i s) (List.replicate 16 0, x.list)) := by
    intro n hn
    induction n with
    | zero => exact ⟨by simp, fun u h => by omega, rfl⟩
    | succ n ih =>
      rw [List.range_succ, List.foldl_append, List.foldl_append]
      exact round1_step M hM _ n (by omega) _ (ih (by omega))
  have h := (h 80 (by omega)).vars
  unfold hashBlock1 Spec.compress1
  generalize (List.range 80).foldl (fun s i => round1 M i s) (List.replicate 16 0, x.list) = s at h ⊢
  generalize (List.range 80).foldl (Spec.round1 (Spec.schedule1 M 64)) x = y at h ⊢
  simp only [h]
  rfl

/-! ## MD5 -/

theorem f5_eq (r : Nat) (hr : r < 4) (x y z : BitVec 32) : f5 (r + 1) x y z = Spec.g r x y z := by
  have : r = 0 ∨ r = 1 ∨ r = 2 ∨ r = 3 := by omega
  rcases this with rfl | rfl | rfl | rfl
  · show z ^^^ (x &&& (y ^^^ z)) = (x &&& y) ||| (~~~x &&& z)
    apply BitVec.eq_of_getLsbD_eq
    intro i hi
    simp only [BitVec.getLsbD_xor, BitVec.getLsbD_and, BitVec.getLsbD_or, BitVec.getLsbD_not, hi, decide_true, Bool.true_and]
    cases x.getLsbD i <;> cases y.getLsbD i <;> cases z.getLsbD i <;> rfl
  · show y ^^^ (z &&& (x ^^^ y)) = (x &&& z) ||| (y &&& ~~~z)
    apply BitVec.eq_of_getLsbD_eq
    intro i hi
    simp only [BitVec.getLsbD_xor, BitVec.getLsbD_and, BitVec.getLsbD_or, BitVec.getLsbD_not, hi, decide_true, Bool.true_and]
    cases x.getLsbD i <;> cases y.getLsbD i <;> cases z.getLsbD i <;> rfl
  · rfl
  · rfl

theorem steps5 : ∀ t, t < 64 → md5Steps.getD t (0, 0, 0, 0) = (t / 16 + 1, Spec.word5 t, Spec.T5.getD t 0, Spec.shift5 t) := by decide +kernel

def rot5 (x : Spec.Vars5) (r : Nat) : List (BitVec 32) := (List.range 4).map fun p => at_ x.list ((p + r) % 4)

theorem step5_eq (M : List (BitVec 32)) (x : Spec.Vars5) (t : Nat) (ht : t < 64) :
    step5 M t (rot5 x (t % 4)) = rot5 (Spec.round5 M x t) ((t + 1) % 4) := by
  unfold step5
  rw [steps5 t ht]
  simp only [f5_eq (t / 16) (by omega), rotl_eq]
  have hs : ∀ p, slot5 p t = slot5 p (t % 4) := by intro p; simp only [slot5]; omega
  have h8 : (t + 1) % 4 = (t % 4 + 1) % 4 := by omega
  simp only [hs, h8]
  have hT : (x.a + Spec.g (t / 16) x.b x.c x.d + (at_ M (Spec.word5 t) + BitVec.ofNat 32 (Spec.T5.getD t 0))).rotateLeft (Spec.shift5 t) + x.b =
      x.b + (x.a + Spec.g (t / 16) x.b x.c x.d + M.getD (Spec.word5 t) 0 + BitVec.ofNat 32 (Spec.T5.getD t 0)).rotateLeft (Spec.shift5 t) := by
    rw [BitVec.add_comm, BitVec.add_assoc (x.a + _)]; rfl
  have hj : t % 4 < 4 := by omega
  generalize hj' : t % 4 = j at hj ⊢
  have : j = 0 ∨ j = 1 ∨ j = 2 ∨ j = 3 := by omega
  simp only [Spec.round5, ← hT]
  generalize t / 16 = r
  generalize Spec.word5 t = k
  generalize BitVec.ofNat 32 (Spec.T5.getD t 0) = c
  generalize Spec.shift5 t = sh
  rcases this with rfl | rfl | rfl | rfl <;> rfl

theorem hashBlock5_eq (M : List (BitVec 32)) (x : Spec.Vars5) : hashBlock5 x.list M = (Spec.compress5 x M).list := by
  have h : ∀ n, n ≤ 64 → (List.range n).foldl (fun T i => step5 M i T) x.list = rot5 ((List.range n).foldl (Spec.round5 M) x) (n % 4) := by
    intro n hn
    induction n with
    | zero => rfl
    | succ n ih =>
      rw [List.range_succ, List.foldl_append, List.foldl_append, ih (by omega)]
      exact step5_eq M _ n (by omega)
  have h := h 64 (by omega)
  unfold hashBlock5 Spec.compress5
  generalize (List.range 64).foldl (fun T i => step5 M i T) x.list = s at h ⊢
  generalize (List.range 64).foldl (Spec.round5 M) x = y at h ⊢
  simp only [h]
  rfl

end Verif.Sha
