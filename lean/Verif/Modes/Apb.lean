import Verif.Mem
import Verif.Words

/-!
# `BlockTransformation::AdvancedProcessBlocks` (cryptlib.cpp:141-191) and counters (misc.h)

The block transformation is a function `E` on blocks of `s` bytes. Memory is flat, so that in-place and overlapping use is
covered. `ProcessAndXorBlock`, `ProcessBlock` and `xorbuf` on one block read their inputs before they write. The SIMD
overrides of this function in individual ciphers are not modelled. A pointer stepped below address 0 after the last block
in reverse direction is 0 here; it is not used.
-/
namespace Verif.Modes

/-- The flags that affect the result (cryptlib.h:872-886). -/
structure Flags where
  inBlockIsCounter : Bool := false
  dontIncrement : Bool := false
  xorInput : Bool := false
  reverse : Bool := false

/-- `PtrAdd(p, inc)`, `inc` negated if `reverse`. -/
def step (reverse : Bool) (p inc : Nat) : Nat := if reverse then p - inc else p + inc

/-- One round of the loop (cryptlib.cpp:168-185): the output block is written, and the counter's last byte incremented. -/
def apbStep (E : List Byte → List Byte) (s : Nat) (fl : Flags) (m : Mem) (inP : Nat) (xorP : Option Nat) (outP : Nat) : Mem :=
  let m' := match xorP with
    | some x => if fl.xorInput then store m outP (E (xorBytes (load m x s) (load m inP s)))
        else store m outP (xorBytes (E (load m inP s)) (load m x s))
    | none => store m outP (E (load m inP s))
  if fl.inBlockIsCounter then store m' (inP + s - 1) [m' (inP + s - 1) + 1] else m'

/-- The loop `while (length >= blockSize)`, `n` times. -/
def apbLoop (E : List Byte → List Byte) (s : Nat) (fl : Flags) : Nat → Mem → Nat → Option Nat → Nat → Mem
  | 0, m, _, _, _ => m
  | n + 1, m, inP, xorP, outP =>
    apbLoop E s fl n (apbStep E s fl m inP xorP outP)
      (if fl.inBlockIsCounter || fl.dontIncrement then inP else step fl.reverse inP s)
      (xorP.map fun x => step fl.reverse x s)
      (if fl.dontIncrement then outP else step fl.reverse outP s)

/-- `AdvancedProcessBlocks`. With `BT_ReverseDirection` a null `xorBlocks` is offset like a pointer: undefined. -/
def apb (E : List Byte → List Byte) (s : Nat) (m : Mem) (inP : Nat) (xorP : Option Nat) (outP length : Nat) (fl : Flags) : Except Err Mem :=
  if fl.reverse then
    match xorP with
    | none => .error .undefinedBehaviour
    | some x => .ok (apbLoop E s fl (length / s) m (inP + (length - s)) (some (x + (length - s))) (outP + (length - s)))
  else .ok (apbLoop E s fl (length / s) m inP xorP outP)

/-- `IncrementCounterByOne(inout, size)` (misc.h:1508-1519). -/
def incrementCounterByOne : Nat → List Byte → List Byte
  | 0, x => x
  | n + 1, x =>
    let b := x.getD n 0 + 1
    let x := x.set n b
    if b = 0 then incrementCounterByOne n x else x

/-- `IncrementCounterByOne(output, input, size)` (misc.h:1528-1546), first loop then copy; the output has `input`'s size. -/
def incrementCounterByOneTo : Nat → List Byte → List Byte → List Byte
  | 0, out, _ => out
  | n + 1, out, inp =>
    let b := inp.getD n 0 + 1
    let out := out.set n b
    if b = 0 then incrementCounterByOneTo n out inp else inp.take n ++ out.drop n

/-! ## Facts -/

theorem beBytes_one (n : Nat) : beBytes 1 n = [BitVec.ofNat 8 n] := rfl

theorem beBytes_snoc (k n : Nat) : beBytes (k + 1) n = beBytes k (n / 256) ++ [BitVec.ofNat 8 n] := by
  rw [beBytes_append, beBytes_one]

theorem set_mid (a : List Byte) (b c : Byte) (t : List Byte) : (a ++ b :: t).set a.length c = a ++ c :: t := by
  simp

theorem getD_mid (a : List Byte) (b : Byte) (t : List Byte) : (a ++ b :: t).getD a.length 0 = b := by
  simp

theorem snoc_of_length (a : List Byte) (n : Nat) (h : a.length = n + 1) : ∃ a' b, a = a' ++ [b] ∧ a'.length = n := by
  have hne : a ≠ [] := by intro e; rw [e] at h; simp at h
  exact ⟨a.dropLast, a.getLast hne, (List.dropLast_concat_getLast hne).symm, by simp; omega⟩

theorem beVal_snoc (a : List Byte) (b : Byte) : beVal (a ++ [b]) = beVal a * 256 + b.toNat := by
  rw [beVal_append]; simp [beVal_cons]

theorem ofNat_add_toNat (v : Nat) (b : Byte) : BitVec.ofNat 8 (v * 256 + b.toNat) = b := by
  apply BitVec.eq_of_toNat_eq
  have := b.isLt
  simp only [BitVec.toNat_ofNat]
  omega

theorem byte_inc (b : Byte) : (b + 1).toNat = (b.toNat + 1) % 256 := by
  rw [BitVec.toNat_add]; rfl

theorem byte_inc_zero (b : Byte) : b + 1 = 0 ↔ b.toNat = 255 := by
  have hb := b.isLt
  constructor
  · intro h
    have := congrArg BitVec.toNat h
    rw [byte_inc] at this
    have z : (0 : Byte).toNat = 0 := rfl
    omega
  · intro h
    apply BitVec.eq_of_toNat_eq
    rw [byte_inc, h]; rfl

theorem byte_inc_ofNat (v : Nat) (b : Byte) : BitVec.ofNat 8 (v * 256 + b.toNat + 1) = b + 1 := by
  apply BitVec.eq_of_toNat_eq
  rw [byte_inc, BitVec.toNat_ofNat]; omega

/-- The counter is incremented as a big-endian number. -/
theorem incrementCounterByOne_spec (n : Nat) : ∀ (a t : List Byte), a.length = n →
    incrementCounterByOne n (a ++ t) = beBytes n (beVal a + 1) ++ t := by
  induction n with
  | zero =>
    intro a t h
    have : a = [] := List.eq_nil_of_length_eq_zero h
    subst this; rfl
  | succ n ih =>
    intro a t h
    obtain ⟨a, b, rfl, hl⟩ := snoc_of_length a n h
    simp only [incrementCounterByOne]
    have e : a ++ [b] ++ t = a ++ b :: t := by simp
    rw [e]
    have e1 : (a ++ b :: t).getD n 0 = b := by rw [← hl]; exact getD_mid a b t
    have e2 : ∀ c, (a ++ b :: t).set n c = a ++ c :: t := by intro c; rw [← hl]; exact set_mid a b c t
    rw [e1, e2, beBytes_snoc, beVal_snoc]
    have hb := b.isLt
    by_cases hz : b + 1 = 0
    · rw [if_pos hz, ih a _ hl]
      have hb255 : b.toNat = 255 := (byte_inc_zero b).1 hz
      have d : (beVal a * 256 + b.toNat + 1) / 256 = beVal a + 1 := by omega
      rw [d, List.append_assoc]
      congr 1
      rw [List.singleton_append]
      congr 1
      exact (byte_inc_ofNat _ b).symm
    · rw [if_neg hz]
      have hlt : b.toNat < 255 := by
        have := mt (byte_inc_zero b).2 hz
        omega
      have d : (beVal a * 256 + b.toNat + 1) / 256 = beVal a := by omega
      rw [d]
      have : beBytes n (beVal a) = a := by rw [← hl]; exact beBytes_beVal a
      rw [this, List.append_assoc, List.singleton_append]
      congr 2
      exact (byte_inc_ofNat _ b).symm

/-- The two-buffer version. -/
theorem incrementCounterByOneTo_spec (n : Nat) : ∀ (out inp ot it : List Byte), out.length = n → inp.length = n →
    incrementCounterByOneTo n (out ++ ot) (inp ++ it) = beBytes n (beVal inp + 1) ++ ot := by
  induction n with
  | zero =>
    intro out inp ot it h1 h2
    have : out = [] := List.eq_nil_of_length_eq_zero h1
    subst this; rfl
  | succ n ih =>
    intro out inp ot it h1 h2
    obtain ⟨o, c, rfl, ho⟩ := snoc_of_length out n h1
    obtain ⟨a, b, rfl, hl⟩ := snoc_of_length inp n h2
    simp only [incrementCounterByOneTo]
    have e : a ++ [b] ++ it = a ++ b :: it := by simp
    have e' : o ++ [c] ++ ot = o ++ c :: ot := by simp
    rw [e, e']
    have e1 : (a ++ b :: it).getD n 0 = b := by rw [← hl]; exact getD_mid a b it
    have e2 : ∀ d, (o ++ c :: ot).set n d = o ++ d :: ot := by intro d; rw [← ho]; exact set_mid o c d ot
    rw [e1, e2, beBytes_snoc, beVal_snoc]
    have hb := b.isLt
    by_cases hz : b + 1 = 0
    · rw [if_pos hz]
      have := ih o a ((b + 1) :: ot) (b :: it) ho hl
      rw [this]
      have hb255 : b.toNat = 255 := (byte_inc_zero b).1 hz
      have d : (beVal a * 256 + b.toNat + 1) / 256 = beVal a + 1 := by omega
      rw [d, List.append_assoc, List.singleton_append]
      congr 2
      exact (byte_inc_ofNat _ b).symm
    · rw [if_neg hz]
      have hlt : b.toNat < 255 := by
        have := mt (byte_inc_zero b).2 hz
        omega
      have d : (beVal a * 256 + b.toNat + 1) / 256 = beVal a := by omega
      rw [d]
      have : beBytes n (beVal a) = a := by rw [← hl]; exact beBytes_beVal a
      rw [this, List.append_assoc, List.singleton_append, List.take_left' hl, List.drop_left' ho]
      congr 2
      exact (byte_inc_ofNat _ b).symm

section
variable (E : List Byte → List Byte) (s : Nat)

/-- Concatenation of `f` over blocks `0 .. n-1`. -/
def blocksOf (n : Nat) (f : Nat → List Byte) : List Byte := (List.range n).flatMap f

theorem blocksOf_succ (n : Nat) (f : Nat → List Byte) : blocksOf (n + 1) f = f 0 ++ blocksOf n (fun k => f (k + 1)) := by
  simp [blocksOf, List.range_succ_eq_map, List.flatMap_cons, List.flatMap_map]

theorem blocksOf_snoc (n : Nat) (f : Nat → List Byte) : blocksOf (n + 1) f = blocksOf n f ++ f n := by
  simp [blocksOf, List.range_succ, List.flatMap_append]

theorem blocksOf_length (n : Nat) (f : Nat → List Byte) (h : ∀ k, k < n → (f k).length = s) : (blocksOf n f).length = n * s := by
  induction n with
  | zero => simp [blocksOf]
  | succ n ih => rw [blocksOf_snoc, List.length_append, ih (fun k hk => h k (by omega)), h n (by omega), Nat.succ_mul]

theorem blocksOf_congr (n : Nat) (f g : Nat → List Byte) (h : ∀ k, k < n → f k = g k) : blocksOf n f = blocksOf n g := by
  induction n with
  | zero => rfl
  | succ n ih => rw [blocksOf_snoc, blocksOf_snoc, ih (fun k hk => h k (by omega)), h n (by omega)]

theorem load_blocks (m : Mem) (a n : Nat) : load m a (n * s) = blocksOf n (fun k => load m (a + k * s) s) := by
  induction n with
  | zero => simp [blocksOf]
  | succ n ih => rw [blocksOf_snoc, Nat.succ_mul, load_add, ih]

/-- Decryption-style use: reverse direction, the transformation of each input block combined with the corresponding `xor`
block. It works for disjoint buffers and for output at or above input and `xor` addresses (in place). -/
theorem apb_reverse (hE : ∀ b, b.length = s → (E b).length = s) (inP xorP outP : Nat) (n : Nat) (m : Mem)
    (hin : inP ≤ outP ∨ outP + n * s ≤ inP) (hx : xorP ≤ outP ∨ outP + n * s ≤ xorP) :
    ∃ m', apb E s m inP (some xorP) outP (n * s) { reverse := true } = .ok m' ∧
      load m' outP (n * s) = blocksOf n (fun k => xorBytes (E (load m (inP + k * s) s)) (load m (xorP + k * s) s)) ∧
      ∀ a, (a < outP ∨ outP + n * s ≤ a) → m' a = m a := by
  by_cases hs : s = 0
  · subst hs
    refine ⟨m, by simp [apb, apbLoop], ?_, fun _ _ => rfl⟩
    simp only [Nat.mul_zero, load_zero, xorBytes, blocksOf]
    simp
  have hsp : 0 < s := Nat.pos_of_ne_zero hs
  have key : ∀ (n : Nat) (m : Mem), (inP ≤ outP ∨ outP + n * s ≤ inP) → (xorP ≤ outP ∨ outP + n * s ≤ xorP) →
      load (apbLoop E s { reverse := true } n m (inP + (n * s - s)) (some (xorP + (n * s - s))) (outP + (n * s - s))) outP (n * s) =
        blocksOf n (fun k => xorBytes (E (load m (inP + k * s) s)) (load m (xorP + k * s) s)) ∧
      ∀ a, (a < outP ∨ outP + n * s ≤ a) →
        apbLoop E s { reverse := true } n m (inP + (n * s - s)) (some (xorP + (n * s - s))) (outP + (n * s - s)) a = m a := by
    intro n
    induction n with
    | zero => intro m _ _; exact ⟨by simp [blocksOf], fun _ _ => rfl⟩
    | succ n ih =>
      intro m h1 h2
      have e : (n + 1) * s - s = n * s := by rw [Nat.succ_mul]; omega
      have hmul : (n + 1) * s = n * s + s := Nat.succ_mul n s
      rw [e]
      simp only [apbLoop, apbStep, Option.map, step, if_true, Bool.false_eq_true, if_false, Bool.or_self]
      generalize hB : xorBytes (E (load m (inP + n * s) s)) (load m (xorP + n * s) s) = B
      have hBl : B.length = s := by rw [← hB, xorBytes_length, hE _ (by simp), load_length]; omega
      -- the pointers for the remaining blocks
      have ptr : ∀ p, n ≠ 0 → p + n * s - s = p + (n * s - s) := by
        intro p hn
        have : s ≤ n * s := Nat.le_mul_of_pos_left s (Nat.pos_of_ne_zero hn)
        omega
      by_cases hn : n = 0
      · subst hn
        simp only [apbLoop, Nat.zero_mul, Nat.add_zero, Nat.zero_add, Nat.one_mul] at hB hmul ⊢
        refine ⟨?_, ?_⟩
        · rw [blocksOf_succ]
          simp only [Nat.zero_mul, Nat.add_zero, hB]
          rw [load_store' _ _ _ _ hBl]; simp [blocksOf]
        · intro a ha; exact store_out _ _ _ _ (by omega)
      · rw [ptr inP hn, ptr xorP hn, ptr outP hn]
        obtain ⟨i1, i2⟩ := ih (store m (outP + n * s) B) (by omega) (by omega)
        refine ⟨?_, ?_⟩
        · rw [hmul, load_add, i1, blocksOf_snoc]
          congr 1
          · apply blocksOf_congr
            intro k hk
            have hk' : k * s + s ≤ n * s := by rw [← Nat.succ_mul]; exact Nat.mul_le_mul_right s hk
            rw [load_store_disj _ _ _ _ _ (by omega), load_store_disj _ _ _ _ _ (by omega)]
          · rw [hB]
            rw [show load _ (outP + n * s) s = load (store m (outP + n * s) B) (outP + n * s) s from
              load_congr _ _ _ _ (fun i hi => i2 _ (by omega))]
            exact load_store' _ _ _ _ hBl
        · intro a ha
          rw [i2 a (by omega)]
          exact store_out _ _ _ _ (by omega)
  have hd : n * s / s = n := Nat.mul_div_cancel _ hsp
  obtain ⟨k1, k2⟩ := key n m hin hx
  exact ⟨_, by simp only [apb, if_true, hd], k1, k2⟩

/-- Forward direction, no `xor` blocks (`ECB_OneWay`). -/
theorem apb_forward (hE : ∀ b, b.length = s → (E b).length = s) (hs : 0 < s) (inP outP : Nat) (n : Nat) (m : Mem)
    (hin : outP ≤ inP ∨ inP + n * s ≤ outP) :
    ∃ m', apb E s m inP none outP (n * s) {} = .ok m' ∧
      load m' outP (n * s) = blocksOf n (fun k => E (load m (inP + k * s) s)) ∧
      ∀ a, (a < outP ∨ outP + n * s ≤ a) → m' a = m a := by
  have key : ∀ (n : Nat) (m : Mem) (inP outP : Nat), (outP ≤ inP ∨ inP + n * s ≤ outP) →
      load (apbLoop E s {} n m inP none outP) outP (n * s) = blocksOf n (fun k => E (load m (inP + k * s) s)) ∧
      ∀ a, (a < outP ∨ outP + n * s ≤ a) → apbLoop E s {} n m inP none outP a = m a := by
    intro n
    induction n with
    | zero => intro m _ _ _; exact ⟨by simp [blocksOf], fun _ _ => rfl⟩
    | succ n ih =>
      intro m inP outP h1
      have hmul : (n + 1) * s = s + n * s := by rw [Nat.succ_mul]; omega
      simp only [apbLoop, apbStep, Option.map, step, Bool.false_eq_true, if_false, Bool.or_self]
      have hBl : (E (load m inP s)).length = s := hE _ (by simp)
      obtain ⟨i1, i2⟩ := ih (store m outP (E (load m inP s))) (inP + s) (outP + s) (by omega)
      refine ⟨?_, ?_⟩
      · rw [hmul, load_add, i1, blocksOf_succ]
        congr 1
        · rw [show load _ outP s = load (store m outP (E (load m inP s))) outP s from load_congr _ _ _ _ (fun i hi => i2 _ (by omega))]
          rw [load_store' _ _ _ _ hBl]; simp
        · apply blocksOf_congr
          intro k hk
          have hk' : k * s + s ≤ n * s := by rw [← Nat.succ_mul]; exact Nat.mul_le_mul_right s hk
          rw [load_store_disj _ _ _ _ _ (by omega)]
          congr 2
          rw [Nat.succ_mul]; omega
      · intro a ha
        rw [i2 a (by omega)]
        exact store_out _ _ _ _ (by omega)
  have hd : n * s / s = n := Nat.mul_div_cancel _ hs
  obtain ⟨k1, k2⟩ := key n m inP outP hin
  exact ⟨_, by simp only [apb, Bool.false_eq_true, if_false, hd], k1, k2⟩

end

end Verif.Modes
