import Verif.Modes.Apb

/-! Lemmas on the block loop: chained use (`CBC`, `CFB`, `OFB`) and counter use (`CTR`). -/
namespace Verif.Modes

theorem blocksOf_add (a b : Nat) (f : Nat → List Byte) : blocksOf (a + b) f = blocksOf a f ++ blocksOf b (fun k => f (a + k)) := by
  induction b with
  | zero => simp [blocksOf]
  | succ b ih => rw [← Nat.add_assoc, blocksOf_snoc, ih, blocksOf_snoc, List.append_assoc]

theorem blocksOf_xor (s n : Nat) (f g : Nat → List Byte) (hf : ∀ k, k < n → (f k).length = s) (hg : ∀ k, k < n → (g k).length = s) :
    blocksOf n (fun k => xorBytes (f k) (g k)) = xorBytes (blocksOf n f) (blocksOf n g) := by
  induction n with
  | zero => simp [blocksOf, xorBytes]
  | succ n ih =>
    rw [blocksOf_snoc, blocksOf_snoc, blocksOf_snoc, ih (fun k hk => hf k (by omega)) (fun k hk => hg k (by omega)), xorBytes_append]
    rw [blocksOf_length s n f (fun k hk => hf k (by omega)), blocksOf_length s n g (fun k hk => hg k (by omega))]

theorem blocksOf_range (n : Nat) (f : Nat → List Byte) : blocksOf n f = ((List.range n).map f).flatten := by
  simp [blocksOf, List.flatMap_def]

theorem load_chunks (m : Mem) (a n s : Nat) (hs : 0 < s) : chunks s (load m a (n * s)) = (List.range n).map fun k => load m (a + k * s) s := by
  induction n generalizing a with
  | zero => simp
  | succ n ih =>
    rw [Nat.succ_mul, Nat.add_comm, load_add, chunks_append_block s hs _ _ (by simp), ih, List.range_succ_eq_map, List.map_cons, List.map_map]
    congr 1
    · simp
    · apply List.map_congr_left
      intro k _
      simp only [Function.comp, Nat.succ_mul]
      congr 1; omega

/-- Each block is made from the block before it and a data block. -/
def chain (F : List Byte → List Byte → List Byte) : List Byte → List (List Byte) → List (List Byte)
  | _, [] => []
  | c, x :: xs => F c x :: chain F (F c x) xs

theorem chain_length (F : List Byte → List Byte → List Byte) (c : List Byte) (xs : List (List Byte)) : (chain F c xs).length = xs.length := by
  induction xs generalizing c with
  | nil => rfl
  | cons x xs ih => simp [chain, ih]

/-- The loop of the three chained modes: the previous block at `o`, data at `d`, output from `o + s` on. -/
def chainLoop (F : List Byte → List Byte → List Byte) (s : Nat) : Nat → Mem → Nat → Nat → Mem
  | 0, m, _, _ => m
  | n + 1, m, d, o => chainLoop F s n (store m (o + s) (F (load m o s) (load m d s))) (d + s) (o + s)

theorem chainLoop_spec (F : List Byte → List Byte → List Byte) (s : Nat) (hF : ∀ c x, c.length = s → x.length = s → (F c x).length = s) (n : Nat) :
    ∀ (m : Mem) (d o : Nat), (o + s ≤ d ∨ d + n * s ≤ o + s) →
      load (chainLoop F s n m d o) (o + s) (n * s) = (chain F (load m o s) ((List.range n).map fun k => load m (d + k * s) s)).flatten ∧
      ∀ a, (a < o + s ∨ o + s + n * s ≤ a) → chainLoop F s n m d o a = m a := by
  induction n with
  | zero => intro m d o _; exact ⟨by simp [chain], fun _ _ => rfl⟩
  | succ n ih =>
    intro m d o h
    have hmul : (n + 1) * s = s + n * s := by rw [Nat.succ_mul]; omega
    generalize hB : F (load m o s) (load m d s) = B
    have hBl : B.length = s := by rw [← hB]; exact hF _ _ (by simp) (by simp)
    obtain ⟨i1, i2⟩ := ih (store m (o + s) B) (d + s) (o + s) (by omega)
    simp only [chainLoop, hB]
    refine ⟨?_, ?_⟩
    · rw [hmul, load_add, i1, List.range_succ_eq_map, List.map_cons, List.map_map]
      simp only [chain, Nat.zero_mul, Nat.add_zero, hB, List.flatten_cons]
      have e1 : load (chainLoop F s n (store m (o + s) B) (d + s) (o + s)) (o + s) s = B := by
        rw [show load _ (o + s) s = load (store m (o + s) B) (o + s) s from load_congr _ _ _ _ (fun i hi => i2 _ (by omega))]
        exact load_store' _ _ _ _ hBl
      rw [e1, load_store' _ _ _ _ hBl]
      congr 2
      congr 1
      apply List.map_congr_left
      intro k hk
      have hk := List.mem_range.mp hk
      have hk' : k * s + s ≤ n * s := by rw [← Nat.succ_mul]; exact Nat.mul_le_mul_right s hk
      rw [load_store_disj _ _ _ _ _ (by omega)]
      simp only [Function.comp, Nat.succ_mul]
      congr 1; omega
    · intro a ha
      rw [i2 a (by omega)]
      exact store_out _ _ _ _ (by omega)

section
variable (E : List Byte → List Byte) (s : Nat)

theorem apbLoop_ofb (n : Nat) : ∀ (m : Mem) (o d : Nat), apbLoop E s {} n m o none (o + s) = chainLoop (fun c _ => E c) s n m d o := by
  induction n with
  | zero => intros; rfl
  | succ n ih =>
    intro m o d
    simp only [apbLoop, apbStep, chainLoop, Option.map, step, Bool.false_eq_true, if_false, Bool.or_self]
    exact ih _ _ _

theorem apbLoop_cfb (n : Nat) : ∀ (m : Mem) (o d : Nat), apbLoop E s {} n m o (some d) (o + s) = chainLoop (fun c x => xorBytes (E c) x) s n m d o := by
  induction n with
  | zero => intros; rfl
  | succ n ih =>
    intro m o d
    simp only [apbLoop, apbStep, chainLoop, Option.map, step, Bool.false_eq_true, if_false, Bool.or_self]
    exact ih _ _ _

theorem apbLoop_cbc (n : Nat) : ∀ (m : Mem) (o d : Nat),
    apbLoop E s { xorInput := true } n m d (some o) (o + s) = chainLoop (fun c x => E (xorBytes c x)) s n m d o := by
  induction n with
  | zero => intros; rfl
  | succ n ih =>
    intro m o d
    simp only [apbLoop, apbStep, chainLoop, Option.map, step, Bool.false_eq_true, if_false, Bool.or_self, if_true]
    exact ih _ _ _

/-- An output block combined with the input block, if there is an input. -/
def xorIn (m : Mem) (xorP : Option Nat) (s k : Nat) (e : List Byte) : List Byte :=
  match xorP with
  | none => e
  | some x => xorBytes e (load m (x + k * s) s)

theorem xorIn_length (m : Mem) (xorP : Option Nat) (k : Nat) (e : List Byte) (h : e.length = s) : (xorIn m xorP s k e).length = s := by
  cases xorP with
  | none => exact h
  | some x => simp [xorIn, h]

/-- Counter use: the counter block at `c` has its last byte incremented after each block. -/
theorem apbLoop_counter (hE : ∀ b, b.length = s → (E b).length = s) (c : Nat) (n : Nat) : ∀ (m : Mem) (xorP : Option Nat) (outP : Nat) (a : List Byte) (b : Byte),
    a.length + 1 = s → load m c s = a ++ [b] → (c + s ≤ outP ∨ outP + n * s ≤ c) →
    (∀ x, xorP = some x → (x = outP ∨ x + n * s ≤ outP ∨ outP + n * s ≤ x) ∧ (c + s ≤ x ∨ x + n * s ≤ c)) →
    let m' := apbLoop E s { inBlockIsCounter := true } n m c xorP outP
    load m' c s = a ++ [b + BitVec.ofNat 8 n] ∧
    load m' outP (n * s) = blocksOf n (fun k => xorIn m xorP s k (E (a ++ [b + BitVec.ofNat 8 k]))) ∧
    ∀ z, (z < outP ∨ outP + n * s ≤ z) → (z < c ∨ c + s ≤ z) → m' z = m z := by
  induction n with
  | zero => intro m xorP outP a b _ hc _ _; exact ⟨by simpa [apbLoop] using hc, by simp [blocksOf], fun _ _ _ => rfl⟩
  | succ n ih =>
    intro m xorP outP a b ha hc hco hx
    have hmul : (n + 1) * s = s + n * s := by rw [Nat.succ_mul]; omega
    have hEc : (E (a ++ [b])).length = s := hE _ (by simp; omega)
    -- the step
    obtain ⟨B, hB⟩ : ∃ B, xorIn m xorP s 0 (E (a ++ [b])) = B := ⟨_, rfl⟩
    have hBl : B.length = s := by rw [← hB]; exact xorIn_length s m xorP 0 _ hEc
    have hstep : apbStep E s { inBlockIsCounter := true } m c xorP outP = store (store m outP B) (c + s - 1) [b + 1] := by
      have e0 : m (c + s - 1) = b := by
        have h1 : (load m c s).getD (s - 1) 0 = m (c + (s - 1)) := by
          simp only [load, List.getD_eq_getElem?_getD]
          rw [List.getElem?_map, List.getElem?_range (by omega)]; rfl
        have h2 : (a ++ [b]).getD (s - 1) 0 = b := by
          have : s - 1 = a.length := by omega
          rw [this]; simp
        rw [hc, h2] at h1
        rw [h1]; congr 1; omega
      have e1 : store m outP B (c + s - 1) = b := by rw [store_out _ _ _ _ (by omega), e0]
      simp only [apbStep, if_true, Bool.false_eq_true, if_false]
      cases xorP with
      | none => simp only [xorIn] at hB; simp only [hc, hB, e1]
      | some x =>
        simp only [xorIn, Nat.zero_mul, Nat.add_zero] at hB
        simp only [hc, hB, e1]
    have hc1 : load (store (store m outP B) (c + s - 1) [b + 1]) c s = a ++ [b + 1] := by
      have h1 : s = (s - 1) + 1 := by omega
      have h2 : load (store m outP B) c s = a ++ [b] := by rw [load_store_disj _ _ _ _ _ (by omega), hc]
      rw [h1, load_add] at h2 ⊢
      obtain ⟨h3, _⟩ := List.append_inj h2 (by simp; omega)
      rw [load_store_disj _ _ _ _ _ (by omega), h3]
      congr 1
      have h4 : c + (s - 1 + 1) - 1 = c + (s - 1) := by omega
      rw [h4]
      exact load_store' _ _ _ _ rfl
    have := ih (store (store m outP B) (c + s - 1) [b + 1]) (xorP.map fun x => x + s) (outP + s) a (b + 1) ha hc1 (by omega) (by
      intro x hx'
      cases xorP with
      | none => cases hx'
      | some y =>
        simp only [Option.map, Option.some.injEq] at hx'
        have := hx y rfl
        omega)
    simp only [apbLoop, step, Bool.true_or, if_true, Bool.false_eq_true, if_false, hstep]
    obtain ⟨i1, i2, i3⟩ := this
    have hone : ∀ k, b + 1 + BitVec.ofNat 8 k = b + BitVec.ofNat 8 (k + 1) := by
      intro k
      rw [BitVec.add_assoc]
      congr 1
      apply BitVec.eq_of_toNat_eq
      simp [BitVec.toNat_add, Nat.add_comm]
    refine ⟨by rw [i1, hone], ?_, ?_⟩
    · rw [hmul, load_add, i2, blocksOf_succ]
      have hz : b + BitVec.ofNat 8 0 = b := by simp
      congr 1
      · rw [show load _ outP s = load (store (store m outP B) (c + s - 1) [b + 1]) outP s from
          load_congr _ _ _ _ (fun i hi => i3 _ (by omega) (by omega))]
        rw [load_store_disj _ _ _ _ _ (by simp; omega), load_store' _ _ _ _ hBl, hz, hB]
      · apply blocksOf_congr
        intro k hk
        have hk' : k * s + s ≤ n * s := by rw [← Nat.succ_mul]; exact Nat.mul_le_mul_right s hk
        rw [hone]
        cases xorP with
        | none => rfl
        | some x =>
          have hxx := hx x rfl
          simp only [xorIn, Option.map]
          rw [load_store_disj _ _ _ _ _ (by simp; omega), load_store_disj _ _ _ _ _ (by omega)]
          congr 2
          rw [Nat.succ_mul]; omega
    · intro z hz1 hz2
      rw [i3 z (by omega) hz2, store_out _ _ _ _ (by simp; omega), store_out _ _ _ _ (by omega)]

end

end Verif.Modes
