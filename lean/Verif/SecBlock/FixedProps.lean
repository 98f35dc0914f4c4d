import Verif.SecBlock.Fixed

/-!
# C76: blocks of fixed size
-/
namespace Verif.SecBlock.Fixed
variable {w : Nat}

/-- What a caller may do with the two blocks, besides `swap`: write an element, or change the size within the array. -/
inductive Op (w : Nat) where
  | set (i : Bool) (k : Nat) (v : BitVec w)
  | new (i : Bool) (n : Nat)

/-- One call. -/
def step (S : Nat) (W : World w) : Op w → World w
  | .set i k v => set W i k v
  | .new i n => new S W i n

/-- Inside the block, and not larger than the array. -/
def fits (S : Nat) (W : World w) : Op w → Prop
  | .set i k _ => k < (W i).size
  | .new _ n => n ≤ S

/-- Every call of a sequence fits. -/
def Fits (S : Nat) : World w → List (Op w) → Prop
  | _, [] => True
  | W, op :: ops => fits S W op ∧ Fits S (step S W op) ops

/-- Its own array; behind the block nothing but what was never written or was wiped. -/
structure Own (S : Nat) (W : World w) : Prop where
  ptr : ∀ i, (W i).ptr = .array i
  mark : ∀ i, (W i).mark = elemsMax w
  len : ∀ i, (W i).array.length = S
  size : ∀ i, (W i).size ≤ S
  tail : ∀ i, ∀ x ∈ (W i).array.drop (W i).size, x = none ∨ x = some 0

theorem own_init (S : Nat) : Own S (init w S) :=
  ⟨fun _ => rfl, fun _ => rfl, fun _ => by simp [init, make], fun _ => Nat.le_refl _, fun i x hx => by simp [init, make] at hx⟩

theorem own_step (S : Nat) (W : World w) (H : Own S W) (op : Op w) (hf : fits S W op) : Own S (step S W op) := by
  cases op with
  | set i k v =>
    have hk : k < (W i).size := hf
    simp only [step, set, H.ptr i]
    refine ⟨fun j => ?_, fun j => ?_, fun j => ?_, fun j => ?_, fun j => ?_⟩ <;> unfold put <;> by_cases e : j = i
    all_goals first | subst e | skip
    · rw [if_pos rfl]
    · rw [if_neg e]; exact H.ptr j
    · rw [if_pos rfl]; exact H.mark j
    · rw [if_neg e]; exact H.mark j
    · rw [if_pos rfl]; simp only [List.length_set]; exact H.len j
    · rw [if_neg e]; exact H.len j
    · rw [if_pos rfl]; exact H.size j
    · rw [if_neg e]; exact H.size j
    · rw [if_pos rfl]; simp only; rw [List.drop_set_of_lt hk]; exact H.tail j
    · rw [if_neg e]; exact H.tail j
  | new i n =>
    have hn : n ≤ S := hf
    have hl := H.len i
    have hs := H.size i
    simp only [step, new, if_pos hn]
    refine ⟨fun j => ?_, fun j => ?_, fun j => ?_, fun j => ?_, fun j => ?_⟩ <;> unfold put <;> by_cases e : j = i
    all_goals first | subst e | skip
    · rw [if_pos rfl]; exact H.ptr j
    · rw [if_neg e]; exact H.ptr j
    · rw [if_pos rfl]
    · rw [if_neg e]; exact H.mark j
    · rw [if_pos rfl]; simp only
      split
      · simp [hl]; omega
      · exact hl
    · rw [if_neg e]; exact H.len j
    · rw [if_pos rfl]; exact hn
    · rw [if_neg e]; exact H.size j
    · rw [if_pos rfl]; simp only
      intro x hx
      split at hx
      · rw [List.append_assoc, List.drop_append, List.drop_eq_nil_of_le (by simp; omega), List.nil_append] at hx
        have : n - (List.take n (W j).array).length = 0 := by simp; omega
        rw [this, List.drop_zero] at hx
        rcases List.mem_append.1 hx with h | h
        · exact .inr (List.eq_of_mem_replicate h)
        · exact H.tail j x h
      · have hle : (W j).size ≤ n := by omega
        have : (W j).array.drop n = ((W j).array.drop (W j).size).drop (n - (W j).size) := by rw [List.drop_drop]; congr 1; omega
        rw [this] at hx
        exact H.tail j x (List.mem_of_mem_drop hx)
    · rw [if_neg e]; exact H.tail j

/-- **Blocks of fixed size are wiped.** After any calls without `swap`, destroying a block leaves nothing in its array that was written. -/
theorem fixed_wiped (S : Nat) (hS : S ≤ elemsMax w) (ops : List (Op w)) (hf : Fits S (init w S) ops) (i : Bool) :
    ∀ x ∈ (destroy (ops.foldl (step S) (init w S)) i i).array, x = none ∨ x = some 0 := by
  have all : ∀ (ops : List (Op w)) (W : World w), Own S W → Fits S W ops → Own S (ops.foldl (step S) W) := by
    intro ops
    induction ops with
    | nil => intro W H _; exact H
    | cons op ops ih => intro W H hf; exact ih _ (own_step S W H op hf.1) hf.2
  have H := all ops _ (own_init S) hf
  generalize ops.foldl (step S) (init w S) = W at H
  have hm : min (W i).size (W i).mark = (W i).size := by
    rw [H.mark i]; exact Nat.min_eq_left (Nat.le_trans (H.size i) hS)
  intro x hx
  simp only [destroy, H.ptr i, if_true, put, hm] at hx
  rcases List.mem_append.1 hx with h | h
  · exact .inr (List.eq_of_mem_replicate h)
  · exact H.tail i x h

/-- **`swap` does not exchange.** Two blocks that point to their own arrays have the same elements after `swap` as before. -/
theorem swap_keeps (W : World w) (h : ∀ i, (W i).ptr = .array i) (hs : (W false).size = (W true).size) (i : Bool) : elements (swap W) i = elements W i := by
  have hs' : (W (!i)).size = (W i).size := by cases i <;> simp [hs]
  simp only [elements, swap, h, Bool.not_not, hs']

/-- **After `swap` each block lives in the other.** What is written to one is written into the array of the other, and neither destructor wipes anything. -/
theorem swap_crosses (W : World w) (h : ∀ i, (W i).ptr = .array i) (i : Bool) :
    (swap W i).ptr = .array (!i) ∧ (∀ k v, (set (swap W) i k v (!i)).array = (W i).array.set k (some v)) ∧
    ∀ j, (destroy (destroy (swap W) i) (!i) j).array = (W (!j)).array := by
  have h1 : (W (!i)).ptr = .array (!i) := h _
  refine ⟨h1, fun k v => ?_, fun j => ?_⟩
  · simp only [set, swap, h1, put, if_true, Bool.not_not]
  · have keep : ∀ (V : World w) (a : Bool), (V a).ptr = .array (!a) → ∀ j, (destroy V a j).array = (V j).array ∧ (destroy V a j).ptr = (V j).ptr := by
      intro V a ha j
      have hne : ¬ ((V a).ptr = .array a) := by rw [ha]; cases a <;> decide
      simp only [destroy, if_neg hne, put]
      by_cases e : j = a
      · subst e; rw [if_pos rfl]; exact ⟨rfl, rfl⟩
      · rw [if_neg e]; exact ⟨rfl, rfl⟩
    have k1 := keep (swap W) i h1
    have k2 := keep (destroy (swap W) i) (!i) (by rw [(k1 _).2]; simp only [swap, h])
    rw [(k2 j).1, (k1 j).1]; rfl

/-- **A size above the array gives a null pointer.** `New` returns, and the block has a size but no elements. -/
theorem new_too_large (S : Nat) (W : World w) (i : Bool) (n : Nat) (hn : S < n) : (new S W i n i).size = n ∧ elements (new S W i n) i = none := by
  have h : ¬ n ≤ S := by omega
  have h0 : n ≠ 0 := by omega
  simp [new, h, put, elements, h0]

/-- Secrets in two blocks of two bytes. -/
def secrets : World 8 := set (set (set (set (init 8 2) false 0 1) false 1 2) true 0 3) true 1 4

example : ∀ i, (secrets i).ptr = .array i := by decide +kernel
example : elements (swap secrets) false = some [some 1, some 2] := by decide +kernel
example : (destroy (destroy (swap secrets) false) true true).array = [some 1, some 2] := by decide +kernel
example : Fits 2 (init 8 2) [.set false 1 7, .new false 1, .new false 2] := by simp [Fits, fits, init, make]

end Verif.SecBlock.Fixed
