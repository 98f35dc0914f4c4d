import Verif.SecBlock.Proofs

/-!
# C76: SecBlock keeps its elements and wipes what it gives back
-/
namespace Verif.SecBlock
open Spec
variable {w : Nat}

/-- The calls that allocate before they give memory back. -/
def careful : Op w → Bool
  | .new _ | .cleanNew _ | .assign _ => false
  | _ => true

theorem unmark_wf {h : Heap w} {s : Block} {c : List (Option (BitVec w))} (H : WF h s c) : WF h (unmark w s) c :=
  ⟨rfl, H.size, H.le, H.rest, H.fresh, H.own⟩

/-- What a call may do. -/
def Good (F : Nat → Bool) (h : Heap w) (s : Block) (c : List (Option (BitVec w))) (op : Op w) (o : Out w) : Prop :=
  match o with
  | .ok h' s' => WF h' s' (after c op)
  | .throw _ h' s' => (elemsMax w < (after c op).length ∨ F h.count = true) ∧ (careful op = true → s' = s ∧ WF h' s c)
  | .ub => False

theorem all_written {h : Heap w} {s : Block} {c : List (Option (BitVec w))} (H : WF h s c) (x : List (Option (BitVec w))) (hx : x.length = c.length) :
    ∃ h', write h s.ptr 0 x = some h' ∧ WF h' s x := by
  obtain ⟨h', h1, h2⟩ := write_wf H 0 x (by omega)
  refine ⟨h', h1, ?_⟩
  rw [List.take_zero, List.nil_append, List.drop_eq_nil_of_le (by omega), List.append_nil] at h2
  exact h2

theorem tail_written {h : Heap w} {s : Block} {c x : List (Option (BitVec w))} (H : WF h s (fit (c.length + x.length) none c)) :
    ∃ h', write h s.ptr c.length x = some h' ∧ WF h' s (c ++ x) := by
  have hl : (fit (c.length + x.length) none c).length = c.length + x.length := by simp [fit]
  obtain ⟨h', h1, h2⟩ := write_wf H c.length x (by omega)
  refine ⟨h', h1, ?_⟩
  rw [List.drop_eq_nil_of_le (by omega), List.append_nil, fit, List.take_of_length_le (by omega : c.length ≤ c.length + x.length), List.take_append_of_le_length (Nat.le_refl _), List.take_of_length_le (Nat.le_refl _)] at h2
  exact h2

theorem grow_wf (F : Nat → Bool) {h : Heap w} {s : Block} {c : List (Option (BitVec w))} (H : WF h s c) (n : Nat) (hn : c.length ≤ n) :
    match grow F n h s with
    | .ok h' s' => WF h' s' (fit n none c)
    | .throw _ h' s' => (elemsMax w < n ∨ F h.count = true) ∧ s' = s ∧ WF h' s c
    | .ub => False := by
  unfold grow
  rw [H.size]
  by_cases h0 : n > c.length
  · rw [if_pos h0]
    have := keep_wf F H n
    cases hr : reallocate F h s n true with
    | ok h' s' => rw [hr] at this; exact unmark_wf this
    | throw e h' s' => rw [hr] at this; exact ⟨this.2.2, this.1, this.2.1⟩
    | ub => rw [hr] at this; exact this
  · rw [if_neg h0]
    have : fit n none c = c := by
      rw [fit, List.take_of_length_le hn, show n - c.length = 0 by omega]; simp
    rw [this]
    exact unmark_wf H

theorem append_wf (F : Nat → Bool) {h : Heap w} {s : Block} {c : List (Option (BitVec w))} (H : WF h s c) (x : List (Option (BitVec w))) (f : Heap w → Block → Option (Heap w))
    (hf : ∀ h' s', WF h' s' (fit (c.length + x.length) none c) → f h' s' = write h' s'.ptr c.length x) :
    match (grow F (c.length + x.length) h s).bind fun h' s' => orUb (f h' s') fun h => .ok h (unmark w s') with
    | .ok h' s' => WF h' s' (c ++ x)
    | .throw _ h' s' => (elemsMax w < c.length + x.length ∨ F h.count = true) ∧ s' = s ∧ WF h' s c
    | .ub => False := by
  have := grow_wf F H (c.length + x.length) (by omega)
  cases hr : grow F (c.length + x.length) h s with
  | ok h' s' =>
    rw [hr] at this
    obtain ⟨h'', h1, h2⟩ := tail_written this
    simp only [Out.bind, hf h' s' this, h1, orUb]
    exact unmark_wf h2
  | throw e h' s' => rw [hr] at this; exact this
  | ub => rw [hr] at this; exact this

theorem step_good (F : Nat → Bool) {h : Heap w} {s : Block} {c : List (Option (BitVec w))} (H : WF h s c) (op : Op w) (hi : inside c op) :
    Good F h s c op (step F h s op) := by
  have newGood : ∀ n, match new F n h s with
      | .ok h' s' => WF h' s' (if c.length = n then c else List.replicate n none)
      | .throw _ _ _ => elemsMax w < n ∨ F h.count = true
      | .ub => False := by
    intro n
    have := new_wf F H n
    unfold new
    cases hr : reallocate F h s n false with
    | ok h' s' => rw [hr] at this; exact unmark_wf this
    | throw e h' s' => rw [hr] at this; exact this
    | ub => rw [hr] at this; exact this
  have newLen : ∀ n, (if c.length = n then c else List.replicate n none).length = n := by
    intro n; split
    · assumption
    · simp
  cases op with
  | new n =>
    have := newGood n
    simp only [step, Good]
    cases hr : new F n h s with
    | ok h' s' => rw [hr] at this; exact this
    | throw e h' s' => rw [hr] at this; exact ⟨by simp only [after]; rw [newLen]; exact this, by simp [careful]⟩
    | ub => rw [hr] at this; exact this
  | cleanNew n =>
    have := newGood n
    simp only [step, Good, cleanNew]
    cases hr : new F n h s with
    | ok h' s' =>
      rw [hr] at this
      have hs : s'.size = n := by rw [this.size, newLen]
      obtain ⟨h'', h1, h2⟩ := all_written this (List.replicate n (some 0)) (by rw [newLen]; simp)
      simp only [Out.bind, hs]
      by_cases hp : s'.ptr ≠ none
      · rw [if_pos hp, h1]; exact unmark_wf h2
      · rw [if_neg hp]
        have hp' : s'.ptr = none := Classical.byContradiction hp
        have h0 : n = 0 := by
          rcases this.own with ⟨hc, _⟩ | ⟨_, p, hq, _⟩
          · rw [← newLen n, hc]; rfl
          · rw [hp'] at hq; cases hq
        subst h0
        rw [hp', write, if_pos (by rfl)] at h1
        cases h1
        exact unmark_wf h2
    | throw e h' s' => rw [hr] at this; exact ⟨by simpa [after] using this, by simp [careful]⟩
    | ub => rw [hr] at this; exact this
  | assign x =>
    have := newGood x.length
    simp only [step, Good, assign]
    cases hr : new F x.length h s with
    | ok h' s' =>
      rw [hr] at this
      obtain ⟨h'', h1, h2⟩ := all_written this (x.map some) (by rw [newLen]; simp)
      simp only [Out.bind, h1, orUb]
      exact unmark_wf h2
    | throw e h' s' => rw [hr] at this; exact ⟨by simpa [after] using this, by simp [careful]⟩
    | ub => rw [hr] at this; exact this
  | grow n =>
    simp only [step, Good, after]
    by_cases hn : c.length < n
    · have := grow_wf F H n (by omega)
      rw [if_pos hn]
      have hl : (fit n none c).length = n := by simp [fit]; omega
      cases hr : grow F n h s with
      | ok h' s' => rw [hr] at this; exact this
      | throw e h' s' => rw [hr] at this; exact ⟨by rw [hl]; exact this.1, fun _ => this.2⟩
      | ub => rw [hr] at this; exact this
    · rw [grow, H.size, if_neg hn, if_neg hn]; exact unmark_wf H
  | cleanGrow n =>
    simp only [step, Good, after]
    by_cases hn : c.length < n
    · obtain ⟨k, rfl⟩ : ∃ k, n = c.length + k := ⟨n - c.length, by omega⟩
      rw [if_pos hn]
      have hfit : fit (c.length + k) (some (0 : BitVec w)) c = c ++ List.replicate k (some 0) := by
        rw [fit, List.take_of_length_le (by omega), Nat.add_sub_cancel_left]
      have := keep_wf F H (c.length + k)
      rw [cleanGrow, H.size, if_pos hn, hfit]
      cases hr : reallocate F h s (c.length + k) true with
      | ok h' s' =>
        rw [hr] at this
        obtain ⟨h'', h1, h2⟩ := tail_written (x := List.replicate k (some 0)) (c := c) (by rw [List.length_replicate]; exact this)
        simp only [Out.bind, Nat.add_sub_cancel_left, h1, orUb]
        exact unmark_wf h2
      | throw e h' s' => rw [hr] at this; exact ⟨by simpa using this.2.2, fun _ => ⟨this.1, this.2.1⟩⟩
      | ub => rw [hr] at this; exact this
    · rw [cleanGrow, H.size, if_neg hn, if_neg hn]; exact unmark_wf H
  | resize n =>
    have := keep_wf F H n
    have hl : (fit n none c).length = n := by simp [fit]; omega
    simp only [step, Good, resize, after]
    cases hr : reallocate F h s n true with
    | ok h' s' => rw [hr] at this; exact unmark_wf this
    | throw e h' s' => rw [hr] at this; exact ⟨by rw [hl]; exact this.2.2, fun _ => ⟨this.1, this.2.1⟩⟩
    | ub => rw [hr] at this; exact this
  | append x =>
    simp only [step, Good, append, H.size]
    by_cases ht : elemsMax w - c.length < x.length
    · rw [if_pos ht]; exact ⟨.inl (by simp [after]; omega), fun _ => ⟨rfl, H⟩⟩
    · rw [if_neg ht]
      have := append_wf F H (x.map some) (fun h' s' => write h' s'.ptr c.length (x.map some)) (fun _ _ _ => rfl)
      rw [List.length_map] at this
      revert this
      generalize (grow F (c.length + x.length) h s).bind _ = o
      intro this
      cases o with
      | ok h' s' => exact this
      | throw e h' s' => exact ⟨by simpa [after] using this.1, fun _ => this.2⟩
      | ub => exact this
  | appendSelf =>
    simp only [step, Good, appendSelf, H.size]
    by_cases ht : elemsMax w - c.length < c.length
    · rw [if_pos ht]; exact ⟨.inl (by simp [after]; omega), fun _ => ⟨rfl, H⟩⟩
    · rw [if_neg ht]
      have := append_wf F H c (fun h' s' => if s'.ptr ≠ none then (read h' s'.ptr c.length).bind (write h' s'.ptr c.length) else some h') (by
        intro h' s' H'
        rcases H'.own with ⟨hc, hp⟩ | ⟨hc, p, hp, hl⟩
        · have : c = [] := by
            have h3 : (fit (c.length + c.length) none c).length = c.length + c.length := by simp [fit]
            rw [hc] at h3
            exact List.eq_nil_of_length_eq_zero (by simp at h3; omega)
          subst this
          simp [hp, write]
        · rw [if_pos (by rw [hp]; simp), hp]
          simp only [read, hl]
          rw [if_pos (by simp [fit]), Option.bind_some, fit, List.take_of_length_le (by omega : c.length ≤ c.length + c.length), List.take_append_of_le_length (Nat.le_refl _), List.take_of_length_le (Nat.le_refl _)])
      rw [← Nat.mul_two] at this
      revert this
      generalize (grow F (c.length * 2) h s).bind _ = o
      intro this
      cases o with
      | ok h' s' => exact this
      | throw e h' s' => exact ⟨by simp only [after, List.length_append]; rw [← Nat.mul_two]; exact this.1, fun _ => this.2⟩
      | ub => exact this
  | set i v =>
    have hi' : i < c.length := hi
    simp only [step, Good, set, after]
    obtain ⟨h', h1, h2⟩ := write_wf H i [some v] (by simp; omega)
    rw [h1]
    have : c.take i ++ [some v] ++ c.drop (i + [some v].length) = c.set i (some v) := by
      rw [List.set_eq_take_append_cons_drop, if_pos hi']; simp
    rw [this] at h2
    exact h2

theorem run_good (F : Nat → Bool) (ops : List (Op w)) : ∀ {h : Heap w} {s : Block} {c : List (Option (BitVec w))}, WF h s c → Inside c ops →
    match run F h s ops with
    | .ok h' s' => WF h' s' (ops.foldl after c)
    | .throw _ _ _ => True
    | .ub => False := by
  induction ops with
  | nil => intro h s c H _; exact H
  | cons op ops ih =>
    intro h s c H hi
    have := step_good F H op hi.1
    simp only [run]
    cases hr : step F h s op with
    | ok h' s' => rw [hr] at this; exact ih this hi.2
    | throw e h' s' => trivial
    | ub => rw [hr] at this; exact this

theorem destroy_wf {h : Heap w} {s : Block} {c : List (Option (BitVec w))} (H : WF h s c) : ∃ h', destroy h s = some h' ∧ ∀ i, Clean (h'.cell i) := by
  have hm : min s.size s.mark = c.length := by rw [H.size, H.mark]; exact Nat.min_eq_left H.le
  unfold destroy
  rw [hm]
  rcases H.own with ⟨_, hp⟩ | ⟨_, p, hp, hl⟩
  · exact ⟨h, by rw [hp]; rfl, fun i => H.rest i (by rw [hp]; simp)⟩
  · refine ⟨h.put p (.freed (List.replicate c.length (some 0) ++ c.drop c.length)), by rw [hp, deallocate_live h p c hl], fun i => ?_⟩
    by_cases e : i = p
    · rw [e, put_same]; exact clean_wiped c
    · rw [put_other _ _ _ _ e]; exact H.rest i (fun h => e (by rw [hp] at h; exact Option.some.inj h))

/-- Nothing allocated yet. -/
def empty (w : Nat) : Heap w := ⟨0, fun _ => .unused⟩

theorem construct_wf (F : Nat → Bool) (n : Nat) (h : Heap w) (s : Block) (hc : construct F n (empty w) = (h, .ok s)) : WF h s (List.replicate n none) := by
  unfold construct allocate at hc
  by_cases h1 : n > elemsMax w
  · rw [if_pos h1] at hc; cases hc
  rw [if_neg h1] at hc
  by_cases h0 : n = 0
  · rw [if_pos h0] at hc; cases hc; subst h0
    exact ⟨rfl, rfl, Nat.zero_le _, fun _ _ => trivial, fun _ _ => rfl, .inl ⟨rfl, rfl⟩⟩
  rw [if_neg h0] at hc
  by_cases hf : F (empty w).count = true
  · rw [if_pos hf] at hc; cases hc
  · rw [if_neg hf] at hc; cases hc
    refine ⟨rfl, by simp, by simp; omega, fun i hi => ?_, fun i hi => ?_, .inr ⟨by simp [h0], _, rfl, by simp [Heap.put]⟩⟩
    · rw [put_other _ _ _ _ (fun e => hi (by rw [e]))]; trivial
    · simp only [empty] at hi ⊢; rw [put_other _ _ _ _ (by omega)]

/-- **A block holds what its calls put there, and gives all memory back wiped.** From construction on, whatever calls are made: none of them is undefined, the elements are those of the specification, and the destructor leaves no allocation and no element but zeros in the memory that was given back, by it or by any call before. -/
theorem block_history (F : Nat → Bool) (n : Nat) (h : Heap w) (s : Block) (hc : construct F n (empty w) = (h, .ok s)) (ops : List (Op w)) (hi : Inside (List.replicate n none) ops) :
    match run F h s ops with
    | .ok h' s' => s'.size = (ops.foldl after (List.replicate n none)).length ∧ read h' s'.ptr s'.size = some (ops.foldl after (List.replicate n none)) ∧
        ∃ h'', destroy h' s' = some h'' ∧ ∀ i, Clean (h''.cell i)
    | .throw _ _ _ => True
    | .ub => False := by
  have := run_good F ops (construct_wf F n h s hc) hi
  cases hr : run F h s ops with
  | ok h' s' =>
    rw [hr] at this
    refine ⟨this.size, ?_, destroy_wf this⟩
    rw [this.size]
    rcases this.own with ⟨hc, hp⟩ | ⟨_, p, hp, hl⟩
    · rw [hc, hp]; rfl
    · rw [hp]; simp only [read, hl, if_pos (Nat.le_refl _), List.take_length]
  | throw e h' s' => trivial
  | ub => rw [hr] at this; exact this

/-- **When calls throw.** After any calls that returned, a call throws only when the block would have more than `ELEMS_MAX` elements or memory is refused. -/
theorem throws_only (F : Nat → Bool) (n : Nat) (h : Heap w) (s : Block) (hc : construct F n (empty w) = (h, .ok s)) (ops : List (Op w)) (op : Op w) (hi : Inside (List.replicate n none) (ops ++ [op]))
    (h₁ : Heap w) (s₁ : Block) (hr : run F h s ops = .ok h₁ s₁) (e : Err) (h₂ : Heap w) (s₂ : Block) (ht : step F h₁ s₁ op = .throw e h₂ s₂) :
    (elemsMax w < ((ops ++ [op]).foldl after (List.replicate n none)).length ∨ F h₁.count = true) ∧
    (careful op = true → s₂ = s₁ ∧ read h₂ s₂.ptr s₂.size = some (ops.foldl after (List.replicate n none)) ∧ ∃ h₃, destroy h₂ s₂ = some h₃ ∧ ∀ i, Clean (h₃.cell i)) := by
  have split : ∀ (ops : List (Op w)) c, Inside c (ops ++ [op]) → Inside c ops ∧ inside (ops.foldl after c) op := by
    intro ops
    induction ops with
    | nil => intro c h; exact ⟨trivial, h.1⟩
    | cons a l ih => intro c h; exact ⟨⟨h.1, (ih _ h.2).1⟩, (ih _ h.2).2⟩
  obtain ⟨hi1, hi2⟩ := split ops _ hi
  have H := run_good F ops (construct_wf F n h s hc) hi1
  rw [hr] at H
  have G := step_good F H op hi2
  rw [ht] at G
  refine ⟨by rw [List.foldl_append]; exact G.1, fun hcare => ?_⟩
  obtain ⟨rfl, W⟩ := G.2 hcare
  refine ⟨rfl, ?_, destroy_wf W⟩
  rw [W.size]
  rcases W.own with ⟨hc, hp⟩ | ⟨_, p, hp, hl⟩
  · rw [hc, hp]; rfl
  · rw [hp]; simp only [read, hl, if_pos (Nat.le_refl _), List.take_length]

/-- **A refused `New` is freed twice.** When `New`, with which `CleanNew` and `Assign` begin, throws on a block that holds elements, the memory has been given back but the block still points to it: the destructor frees it again. -/
theorem refused_new_double_free (F : Nat → Bool) (h : Heap w) (s : Block) (c : List (Option (BitVec w))) (H : WF h s c) (hne : c ≠ []) (n : Nat) (e : Err) (h' : Heap w) (s' : Block)
    (ht : new F n h s = .throw e h' s') : destroy h' s' = none := by
  obtain ⟨p, hp, hl⟩ : ∃ p, s.ptr = some p ∧ h.cell p = .live c := by
    rcases H.own with ⟨hc, _⟩ | ⟨_, h⟩
    · exact absurd hc hne
    · exact h
  unfold new reallocate at ht
  rw [H.size] at ht
  by_cases hn : c.length = n
  · rw [if_pos hn] at ht; cases ht
  rw [if_neg hn, if_neg (by decide), hp, deallocate_live h p c hl] at ht
  simp only [orUb] at ht
  unfold allocate at ht
  by_cases h1 : n > elemsMax w
  · rw [if_pos h1] at ht; cases ht
    simp only [destroy, hp, deallocate, put_same]
  rw [if_neg h1] at ht
  by_cases h0 : n = 0
  · rw [if_pos h0] at ht; cases ht
  rw [if_neg h0] at ht
  by_cases hf : F (h.put p (.freed (List.replicate c.length (some 0) ++ c.drop c.length))).count = true
  · rw [if_pos hf] at ht; cases ht
    simp only [destroy, hp, deallocate, put_same]
  · rw [if_neg hf] at ht; cases ht

/-- It needs no shortage of memory: four words, and a size no array of words can have. -/
theorem too_large_new_double_free : ∃ (h h' : Heap 64) (s s' : Block), construct (fun _ => false) 4 (empty 64) = (h, .ok s) ∧
    new (fun _ => false) (2 ^ 62) h s = .throw .invalidArgument h' s' ∧ destroy h' s' = none := by
  refine ⟨_, _, _, _, rfl, rfl, ?_⟩
  exact refused_new_double_free (fun _ => false) _ _ _ (construct_wf (fun _ => false) 4 _ _ rfl) (by simp) (2 ^ 62) .invalidArgument _ _ rfl

/-- **`New` does not initialise.** The documentation says that new memory is 0. -/
theorem new_not_zero : ∃ (h h' : Heap 8) (s s' : Block), construct (fun _ => false) 0 (empty 8) = (h, .ok s) ∧
    new (fun _ => false) 2 h s = .ok h' s' ∧ read h' s'.ptr 2 = some [none, none] :=
  ⟨_, _, _, _, rfl, rfl, by decide +kernel⟩

/-- **A copy of a block that is not to be wiped is not wiped.** The copy constructor copies the mark of `SetMark`. -/
theorem copy_not_wiped (v : Byte) : ∃ (h h₁ h₂ h₃ : Heap 8) (s s₁ t : Block),
    construct (fun _ => false) 0 (empty 8) = (h, .ok s) ∧ assign (fun _ => false) [v] h s = .ok h₁ s₁ ∧
    copy (fun _ => false) h₁ { s₁ with mark := 0 } = .ok h₂ t ∧ destroy h₂ t = some h₃ ∧ h₃.cell 1 = .freed [some v] :=
  ⟨_, _, _, _, _, _, _, rfl, rfl, rfl, rfl, rfl⟩

/-- Nine calls. -/
def demo : List (Op 8) := [.assign [1, 2, 3], .grow 5, .set 3 9, .set 4 8, .resize 4, .append [7], .appendSelf, .cleanGrow 12, .resize 6]

example : demo.foldl after [] = [some 1, some 2, some 3, some 9, some 7, some 1] := by decide +kernel
example : Inside [] demo := by simp [demo, Inside, inside, after, fit]
example : (match run (fun _ => false) (empty 8) ⟨elemsMax 8, 0, none⟩ demo with | .ok h s => read h s.ptr s.size | _ => none) = some [some 1, some 2, some 3, some 9, some 7, some 1] := by decide +kernel

end Verif.SecBlock
