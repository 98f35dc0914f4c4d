import Verif.SecBlock.Spec

/-!
# Proofs about SecBlock
-/
namespace Verif.SecBlock
open Spec
variable {w : Nat}

/-- The block holds `c` and everything else on the heap is clean. -/
structure WF (h : Heap w) (s : Block) (c : List (Option (BitVec w))) : Prop where
  mark : s.mark = elemsMax w
  size : s.size = c.length
  le : c.length ≤ elemsMax w
  rest : ∀ i, some i ≠ s.ptr → Clean (h.cell i)
  fresh : ∀ i, h.count ≤ i → h.cell i = .unused
  own : (c = [] ∧ s.ptr = none) ∨ (c ≠ [] ∧ ∃ p, s.ptr = some p ∧ h.cell p = .live c)

theorem put_same (h : Heap w) (p : Nat) (c : Cell w) : (h.put p c).cell p = c := by simp [Heap.put]
theorem put_other (h : Heap w) (p i : Nat) (c : Cell w) (hi : i ≠ p) : (h.put p c).cell i = h.cell i := by simp [Heap.put, hi]

theorem write_live (h : Heap w) (p : Nat) (d : List (Option (BitVec w))) (hl : h.cell p = .live d) (off : Nat) (x : List (Option (BitVec w))) (hx : off + x.length ≤ d.length) :
    write h (some p) off x = some (h.put p (.live (d.take off ++ x ++ d.drop (off + x.length)))) := by
  simp only [write, hl, if_pos hx]

theorem write_wf {h : Heap w} {s : Block} {c : List (Option (BitVec w))} (H : WF h s c) (off : Nat) (x : List (Option (BitVec w))) (hx : off + x.length ≤ c.length) :
    ∃ h', write h s.ptr off x = some h' ∧ WF h' s (c.take off ++ x ++ c.drop (off + x.length)) := by
  have hlen : (c.take off ++ x ++ c.drop (off + x.length)).length = c.length := by simp; omega
  rcases H.own with ⟨hc, hp⟩ | ⟨hc, p, hp, hl⟩
  · subst hc
    have hx0 : x = [] := by
      cases x with
      | nil => rfl
      | cons a l => simp at hx
    subst hx0
    refine ⟨h, by simp [write, hp], ?_⟩
    simpa using H
  · refine ⟨h.put p (.live (c.take off ++ x ++ c.drop (off + x.length))), by rw [hp]; exact write_live h p c hl off x hx, ⟨H.mark, by rw [hlen]; exact H.size, by rw [hlen]; exact H.le, fun i hi => ?_, fun i hi => ?_, .inr ⟨fun h0 => ?_, p, hp, put_same _ _ _⟩⟩⟩
    · rw [put_other _ _ _ _ (fun e => hi (by rw [e, hp]))]; exact H.rest i hi
    · have : i ≠ p := fun e => by have := H.fresh i hi; rw [e, hl] at this; cases this
      rw [put_other _ _ _ _ this]; exact H.fresh i hi
    · rw [h0] at hlen; exact hc (List.eq_nil_of_length_eq_zero hlen.symm)

theorem clean_wiped (d : List (Option (BitVec w))) : Clean (.freed (List.replicate d.length (some 0) ++ d.drop d.length)) := by
  intro x hx
  rw [List.drop_length, List.append_nil] at hx
  exact List.eq_of_mem_replicate hx

/-- Giving back all of a live allocation. -/
theorem deallocate_live (h : Heap w) (p : Nat) (d : List (Option (BitVec w))) (hl : h.cell p = .live d) :
    deallocate h (some p) d.length = some (h.put p (.freed (List.replicate d.length (some 0) ++ d.drop d.length))) := by
  simp only [deallocate, hl, if_pos (Nat.le_refl _)]

theorem new_wf (F : Nat → Bool) {h : Heap w} {s : Block} {c : List (Option (BitVec w))} (H : WF h s c) (n : Nat) :
    match reallocate F h s n false with
    | .ok h' s' => WF h' s' (if c.length = n then c else List.replicate n none)
    | .throw _ _ _ => elemsMax w < n ∨ F h.count = true
    | .ub => False := by
  unfold reallocate
  rw [H.size]
  by_cases hn : c.length = n
  · rw [if_pos hn, if_pos hn]
    subst hn
    exact ⟨H.mark, rfl, H.le, H.rest, H.fresh, H.own⟩
  · rw [if_neg hn, if_neg hn, if_neg (by decide)]
    -- after the old memory is given back
    have key : ∃ h', deallocate h s.ptr c.length = some h' ∧ h'.count = h.count ∧ (∀ i, Clean (h'.cell i)) ∧ ∀ i, h.count ≤ i → h'.cell i = .unused := by
      rcases H.own with ⟨hc, hp⟩ | ⟨hc, p, hp, hl⟩
      · exact ⟨h, by rw [hp]; rfl, rfl, fun i => H.rest i (by rw [hp]; simp), H.fresh⟩
      · refine ⟨h.put p (.freed (List.replicate c.length (some 0) ++ c.drop c.length)), by rw [hp, deallocate_live h p c hl], rfl, fun i => ?_, fun i hi => ?_⟩
        · by_cases e : i = p
          · rw [e, put_same]; exact clean_wiped c
          · rw [put_other _ _ _ _ e]; exact H.rest i (fun h => e (by rw [hp] at h; exact Option.some.inj h))
        · have : i ≠ p := fun e => by have := H.fresh i hi; rw [e, hl] at this; cases this
          rw [put_other _ _ _ _ this]; exact H.fresh i hi
    obtain ⟨h', hd, hcount, hclean, hfresh⟩ := key
    rw [hd, ← hcount] 
    simp only [orUb]
    by_cases h1 : n > elemsMax w
    · simp only [allocate, if_pos h1]; exact .inl h1
    by_cases h0 : n = 0
    · subst h0
      simp only [allocate, if_neg h1, if_pos trivial]
      exact ⟨H.mark, rfl, Nat.zero_le _, fun i _ => hclean i, fun i hi => hfresh i (by omega), .inl ⟨rfl, rfl⟩⟩
    by_cases hf : F h'.count = true
    · simp only [allocate, if_neg h1, if_neg h0, hf, if_true]; exact .inr trivial
    · simp only [allocate, if_neg h1, if_neg h0, if_neg hf]
      refine ⟨H.mark, by simp, by simp; omega, fun i hi => ?_, fun i hi => ?_, .inr ⟨by simp [h0], _, rfl, put_same _ _ _⟩⟩
      · rw [put_other _ _ _ _ (fun e => hi (by rw [e]))]; exact hclean i
      · simp only at hi; rw [put_other _ _ _ _ (by omega)]; exact hfresh i (by omega)

theorem keep_wf (F : Nat → Bool) {h : Heap w} {s : Block} {c : List (Option (BitVec w))} (H : WF h s c) (n : Nat) :
    match reallocate F h s n true with
    | .ok h' s' => WF h' s' (fit n none c)
    | .throw _ h' s' => s' = s ∧ WF h' s c ∧ (elemsMax w < n ∨ F h.count = true)
    | .ub => False := by
  unfold reallocate
  rw [H.size]
  by_cases hn : c.length = n
  · rw [if_pos hn]
    subst hn
    have : fit c.length none c = c := by simp [fit]
    rw [this]
    exact ⟨H.mark, rfl, H.le, H.rest, H.fresh, H.own⟩
  rw [if_neg hn, if_pos rfl]
  by_cases h1 : n > elemsMax w
  · simp only [allocate, if_pos h1]; exact ⟨trivial, H, .inl h1⟩
  by_cases h0 : n = 0
  · subst h0
    simp only [allocate, if_neg h1, if_pos trivial]
    have hfit : fit 0 none c = [] := by simp [fit]
    rw [hfit]
    rcases H.own with ⟨hc, hp⟩ | ⟨hc, p, hp, hl⟩
    · exact absurd (by rw [hc]; rfl) hn
    · simp only [orUb, ne_eq, not_true_eq_false, and_false, if_false]
      rw [hp, deallocate_live h p c hl]
      refine ⟨H.mark, rfl, Nat.zero_le _, fun i _ => ?_, fun i hi => ?_, .inl ⟨rfl, rfl⟩⟩
      · by_cases e : i = p
        · rw [e, put_same]; exact clean_wiped c
        · rw [put_other _ _ _ _ e]; exact H.rest i (fun h => e (by rw [hp] at h; exact Option.some.inj h))
      · have : i ≠ p := fun e => by have := H.fresh i hi; rw [e, hl] at this; cases this
        rw [put_other _ _ _ _ this]; exact H.fresh i hi
  by_cases hf : F h.count = true
  · simp only [allocate, if_neg h1, if_neg h0, hf, if_true]
    exact ⟨trivial, ⟨H.mark, H.size, H.le, H.rest, fun i hi => H.fresh i (by simp only at hi; omega), H.own⟩, .inr trivial⟩
  · simp only [allocate, if_neg h1, if_neg h0, if_neg hf]
    rcases H.own with ⟨hc, hp⟩ | ⟨hc, p, hp, hl⟩
    · subst hc
      simp only [orUb, hp, ne_eq, not_true_eq_false, false_and, if_false, deallocate]
      have hfit : fit n none ([] : List (Option (BitVec w))) = List.replicate n none := by simp [fit]
      rw [hfit]
      refine ⟨H.mark, by simp, by simp; omega, fun i hi => ?_, fun i hi => ?_, .inr ⟨by simp [h0], _, rfl, put_same _ _ _⟩⟩
      · rw [put_other _ _ _ _ (fun e => hi (by rw [e]))]; exact H.rest i (by rw [hp]; simp)
      · simp only at hi; rw [put_other _ _ _ _ (by omega)]; exact H.fresh i (by omega)
    · have hpc : p ≠ h.count := fun e => by have := H.fresh p (by omega); rw [hl] at this; cases this
      have hpl : p < h.count := by
        refine Classical.byContradiction fun hge => ?_
        have := H.fresh p (by omega); rw [hl] at this; cases this
      have hread : ∀ k, read (⟨h.count + 1, (h.put h.count (.live (List.replicate n none))).cell⟩ : Heap w) (some p) (min c.length k) = some (c.take (min c.length k)) := by
        intro k
        simp only [read, put_other _ _ _ _ hpc, hl, if_pos (Nat.min_le_left c.length k)]
      have htl : (c.take (min c.length n)).length = min c.length n := by simp
      rw [hp]
      simp only [ne_eq, reduceCtorEq, not_false_eq_true, and_self, if_true, hread, Option.bind_some, write, put_same]
      rw [if_pos (by rw [htl, List.length_replicate]; omega)]
      simp only [orUb, deallocate]
      rw [put_other _ _ _ _ hpc]
      simp only [put_other _ _ _ _ hpc, hl, if_pos (Nat.le_refl _)]
      have hfit : (List.take 0 (List.replicate n none) ++ c.take (min c.length n) ++ (List.replicate n none).drop (0 + (c.take (min c.length n)).length)) = fit n none c := by
        rw [htl, fit, List.drop_replicate, List.take_zero, List.nil_append]
        by_cases hcn : c.length ≤ n
        · rw [Nat.min_eq_left hcn, List.take_of_length_le (Nat.le_refl _), List.take_of_length_le hcn, Nat.zero_add]
        · rw [Nat.min_eq_right (by omega)]; congr 2; omega
      rw [hfit]
      have hfl : (fit n none c).length = n := by simp [fit]; omega
      refine ⟨H.mark, hfl.symm, by omega, fun i hi => ?_, fun i hi => ?_, .inr ⟨fun e => h0 (by rw [← hfl, e]; rfl), h.count, rfl, ?_⟩⟩
      · by_cases e : i = p
        · rw [e, put_same]; exact clean_wiped c
        · rw [put_other _ _ _ _ e, put_other _ _ _ _ (fun e => hi (by rw [e])), put_other _ _ _ _ (fun e => hi (by rw [e]))]
          exact H.rest i (fun h => e (by rw [hp] at h; exact Option.some.inj h))
      · simp only [Heap.put] at hi ⊢
        rw [if_neg (by omega), if_neg (by omega), if_neg (by omega)]
        exact H.fresh i (by omega)
      · rw [put_other _ _ _ _ (Ne.symm hpc), put_same]

end Verif.SecBlock
