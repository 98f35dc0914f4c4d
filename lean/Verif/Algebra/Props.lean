import Verif.Algebra.Proofs3
import Mathlib.Algebra.Group.Int.Defs

/-!
# C27 (general part): scalar multiplication in any group computes the multiple
-/
namespace Verif.Algebra

variable {S E G : Type} [AddCommMonoid G] {grp : Grp S E} {Inv : S → Prop} {Rep Ref Src : E → G → Prop}

/-- `ScalarMultiply(base, e)` is `e` times the base, for every exponent, in every group object that implements a commutative group. -/
theorem scalar_multiply_correct {wb : Nat} (hwb : 0 < wb) (L : Laws grp Inv Rep Ref Src) {b : E} {x : G} (hb : Src b x) (e : Nat) :
    Post Inv (scalarMultiply grp wb b e) (fun r => Rep r (e • x)) := scalarMultiply_spec hwb L hb e

/-- `SimultaneousMultiply` gives each of the multiples. -/
theorem simultaneous_multiply_correct {wb : Nat} (hwb : 0 < wb) (L : Laws grp Inv Rep Ref Src) {b : E} {x : G} (hb : Src b x) (es : List Nat) :
    Post Inv (simultaneousMultiply grp wb b es) (fun rs => List.Forall₂ (fun e r => Rep r (e • x)) es rs) := simultaneousMultiply_spec hwb L hb es

/-- `CascadeScalarMultiply(x, e1, y, e2)` is `e1·x + e2·y`. -/
theorem cascade_multiply_correct (L : Laws grp Inv Rep Ref Src) {ex ey : E} {x y : G} (hx : Rep ex x) (hy : Rep ey y) (e1 e2 : Nat) :
    Post Inv (cascadeScalarMultiply grp ex e1 ey e2) (fun r => Rep r (e1 • x + e2 • y)) := cascadeScalarMultiply_spec L hx hy e1 e2

/-- `GeneralCascadeMultiplication` is the sum of the multiples, for the group's own or overridden `ScalarMultiply`, whatever the standard library's heap does beyond its guarantees. -/
theorem general_cascade_correct {ms : Muls S E} (hms : MulsOk ms Inv Rep Src fun _ => True) (L : Laws grp Inv Rep Ref Src) {heap0 heap : List (E × Nat) → List (E × Nat)}
    (hh : HeapOk heap0 heap) {l : List (E × Nat)} (hl : l ≠ []) {v : G} (hv : Sum Rep l v) :
    Post Inv (generalCascade grp ms heap0 heap l) (fun r => Rep r v) := generalCascade_spec hms L hh hl hv fun _ _ => trivial

/-- Setting a base, precomputing with any amount of storage but zero, and exponentiating gives the multiple, for exponents of any
length (also longer than the announced `maxExpBits`). -/
theorem fixed_base_correct {ms : Muls S E} (hms : MulsOk ms Inv Rep Src fun _ => True) (L : Laws grp Inv Rep Ref Src) {heap0 heap : List (E × Nat) → List (E × Nat)}
    (hh : HeapOk heap0 heap) {b : E} {x : G} (hb : Ref b x) (maxExpBits : Nat) {storage : Nat} (hs : 0 < storage) (e : Nat) :
    Post Inv (do let pc ← precompute grp ms b maxExpBits storage; pc.exponentiate grp ms heap0 heap e) (fun r => Rep r (e • x)) := by
  refine Post.bind (precompute_spec hms L hb maxExpBits hs) fun pc hpc => ?_
  refine Post.bind (prepareCascade_spec L hpc e) fun eb heb => ?_
  exact generalCascade_spec hms L hh heb.1 heb.2 fun _ _ => trivial

/-- `CascadeExponentiate` with two precomputations (each with its own storage and window) gives the sum of the multiples. -/
theorem fixed_base_cascade_correct {ms : Muls S E} (hms : MulsOk ms Inv Rep Src fun _ => True) (L : Laws grp Inv Rep Ref Src) {heap0 heap : List (E × Nat) → List (E × Nat)}
    (hh : HeapOk heap0 heap) {b b2 : E} {x y : G} (hb : Ref b x) (hb2 : Ref b2 y) (max1 max2 : Nat) {st1 st2 : Nat} (h1 : 0 < st1)
    (h2 : 0 < st2) (e e2 : Nat) :
    Post Inv (do
      let pc ← precompute grp ms b max1 st1
      let pc2 ← precompute grp ms b2 max2 st2
      pc.cascadeExponentiate grp ms heap0 heap pc2 e e2) (fun r => Rep r (e • x + e2 • y)) := by
  refine Post.bind (precompute_spec hms L hb max1 h1) fun pc hpc => ?_
  refine Post.bind (precompute_spec hms L hb2 max2 h2) fun pc2 hpc2 => ?_
  refine Post.bind (prepareCascade_spec L hpc e) fun eb heb => ?_
  refine Post.bind (prepareCascade_spec L hpc2 e2) fun eb2 heb2 => ?_
  refine generalCascade_spec hms L hh (by simp [heb.1]) (heb.2.append heb2.2) fun _ _ => trivial

/-- `Precompute` with no storage discards the base, and exponentiating then reads a nonexistent element (hence `0 < storage`). -/
theorem precompute_without_storage_undefined (grp : Grp S E) (ms : Muls S E) (maxExpBits e : Nat) (heap0 heap : List (E × Nat) → List (E × Nat)) (b : E) (s : S) :
    (do let pc ← precompute grp ms b maxExpBits 0; pc.exponentiate grp ms heap0 heap e : M S E) s = .error .undefinedBehaviour := rfl

/-! ## A concrete group -/

/-- Integers under addition, with (or without) fast inversion, as a group object without state. -/
def intGrp (fast : Bool) : Grp Unit Int where
  ident := pure 0
  add := fun a b => pure (a + b)
  acc := fun a b => pure (a + b)
  dbl := fun a => pure (a + a)
  inv := fun a => pure (-a)
  fast := fast
  cp := id

theorem intLaws (fast : Bool) : Laws (G := Int) (intGrp fast) (fun _ => True) Eq Eq Eq where
  toRef := id
  toSrc := id
  cp := id
  cpSrc := id
  ident := Post.pure rfl
  add := fun h1 h2 => by subst h1 h2; exact Post.pure rfl
  acc := fun h1 h2 => by subst h1 h2; exact Post.pure rfl
  dbl := fun h1 => by subst h1; exact Post.pure rfl
  inv := fun _ _ x h => ⟨-x, by omega, by subst h; exact Post.pure rfl⟩

/-- A heap implementation: sort by decreasing exponent and move the first to the end. -/
def heapS {E : Type} (l : List (E × Nat)) : List (E × Nat) :=
  match l.mergeSort (fun a b => decide (b.2 ≤ a.2)) with
  | [] => []
  | a :: r => r ++ [a]

theorem heapS_popped {E : Type} (l : List (E × Nat)) : Popped l (heapS l) := by
  have hs := List.pairwise_mergeSort (le := fun a b : E × Nat => decide (b.2 ≤ a.2)) (fun a b c => by simp; omega) (fun a b => by simp; omega) l
  have hp := List.mergeSort_perm l (fun a b => decide (b.2 ≤ a.2))
  unfold heapS
  cases h : l.mergeSort (fun a b => decide (b.2 ≤ a.2)) with
  | nil =>
    rw [h] at hp
    exact ⟨hp, fun i a b hi => by simp, fun last hl => by simp at hl⟩
  | cons a r =>
    rw [h] at hp hs
    rw [List.pairwise_cons] at hs
    refine ⟨List.perm_append_comm.trans hp, ?_, ?_⟩
    · simp only [List.dropLast_concat]
      intro i x y hi hx hy
      rw [List.getElem?_map] at hx hy
      obtain ⟨x', hx1, rfl⟩ := Option.map_eq_some_iff.1 hx
      obtain ⟨y', hy1, rfl⟩ := Option.map_eq_some_iff.1 hy
      obtain ⟨ix, hx2⟩ := List.getElem?_eq_some_iff.1 hx1
      obtain ⟨iy, hy2⟩ := List.getElem?_eq_some_iff.1 hy1
      have := List.pairwise_iff_getElem.1 hs.2 ((i - 1) / 2) i iy ix (by omega)
      rw [hx2, hy2] at this
      simpa using this
    · intro last hl m hm
      simp only [List.getLast?_append, List.getLast?_singleton, Option.or_some, Option.some.injEq, Option.getD_none] at hl
      have hm' := hp.symm.subset hm
      rcases List.mem_cons.1 hm' with e | e
      · rw [e]; simp at hl; rw [hl]
      · have := hs.1 m e
        simp at hl this; rw [← hl]; exact this

theorem heapS_ok {E : Type} : HeapOk (E := E) heapS heapS := ⟨heapS_popped, fun l _ => heapS_popped l⟩

example : Post (fun _ => True) (scalarMultiply (intGrp true) 64 (5 : Int) (2 ^ 100 + 12345)) (fun r => r = ((2 ^ 100 + 12345) • (5 : Int) : Int)) :=
  scalar_multiply_correct (by decide) (intLaws true) rfl _
example : Post (fun _ => True) (simultaneousMultiply (intGrp false) 8 (-7 : Int) [0, 1, 300, 2 ^ 80 - 1])
    (fun rs => List.Forall₂ (fun e r => r = (e • (-7 : Int) : Int)) [0, 1, 300, 2 ^ 80 - 1] rs) :=
  simultaneous_multiply_correct (by decide) (intLaws false) rfl _
example : Post (fun _ => True) (cascadeScalarMultiply (intGrp true) (3 : Int) 1000 (-2) (2 ^ 300)) (fun r => r = (1000 • (3 : Int) + (2 ^ 300) • (-2) : Int)) :=
  cascade_multiply_correct (intLaws true) rfl rfl _ _
example : Post (fun _ => True) (do let pc ← precompute (intGrp true) (.abstract (intGrp true) 64) (3 : Int) 160 16; pc.exponentiate (intGrp true) (.abstract (intGrp true) 64) heapS heapS (2 ^ 159 + 77))
    (fun r => r = ((2 ^ 159 + 77) • (3 : Int) : Int)) :=
  fixed_base_correct (Muls.abstract_ok (by decide) (intLaws true)) (intLaws true) heapS_ok rfl 160 (by decide) _
example : Sum (E := Int) (G := Int) Eq [(2, 5), (7, 9), (-1, 4)] (5 • 2 + (9 • 7 + (4 • -1 + 0))) := .cons rfl (.cons rfl (.cons rfl .nil))
example : ∃ s, scalarMultiply (intGrp true) 8 (5 : Int) 123456789 () = .ok (617283945, s) := ⟨(), by decide +kernel⟩
example : ∃ s, cascadeScalarMultiply (intGrp false) (5 : Int) 123456 (7 : Int) 99 () = .ok (617973, s) := ⟨(), by decide +kernel⟩

end Verif.Algebra
