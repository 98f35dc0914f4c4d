import Verif.Algebra.Proofs
import Mathlib.Data.List.Forall2

namespace Verif.Algebra
open Verif.Misc

variable {S E : Type} {Inv : S → Prop} {G : Type} [AddCommMonoid G] {grp : Grp S E} {Rep Ref Src : E → G → Prop}

theorem neg_unique {a b c : G} (h1 : a + b = 0) (h2 : a + c = 0) : b = c := by
  calc b = b + (a + c) := by rw [h2, add_zero]
    _ = (a + b) + c := by abel
    _ = c := by rw [h1, zero_add]

theorem nsmul_neg {x y : G} (h : x + y = 0) (n : Nat) : n • x + n • y = 0 := by rw [← nsmul_add, h, nsmul_zero]

/-- The invariant of one exponent `e` and its buckets at bit position `pos`; `x` is the base and `y` its inverse. -/
structure SI (Rep : E → G → Prop) (fast : Bool) (x y : G) (e pos : Nat) (sb : Slider × List E) : Prop where
  win : 0 < sb.1.windowSize
  len : sb.2.length = 2 ^ (sb.1.windowSize - 1)
  fastN : sb.1.fastNegate = fast
  main : ∃ (gs : Nat → G) (P N : Nat), Bk Rep sb.2 gs ∧ wsum gs sb.2.length = P • x + N • y ∧ (N = 0 ∨ x + y = 0) ∧
    ((sb.1.finished = true ∧ P = N + e) ∨
     (sb.1.finished = false ∧ pos ≤ sb.1.windowBegin ∧ Pending (bitLen e) sb.1 ∧
      P + sb.1.rest * 2 ^ sb.1.windowBegin + (if sb.1.negateNext then 0 else sb.1.expWindow * 2 ^ sb.1.windowBegin) =
        N + e + (if sb.1.negateNext then sb.1.expWindow * 2 ^ sb.1.windowBegin else 0)))

theorem windowFor_pos (n : Nat) : 0 < windowFor n := by
  unfold windowFor
  split
  · decide
  · split
    · decide
    · split
      · decide
      · split
        · decide
        · split
          · decide
          · split <;> decide

theorem init_SI {wb : Nat} (hwb : 0 < wb) (L : Laws grp Inv Rep Ref Src) (x y : G) (e : Nat) {i : E} (hi : Ref i 0) :
    let s := (Slider.mk' e grp.fast).next wb
    SI Rep grp.fast x y e 0 (s, List.replicate (2 ^ (s.windowSize - 1)) (grp.cp i)) := by
  intro s
  obtain ⟨h1, h2, h3⟩ := next_spec hwb (L := bitLen e) (s := Slider.mk' e grp.fast) (windowFor_pos _) rfl (R := e) rfl
    (by show e * 2 ^ 0 ≤ _; rw [Nat.pow_zero, Nat.mul_one]; exact Nat.le_of_lt (bitLen_lt e))
  refine ⟨by show 0 < s.windowSize; rw [show s.windowSize = _ from h1]; exact windowFor_pos _, by simp, h2, fun _ => 0, 0, 0, ?_, ?_, Or.inl rfl, ?_⟩
  · intro j hj
    simp only [List.getElem_replicate]
    exact L.cp hi
  · rw [wsum_zero]; simp
  · rcases h3 with ⟨k1, k2⟩ | ⟨k1, k2, k3, k4, k5⟩
    · exact Or.inl ⟨k1, by omega⟩
    · refine Or.inr ⟨k1, Nat.zero_le _, k4, ?_⟩
      have e0 : (Slider.mk' e grp.fast).windowBegin = 0 := rfl
      rw [e0, Nat.pow_zero, Nat.mul_one] at k5
      rw [Nat.zero_add, Nat.zero_add]
      exact k5.symm

theorem stepOne_spec {wb : Nat} (hwb : 0 < wb) (L : Laws grp Inv Rep Ref Src) {x y : G} (hy : grp.fast = true → x + y = 0) {e pos : Nat}
    {g : E} (hg : Src g (2 ^ pos • x)) {sb : Slider × List E} (h : SI Rep grp.fast x y e pos sb) :
    Post Inv (stepOne grp wb pos g sb) (SI Rep grp.fast x y e (pos + 1)) := by
  obtain ⟨hw, hl, hf, gs, P, N, hb, hs, hN, hm⟩ := h
  unfold stepOne
  by_cases hc : sb.1.finished = false ∧ pos = sb.1.windowBegin
  · rw [if_pos hc]
    obtain ⟨hc1, hc2⟩ := hc
    rcases hm with ⟨k1, _⟩ | ⟨k1, k2, k3, k4⟩
    · rw [k1] at hc1; cases hc1
    have hj : sb.1.expWindow / 2 < sb.2.length := by
      rw [hl]
      have := k3.lt
      obtain ⟨t, ht⟩ : ∃ t, sb.1.windowSize = t + 1 := ⟨sb.1.windowSize - 1, by omega⟩
      rw [ht, Nat.pow_succ] at this
      rw [ht, Nat.add_sub_cancel]; omega
    have hodd : 2 * (sb.1.expWindow / 2) + 1 = sb.1.expWindow := by have := k3.odd; omega
    obtain ⟨n1, n2, n3⟩ := next_spec hwb (L := bitLen e) hw hc1 (R := sb.1.rest) (by rw [k3.first]; rfl) k3.bound
    refine Post.bind (at_post (P := fun b => Rep b (gs (sb.1.expWindow / 2))) hj (hb _ hj)) fun b hb1 => ?_
    have key : ∀ (b' : E) (v : G) (P' N' : Nat), Rep b' (gs (sb.1.expWindow / 2) + v) → sb.1.expWindow • v + (P • x + N • y) = P' • x + N' • y →
        (N' = 0 ∨ x + y = 0) → P' + sb.1.rest * 2 ^ sb.1.windowBegin = N' + e →
        SI Rep grp.fast x y e (pos + 1) (sb.1.next wb, sb.2.set (sb.1.expWindow / 2) b') := by
      intro b' v P' N' h1 h2 h3 h4
      refine ⟨by show 0 < (sb.1.next wb).windowSize; rw [n1]; exact hw, by show (sb.2.set _ _).length = 2 ^ ((sb.1.next wb).windowSize - 1); rw [List.length_set, n1]; exact hl,
        by show (sb.1.next wb).fastNegate = _; rw [n2]; exact hf, bump gs (sb.1.expWindow / 2) v, P', N', hb.set h1, ?_, h3, ?_⟩
      · show wsum _ (sb.2.set _ _).length = _
        rw [List.length_set, wsum_bump _ _ _ _ hj, hs, hodd, ← h2]; abel
      · rcases n3 with ⟨m1, m2⟩ | ⟨m1, m2, m3, m4, m5⟩
        · left
          refine ⟨m1, ?_⟩
          rw [m2] at h4; omega
        · right
          refine ⟨m1, by have := m3 k3.first; show pos + 1 ≤ (sb.1.next wb).windowBegin; omega, m4, ?_⟩
          show P' + (sb.1.next wb).rest * 2 ^ (sb.1.next wb).windowBegin +
              (if (sb.1.next wb).negateNext then 0 else (sb.1.next wb).expWindow * 2 ^ (sb.1.next wb).windowBegin) =
            N' + e + (if (sb.1.next wb).negateNext then (sb.1.next wb).expWindow * 2 ^ (sb.1.next wb).windowBegin else 0)
          rw [← h4]
          omega
    cases hneg : sb.1.negateNext
    · simp only [hneg, Bool.false_eq_true, if_false, Nat.add_zero] at k4 ⊢
      refine Post.bind (L.acc hb1 hg) fun b' h1 => ?_
      refine Post.pure (key b' _ (P + sb.1.expWindow * 2 ^ pos) N h1 ?_ hN ?_)
      · rw [add_nsmul, mul_nsmul']; abel
      · rw [hc2]; omega
    · simp only [hneg, if_true, Nat.add_zero] at k4 ⊢
      have hfast : grp.fast = true := by rw [← hf]; exact k3.neg hneg
      obtain ⟨y', hy1, hy2⟩ := L.inv hfast hg
      have hxy := hy hfast
      have hy' : y' = 2 ^ pos • y := neg_unique hy1 (nsmul_neg hxy _)
      refine Post.bind (Post.bind hy2 fun ng h1 => L.acc hb1 (L.toSrc h1)) fun b' h1 => ?_
      refine Post.pure (key b' _ P (N + sb.1.expWindow * 2 ^ pos) h1 ?_ (Or.inr hxy) ?_)
      · rw [hy', add_nsmul, mul_nsmul']; abel
      · rw [hc2]; omega
  · rw [if_neg hc]
    refine Post.pure ⟨hw, hl, hf, gs, P, N, hb, hs, hN, ?_⟩
    rcases hm with hm | ⟨k1, k2, k3⟩
    · exact Or.inl hm
    · refine Or.inr ⟨k1, ?_, k3⟩
      by_contra hcon
      exact hc ⟨k1, by omega⟩

theorem stepAll_spec {wb : Nat} (hwb : 0 < wb) (L : Laws grp Inv Rep Ref Src) {x y : G} (hy : grp.fast = true → x + y = 0) {pos : Nat}
    {g : E} (hg : Src g (2 ^ pos • x)) : ∀ {es : List Nat} {st : List (Slider × List E)},
    List.Forall₂ (fun e sb => SI Rep grp.fast x y e pos sb) es st →
    Post Inv (stepAll grp wb pos g st) (List.Forall₂ (fun e sb => SI Rep grp.fast x y e (pos + 1) sb) es)
  | _, _, .nil => Post.pure .nil
  | _, _, .cons h t => by
    refine Post.bind (stepOne_spec hwb L hy hg h) fun sb' h1 => ?_
    refine Post.bind (stepAll_spec hwb L hy hg t) fun l' h2 => ?_
    exact Post.pure (.cons h1 h2)

theorem simFuel_ge : ∀ (es : List Nat), 2 ≤ simFuel es ∧ ∀ e ∈ es, bitLen e + 2 ≤ simFuel es
  | [] => ⟨by decide, by simp⟩
  | e :: es => by
    obtain ⟨h1, h2⟩ := simFuel_ge es
    have h : simFuel (e :: es) = max (bitLen e + 2) (simFuel es) := rfl
    rw [h]
    refine ⟨by omega, fun e' he => ?_⟩
    rcases List.mem_cons.1 he with rfl | he
    · omega
    · have := h2 e' he; omega

/-- The buckets of a finished exponent amount to the multiple. -/
def Done (Rep : E → G → Prop) (x : G) (e : Nat) (sb : Slider × List E) : Prop :=
  0 < sb.2.length ∧ ∃ gs, Bk Rep sb.2 gs ∧ wsum gs sb.2.length = e • x

theorem SI.done {fast : Bool} {x y : G} {e pos : Nat} {sb : Slider × List E} (h : SI Rep fast x y e pos sb) (hf : sb.1.finished = true) :
    Done Rep x e sb := by
  obtain ⟨hw, hl, _, gs, P, N, hb, hs, hN, hm⟩ := h
  refine ⟨by rw [hl]; exact Nat.two_pow_pos _, gs, hb, ?_⟩
  rcases hm with ⟨_, hm⟩ | ⟨k1, _⟩
  · rw [hs, hm]
    rcases hN with rfl | hN
    · simp
    · rw [add_nsmul]
      calc N • x + e • x + N • y = (N • x + N • y) + e • x := by abel
        _ = e • x := by rw [nsmul_neg hN, zero_add]
  · rw [hf] at k1; cases k1

theorem simLoop_spec {wb : Nat} (hwb : 0 < wb) (L : Laws grp Inv Rep Ref Src) {x y : G} (hy : grp.fast = true → x + y = 0) {es : List Nat} :
    ∀ (fuel pos : Nat) (g : E) (st : List (Slider × List E)), simFuel es ≤ pos + fuel → pos + 2 ≤ simFuel es → Src g (2 ^ pos • x) →
    List.Forall₂ (fun e sb => SI Rep grp.fast x y e pos sb) es st →
    Post Inv (simLoop grp wb fuel pos g st) (List.Forall₂ (Done Rep x) es)
  | 0, pos, g, st, h1, h2, hg, h => by omega
  | fuel + 1, pos, g, st, h1, h2, hg, h => by
    refine Post.bind (stepAll_spec hwb L hy hg h) fun st' h3 => ?_
    by_cases hany : st'.any (fun sb => !sb.1.finished) = true
    · rw [if_pos hany]
      refine Post.bind (L.dbl hg) fun d hd => ?_
      refine simLoop_spec hwb L hy fuel (pos + 1) _ st' (by omega) ?_ ?_ h3
      · obtain ⟨sb, hm, hnf⟩ := List.any_eq_true.1 hany
        have hnf' : sb.1.finished = false := by simpa using hnf
        obtain ⟨e, he, hsi⟩ : ∃ e ∈ es, SI Rep grp.fast x y e (pos + 1) sb := by
          clear h hany h1 h2
          induction h3 with
          | nil => cases hm
          | cons a b ih =>
            rcases List.mem_cons.1 hm with rfl | hm
            · exact ⟨_, List.mem_cons_self .., a⟩
            · obtain ⟨e, h5, h6⟩ := ih hm; exact ⟨e, List.mem_cons_of_mem _ h5, h6⟩
        have hge := (simFuel_ge es).2 e he
        obtain ⟨_, _, _, gs, P, N, _, _, _, hm⟩ := hsi
        rcases hm with ⟨k1, _⟩ | ⟨_, k2, k3, _⟩
        · rw [hnf'] at k1; cases k1
        · have := k3.begin'; omega
      · have := L.src (L.cp hd)
        rwa [← two_nsmul, ← mul_nsmul', ← pow_succ'] at this
    · rw [if_neg hany]
      refine Post.pure ?_
      have hall : ∀ sb ∈ st', sb.1.finished = true := by
        intro sb hm
        by_contra hcon
        exact hany (List.any_eq_true.2 ⟨sb, hm, by simpa using hcon⟩)
      clear hany h h1 h2
      induction h3 with
      | nil => exact .nil
      | cons a b ih => exact .cons (a.done (hall _ (List.mem_cons_self ..))) (ih (fun sb hm => hall sb (List.mem_cons_of_mem _ hm)))

theorem initAll_spec {wb : Nat} (hwb : 0 < wb) (L : Laws grp Inv Rep Ref Src) (x y : G) : ∀ (es : List Nat),
    Post Inv (initAll grp wb es) (List.Forall₂ (fun e sb => SI Rep grp.fast x y e 0 sb) es)
  | [] => Post.pure .nil
  | e :: es => by
    refine Post.bind L.ident fun i hi => ?_
    refine Post.bind (initAll_spec hwb L x y es) fun rest hr => ?_
    exact Post.pure (.cons (init_SI hwb L x y e hi) hr)

theorem combineAll_spec (L : Laws grp Inv Rep Ref Src) {x : G} : ∀ {es : List Nat} {st : List (Slider × List E)},
    List.Forall₂ (Done Rep x) es st → Post Inv (combineAll grp st) (List.Forall₂ (fun e r => Rep r (e • x)) es)
  | _, _, .nil => Post.pure .nil
  | _, _, .cons h t => by
    obtain ⟨h1, gs, h2, h3⟩ := h
    refine Post.bind (combine_spec L h1 h2) fun r hr => ?_
    refine Post.bind (combineAll_spec L t) fun rs hrs => ?_
    rw [h3] at hr
    exact Post.pure (.cons hr hrs)

theorem simultaneousMultiply_spec {wb : Nat} (hwb : 0 < wb) (L : Laws grp Inv Rep Ref Src) {b : E} {x : G} (hb : Src b x) (es : List Nat) :
    Post Inv (simultaneousMultiply grp wb b es) (List.Forall₂ (fun e r => Rep r (e • x)) es) := by
  obtain ⟨y, hy⟩ : ∃ y, grp.fast = true → x + y = 0 := by
    cases hf : grp.fast
    · exact ⟨0, by simp⟩
    · obtain ⟨y, hy, _⟩ := L.inv hf hb
      exact ⟨y, fun _ => hy⟩
  refine Post.bind (initAll_spec hwb L x y es) fun st h1 => ?_
  refine Post.bind (simLoop_spec hwb L hy (simFuel es) 0 _ st (by omega) (by have := (simFuel_ge es).1; omega) ?_ h1) fun st' h2 => ?_
  · rw [pow_zero, one_nsmul]; exact L.cpSrc hb
  · exact combineAll_spec L h2

theorem scalarMultiply_spec {wb : Nat} (hwb : 0 < wb) (L : Laws grp Inv Rep Ref Src) {b : E} {x : G} (hb : Src b x) (e : Nat) :
    Post Inv (scalarMultiply grp wb b e) (fun r => Rep r (e • x)) := by
  refine Post.bind (simultaneousMultiply_spec hwb L hb [e]) fun rs h => ?_
  cases h with
  | cons h1 h2 => exact Post.pure h1

end Verif.Algebra
