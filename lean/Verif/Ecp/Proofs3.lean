import Verif.Ecp.Proofs2
import Verif.Ecp.Field

set_option linter.unusedSectionVars false

namespace Verif.Ecp
open WeierstrassCurve.Affine Verif.Algebra
open Verif.Misc (bitLen)

variable {G : Type} [AddCommGroup G]

/-! ## The windows -/

/-- What an entry of the windows contributes. -/
def term (gs : List G) (w : Win) : G := if w.negate then -(w.window • gs.getD w.base 0) else w.window • gs.getD w.base 0

def wsum (gs : List G) (ws : List Win) : G := (ws.map (term gs)).sum

theorem term_append {gs t : List G} {w : Win} (h : w.base < gs.length) : term (gs ++ t) w = term gs w := by
  unfold term
  rw [List.getD_eq_getElem?_getD, List.getD_eq_getElem?_getD, List.getElem?_append_left h]

theorem wsum_append {gs t : List G} : ∀ {ws : List Win}, (∀ w ∈ ws, w.base < gs.length) → wsum (gs ++ t) ws = wsum gs ws
  | [], _ => rfl
  | w :: ws, h => by
    have ih := wsum_append (gs := gs) (t := t) (ws := ws) (fun w' hw => h w' (List.mem_cons_of_mem _ hw))
    unfold wsum at ih ⊢
    rw [List.map_cons, List.map_cons, List.sum_cons, List.sum_cons, ih, term_append (h w (List.mem_cons_self ..))]

theorem wsum_snoc (gs : List G) (ws : List Win) (w : Win) : wsum gs (ws ++ [w]) = wsum gs ws + term gs w := by
  unfold wsum; simp

/-- The invariant of one exponent and its windows at bit position `pos`. -/
structure WI (x : G) (e pos : Nat) (gs : List G) (sw : Slider × List Win) : Prop where
  win : sw.1.windowSize = 5
  fastN : sw.1.fastNegate = true
  idx : ∀ w ∈ sw.2, w.base < gs.length ∧ w.window < 32
  main : ∃ P N : Nat, wsum gs sw.2 = P • x - N • x ∧ (sw.2 = [] → P = 0 ∧ N = 0) ∧
    ((sw.1.finished = true ∧ P = N + e) ∨
     (sw.1.finished = false ∧ pos ≤ sw.1.windowBegin ∧ Pending (bitLen e) sw.1 ∧
      P + sw.1.rest * 2 ^ sw.1.windowBegin + (if sw.1.negateNext then 0 else sw.1.expWindow * 2 ^ sw.1.windowBegin) =
        N + e + (if sw.1.negateNext then sw.1.expWindow * 2 ^ sw.1.windowBegin else 0)))

theorem WI.mono {x : G} {e pos : Nat} {gs t : List G} {sw : Slider × List Win} (h : WI x e pos gs sw) : WI x e pos (gs ++ t) sw := by
  obtain ⟨h1, h2, h3, P, N, h4, h5⟩ := h
  refine ⟨h1, h2, fun w hw => ⟨by have := (h3 w hw).1; rw [List.length_append]; omega, (h3 w hw).2⟩, P, N, ?_, h5⟩
  rw [wsum_append fun w hw => (h3 w hw).1]; exact h4

theorem WI.init {wb : Nat} (hwb : 0 < wb) (x : G) (e : Nat) : WI x e 0 [] ((slider e).next wb, []) := by
  obtain ⟨h1, h2, h3⟩ := next_spec hwb (L := bitLen e) (s := slider e) (by show 0 < 5; decide) rfl (R := e) rfl
    (by show e * 2 ^ 0 ≤ _; rw [Nat.pow_zero, Nat.mul_one]; exact Nat.le_of_lt (Misc.bitLen_lt e))
  refine ⟨h1, h2, by simp, 0, 0, by simp [wsum], fun _ => ⟨rfl, rfl⟩, ?_⟩
  rcases h3 with ⟨k1, k2⟩ | ⟨k1, k2, k3, k4, k5⟩
  · exact Or.inl ⟨k1, by omega⟩
  · refine Or.inr ⟨k1, Nat.zero_le _, k4, ?_⟩
    have e0 : (slider e).windowBegin = 0 := rfl
    rw [e0, Nat.pow_zero, Nat.mul_one] at k5
    rw [Nat.zero_add, Nat.zero_add]
    exact k5.symm

theorem WI.step {wb : Nat} (hwb : 0 < wb) {x : G} {e pos : Nat} {gs : List G} {sw : Slider × List Win} (h : WI x e pos gs sw)
    (hc : sw.1.finished = false ∧ pos = sw.1.windowBegin) {i : Nat} (hi : gs[i]? = some (2 ^ pos • x)) :
    WI x e (pos + 1) gs (sw.1.next wb, sw.2 ++ [⟨sw.1.expWindow, i, sw.1.negateNext⟩]) := by
  obtain ⟨hw, hf, hidx, P, N, hs, hnil, hm⟩ := h
  obtain ⟨hc1, hc2⟩ := hc
  rcases hm with ⟨k1, _⟩ | ⟨k1, k2, k3, k4⟩
  · rw [k1] at hc1; cases hc1
  obtain ⟨n1, n2, n3⟩ := next_spec hwb (L := bitLen e) k3.win hc1 (R := sw.1.rest) (by rw [k3.first]; rfl) k3.bound
  have hlt : i < gs.length := (List.getElem?_eq_some_iff.1 hi).1
  have hw32 : sw.1.expWindow < 32 := by have := k3.lt; rw [hw] at this; exact this
  have hterm : term gs ⟨sw.1.expWindow, i, sw.1.negateNext⟩ = if sw.1.negateNext then -((sw.1.expWindow * 2 ^ pos) • x) else (sw.1.expWindow * 2 ^ pos) • x := by
    unfold term
    have : gs.getD i 0 = 2 ^ pos • x := by rw [List.getD_eq_getElem?_getD, hi]; rfl
    simp only [this, mul_nsmul']
  refine ⟨n1.trans hw, n2.trans hf, ?_, ?_⟩
  · intro w hw'
    rcases List.mem_append.1 hw' with hw' | hw'
    · exact hidx w hw'
    · rw [List.mem_singleton.1 hw']; exact ⟨hlt, hw32⟩
  have key : ∀ P' N' : Nat, wsum gs (sw.2 ++ [⟨sw.1.expWindow, i, sw.1.negateNext⟩]) = P' • x - N' • x → P' + sw.1.rest * 2 ^ sw.1.windowBegin = N' + e →
      ∃ P N : Nat, wsum gs (sw.2 ++ [⟨sw.1.expWindow, i, sw.1.negateNext⟩]) = P • x - N • x ∧ (sw.2 ++ [(⟨sw.1.expWindow, i, sw.1.negateNext⟩ : Win)] = [] → P = 0 ∧ N = 0) ∧
      (((sw.1.next wb).finished = true ∧ P = N + e) ∨
       ((sw.1.next wb).finished = false ∧ pos + 1 ≤ (sw.1.next wb).windowBegin ∧ Pending (bitLen e) (sw.1.next wb) ∧
        P + (sw.1.next wb).rest * 2 ^ (sw.1.next wb).windowBegin + (if (sw.1.next wb).negateNext then 0 else (sw.1.next wb).expWindow * 2 ^ (sw.1.next wb).windowBegin) =
          N + e + (if (sw.1.next wb).negateNext then (sw.1.next wb).expWindow * 2 ^ (sw.1.next wb).windowBegin else 0))) := by
    intro P' N' h2 h4
    refine ⟨P', N', h2, by simp, ?_⟩
    rcases n3 with ⟨m1, m2⟩ | ⟨m1, m2, m3, m4, m5⟩
    · left; refine ⟨m1, ?_⟩; rw [m2] at h4; omega
    · right
      refine ⟨m1, by have := m3 k3.first; omega, m4, ?_⟩
      rw [← h4]; omega
  cases hneg : sw.1.negateNext
  · rw [hneg] at k4 hterm key
    simp only [Bool.false_eq_true, if_false, Nat.add_zero] at k4 hterm
    refine key (P + sw.1.expWindow * 2 ^ pos) N ?_ (by rw [hc2]; omega)
    rw [wsum_snoc, hs, hterm, add_nsmul]; abel
  · rw [hneg] at k4 hterm key
    simp only [if_true, Nat.add_zero] at k4 hterm
    refine key P (N + sw.1.expWindow * 2 ^ pos) ?_ (by rw [hc2]; omega)
    rw [wsum_snoc, hs, hterm, add_nsmul]; abel

theorem WI.skip {x : G} {e pos : Nat} {gs : List G} {sw : Slider × List Win} (h : WI x e pos gs sw)
    (hc : ¬(sw.1.finished = false ∧ pos = sw.1.windowBegin)) : WI x e (pos + 1) gs sw := by
  obtain ⟨hw, hf, hidx, P, N, hs, hnil, hm⟩ := h
  refine ⟨hw, hf, hidx, P, N, hs, hnil, ?_⟩
  rcases hm with hm | ⟨k1, k2, k3⟩
  · exact Or.inl hm
  · refine Or.inr ⟨k1, ?_, k3⟩
    by_contra hcon
    exact hc ⟨k1, by omega⟩

theorem forall₂_mono {α β : Type} {R S : α → β → Prop} {l : List α} {m : List β} (h : List.Forall₂ R l m) (hi : ∀ a b, R a b → S a b) : List.Forall₂ S l m := by
  induction h with
  | nil => exact .nil
  | cons a _ ih => exact .cons (hi _ _ a) ih

theorem passAll_spec {J : PPt → G → Prop} {wb : Nat} (hwb : 0 < wb) {x : G} {pos : Nat} {P : PPt} (hP : J P (2 ^ pos • x)) :
    ∀ {es : List Nat} {st : List (Slider × List Win)} {bases : List PPt} {gs : List G} {added : Bool},
    List.Forall₂ (fun e sw => WI x e pos gs sw) es st → List.Forall₂ J bases gs → (added = true → gs.getLast? = some (2 ^ pos • x)) →
    ∃ t, List.Forall₂ J (passAll wb pos P st bases added).2 (gs ++ t) ∧
      List.Forall₂ (fun e sw => WI x e (pos + 1) (gs ++ t) sw) es (passAll wb pos P st bases added).1
  | _, _, bases, gs, added, .nil, hb, ha => ⟨[], by rw [List.append_nil]; exact hb, .nil⟩
  | _, _, bases, gs, added, .cons (a := e) (b := sw) h1 h2, hb, ha => by
    unfold passAll
    by_cases hc : sw.1.finished = false ∧ pos = sw.1.windowBegin
    · rw [if_pos hc]
      obtain ⟨t0, hb', hl'⟩ : ∃ t0, List.Forall₂ J (if added then bases else bases ++ [P]) (gs ++ t0) ∧ (gs ++ t0).getLast? = some (2 ^ pos • x) := by
        cases added
        · exact ⟨[2 ^ pos • x], List.rel_append hb (.cons hP .nil), by simp⟩
        · exact ⟨[], by rw [List.append_nil]; exact hb, by rw [List.append_nil]; exact ha rfl⟩
      generalize (if added then bases else bases ++ [P]) = bases' at hb'
      obtain ⟨t, r1, r2⟩ := passAll_spec hwb hP (forall₂_mono h2 fun _ _ h => h.mono (t := t0)) hb' (fun _ => hl')
      refine ⟨t0 ++ t, by rw [← List.append_assoc]; exact r1, ?_⟩
      refine .cons ?_ (by rw [← List.append_assoc]; exact r2)
      rw [← List.append_assoc]
      have hlen := hb'.length_eq
      refine (h1.mono (t := t0)).step hwb hc ?_ |>.mono
      rw [List.getLast?_eq_getElem?] at hl'
      rw [hlen]; exact hl'
    · rw [if_neg hc]
      obtain ⟨t, r1, r2⟩ := passAll_spec hwb hP h2 hb ha
      exact ⟨t, r1, .cons (h1.mono.skip hc) r2⟩

/-- The windows of a finished exponent amount to the multiple. -/
def WDone (x : G) (gs : List G) (e : Nat) (sw : Slider × List Win) : Prop :=
  wsum gs sw.2 = e • x ∧ (sw.2 = [] → e = 0) ∧ ∀ w ∈ sw.2, w.base < gs.length ∧ w.window < 32

theorem WI.done {x : G} {e pos : Nat} {gs : List G} {sw : Slider × List Win} (h : WI x e pos gs sw) (hf : sw.1.finished = true) : WDone x gs e sw := by
  obtain ⟨_, _, hidx, P, N, hs, hnil, hm⟩ := h
  rcases hm with ⟨_, hm⟩ | ⟨k1, _⟩
  · refine ⟨by rw [hs, hm, add_nsmul]; abel, fun hn => ?_, hidx⟩
    obtain ⟨p0, n0⟩ := hnil hn; omega
  · rw [hf] at k1; cases k1

theorem mem_forall₂ {α β : Type} {R : α → β → Prop} {l : List α} {m : List β} (h : List.Forall₂ R l m) {b : β} (hb : b ∈ m) : ∃ a ∈ l, R a b := by
  induction h with
  | nil => cases hb
  | cons h1 _ ih =>
    rcases List.mem_cons.1 hb with rfl | hb
    · exact ⟨_, List.mem_cons_self .., h1⟩
    · obtain ⟨a, h5, h6⟩ := ih hb; exact ⟨a, List.mem_cons_of_mem _ h5, h6⟩

theorem loop_spec {F : Fld} {D : PD → G → Prop} {J : PPt → G → Prop} (hDJ : ∀ d g, D d g → J d.P g) (hdbl : ∀ d g, D d g → D (d.double F) (g + g))
    {wb : Nat} (hwb : 0 < wb) {x : G} {es : List Nat} :
    ∀ (fuel pos : Nat) (rd : PD) (st : List (Slider × List Win)) (bases : List PPt) (gs : List G), simFuel es ≤ pos + fuel → pos + 2 ≤ simFuel es →
    D rd (2 ^ pos • x) → List.Forall₂ (fun e sw => WI x e pos gs sw) es st → List.Forall₂ J bases gs →
    Post (fun _ : Unit => True) (loop F wb fuel pos rd st bases) (fun r => ∃ gs', List.Forall₂ J r.2 gs' ∧ List.Forall₂ (WDone x gs') es r.1)
  | 0, pos, rd, st, bases, gs, h1, h2, hg, h, hb => by omega
  | fuel + 1, pos, rd, st, bases, gs, h1, h2, hg, h, hb => by
    obtain ⟨t, r1, r2⟩ := passAll_spec hwb (hDJ _ _ hg) (added := false) h hb (by simp)
    unfold loop
    by_cases hany : (passAll wb pos rd.P st bases false).1.any (fun sw => !sw.1.finished) = true
    · simp only [hany, if_true]
      refine loop_spec hDJ hdbl hwb fuel (pos + 1) _ _ _ _ (by omega) ?_ ?_ r2 r1
      · obtain ⟨sb, hm, hnf⟩ := List.any_eq_true.1 hany
        have hnf' : sb.1.finished = false := by simpa using hnf
        obtain ⟨e, he, hsi⟩ := mem_forall₂ r2 hm
        have hge := (simFuel_ge es).2 e he
        obtain ⟨_, _, _, P, N, _, _, hm⟩ := hsi
        rcases hm with ⟨k1, _⟩ | ⟨_, k2, k3, _⟩
        · rw [hnf'] at k1; cases k1
        · have := k3.begin'; omega
      · have := hdbl _ _ hg
        rwa [← two_nsmul, ← mul_nsmul', ← pow_succ'] at this
    · rw [Bool.not_eq_true] at hany
      simp only [hany, Bool.false_eq_true, if_false]
      refine Post.pure ⟨gs ++ t, r1, ?_⟩
      have hall : ∀ sb ∈ (passAll wb pos rd.P st bases false).1, sb.1.finished = true := by
        intro sb hm
        have := List.any_eq_false.1 hany sb hm
        simpa using this
      generalize (passAll wb pos rd.P st bases false).1 = st' at r2 hall
      clear hany h h1 h2
      induction r2 with
      | nil => exact .nil
      | cons a b ih => exact .cons (a.done (hall _ (List.mem_cons_self ..))) (ih (fun sb hm => hall sb (List.mem_cons_of_mem _ hm)))

/-! ## The results -/

variable {K : Type} [Field K] [DecidableEq K] {φ : Int → K}

/-- A base in affine form stands for a point: `z = 0` at infinity. -/
def ARep (F : Fld) (φ : Int → K) {W : WeierstrassCurve.Affine K} (P : PPt) (g : W.Point) : Prop :=
  (g = 0 ↔ P.z = 0) ∧ (g ≠ 0 → PtRep F φ ⟨false, P.x, P.y⟩ g)

theorem affineAll_spec {F : Fld} (h : FOk F φ) {W : WeierstrassCurve.Affine K} : ∀ {bases : List PPt} {gs : List W.Point}, List.Forall₂ (JRep F φ) bases gs →
    List.Forall₂ (ARep F φ) (List.zipWith (affine F) bases ((bases.map (·.z)).map F.inv)) gs
  | _, _, .nil => .nil
  | _, _, .cons h1 h2 => by
    simp only [List.map_cons, List.zipWith_cons_cons]
    exact .cons (affine_spec h h1) (affineAll_spec h h2)

theorem get_forall₂ {α β : Type} {R : α → β → Prop} {l : List α} {m : List β} (h : List.Forall₂ R l m) {i : Nat} {b : β} (hb : m[i]? = some b) : ∃ a, l[i]? = some a ∧ R a b := by
  induction h generalizing i with
  | nil => simp at hb
  | cons h1 _ ih =>
    cases i with
    | zero => simp only [List.getElem?_cons_zero, Option.some.injEq] at hb ⊢; exact ⟨_, rfl, by rw [← hb]; exact h1⟩
    | succ i => simp only [List.getElem?_cons_succ] at hb ⊢; exact ih hb

/-- A term as a base and an exponent. -/
theorem entry_spec {C : Ec} (h : FOk C.F φ) {a b : K} {bases : List PPt} {gs : List (curve a b).Point} (hb : List.Forall₂ (ARep C.F φ) bases gs)
    {w : Win} (hw : w.base < gs.length) :
    Post (fun _ : Unit => True) (entry C.F bases w) (fun r => r.2 = w.window ∧ ∃ g, PtRep C.F φ r.1 g ∧ w.window • g = term gs w) := by
  obtain ⟨P, hP, hA⟩ := get_forall₂ hb (List.getElem?_eq_getElem hw)
  have hget : gs.getD w.base 0 = gs[w.base] := by rw [List.getD_eq_getElem?_getD, List.getElem?_eq_getElem hw]; rfl
  generalize gs[w.base] = g at hA hget
  unfold entry
  rw [hP]
  simp only
  by_cases hz : P.z = 0
  · rw [if_pos hz]
    have hg : g = 0 := hA.1.2 hz
    exact Post.pure ⟨rfl, 0, rfl, by unfold term; rw [hget, hg]; simp⟩
  · rw [if_neg hz]
    have hg : g ≠ 0 := fun e => hz (hA.1.1 e)
    have hr := hA.2 hg
    refine Post.pure ⟨rfl, ?_⟩
    cases hn : w.negate
    · exact ⟨g, by simpa using hr, by unfold term; rw [hget, hn]; simp⟩
    · refine ⟨-g, ?_, by unfold term; rw [hget, hn]; simp⟩
      have := inverse_spec (C := C) h hr
      simpa [inverse] using this

theorem entries_spec {C : Ec} (h : FOk C.F φ) {a b : K} {bases : List PPt} {gs : List (curve a b).Point} (hb : List.Forall₂ (ARep C.F φ) bases gs) :
    ∀ {ws : List Win}, (∀ w ∈ ws, w.base < gs.length ∧ w.window < 32) →
    Post (fun _ : Unit => True) (entries C.F bases ws) (fun l => l.length = ws.length ∧ Sum (PtRep C.F φ) l (wsum gs ws) ∧ ∀ m ∈ l, m.2 < 32)
  | [], _ => Post.pure ⟨rfl, .nil, by simp⟩
  | w :: ws, hw => by
    refine Post.bind (entry_spec h hb (hw w (List.mem_cons_self ..)).1) fun e he => ?_
    refine Post.bind (entries_spec h hb fun w' hw' => hw w' (List.mem_cons_of_mem _ hw')) fun l hl => ?_
    obtain ⟨e1, g, e2, e3⟩ := he
    obtain ⟨l1, l2, l3⟩ := hl
    refine Post.pure ⟨by simp [l1], ?_, ?_⟩
    · have : wsum gs (w :: ws) = w.window • g + wsum gs ws := by unfold wsum; rw [List.map_cons, List.sum_cons, e3]
      rw [this, ← e1]
      exact .cons e2 l2
    · intro m hm
      rcases List.mem_cons.1 hm with rfl | hm
      · rw [e1]; exact (hw w (List.mem_cons_self ..)).2
      · exact l3 m hm

theorem results_spec {C : Ec} (h : FOk C.F φ) (ha : El C.F C.a) {b : K} {ms : Muls Unit Pt}
    (hms : MulsOk (G := (curve (φ C.a) b).Point) ms (fun _ => True) (PtRep C.F φ) (PtRep C.F φ) (· < 32))
    {heap0 heap : List (Pt × Nat) → List (Pt × Nat)} (hh : HeapOk heap0 heap) {bases : List PPt} {gs : List (curve (φ C.a) b).Point}
    (hb : List.Forall₂ (ARep C.F φ) bases gs) {x : (curve (φ C.a) b).Point} :
    ∀ {es : List Nat} {st : List (Slider × List Win)}, List.Forall₂ (WDone x gs) es st → (∀ e ∈ es, e ≠ 0) →
    Post (fun _ : Unit => True) (results C ms heap0 heap bases st) (fun rs => List.Forall₂ (fun e r => PtRep C.F φ r (e • x)) es rs)
  | _, _, .nil, _ => Post.pure .nil
  | _, _, .cons (a := e) (b := sw) h1 h2, hne => by
    refine Post.bind (entries_spec h hb h1.2.2) fun l hl => ?_
    obtain ⟨l1, l2, l3⟩ := hl
    have hl0 : l ≠ [] := by
      rintro rfl
      exact hne e (List.mem_cons_self ..) (h1.2.1 (List.eq_nil_of_length_eq_zero l1.symm))
    rw [h1.1] at l2
    refine Post.bind (generalCascade_spec hms (laws h ha b) hh hl0 l2 l3) fun r hr => ?_
    refine Post.bind (results_spec h ha hms hh hb h2 fun e' he => hne e' (List.mem_cons_of_mem _ he)) fun rs hrs => ?_
    exact Post.pure (.cons hr hrs)

theorem simMont_spec {C : Ec} (h : FOk C.F φ) (ha : El C.F C.a) {b : K} {wb : Nat} (hwb : 0 < wb) {ms : Muls Unit Pt}
    (hms : MulsOk (G := (curve (φ C.a) b).Point) ms (fun _ => True) (PtRep C.F φ) (PtRep C.F φ) (· < 32))
    {heap0 heap : List (Pt × Nat) → List (Pt × Nat)} (hh : HeapOk heap0 heap) {P : Pt} {x : (curve (φ C.a) b).Point} (hP : PtRep C.F φ P x)
    {es : List Nat} (hne : ∀ e ∈ es, e ≠ 0) :
    Post (fun _ : Unit => True) (simMont C wb heap0 heap ms P es) (fun rs => List.Forall₂ (fun e r => PtRep C.F φ r (e • x)) es rs) := by
  have h0 : List.Forall₂ (fun e sw => WI x e 0 [] sw) es (es.map fun e => ((slider e).next wb, [])) := by
    clear hne
    induction es with
    | nil => exact .nil
    | cons e es ih => exact .cons (WI.init hwb x e) ih
  refine Post.bind (loop_spec (D := DRep C.F φ (φ C.a)) (J := JRep C.F φ) (fun _ _ hd => hd.1) (fun _ _ hd => PD.double_spec h hd) hwb
    (simFuel es) 0 _ _ [] [] (by omega) (by have := (simFuel_ge es).1; omega) (by rw [pow_zero, one_nsmul]; exact PD.mk_spec h ha hP) h0 .nil) fun r hr => ?_
  obtain ⟨gs, r1, r2⟩ := hr
  have hz : parallelInvert C.F r.2.length (r.2.map (·.z)) = (r.2.map (·.z)).map C.F.inv := by
    refine parallelInvert_spec h _ _ (by simp) ?_
    intro z hz
    obtain ⟨P', hP', rfl⟩ := List.mem_map.1 hz
    clear hz
    generalize r.2 = bases at r1 hP'
    clear r2
    induction r1 with
    | nil => cases hP'
    | cons a _ ih =>
      rcases List.mem_cons.1 hP' with rfl | hm
      · exact a.2.2.1
      · exact ih hm
  show Post _ (results C ms heap0 heap (List.zipWith (affine C.F) r.2 (parallelInvert C.F r.2.length (r.2.map (·.z)))) r.1) _
  rw [hz]
  exact results_spec h ha hms hh (affineAll_spec h r1) r2 hne

theorem bitLen_le5 {k : Nat} : bitLen k ≤ 5 ↔ k < 32 := by
  constructor
  · intro h
    exact Nat.lt_of_lt_of_le (Misc.bitLen_lt k) (Nat.pow_le_pow_right (by decide) h : 2 ^ bitLen k ≤ 2 ^ 5)
  · intro h
    exact Misc.bitLen_le (n := 5) h

theorem montMuls_small {C : Ec} (h : FOk C.F φ) (ha : El C.F C.a) {b : K} {wb : Nat} (hwb : 0 < wb)
    {heap0 heap : List (Pt × Nat) → List (Pt × Nat)} (depth : Nat) :
    MulsOk (G := (curve (φ C.a) b).Point) (montMuls C wb heap0 heap (depth + 1)) (fun _ => True) (PtRep C.F φ) (PtRep C.F φ) (· < 32) where
  down := fun h1 h2 => Nat.lt_of_le_of_lt h2 h1
  smul := fun {P x} hP {e} he => by
    show Post _ (if bitLen e ≤ 5 then _ else _) _
    rw [if_pos (bitLen_le5.2 he)]
    exact scalarMultiply_spec hwb (laws h ha b) hP e
  casc := fun {_ _ _ _} h1 h2 {e1 e2} _ _ => cascadeScalarMultiply_spec (laws h ha b) h1 h2 e1 e2

theorem one'_spec {Q : Pt → Prop} {rs : List Pt} {e : Nat} {R : Nat → Pt → Prop} (h : List.Forall₂ R [e] rs) (hQ : ∀ r, R e r → Q r) :
    Post (fun _ : Unit => True) (one' rs) Q := by
  cases h with
  | cons h1 h2 => cases h2; exact Post.pure (hQ _ h1)

theorem montMuls_ok {C : Ec} (h : FOk C.F φ) (ha : El C.F C.a) {b : K} {wb : Nat} (hwb : 0 < wb)
    {heap0 heap : List (Pt × Nat) → List (Pt × Nat)} (hh : HeapOk heap0 heap) (depth : Nat) :
    MulsOk (G := (curve (φ C.a) b).Point) (montMuls C wb heap0 heap (depth + 2)) (fun _ => True) (PtRep C.F φ) (PtRep C.F φ) (fun _ => True) where
  down := fun _ _ => trivial
  smul := fun {P x} hP {e} _ => by
    show Post _ (if bitLen e ≤ 5 then _ else _) _
    by_cases he : bitLen e ≤ 5
    · rw [if_pos he]
      exact scalarMultiply_spec hwb (laws h ha b) hP e
    · rw [if_neg he]
      have he0 : e ≠ 0 := fun h0 => he (bitLen_le5.2 (by omega))
      refine Post.bind (simMont_spec h ha hwb (montMuls_small h ha hwb depth) hh hP (es := [e]) (by simpa using he0)) fun rs hrs => ?_
      exact one'_spec hrs fun _ => id
  casc := fun {_ _ _ _} h1 h2 {e1 e2} _ _ => cascadeScalarMultiply_spec (laws h ha b) h1 h2 e1 e2

end Verif.Ecp
