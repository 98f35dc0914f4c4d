import Verif.Flate.DecodeProofs
import Verif.Flate.Spec

/-!
# The codes handed out are the canonical ones, and the decoder's table lists them
-/
namespace Verif.Flate

theorem foldl_tick (lens : List Nat) (f : Nat → Nat) (l : Nat) : lens.foldl tick f l = f l + lens.count l := by
  induction lens generalizing f with
  | nil => rfl
  | cons x lens ih =>
    rw [List.foldl_cons, ih, tick, List.count_cons]
    by_cases h : l = x
    · simp [h]; omega
    · have : ¬ x = l := fun e => h e.symm
      simp [h, this]

theorem blCount_eq (lens : List Nat) (l : Nat) : blCount lens l = lens.count l := by
  rw [blCount, foldl_tick, Nat.zero_add]

theorem foldl_max (lens : List Nat) (a : Nat) :
    a ≤ lens.foldl max a ∧ (∀ l ∈ lens, l ≤ lens.foldl max a) ∧ (lens.foldl max a = a ∨ lens.foldl max a ∈ lens) := by
  induction lens generalizing a with
  | nil => exact ⟨Nat.le_refl _, fun _ h => (nomatch h), .inl rfl⟩
  | cons x lens ih =>
    obtain ⟨h1, h2, h3⟩ := ih (max a x)
    rw [List.foldl_cons]
    refine ⟨by omega, ?_, ?_⟩
    · intro l hl
      rcases List.mem_cons.1 hl with rfl | hl
      · omega
      · exact h2 l hl
    · rcases h3 with h3 | h3
      · by_cases hax : a ≤ x
        · right; rw [h3, max_eq_right hax]; exact List.mem_cons_self
        · left; rw [h3, max_eq_left (by omega)]
      · exact .inr (List.mem_cons_of_mem _ h3)

theorem le_maxLen {lens : List Nat} {l : Nat} (h : l ∈ lens) : l ≤ maxLen lens := (foldl_max lens 0).2.1 l h

theorem maxLen_le {lens : List Nat} {M : Nat} (h : ∀ l ∈ lens, l ≤ M) : maxLen lens ≤ M := by
  rcases (foldl_max lens 0).2.2 with h1 | h1
  · rw [maxLen, h1]; omega
  · exact h _ h1

theorem maxLen_mem {lens : List Nat} (h : maxLen lens ≠ 0) : maxLen lens ∈ lens := by
  rcases (foldl_max lens 0).2.2 with h1 | h1
  · exact absurd h1 h
  · exact h1

/-! ## The sizes of the codes -/

/-- The code space taken by lengths from `l` on. -/
def tailSum (lens : List Nat) (l : Nat) : Nat := (lens.map fun x => if x < l then 0 else 2 ^ (32 - x)).sum

theorem tailSum_succ (lens : List Nat) (l : Nat) : tailSum lens l = lens.count l * 2 ^ (32 - l) + tailSum lens (l + 1) := by
  induction lens with
  | nil => simp [tailSum]
  | cons x lens ih =>
    simp only [tailSum, List.map_cons, List.sum_cons, List.count_cons] at *
    rw [ih]
    rcases Nat.lt_trichotomy x l with h | h | h
    · have h1 : x < l + 1 := by omega
      have h2 : ¬ x = l := by omega
      simp [h, h1, h2]
    · subst h; simp [Nat.add_mul]; ring
    · have h1 : ¬ x < l + 1 := by omega
      have h2 : ¬ x = l := by omega
      have h3 : ¬ x < l := by omega
      simp [h1, h2, h3]; ring

theorem tailSum_one (lens : List Nat) : tailSum lens 1 = kraft 32 lens := by
  unfold tailSum kraft
  congr 2
  funext x
  by_cases h : x = 0
  · simp [h]
  · have : ¬ x < 1 := by omega
    simp [h, this]

theorem first_tail (lens : List Nat) (l : Nat) (h : l + 1 ≤ 32) :
    firstCode lens (l + 1) * 2 ^ (32 - (l + 1)) + tailSum lens (l + 1) = kraft 32 lens := by
  induction l with
  | zero => rw [← tailSum_one, firstCode]; simp
  | succ l ih =>
    rw [← ih (by omega), tailSum_succ lens (l + 1), firstCode]
    have e : 2 ^ (32 - (l + 1)) = 2 * 2 ^ (32 - (l + 1 + 1)) := by
      rw [← Nat.pow_succ']; congr 1; omega
    rw [e]; ring

theorem tailSum_pos {lens : List Nat} {l x : Nat} (hx : x ∈ lens) (h : l ≤ x) : 0 < tailSum lens l := by
  induction lens with
  | nil => cases hx
  | cons y lens ih =>
    simp only [tailSum, List.map_cons, List.sum_cons]
    rcases List.mem_cons.1 hx with rfl | hx
    · rw [if_neg (by omega)]
      have := Nat.two_pow_pos (32 - x)
      omega
    · have := ih hx
      simp only [tailSum] at this
      omega

theorem tailSum_top {lens : List Nat} {l : Nat} (h : ∀ x ∈ lens, x < l) : tailSum lens l = 0 := by
  induction lens with
  | nil => rfl
  | cons y lens ih =>
    have := ih (fun x hx => h x (List.mem_cons_of_mem _ hx))
    simp only [tailSum, List.map_cons, List.sum_cons] at *
    rw [if_pos (h y List.mem_cons_self), this]

theorem kraft_scale {M : Nat} {lens : List Nat} (hM : M ≤ 32) (h : ∀ l ∈ lens, l ≤ M) :
    kraft 32 lens = kraft M lens * 2 ^ (32 - M) := by
  induction lens with
  | nil => simp [kraft]
  | cons x lens ih =>
    have h1 := ih (fun l hl => h l (List.mem_cons_of_mem _ hl))
    have h2 := h x List.mem_cons_self
    simp only [kraft, List.map_cons, List.sum_cons] at *
    rw [h1]
    by_cases hx : x = 0
    · simp [hx]
    · simp only [hx, if_false]
      rw [Nat.add_mul, ← Nat.pow_add]
      congr 3
      omega

/-! ## No code overflows -/

section
variable {lens : List Nat} (hK : kraft 32 lens ≤ 2 ^ 32) (hM : maxLen lens ≤ 32)
include hK hM

/-- The codes of a length fit into it. -/
theorem first_count_le {l : Nat} (h1 : 1 ≤ l) (h2 : l ≤ 32) : firstCode lens l + lens.count l ≤ 2 ^ l := by
  obtain ⟨l, rfl⟩ : ∃ k, l = k + 1 := ⟨l - 1, by omega⟩
  have e := first_tail lens l h2
  rw [tailSum_succ] at e
  have h32 : (2:Nat) ^ 32 = 2 ^ (l + 1) * 2 ^ (32 - (l + 1)) := by rw [← Nat.pow_add]; congr 1; omega
  have : (firstCode lens (l + 1) + lens.count (l + 1)) * 2 ^ (32 - (l + 1)) ≤ 2 ^ (l + 1) * 2 ^ (32 - (l + 1)) := by
    rw [Nat.add_mul, ← h32]; omega
  exact Nat.le_of_mul_le_mul_right this (Nat.two_pow_pos _)

theorem first_count_lt {l : Nat} (h1 : 1 ≤ l) (h2 : l < maxLen lens) : firstCode lens l + lens.count l < 2 ^ l := by
  obtain ⟨l, rfl⟩ : ∃ k, l = k + 1 := ⟨l - 1, by omega⟩
  have e := first_tail lens l (by omega)
  rw [tailSum_succ] at e
  have hp := tailSum_pos (maxLen_mem (by omega)) (by omega : l + 1 + 1 ≤ maxLen lens)
  have h32 : (2:Nat) ^ 32 = 2 ^ (l + 1) * 2 ^ (32 - (l + 1)) := by rw [← Nat.pow_add]; congr 1; omega
  have : (firstCode lens (l + 1) + lens.count (l + 1)) * 2 ^ (32 - (l + 1)) < 2 ^ (l + 1) * 2 ^ (32 - (l + 1)) := by
    rw [Nat.add_mul, ← h32]; omega
  exact Nat.lt_of_mul_lt_mul_right this

theorem startChecked_eq (i : Nat) (hi : i ≤ maxLen lens) : ∃ next, startChecked (blCount lens) i = .ok (firstCode lens i, next) ∧
    ∀ l, 1 ≤ l → l ≤ i → next l = firstCode lens l := by
  match i, hi with
  | 0, _ => exact ⟨fun _ => 0, rfl, fun l h1 h2 => by omega⟩
  | 1, _ =>
    refine ⟨fun _ => 0, rfl, fun l h1 h2 => ?_⟩
    obtain rfl : l = 1 := by omega
    rfl
  | i + 2, hi =>
    obtain ⟨next, h1, h2⟩ := startChecked_eq (i + 1) (by omega)
    have hlt := first_count_lt hK hM (by omega : 1 ≤ i + 1) (by omega)
    have hp : 2 ^ (i + 1) * 2 ≤ 2 ^ 32 := by rw [← Nat.pow_succ]; exact Nat.pow_le_pow_right (by decide) (by omega)
    rw [startChecked, h1]
    simp only [blCount_eq]
    have hm1 : (firstCode lens (i + 1) + lens.count (i + 1)) % 2 ^ 32 = firstCode lens (i + 1) + lens.count (i + 1) :=
      Nat.mod_eq_of_lt (by omega)
    have hm2 : (firstCode lens (i + 1) + lens.count (i + 1)) * 2 % 2 ^ 32 = firstCode lens (i + 2) := by
      rw [Nat.mod_eq_of_lt (by omega), firstCode, Nat.mul_comm]
    rw [hm1, hm2, if_neg (by omega), if_neg (by rw [firstCode]; omega)]
    refine ⟨_, rfl, fun l h3 h4 => ?_⟩
    rw [put]
    split
    · rename_i h; rw [h]
    · exact h2 l h3 (by omega)

theorem startCodes_eq (i : Nat) (hi : i ≤ maxLen lens) : startCodes (blCount lens) i = firstCode lens i := by
  match i, hi with
  | 0, _ => rfl
  | 1, _ => rfl
  | i + 2, hi =>
    have hlt := first_count_lt hK hM (by omega : 1 ≤ i + 1) (by omega)
    have hp : 2 ^ (i + 1) * 2 ≤ 2 ^ 32 := by rw [← Nat.pow_succ]; exact Nat.pow_le_pow_right (by decide) (by omega)
    rw [startCodes, startCodes_eq (i + 1) (by omega), blCount_eq, firstCode, Nat.mod_eq_of_lt (by omega), Nat.mul_comm]

theorem codeNum_lt {s : Nat} (hs : lens.getD s 0 ≠ 0) : codeNum lens s < 2 ^ lens.getD s 0 := by
  have hsl : s < lens.length := by
    by_contra hc
    rw [List.getD_eq_getElem?_getD, List.getElem?_eq_none (by omega)] at hs
    exact hs rfl
  have hmem : lens.getD s 0 ∈ lens := by
    rw [List.getD_eq_getElem?_getD, List.getElem?_eq_getElem hsl]
    exact List.getElem_mem hsl
  have h1 := first_count_le hK hM (l := lens.getD s 0) (by omega) (Nat.le_trans (le_maxLen hmem) hM)
  have h2 : (lens.take s).count (lens.getD s 0) < lens.count (lens.getD s 0) := by
    have e : lens.count (lens.getD s 0) = (lens.take s).count (lens.getD s 0) + (lens.drop s).count (lens.getD s 0) := by
      rw [← List.count_append, List.take_append_drop]
    have : 0 < (lens.drop s).count (lens.getD s 0) := by
      rw [List.count_pos_iff, List.getD_eq_getElem?_getD, List.getElem?_eq_getElem hsl, List.drop_eq_getElem_cons hsl]
      exact List.mem_cons_self
    omega
  unfold codeNum
  omega

end

/-! ## Handing out the codes -/

theorem assignCodes_get (lens : List Nat) (next : Nat → Nat) (s l : Nat) (h : lens[s]? = some l) (hl : l ≠ 0) :
    (assignCodes next lens)[s]? = some ⟨bitReverse (next l + (lens.take s).count l) >>> (32 - l), l⟩ := by
  induction lens generalizing next s with
  | nil => cases h
  | cons x lens ih =>
    cases s with
    | zero =>
      cases h
      rw [assignCodes, if_pos hl]
      rfl
    | succ s =>
      rw [List.getElem?_cons_succ] at h
      rw [assignCodes]
      split
      · rename_i hx
        rw [List.getElem?_cons_succ, ih (tick next x) s h, tick, List.take_succ_cons, List.count_cons]
        by_cases hlx : l = x
        · subst hlx
          simp only [if_true, beq_self_eq_true]
          rw [show next l + 1 + (lens.take s).count l = next l + ((lens.take s).count l + 1) by omega]
        · have : ¬ x = l := fun e => hlx e.symm
          simp [hlx, this]
      · rename_i hx
        simp only [ne_eq, Decidable.not_not] at hx
        rw [List.getElem?_cons_succ, ih next s h, List.take_succ_cons, List.count_cons, hx]
        have : ¬ 0 = l := fun e => hl e.symm
        simp [this]

/-- The entries of length `l`, numbered from `c`. -/
def blk (l : Nat) : Nat → Nat → List Nat → List Info
  | _, _, [] => []
  | c, i, x :: xs => if x = l then ⟨normalize c l, l, i⟩ :: blk l (c + 1) (i + 1) xs else blk l c (i + 1) xs

theorem flatMap_insert {α β : Type} [DecidableEq α] (f g : α → List β) (x : α) (e : β) (L : List α) (hx : x ∈ L) (hn : L.Nodup)
    (h1 : f x = e :: g x) (h2 : ∀ l, l ≠ x → f l = g l) : (L.flatMap f).Perm (e :: L.flatMap g) := by
  induction L with
  | nil => cases hx
  | cons y L ih =>
    rw [List.flatMap_cons, List.flatMap_cons]
    have hn' := List.nodup_cons.1 hn
    by_cases hy : y = x
    · subst hy
      rw [h1, List.cons_append]
      have : L.flatMap f = L.flatMap g := by
        rw [List.flatMap_def, List.flatMap_def]
        congr 1
        apply List.map_congr_left
        intro l hl
        exact h2 l (fun e => hn'.1 (e ▸ hl))
      rw [this]
    · rw [h2 y hy]
      have hx' : x ∈ L := (List.mem_cons.1 hx).resolve_left (fun e => hy e.symm)
      exact (List.Perm.append_left _ (ih hx' hn'.2)).trans List.perm_middle

theorem assignInfos_perm (M : Nat) (lens : List Nat) (next : Nat → Nat) (i : Nat) (h : ∀ l ∈ lens, l ≤ M) :
    (assignInfos next i lens).Perm ((List.range' 1 M).flatMap fun l => blk l (next l) i lens) := by
  induction lens generalizing next i with
  | nil => simp [assignInfos, blk]
  | cons x lens ih =>
    have h' : ∀ l ∈ lens, l ≤ M := fun l hl => h l (List.mem_cons_of_mem _ hl)
    rw [assignInfos]
    split
    · rename_i hx
      refine ((ih (tick next x) (i + 1) h').cons _).trans (List.Perm.symm ?_)
      apply flatMap_insert (x := x)
      · rw [List.mem_range'_1]
        have := h x List.mem_cons_self
        omega
      · exact List.nodup_range'
      · rw [blk, if_pos rfl, tick, if_pos rfl]
      · intro l hl
        rw [blk, if_neg (fun e => hl e.symm), tick, if_neg hl]
    · rename_i hx
      simp only [ne_eq, Decidable.not_not] at hx
      refine (ih next (i + 1) h').trans ?_
      rw [List.flatMap_def, List.flatMap_def]
      rw [List.map_congr_left]
      intro l hl
      rw [blk, if_neg]
      have := (List.mem_range'_1.1 hl).1
      omega

/-- Consecutive codes from `c` to `c'`, of lengths from `l` on. -/
def Chain : Nat → Nat → List Info → Nat → Prop
  | c, _, [], c' => c = c'
  | c, l, e :: T, c' => e.code = c ∧ l ≤ e.len ∧ e.len ≤ 32 ∧ Chain (c + 2 ^ (32 - e.len)) e.len T c'

theorem Chain.append {c l c' l' c'' : Nat} {A B : List Info} (hA : Chain c l A c') (ha : ∀ a ∈ A, a.len ≤ l') (hl : l ≤ l')
    (hB : Chain c' l' B c'') : Chain c l (A ++ B) c'' := by
  induction A generalizing c l with
  | nil =>
    cases hA
    cases B with
    | nil => exact hB
    | cons b B => exact ⟨hB.1, Nat.le_trans hl hB.2.1, hB.2.2⟩
  | cons a A ih =>
    exact ⟨hA.1, hA.2.1, hA.2.2.1, ih hA.2.2.2 (fun x hx => ha x (List.mem_cons_of_mem _ hx)) (ha a List.mem_cons_self)⟩

theorem Chain.get {c l c' : Nat} {T : List Info} (h : Chain c l T c') : (∀ e, T[0]? = some e → e.code = c) ∧
    (∀ k e f, T[k]? = some e → T[k + 1]? = some f → f.code = e.code + 2 ^ (32 - e.len) ∧ e.len ≤ f.len) ∧
    (∀ e ∈ T, l ≤ e.len ∧ e.len ≤ 32) ∧ (∀ e ∈ T, c ≤ e.code ∧ e.code + 2 ^ (32 - e.len) ≤ c') ∧ c ≤ c' := by
  induction T generalizing c l with
  | nil => exact ⟨fun _ h => (nomatch h), fun _ _ _ h => (nomatch h), fun _ h => (nomatch h), fun _ h => (nomatch h), Nat.le_of_eq h⟩
  | cons a T ih =>
    obtain ⟨h1, h2, h3, h4⟩ := h
    obtain ⟨i1, i2, i3, i4, i5⟩ := ih h4
    refine ⟨fun e he => by cases he; exact h1, ?_, ?_, ?_, Nat.le_trans (Nat.le_add_right _ _) i5⟩
    · intro k e f he hf
      cases k with
      | zero =>
        cases he
        rw [List.getElem?_cons_succ] at hf
        exact ⟨by rw [i1 f hf, h1], (i3 f (List.mem_of_getElem? hf)).1⟩
      | succ k => exact i2 k e f he hf
    · intro e he
      rcases List.mem_cons.1 he with rfl | he
      · exact ⟨h2, h3⟩
      · exact ⟨Nat.le_trans h2 (i3 e he).1, (i3 e he).2⟩
    · intro e he
      rcases List.mem_cons.1 he with rfl | he
      · exact ⟨h1.ge, by rw [h1]; exact i5⟩
      · exact ⟨Nat.le_trans (Nat.le_add_right _ _) (i4 e he).1, (i4 e he).2⟩

theorem blk_len (l c i : Nat) (lens : List Nat) : ∀ e ∈ blk l c i lens, e.len = l := by
  induction lens generalizing c i with
  | nil => intro e he; cases he
  | cons x lens ih =>
    intro e he
    rw [blk] at he
    split at he
    · rcases List.mem_cons.1 he with rfl | he
      · rfl
      · exact ih _ _ e he
    · exact ih _ _ e he

theorem normalize_eq {c l : Nat} (h : c < 2 ^ l) (hl : l ≤ 32) : normalize c l = c * 2 ^ (32 - l) := by
  rw [normalize, Nat.shiftLeft_eq, Nat.mod_eq_of_lt]
  calc c * 2 ^ (32 - l) < 2 ^ l * 2 ^ (32 - l) := Nat.mul_lt_mul_of_pos_right h (Nat.two_pow_pos _)
    _ = 2 ^ 32 := by rw [← Nat.pow_add]; congr 1; omega

theorem blk_chain (l c i : Nat) (lens : List Nat) (hl : l ≤ 32) (h : c + lens.count l ≤ 2 ^ l) :
    Chain (c * 2 ^ (32 - l)) l (blk l c i lens) ((c + lens.count l) * 2 ^ (32 - l)) := by
  induction lens generalizing c i with
  | nil => simp [blk, Chain]
  | cons x lens ih =>
    rw [List.count_cons] at h ⊢
    rw [blk]
    by_cases hx : x = l
    · simp only [hx, beq_self_eq_true, if_true] at h ⊢
      have hc : c < 2 ^ l := by omega
      refine ⟨normalize_eq hc hl, Nat.le_refl _, hl, ?_⟩
      have := ih (c + 1) (i + 1) (by omega)
      rw [show c * 2 ^ (32 - l) + 2 ^ (32 - l) = (c + 1) * 2 ^ (32 - l) by ring,
        show c + (lens.count l + 1) = c + 1 + lens.count l by omega]
      exact this
    · have hb : (x == l) = false := by simp [hx]
      simp only [hb, hx, if_false, Bool.false_eq_true, Nat.add_zero] at h ⊢
      exact ih c (i + 1) h

theorem all_chain {lens : List Nat} (hK : kraft 32 lens ≤ 2 ^ 32) (hM : maxLen lens ≤ 32) (next : Nat → Nat)
    (hn : ∀ l, 1 ≤ l → l ≤ maxLen lens → next l = firstCode lens l) (n : Nat) :
    ∀ l, 1 ≤ l → l + n = maxLen lens + 1 →
      Chain (firstCode lens l * 2 ^ (32 - l)) l ((List.range' l n).flatMap fun l => blk l (next l) 0 lens) (if n = 0 then firstCode lens l * 2 ^ (32 - l) else kraft 32 lens) := by
  induction n with
  | zero => intro l _ _; simp [Chain]
  | succ n ih =>
    intro l h1 h2
    rw [List.range'_succ, List.flatMap_cons, hn l h1 (by omega), if_neg (by omega)]
    have hb := blk_chain l (firstCode lens l) 0 lens (by omega) (first_count_le hK hM h1 (by omega))
    have h3 := ih (l + 1) (by omega) (by omega)
    refine Chain.append hb (fun a ha => Nat.le_succ_of_le (Nat.le_of_eq (blk_len _ _ _ _ a ha))) (Nat.le_succ l) ?_
    obtain ⟨k, rfl⟩ : ∃ k, l = k + 1 := ⟨l - 1, by omega⟩
    have ht := first_tail lens k (by omega)
    rw [tailSum_succ] at ht
    by_cases hn0 : n = 0
    · subst hn0
      have : tailSum lens (k + 1 + 1) = 0 := tailSum_top fun x hx => by have := le_maxLen hx; omega
      rw [this, Nat.add_zero (List.count _ _ * _), ← Nat.add_mul] at ht
      simpa [Chain] using ht
    · rw [if_neg hn0] at h3
      have e : firstCode lens (k + 1 + 1) * 2 ^ (32 - (k + 1 + 1)) = (firstCode lens (k + 1) + lens.count (k + 1)) * 2 ^ (32 - (k + 1)) := by
        have e2 : 2 ^ (32 - (k + 1)) = 2 * 2 ^ (32 - (k + 1 + 1)) := by
          rw [← Nat.pow_succ']; congr 1; omega
        rw [firstCode, e2]; ring
      rw [← e]
      exact h3

/-! ## Sorting -/

theorem insertInfo_perm (e : Info) (l : List Info) : (insertInfo e l).Perm (e :: l) := by
  induction l with
  | nil => exact .refl _
  | cons f l ih =>
    rw [insertInfo]
    split
    · exact .refl _
    · exact (ih.cons f).trans (.swap _ _ _)

theorem sortInfos_perm (l : List Info) : (sortInfos l).Perm l := by
  induction l with
  | nil => exact .refl _
  | cons e l ih => exact (insertInfo_perm e _).trans (ih.cons e)

theorem insertInfo_sorted (e : Info) (l : List Info) (h : l.Pairwise fun a b => a.code ≤ b.code) :
    (insertInfo e l).Pairwise fun a b => a.code ≤ b.code := by
  induction l with
  | nil => exact List.pairwise_singleton _ _
  | cons f l ih =>
    rw [insertInfo]
    have h' := List.pairwise_cons.1 h
    split
    · rename_i hlt
      refine List.pairwise_cons.2 ⟨fun a ha => ?_, h⟩
      rcases List.mem_cons.1 ha with rfl | ha
      · omega
      · have := h'.1 a ha; omega
    · rename_i hlt
      refine List.pairwise_cons.2 ⟨fun a ha => ?_, ih h'.2⟩
      rcases List.mem_cons.1 ((insertInfo_perm e l).subset ha) with rfl | ha
      · omega
      · exact h'.1 a ha

theorem sortInfos_sorted (l : List Info) : (sortInfos l).Pairwise fun a b => a.code ≤ b.code := by
  induction l with
  | nil => exact .nil
  | cons e l ih => exact insertInfo_sorted e _ ih

theorem Contig.strict {T : List Info} (h : Contig T) : T.Pairwise fun a b => a.code < b.code := by
  rw [List.pairwise_iff_getElem]
  intro i j hi hj hij
  have := (h.mono' hij (List.getElem?_eq_getElem hi) (List.getElem?_eq_getElem hj)).1
  have := Nat.two_pow_pos (32 - T[i].len)
  omega

/-- Sorting a rearrangement of a table of consecutive codes gives that table. -/
theorem sortInfos_eq {l T : List Info} (h : Contig T) (hp : l.Perm T) : sortInfos l = T := by
  have hs := h.strict
  refine List.Perm.eq_of_pairwise (le := fun a b => a.code ≤ b.code) ?_ (sortInfos_sorted l) (hs.imp Nat.le_of_lt) ((sortInfos_perm l).trans hp)
  intro a b ha hb h1 h2
  have ha' : a ∈ T := ((sortInfos_perm l).trans hp).subset ha
  obtain ⟨i, hi, rfl⟩ := List.mem_iff_getElem.1 ha'
  obtain ⟨j, hj, rfl⟩ := List.mem_iff_getElem.1 hb
  rw [List.pairwise_iff_getElem] at hs
  rcases Nat.lt_trichotomy i j with hij | hij | hij
  · have := hs i j hi hj hij; omega
  · subst hij; rfl
  · have := hs j i hj hi hij; omega

end Verif.Flate
