import Verif.Ida.Model

/-! # PaddingRemover -/
namespace Verif.Ida

/-- Padded: some bytes, `1`, then zeros. -/
def Padded (d : List Byte) : Prop := ∃ a z, d = a ++ 1 :: List.replicate z 0

/-- A cut between two pieces at which the `1` of the padding is the first nonzero byte after a `1` in the pieces before. -/
def BadCut (pieces : List (List Byte)) : Prop :=
  ∃ pre suf, pieces = pre ++ suf ∧ Padded pre.flatten ∧ ∃ b z, suf.flatten = List.replicate b 0 ++ 1 :: List.replicate z 0

theorem badCut_single (q : List Byte) : ¬ BadCut [q] := by
  rintro ⟨pre, suf, he, ⟨a, z, hp⟩, b, z', hs⟩
  cases pre with
  | nil => simp at hp
  | cons x pre =>
    have : suf = [] := by
      have := congrArg List.length he
      simp only [List.length_append, List.length_cons, List.length_nil] at this
      exact List.length_eq_zero_iff.mp (by omega)
    rw [this] at hs; simp at hs

theorem zeros_eq (l : List Byte) (h : ∀ x ∈ l, x = 0) : l = List.replicate l.length 0 := List.eq_replicate_iff.mpr ⟨rfl, h⟩

/-- A list is a part that is empty or ends in a nonzero byte, and zeros. -/
theorem split_zeros (bs : List Byte) : let z := (bs.reverse.takeWhile (· == 0)).length
    bs = bs.take (bs.length - z) ++ List.replicate z 0 ∧ (∀ x, (bs.take (bs.length - z)).getLast? = some x → x ≠ 0) := by
  intro z
  have h1 := List.takeWhile_append_dropWhile (p := (· == (0 : Byte))) (l := bs.reverse)
  have h2 : bs = (bs.reverse.dropWhile (· == 0)).reverse ++ (bs.reverse.takeWhile (· == 0)).reverse := by
    rw [← List.reverse_append, h1, List.reverse_reverse]
  have h3 : (bs.reverse.takeWhile (· == 0)).reverse = List.replicate z 0 := by
    have := zeros_eq (bs.reverse.takeWhile (· == 0)).reverse (by
      intro x hx
      have := List.all_takeWhile (p := (· == (0 : Byte))) (l := bs.reverse)
      rw [List.all_eq_true] at this
      simpa using this x (List.mem_reverse.mp hx))
    rwa [List.length_reverse] at this
  have h4 : bs.take (bs.length - z) = (bs.reverse.dropWhile (· == 0)).reverse := by
    conv => lhs; rw [h2]
    have : bs.length - z = (bs.reverse.dropWhile (· == 0)).reverse.length := by
      have := congrArg List.length h1
      simp only [List.length_append, List.length_reverse] at this
      rw [List.length_reverse]; omega
    rw [List.take_append_of_le_length (by rw [← h2]; omega)]
    rw [← h2, this, List.take_length]
  refine ⟨by rw [h4, ← h3, ← h2], ?_⟩
  intro x hx
  rw [h4, List.getLast?_reverse] at hx
  have := List.head?_dropWhile_not (· == (0 : Byte)) bs.reverse
  rw [hx] at this
  simpa using this

/-- The last nonzero byte decides. -/
theorem padded_last {a : List Byte} {x : Byte} {z : Nat} (hx : x ≠ 0) (h : Padded (a ++ x :: List.replicate z 0)) : x = 1 := by
  obtain ⟨b, y, h⟩ := h
  have h' := congrArg List.reverse h
  simp only [List.reverse_append, List.reverse_cons, List.reverse_replicate, List.append_assoc, List.cons_append, List.nil_append] at h'
  clear h
  induction z generalizing y with
  | zero =>
    cases y with
    | zero => simpa using (List.cons.inj h').1
    | succ y => rw [List.replicate_succ] at h'; exact absurd (List.cons.inj h').1 hx
  | succ z ih =>
    cases y with
    | zero => rw [List.replicate_succ] at h'; exact absurd (List.cons.inj h').1 (by decide)
    | succ y => rw [List.replicate_succ, List.replicate_succ] at h'; exact ih y (List.cons.inj h').2

theorem padded_unique {a b : List Byte} {y z : Nat} (h : a ++ 1 :: List.replicate y 0 = b ++ 1 :: List.replicate z (0 : Byte)) : a = b := by
  have h' := congrArg List.reverse h
  simp only [List.reverse_append, List.reverse_cons, List.reverse_replicate, List.append_assoc, List.cons_append, List.nil_append] at h'
  clear h
  induction y generalizing z with
  | zero =>
    cases z with
    | zero => simpa using h'
    | succ z => rw [List.replicate_succ] at h'; exact absurd (List.cons.inj h').1 (by decide)
  | succ y ih =>
    cases z with
    | zero => rw [List.replicate_succ] at h'; exact absurd (List.cons.inj h').1 (by decide)
    | succ z => rw [List.replicate_succ, List.replicate_succ] at h'; exact ih (List.cons.inj h').2

theorem padded_zeros {d : List Byte} {k : Nat} (h : Padded (d ++ List.replicate k 0)) : Padded d := by
  obtain ⟨hd, hl⟩ := split_zeros d
  cases hb : (d.take (d.length - (d.reverse.takeWhile (· == 0)).length)).getLast? with
  | none =>
    rw [List.getLast?_eq_none_iff.mp hb, List.nil_append] at hd
    rw [hd, List.replicate_append_replicate] at h
    obtain ⟨a, z, h⟩ := h
    have : (1 : Byte) ∈ List.replicate ((d.reverse.takeWhile (· == 0)).length + k) (0 : Byte) := by rw [h]; simp
    exact absurd (List.eq_of_mem_replicate this) (by decide)
  | some x =>
    have hx := hl x hb
    obtain ⟨l, hl'⟩ := List.getLast?_eq_some_iff.mp hb
    rw [hl', List.append_assoc, List.singleton_append] at hd
    rw [hd, List.append_assoc, List.cons_append, List.replicate_append_replicate] at h
    have := padded_last hx h
    subst this
    exact ⟨_, _, hd⟩

/-- The state of the remover after some pieces. -/
structure PInv (p : PR) (pieces : List (List Byte)) : Prop where
  all : p.out ++ (if p.possible then 1 :: List.replicate p.zeros 0 else []) = pieces.flatten
  missed : p.possible = false → Padded pieces.flatten → BadCut pieces

/-- The tail of `Put2`, `D` having been put out before. -/
theorem tail_spec (p : PR) (hp : p.possible = false) (D bs : List Byte) (hout : p.out = D) :
    let p' := p.tail bs
    p'.out ++ (if p'.possible then 1 :: List.replicate p'.zeros 0 else []) = D ++ bs ∧
      (p'.possible = false → Padded (D ++ bs) → bs = List.replicate bs.length 0) := by
  intro p'
  obtain ⟨h1, h2⟩ := split_zeros bs
  have hp' : p' = p.tail bs := rfl
  unfold PR.tail at hp'
  simp only at hp'
  split at hp'
  · rename_i hg
    rw [hp']
    refine ⟨?_, fun h => by cases h⟩
    simp only [if_true]
    obtain ⟨l, hl⟩ := List.getLast?_eq_some_iff.mp hg
    rw [hl, List.dropLast_concat, hout]
    conv => rhs; rw [h1, hl]
    simp
  · rename_i hg
    rw [hp']
    simp only [hp, Bool.false_eq_true, if_false, List.append_nil]
    refine ⟨by rw [hout], fun _ hpad => ?_⟩
    cases hb : (bs.take (bs.length - (bs.reverse.takeWhile (· == 0)).length)).getLast? with
    | none =>
      rw [List.getLast?_eq_none_iff.mp hb, List.nil_append] at h1
      apply zeros_eq
      intro x hx
      rw [h1] at hx
      exact List.eq_of_mem_replicate hx
    | some x =>
      exfalso
      obtain ⟨l, hl⟩ := List.getLast?_eq_some_iff.mp hb
      rw [h1, hl, List.append_assoc, List.singleton_append, ← List.append_assoc] at hpad
      have := padded_last (h2 x hb) hpad
      subst this
      exact hg hb

theorem badCut_append {pieces : List (List Byte)} (h : BadCut pieces) (k : Nat) : BadCut (pieces ++ [List.replicate k 0]) := by
  obtain ⟨pre, suf, he, hp, b, z, hs⟩ := h
  refine ⟨pre, suf ++ [List.replicate k 0], by rw [he, List.append_assoc], hp, b, z + k, ?_⟩
  rw [List.flatten_append, hs, ← List.replicate_append_replicate]; simp

theorem put_inv {p : PR} {pieces : List (List Byte)} (h : PInv p pieces) (bs : List Byte) : PInv (p.put bs) (pieces ++ [bs]) := by
  have hfl : (pieces ++ [bs]).flatten = pieces.flatten ++ bs := by simp
  unfold PR.put
  cases hp : p.possible with
  | false =>
    simp only [Bool.false_eq_true, if_false]
    have hall := h.all
    rw [hp] at hall
    simp only [Bool.false_eq_true, if_false, List.append_nil] at hall
    obtain ⟨h1, h2⟩ := tail_spec p hp pieces.flatten bs hall
    refine ⟨by rw [hfl]; exact h1, fun hf hpad => ?_⟩
    rw [hfl] at hpad
    have hz := h2 hf hpad
    rw [hz] at hpad ⊢
    exact badCut_append (h.missed hp (padded_zeros hpad)) _
  | true =>
    simp only [if_true]
    have hall := h.all
    rw [hp] at hall
    simp only [if_true] at hall
    have hz : bs.takeWhile (· == 0) = List.replicate (bs.takeWhile (· == 0)).length 0 := zeros_eq _ (by
      intro x hx
      have := List.all_takeWhile (p := (· == (0 : Byte))) (l := bs)
      rw [List.all_eq_true] at this
      simpa using this x hx)
    have hsplit := List.takeWhile_append_dropWhile (p := (· == (0 : Byte))) (l := bs)
    have hdrop : bs.drop (bs.takeWhile (· == 0)).length = bs.dropWhile (· == 0) := by
      conv => lhs; rw [← hsplit]
      rw [List.takeWhile_append_dropWhile, ]
      conv => lhs; arg 2; rw [← hsplit]
      exact List.drop_left
    rw [hdrop]
    cases hd : bs.dropWhile (· == 0) with
    | nil =>
      rw [hd, List.append_nil] at hsplit
      refine ⟨?_, fun hf => ?_⟩
      · simp only [if_true]
        rw [hfl, ← hall, ← List.replicate_append_replicate, ← hz]
        conv => rhs; rw [← hsplit]
        simp
      · cases hf
    | cons b rest =>
      have hbs : bs = List.replicate (bs.takeWhile (· == 0)).length 0 ++ b :: rest := by rw [← hz, ← hd, hsplit]
      have hb0 : b ≠ 0 := by
        have := List.head?_dropWhile_not (· == (0 : Byte)) bs
        rw [hd] at this
        simpa using this
      simp only
      have hout : p.out ++ 1 :: List.replicate (p.zeros + (bs.takeWhile (· == 0)).length) 0 ++ [b] = pieces.flatten ++ (List.replicate (bs.takeWhile (· == 0)).length 0 ++ [b]) := by
        rw [← hall, ← List.replicate_append_replicate]; simp only [List.append_assoc, List.cons_append]
      obtain ⟨h1, h2⟩ := tail_spec ⟨false, p.zeros + (bs.takeWhile (· == 0)).length, p.out ++ 1 :: List.replicate (p.zeros + (bs.takeWhile (· == 0)).length) 0 ++ [b]⟩ rfl _ rest hout
      have e : pieces.flatten ++ (List.replicate (bs.takeWhile (· == 0)).length 0 ++ [b]) ++ rest = pieces.flatten ++ bs := by
        conv => rhs; rw [hbs]
        simp
      rw [e] at h1 h2
      refine ⟨by rw [hfl]; exact h1, fun hf hpad => ?_⟩
      rw [hfl] at hpad
      have hz' := h2 hf hpad
      have hbs' : pieces.flatten ++ bs = (pieces.flatten ++ List.replicate (bs.takeWhile (· == 0)).length 0) ++ b :: List.replicate rest.length 0 := by
        rw [← hz', List.append_assoc, ← hbs]
      rw [hbs'] at hpad
      have hb1 := padded_last hb0 hpad
      refine ⟨pieces, [bs], rfl, ⟨p.out, p.zeros, hall.symm⟩, (bs.takeWhile (· == 0)).length, rest.length, ?_⟩
      simp only [List.flatten_cons, List.flatten_nil, List.append_nil]
      rw [← hb1, ← hz', ← hbs]

theorem foldl_inv (pieces : List (List Byte)) : ∀ (p : PR) (old : List (List Byte)), PInv p old → PInv (pieces.foldl PR.put p) (old ++ pieces) := by
  induction pieces with
  | nil => intro p old h; simpa using h
  | cons bs l ih =>
    intro p old h
    have := ih (p.put bs) (old ++ [bs]) (put_inv h bs)
    simpa using this

/-- The padding is removed unless the pieces have a bad cut. -/
theorem removePadding_exact (pieces : List (List Byte)) (m : List Byte) (z : Nat) (h : pieces.flatten = m ++ 1 :: List.replicate z 0)
    (hb : ¬ BadCut pieces) : removePadding pieces = m := by
  have := foldl_inv pieces PR.init [] ⟨rfl, fun _ ⟨a, z, h⟩ => by simp at h⟩
  rw [List.nil_append] at this
  unfold removePadding
  cases hp : (pieces.foldl PR.put PR.init).possible with
  | false => exact absurd (this.missed hp ⟨m, z, h⟩) hb
  | true =>
    have hall := this.all
    rw [hp, h] at hall
    simp only [if_true] at hall
    exact padded_unique hall

end Verif.Ida
