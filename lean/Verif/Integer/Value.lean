/-!
# Word arrays as numbers

Independent vocabulary for multi-precision integers: the number written by an array of words, least significant word
first, in base `B`.
-/
namespace Verif.Integer

/-- The number written by the words `ws` in base `B`, least significant word first. -/
def wval (B : Nat) : List Nat → Nat
  | [] => 0
  | w :: ws => w + B * wval B ws

/-- Every word is a digit in base `B`. -/
def Words (B : Nat) (ws : List Nat) : Prop := ∀ w ∈ ws, w < B

theorem Words.nil {B : Nat} : Words B [] := by intro w h; cases h

theorem Words.cons {B w : Nat} {ws : List Nat} (h : w < B) (hs : Words B ws) : Words B (w :: ws) := by
  intro x hx
  rcases List.mem_cons.mp hx with rfl | hx
  · exact h
  · exact hs x hx

theorem Words.head {B w : Nat} {ws : List Nat} (h : Words B (w :: ws)) : w < B := h w (List.mem_cons_self ..)

theorem Words.tail {B w : Nat} {ws : List Nat} (h : Words B (w :: ws)) : Words B ws :=
  fun x hx => h x (List.mem_cons_of_mem _ hx)

theorem Words.append {B : Nat} {as bs : List Nat} (h : Words B as) (k : Words B bs) : Words B (as ++ bs) := by
  intro x hx
  rcases List.mem_append.mp hx with hx | hx
  · exact h x hx
  · exact k x hx

theorem Words.left {B : Nat} {as bs : List Nat} (h : Words B (as ++ bs)) : Words B as :=
  fun x hx => h x (List.mem_append_left _ hx)

theorem Words.right {B : Nat} {as bs : List Nat} (h : Words B (as ++ bs)) : Words B bs :=
  fun x hx => h x (List.mem_append_right _ hx)

theorem Words.take {B : Nat} {as : List Nat} (h : Words B as) (n : Nat) : Words B (as.take n) :=
  fun x hx => h x (List.mem_of_mem_take hx)

theorem Words.drop {B : Nat} {as : List Nat} (h : Words B as) (n : Nat) : Words B (as.drop n) :=
  fun x hx => h x (List.mem_of_mem_drop hx)

theorem Words.replicate {B : Nat} (hB : 0 < B) (n : Nat) : Words B (List.replicate n 0) := by
  intro x hx
  rw [(List.mem_replicate.mp hx).2]
  exact hB

theorem Words.getD {B : Nat} (hB : 0 < B) {as : List Nat} (h : Words B as) (n : Nat) : as.getD n 0 < B := by
  rw [List.getD_eq_getElem?_getD]
  rcases Nat.lt_or_ge n as.length with hn | hn
  · rw [List.getElem?_eq_getElem hn]; exact h _ (List.getElem_mem hn)
  · rw [List.getElem?_eq_none hn]; exact hB

theorem wval_append (B : Nat) (as bs : List Nat) : wval B (as ++ bs) = wval B as + B ^ as.length * wval B bs := by
  induction as with
  | nil => simp [wval]
  | cons a as ih =>
    simp only [List.cons_append, wval, ih, List.length_cons, Nat.pow_succ, Nat.mul_add]
    rw [← Nat.mul_assoc, Nat.mul_comm (B ^ as.length) B]
    omega

theorem wval_lt {B : Nat} {as : List Nat} (h : Words B as) : wval B as < B ^ as.length := by
  induction as with
  | nil => simp [wval]
  | cons a as ih =>
    have h1 := h.head
    have h2 := ih h.tail
    simp only [wval, List.length_cons, Nat.pow_succ]
    have h3 : B * wval B as + B ≤ B * B ^ as.length := by
      have := Nat.mul_le_mul_left B (Nat.succ_le_of_lt h2)
      rw [Nat.mul_succ] at this
      exact this
    rw [Nat.mul_comm (B ^ as.length)]
    omega

@[simp] theorem wval_zeros (B n : Nat) : wval B (List.replicate n 0) = 0 := by
  induction n with
  | zero => rfl
  | succ n ih => simp [List.replicate_succ, wval, ih]

theorem wval_take_drop (B : Nat) (as : List Nat) (n : Nat) (hn : n ≤ as.length) :
    wval B as = wval B (as.take n) + B ^ n * wval B (as.drop n) := by
  conv => lhs; rw [← List.take_append_drop n as]
  rw [wval_append, List.length_take, Nat.min_eq_left hn]

/-- Arrays of digits of the same length that write the same number are equal. -/
theorem wval_inj {B : Nat} {as bs : List Nat} (ha : Words B as) (hb : Words B bs) (hl : as.length = bs.length)
    (h : wval B as = wval B bs) : as = bs := by
  induction as generalizing bs with
  | nil => cases bs with
    | nil => rfl
    | cons _ _ => cases hl
  | cons a as ih =>
    cases bs with
    | nil => cases hl
    | cons b bs =>
      simp only [wval] at h
      have h1 := ha.head
      have h2 := hb.head
      have hB : 0 < B := by omega
      have e1 : a = b := by
        have := congrArg (· % B) h
        simp only [Nat.add_mul_mod_self_left, Nat.mod_eq_of_lt h1, Nat.mod_eq_of_lt h2] at this
        exact this
      subst e1
      have e2 : wval B as = wval B bs := by
        have := Nat.add_left_cancel h
        exact Nat.eq_of_mul_eq_mul_left hB this
      rw [ih ha.tail hb.tail (by simpa using hl) e2]

end Verif.Integer
