import Verif.Integer.ArrModel
import Verif.Integer.ArrProofs
import Mathlib.Tactic.Ring
import Mathlib.Tactic.Linarith

/-!
# Word memory for the multiplication and division routines of integer.cpp

Those routines take raw `word *` pointers into two or three buffers and reuse parts of the destination and of the workspace
as temporaries.  They are modelled on a flat memory of words, addressed by word index.  The array routines they call
(`Add`, `Subtract`, `Increment`, ...) are the list functions of `ArrModel.lean` applied to the words read from memory; the
result is written back afterwards.  That is faithful because every call made by the modelled code has a destination that
is equal to or disjoint from each operand and the loops read index `i` before writing index `i`.
-/
namespace Verif.Integer

/-- Memory: word address to word. -/
abbrev WMem := Nat → Nat

/-- Every word fits the machine word. -/
def AllW (B : Nat) (m : WMem) : Prop := ∀ x, m x < B

/-- The `n` words at `a`. -/
def loadW (m : WMem) (a : Nat) : Nat → List Nat
  | 0 => []
  | n + 1 => m a :: loadW m (a + 1) n

/-- Overwrite the words at `a`. -/
def storeW (m : WMem) (a : Nat) (ws : List Nat) : WMem :=
  fun x => if a ≤ x ∧ x < a + ws.length then ws.getD (x - a) 0 else m x

/-- Write one word. -/
def setW (m : WMem) (a v : Nat) : WMem := fun x => if x = a then v else m x

/-- The number held by the `n` words at `a`, least significant word first. -/
def mval (B : Nat) (m : WMem) (a n : Nat) : Nat := wval B (loadW m a n)

@[simp] theorem loadW_length (m : WMem) (a n : Nat) : (loadW m a n).length = n := by
  induction n generalizing a with
  | zero => rfl
  | succ n ih => simp [loadW, ih]

theorem loadW_words {B : Nat} {m : WMem} (h : AllW B m) (a n : Nat) : Words B (loadW m a n) := by
  induction n generalizing a with
  | zero => exact Words.nil
  | succ n ih => exact Words.cons (h a) (ih _)

theorem loadW_congr {m m' : WMem} {a n : Nat} (h : ∀ x, a ≤ x → x < a + n → m' x = m x) : loadW m' a n = loadW m a n := by
  induction n generalizing a with
  | zero => rfl
  | succ n ih =>
    simp only [loadW]
    rw [h a (Nat.le_refl _) (by omega), ih (fun x h1 h2 => h x (by omega) (by omega))]

theorem loadW_append (m : WMem) (a n k : Nat) : loadW m a (n + k) = loadW m a n ++ loadW m (a + n) k := by
  induction n generalizing a with
  | zero => simp [loadW]
  | succ n ih =>
    rw [show n + 1 + k = (n + k) + 1 by omega]
    simp only [loadW, List.cons_append]
    rw [ih, show a + 1 + n = a + (n + 1) by omega]

theorem loadW_getD (m : WMem) (a n i : Nat) (h : i < n) : (loadW m a n).getD i 0 = m (a + i) := by
  induction n generalizing a i with
  | zero => omega
  | succ n ih =>
    cases i with
    | zero => rfl
    | succ i =>
      simp only [loadW, List.getD_cons_succ]
      rw [ih _ _ (by omega), show a + 1 + i = a + (i + 1) by omega]

theorem loadW_take (m : WMem) (a n k : Nat) (h : k ≤ n) : (loadW m a n).take k = loadW m a k := by
  obtain ⟨d, rfl⟩ := Nat.exists_eq_add_of_le h
  rw [loadW_append, List.take_left' (by simp)]

theorem loadW_storeW (m : WMem) (a : Nat) (ws : List Nat) : loadW (storeW m a ws) a ws.length = ws := by
  apply List.ext_getElem
  · simp
  · intro i h1 h2
    have e : (loadW (storeW m a ws) a ws.length).getD i 0 = ws.getD i 0 := by
      rw [loadW_getD _ _ _ _ h2]
      simp only [storeW]
      rw [if_pos (by omega), show a + i - a = i by omega]
    rw [List.getD_eq_getElem?_getD, List.getD_eq_getElem?_getD, List.getElem?_eq_getElem h1,
      List.getElem?_eq_getElem h2] at e
    exact e

theorem storeW_out (m : WMem) (a : Nat) (ws : List Nat) (x : Nat) (h : x < a ∨ a + ws.length ≤ x) :
    storeW m a ws x = m x := by
  simp only [storeW]; rw [if_neg (by omega)]

theorem storeW_allW {B : Nat} (hB : 0 < B) {m : WMem} (h : AllW B m) (a : Nat) {ws : List Nat} (hw : Words B ws) :
    AllW B (storeW m a ws) := by
  intro x
  simp only [storeW]
  split
  · exact hw.getD hB _
  · exact h x

theorem setW_allW {B : Nat} {m : WMem} (h : AllW B m) (a : Nat) {v : Nat} (hv : v < B) : AllW B (setW m a v) := by
  intro x
  simp only [setW]
  split
  · exact hv
  · exact h x

@[simp] theorem setW_same (m : WMem) (a v : Nat) : setW m a v a = v := by simp [setW]

theorem setW_out (m : WMem) (a v x : Nat) (h : x ≠ a) : setW m a v x = m x := by simp [setW, h]

@[simp] theorem mval_zero (B : Nat) (m : WMem) (a : Nat) : mval B m a 0 = 0 := rfl

theorem mval_add (B : Nat) (m : WMem) (a n k : Nat) : mval B m a (n + k) = mval B m a n + B ^ n * mval B m (a + n) k := by
  simp only [mval]; rw [loadW_append, wval_append, loadW_length]

theorem mval_one (B : Nat) (m : WMem) (a : Nat) : mval B m a 1 = m a := by simp [mval, loadW, wval]

theorem mval_succ (B : Nat) (m : WMem) (a n : Nat) : mval B m a (n + 1) = mval B m a n + B ^ n * m (a + n) := by
  rw [mval_add, mval_one]

theorem mval_succ_left (B : Nat) (m : WMem) (a n : Nat) : mval B m a (n + 1) = m a + B * mval B m (a + 1) n := by
  rw [Nat.add_comm, mval_add, mval_one]; simp

theorem mval_lt {B : Nat} {m : WMem} (h : AllW B m) (a n : Nat) : mval B m a n < B ^ n := by
  have := wval_lt (loadW_words h a n)
  rwa [loadW_length] at this

theorem mval_congr {B : Nat} {m m' : WMem} {a n : Nat} (h : ∀ x, a ≤ x → x < a + n → m' x = m x) :
    mval B m' a n = mval B m a n := by
  simp only [mval]; rw [loadW_congr h]

/-- `m'` and `m` agree outside the `n` words at `a`. -/
def Same (m m' : WMem) (a n : Nat) : Prop := ∀ x, (x < a ∨ a + n ≤ x) → m' x = m x

theorem mval_same {B : Nat} {m m' : WMem} {c k a n : Nat} (h : Same m m' c k) (hd : a + n ≤ c ∨ c + k ≤ a) :
    mval B m' a n = mval B m a n := mval_congr fun x h1 h2 => h x (by omega)

theorem storeW_same (m : WMem) (a : Nat) (ws : List Nat) (n : Nat) (h : ws.length = n) : Same m (storeW m a ws) a n := by
  intro x hx; exact storeW_out m a ws x (by omega)

theorem setW_sameR (m : WMem) (a v : Nat) : Same m (setW m a v) a 1 := by
  intro x hx; exact setW_out m a v x (by omega)

theorem mval_storeW (B : Nat) (m : WMem) (a : Nat) (ws : List Nat) (n : Nat) (h : ws.length = n) :
    mval B (storeW m a ws) a n = wval B ws := by
  subst h; simp only [mval]; rw [loadW_storeW]

/-! ## The called array routines on memory -/

/-- integer.cpp:2230-2237 `Add(C, A, B, N)`: the new memory and the carry. -/
def mAdd (B : Nat) (m : WMem) (C A Bp N : Nat) : WMem × Nat :=
  let r := baselineAdd B N (loadW m A N) (loadW m Bp N)
  (storeW m C r.1, r.2)

/-- integer.cpp:2239-2246 `Subtract(C, A, B, N)`: the new memory and the borrow. -/
def mSub (B : Nat) (m : WMem) (C A Bp N : Nat) : WMem × Nat :=
  let r := baselineSub B N (loadW m A N) (loadW m Bp N)
  (storeW m C r.1, r.2)

/-- integer.cpp:155-166 `Increment(A, N, b)`. -/
def mInc (B : Nat) (m : WMem) (A N b : Nat) : WMem × Nat :=
  let r := increment B b (loadW m A N)
  (storeW m A r.1, r.2)

/-- integer.cpp:168-179 `Decrement(A, N, b)`. -/
def mDec (B : Nat) (m : WMem) (A N b : Nat) : WMem × Nat :=
  let r := decrement B b (loadW m A N)
  (storeW m A r.1, r.2)

/-- integer.cpp:181-186 `TwosComplement(A, N)`. -/
def mNeg (B : Nat) (m : WMem) (A N : Nat) : WMem := storeW m A (twosComplement B (loadW m A N))

/-- integer.cpp:144-153 `Compare(A, B, N)`. -/
def mCmp (m : WMem) (A Bp N : Nat) : Int := compareW (loadW m A N) (loadW m Bp N) N

/-- words.h:48-56 `CopyWords(r, a, n)`. -/
def mCopy (m : WMem) (R A n : Nat) : WMem := storeW m R (loadW m A n)

/-- words.h:35-39 `SetWords(r, 0, n)`. -/
def mZero (m : WMem) (R n : Nat) : WMem := storeW m R (List.replicate n 0)

/-- integer.cpp:968-983 `LinearMultiply(C, A, b, N)`: the new memory and the final carry. -/
def mLinear (B : Nat) (m : WMem) (C A b N : Nat) : WMem × Nat :=
  let r := linearMultiply B b 0 (loadW m A N)
  (storeW m C r.1, r.2)

theorem mAdd_spec {B : Nat} (hB : 1 < B) {m : WMem} (h : AllW B m) (C A Bp N : Nat) (hN : N % 2 = 0) :
    AllW B (mAdd B m C A Bp N).1 ∧ Same m (mAdd B m C A Bp N).1 C N ∧ (mAdd B m C A Bp N).2 ≤ 1 ∧
      mval B (mAdd B m C A Bp N).1 C N + B ^ N * (mAdd B m C A Bp N).2 = mval B m A N + mval B m Bp N := by
  obtain ⟨h1, h2, h3, h4⟩ := baselineAdd_spec hB hN (loadW m A N) (loadW m Bp N) (loadW_words h A N) (loadW_words h Bp N)
    (by simp) (by simp)
  refine ⟨storeW_allW (by omega) h C h2, storeW_same _ _ _ _ h1, h3, ?_⟩
  simp only [mAdd]
  rw [mval_storeW B m C _ N h1, h4, loadW_take _ _ _ _ (Nat.le_refl _), loadW_take _ _ _ _ (Nat.le_refl _)]
  rfl

theorem mSub_spec {B : Nat} (hB : 1 < B) {m : WMem} (h : AllW B m) (C A Bp N : Nat) (hN : N % 2 = 0) :
    AllW B (mSub B m C A Bp N).1 ∧ Same m (mSub B m C A Bp N).1 C N ∧ (mSub B m C A Bp N).2 ≤ 1 ∧
      mval B (mSub B m C A Bp N).1 C N + mval B m Bp N = mval B m A N + B ^ N * (mSub B m C A Bp N).2 := by
  obtain ⟨h1, h2, h3, h4⟩ := baselineSub_spec hB hN (loadW m A N) (loadW m Bp N) (loadW_words h A N) (loadW_words h Bp N)
    (by simp) (by simp)
  refine ⟨storeW_allW (by omega) h C h2, storeW_same _ _ _ _ h1, h3, ?_⟩
  simp only [mSub]
  rw [loadW_take _ _ _ _ (Nat.le_refl _), loadW_take _ _ _ _ (Nat.le_refl _)] at h4
  rw [mval_storeW B m C _ N h1]
  exact h4

theorem mInc_spec {B : Nat} (hB : 1 < B) {m : WMem} (h : AllW B m) (A N b : Nat) (hb : b < B) (hN : 0 < N) :
    AllW B (mInc B m A N b).1 ∧ Same m (mInc B m A N b).1 A N ∧ (mInc B m A N b).2 ≤ 1 ∧
      mval B (mInc B m A N b).1 A N + B ^ N * (mInc B m A N b).2 = mval B m A N + b := by
  have hne : loadW m A N ≠ [] := by intro e; have := congrArg List.length e; simp at this; omega
  obtain ⟨h1, h2, h3, h4⟩ := increment_spec hB b hb (loadW m A N) (loadW_words h A N) hne
  rw [loadW_length] at h1 h4
  refine ⟨storeW_allW (by omega) h A h2, storeW_same _ _ _ _ h1, h3, ?_⟩
  simp only [mInc]
  rw [mval_storeW B m A _ N h1]
  exact h4

theorem mDec_spec {B : Nat} (hB : 1 < B) {m : WMem} (h : AllW B m) (A N b : Nat) (hb : b < B) (hN : 0 < N) :
    AllW B (mDec B m A N b).1 ∧ Same m (mDec B m A N b).1 A N ∧ (mDec B m A N b).2 ≤ 1 ∧
      mval B (mDec B m A N b).1 A N + b = mval B m A N + B ^ N * (mDec B m A N b).2 := by
  have hne : loadW m A N ≠ [] := by intro e; have := congrArg List.length e; simp at this; omega
  obtain ⟨h1, h2, h3, h4⟩ := decrement_spec hB b hb (loadW m A N) (loadW_words h A N) hne
  rw [loadW_length] at h1 h4
  refine ⟨storeW_allW (by omega) h A h2, storeW_same _ _ _ _ h1, h3, ?_⟩
  simp only [mDec]
  rw [mval_storeW B m A _ N h1]
  exact h4

theorem mNeg_spec {B : Nat} (hB : 1 < B) {m : WMem} (h : AllW B m) (A N : Nat) (hN : 0 < N) :
    AllW B (mNeg B m A N) ∧ Same m (mNeg B m A N) A N ∧
      mval B (mNeg B m A N) A N = (B ^ N - mval B m A N) % B ^ N := by
  have hne : loadW m A N ≠ [] := by intro e; have := congrArg List.length e; simp at this; omega
  obtain ⟨h1, h2, h4⟩ := twosComplement_spec hB (loadW m A N) (loadW_words h A N) hne
  rw [loadW_length] at h1 h4
  refine ⟨storeW_allW (by omega) h A h2, storeW_same _ _ _ _ h1, ?_⟩
  simp only [mNeg]
  rw [mval_storeW B m A _ N h1]
  exact h4

theorem mCmp_spec {B : Nat} {m : WMem} (h : AllW B m) (A Bp N : Nat) :
    mCmp m A Bp N = (if mval B m A N > mval B m Bp N then 1 else if mval B m A N < mval B m Bp N then -1 else 0) := by
  have := compareW_spec (loadW_words h A N) (loadW_words h Bp N) N (by simp) (by simp)
  rw [loadW_take _ _ _ _ (Nat.le_refl _), loadW_take _ _ _ _ (Nat.le_refl _)] at this
  exact this

theorem mCopy_spec {B : Nat} (hB : 0 < B) {m : WMem} (h : AllW B m) (R A n : Nat) :
    AllW B (mCopy m R A n) ∧ Same m (mCopy m R A n) R n ∧ mval B (mCopy m R A n) R n = mval B m A n := by
  refine ⟨storeW_allW hB h R (loadW_words h A n), storeW_same _ _ _ _ (by simp), ?_⟩
  simp only [mCopy]
  rw [mval_storeW B m R _ n (by simp)]
  rfl

theorem mZero_spec {B : Nat} (hB : 0 < B) {m : WMem} (h : AllW B m) (R n : Nat) :
    AllW B (mZero m R n) ∧ Same m (mZero m R n) R n ∧ mval B (mZero m R n) R n = 0 := by
  refine ⟨storeW_allW hB h R (Words.replicate hB n), storeW_same _ _ _ _ (by simp), ?_⟩
  simp only [mZero]
  rw [mval_storeW B m R _ n (by simp)]
  simp

theorem mLinear_spec {B : Nat} (hB : 1 < B) {m : WMem} (h : AllW B m) (C A b N : Nat) (hb : b < B) :
    AllW B (mLinear B m C A b N).1 ∧ Same m (mLinear B m C A b N).1 C N ∧ (mLinear B m C A b N).2 < B ∧
      mval B (mLinear B m C A b N).1 C N + B ^ N * (mLinear B m C A b N).2 = mval B m A N * b := by
  obtain ⟨h1, h2, h3, h4⟩ := linearMultiply_spec b hb (loadW m A N) (loadW_words h A N) 0 (by omega)
  rw [loadW_length] at h1 h4
  refine ⟨storeW_allW (by omega) h C h2, storeW_same _ _ _ _ h1, h3, ?_⟩
  simp only [mLinear]
  rw [mval_storeW B m C _ N h1]
  exact h4

end Verif.Integer
