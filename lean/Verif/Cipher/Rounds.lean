import Verif.Cipher.Tea

/-!
# Shapes shared by the block ciphers: small tuples of words, loops over rounds
-/
namespace Verif.Cipher

/-- An entry of an array of words (reads within the arrays: the models below never read elsewhere). -/
def nth {w : Nat} (l : List (BitVec w)) (i : Nat) : BitVec w := l.getD i 0

/-- A transformation of two words. -/
def on2 {α : Type} (f : α × α → α × α) (l : List α) : List α :=
  match l with
  | [a, b] => let (a, b) := f (a, b); [a, b]
  | _ => l

/-- A transformation of four words. -/
def on4 {α : Type} (f : α × α × α × α → α × α × α × α) (l : List α) : List α :=
  match l with
  | [a, b, c, d] => let (a, b, c, d) := f (a, b, c, d); [a, b, c, d]
  | _ => l

/-- Two transformations undo each other. -/
def Cancel {σ : Type} (f g : σ → σ) : Prop := (∀ s, g (f s) = s) ∧ ∀ s, f (g s) = s

theorem Cancel.symm {σ : Type} {f g : σ → σ} (h : Cancel f g) : Cancel g f := ⟨h.2, h.1⟩

theorem Cancel.comp {σ : Type} {f g f' g' : σ → σ} (h : Cancel f g) (h' : Cancel f' g') : Cancel (fun s => f' (f s)) (fun s => g (g' s)) :=
  ⟨fun s => by simp only [h'.1, h.1], fun s => by simp only [h.2, h'.2]⟩

theorem Cancel.id {σ : Type} : Cancel (fun s : σ => s) (fun s => s) := ⟨fun _ => rfl, fun _ => rfl⟩

theorem Cancel.ite {σ : Type} {p : Prop} [Decidable p] {f g f' g' : σ → σ} (h : Cancel f g) (h' : Cancel f' g') :
    Cancel (fun s => if p then f s else f' s) (fun s => if p then g s else g' s) := by
  by_cases hp : p
  · simp only [if_pos hp]; exact h
  · simp only [if_neg hp]; exact h'

theorem Cancel.pair2 {α : Type} {f g : α × α → α × α} (h : Cancel f g) : Pair 2 (on2 f) (on2 g) := by
  intro l hl
  match l, hl with
  | [a, b], _ => exact ⟨rfl, by simp only [on2, h.1], rfl, by simp only [on2, h.2]⟩

theorem Cancel.pair4 {α : Type} {f g : α × α × α × α → α × α × α × α} (h : Cancel f g) : Pair 4 (on4 f) (on4 g) := by
  intro l hl
  match l, hl with
  | [a, b, c, d], _ => exact ⟨rfl, by simp only [on4, h.1], rfl, by simp only [on4, h.2]⟩

/-- `for (i = 0; i < n; i++) s = f(i, s)` -/
def upto {σ : Type} (n : Nat) (f : Nat → σ → σ) (s : σ) : σ := (List.range n).foldl (fun s i => f i s) s

/-- `for (i = n-1; i >= 0; i--) s = f(i, s)` -/
def downto {σ : Type} (n : Nat) (f : Nat → σ → σ) (s : σ) : σ := (List.range n).reverse.foldl (fun s i => f i s) s

theorem upto_succ {σ : Type} (n : Nat) (f : Nat → σ → σ) (s : σ) : upto (n + 1) f s = f n (upto n f s) := by
  unfold upto; rw [List.range_succ, List.foldl_append]; rfl

theorem downto_succ {σ : Type} (n : Nat) (f : Nat → σ → σ) (s : σ) : downto (n + 1) f s = downto n f (f n s) := by
  unfold downto; rw [List.range_succ, List.reverse_append]; rfl

theorem Cancel.loop {σ : Type} {f g : Nat → σ → σ} : ∀ {n : Nat}, (∀ i, i < n → Cancel (f i) (g i)) → Cancel (upto n f) (downto n g)
  | 0, _ => Cancel.id
  | n + 1, h => by
    have := (Cancel.loop (n := n) fun i hi => h i (by omega)).comp (h n (by omega))
    refine ⟨fun s => ?_, fun s => ?_⟩
    · rw [upto_succ, downto_succ]; exact this.1 s
    · rw [upto_succ, downto_succ]; exact this.2 s

/-- A loop counting up that uses `n-1-i` is a loop counting down. -/
theorem upto_rev {σ : Type} (f : Nat → σ → σ) : ∀ (n : Nat) (s : σ), upto n (fun i => f (n - 1 - i)) s = downto n f s := by
  intro n s
  unfold upto downto
  have : ∀ n, (List.range n).map (fun i => n - 1 - i) = (List.range n).reverse := by
    intro n
    apply List.ext_getElem
    · simp
    · intro i h1 h2; simp
  rw [← this n, List.foldl_map]

theorem upto_congr {σ : Type} {f g : Nat → σ → σ} : ∀ {n : Nat}, (∀ i, i < n → ∀ s, f i s = g i s) → ∀ s, upto n f s = upto n g s
  | 0, _, s => rfl
  | n + 1, h, s => by rw [upto_succ, upto_succ, upto_congr (fun i hi => h i (by omega)), h n (by omega)]

end Verif.Cipher
