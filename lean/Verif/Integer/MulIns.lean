import Verif.Integer.WMem

/-!
# The word-level multiplication macros of integer.cpp

`Baseline_Multiply2/4/8/16`, `Baseline_Square*`, `Baseline_MultiplyBottom*` and `Baseline_MultiplyTop*` are straight-line
sequences of macros over the locals `c`, `d = (d0, d1)`, `e = (e0, e1)` and the arrays `R`, `A`, `B`.  Each macro is an
instruction here and `step` gives it the meaning of its C text, in the portable two-word form (integer.cpp:203-208,
234-250 and 265-285); the x86-64 and ARM inline assembly of the same macros is not modelled.
-/
namespace Verif.Integer

/-- integer.cpp:207 `Add2WordsBy1(a, b, c)` (and `Acc2WordsBy1`, line 280, with `a = b`):
`a0 = b0 + c; a1 = b1 + (a0 < c)`. -/
def add2by1 (B : Nat) (b : Nat × Nat) (c : Nat) : Nat × Nat :=
  let s := (b.1 + c) % B
  (s, (b.2 + if s < c then 1 else 0) % B)

/-- integer.cpp:242 `Acc2WordsBy2(a, b)`: `a0 += b0; a1 += a0 < b0; a1 += b1`. -/
def acc2by2 (B : Nat) (a b : Nat × Nat) : Nat × Nat :=
  let s := (a.1 + b.1) % B
  (s, ((a.2 + if s < b.1 then 1 else 0) % B + b.2) % B)

/-- integer.cpp:236 `MultiplyWords(p, a, b)`: the two halves of the double-word product. -/
def mulWords (B a b : Nat) : Nat × Nat := (a * b % B, a * b / B)

/-- integer.cpp:239 `Double3Words(c, d)`: `d1 = 2*d1 + (d0>>(WORD_BITS-1)); d0 = 2*d0 + (c>>(WORD_BITS-1)); c *= 2`.  The
shift of a word by `WORD_BITS-1` is written `2*x / B`. -/
def double3 (B c : Nat) (d : Nat × Nat) : Nat × (Nat × Nat) :=
  ((2 * c) % B, ((2 * d.1 % B + 2 * c / B) % B, (2 * d.2 % B + 2 * d.1 / B) % B))

/-- integer.cpp:277 `MulAcc(c, d, a, b)`:
`MultiplyWords(p, a, b); Acc2WordsBy1(p, c); c = LowWord(p); Acc2WordsBy1(d, HighWord(p))`. -/
def mulAcc (B c : Nat) (d : Nat × Nat) (a b : Nat) : Nat × (Nat × Nat) :=
  let p := add2by1 B (mulWords B a b) c
  (p.1, add2by1 B d p.2)

/-- integer.cpp:283 `Acc3WordsBy2(c, d, e)`: `Acc2WordsBy1(e, c); c = LowWord(e); Add2WordsBy1(e, d, HighWord(e))`.
Returns the new `c` and `e`. -/
def acc3by2 (B c : Nat) (d e : Nat × Nat) : Nat × (Nat × Nat) :=
  let e' := add2by1 B e c
  (e'.1, add2by1 B d e'.2)

/-- One macro invocation (integer.cpp:1195-1266, 1352-1376). -/
inductive MulIns
  | begin
  | acc (i j : Nat)
  | save (k i j : Nat)
  | fin (k i : Nat)
  | botSave (k i j : Nat)
  | botAcc (i j : Nat)
  | botEnd (n : Nat)
  | topBegin (n : Nat)
  | topAcc (i j : Nat)
  | topSave0 (i j : Nat)
  | topSave1 (i j : Nat)
  | sqBegin
  | sqNonDiag
  | sqSave (k i j : Nat)
  | sqAcc (i j : Nat)
  | sqDiag (i : Nat)
  | sqEnd (n : Nat)
  deriving DecidableEq, Repr

/-- Memory and the locals `c`, `d`, `e`. -/
structure MulSt where
  m : WMem
  c : Nat
  d : Nat × Nat
  e : Nat × Nat

/-- The meaning of one macro; `R`, `A`, `Bp` are the three pointers and `L` the fourth argument of the `Top` functions.
Lines: `Mul_Begin` 1195-1201, `Mul_Acc` 1203, `Mul_SaveAcc` 1206-1210, `Mul_End` 1212-1217, `Bot_*` 1219-1228, `Squ_*`
1231-1266, `Top_*` 1352-1376. -/
def step (B R A Bp L : Nat) (s : MulSt) : MulIns → MulSt
  | .begin =>
    let p := mulWords B (s.m A) (s.m Bp)
    { s with c := p.1, d := (p.2, 0) }
  | .acc i j =>
    let r := mulAcc B s.c s.d (s.m (A + i)) (s.m (Bp + j))
    { s with c := r.1, d := r.2 }
  | .save k i j =>
    let m := setW s.m (R + k) s.c
    let r := mulAcc B s.d.1 (s.d.2, 0) (m (A + i)) (m (Bp + j))
    { s with m := m, c := r.1, d := r.2 }
  | .fin k i =>
    let m := setW s.m (R + k) s.c
    let p := acc2by2 B (mulWords B (m (A + i)) (m (Bp + i))) s.d
    { s with m := setW (setW m (R + (k + 1)) p.1) (R + (k + 2)) p.2 }
  | .botSave k i j =>
    let m := setW s.m (R + k) s.c
    { s with m := m, c := (s.d.1 + m (A + i) * m (Bp + j) % B) % B }
  | .botAcc i j => { s with c := (s.c + s.m (A + i) * s.m (Bp + j) % B) % B }
  | .botEnd n => { s with m := setW s.m (R + (n - 1)) s.c }
  | .topBegin n =>
    let p := mulWords B (s.m A) (s.m (Bp + (n - 2)))
    { s with d := (p.2, 0) }
  | .topAcc i j =>
    let p := mulWords B (s.m (A + i)) (s.m (Bp + j))
    { s with d := add2by1 B s.d p.2 }
  | .topSave0 i j =>
    let r := mulAcc B s.d.1 (s.d.2, 0) (s.m (A + i)) (s.m (Bp + j))
    { s with c := r.1, d := r.2 }
  | .topSave1 i j =>
    let c := if L < s.c then 1 else 0
    let d := add2by1 B s.d c
    let r := mulAcc B d.1 (d.2, 0) (s.m (A + i)) (s.m (Bp + j))
    { s with c := r.1, d := r.2 }
  | .sqBegin =>
    let p := mulWords B (s.m A) (s.m A)
    let m := setW s.m R p.1
    let q := mulWords B (m A) (m (A + 1))
    let r := double3 B q.1 (q.2, 0)
    { m := m, e := (p.2, 0), c := r.1, d := r.2 }
  | .sqNonDiag =>
    let r := double3 B s.c s.d
    { s with c := r.1, d := r.2 }
  | .sqSave k i j =>
    let r := acc3by2 B s.c s.d s.e
    let m := setW s.m (R + k) r.1
    let p := mulWords B (m (A + i)) (m (A + j))
    { m := m, e := r.2, c := p.1, d := (p.2, 0) }
  | .sqAcc i j =>
    let r := mulAcc B s.c s.d (s.m (A + i)) (s.m (A + j))
    { s with c := r.1, d := r.2 }
  | .sqDiag i =>
    let r := double3 B s.c s.d
    let q := mulAcc B r.1 r.2 (s.m (A + i)) (s.m (A + i))
    { s with c := q.1, d := q.2 }
  | .sqEnd n =>
    let r := acc3by2 B s.c s.d s.e
    let m := setW s.m (R + (2 * n - 3)) r.1
    let p := acc2by2 B (mulWords B (m (A + (n - 1))) (m (A + (n - 1)))) r.2
    { s with m := setW (setW m (R + (2 * n - 2)) p.1) (R + (2 * n - 1)) p.2, c := r.1, e := r.2 }

/-- Run a macro sequence; the locals are uninitialised in C and start as 0 here, no program reads them before writing. -/
def runIns (B R A Bp L : Nat) (m : WMem) (prog : List MulIns) : WMem :=
  (prog.foldl (step B R A Bp L) ⟨m, 0, (0, 0), (0, 0)⟩).m

end Verif.Integer
