import Verif.Cipher.Tea

/-!
# Serpent (serpent.h, serpent.cpp, serpentp.h)

Five variables `a` .. `e`, and macros that take them in changing orders. The S-box macros are given for words of any number of bits.
-/
namespace Verif.Serpent

open Verif.Cipher (W32 rotl rotr wd getUserKey words unwords Keyed)

/-- The variables `a`, `b`, `c`, `d`, `e`. -/
abbrev R5 (w : Nat) := BitVec w × BitVec w × BitVec w × BitVec w × BitVec w

/-! ## The macros of serpentp.h -/

/-- An order macro `f(i, ..)`: the number it passes, the variables in its order, and variables in its order put back in their places. -/
structure Order (w : Nat) where
  n : Nat
  get : R5 w → R5 w
  put : R5 w → R5 w

section
variable {w : Nat}

/-- serpentp.h:30 `beforeS0` -/
def beforeS0 : Order w := ⟨0, fun (a, b, c, d, e) => (a, b, c, d, e), fun (p0, p1, p2, p3, p4) => (p0, p1, p2, p3, p4)⟩

/-- serpentp.h:31 `afterS0` -/
def afterS0 : Order w := ⟨1, fun (a, b, c, d, e) => (b, e, c, a, d), fun (p0, p1, p2, p3, p4) => (p3, p0, p2, p4, p1)⟩

/-- serpentp.h:32 `afterS1` -/
def afterS1 : Order w := ⟨2, fun (a, b, c, d, e) => (c, b, a, e, d), fun (p0, p1, p2, p3, p4) => (p2, p1, p0, p4, p3)⟩

/-- serpentp.h:33 `afterS2` -/
def afterS2 : Order w := ⟨3, fun (a, b, c, d, e) => (a, e, b, d, c), fun (p0, p1, p2, p3, p4) => (p0, p2, p4, p3, p1)⟩

/-- serpentp.h:34 `afterS3` -/
def afterS3 : Order w := ⟨4, fun (a, b, c, d, e) => (e, b, d, c, a), fun (p0, p1, p2, p3, p4) => (p4, p1, p3, p2, p0)⟩

/-- serpentp.h:35 `afterS4` -/
def afterS4 : Order w := ⟨5, fun (a, b, c, d, e) => (b, a, e, c, d), fun (p0, p1, p2, p3, p4) => (p1, p0, p3, p4, p2)⟩

/-- serpentp.h:36 `afterS5` -/
def afterS5 : Order w := ⟨6, fun (a, b, c, d, e) => (a, c, b, e, d), fun (p0, p1, p2, p3, p4) => (p0, p2, p1, p4, p3)⟩

/-- serpentp.h:37 `afterS6` -/
def afterS6 : Order w := ⟨7, fun (a, b, c, d, e) => (a, c, d, b, e), fun (p0, p1, p2, p3, p4) => (p0, p3, p1, p2, p4)⟩

/-- serpentp.h:38 `afterS7` -/
def afterS7 : Order w := ⟨8, fun (a, b, c, d, e) => (d, e, b, a, c), fun (p0, p1, p2, p3, p4) => (p3, p2, p4, p0, p1)⟩

/-- serpentp.h:41 `beforeI7` -/
def beforeI7 : Order w := ⟨8, fun (a, b, c, d, e) => (a, b, c, d, e), fun (p0, p1, p2, p3, p4) => (p0, p1, p2, p3, p4)⟩

/-- serpentp.h:42 `afterI7` -/
def afterI7 : Order w := ⟨7, fun (a, b, c, d, e) => (d, a, b, e, c), fun (p0, p1, p2, p3, p4) => (p1, p2, p4, p0, p3)⟩

/-- serpentp.h:43 `afterI6` -/
def afterI6 : Order w := ⟨6, fun (a, b, c, d, e) => (a, b, c, e, d), fun (p0, p1, p2, p3, p4) => (p0, p1, p2, p4, p3)⟩

/-- serpentp.h:44 `afterI5` -/
def afterI5 : Order w := ⟨5, fun (a, b, c, d, e) => (b, d, e, c, a), fun (p0, p1, p2, p3, p4) => (p4, p0, p3, p1, p2)⟩

/-- serpentp.h:45 `afterI4` -/
def afterI4 : Order w := ⟨4, fun (a, b, c, d, e) => (b, c, e, a, d), fun (p0, p1, p2, p3, p4) => (p3, p0, p1, p4, p2)⟩

/-- serpentp.h:46 `afterI3` -/
def afterI3 : Order w := ⟨3, fun (a, b, c, d, e) => (a, b, e, c, d), fun (p0, p1, p2, p3, p4) => (p0, p1, p3, p4, p2)⟩

/-- serpentp.h:47 `afterI2` -/
def afterI2 : Order w := ⟨2, fun (a, b, c, d, e) => (b, d, e, c, a), fun (p0, p1, p2, p3, p4) => (p4, p0, p3, p1, p2)⟩

/-- serpentp.h:48 `afterI1` -/
def afterI1 : Order w := ⟨1, fun (a, b, c, d, e) => (a, b, c, e, d), fun (p0, p1, p2, p3, p4) => (p0, p1, p2, p4, p3)⟩

/-- serpentp.h:49 `afterI0` -/
def afterI0 : Order w := ⟨0, fun (a, b, c, d, e) => (a, d, b, e, c), fun (p0, p1, p2, p3, p4) => (p0, p2, p4, p1, p3)⟩

/-- `order(macro)` -/
def on (o : Order w) (f : Nat → R5 w → R5 w) (s : R5 w) : R5 w := o.put (f o.n (o.get s))

/-- `order(S)` for a macro that does not use the number. -/
def on' (o : Order w) (f : R5 w → R5 w) (s : R5 w) : R5 w := on o (fun _ => f) s

/-- serpentp.h:54-74 `S0` -/
def s0 (x : R5 w) : R5 w :=
  let (r0, r1, r2, r3, _) := x
  let r3 := r3 ^^^ r0
  let r4 := r1
  let r1 := r1 &&& r3
  let r4 := r4 ^^^ r2
  let r1 := r1 ^^^ r0
  let r0 := r0 ||| r3
  let r0 := r0 ^^^ r4
  let r4 := r4 ^^^ r3
  let r3 := r3 ^^^ r2
  let r2 := r2 ||| r1
  let r2 := r2 ^^^ r4
  let r4 := ~~~r4
  let r4 := r4 ||| r1
  let r1 := r1 ^^^ r3
  let r1 := r1 ^^^ r4
  let r3 := r3 ||| r0
  let r1 := r1 ^^^ r3
  let r4 := r4 ^^^ r3
  (r0, r1, r2, r3, r4)

/-- serpentp.h:76-97 `I0` -/
def i0 (x : R5 w) : R5 w :=
  let (r0, r1, r2, r3, _) := x
  let r2 := ~~~r2
  let r4 := r1
  let r1 := r1 ||| r0
  let r4 := ~~~r4
  let r1 := r1 ^^^ r2
  let r2 := r2 ||| r4
  let r1 := r1 ^^^ r3
  let r0 := r0 ^^^ r4
  let r2 := r2 ^^^ r0
  let r0 := r0 &&& r3
  let r4 := r4 ^^^ r0
  let r0 := r0 ||| r1
  let r0 := r0 ^^^ r2
  let r3 := r3 ^^^ r4
  let r2 := r2 ^^^ r1
  let r3 := r3 ^^^ r0
  let r3 := r3 ^^^ r1
  let r2 := r2 &&& r3
  let r4 := r4 ^^^ r2
  (r0, r1, r2, r3, r4)

/-- serpentp.h:99-119 `S1` -/
def s1 (x : R5 w) : R5 w :=
  let (r0, r1, r2, r3, _) := x
  let r0 := ~~~r0
  let r2 := ~~~r2
  let r4 := r0
  let r0 := r0 &&& r1
  let r2 := r2 ^^^ r0
  let r0 := r0 ||| r3
  let r3 := r3 ^^^ r2
  let r1 := r1 ^^^ r0
  let r0 := r0 ^^^ r4
  let r4 := r4 ||| r1
  let r1 := r1 ^^^ r3
  let r2 := r2 ||| r0
  let r2 := r2 &&& r4
  let r0 := r0 ^^^ r1
  let r1 := r1 &&& r2
  let r1 := r1 ^^^ r0
  let r0 := r0 &&& r2
  let r0 := r0 ^^^ r4
  (r0, r1, r2, r3, r4)

/-- serpentp.h:121-142 `I1` -/
def i1 (x : R5 w) : R5 w :=
  let (r0, r1, r2, r3, _) := x
  let r4 := r1
  let r1 := r1 ^^^ r3
  let r3 := r3 &&& r1
  let r4 := r4 ^^^ r2
  let r3 := r3 ^^^ r0
  let r0 := r0 ||| r1
  let r2 := r2 ^^^ r3
  let r0 := r0 ^^^ r4
  let r0 := r0 ||| r2
  let r1 := r1 ^^^ r3
  let r0 := r0 ^^^ r1
  let r1 := r1 ||| r3
  let r1 := r1 ^^^ r0
  let r4 := ~~~r4
  let r4 := r4 ^^^ r1
  let r1 := r1 ||| r0
  let r1 := r1 ^^^ r0
  let r1 := r1 ||| r4
  let r3 := r3 ^^^ r1
  (r0, r1, r2, r3, r4)

/-- serpentp.h:144-162 `S2` -/
def s2 (x : R5 w) : R5 w :=
  let (r0, r1, r2, r3, _) := x
  let r4 := r0
  let r0 := r0 &&& r2
  let r0 := r0 ^^^ r3
  let r2 := r2 ^^^ r1
  let r2 := r2 ^^^ r0
  let r3 := r3 ||| r4
  let r3 := r3 ^^^ r1
  let r4 := r4 ^^^ r2
  let r1 := r3
  let r3 := r3 ||| r4
  let r3 := r3 ^^^ r0
  let r0 := r0 &&& r1
  let r4 := r4 ^^^ r0
  let r1 := r1 ^^^ r3
  let r1 := r1 ^^^ r4
  let r4 := ~~~r4
  (r0, r1, r2, r3, r4)

/-- serpentp.h:164-185 `I2` -/
def i2 (x : R5 w) : R5 w :=
  let (r0, r1, r2, r3, _) := x
  let r2 := r2 ^^^ r3
  let r3 := r3 ^^^ r0
  let r4 := r3
  let r3 := r3 &&& r2
  let r3 := r3 ^^^ r1
  let r1 := r1 ||| r2
  let r1 := r1 ^^^ r4
  let r4 := r4 &&& r3
  let r2 := r2 ^^^ r3
  let r4 := r4 &&& r0
  let r4 := r4 ^^^ r2
  let r2 := r2 &&& r1
  let r2 := r2 ||| r0
  let r3 := ~~~r3
  let r2 := r2 ^^^ r3
  let r0 := r0 ^^^ r3
  let r0 := r0 &&& r1
  let r3 := r3 ^^^ r4
  let r3 := r3 ^^^ r0
  (r0, r1, r2, r3, r4)

/-- serpentp.h:187-208 `S3` -/
def s3 (x : R5 w) : R5 w :=
  let (r0, r1, r2, r3, _) := x
  let r4 := r0
  let r0 := r0 ||| r3
  let r3 := r3 ^^^ r1
  let r1 := r1 &&& r4
  let r4 := r4 ^^^ r2
  let r2 := r2 ^^^ r3
  let r3 := r3 &&& r0
  let r4 := r4 ||| r1
  let r3 := r3 ^^^ r4
  let r0 := r0 ^^^ r1
  let r4 := r4 &&& r0
  let r1 := r1 ^^^ r3
  let r4 := r4 ^^^ r2
  let r1 := r1 ||| r0
  let r1 := r1 ^^^ r2
  let r0 := r0 ^^^ r3
  let r2 := r1
  let r1 := r1 ||| r3
  let r1 := r1 ^^^ r0
  (r0, r1, r2, r3, r4)

/-- serpentp.h:210-230 `I3` -/
def i3 (x : R5 w) : R5 w :=
  let (r0, r1, r2, r3, _) := x
  let r4 := r2
  let r2 := r2 ^^^ r1
  let r1 := r1 &&& r2
  let r1 := r1 ^^^ r0
  let r0 := r0 &&& r4
  let r4 := r4 ^^^ r3
  let r3 := r3 ||| r1
  let r3 := r3 ^^^ r2
  let r0 := r0 ^^^ r4
  let r2 := r2 ^^^ r0
  let r0 := r0 ||| r3
  let r0 := r0 ^^^ r1
  let r4 := r4 ^^^ r2
  let r2 := r2 &&& r3
  let r1 := r1 ||| r3
  let r1 := r1 ^^^ r2
  let r4 := r4 ^^^ r0
  let r2 := r2 ^^^ r4
  (r0, r1, r2, r3, r4)

/-- serpentp.h:232-254 `S4` -/
def s4 (x : R5 w) : R5 w :=
  let (r0, r1, r2, r3, _) := x
  let r1 := r1 ^^^ r3
  let r3 := ~~~r3
  let r2 := r2 ^^^ r3
  let r3 := r3 ^^^ r0
  let r4 := r1
  let r1 := r1 &&& r3
  let r1 := r1 ^^^ r2
  let r4 := r4 ^^^ r3
  let r0 := r0 ^^^ r4
  let r2 := r2 &&& r4
  let r2 := r2 ^^^ r0
  let r0 := r0 &&& r1
  let r3 := r3 ^^^ r0
  let r4 := r4 ||| r1
  let r4 := r4 ^^^ r0
  let r0 := r0 ||| r3
  let r0 := r0 ^^^ r2
  let r2 := r2 &&& r3
  let r0 := ~~~r0
  let r4 := r4 ^^^ r2
  (r0, r1, r2, r3, r4)

/-- serpentp.h:256-278 `I4` -/
def i4 (x : R5 w) : R5 w :=
  let (r0, r1, r2, r3, _) := x
  let r4 := r2
  let r2 := r2 &&& r3
  let r2 := r2 ^^^ r1
  let r1 := r1 ||| r3
  let r1 := r1 &&& r0
  let r4 := r4 ^^^ r2
  let r4 := r4 ^^^ r1
  let r1 := r1 &&& r2
  let r0 := ~~~r0
  let r3 := r3 ^^^ r4
  let r1 := r1 ^^^ r3
  let r3 := r3 &&& r0
  let r3 := r3 ^^^ r2
  let r0 := r0 ^^^ r1
  let r2 := r2 &&& r0
  let r3 := r3 ^^^ r0
  let r2 := r2 ^^^ r4
  let r2 := r2 ||| r3
  let r3 := r3 ^^^ r0
  let r2 := r2 ^^^ r1
  (r0, r1, r2, r3, r4)

/-- serpentp.h:280-301 `S5` -/
def s5 (x : R5 w) : R5 w :=
  let (r0, r1, r2, r3, _) := x
  let r0 := r0 ^^^ r1
  let r1 := r1 ^^^ r3
  let r3 := ~~~r3
  let r4 := r1
  let r1 := r1 &&& r0
  let r2 := r2 ^^^ r3
  let r1 := r1 ^^^ r2
  let r2 := r2 ||| r4
  let r4 := r4 ^^^ r3
  let r3 := r3 &&& r1
  let r3 := r3 ^^^ r0
  let r4 := r4 ^^^ r1
  let r4 := r4 ^^^ r2
  let r2 := r2 ^^^ r0
  let r0 := r0 &&& r3
  let r2 := ~~~r2
  let r0 := r0 ^^^ r4
  let r4 := r4 ||| r3
  let r2 := r2 ^^^ r4
  (r0, r1, r2, r3, r4)

/-- serpentp.h:303-324 `I5` -/
def i5 (x : R5 w) : R5 w :=
  let (r0, r1, r2, r3, _) := x
  let r1 := ~~~r1
  let r4 := r3
  let r2 := r2 ^^^ r1
  let r3 := r3 ||| r0
  let r3 := r3 ^^^ r2
  let r2 := r2 ||| r1
  let r2 := r2 &&& r0
  let r4 := r4 ^^^ r3
  let r2 := r2 ^^^ r4
  let r4 := r4 ||| r0
  let r4 := r4 ^^^ r1
  let r1 := r1 &&& r2
  let r1 := r1 ^^^ r3
  let r4 := r4 ^^^ r2
  let r3 := r3 &&& r4
  let r4 := r4 ^^^ r1
  let r3 := r3 ^^^ r0
  let r3 := r3 ^^^ r4
  let r4 := ~~~r4
  (r0, r1, r2, r3, r4)

/-- serpentp.h:326-346 `S6` -/
def s6 (x : R5 w) : R5 w :=
  let (r0, r1, r2, r3, _) := x
  let r2 := ~~~r2
  let r4 := r3
  let r3 := r3 &&& r0
  let r0 := r0 ^^^ r4
  let r3 := r3 ^^^ r2
  let r2 := r2 ||| r4
  let r1 := r1 ^^^ r3
  let r2 := r2 ^^^ r0
  let r0 := r0 ||| r1
  let r2 := r2 ^^^ r1
  let r4 := r4 ^^^ r0
  let r0 := r0 ||| r3
  let r0 := r0 ^^^ r2
  let r4 := r4 ^^^ r3
  let r4 := r4 ^^^ r0
  let r3 := ~~~r3
  let r2 := r2 &&& r4
  let r2 := r2 ^^^ r3
  (r0, r1, r2, r3, r4)

/-- serpentp.h:348-367 `I6` -/
def i6 (x : R5 w) : R5 w :=
  let (r0, r1, r2, r3, _) := x
  let r0 := r0 ^^^ r2
  let r4 := r2
  let r2 := r2 &&& r0
  let r4 := r4 ^^^ r3
  let r2 := ~~~r2
  let r3 := r3 ^^^ r1
  let r2 := r2 ^^^ r3
  let r4 := r4 ||| r0
  let r0 := r0 ^^^ r2
  let r3 := r3 ^^^ r4
  let r4 := r4 ^^^ r1
  let r1 := r1 &&& r3
  let r1 := r1 ^^^ r0
  let r0 := r0 ^^^ r3
  let r0 := r0 ||| r2
  let r3 := r3 ^^^ r1
  let r4 := r4 ^^^ r0
  (r0, r1, r2, r3, r4)

/-- serpentp.h:369-391 `S7` -/
def s7 (x : R5 w) : R5 w :=
  let (r0, r1, r2, r3, _) := x
  let r4 := r2
  let r2 := r2 &&& r1
  let r2 := r2 ^^^ r3
  let r3 := r3 &&& r1
  let r4 := r4 ^^^ r2
  let r2 := r2 ^^^ r1
  let r1 := r1 ^^^ r0
  let r0 := r0 ||| r4
  let r0 := r0 ^^^ r2
  let r3 := r3 ^^^ r1
  let r2 := r2 ^^^ r3
  let r3 := r3 &&& r0
  let r3 := r3 ^^^ r4
  let r4 := r4 ^^^ r2
  let r2 := r2 &&& r0
  let r4 := ~~~r4
  let r2 := r2 ^^^ r4
  let r4 := r4 &&& r0
  let r1 := r1 ^^^ r3
  let r4 := r4 ^^^ r1
  (r0, r1, r2, r3, r4)

/-- serpentp.h:393-414 `I7` -/
def i7 (x : R5 w) : R5 w :=
  let (r0, r1, r2, r3, _) := x
  let r4 := r2
  let r2 := r2 ^^^ r0
  let r0 := r0 &&& r3
  let r2 := ~~~r2
  let r4 := r4 ||| r3
  let r3 := r3 ^^^ r1
  let r1 := r1 ||| r0
  let r0 := r0 ^^^ r2
  let r2 := r2 &&& r4
  let r1 := r1 ^^^ r2
  let r2 := r2 ^^^ r0
  let r0 := r0 ||| r2
  let r3 := r3 &&& r4
  let r0 := r0 ^^^ r3
  let r4 := r4 ^^^ r1
  let r3 := r3 ^^^ r4
  let r4 := r4 ||| r0
  let r3 := r3 ^^^ r2
  let r4 := r4 ^^^ r2
  (r0, r1, r2, r3, r4)

end

/-- serpentp.h:9-15 `LT` -/
def lt (x : R5 32) : R5 32 :=
  let (a, b, c, d, e) := x
  let a := rotl a 13
  let c := rotl c 3
  let d := rotl (d ^^^ c ^^^ (a <<< 3)) 7
  let b := rotl (b ^^^ a ^^^ c) 1
  let a := rotl (a ^^^ b ^^^ d) 5
  let c := rotl (c ^^^ d ^^^ (b <<< 7)) 22
  (a, b, c, d, e)

/-- serpentp.h:18-27 `ILT` -/
def ilt (x : R5 32) : R5 32 :=
  let (a, b, c, d, e) := x
  let c := rotr c 22
  let a := rotr a 5
  let c := c ^^^ (d ^^^ (b <<< 7))
  let a := a ^^^ (b ^^^ d)
  let b := rotr b 1
  let d := rotr d 7 ^^^ c ^^^ (a <<< 3)
  let b := b ^^^ (a ^^^ c)
  let c := rotr c 3
  let a := rotr a 13
  (a, b, c, d, e)

/-- serpentp.h:417-421 `KX`; the pointer `k` is `base` words into `m_key`. -/
def kx (k : List W32) (base r : Nat) (x : R5 32) : R5 32 :=
  let (a, b, c, d, e) := x
  (a ^^^ wd k (base + (4 * r + 0)), b ^^^ wd k (base + (4 * r + 1)), c ^^^ wd k (base + (4 * r + 2)), d ^^^ wd k (base + (4 * r + 3)), e)

/-! ## The key schedule -/

/-- serpent.cpp:20-23: the first eight words; `t` is the word before. -/
def first8 : Nat → Nat → List W32 → W32 → List W32 → List W32
  | 0, _, _, _, k => k
  | n + 1, i, k0, t, k =>
    let t := rotl (wd k0 i ^^^ wd k0 ((i + 3) % 8) ^^^ wd k0 ((i + 5) % 8) ^^^ t ^^^ 0x9e3779b9 ^^^ BitVec.ofNat 32 i) 11
    first8 n (i + 1) (k0.set i t) t (k ++ [t])

/-- serpent.cpp:24-25: `n` more words. -/
def more : Nat → Nat → W32 → List W32 → List W32
  | 0, _, _, k => k
  | n + 1, i, t, k =>
    let t := rotl (wd k (i - 8) ^^^ wd k (i - 5) ^^^ wd k (i - 3) ^^^ t ^^^ 0x9e3779b9 ^^^ BitVec.ofNat 32 i) 11
    more n (i + 1) t (k ++ [t])

/-- `o(LK); o(S); o'(SK);` with serpentp.h:423-433: the words at `base + (8-r)*4` are read in the order `o`, those at `base + (8-r')*4 + 4` are written in the order `o'`, where `r` and `r'` are the numbers of the orders.
`base` is negative at first. -/
def boxKey (o o' : Order 32) (S : R5 32 → R5 32) (base : Int) (k : List W32) : List W32 :=
  let at_ (j : Nat) := (base + ((8 - o.n) * 4 + j)).toNat
  let s := on' o S (o.put (wd k (at_ 0), wd k (at_ 1), wd k (at_ 2), wd k (at_ 3), 0))
  let (a, b, c, d, _) := o'.get s
  let to (j : Nat) := (base + ((8 - o'.n) * 4 + 4 + j)).toNat
  (((k.set (to 0) a).set (to 1) b).set (to 2) c).set (to 3) d

/-- The body of the loop (serpent.cpp:31-39). -/
def boxKeys (base : Int) (k : List W32) : List W32 :=
  let k := boxKey afterS2 afterS3 s3 base k
  let k := boxKey afterS1 afterS2 s2 base k
  let k := boxKey afterS0 afterS1 s1 base k
  let k := boxKey beforeS0 afterS0 s0 base k
  let base := base + 32
  let k := boxKey afterS6 afterS7 s7 base k
  let k := boxKey afterS5 afterS6 s6 base k
  let k := boxKey afterS4 afterS5 s5 base k
  boxKey afterS3 afterS4 s4 base k

/-- serpent.cpp:29-41 -/
def boxLoop : Nat → Int → List W32 → List W32
  | 0, base, k => boxKey afterS2 afterS3 s3 base k
  | n + 1, base, k => boxLoop n (base + 32) (boxKeys base k)

/-- `Serpent_KeySchedule` (serpent.cpp:13-42) with `rounds` 32. -/
def schedule (key : List Byte) : List W32 :=
  let k0 := getUserKey .little 4 8 key
  let k0 := if key.length < 32 then k0.set (key.length / 4) (wd k0 (key.length / 4) ||| (1 <<< (key.length % 4 * 8))) else k0
  let k := first8 8 0 k0 (wd k0 7) []
  let k := more 124 8 (wd k 7) k
  boxLoop 4 (-20) k

/-! ## Encryption and decryption -/

/-- serpent.cpp:63-70 -/
def rounds (k : List W32) (base : Nat) (s : R5 32) : R5 32 :=
  let s := on' afterS0 lt (on' beforeS0 s0 (on beforeS0 (kx k base) s))
  let s := on' afterS1 lt (on' afterS0 s1 (on afterS0 (kx k base) s))
  let s := on' afterS2 lt (on' afterS1 s2 (on afterS1 (kx k base) s))
  let s := on' afterS3 lt (on' afterS2 s3 (on afterS2 (kx k base) s))
  let s := on' afterS4 lt (on' afterS3 s4 (on afterS3 (kx k base) s))
  let s := on' afterS5 lt (on' afterS4 s5 (on afterS4 (kx k base) s))
  let s := on' afterS6 lt (on' afterS5 s6 (on afterS5 (kx k base) s))
  on' afterS6 s7 (on afterS6 (kx k base) s)

/-- serpent.cpp:76-80 -/
def shuffle (s : R5 32) : R5 32 :=
  let (a, b, _, d, e) := s
  let c := b
  let b := e
  let e := d
  let d := a
  let a := e
  (a, b, c, d, e)

/-- The loop of `Enc::ProcessAndXorBlock` (serpent.cpp:61-84); the first argument is `4 - i`. -/
def encLoop (k : List W32) : Nat → Nat → R5 32 → R5 32
  | 0, base, s => rounds k base s
  | n + 1, base, s => encLoop k n (base + 32) (on' beforeS0 lt (shuffle (rounds k base s)))

/-- `Enc::ProcessAndXorBlock` (serpent.cpp:52-89), on words; `e` is not initialised. -/
def encWords (k : List W32) (e : W32) : List W32 → List W32
  | [a, b, c, d] =>
    let (a, b, _, d, e) := on afterS7 (kx k 96) (encLoop k 3 0 (a, b, c, d, e))
    [d, e, b, a]
  | l => l

/-- serpent.cpp:111-118 -/
def invRounds (k : List W32) (base : Nat) (s : R5 32) : R5 32 :=
  let s := on afterI7 (kx k base) (on' beforeI7 i7 s)
  let s := on afterI6 (kx k base) (on' afterI7 i6 (on' afterI7 ilt s))
  let s := on afterI5 (kx k base) (on' afterI6 i5 (on' afterI6 ilt s))
  let s := on afterI4 (kx k base) (on' afterI5 i4 (on' afterI5 ilt s))
  let s := on afterI3 (kx k base) (on' afterI4 i3 (on' afterI4 ilt s))
  let s := on afterI2 (kx k base) (on' afterI3 i2 (on' afterI3 ilt s))
  let s := on afterI1 (kx k base) (on' afterI2 i1 (on' afterI2 ilt s))
  on afterI0 (kx k base) (on' afterI1 i0 (on' afterI1 ilt s))

/-- serpent.cpp:105-107 -/
def unshuffle (s : R5 32) : R5 32 :=
  let (a, b, _, d, e) := s
  let c := b
  let b := d
  let d := e
  (a, b, c, d, e)

/-- The loop of `Dec::ProcessAndXorBlock` (serpent.cpp:103-120); the first argument is `i - 1`. -/
def decLoop (k : List W32) : Nat → Nat → R5 32 → R5 32
  | 0, base, s => invRounds k base s
  | n + 1, base, s => decLoop k n (base - 32) (on' beforeI7 ilt (unshuffle (invRounds k base s)))

/-- `Dec::ProcessAndXorBlock` (serpent.cpp:91-123), on words. -/
def decWords (k : List W32) : List W32 → List W32
  | [a, b, c, d] =>
    let (a, b, _, d, e) := decLoop k 3 96 (on beforeI7 (kx k 96) (a, b, c, d, 0))
    [a, d, b, e]
  | l => l

/-- `SetKey` (cryptlib.cpp:58-62) with the key lengths of serpent.h:18, and the two directions; `e` is what the uninitialised variable holds. -/
def setKey (e : W32) (key : List Byte) : Except Err Keyed :=
  if key.length ≠ 16 ∧ key.length ≠ 24 ∧ key.length ≠ 32 then .error .invalidArgument
  else .ok (Cipher.ofWords .little 4 4 (encWords (schedule key) e) (decWords (schedule key)))

end Verif.Serpent
