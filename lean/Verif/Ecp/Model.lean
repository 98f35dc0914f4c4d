import Verif.Algebra.Model
import Verif.Dl.Model

/-!
# Elliptic curves over prime fields (ecp.h, ecp.cpp)

Field elements and coordinates are the integers the `Integer` objects hold.  The field is an interface: `ECP` calls the virtual functions of
`ModularArithmetic`, which its subclass `MontgomeryRepresentation` overrides.  What those functions compute is proved at the level of words and
of the registers they return in C26; here the field operations are the functions on values.
-/
namespace Verif.Ecp
open Verif.Misc (bitLen)
open Verif.Algebra

/-! ## The field -/

/-- modarith.h:35-297, the operations `ECP` uses; `inv` is `MultiplicativeInverse`, `neg` is `Inverse`. -/
structure Fld where
  modulus : Int
  add : Int → Int → Int
  sub : Int → Int → Int
  mul : Int → Int → Int
  sq : Int → Int
  dbl : Int → Int
  neg : Int → Int
  half : Int → Int
  inv : Int → Int
  one : Int

/-- modarith.h:218-219 `Divide`. -/
def Fld.div (F : Fld) (a b : Int) : Int := F.mul a (F.inv b)

/-- integer.cpp:4574-4583 `Half`. -/
def halfMod (m a : Int) : Int := if a % 2 = 0 then a / 2 else (a + m) / 2

/-- `ModularArithmetic` for the modulus `m`. -/
def plain (m : Int) : Fld where
  modulus := m
  add := fun a b => (a + b) % m
  sub := fun a b => (a - b) % m
  mul := fun a b => a * b % m
  sq := fun a => a * a % m
  dbl := fun a => (a + a) % m
  neg := fun a => -a % m
  half := halfMod m
  inv := fun a => Dl.invMod a m
  one := 1

/-- `MontgomeryRepresentation` for the modulus `m` (integer.cpp:4695-4788); `R` is `2^(WORD_BITS * m_modulus.reg.size())`. -/
def mont (R m : Int) : Fld where
  modulus := m
  add := fun a b => (a + b) % m
  sub := fun a b => (a - b) % m
  mul := fun a b => a * b * Dl.invMod R m % m
  sq := fun a => a * a * Dl.invMod R m % m
  dbl := fun a => (a + a) % m
  neg := fun a => -a % m
  half := halfMod m
  inv := fun a => Dl.invMod a m * R * R % m
  one := R % m

/-- `MontgomeryRepresentation::ConvertIn` (modarith.h:303-304). -/
def convertIn (R m a : Int) : Int := a * R % m

/-- `MontgomeryRepresentation::ConvertOut` (integer.cpp:4744-4754). -/
def convertOut (R m a : Int) : Int := a * Dl.invMod R m % m

/-! ## Points and the group operations -/

/-- ecpoint.h:20-47. -/
structure Pt where
  identity : Bool
  x : Int
  y : Int
deriving DecidableEq

/-- `ECPPoint()`: the coordinates are `Integer()`, zero. -/
def Pt.zero : Pt := ⟨true, 0, 0⟩

/-- `m_fieldPtr`, `m_a`, `m_b`. -/
structure Ec where
  F : Fld
  a : Int
  b : Int

/-- ecp.h:51-52, the constructor. -/
def mk' (modulus a b : Int) : Ec := ⟨plain modulus, if a < 0 then modulus + a else a, b⟩

/-- ecp.cpp:62-72, the constructor converting to Montgomery representation. -/
def toMont (R : Int) (C : Ec) : Ec := ⟨mont R C.F.modulus, convertIn R C.F.modulus C.a, convertIn R C.F.modulus C.b⟩

/-- ecp.cpp:34-37 `ToMontgomery`. -/
def ptIn (R m : Int) (P : Pt) : Pt := if P.identity then P else ⟨false, convertIn R m P.x, convertIn R m P.y⟩

/-- ecp.cpp:39-42 `FromMontgomery`. -/
def ptOut (R m : Int) (P : Pt) : Pt := if P.identity then P else ⟨false, convertOut R m P.x, convertOut R m P.y⟩

/-- ecp.cpp:217-224 `VerifyPoint`. -/
def verifyPoint (C : Ec) (P : Pt) : Bool :=
  P.identity || (decide (0 ≤ P.x) && decide (P.x < C.F.modulus) && decide (0 ≤ P.y) && decide (P.y < C.F.modulus) &&
    decide (((P.x * P.x + C.a) * P.x + C.b - P.y * P.y) % C.F.modulus = 0))

/-- ecp.cpp:201-215 `ValidateParameters`; `prime` is the result of `VerifyPrime(rng, p)`. -/
def validate (C : Ec) (level : Nat) (prime : Bool) : Bool :=
  let p := C.F.modulus
  let pass := decide (p % 2 = 1)
  let pass := pass && decide (0 ≤ C.a) && decide (C.a < p) && decide (0 ≤ C.b) && decide (C.b < p)
  let pass := if level ≥ 1 then pass && decide (0 < (4 * C.a * C.a * C.a + 27 * C.b * C.b) % p) else pass
  if level ≥ 2 then pass && prime else pass

/-- ecp.cpp:226-239 `Equal`. -/
def equal (P Q : Pt) : Bool :=
  if P.identity && Q.identity then true
  else if P.identity && !Q.identity then false
  else if !P.identity && Q.identity then false
  else decide (P.x = Q.x) && decide (P.y = Q.y)

/-- ecp.cpp:252-263 `Inverse`. -/
def inverse (C : Ec) (P : Pt) : Pt := if P.identity then P else ⟨false, P.x, C.F.neg P.y⟩

/-- ecp.cpp:282-295 `Double`. -/
def double (C : Ec) (P : Pt) : Pt :=
  if P.identity || decide (P.y = 0) then .zero
  else
    let F := C.F
    let t := F.sq P.x
    let t := F.add (F.add (F.dbl t) t) C.a
    let t := F.div t (F.dbl P.y)
    let x := F.sub (F.sub (F.sq t) P.x) P.x
    ⟨false, x, F.sub (F.mul t (F.sub P.x x)) P.y⟩

/-- ecp.cpp:265-280 `Add`. -/
def add (C : Ec) (P Q : Pt) : Pt :=
  if P.identity then Q
  else if Q.identity then P
  else if P.x = Q.x then (if P.y = Q.y then double C P else .zero)
  else
    let F := C.F
    let t := F.sub Q.y P.y
    let t := F.div t (F.sub Q.x P.x)
    let x := F.sub (F.sub (F.sq t) P.x) Q.x
    ⟨false, x, F.sub (F.mul t (F.sub P.x x)) P.y⟩

/-! The functions above return a reference, often to the member `m_R`, and their arguments are references too.  The same functions, statement by
statement, with arguments that may refer to `m_R`: -/

/-- An argument: some other object, or the member `m_R`. -/
inductive Arg
  | val (P : Pt)
  | mR

/-- What the argument reads as, when `m_R` is `R`. -/
def Arg.get (R : Pt) : Arg → Pt
  | .val P => P
  | .mR => R

/-- `Inverse`: the object the result refers to, and the new `m_R`. -/
def inverseRef (C : Ec) (R : Pt) (P : Arg) : Arg × Pt :=
  if (P.get R).identity then (P, R)
  else
    let R := { R with identity := false }
    let R := { R with x := (P.get R).x }
    let R := { R with y := C.F.neg (P.get R).y }
    (.mR, R)

/-- `Double`. -/
def doubleRef (C : Ec) (R : Pt) (P : Arg) : Arg × Pt :=
  if (P.get R).identity || decide ((P.get R).y = 0) then (.val .zero, R)
  else
    let F := C.F
    let t := F.sq (P.get R).x
    let t := F.add (F.add (F.dbl t) t) C.a
    let t := F.div t (F.dbl (P.get R).y)
    let x := F.sub (F.sub (F.sq t) (P.get R).x) (P.get R).x
    let R := { R with y := F.sub (F.mul t (F.sub (P.get R).x x)) (P.get R).y }
    let R := { R with x := x }
    let R := { R with identity := false }
    (.mR, R)

/-- `Add`. -/
def addRef (C : Ec) (R : Pt) (P Q : Arg) : Arg × Pt :=
  if (P.get R).identity then (Q, R)
  else if (Q.get R).identity then (P, R)
  else if (P.get R).x = (Q.get R).x then (if (P.get R).y = (Q.get R).y then doubleRef C R P else (.val .zero, R))
  else
    let F := C.F
    let t := F.sub (Q.get R).y (P.get R).y
    let t := F.div t (F.sub (Q.get R).x (P.get R).x)
    let x := F.sub (F.sub (F.sq t) (P.get R).x) (Q.get R).x
    let R := { R with y := F.sub (F.mul t (F.sub (P.get R).x x)) (P.get R).y }
    let R := { R with x := x }
    let R := { R with identity := false }
    (.mR, R)

/-- `AbstractGroup::Subtract` (algebra.cpp:20-25): the first argument is copied before `Inverse` may overwrite it. -/
def subRef (C : Ec) (R : Pt) (P Q : Arg) : Arg × Pt :=
  let i := inverseRef C R Q
  addRef C i.2 (.val (P.get R)) i.1

/-- The group object: `Accumulate(a, b)` is `a = Add(a, b)` (algebra.cpp:27-30). -/
def grp (C : Ec) : Grp Unit Pt where
  ident := pure .zero
  add := fun P Q => pure (add C P Q)
  acc := fun P Q => pure (add C P Q)
  dbl := fun P => pure (double C P)
  inv := fun P => pure (inverse C P)
  fast := true
  cp := id

/-! ## `SimultaneousMultiply` -/

/-- ecp.cpp:49-56. -/
structure PPt where
  x : Int
  y : Int
  z : Int

/-- ecp.cpp:334-376 `class ProjectiveDoubling`. -/
structure PD where
  P : PPt
  sixteenY4 : Int
  aZ4 : Int

/-- ecp.cpp:337-353, the constructor. -/
def PD.mk' (C : Ec) (Q : Pt) : PD :=
  if Q.identity then ⟨⟨C.F.one, C.F.one, 0⟩, C.F.one, 0⟩
  else ⟨⟨Q.x, Q.y, C.F.one⟩, C.F.one, C.a⟩

/-- ecp.cpp:355-371 `ProjectiveDoubling::Double`. -/
def PD.double (F : Fld) (d : PD) : PD :=
  let twoY := F.dbl d.P.y
  let z := F.mul d.P.z twoY
  let fourY2 := F.sq twoY
  let S := F.mul fourY2 d.P.x
  let aZ4 := F.mul d.aZ4 d.sixteenY4
  let M := F.sq d.P.x
  let M := F.add (F.add (F.dbl M) M) aZ4
  let x := F.sq M
  let x := F.sub x S
  let x := F.sub x S
  let S := F.sub S x
  let y := F.mul M S
  let sixteenY4 := F.sq fourY2
  let y := F.sub y (F.half sixteenY4)
  ⟨⟨x, y, z⟩, sixteenY4, aZ4⟩

/-- ecp.cpp:304-311: `vec[i] = it[2i] * it[2i+1]`, an odd one out is copied. -/
def pairUp (F : Fld) : List Int → List Int
  | [] => []
  | [a] => [a]
  | a :: b :: l => F.mul a b :: pairUp F l

/-- ecp.cpp:315-330: from the inverses of the products to the inverses. -/
def unpair (F : Fld) : List Int → List Int → List Int
  | a :: b :: l, v :: vs => (if v = 0 then [F.inv a, F.inv b] else [F.mul b v, F.mul a v]) ++ unpair F l vs
  | [_], v :: _ => [v]
  | _, _ => []

/-- ecp.cpp:297-332 `ParallelInvert`; the first argument bounds the depth of the recursion. -/
def parallelInvert (F : Fld) : Nat → List Int → List Int
  | _, [] => []
  | _, [a] => [F.inv a]
  | 0, l => l
  | n + 1, l => unpair F l (parallelInvert F n (pairUp F l))

/-- ecp.cpp:462-471: one base from projective to affine coordinates, given the inverse of its `z`. -/
def affine (F : Fld) (b : PPt) (z : Int) : PPt :=
  if z ≠ 0 then
    let y := F.mul b.y z
    let z := F.sq z
    ⟨F.mul b.x z, F.mul y z, z⟩
  else ⟨b.x, b.y, z⟩

/-- An entry of `exponentWindows[i]`, `baseIndices[i]`, `negateBase[i]`. -/
structure Win where
  window : Nat
  base : Nat
  negate : Bool

/-- `WindowSlider(e, true, 5)`. -/
def slider (e : Nat) : Slider := ⟨e, 5, 0, 0, true, false, true, false⟩

/-- ecp.cpp:432-452: the exponents in one pass; `bases` and whether the current multiple has been added to it. -/
def passAll (wb pos : Nat) (P : PPt) : List (Slider × List Win) → List PPt → Bool → List (Slider × List Win) × List PPt
  | [], bases, _ => ([], bases)
  | (s, ws) :: l, bases, added =>
    if s.finished = false ∧ pos = s.windowBegin then
      let bases := if added then bases else bases ++ [P]
      let r := passAll wb pos P l bases true
      ((s.next wb, ws ++ [⟨s.expWindow, bases.length - 1, s.negateNext⟩]) :: r.1, r.2)
    else
      let r := passAll wb pos P l bases added
      ((s, ws) :: r.1, r.2)

/-- ecp.cpp:427-458: the loop over bit positions. -/
def loop (F : Fld) (wb : Nat) : Nat → Nat → PD → List (Slider × List Win) → List PPt → M Unit (List (Slider × List Win) × List PPt)
  | 0, _, _, _, _ => fail .diverges
  | fuel + 1, pos, rd, st, bases =>
    let r := passAll wb pos rd.P st bases false
    if r.1.any (fun sw => !sw.1.finished) then loop F wb fuel (pos + 1) (rd.double F) r.1 r.2
    else pure r

/-- ecp.cpp:478-491: one entry of the final cascade.  (A point at infinity keeps the coordinates of an earlier entry, which nothing reads; here they
are zero.) -/
def entry (F : Fld) (bases : List PPt) (w : Win) : M Unit (Pt × Nat) :=
  match bases[w.base]? with
  | none => fail .undefinedBehaviour
  | some b =>
    if b.z = 0 then pure (⟨true, 0, 0⟩, w.window)
    else pure (⟨false, b.x, if w.negate then F.neg b.y else b.y⟩, w.window)

/-- ecp.cpp:477-492, all of them. -/
def entries (F : Fld) (bases : List PPt) : List Win → M Unit (List (Pt × Nat))
  | [] => pure []
  | w :: ws => do
    let e ← entry F bases w
    let l ← entries F bases ws
    pure (e :: l)

/-- ecp.cpp:473-494: the results, by `GeneralCascadeMultiplication`. -/
def results (C : Ec) (ms : Muls Unit Pt) (heap0 heap : List (Pt × Nat) → List (Pt × Nat)) (bases : List PPt) : List (Slider × List Win) → M Unit (List Pt)
  | [] => pure []
  | sw :: l => do
    let es ← entries C.F bases sw.2
    let r ← generalCascade (grp C) ms heap0 heap es
    let rs ← results C ms heap0 heap bases l
    pure (r :: rs)

/-- ecp.cpp:411-495 `SimultaneousMultiply` in a field in Montgomery representation; `ms` is `*this` as a group object. -/
def simMont (C : Ec) (wb : Nat) (heap0 heap : List (Pt × Nat) → List (Pt × Nat)) (ms : Muls Unit Pt) (P : Pt) (es : List Nat) : M Unit (List Pt) := do
  let (st, bases) ← loop C.F wb (simFuel es) 0 (.mk' C P) (es.map fun e => ((slider e).next wb, [])) []
  let zs := parallelInvert C.F bases.length (bases.map (·.z))
  results C ms heap0 heap (List.zipWith (affine C.F) bases zs) st

/-- The one element of the result array. -/
def one' : List Pt → M Unit Pt
  | [r] => pure r
  | _ => fail .undefinedBehaviour

/-- The virtual functions in a field in Montgomery representation: ecp.cpp:389-397 `ScalarMultiply`, which calls ecp.cpp:399-495
`SimultaneousMultiply`, which through `GeneralCascadeMultiplication` may call `ScalarMultiply` again (the first argument bounds the depth), and
ecp.cpp:506 `CascadeScalarMultiply`. -/
def montMuls (C : Ec) (wb : Nat) (heap0 heap : List (Pt × Nat) → List (Pt × Nat)) : Nat → Muls Unit Pt
  | 0 => ⟨fun _ _ => fail .diverges, fun _ _ _ _ => fail .diverges⟩
  | depth + 1 => ⟨fun P k =>
      if bitLen k ≤ 5 then scalarMultiply (grp C) wb P k
      else do
        let rs ← simMont C wb heap0 heap (montMuls C wb heap0 heap depth) P [k]
        one' rs,
    cascadeScalarMultiply (grp C)⟩

/-- ecp.cpp:401-409 `SimultaneousMultiply` in a plain field. -/
def simPlain (R : Int) (C : Ec) (wb : Nat) (heap0 heap : List (Pt × Nat) → List (Pt × Nat)) (depth : Nat) (P : Pt) (es : List Nat) : M Unit (List Pt) := do
  let rs ← simMont (toMont R C) wb heap0 heap (montMuls (toMont R C) wb heap0 heap depth) (ptIn R C.F.modulus P) es
  pure (rs.map (ptOut R C.F.modulus))

/-- ecp.cpp:389-397 `ScalarMultiply` and ecp.cpp:497-504 `CascadeScalarMultiply` in a plain field. -/
def plainMuls (R : Int) (C : Ec) (wb : Nat) (heap0 heap : List (Pt × Nat) → List (Pt × Nat)) (depth : Nat) : Muls Unit Pt :=
  ⟨fun P k =>
      if bitLen k ≤ 5 then scalarMultiply (grp C) wb P k
      else do
        let rs ← simPlain R C wb heap0 heap depth P [k]
        one' rs,
    fun P k1 Q k2 => do
      let r ← cascadeScalarMultiply (grp (toMont R C)) (ptIn R C.F.modulus P) k1 (ptIn R C.F.modulus Q) k2
      pure (ptOut R C.F.modulus r)⟩

/-! ## Fixed-base precomputation (`EcPrecomputation<ECP>`, ecp.h:124-160, with eprecomp.cpp) -/

/-- `SetBase`, `Precompute` and then `Exponentiate`, in Montgomery representation with conversions. -/
def fixedBase (R : Int) (C : Ec) (wb : Nat) (heap0 heap : List (Pt × Nat) → List (Pt × Nat)) (depth : Nat) (P : Pt) (maxExpBits storage e : Nat) : M Unit Pt := do
  let D := toMont R C
  let ms := montMuls D wb heap0 heap depth
  let pc ← precompute (grp D) ms (ptIn R C.F.modulus P) maxExpBits storage
  let r ← pc.exponentiate (grp D) ms heap0 heap e
  pure (ptOut R C.F.modulus r)

/-- `CascadeExponentiate` of two precomputations. -/
def fixedBaseCascade (R : Int) (C : Ec) (wb : Nat) (heap0 heap : List (Pt × Nat) → List (Pt × Nat)) (depth : Nat) (P Q : Pt) (max1 max2 st1 st2 e1 e2 : Nat) : M Unit Pt := do
  let D := toMont R C
  let ms := montMuls D wb heap0 heap depth
  let pc ← precompute (grp D) ms (ptIn R C.F.modulus P) max1 st1
  let pc2 ← precompute (grp D) ms (ptIn R C.F.modulus Q) max2 st2
  let r ← pc.cascadeExponentiate (grp D) ms heap0 heap pc2 e1 e2
  pure (ptOut R C.F.modulus r)

end Verif.Ecp
