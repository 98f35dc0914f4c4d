import Verif.Common
import Verif.Misc.Precision

/-!
# `AbstractGroup` scalar multiplication (algebra.cpp:90-314) and fixed-base precomputation (eprecomp.cpp)

The group is an interface, as in the C++ class: its operations may fail and may change the state of the group object (the `mutable`
members results are returned in).  Exponents are natural numbers: the `Integer` operations used on them (`GetBit`, `BitCount`, `>>=`,
`%`, `+=`, `Divide`, `DivideByPowerOf2`) are proved exact in `Verif.Integer`, and are replaced here by the numbers they compute.
`unsigned int` positions are natural numbers (an exponent has fewer than `2^32` bits).
-/
namespace Verif.Algebra
open Verif.Misc (bitLen)

/-- A C++ computation: it may throw (or run into undefined behaviour) and changes the group object's state. -/
abbrev M (S α : Type) := StateT S (Except Err) α

/-- Stop with an error. -/
def fail {S α : Type} (e : Err) : M S α := fun _ => .error e

/-- algebra.h:26-103: the virtual functions of `AbstractGroup<T>`.  `add`, `dbl` and `inv` return a reference to a member of the group
object; `cp` is what becomes of such an element when it is copied into a variable (`Element x = ref;` or `x = ref;`). -/
structure Grp (S E : Type) where
  ident : M S E
  add : E → E → M S E
  acc : E → E → M S E
  dbl : E → M S E
  inv : E → M S E
  fast : Bool
  cp : E → E

variable {S E : Type}

/-- Indexing a `std::vector`. -/
def at' (l : List E) (i : Nat) : M S E :=
  match l[i]? with
  | some x => pure x
  | none => fail .undefinedBehaviour

/-! ## Sliding windows -/

/-- algebra.cpp:206-253 `struct WindowSlider` (`windowModulus` is `2^windowSize`). -/
structure Slider where
  exp : Nat
  windowSize : Nat
  windowBegin : Nat
  expWindow : Nat
  fastNegate : Bool
  negateNext : Bool
  firstTime : Bool
  finished : Bool

/-- algebra.cpp:212-216: the window size for an exponent length. -/
def windowFor (expLen : Nat) : Nat :=
  if expLen ≤ 17 then 1 else if expLen ≤ 24 then 2 else if expLen ≤ 70 then 3 else if expLen ≤ 197 then 4
  else if expLen ≤ 539 then 5 else if expLen ≤ 1434 then 6 else 7

/-- algebra.cpp:208-218, the constructor with `windowSizeIn = 0`. -/
def Slider.mk' (e : Nat) (fast : Bool) : Slider := ⟨e, windowFor (bitLen e), 0, 0, fast, false, true, false⟩

/-- algebra.cpp:225-233: skip zero bits; `none` when the end of the exponent is reached. -/
def skipZeros (exp expLen skip : Nat) : Option Nat :=
  if exp.testBit skip then some skip
  else if skip ≥ expLen then none
  else skipZeros exp expLen (skip + 1)
termination_by expLen - skip

/-- algebra.cpp:220-247 `FindNextWindow`; `wb` is `WORD_BITS`. -/
def Slider.next (wb : Nat) (s : Slider) : Slider :=
  let expLen := (bitLen s.exp + wb - 1) / wb * wb
  match skipZeros s.exp expLen (if s.firstTime then 0 else s.windowSize) with
  | none => { s with firstTime := false, finished := true }
  | some skip =>
    let exp := s.exp >>> skip
    let win := exp % 2 ^ s.windowSize
    if s.fastNegate && exp.testBit s.windowSize then
      { s with firstTime := false, exp := exp + 2 ^ s.windowSize, windowBegin := s.windowBegin + skip,
               expWindow := 2 ^ s.windowSize - win, negateNext := true }
    else
      { s with firstTime := false, exp := exp, windowBegin := s.windowBegin + skip, expWindow := win, negateNext := false }

/-! ## `SimultaneousMultiply` -/

/-- algebra.cpp:280-288: one exponent in one pass of the loop. -/
def stepOne (grp : Grp S E) (wb pos : Nat) (g : E) (sb : Slider × List E) : M S (Slider × List E) :=
  if sb.1.finished = false ∧ pos = sb.1.windowBegin then do
    let b ← at' sb.2 (sb.1.expWindow / 2)
    let b' ← (if sb.1.negateNext then do
        let ng ← grp.inv g
        grp.acc b ng
      else grp.acc b g)
    pure (sb.1.next wb, sb.2.set (sb.1.expWindow / 2) b')
  else pure sb

/-- algebra.cpp:278-290: all exponents in one pass. -/
def stepAll (grp : Grp S E) (wb pos : Nat) (g : E) : List (Slider × List E) → M S (List (Slider × List E))
  | [] => pure []
  | sb :: l => do
    let sb' ← stepOne grp wb pos g sb
    let l' ← stepAll grp wb pos g l
    pure (sb' :: l')

/-- algebra.cpp:275-297: the loop over bit positions.  `diverges` if it does not end within the fuel. -/
def simLoop (grp : Grp S E) (wb : Nat) : Nat → Nat → E → List (Slider × List E) → M S (List (Slider × List E))
  | 0, _, _, _ => fail .diverges
  | fuel + 1, pos, g, st => do
    let st' ← stepAll grp wb pos g st
    if st'.any (fun sb => !sb.1.finished) then do
      let d ← grp.dbl g
      simLoop grp wb fuel (pos + 1) (grp.cp d) st'
    else pure st'

/-- algebra.cpp:305-309: `for (j = size-2; j >= 1; j--)`, called with `j = size-2`. -/
def combLoop (grp : Grp S E) : Nat → List E → E → M S (List E × E)
  | 0, bs, r => pure (bs, r)
  | j + 1, bs, r => do
    let b ← at' bs (j + 1)
    let c ← at' bs (j + 2)
    let b' ← grp.acc b c
    let r' ← grp.acc r b'
    combLoop grp j (bs.set (j + 1) b') r'

/-- algebra.cpp:301-312: combine the buckets of one exponent. -/
def combine (grp : Grp S E) (bs : List E) : M S E := do
  let l ← at' bs (bs.length - 1)
  let r := grp.cp l
  if bs.length > 1 then do
    let (bs, r) ← combLoop grp (bs.length - 2) bs r
    let b0 ← at' bs 0
    let b1 ← at' bs 1
    let b0' ← grp.acc b0 b1
    let d ← grp.dbl r
    let res ← grp.add d b0'
    pure (grp.cp res)
  else pure r

/-- algebra.cpp:263-269: the sliders and their buckets, all `Identity()`. -/
def initAll (grp : Grp S E) (wb : Nat) : List Nat → M S (List (Slider × List E))
  | [] => pure []
  | e :: l => do
    let s := (Slider.mk' e grp.fast).next wb
    let i ← grp.ident
    let rest ← initAll grp wb l
    pure ((s, List.replicate (2 ^ (s.windowSize - 1)) (grp.cp i)) :: rest)

/-- algebra.cpp:299-313: the results. -/
def combineAll (grp : Grp S E) : List (Slider × List E) → M S (List E)
  | [] => pure []
  | sb :: l => do
    let r ← combine grp sb.2
    let rs ← combineAll grp l
    pure (r :: rs)

/-- The fuel: one pass per bit of the longest exponent, and two more. -/
def simFuel (es : List Nat) : Nat := es.foldr (fun e f => max (bitLen e + 2) f) 2

/-- algebra.cpp:255-314 `AbstractGroup::SimultaneousMultiply`. -/
def simultaneousMultiply (grp : Grp S E) (wb : Nat) (base : E) (es : List Nat) : M S (List E) := do
  let st ← initAll grp wb es
  let st' ← simLoop grp wb (simFuel es) 0 (grp.cp base) st
  combineAll grp st'

/-- algebra.cpp:90-95 `ScalarMultiply`. -/
def scalarMultiply (grp : Grp S E) (wb : Nat) (base : E) (e : Nat) : M S E := do
  let rs ← simultaneousMultiply grp wb base [e]
  at' rs 0

/-! ## `CascadeScalarMultiply` -/

/-- One assignment to the power table. -/
inductive Step where
  | x (dst : Nat)
  | y (dst : Nat)
  | dblx (dst : Nat)
  | dbly (dst : Nat)
  | addxy (dst : Nat)
  | add (dst a b : Nat)
  | addx (dst a : Nat)
  | addy (dst a : Nat)

/-- `for (i = a; i < b; i += step)`. -/
def upto (a b step : Nat) : List Nat := List.range' a ((b - a + step - 1) / step) step

/-- algebra.cpp:107-129: the assignments that fill `powerTable`, in order. -/
def tableSteps (w : Nat) : List Step :=
  let t := 2 ^ w
  [.x 1, .y t] ++
  (if w = 1 then [.addxy 3]
   else
    [.dblx 2, .dbly (2 * t)] ++
    (upto 3 t 2).map (fun i => .add i (i - 2) 2) ++
    (upto 1 t 2).flatMap (fun i => (upto (i + t) (t * t) t).map (fun j => .addy j (j - t))) ++
    (upto (3 * t) (t * t) (2 * t)).map (fun i => .add i (i - 2 * t) (2 * t)) ++
    (upto t (t * t) (2 * t)).flatMap (fun i => (upto (i + 2) (i + t) 2).map (fun j => .addx j (j - 1))))

/-- Reading the power table.  An entry that was never assigned is a default-constructed element; the model treats reading it as an
error of its own. -/
def tab (t : List (Option E)) (i : Nat) : M S E :=
  match t[i]? with
  | some (some e) => pure e
  | _ => fail .undefinedBehaviour

/-- Execute one assignment. -/
def Step.exec (grp : Grp S E) (x y : E) (t : List (Option E)) : Step → M S (List (Option E))
  | .x d => pure (t.set d (some (grp.cp x)))
  | .y d => pure (t.set d (some (grp.cp y)))
  | .dblx d => do let r ← grp.dbl x; pure (t.set d (some (grp.cp r)))
  | .dbly d => do let r ← grp.dbl y; pure (t.set d (some (grp.cp r)))
  | .addxy d => do let r ← grp.add x y; pure (t.set d (some (grp.cp r)))
  | .add d a b => do
    let p ← tab t a
    let q ← tab t b
    let r ← grp.add p q
    pure (t.set d (some (grp.cp r)))
  | .addx d a => do
    let p ← tab t a
    let r ← grp.add p x
    pure (t.set d (some (grp.cp r)))
  | .addy d a => do
    let p ← tab t a
    let r ← grp.add p y
    pure (t.set d (some (grp.cp r)))

/-- Execute all assignments. -/
def runSteps (grp : Grp S E) (x y : E) : List Step → List (Option E) → M S (List (Option E))
  | [], t => pure t
  | s :: l, t => do
    let t' ← s.exec grp x y t
    runSteps grp x y l t'

/-- algebra.cpp:145-151: halve both digits while both are even; the third component counts the halvings. -/
def halve (p1 p2 : Nat) : Nat × Nat × Nat :=
  if _h : (p1 ≠ 0 ∨ p2 ≠ 0) ∧ p1 % 2 = 0 ∧ p2 % 2 = 0 then
    let r := halve (p1 / 2) (p2 / 2)
    (r.1, r.2.1, r.2.2 + 1)
  else (p1, p2, 0)
termination_by p1 + p2
decreasing_by omega

/-- `while (n--) result = Double(result);`. -/
def dblN (grp : Grp S E) : Nat → E → M S E
  | 0, r => pure r
  | n + 1, r => do
    let d ← grp.dbl r
    dblN grp n (grp.cp d)

/-- algebra.cpp:132-168: the loop over the bits, from `i = n-1` down; `res` is empty while `firstTime`.  If `squaresBefore` were
decremented below zero the squaring loop would run `2^32` times more: `diverges`. -/
def cascLoop (grp : Grp S E) (w : Nat) (t : List (Option E)) (e1 e2 : Nat) : Nat → Nat → Nat → Nat → Option E → M S (Option E)
  | 0, _, _, _, res => pure res
  | i + 1, p1, p2, prev, res =>
    let p1 := 2 * p1 + (e1.testBit i).toNat
    let p2 := 2 * p2 + (e2.testBit i).toNat
    if i = 0 ∨ 2 * p1 ≥ 2 ^ w ∨ 2 * p2 ≥ 2 ^ w then do
      let h := halve p1 p2
      let r ← (match res with
        | none => do
          let e ← tab t (h.2.1 <<< w + h.1)
          pure (grp.cp e)
        | some r =>
          if h.2.2 > prev - i then fail .diverges
          else do
            let r ← dblN grp (prev - i - h.2.2) r
            if h.1 ≠ 0 ∨ h.2.1 ≠ 0 then do
              let e ← tab t (h.2.1 <<< w + h.1)
              grp.acc r e
            else pure r)
      let r ← dblN grp h.2.2 r
      cascLoop grp w t e1 e2 i 0 0 i (some r)
    else cascLoop grp w t e1 e2 i p1 p2 prev res

/-- algebra.cpp:97-170 `CascadeScalarMultiply`. -/
def cascadeScalarMultiply (grp : Grp S E) (x : E) (e1 : Nat) (y : E) (e2 : Nat) : M S E := do
  let expLen := max (bitLen e1) (bitLen e2)
  if expLen = 0 then do
    let i ← grp.ident
    pure (grp.cp i)
  else do
    let w := if expLen ≤ 46 then 1 else if expLen ≤ 260 then 2 else 3
    let t ← runSteps grp x y (tableSteps w) (List.replicate (2 ^ w <<< w) none)
    let r ← cascLoop grp w t e1 e2 expLen 0 0 (expLen - 1) none
    match r with
    | some r => pure r
    | none => fail .undefinedBehaviour

/-! ## `GeneralCascadeMultiplication` -/

/-- algebra.h:86-94: the virtual functions `ScalarMultiply` and `CascadeScalarMultiply` of the group object. -/
structure Muls (S E : Type) where
  smul : E → Nat → M S E
  casc : E → Nat → E → Nat → M S E

/-- The functions of `AbstractGroup`, if the class of the group does not override them. -/
def Muls.abstract (grp : Grp S E) (wb : Nat) : Muls S E := ⟨scalarMultiply grp wb, cascadeScalarMultiply grp⟩

/-- algebra.cpp:187-202: the loop; `heap` stands for `push_heap` followed by `pop_heap` (see `HeapOk` for what is assumed of it). -/
def genLoop (grp : Grp S E) (ms : Muls S E) (heap : List (E × Nat) → List (E × Nat)) : Nat → List (E × Nat) → M S E
  | 0, _ => fail .diverges
  | fuel + 1, l =>
    match l with
    | [] => fail .undefinedBehaviour
    | (bb, be) :: rest =>
      match rest.getLast? with
      | none => fail .undefinedBehaviour
      | some (lb, le) =>
        if be ≠ 0 then do
          let q := le / be
          let bb' ← (if q = 1 then grp.acc bb lb else do
            let m ← ms.smul lb q
            grp.acc bb m)
          genLoop grp ms heap fuel (heap ((bb', be) :: (rest.dropLast ++ [(lb, le % be)])))
        else ms.smul lb le

/-- algebra.cpp:172-204 `GeneralCascadeMultiplication`; `heap0` is `make_heap` followed by `pop_heap`. -/
def generalCascade (grp : Grp S E) (ms : Muls S E) (heap0 heap : List (E × Nat) → List (E × Nat)) (l : List (E × Nat)) : M S E :=
  match l with
  | [] => fail .undefinedBehaviour
  | [(b, e)] => ms.smul b e
  | [(b1, e1), (b2, e2)] => ms.casc b1 e1 b2 e2
  | l => genLoop grp ms heap ((l.map (·.2)).sum + 1) (heap0 l)

/-! ## Fixed-base precomputation (eprecomp.cpp:14-110) -/

/-- `m_windowSize`, `m_bases` (and `m_exponentBase = 2^m_windowSize` once `Precompute` ran with `storage > 1`). -/
structure Precomp (E : Type) where
  windowSize : Nat
  bases : List E

/-- eprecomp.cpp:40-41 (`m_bases[i] = ScalarMultiply(m_bases[i-1], m_exponentBase)`), for `n` more bases after `b`. -/
def preBases (ms : Muls S E) (win : Nat) : Nat → E → M S (List E)
  | 0, _ => pure []
  | n + 1, b => do
    let b' ← ms.smul b (2 ^ win)
    let l ← preBases ms win n b'
    pure (b' :: l)

/-- eprecomp.cpp:14-26 `SetBase` followed by eprecomp.cpp:28-42 `Precompute`, without conversions.  (With `storage = 0` the bases are
cleared.) -/
def precompute (grp : Grp S E) (ms : Muls S E) (base : E) (maxExpBits storage : Nat) : M S (Precomp E) := do
  let win := if storage > 1 then (maxExpBits + storage - 1) / storage else 0
  if storage = 0 then pure ⟨win, []⟩
  else do
    let l ← preBases ms win (storage - 1) (grp.cp base)
    pure ⟨win, grp.cp base :: l⟩

/-- eprecomp.cpp:69-90 `PrepareCascade`.  (`m_bases[i]` is read after the loop: with no bases that is out of bounds.) -/
def prepareCascade (grp : Grp S E) (win : Nat) : List E → Nat → M S (List (E × Nat))
  | [], _ => fail .undefinedBehaviour
  | [b], e => pure [(grp.cp b, e)]
  | b :: bs, e => do
    let r := e % 2 ^ win
    let q := e / 2 ^ win
    if (grp.fast && decide (win > 1)) && r.testBit (win - 1) then do
      let nb ← grp.inv b
      let l ← prepareCascade grp win bs (q + 1)
      pure ((grp.cp nb, 2 ^ win - r) :: l)
    else do
      let l ← prepareCascade grp win bs q
      pure ((grp.cp b, r) :: l)

/-- eprecomp.cpp:92-98 `Exponentiate`, without conversions. -/
def Precomp.exponentiate (grp : Grp S E) (ms : Muls S E) (heap0 heap : List (E × Nat) → List (E × Nat)) (pc : Precomp E) (e : Nat) : M S E := do
  let eb ← prepareCascade grp pc.windowSize pc.bases e
  generalCascade grp ms heap0 heap eb

/-- eprecomp.cpp:100-110 `CascadeExponentiate`, without conversions. -/
def Precomp.cascadeExponentiate (grp : Grp S E) (ms : Muls S E) (heap0 heap : List (E × Nat) → List (E × Nat)) (pc pc2 : Precomp E)
    (e e2 : Nat) : M S E := do
  let eb ← prepareCascade grp pc.windowSize pc.bases e
  let eb2 ← prepareCascade grp pc2.windowSize pc2.bases e2
  generalCascade grp ms heap0 heap (eb ++ eb2)

end Verif.Algebra
