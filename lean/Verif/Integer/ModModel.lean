import Verif.Integer.AlmostModel
import Verif.Integer.DivCls

/-!
# `ModularArithmetic`, `MontgomeryRepresentation` and `Integer::InverseMod`
(integer.cpp:4477-4512, 4545-4766 and modarith.h)

Word arrays are placed one after another in one word memory; scratch space is uninitialised (`junk`).  Functions that write
through a pointer into the member `m_result` return the new contents of `m_result`.
-/
namespace Verif.Integer

/-- integer.h:353-356 `IsOdd`. -/
def isOdd (ws : Nat) (x : Obj) : Bool := getBit ws x 0

/-- integer.cpp:4297-4302 `Integer::Modulo(b)` / `operator%`. -/
def modulo (ws : Nat) (junk : WMem) (a b : Obj) : Except Err Obj := (divide ws junk a b).map (·.1)

/-- integer.cpp:4290-4295 `DividedBy` / `operator/`. -/
def dividedBy (ws : Nat) (junk : WMem) (a b : Obj) : Except Err Obj := (divide ws junk a b).map (·.2)

/-- The members of `ModularArithmetic` (modarith.h:269-270): the modulus, the size of `m_result.reg` (whose words above the modulus
size are never written and stay zero), and the previous contents of `m_result1`. -/
structure ModArith where
  modulus : Obj
  rsize : Nat
  result1 : Obj

/-- modarith.h:53-54 `ModularArithmetic(modulus)`: the modulus is copied (the copy has the smallest sufficient size), but `m_result` takes
its size from the argument's register. -/
def ModArith.mk' (modulus : Obj) : ModArith := ⟨copyCtor modulus, roundupSize modulus.reg.length, zero⟩

/-- `m_modulus.reg.size()`. -/
def ModArith.size (ma : ModArith) : Nat := ma.modulus.reg.length

/-- `m_result` after its low words have been overwritten. -/
def ModArith.result (ma : ModArith) (ws : List Nat) : Obj := ⟨ws ++ List.replicate (ma.rsize - ws.length) 0, false⟩

/-- integer.cpp:4589-4592 (and 4609-4612): add word arrays of the modulus' size and subtract the modulus once if needed. -/
def addReduce (B N : Nat) (a b m : List Nat) : List Nat :=
  let r := baselineAdd B N a b
  if r.2 ≠ 0 ∨ compareW r.1 m N ≥ 0 then (baselineSub B N r.1 m).1 else r.1

/-- integer.cpp:4630-4631 (and 4646-4647): subtract word arrays and add the modulus back after a borrow. -/
def subReduce (B N : Nat) (a b m : List Nat) : List Nat :=
  let r := baselineSub B N a b
  if r.2 ≠ 0 then (baselineAdd B N r.1 m).1 else r.1

/-- integer.cpp:4585-4603 `ModularArithmetic::Add`. -/
def ModArith.add (ws : Nat) (ma : ModArith) (a b : Obj) : Obj :=
  if a.reg.length = ma.size ∧ b.reg.length = ma.size then
    ma.result (addReduce (base ws) ma.size a.reg b.reg ma.modulus.reg)
  else
    let s := assign ma.result1 (plus ws a b)
    if compare s ma.modulus ≥ 0 then minusAssign ws s ma.modulus else s

/-- integer.cpp:4605-4623 `ModularArithmetic::Accumulate(a, b)`: the new `a`. -/
def ModArith.accumulate (ws : Nat) (ma : ModArith) (a b : Obj) : Obj :=
  if a.reg.length = ma.size ∧ b.reg.length = ma.size then
    ⟨addReduce (base ws) ma.size a.reg b.reg ma.modulus.reg, a.neg⟩
  else
    let s := plusAssign ws a b
    if compare s ma.modulus ≥ 0 then minusAssign ws s ma.modulus else s

/-- integer.cpp:4625-4640 `ModularArithmetic::Subtract`. -/
def ModArith.subtract (ws : Nat) (ma : ModArith) (a b : Obj) : Obj :=
  if a.reg.length = ma.size ∧ b.reg.length = ma.size then
    ma.result (subReduce (base ws) ma.size a.reg b.reg ma.modulus.reg)
  else
    let s := assign ma.result1 (minus ws a b)
    if s.neg then plusAssign ws s ma.modulus else s

/-- integer.cpp:4642-4657 `ModularArithmetic::Reduce(a, b)`: the new `a`. -/
def ModArith.reduce (ws : Nat) (ma : ModArith) (a b : Obj) : Obj :=
  if a.reg.length = ma.size ∧ b.reg.length = ma.size then
    ⟨subReduce (base ws) ma.size a.reg b.reg ma.modulus.reg, a.neg⟩
  else
    let s := minusAssign ws a b
    if s.neg then plusAssign ws s ma.modulus else s

/-- integer.cpp:4664-4668: `m_result = m_modulus; m_result -= a.reg` on words, propagating the borrow to the words of the modulus. -/
def inverseWords (ws : Nat) (ma : ModArith) (areg : List Nat) : List Nat :=
  let m0 := ma.modulus.reg ++ List.replicate (ma.rsize - ma.size) 0
  let la := areg.length
  let r := baselineSub (base ws) la (m0.take la) areg
  let rest := m0.drop la
  r.1 ++ (if r.2 ≠ 0 then
    (decrement (base ws) 1 (rest.take (ma.size - la))).1 ++ rest.drop (ma.size - la) else rest)

/-- integer.cpp:4659-4671 `ModularArithmetic::Inverse(a)`.  `self` says that `a` is the object's own `m_result` (the reference returned
by an earlier operation): then copying the modulus into `m_result` replaces `a` before it is read. -/
def ModArith.inverse (ws : Nat) (ma : ModArith) (self : Bool) (a : Obj) : Except Err Obj :=
  if isZero a then .ok a
  else if self then .ok ⟨inverseWords ws ma (ma.modulus.reg ++ List.replicate (ma.rsize - ma.size) 0), false⟩
  else if a.reg.length > ma.rsize then .error .undefinedBehaviour
  else .ok ⟨inverseWords ws ma a.reg, false⟩

/-- integer.cpp:4574-4583 `ModularArithmetic::Half`. -/
def ModArith.half (ws : Nat) (junk : WMem) (ma : ModArith) (a : Obj) : Obj :=
  if a.reg.length = ma.size then
    let N := ma.size
    let m := storeW (storeW junk N a.reg) (2 * N) ma.modulus.reg
    ma.result (loadW (divideByPower2Mod (8 * ws) m 0 N 1 (2 * N) N) 0 N)
  else
    assign ma.result1 (if isOdd ws a = false then shrAssign ws (copyCtor a) 1 else shrAssign ws (plus ws a ma.modulus) 1)

/-- modarith.h:188-189 `ModularArithmetic::Multiply`; `same`: both arguments are one object. -/
def ModArith.multiply (ws : Nat) (junk : WMem) (ma : ModArith) (same : Bool) (a b : Obj) : Except Err Obj :=
  (modulo ws junk (times ws junk same a b) ma.modulus).map (assign ma.result1 ·)

/-- modarith.h:195-196 `ModularArithmetic::Square`. -/
def ModArith.square (ws : Nat) (junk : WMem) (ma : ModArith) (a : Obj) : Except Err Obj :=
  (modulo ws junk (squared ws junk a) ma.modulus).map (assign ma.result1 ·)

/-- The members of `MontgomeryRepresentation` (modarith.h:327-328); `u` is `m_u.reg`. -/
structure Mont extends ModArith where
  u : List Nat

/-- integer.cpp:4695-4704, the constructor. -/
def Mont.mk' (ws : Nat) (junk : WMem) (modulus : Obj) : Except Err Mont :=
  let ma := ModArith.mk' modulus
  let N := ma.size
  if isOdd ws ma.modulus = false then .error .invalidArgument
  else
    let m := storeW junk (6 * N) ma.modulus.reg
    .ok { ma with u := loadW (recursiveInverseModPower2 (8 * ws) m 0 N (6 * N) N) 0 N }

/-- The memory seen by the Montgomery operations: workspace `T = 0` (`5*N` words), `m_result` at `5*N`, the modulus at `6*N`, `m_u` at
`7*N`. -/
def Mont.mem (junk : WMem) (mr : Mont) : WMem :=
  storeW (storeW junk (6 * mr.size) mr.modulus.reg) (7 * mr.size) mr.u

/-- integer.cpp:4715 (and 4728, 4741): `MontgomeryReduce(R, T+2*N, T, m_modulus.reg, m_u.reg, N)`; the low words of `m_result`. -/
def Mont.reduceT (ws : Nat) (mr : Mont) (m : WMem) : WMem :=
  montgomeryReduce (base ws) m (5 * mr.size) (2 * mr.size) 0 (6 * mr.size) (7 * mr.size) mr.size

/-- integer.cpp:4706-4717 `MontgomeryRepresentation::Multiply`; `same`: both arguments are one object.  If the operands have more words
than the workspace expects, the fill count wraps around and memory outside the workspace is written. -/
def Mont.multiply (ws : Nat) (junk : WMem) (mr : Mont) (same : Bool) (a b : Obj) : Except Err Obj :=
  let N := mr.size
  let la := a.reg.length
  let lb := b.reg.length
  if la + lb > 2 * N then .error .undefinedBehaviour
  else
    let A := 8 * N
    let Bp := if same then A else A + la
    let m := storeW (storeW (mr.mem junk) A a.reg) Bp b.reg
    let m1 := asymmetricMultiply (base ws) m 0 (2 * N) A la Bp lb
    let m2 := mZero m1 (la + lb) (2 * N - la - lb)
    .ok (mr.result (loadW (mr.reduceT ws m2) (5 * N) N))

/-- integer.cpp:4719-4730 `MontgomeryRepresentation::Square`. -/
def Mont.square (ws : Nat) (junk : WMem) (mr : Mont) (a : Obj) : Except Err Obj :=
  let N := mr.size
  let la := a.reg.length
  if la > N then .error .undefinedBehaviour
  else
    let m := storeW (mr.mem junk) (8 * N) a.reg
    let m1 := squareM (base ws) m 0 (2 * N) (8 * N) la
    let m2 := mZero m1 (2 * la) (2 * N - 2 * la)
    .ok (mr.result (loadW (mr.reduceT ws m2) (5 * N) N))

/-- integer.cpp:4739-4741 (and 4752-4754): copy `a` into the workspace, clear the rest and reduce. -/
def Mont.reduceObj (ws : Nat) (junk : WMem) (mr : Mont) (a : Obj) : WMem :=
  let N := mr.size
  let m1 := storeW (mr.mem junk) 0 a.reg
  let m2 := mZero m1 a.reg.length (2 * N - a.reg.length)
  mr.reduceT ws m2

/-- integer.cpp:4732-4743 `ConvertOut`.  (Up to `2*N` words the copy stays inside the workspace.) -/
def Mont.convertOut (ws : Nat) (junk : WMem) (mr : Mont) (a : Obj) : Except Err Obj :=
  if a.reg.length > 2 * mr.size then .error .undefinedBehaviour
  else .ok (mr.result (loadW (mr.reduceObj ws junk a) (5 * mr.size) mr.size))

/-- modarith.h:304-305 `ConvertIn`. -/
def Mont.convertIn (ws : Nat) (junk : WMem) (mr : Mont) (a : Obj) : Except Err Obj :=
  modulo ws junk (shlAssign ws (copyCtor a) (8 * ws * mr.size)) mr.modulus

/-- modarith.h:309-310 `MultiplicativeIdentity`. -/
def Mont.one (ws : Nat) (junk : WMem) (mr : Mont) : Except Err Obj :=
  (modulo ws junk (power2 ws (8 * ws * mr.size)) mr.modulus).map (assign mr.result1 ·)

/-- integer.cpp:4745-4766 `MontgomeryRepresentation::MultiplicativeInverse`.  `diverges` would mean that `AlmostInverse` did not end. -/
def Mont.inv (ws : Nat) (junk : WMem) (mr : Mont) (a : Obj) : Except Err Obj :=
  let N := mr.size
  if a.reg.length > 2 * N then .error .undefinedBehaviour
  else
    let m3 := mr.reduceObj ws junk a
    match almostInverse (8 * ws) m3 (5 * N) 0 (5 * N) N (6 * N) N with
    | none => .error .diverges
    | some (m4, k) =>
      let m5 := if k > N * (8 * ws) then divideByPower2Mod (8 * ws) m4 (5 * N) (5 * N) (k - N * (8 * ws)) (6 * N) N
        else multiplyByPower2Mod (8 * ws) m4 (5 * N) (5 * N) (N * (8 * ws) - k) (6 * N) N
      .ok (mr.result (loadW m5 (5 * N) N))

/-- integer.cpp:4506-4511: the odd-modulus part of `InverseModNext`.  The workspace has `4*N` words and `a` is copied to offset `2*N`, so
an argument register of more than `2*N` words is written past its end.  The result register has the size of the modulus register. -/
def inverseOdd (ws : Nat) (junk : WMem) (a m : Obj) : Except Err Obj :=
  let N := m.reg.length
  let NA := a.reg.length
  if NA > 2 * N then .error .undefinedBehaviour
  else
    let mem := storeW (storeW (mZero junk 0 N) (5 * N) m.reg) (6 * N) a.reg
    match almostInverse (8 * ws) mem 0 N (6 * N) NA (5 * N) N with
    | none => .error .diverges
    | some (m1, k) => .ok ⟨loadW (divideByPower2Mod (8 * ws) m1 0 0 k (5 * N) N) 0 N, false⟩

/-- integer.cpp:4492-4512 `Integer::InverseModNext(m)`.  For an even modulus the recursive call has the odd modulus `*this`. -/
def inverseModNext (ws : Nat) (junk : WMem) (a m : Obj) : Except Err Obj :=
  if isOdd ws m = false then
    if isZero m ∨ isOdd ws a = false then .ok zero
    else if compare a (ofWord 1 2) = 0 then .ok (ofWord 1 2)
    else do
      let r ← modulo ws junk m a
      let u ← inverseOdd ws junk r a
      if isZero u then .ok zero
      else dividedBy ws junk (plus ws (times ws junk false m (minus ws a u)) (ofWord 1 2)) a
  else inverseOdd ws junk a m

/-- integer.cpp:4477-4490 `Integer::InverseMod(m)`. -/
def inverseMod (ws : Nat) (junk : WMem) (a m : Obj) : Except Err Obj :=
  if a.neg = true ∨ compare a m ≥ 0 then do
    let r ← modulo ws junk a m
    inverseModNext ws junk r m
  else inverseModNext ws junk a m

end Verif.Integer
