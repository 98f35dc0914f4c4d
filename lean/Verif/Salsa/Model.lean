import Verif.Chacha.Model

/-!
# Salsa20 and XSalsa20 (salsa.h, salsa.cpp)

The C++ code. The SSE2 assembly of `OperateKeystream` (salsa.cpp:200-629) is not modelled.
-/
namespace Verif.Salsa
open Verif.Chacha (getWords Iv)

abbrev W := BitVec 32

/-- `QUARTER_ROUND` (salsa.cpp:662-666). -/
def quarter (a b c d : W) : W × W × W × W :=
  let b := b ^^^ Cipher.rotl (a + d) 7
  let c := c ^^^ Cipher.rotl (b + a) 9
  let d := d ^^^ Cipher.rotl (c + b) 13
  let a := a ^^^ Cipher.rotl (d + c) 18
  (a, b, c, d)

/-- The body of the loop over the rounds (salsa.cpp:668-676, 741-749). -/
def doubleRound : List W → List W
  | [x0, x1, x2, x3, x4, x5, x6, x7, x8, x9, x10, x11, x12, x13, x14, x15] =>
    let (x0, x4, x8, x12) := quarter x0 x4 x8 x12
    let (x1, x5, x9, x13) := quarter x1 x5 x9 x13
    let (x2, x6, x10, x14) := quarter x2 x6 x10 x14
    let (x3, x7, x11, x15) := quarter x3 x7 x11 x15
    let (x0, x13, x10, x7) := quarter x0 x13 x10 x7
    let (x1, x14, x11, x4) := quarter x1 x14 x11 x4
    let (x2, x15, x8, x5) := quarter x2 x15 x8 x5
    let (x3, x12, x9, x6) := quarter x3 x12 x9 x6
    [x0, x1, x2, x3, x4, x5, x6, x7, x8, x9, x10, x11, x12, x13, x14, x15]
  | s => s

/-- `for (int i=m_rounds; i>0; i-=2)` (salsa.cpp:660, 739). -/
def roundLoop (rounds : Int) (s : List W) : List W := Nat.repeat doubleRound ((rounds.toNat + 1) / 2) s

/-- The order in which `SALSA_OUTPUT` (salsa.cpp:680-696) takes the words. -/
def order : List Nat := [0, 13, 10, 7, 4, 1, 14, 11, 8, 5, 2, 15, 12, 9, 6, 3]

/-- `SALSA_OUTPUT` (salsa.cpp:680-696): what is written, or combined with the input. -/
def block (rounds : Int) (s : List W) : List Byte := order.flatMap fun k => leBytes 4 ((roundLoop rounds s).getD k 0 + s.getD k 0).toNat

/-- `if (++m_state[8] == 0) ++m_state[5];` (salsa.cpp:702-703). -/
def bump (s : List W) : List W :=
  let s := s.set 8 (s.getD 8 0 + 1)
  if s.getD 8 0 = 0 then s.set 5 (s.getD 5 0 + 1) else s

/-- `while (iterationCount--)` (salsa.cpp:653-704). -/
def operateLoop (rounds : Int) : Nat → List W → List W × List Byte
  | 0, s => (s, [])
  | n + 1, s =>
    let r := operateLoop rounds n (bump s)
    (r.1, block rounds s ++ r.2)

/-- `m_state`, `m_key`, `m_rounds`. -/
@[ext] structure Pol where
  state : List W
  key : List W
  rounds : Int
deriving DecidableEq

/-- `Salsa20_Policy::CipherSetKey` (salsa.cpp:126-148); `rounds` is the parameter of that name. -/
def setKey (p : Pol) (rounds : Option Int) (key : List Byte) : Except Err Pol :=
  let r := rounds.getD p.rounds
  if r ≠ 20 ∧ r ≠ 12 ∧ r ≠ 8 then .error .invalidArgument
  else
    let k1 := getWords 4 key
    let k2 := getWords 4 (key.drop (key.length - 16))
    let s := (((p.state.set 13 (k1.getD 0 0)).set 10 (k1.getD 1 0)).set 7 (k1.getD 2 0)).set 4 (k1.getD 3 0)
    let s := (((s.set 15 (k2.getD 0 0)).set 12 (k2.getD 1 0)).set 9 (k2.getD 2 0)).set 6 (k2.getD 3 0)
    let s := s.set 0 0x61707865
    let s := s.set 1 (if key.length = 16 then 0x3120646e else 0x3320646e)
    let s := s.set 2 (if key.length = 16 then 0x79622d36 else 0x79622d32)
    let s := s.set 3 0x6b206574
    .ok { p with rounds := r, state := s }

/-- `Salsa20_Policy` (salsa.h:38-63, salsa.cpp:150-164, 649-706). -/
def salsa : Stream.Policy Pol (Iv 8) where
  bpi := 64
  iters := 1
  canOperate := true
  write := fun p n => let r := operateLoop p.rounds n p.state; ({ p with state := r.1 }, r.2)
  operate := fun p x n => let r := operateLoop p.rounds n p.state; ({ p with state := r.1 }, xorBytes x r.2)
  seek := fun p j => .ok { p with state := (p.state.set 8 (BitVec.ofNat 32 j)).set 5 (BitVec.ofNat 32 (j / 2 ^ 32)) }
  resync := fun p iv =>
    let n := getWords 2 iv.1
    { p with state := (((p.state.set 14 (n.getD 0 0)).set 11 (n.getD 1 0)).set 5 0).set 8 0 }

/-- `XSalsa20_Policy::CipherSetKey` (salsa.cpp:708-723): the object, and what is thrown. `m_rounds` is assigned before it is checked. Keys have 32 bytes (salsa.h:80). -/
def xSetKey (p : Pol) (rounds : Option Int) (key : List Byte) : Pol × Except Err Unit :=
  let p := { p with rounds := rounds.getD p.rounds }
  if ¬ (p.rounds = 8 ∨ p.rounds = 12 ∨ p.rounds = 20) then (p, .error .invalidArgument)
  else
    ({ p with key := getWords 8 key, state := (((p.state.set 0 0x61707865).set 1 0x3320646e).set 2 0x79622d32).set 3 0x6b206574 }, .ok ())

/-- `XSalsa20_Policy::CipherResynchronize` (salsa.cpp:725-755). -/
def xResync (p : Pol) (iv : Iv 24) : Pol :=
  let n := getWords 6 iv.1
  let s := (p.state.set 14 (n.getD 4 0)).set 11 (n.getD 5 0)
  let k := fun i => p.key.getD i 0
  let x := roundLoop p.rounds [s.getD 0 0, s.getD 1 0, s.getD 2 0, s.getD 3 0, k 3, n.getD 3 0, k 7, k 2, n.getD 2 0, k 6, k 1, n.getD 1 0, k 5, k 0, n.getD 0 0, k 4]
  let s := (((s.set 13 (x.getD 0 0)).set 10 (x.getD 1 0)).set 7 (x.getD 2 0)).set 4 (x.getD 3 0)
  let s := (((s.set 15 (x.getD 14 0)).set 12 (x.getD 11 0)).set 9 (x.getD 8 0)).set 6 (x.getD 5 0)
  { p with state := (s.set 5 0).set 8 0 }

/-- `XSalsa20_Policy` (salsa.h:87-95); it inherits the rest of `Salsa20_Policy`. -/
def xsalsa : Stream.Policy Pol (Iv 24) where
  bpi := 64
  iters := 1
  canOperate := true
  write := salsa.write
  operate := salsa.operate
  seek := salsa.seek
  resync := xResync

end Verif.Salsa
