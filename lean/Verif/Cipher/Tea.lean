import Verif.Cipher.Basic

/-!
# TEA, XTEA and BTEA (tea.cpp, tea.h)
-/
namespace Verif.Cipher

abbrev W32 := BitVec (8 * 4)

/-- seckey.h:85-103 `GetRoundsAndThrowIfInvalid` for `VariableRounds<D, N, INT_MAX>`; the parameter is an `int`. -/
def getRounds (minimum : Int) (rounds : Int) : Except Err Nat :=
  if rounds < minimum ∨ rounds ≥ 2 ^ 31 then .error .invalidArgument else .ok rounds.toNat

/-- misc.h:2500-2507 `GetUserKey` into `n` words of `k` bytes: the key, zero-filled, in a byte order.  (Only the words the key reaches are
reversed; zeros need not be.) -/
def getUserKey (o : ByteOrder) (k n : Nat) (key : List Byte) : List (BitVec (8 * k)) := words o k (key ++ List.replicate (n * k - key.length) 0)

/-- Word `i` of a table. -/
def wd {w : Nat} (l : List (BitVec w)) (i : Nat) : BitVec w := l.getD i 0

namespace Tea

/-- tea.cpp:16. -/
def DELTA : W32 := 0x9e3779b9

/-- tea.cpp:36-41: `while (sum != m_limit) {...}`; the body gets the sum before it is incremented.  `none` if the loop does not end within
the fuel. -/
def upLoop (body : W32 → W32 × W32 → W32 × W32) (limit : W32) : Nat → W32 → W32 × W32 → Option (W32 × W32)
  | 0, _, _ => none
  | fuel + 1, sum, s => if sum ≠ limit then upLoop body limit fuel (sum + DELTA) (body sum s) else some s

/-- tea.cpp:52-57: `while (sum != 0) {...}`; the body gets the sum before it is decremented. -/
def downLoop (body : W32 → W32 × W32 → W32 × W32) : Nat → W32 → W32 × W32 → Option (W32 × W32)
  | 0, _, _ => none
  | fuel + 1, sum, s => if sum ≠ 0 then downLoop body fuel (sum - DELTA) (body sum s) else some s

/-- tea.cpp:38-40. -/
def teaEncBody (k : List W32) (sum0 : W32) (s : W32 × W32) : W32 × W32 :=
  let (y, z) := s
  let sum := sum0 + DELTA
  let y := y + (((z <<< 4) + wd k 0) ^^^ (z + sum) ^^^ ((z >>> 5) + wd k 1))
  let z := z + (((y <<< 4) + wd k 2) ^^^ (y + sum) ^^^ ((y >>> 5) + wd k 3))
  (y, z)

/-- tea.cpp:54-55. -/
def teaDecBody (k : List W32) (sum : W32) (s : W32 × W32) : W32 × W32 :=
  let (y, z) := s
  let z := z - (((y <<< 4) + wd k 2) ^^^ (y + sum) ^^^ ((y >>> 5) + wd k 3))
  let y := y - (((z <<< 4) + wd k 0) ^^^ (z + sum) ^^^ ((z >>> 5) + wd k 1))
  (y, z)

/-- tea.cpp:77-79. -/
def xteaEncBody (k : List W32) (sum0 : W32) (s : W32 × W32) : W32 × W32 :=
  let (y, z) := s
  let y := y + (((z <<< 4 ^^^ z >>> 5) + z) ^^^ (sum0 + wd k (sum0 &&& 3).toNat))
  let sum := sum0 + DELTA
  let z := z + (((y <<< 4 ^^^ y >>> 5) + y) ^^^ (sum + wd k (sum >>> 11 &&& 3).toNat))
  (y, z)

/-- tea.cpp:93-95. -/
def xteaDecBody (k : List W32) (sum : W32) (s : W32 × W32) : W32 × W32 :=
  let (y, z) := s
  let z := z - (((y <<< 4 ^^^ y >>> 5) + y) ^^^ (sum + wd k (sum >>> 11 &&& 3).toNat))
  let sum := sum - DELTA
  let y := y - (((z <<< 4 ^^^ z >>> 5) + z) ^^^ (sum + wd k (sum &&& 3).toNat))
  (y, z)

/-- tea.cpp:30-61 and 70-101 `ProcessAndXorBlock`: get `y`, `z`, loop, put them.  A loop that does not end gives no block. -/
def process (f : W32 × W32 → Option (W32 × W32)) (l : List W32) : List W32 :=
  match l with
  | [y, z] => match f (y, z) with
    | some (y, z) => [y, z]
    | none => []
  | _ => []

/-- The loops are given a bound on the number of iterations. -/
def keyedFuel (fuel : Nat) (encBody decBody : W32 → W32 × W32 → W32 × W32) (rounds : Nat) : Keyed :=
  let limit := BitVec.ofNat 32 rounds * DELTA
  ofWords .big 4 2 (process (upLoop encBody limit fuel 0)) (process (downLoop decBody fuel limit))

/-- The bound is `2^32`: there are no more values of the loop variable. -/
def keyed (encBody decBody : W32 → W32 × W32 → W32 × W32) (rounds : Nat) : Keyed := keyedFuel (2 ^ 32) encBody decBody rounds

/-- tea.cpp:22-28 with cryptlib.cpp:58-62 `SetKey`. -/
def teaSetKey (key : List Byte) (rounds : Int := 32) : Except Err Keyed := do
  if key.length ≠ 16 then throw .invalidArgument
  let r ← getRounds 1 rounds
  let k := getUserKey .big 4 4 key
  pure (keyed (teaEncBody k) (teaDecBody k) r)

/-- tea.cpp:63-69 with cryptlib.cpp:58-62 `SetKey`. -/
def xteaSetKey (key : List Byte) (rounds : Int := 32) : Except Err Keyed := do
  if key.length ≠ 16 then throw .invalidArgument
  let r ← getRounds 1 rounds
  let k := getUserKey .big 4 4 key
  pure (keyed (xteaEncBody k) (xteaDecBody k) r)

/-! ## BTEA -/

/-- tea.cpp:103 `MX`. -/
def mx (k : List W32) (y z sum e : W32) (p : Nat) : W32 :=
  ((z >>> 5 ^^^ y <<< 2) + (y >>> 3 ^^^ z <<< 4)) ^^^ ((sum ^^^ y) + (wd k ((BitVec.ofNat 32 p &&& 3) ^^^ e).toNat ^^^ z))

/-- tea.cpp:124-128: `for (p = 0; p < n-1; p++)`, with `m` iterations left; returns the array and `z`. -/
def upPass (k : List W32) (sum e : W32) : Nat → Nat → List W32 → W32 → List W32 × W32
  | 0, _, v, z => (v, z)
  | m + 1, p, v, z =>
    let y := wd v (p + 1)
    let v := v.set p (wd v p + mx k y z sum e p)
    upPass k sum e m (p + 1) v (wd v p)

/-- tea.cpp:120-131: the `q` rounds. -/
def btUp (k : List W32) (n : Nat) : Nat → W32 → List W32 → W32 → List W32
  | 0, _, v, _ => v
  | q + 1, sum, v, z =>
    let sum := sum + DELTA
    let e := sum >>> 2 &&& 3
    let (v, z) := upPass k sum e (n - 1) 0 v z
    let y := wd v 0
    let v := v.set (n - 1) (wd v (n - 1) + mx k y z sum e (n - 1))
    btUp k n q sum v (wd v (n - 1))

/-- tea.cpp:152-156: `for (p = n-1; p > 0; p--)`; returns the array and `y`. -/
def downPass (k : List W32) (sum e : W32) : Nat → List W32 → W32 → List W32 × W32
  | 0, v, y => (v, y)
  | p + 1, v, y =>
    let z := wd v p
    let v := v.set (p + 1) (wd v (p + 1) - mx k y z sum e (p + 1))
    downPass k sum e p v (wd v (p + 1))

/-- tea.cpp:149-161: `while (sum != 0)`. -/
def btDown (k : List W32) (n : Nat) : Nat → W32 → List W32 → W32 → Option (List W32)
  | 0, _, _, _ => none
  | fuel + 1, sum, v, y =>
    if sum ≠ 0 then
      let e := sum >>> 2 &&& 3
      let (v, y) := downPass k sum e (n - 1) v y
      let z := wd v (n - 1)
      let v := v.set 0 (wd v 0 - mx k y z sum e 0)
      btDown k n fuel (sum - DELTA) v (wd v 0)
    else some v

/-- tea.cpp:105-134. -/
def bteaEnc (k : List W32) (n : Nat) (v : List W32) : List W32 := btUp k n (6 + 52 / n) 0 v (wd v (n - 1))

/-- tea.cpp:136-165. -/
def bteaDec (k : List W32) (n : Nat) (v : List W32) (fuel : Nat := 2 ^ 32) : List W32 :=
  (btDown k n fuel (BitVec.ofNat 32 (6 + 52 / n) * DELTA) v (wd v 0)).getD []

/-- tea.h:123-128 with cryptlib.cpp:58-62 `SetKey`; the block size is a parameter, not checked.  Modelled for multiples of four. -/
def bteaSetKey (key : List Byte) (blockSize : Nat := 240) : Except Err Keyed := do
  if key.length ≠ 16 then throw .invalidArgument
  let k := getUserKey .big 4 4 key
  let n := blockSize / 4
  pure (ofWords .big 4 n (bteaEnc k n) (bteaDec k n))

/-- tea.cpp:105-109: `ProcessAndXorBlock` ignores the mask. -/
def bteaProcessAndXorBlock (k : List W32) (n : Nat) (b : List Byte) (_mask : Option (List Byte)) : List Byte :=
  unwords .big 4 (bteaEnc k n (words .big 4 b))

end Tea
end Verif.Cipher
