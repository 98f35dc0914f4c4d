import Verif.Integer.ClsModel

/-!
# Model of Integer byte encodings (integer.cpp): Encode, Decode, MinEncodedSize
-/
namespace Verif.Integer

/-- integer.cpp:3120-3132 `SetBit(n, value)`, both values. -/
def setBitTo (ws : Nat) (x : Obj) (n : Nat) (v : Bool) : Obj :=
  if v then setBit ws x n
  else if n / (8 * ws) < x.reg.length then
    ⟨x.reg.set (n / (8 * ws)) (x.reg.getD (n / (8 * ws)) 0 &&& (base ws - 1 - 1 <<< (n % (8 * ws)))), x.neg⟩
  else x

/-- integer.cpp:3438-3439: `for (i=outputLen; i > 0; i--) bt.Put(GetByte(i-1))`. -/
def encodeLoop (ws : Nat) (x : Obj) : Nat → List Byte
  | 0 => []
  | i + 1 => getByte ws x i :: encodeLoop ws x i

/-- integer.cpp:3434-3447 `Encode(bt, outputLen, signedness)`: the bytes put into `bt`. -/
def encode (ws : Nat) (x : Obj) (outputLen : Nat) (signed : Bool) : List Byte :=
  if signed = false ∨ x.neg = false then encodeLoop ws x outputLen
  else encodeLoop ws (plus ws (power2 ws (8 * max (byteCount ws x) outputLen)) x) outputLen

/-- integer.cpp:3412-3424 `MinEncodedSize(signedness)`. -/
def minEncodedSize (ws : Nat) (x : Obj) (signed : Bool) : Nat :=
  let outputLen := max 1 (byteCount ws x)
  let outputLen := if signed = true ∧ x.neg = false ∧ (getByte ws x (outputLen - 1) &&& 0x80) ≠ 0 then outputLen + 1 else outputLen
  if signed = false then outputLen
  else if x.neg = true ∧ compare x (neg (power2 ws (outputLen * 8 - 1))) < 0 then outputLen + 1 else outputLen

/-- integer.cpp:3390-3395, the loop that skips redundant sign bytes.  `MaxRetrievable() >= inputLen` holds, so `b` is the
next byte whenever `inputLen > 0`.  Returns the remaining stream and the remaining length. -/
def skipSign (neg : Bool) : List Byte → Nat → List Byte × Nat
  | b :: bs, n + 1 => if b = (if neg then 0xff else 0) then skipSign neg bs n else (b :: bs, n + 1)
  | bs, n => (bs, n)

/-- integer.cpp:3398-3402, `for (i=inputLen; i > 0; i--) { bt.Get(b); reg[(i-1)/WORD_SIZE] |= word(b) << ((i-1)%WORD_SIZE)*8; }`:
at each step `i - 1` is the number of bytes still to come. -/
def fillBytes (ws : Nat) (reg : List Nat) : List Byte → List Nat
  | [] => reg
  | b :: bs =>
    fillBytes ws (reg.set (bs.length / ws) (reg.getD (bs.length / ws) 0 ||| b.toNat <<< (bs.length % ws * 8))) bs

/-- integer.cpp:3406-3407, `for (i=inputLen; i<reg.size()*WORD_SIZE; i++) reg[i/WORD_SIZE] |= word(0xff) << (i%WORD_SIZE)*8`;
the first argument is the number of iterations left. -/
def signFill (ws : Nat) : Nat → List Nat → Nat → List Nat
  | 0, reg, _ => reg
  | k + 1, reg, i => signFill ws k (reg.set (i / ws) (reg.getD (i / ws) 0 ||| 0xff <<< (i % ws * 8))) (i + 1)

/-- integer.cpp:3380-3410 `Decode(bt, inputLen, signedness)`: the new object and what is left of the stream.  With an empty
stream the local `b` is read uninitialised; that is undefined behaviour when its value can matter (a signed decode). -/
def decode (ws : Nat) (bt : List Byte) (inputLen : Nat) (signed : Bool) : Except Err (Obj × List Byte) :=
  if bt.length < inputLen then .error .invalidArgument
  else if signed = true ∧ bt = [] then .error .undefinedBehaviour
  else
    let neg := signed && ((bt.headD 0 &&& 0x80) != 0)
    let s := skipSign neg bt inputLen
    let reg := List.replicate (roundupSize (bytesToWords ws s.2)) 0
    let reg := fillBytes ws reg (s.1.take s.2)
    let reg := if neg then twosComplement (base ws) (signFill ws (reg.length * ws - s.2) reg s.2) else reg
    .ok (⟨reg, neg⟩, s.1.drop s.2)

end Verif.Integer
