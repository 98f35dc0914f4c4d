import Verif.BaseN.Model
import Verif.Bits

/-!
# Specification of base-N text encoding, by bit strings
-/
namespace Verif.BaseN

/-- Cut a list into pieces of `w` elements; the last piece may be shorter. -/
def chunk {α : Type} (w : Nat) (l : List α) : List (List α) :=
  if h : l = [] ∨ w = 0 then [] else l.take w :: chunk w (l.drop w)
termination_by l.length
decreasing_by
  have : 0 < l.length := List.length_pos_iff.2 (fun h' => h (.inl h'))
  simp only [List.length_drop]; omega

/-- The symbol of a group of at most `w` bits: fill with zero bits on the right, read as a number. -/
def symbolOf (w : Nat) (g : List Bool) : Nat := ofBits (g ++ List.replicate (w - g.length) false)

/-- The base-`2^w` symbols of a byte string: its bits, most significant first, in groups of `w`. -/
def symbols (w : Nat) (msg : List Byte) : List Nat := (chunk w (bytesToBits msg)).map (symbolOf w)

/-- Characters in a full output block: `lcm 8 w / w`. -/
def blockChars (w : Nat) : Nat := Nat.lcm 8 w / w

/-- The text: symbols through the alphabet, then padding characters up to a whole number of blocks. -/
def encodeSpec (alphabet : Nat → Byte) (w : Nat) (padding : Option Byte) (msg : List Byte) : List Byte :=
  let syms := symbols w msg
  syms.map alphabet ++
    match padding with
    | none => []
    | some p => List.replicate ((blockChars w - syms.length % blockChars w) % blockChars w) p

/-- Decode by bits: the values of the characters that have one, `w` bits each, then whole bytes; left-over bits dropped. -/
def decodeBits (value : Byte → Option Nat) (w : Nat) (text : List Byte) : List Bool :=
  (text.filterMap value).flatMap (bitsBE w)

def bytesOfBits (bits : List Bool) : List Byte :=
  ((chunk 8 bits).filter (fun g => g.length == 8)).map fun g => BitVec.ofNat 8 (ofBits g)

def decodeSpec (value : Byte → Option Nat) (w : Nat) (text : List Byte) : List Byte :=
  bytesOfBits (decodeBits value w text)

/-- The bytes handed on by a sequence of calls. -/
def callBytes (cs : List Call) : List Byte := cs.flatMap Prod.fst

/-- Feed a message in pieces; the last piece carries the message end. -/
def Enc.feed (e : Enc) : List (List Byte) → Enc × List Call
  | [] => e.put2 [] true
  | [last] => e.put2 last true
  | c :: cs => let r := e.put2 c false; let s := Enc.feed r.1 cs; (s.1, r.2 ++ s.2)

def Dec.feed (d : Dec) : List (List Byte) → Dec × List Call
  | [] => d.put2 [] true
  | [last] => d.put2 last true
  | c :: cs => let r := d.put2 c false; let s := Dec.feed r.1 cs; (s.1, r.2 ++ s.2)

def TextEnc.feed (t : TextEnc) : List (List Byte) → TextEnc × List Byte
  | [] => t.put2 [] true
  | [last] => t.put2 last true
  | c :: cs => let r := t.put2 c false; let s := TextEnc.feed r.1 cs; (s.1, r.2 ++ s.2)

/-- Feed several messages one after the other, each in its own pieces; the outputs, message by message. -/
def Enc.feedMany (e : Enc) : List (List (List Byte)) → List (List Byte)
  | [] => []
  | m :: ms => callBytes (e.feed m).2 :: Enc.feedMany (e.feed m).1 ms

def Dec.feedMany (d : Dec) : List (List (List Byte)) → List (List Byte)
  | [] => []
  | m :: ms => callBytes (d.feed m).2 :: Dec.feedMany (d.feed m).1 ms

def TextEnc.feedMany (t : TextEnc) : List (List (List Byte)) → List (List Byte)
  | [] => []
  | m :: ms => (t.feed m).2 :: TextEnc.feedMany (t.feed m).1 ms

/-- The value of a character under a lookup table: its entry, unless that is negative. -/
def symbolValue (lk : Byte → Int) (c : Byte) : Option Nat := if 0 ≤ lk c then some (lk c).toNat else none

/-- The characters that stand for an alphabet entry: the entry itself, or for a letter in case-insensitive mode both its forms. -/
def keys (caseInsensitive : Bool) (b : Byte) : List Byte :=
  if caseInsensitive && isAlpha b then [toLower b, toUpper b] else [b]

/-- Text cut into lines of `g` characters: separator between lines, terminator at the end (`g = 0`: one line). -/
def groupSpec (g : Nat) (sep term : List Byte) (text : List Byte) : List Byte :=
  (if g = 0 then text else (List.intercalate sep (chunk g text))) ++ term

end Verif.BaseN
