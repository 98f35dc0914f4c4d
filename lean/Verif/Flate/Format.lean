import Verif.Flate.Spec

/-!
# Specification: the DEFLATE format (RFC 1951)

A stream is a list of blocks.  Each block is given by what it contains; `bits` says how it is written, `run` what it
adds to the output.  Nothing here is taken from the C++.
-/
namespace Verif.Flate

/-- RFC 1951, 3.2.5: the first length of the codes 257, ..., 285. -/
def lengthBase : List Nat :=
  [3, 4, 5, 6, 7, 8, 9, 10, 11, 13, 15, 17, 19, 23, 27, 31, 35, 43, 51, 59, 67, 83, 99, 115, 131, 163, 195, 227, 258]

/-- RFC 1951, 3.2.5: the number of extra bits of the codes 257, ..., 285. -/
def lengthExtra : List Nat := [0, 0, 0, 0, 0, 0, 0, 0, 1, 1, 1, 1, 2, 2, 2, 2, 3, 3, 3, 3, 4, 4, 4, 4, 5, 5, 5, 5, 0]

/-- RFC 1951, 3.2.5: the first distance of the codes 0, ..., 29. -/
def distBase : List Nat :=
  [1, 2, 3, 4, 5, 7, 9, 13, 17, 25, 33, 49, 65, 97, 129, 193, 257, 385, 513, 769, 1025, 1537, 2049, 3073, 4097, 6145, 8193, 12289,
    16385, 24577]

/-- RFC 1951, 3.2.5: the number of extra bits of the codes 0, ..., 29. -/
def distExtra : List Nat := [0, 0, 0, 0, 1, 1, 2, 2, 3, 3, 4, 4, 5, 5, 6, 6, 7, 7, 8, 8, 9, 9, 10, 10, 11, 11, 12, 12, 13, 13]

/-- `len` times, append the byte that is `dist` back. -/
def copyBack (dist : Nat) : Nat → List Byte → List Byte
  | 0, o => o
  | n + 1, o => copyBack dist n (o ++ [o.getD (o.length - dist) 0])

/-- What a block is made of: a literal byte, or a copy given by length code, extra bits, distance code, extra bits. -/
inductive Item where
  | lit (b : Byte)
  | copy (lc lx dc dx : Nat)
deriving DecidableEq, Repr

/-- The item can be written with the two codes.  Length 258 has a code of its own: code 284 stands for 227 to 257. -/
def Item.Valid (lit dist : List Nat) : Item → Prop
  | .lit b => lit.getD b.toNat 0 ≠ 0
  | .copy lc lx dc dx => 257 ≤ lc ∧ lc ≤ 285 ∧ lit.getD lc 0 ≠ 0 ∧ lx < 2 ^ lengthExtra.getD (lc - 257) 0 ∧
      (lc = 284 → lx < 31) ∧ dc < 30 ∧ dist.getD dc 0 ≠ 0 ∧ dx < 2 ^ distExtra.getD dc 0

/-- How it is written. -/
def Item.bits (lit dist : List Nat) : Item → List Bool
  | .lit b => codeBits lit b.toNat
  | .copy lc lx dc dx => codeBits lit lc ++ Flate.bits (lengthExtra.getD (lc - 257) 0) lx ++
      codeBits dist dc ++ Flate.bits (distExtra.getD dc 0) dx

/-- What it adds to the output so far; a distance must not reach before the beginning. -/
def Item.run (o : List Byte) : Item → Option (List Byte)
  | .lit b => some (o ++ [b])
  | .copy lc lx dc dx =>
    if distBase.getD dc 0 + dx ≤ o.length then some (copyBack (distBase.getD dc 0 + dx) (lengthBase.getD (lc - 257) 0 + lx) o) else none

/-- The items one after the other. -/
def runItems : List Byte → List Item → Option (List Byte)
  | o, [] => some o
  | o, i :: is => (i.run o).bind fun o => runItems o is

/-- Items and the end of the block. -/
def itemsBits (lit dist : List Nat) (is : List Item) : List Bool := is.flatMap (Item.bits lit dist) ++ codeBits lit 256

/-- RFC 1951, 3.2.6: the fixed literal/length code. -/
def fixedLit : List Nat := List.replicate 144 8 ++ List.replicate 112 9 ++ List.replicate 24 7 ++ List.replicate 8 8

/-- RFC 1951, 3.2.6: the fixed distance code. -/
def fixedDist : List Nat := List.replicate 32 5

/-- RFC 1951, 3.2.7: one element of the sequence of code lengths: the symbol and its extra bits. -/
structure LenOp where
  sym : Nat
  extra : Nat
deriving DecidableEq, Repr

/-- RFC 1951, 3.2.7: extra bits of the symbols 16, 17, 18. -/
def lenOpExtra (sym : Nat) : Nat := if sym = 16 then 2 else if sym = 17 then 3 else if sym = 18 then 7 else 0

/-- RFC 1951, 3.2.7: what an element adds to the code lengths so far. -/
def LenOp.run (l : List Nat) (p : LenOp) : Option (List Nat) :=
  if p.sym ≤ 15 then some (l ++ [p.sym])
  else if p.sym = 16 then (l.getLast?).map fun x => l ++ List.replicate (3 + p.extra) x
  else if p.sym = 17 then some (l ++ List.replicate (3 + p.extra) 0)
  else if p.sym = 18 then some (l ++ List.replicate (11 + p.extra) 0)
  else none

/-- All elements. -/
def runOps : List Nat → List LenOp → Option (List Nat)
  | l, [] => some l
  | l, p :: ps => (p.run l).bind fun l => runOps l ps

/-- RFC 1951, 3.2.7: the order in which the lengths of the code length code are written. -/
def order : List Nat := [16, 17, 18, 0, 8, 7, 9, 6, 10, 5, 11, 4, 12, 3, 13, 2, 14, 1, 15]

/-- RFC 1951, 3.2.7: the header of a block with dynamic codes. -/
structure Header where
  hlit : Nat
  hdist : Nat
  hclen : Nat
  /-- the lengths of the code length code, symbols 0 to 18 -/
  clens : List Nat
  ops : List LenOp
  /-- the code lengths the elements stand for -/
  lens : List Nat
deriving DecidableEq, Repr

/-- The literal/length code. -/
def Header.lit (h : Header) : List Nat := h.lens.take (h.hlit + 257)

/-- The distance code. -/
def Header.dist (h : Header) : List Nat := h.lens.drop (h.hlit + 257)

/-- RFC 1951, 3.2.7.  A single distance code length of zero means that there are no copies; it is allowed here only
if there are no length codes either. -/
structure Header.Valid (h : Header) : Prop where
  hlit : h.hlit ≤ 29
  hdist : h.hdist ≤ 31
  hclen : h.hclen ≤ 15
  clens : h.clens.length = 19
  ccode : ValidCode 7 h.clens
  unwritten : ∀ i, h.hclen + 4 ≤ i → i < 19 → h.clens.getD (order.getD i 0) 0 = 0
  ops : ∀ p ∈ h.ops, h.clens.getD p.sym 0 ≠ 0 ∧ p.extra < 2 ^ lenOpExtra p.sym
  lens : runOps [] h.ops = some h.lens
  length : h.lens.length = h.hlit + 257 + h.hdist + 1
  lit : ValidCode 15 h.lit
  eob : h.lit.getD 256 0 ≠ 0
  dist : ValidCode 15 h.dist ∨ (h.dist = [0] ∧ h.hlit = 0)

/-- How the header is written. -/
def Header.bits (h : Header) : List Bool :=
  Flate.bits 5 h.hlit ++ Flate.bits 5 h.hdist ++ Flate.bits 4 h.hclen ++
    (List.range (h.hclen + 4)).flatMap (fun i => Flate.bits 3 (h.clens.getD (order.getD i 0) 0)) ++
    h.ops.flatMap fun p => codeBits h.clens p.sym ++ Flate.bits (lenOpExtra p.sym) p.extra

/-- A block. -/
inductive Block where
  | stored (pad : List Bool) (data : List Byte)
  | fixed (is : List Item)
  | dynamic (h : Header) (is : List Item)
deriving Repr

/-- The block may stand at bit position `pos`. -/
def Block.Valid (pos : Nat) : Block → Prop
  | .stored pad data => pad.length < 8 ∧ (pos + 3 + pad.length) % 8 = 0 ∧ data.length < 65536
  | .fixed is => ∀ i ∈ is, i.Valid fixedLit fixedDist
  | .dynamic h is => h.Valid ∧ ∀ i ∈ is, i.Valid h.lit h.dist

/-- RFC 1951, 3.2.3 and 3.2.4: how a block is written. -/
def Block.bits (final : Bool) : Block → List Bool
  | .stored pad data => final :: Flate.bits 2 0 ++ pad ++ Flate.bits 16 data.length ++ Flate.bits 16 (65535 - data.length) ++ byteBits data
  | .fixed is => final :: Flate.bits 2 1 ++ itemsBits fixedLit fixedDist is
  | .dynamic h is => final :: Flate.bits 2 2 ++ h.bits ++ itemsBits h.lit h.dist is

/-- What a block adds to the output so far. -/
def Block.run (o : List Byte) : Block → Option (List Byte)
  | .stored _ data => some (o ++ data)
  | .fixed is => runItems o is
  | .dynamic _ is => runItems o is

/-- The blocks of a stream; the last one is marked. -/
def blocksBits : List Block → List Bool
  | [] => []
  | [b] => b.bits true
  | b :: bs => b.bits false ++ blocksBits bs

/-- All blocks are valid where they stand, and produce `m` after `o`. -/
def Produces : Nat → List Byte → List Block → List Byte → Prop
  | _, o, [], m => m = o
  | pos, o, b :: bs, m => b.Valid pos ∧ ∃ o', b.run o = some o' ∧ Produces (pos + (b.bits false).length) o' bs m

/-- RFC 1951: the bytes `s` are a DEFLATE stream for the message `m`. -/
def IsDeflate (s m : List Byte) : Prop :=
  ∃ (bs : List Block) (pad : List Bool), bs ≠ [] ∧ pad.length < 8 ∧ byteBits s = blocksBits bs ++ pad ∧ Produces 0 [] bs m

end Verif.Flate
