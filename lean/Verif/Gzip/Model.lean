import Verif.Flate.Inflator
import Verif.Flate.DeflatorProps
import Verif.Checksum.Model

/-!
# `Gzip`, `Gunzip` (gzip.h, gzip.cpp), `ZlibCompressor`, `ZlibDecompressor` (zlib.h, zlib.cpp)

The subclasses of `Deflator` and `Inflator` that put something before and after the stream, over the models of those two. As there, an exception ends the run, and signals to the attachment are not modelled.
The checksum objects are given what was decompressed in one phase at once and at address 0: by `Checksum.crc32_history` and `adler32_history` neither matters.
-/
namespace Verif.Gzip

open Verif.Flate

/-! ## The decompressors -/

/-- The virtual functions of `Inflator` (zinflate.h:126-131), over the members of the subclass. `header` and `tail` take the contents of `m_inQueue` and leave the rest of it. -/
structure Box (σ : Type) where
  maxHeader : Nat
  header : List Byte → Except Err (σ × List Byte)
  absorb : σ → List Byte → σ
  maxTail : Nat
  tail : σ → List Byte → Except Err (σ × List Byte)

/-- An object: what the attachment has received is `done ++ inf.out`, `done` before the header of the current stream. -/
structure Un (σ : Type) where
  inf : Inf := {}
  x : σ
  rep : Bool
  done : List Byte := []

/-- What the attachment has received. -/
def Un.out {σ : Type} (s : Un σ) : List Byte := s.done ++ s.inf.out

/-- `ProcessDecompressedData` for all that `Inflator` put out between the state `s.inf` and the state `t`. -/
def Un.next {σ : Type} (B : Box σ) (s : Un σ) (t : Inf) : Un σ := { s with inf := t, x := B.absorb s.x (t.out.drop s.inf.out.length) }

/-- `Inflator::ProcessInput` (zinflate.cpp:329-372) with the subclass's functions. -/
def Un.processInput {σ : Type} (B : Box σ) (spy : List Byte → Nat) (flush : Bool) : Nat → Un σ → Except Err (Un σ)
  | 0, _ => .error .diverges
  | f + 1, s =>
    match s.inf.phase with
    | .preStream =>
      if flush = false ∧ s.inf.rd.queue.length < B.maxHeader then .ok s
      else match B.header s.inf.rd.queue with
        | .error e => .error e
        | .ok (x, q) =>
          Un.processInput B spy flush f { s with
            x := x, done := s.out
            inf := { s.inf with phase := .waitHeader, wrapped := false, current := 0, lastFlush := 0, window := fun _ => 0, out := [], rd := { s.inf.rd with queue := q } } }
    | .waitHeader =>
      if s.inf.rd.queue.length < (if flush then 1 else maxHeaderSize) then .ok s
      else match s.inf.decodeHeader with
        | .error e => .error e
        | .ok t => Un.processInput B spy flush f { s with inf := t }
    | .decodingBody =>
      match s.inf.decodeBody spy with
      | .error e => .error e
      | .ok (true, t) => Un.processInput B spy flush f (s.next B t)
      | .ok (false, t) => .ok (s.next B t)
    | .postStream =>
      if flush = false ∧ s.inf.rd.queue.length < B.maxTail then .ok s
      else match B.tail s.x s.inf.rd.queue with
        | .error e => .error e
        | .ok (x, q) =>
          let s := { s with x := x, inf := { s.inf with phase := if s.rep then .preStream else .afterEnd, rd := { s.inf.rd with queue := q } } }
          if q.length = 0 then .ok s else Un.processInput B spy flush f s
    | .afterEnd => .ok { s with inf := { s.inf with out := s.inf.out ++ s.inf.rd.queue, rd := { s.inf.rd with queue := [] } } }

/-- `Inflator::Put2` (zinflate.cpp:301-315), blocking. -/
def Un.put {σ : Type} (B : Box σ) (spy : List Byte → Nat) (s : Un σ) (data : List Byte) (messageEnd : Bool) : Except Err (Un σ) :=
  let s := { s with inf := { s.inf with rd := { s.inf.rd with queue := s.inf.rd.queue ++ data } } }
  match Un.processInput B spy messageEnd (2 * (s.inf.rd.bits + 8 * s.inf.rd.queue.length) + 10) s with
  | .error e => .error e
  | .ok s => if messageEnd ∧ ¬ (s.inf.phase = .preStream ∨ s.inf.phase = .afterEnd) then .error .invalidDataFormat else .ok s

/-- `Inflator::IsolatedFlush(false, true)` (zinflate.cpp:317-327) -/
def Un.softFlush {σ : Type} (B : Box σ) (s : Un σ) : Un σ := s.next B s.inf.flushOutput

/-- Calls one after the other. -/
def Un.calls {σ : Type} (B : Box σ) (spy : List Byte → Nat) : Un σ → List Call → Except Err (Un σ)
  | s, [] => .ok s
  | s, .put d :: cs => match s.put B spy d false with
    | .error e => .error e
    | .ok s => Un.calls B spy s cs
  | s, .softFlush :: cs => Un.calls B spy (s.softFlush B) cs

/-- A new object with members `x`, these calls and a last `Put` with the message end. -/
def Box.decompress {σ : Type} (B : Box σ) (spy : List Byte → Nat) (x : σ) (rep : Bool) (cs : List Call) (last : List Byte) : Except Err (Un σ) :=
  match Un.calls B spy { x := x, rep := rep } cs with
  | .error e => .error e
  | .ok s => s.put B spy last true

/-- `m_inQueue.Get(b)`, `HeaderErr` if there is nothing. -/
def getByte : List Byte → Except Err (Byte × List Byte)
  | [] => .error .invalidDataFormat
  | b :: q => .ok (b, q)

/-- `m_inQueue.Get(buf, n) != n`, `GetWord32`, `GetWord16`, `Skip`: `HeaderErr` or `TailErr` if there are not so many bytes. -/
def getBytes (n : Nat) (q : List Byte) : Except Err (List Byte × List Byte) := if q.length < n then .error .invalidDataFormat else .ok (q.take n, q.drop n)

/-- The loops for file name and comment (gzip.cpp:131-137, 141-147). -/
def getString : List Byte → Except Err (List Byte × List Byte)
  | [] => .error .invalidDataFormat
  | b :: q => if b = 0 then .ok ([], q) else match getString q with
    | .error e => .error e
    | .ok (n, q) => .ok (b :: n, q)

/-- What the header says: `m_filetime`, `m_filename`, `m_comment`. -/
structure Info where
  time : Nat := 0
  name : List Byte := []
  comment : List Byte := []
deriving DecidableEq, Repr

/-- `Gunzip`: `m_length`, `m_crc`, and the header. -/
structure Gun where
  length : Nat := 0
  crc : BitVec 32 := 0xffffffff
  info : Info := {}

/-- A bit of the flags. -/
def flag (flags : Byte) (mask : Byte) : Bool := flags &&& mask != 0

/-- `Gunzip::ProcessPrestreamHeader` (gzip.cpp:104-148). -/
def gunHeader (q : List Byte) : Except Err (Gun × List Byte) := do
  let (m, q) ← getBytes 2 q
  if m ≠ [0x1f, 0x8b] then .error .invalidDataFormat
  else do
    let (b, q) ← getByte q
    if b ≠ 8 then .error .invalidDataFormat
    else do
      let (flags, q) ← getByte q
      if flag flags (32 ||| 2) then .error .invalidDataFormat
      else do
        let (time, q) ← getBytes 4 q
        let (_, q) ← getBytes 2 q
        let (_, q) ← (if flag flags 4 then do
            let (n, q) ← getBytes 2 q
            getBytes (leVal n) q
          else .ok ([], q))
        let (name, q) ← (if flag flags 8 then getString q else .ok ([], q))
        let (comment, q) ← (if flag flags 16 then getString q else .ok ([], q))
        .ok ({ info := { time := leVal time, name := name, comment := comment } }, q)

/-- `Gunzip::ProcessDecompressedData` (gzip.cpp:150-155). -/
def gunAbsorb (o : ByteOrder) (s : Gun) (d : List Byte) : Gun := { s with crc := (Checksum.crc32 o).update s.crc 0 d, length := (s.length + d.length) % 2 ^ 32 }

/-- `Gunzip::ProcessPoststreamTail` (gzip.cpp:157-170). `CrcErr` and `LengthErr` are `.other`. -/
def gunTail (o : ByteOrder) (s : Gun) (q : List Byte) : Except Err (Gun × List Byte) := do
  let (c, q) ← getBytes 4 q
  let (r, d) ← (Checksum.crc32 o).final s.crc 4
  if c ≠ d then .error .other
  else do
    let (l, q) ← getBytes 4 q
    if leVal l ≠ s.length then .error .other else .ok ({ s with crc := r }, q)

/-- `Gunzip` (gzip.h:85-145) on a machine of byte order `o`. -/
def gunzip (o : ByteOrder) : Box Gun where
  maxHeader := 1024
  header := gunHeader
  absorb := gunAbsorb o
  maxTail := 8
  tail := gunTail o

/-- `ZlibDecompressor`: `m_adler32`. -/
abbrev Zun := BitVec 16 × BitVec 16

/-- `ZlibDecompressor::ProcessPrestreamHeader` (zlib.cpp:57-78). A window of another size than 2^15 is not modelled: an outcome of its own. -/
def zunHeader (q : List Byte) : Except Err (Zun × List Byte) := do
  let (cmf, q) ← getByte q
  let (flags, q) ← getByte q
  if (cmf.toNat * 256 + flags.toNat) % 31 ≠ 0 then .error .invalidDataFormat
  else if cmf &&& 0xf ≠ 8 then .error .invalidDataFormat
  else if flag flags 32 then .error .invalidDataFormat
  else if 8 + (cmf >>> 4).toNat ≠ 15 then .error .undefinedBehaviour
  else .ok ((1, 0), q)

/-- `ZlibDecompressor::ProcessPoststreamTail` (zlib.cpp:86-93). `Adler32Err` is `.other`. -/
def zunTail (W : Nat) (s : Zun) (q : List Byte) : Except Err (Zun × List Byte) :=
  if q.length < 4 then .error .other
  else do
    let (r, d) ← (Checksum.adler32 W).final s 4
    if q.take 4 ≠ d then .error .other else .ok (r, q.drop 4)

/-- `ZlibDecompressor` (zlib.h:39-65), with `unsigned long` of `W` bits. -/
def zunlib (W : Nat) : Box Zun where
  maxHeader := 2
  header := zunHeader
  absorb := fun s d => (Checksum.adler32 W).update s 0 d
  maxTail := 4
  tail := zunTail W

/-! ## The compressors -/

/-- The virtual functions of `Deflator` (zdeflate.h), over the members `κ` of the subclass, which calls `τ` can set. -/
structure Coat (κ τ : Type) where
  start : κ → Deflator → κ × List Byte
  absorb : κ → List Byte → κ
  finish : κ → Except Err (κ × List Byte)
  set : κ → τ → Except Err κ

/-- An object: `m_headerWritten`. -/
structure Co (κ : Type) where
  d : Deflator
  x : κ
  written : Bool := false

/-- The beginning of `ProcessBuffer` (zdeflate.cpp:452-456). `FillWindow`, which comes before it, then writes nothing and leaves the level, since the window is empty; so here it is done first. -/
def Co.touch {κ τ : Type} (C : Coat κ τ) (s : Co κ) : Co κ :=
  if s.written then s else { d := { s.d with w := s.d.w.putBytes (C.start s.x s.d).2 }, x := (C.start s.x s.d).1, written := true }

/-- Calls before the end of a message. -/
inductive COp (τ : Type) where
  | data (o : Op)
  | set (v : τ)

section
variable {κ τ : Type} (C : Coat κ τ) (srt : List Leaf → List Leaf)

/-- `Put2` with no message end, `IsolatedFlush`, `SetDeflateLevel`, and the calls that set something. -/
def Co.op (s : Co κ) : COp τ → Except Err (Co κ)
  | .set v => match C.set s.x v with
    | .error e => .error e
    | .ok x => .ok { s with x := x }
  | .data (.put []) => .ok s
  | .data (.put (b :: str)) =>
    let s := s.touch C
    match s.d.put2 srt (b :: str) false with
    | .error e => .error e
    | .ok d => .ok { s with d := d, x := C.absorb s.x (b :: str) }
  | .data (.flush hard) =>
    let s := s.touch C
    match s.d.isolatedFlush srt hard with
    | .error e => .error e
    | .ok d => .ok { s with d := d }
  | .data (.setLevel n) => match s.d.setLevel srt n with
    | .error e => .error e
    | .ok d => .ok { s with d := d }

def Co.ops : Co κ → List (COp τ) → Except Err (Co κ)
  | s, [] => .ok s
  | s, o :: os => match s.op C srt o with
    | .error e => .error e
    | .ok s => Co.ops s os

/-- `Put2` with the message end (zdeflate.cpp:521-549); `Reset` does not change what is written. -/
def Co.finish (s : Co κ) (last : List Byte) : Except Err (Co κ) :=
  let s := s.touch C
  match s.d.put2 srt last true with
  | .error e => .error e
  | .ok d => match C.finish (C.absorb s.x last) with
    | .error e => .error e
    | .ok (x, t) => .ok { d := { d with w := d.w.putBytes t }, x := x, written := false }

/-- Several messages: what each becomes. -/
def Co.messages : Co κ → List (List (COp τ) × List Byte) → Except Err (List (List Byte))
  | _, [] => .ok []
  | s, m :: ms => match Co.ops C srt s m.1 with
    | .error e => .error e
    | .ok t => match t.finish C srt m.2 with
      | .error e => .error e
      | .ok t => match Co.messages t ms with
        | .error e => .error e
        | .ok xs => .ok (t.d.w.out.drop s.d.w.out.length :: xs)

/-- A new object and some messages. -/
def Coat.compress (x : κ) (j : Junk) (level log2 : Int) (detect : Bool) (ms : List (List (COp τ) × List Byte)) : Except Err (List (List Byte)) :=
  match Deflator.new j level log2 detect with
  | .error e => .error e
  | .ok d => Co.messages C srt { d := d, x := x } ms

end

/-- `Gzip`: `m_totalLen`, `m_crc`, and what the header is to say. -/
structure Gz where
  total : Nat := 0
  crc : BitVec 32 := 0xffffffff
  info : Info := {}

/-- `SetFiletime`, `SetFilename`, `SetComment` -/
inductive Setter where
  | time (t : Nat)
  | name (n : List Byte) (check : Bool)
  | comment (n : List Byte) (check : Bool)
deriving DecidableEq, Repr

/-- `Is8859Character` (gzip.cpp:10-13) -/
def is8859 (c : Byte) : Bool := (decide (32 ≤ c.toNat) && decide (c.toNat ≤ 126)) || decide (160 ≤ c.toNat)

/-- gzip.h:56, gzip.cpp:74-98 -/
def gzSet (s : Gz) : Setter → Except Err Gz
  | .time t => .ok { s with info := { s.info with time := t % 2 ^ 32 } }
  | .name n check => if check && !n.all is8859 then .error .invalidDataFormat else .ok { s with info := { s.info with name := n } }
  | .comment n check => if check && !n.all is8859 then .error .invalidDataFormat else .ok { s with info := { s.info with comment := n } }

/-- `Gzip::WritePrestreamHeader` (gzip.cpp:27-55); `os` is `GZIP_OS_CODE`. -/
def gzStart (os : Byte) (s : Gz) (d : Deflator) : Gz × List Byte :=
  let flags : Byte := (if s.info.name.isEmpty then 0 else 8) ||| (if s.info.comment.isEmpty then 0 else 16)
  let extra : Byte := if d.level = 1 then 4 else if d.level = 9 then 2 else 0
  ({ s with total := 0, crc := 0xffffffff },
    [0x1f, 0x8b, 8, flags] ++ leBytes 4 s.info.time ++ [extra, os] ++ (if s.info.name.isEmpty then [] else s.info.name ++ [0]) ++
      (if s.info.comment.isEmpty then [] else s.info.comment ++ [0]))

/-- `Gzip::WritePoststreamTail` (gzip.cpp:63-72). -/
def gzFinish (o : ByteOrder) (s : Gz) : Except Err (Gz × List Byte) := do
  let (r, d) ← (Checksum.crc32 o).final s.crc 4
  .ok ({ s with crc := r, info := {} }, d ++ leBytes 4 s.total)

/-- `Gzip` (gzip.h:19-79). `ProcessUncompressedData`: gzip.cpp:57-61. -/
def gzip (o : ByteOrder) (os : Byte) : Coat Gz Setter where
  start := gzStart os
  absorb := fun s d => { s with crc := (Checksum.crc32 o).update s.crc 0 d, total := (s.total + d.length) % 2 ^ 32 }
  finish := gzFinish o
  set := gzSet

/-- `ZlibCompressor::GetCompressionLevel` (zlib.cpp:43-47) -/
def zCompressionLevel (level : Nat) : Nat := [0, 1, 1, 1, 2, 2, 2, 2, 2, 3].getD level 0

/-- `RoundUpToMultipleOf(n, m)` (misc.h): `word16` -/
def zRoundUp (n m : Nat) : Nat := if n % m = 0 then n else n + m - n % m

/-- `ZlibCompressor::WritePrestreamHeader` (zlib.cpp:22-30). -/
def zStart (d : Deflator) : List Byte :=
  let cmf := 8 ||| ((d.log2 - 8) <<< 4)
  let flags := zCompressionLevel d.level <<< 6
  beBytes 2 (zRoundUp (cmf * 256 + flags) 31)

/-- `ZlibCompressor` (zlib.h:16-35, zlib.cpp:32-41). Nothing can be set. -/
def zlib (W : Nat) : Coat (BitVec 16 × BitVec 16) Empty where
  start := fun _ d => ((1, 0), zStart d)
  absorb := fun s d => (Checksum.adler32 W).update s 0 d
  finish := fun s => (Checksum.adler32 W).final s 4
  set := fun _ v => nomatch v

end Verif.Gzip
