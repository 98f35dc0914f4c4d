import Verif.Words
import Verif.Checksum.Tables

/-!
# CRC-32, CRC-32C and Adler-32 (crc.cpp, crc.h, adler32.cpp, adler32.h): model

The portable code is modelled; the ARMv8 and SSE4.2 replacements of `Update` (crc_simd.cpp) are not. Buffers are given with the
address they start at, because `CRC32::Update` treats aligned and unaligned bytes differently.
-/
namespace Verif.Checksum

/-- A checksum object: `Update` (address, bytes), `UpdateByte`, `Restart`, `TruncatedFinal`. -/
structure Obj (σ : Type) where
  init : σ
  update : σ → Nat → List Byte → σ
  final : σ → Nat → Except Err (σ × List Byte)

/-! ## CRC -/

/-- `CRC32_INDEX(c)` (crc.h:15, 18). -/
def index : ByteOrder → BitVec 32 → BitVec 32
  | .little, c => c &&& 0xff
  | .big, c => c >>> 24

/-- `CRC32_SHIFTED(c)` (crc.h:16, 19). -/
def shifted : ByteOrder → BitVec 32 → BitVec 32
  | .little, c => c >>> 8
  | .big, c => c <<< 8

/-- `m_tab[CRC32_INDEX(crc) ^ b] ^ CRC32_SHIFTED(crc)` (crc.h:38, crc.cpp:160, 174): one byte. -/
def byteStep (o : ByteOrder) (tab : List (BitVec 32)) (c : BitVec 32) (b : Byte) : BitVec 32 :=
  tab.getD (index o c ^^^ b.setWidth 32).toNat 0 ^^^ shifted o c

/-- `m_tab[CRC32_INDEX(crc)] ^ CRC32_SHIFTED(crc)` (crc.cpp:165-168). -/
def wordStep (o : ByteOrder) (tab : List (BitVec 32)) (c : BitVec 32) : BitVec 32 := tab.getD (index o c).toNat 0 ^^^ shifted o c

/-- First loop of `Update` (crc.cpp:159-160): bytes up to the first aligned address. -/
def crcHead (o : ByteOrder) (tab : List (BitVec 32)) : List Byte → Nat → BitVec 32 → BitVec 32 × List Byte
  | [], _, c => (c, [])
  | b :: s, addr, c => if addr % 4 = 0 then (c, b :: s) else crcHead o tab s (addr + 1) (byteStep o tab c b)

/-- Second loop of `Update` (crc.cpp:162-170): whole words in the machine's byte order. The fuel is the number of bytes. -/
def crcWords (o : ByteOrder) (tab : List (BitVec 32)) : Nat → List Byte → BitVec 32 → BitVec 32 × List Byte
  | 0, s, c => (c, s)
  | f + 1, s, c =>
    if 4 ≤ s.length then
      let c := c ^^^ BitVec.ofNat 32 (o.val (s.take 4))
      let c := wordStep o tab c
      let c := wordStep o tab c
      let c := wordStep o tab c
      let c := wordStep o tab c
      crcWords o tab f (s.drop 4) c
    else (c, s)

/-- `CRC32::Update`, `CRC32C::Update` (crc.cpp:147-176, 319-354) of the bytes `s` at address `addr`. -/
def crcUpdate (o : ByteOrder) (tab : List (BitVec 32)) (c : BitVec 32) (addr : Nat) (s : List Byte) : BitVec 32 :=
  let (c, s) := crcHead o tab s addr c
  let (c, s) := crcWords o tab s.length s c
  s.foldl (byteStep o tab) c

/-- `GetCrcByte(i)` (crc.h:43): byte `i` of the register in memory. -/
def getCrcByte (o : ByteOrder) (c : BitVec 32) (i : Nat) : Byte := (o.bytes 4 c.toNat).getD i 0

/-- `CRC32::TruncatedFinal`, `CRC32C::TruncatedFinal` (crc.cpp:178-187, 356-365) and `Reset` (crc.h:48). -/
def crcFinal (o : ByteOrder) (c : BitVec 32) (size : Nat) : Except Err (BitVec 32 × List Byte) :=
  if 4 < size then .error .invalidArgument
  else
    let c := c ^^^ 0xffffffff
    .ok (0xffffffff, (List.range size).map (getCrcByte o c))

/-- The table a machine of the given byte order is compiled with (crc.cpp:29-134). -/
def crc32Tab : ByteOrder → List (BitVec 32)
  | .little => crc32TabLe
  | .big => crc32TabBe

def crc32cTab : ByteOrder → List (BitVec 32)
  | .little => crc32cTabLe
  | .big => crc32cTabBe

/-- `class CRC32` (crc.h:25-53) on a machine of byte order `o`. -/
def crc32 (o : ByteOrder) : Obj (BitVec 32) := ⟨0xffffffff, crcUpdate o (crc32Tab o), crcFinal o⟩

/-- `class CRC32C` (crc.h:58-86). -/
def crc32c (o : ByteOrder) : Obj (BitVec 32) := ⟨0xffffffff, crcUpdate o (crc32cTab o), crcFinal o⟩

/-! ## Adler-32 -/

/-- `s1 += *input++; s2 += s1;` (adler32.cpp:19-20) with `unsigned long` of `W` bits. -/
def adlerByte (W : Nat) (s : Nat × Nat) (b : Byte) : Nat × Nat :=
  let s1 := (s.1 + b.toNat) % 2 ^ W
  (s1, (s.2 + s1) % 2 ^ W)

/-- Main loop (adler32.cpp:29-48). The fuel is the number of bytes. -/
def adlerLoop (W : Nat) : Nat → List Byte → Nat × Nat → Nat × Nat
  | 0, _, s => s
  | f + 1, x, s =>
    if x.length > 0 then
      let s := (x.take 8).foldl (adlerByte W) s
      let x := x.drop 8
      let s1 := if s.1 ≥ 65521 then s.1 - 65521 else s.1
      let s2 := if x.length % 0x8000 = 0 then s.2 % 65521 else s.2
      adlerLoop W f x (s1, s2)
    else s

/-- `Adler32::Update` (adler32.cpp:8-55); the state is `(m_s1, m_s2)`, 16-bit. -/
def adlerUpdate (W : Nat) (s : BitVec 16 × BitVec 16) (x : List Byte) : BitVec 16 × BitVec 16 :=
  let n := x.length % 8
  let t := (s.1.toNat, s.2.toNat)
  let t :=
    if n ≠ 0 then
      let t := (x.take n).foldl (adlerByte W) t
      ((if t.1 ≥ 65521 then t.1 - 65521 else t.1), t.2 % 65521)
    else t
  let t := adlerLoop W x.length (x.drop n) t
  (BitVec.ofNat 16 t.1, BitVec.ofNat 16 t.2)

/-- `Adler32::TruncatedFinal` (adler32.cpp:57-81) and `Reset` (adler32.h:27). -/
def adlerFinal (s : BitVec 16 × BitVec 16) (size : Nat) : Except Err ((BitVec 16 × BitVec 16) × List Byte) :=
  if 4 < size then .error .invalidArgument
  else
    .ok ((1, 0), [(s.2 >>> 8).setWidth 8, s.2.setWidth 8, (s.1 >>> 8).setWidth 8, s.1.setWidth 8].take size)

/-- `class Adler32` with `unsigned long` of `W` bits. -/
def adler32 (W : Nat) : Obj (BitVec 16 × BitVec 16) := ⟨(1, 0), fun s _ x => adlerUpdate W s x, adlerFinal⟩

/-! ## Histories -/

/-- A call on a checksum object: `Update(buffer at addr)`, `TruncatedFinal(size)`, `Restart()`. -/
inductive Op where
  | update (addr : Nat) (x : List Byte)
  | final (size : Nat)
  | restart

/-- What a sequence of calls returns: one entry per `TruncatedFinal`. `Restart` is `TruncatedFinal(NULL, 0)` (cryptlib.h:1152-1153). -/
def run {σ : Type} (O : Obj σ) : List Op → σ → List (Except Err (List Byte))
  | [], _ => []
  | .update a x :: ops, s => run O ops (O.update s a x)
  | .final n :: ops, s =>
    match O.final s n with
    | .ok (s', d) => .ok d :: run O ops s'
    | .error e => .error e :: run O ops s
  | .restart :: ops, s =>
    match O.final s 0 with
    | .ok (s', _) => run O ops s'
    | .error _ => run O ops s

end Verif.Checksum
