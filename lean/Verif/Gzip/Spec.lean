import Verif.Flate.Format
import Verif.Checksum.Spec

/-! # The formats of RFC 1952 (gzip) and RFC 1950 (zlib) -/
namespace Verif.Gzip.Spec

open Verif.Flate (IsDeflate)
open Verif.Checksum (IsCrc crc32Poly adlerDigest)

/-- RFC 1952 2.3: the header of a member. `headerCrc` is the two bytes of the optional checksum of the header. -/
structure Header where
  text : Bool
  time : Nat
  extraFlags : Byte
  os : Byte
  extra : Option (List Byte)
  name : Option (List Byte)
  comment : Option (List Byte)
  headerCrc : Option (List Byte)

/-- The flags FTEXT, FHCRC, FEXTRA, FNAME, FCOMMENT. -/
def Header.flags (h : Header) : Nat :=
  (if h.text then 1 else 0) + (if h.headerCrc.isSome then 2 else 0) + (if h.extra.isSome then 4 else 0) + (if h.name.isSome then 8 else 0) + (if h.comment.isSome then 16 else 0)

/-- A string ends with a zero byte. -/
def zeroEnded : Option (List Byte) → List Byte
  | none => []
  | some n => n ++ [0]

/-- The extra field follows its length. -/
def extraField : Option (List Byte) → List Byte
  | none => []
  | some e => leBytes 2 e.length ++ e

/-- All but the checksum of the header. -/
def Header.plain (h : Header) : List Byte :=
  [0x1f, 0x8b, 8, BitVec.ofNat 8 h.flags] ++ leBytes 4 h.time ++ [h.extraFlags, h.os] ++
    extraField h.extra ++ zeroEnded h.name ++ zeroEnded h.comment

def Header.bytes (h : Header) : List Byte := h.plain ++ h.headerCrc.getD []

/-- The fields fit, the strings contain no zero byte, and the checksum of the header is the first two bytes of its CRC-32. -/
structure Header.Valid (h : Header) : Prop where
  time : h.time < 2 ^ 32
  extra : ∀ e, h.extra = some e → e.length < 2 ^ 16
  name : ∀ n, h.name = some n → 0 ∉ n
  comment : ∀ n, h.comment = some n → 0 ∉ n
  crc : ∀ c, h.headerCrc = some c → ∃ d, IsCrc crc32Poly h.plain d ∧ c = d.take 2

/-- The eight bytes after the stream: CRC-32 and length, least significant byte first. -/
def IsTail (m t : List Byte) : Prop := ∃ c, IsCrc crc32Poly m c ∧ t = c ++ leBytes 4 (m.length % 2 ^ 32)

/-- A member of a gzip file: header, DEFLATE stream, tail. -/
def IsMember (h : Header) (m x : List Byte) : Prop := h.Valid ∧ ∃ s t, IsDeflate s m ∧ IsTail m t ∧ x = h.bytes ++ s ++ t

/-- RFC 1950: the two bytes before the stream, for a window of `2 ^ log2` bytes and no preset dictionary: method 8, window size, level, and a check value. -/
def IsZHeader (log2 : Nat) (h : List Byte) : Prop :=
  ∃ cmf flg : Byte, h = [cmf, flg] ∧ cmf.toNat % 16 = 8 ∧ cmf.toNat / 16 + 8 = log2 ∧ (cmf.toNat * 256 + flg.toNat) % 31 = 0 ∧ flg.toNat / 32 % 2 = 0

/-- A zlib stream. -/
def IsZlib (log2 : Nat) (m x : List Byte) : Prop := ∃ h s, IsZHeader log2 h ∧ IsDeflate s m ∧ x = h ++ s ++ adlerDigest m

end Verif.Gzip.Spec
