import Verif.Hash.Obj
import Verif.Words
import Verif.Mem
import Verif.Cipher.Basic

/-!
# Keccak, SHA-3 and SHAKE (keccak_core.cpp, keccak.cpp, sha3.cpp, shake.cpp)

The C++ permutation, which is the portable one (`keccak_simd.cpp` implements a separate two-lane function used elsewhere and is not
modelled).  Memory holds the state as 200 bytes; `Block::Get` and `Block::Put` read and write it as 25 little-endian words, so the model
holds for machines of both byte orders.
-/
namespace Verif.Keccak
open Verif.Cipher (rotl)

abbrev Word := BitVec 64

/-- The local variables `Aba` … `Asu` (or `Eba` … `Esu`) of `KeccakF1600` (keccak_core.cpp:49-60). -/
structure Lanes where
  (ba be bi bo bu : Word)
  (ga ge gi go gu : Word)
  (ka ke ki ko ku : Word)
  (ma me mi mo mu : Word)
  (sa se si so su : Word)
deriving DecidableEq

/-- keccak_core.cpp:31-45 `KeccakF1600Constants`. -/
def constants : List Word :=
  [0x0000000000000001, 0x0000000000008082, 0x800000000000808a, 0x8000000080008000,
   0x000000000000808b, 0x0000000080000001, 0x8000000080008081, 0x8000000000008009,
   0x000000000000008a, 0x0000000000000088, 0x0000000080008009, 0x000000008000000a,
   0x000000008000808b, 0x800000000000008b, 0x8000000000008089, 0x8000000000008003,
   0x8000000000008002, 0x8000000000000080, 0x000000000000800a, 0x800000008000000a,
   0x8000000080008081, 0x8000000000008080, 0x0000000080000001, 0x8000000080008008]

/-- keccak_core.cpp:67-160: the first half of the loop body, from the `A` variables to the `E` variables; `rc` is
`KeccakF1600Constants[round]`. -/
def evenRound (rc : Word) (s : Lanes) : Lanes :=
  let Aba := s.ba
  let Abe := s.be
  let Abi := s.bi
  let Abo := s.bo
  let Abu := s.bu
  let Aga := s.ga
  let Age := s.ge
  let Agi := s.gi
  let Ago := s.go
  let Agu := s.gu
  let Aka := s.ka
  let Ake := s.ke
  let Aki := s.ki
  let Ako := s.ko
  let Aku := s.ku
  let Ama := s.ma
  let Ame := s.me
  let Ami := s.mi
  let Amo := s.mo
  let Amu := s.mu
  let Asa := s.sa
  let Ase := s.se
  let Asi := s.si
  let Aso := s.so
  let Asu := s.su
  let BCa := Aba ^^^ Aga ^^^ Aka ^^^ Ama ^^^ Asa
  let BCe := Abe ^^^ Age ^^^ Ake ^^^ Ame ^^^ Ase
  let BCi := Abi ^^^ Agi ^^^ Aki ^^^ Ami ^^^ Asi
  let BCo := Abo ^^^ Ago ^^^ Ako ^^^ Amo ^^^ Aso
  let BCu := Abu ^^^ Agu ^^^ Aku ^^^ Amu ^^^ Asu
  let Da := BCu ^^^ rotl BCe 1
  let De := BCa ^^^ rotl BCi 1
  let Di := BCe ^^^ rotl BCo 1
  let Do := BCi ^^^ rotl BCu 1
  let Du := BCo ^^^ rotl BCa 1
  let Aba := Aba ^^^ Da
  let BCa := Aba
  let Age := Age ^^^ De
  let BCe := rotl Age 44
  let Aki := Aki ^^^ Di
  let BCi := rotl Aki 43
  let Amo := Amo ^^^ Do
  let BCo := rotl Amo 21
  let Asu := Asu ^^^ Du
  let BCu := rotl Asu 14
  let Eba := BCa ^^^ (~~~BCe &&& BCi)
  let Eba := Eba ^^^ rc
  let Ebe := BCe ^^^ (~~~BCi &&& BCo)
  let Ebi := BCi ^^^ (~~~BCo &&& BCu)
  let Ebo := BCo ^^^ (~~~BCu &&& BCa)
  let Ebu := BCu ^^^ (~~~BCa &&& BCe)
  let Abo := Abo ^^^ Do
  let BCa := rotl Abo 28
  let Agu := Agu ^^^ Du
  let BCe := rotl Agu 20
  let Aka := Aka ^^^ Da
  let BCi := rotl Aka 3
  let Ame := Ame ^^^ De
  let BCo := rotl Ame 45
  let Asi := Asi ^^^ Di
  let BCu := rotl Asi 61
  let Ega := BCa ^^^ (~~~BCe &&& BCi)
  let Ege := BCe ^^^ (~~~BCi &&& BCo)
  let Egi := BCi ^^^ (~~~BCo &&& BCu)
  let Ego := BCo ^^^ (~~~BCu &&& BCa)
  let Egu := BCu ^^^ (~~~BCa &&& BCe)
  let Abe := Abe ^^^ De
  let BCa := rotl Abe 1
  let Agi := Agi ^^^ Di
  let BCe := rotl Agi 6
  let Ako := Ako ^^^ Do
  let BCi := rotl Ako 25
  let Amu := Amu ^^^ Du
  let BCo := rotl Amu 8
  let Asa := Asa ^^^ Da
  let BCu := rotl Asa 18
  let Eka := BCa ^^^ (~~~BCe &&& BCi)
  let Eke := BCe ^^^ (~~~BCi &&& BCo)
  let Eki := BCi ^^^ (~~~BCo &&& BCu)
  let Eko := BCo ^^^ (~~~BCu &&& BCa)
  let Eku := BCu ^^^ (~~~BCa &&& BCe)
  let Abu := Abu ^^^ Du
  let BCa := rotl Abu 27
  let Aga := Aga ^^^ Da
  let BCe := rotl Aga 36
  let Ake := Ake ^^^ De
  let BCi := rotl Ake 10
  let Ami := Ami ^^^ Di
  let BCo := rotl Ami 15
  let Aso := Aso ^^^ Do
  let BCu := rotl Aso 56
  let Ema := BCa ^^^ (~~~BCe &&& BCi)
  let Eme := BCe ^^^ (~~~BCi &&& BCo)
  let Emi := BCi ^^^ (~~~BCo &&& BCu)
  let Emo := BCo ^^^ (~~~BCu &&& BCa)
  let Emu := BCu ^^^ (~~~BCa &&& BCe)
  let Abi := Abi ^^^ Di
  let BCa := rotl Abi 62
  let Ago := Ago ^^^ Do
  let BCe := rotl Ago 55
  let Aku := Aku ^^^ Du
  let BCi := rotl Aku 39
  let Ama := Ama ^^^ Da
  let BCo := rotl Ama 41
  let Ase := Ase ^^^ De
  let BCu := rotl Ase 2
  let Esa := BCa ^^^ (~~~BCe &&& BCi)
  let Ese := BCe ^^^ (~~~BCi &&& BCo)
  let Esi := BCi ^^^ (~~~BCo &&& BCu)
  let Eso := BCo ^^^ (~~~BCu &&& BCa)
  let Esu := BCu ^^^ (~~~BCa &&& BCe)
  ⟨Eba, Ebe, Ebi, Ebo, Ebu, Ega, Ege, Egi, Ego, Egu, Eka, Eke, Eki, Eko, Eku, Ema, Eme, Emi, Emo, Emu, Esa, Ese, Esi, Eso, Esu⟩

/-- keccak_core.cpp:162-255: the second half of the loop body, from the `E` variables to the `A` variables; `rc` is
`KeccakF1600Constants[round+1]`. -/
def oddRound (rc : Word) (s : Lanes) : Lanes :=
  let Eba := s.ba
  let Ebe := s.be
  let Ebi := s.bi
  let Ebo := s.bo
  let Ebu := s.bu
  let Ega := s.ga
  let Ege := s.ge
  let Egi := s.gi
  let Ego := s.go
  let Egu := s.gu
  let Eka := s.ka
  let Eke := s.ke
  let Eki := s.ki
  let Eko := s.ko
  let Eku := s.ku
  let Ema := s.ma
  let Eme := s.me
  let Emi := s.mi
  let Emo := s.mo
  let Emu := s.mu
  let Esa := s.sa
  let Ese := s.se
  let Esi := s.si
  let Eso := s.so
  let Esu := s.su
  let BCa := Eba ^^^ Ega ^^^ Eka ^^^ Ema ^^^ Esa
  let BCe := Ebe ^^^ Ege ^^^ Eke ^^^ Eme ^^^ Ese
  let BCi := Ebi ^^^ Egi ^^^ Eki ^^^ Emi ^^^ Esi
  let BCo := Ebo ^^^ Ego ^^^ Eko ^^^ Emo ^^^ Eso
  let BCu := Ebu ^^^ Egu ^^^ Eku ^^^ Emu ^^^ Esu
  let Da := BCu ^^^ rotl BCe 1
  let De := BCa ^^^ rotl BCi 1
  let Di := BCe ^^^ rotl BCo 1
  let Do := BCi ^^^ rotl BCu 1
  let Du := BCo ^^^ rotl BCa 1
  let Eba := Eba ^^^ Da
  let BCa := Eba
  let Ege := Ege ^^^ De
  let BCe := rotl Ege 44
  let Eki := Eki ^^^ Di
  let BCi := rotl Eki 43
  let Emo := Emo ^^^ Do
  let BCo := rotl Emo 21
  let Esu := Esu ^^^ Du
  let BCu := rotl Esu 14
  let Aba := BCa ^^^ (~~~BCe &&& BCi)
  let Aba := Aba ^^^ rc
  let Abe := BCe ^^^ (~~~BCi &&& BCo)
  let Abi := BCi ^^^ (~~~BCo &&& BCu)
  let Abo := BCo ^^^ (~~~BCu &&& BCa)
  let Abu := BCu ^^^ (~~~BCa &&& BCe)
  let Ebo := Ebo ^^^ Do
  let BCa := rotl Ebo 28
  let Egu := Egu ^^^ Du
  let BCe := rotl Egu 20
  let Eka := Eka ^^^ Da
  let BCi := rotl Eka 3
  let Eme := Eme ^^^ De
  let BCo := rotl Eme 45
  let Esi := Esi ^^^ Di
  let BCu := rotl Esi 61
  let Aga := BCa ^^^ (~~~BCe &&& BCi)
  let Age := BCe ^^^ (~~~BCi &&& BCo)
  let Agi := BCi ^^^ (~~~BCo &&& BCu)
  let Ago := BCo ^^^ (~~~BCu &&& BCa)
  let Agu := BCu ^^^ (~~~BCa &&& BCe)
  let Ebe := Ebe ^^^ De
  let BCa := rotl Ebe 1
  let Egi := Egi ^^^ Di
  let BCe := rotl Egi 6
  let Eko := Eko ^^^ Do
  let BCi := rotl Eko 25
  let Emu := Emu ^^^ Du
  let BCo := rotl Emu 8
  let Esa := Esa ^^^ Da
  let BCu := rotl Esa 18
  let Aka := BCa ^^^ (~~~BCe &&& BCi)
  let Ake := BCe ^^^ (~~~BCi &&& BCo)
  let Aki := BCi ^^^ (~~~BCo &&& BCu)
  let Ako := BCo ^^^ (~~~BCu &&& BCa)
  let Aku := BCu ^^^ (~~~BCa &&& BCe)
  let Ebu := Ebu ^^^ Du
  let BCa := rotl Ebu 27
  let Ega := Ega ^^^ Da
  let BCe := rotl Ega 36
  let Eke := Eke ^^^ De
  let BCi := rotl Eke 10
  let Emi := Emi ^^^ Di
  let BCo := rotl Emi 15
  let Eso := Eso ^^^ Do
  let BCu := rotl Eso 56
  let Ama := BCa ^^^ (~~~BCe &&& BCi)
  let Ame := BCe ^^^ (~~~BCi &&& BCo)
  let Ami := BCi ^^^ (~~~BCo &&& BCu)
  let Amo := BCo ^^^ (~~~BCu &&& BCa)
  let Amu := BCu ^^^ (~~~BCa &&& BCe)
  let Ebi := Ebi ^^^ Di
  let BCa := rotl Ebi 62
  let Ego := Ego ^^^ Do
  let BCe := rotl Ego 55
  let Eku := Eku ^^^ Du
  let BCi := rotl Eku 39
  let Ema := Ema ^^^ Da
  let BCo := rotl Ema 41
  let Ese := Ese ^^^ De
  let BCu := rotl Ese 2
  let Asa := BCa ^^^ (~~~BCe &&& BCi)
  let Ase := BCe ^^^ (~~~BCi &&& BCo)
  let Asi := BCi ^^^ (~~~BCo &&& BCu)
  let Aso := BCo ^^^ (~~~BCu &&& BCa)
  let Asu := BCu ^^^ (~~~BCa &&& BCe)
  ⟨Aba, Abe, Abi, Abo, Abu, Aga, Age, Agi, Ago, Agu, Aka, Ake, Aki, Ako, Aku, Ama, Ame, Ami, Amo, Amu, Asa, Ase, Asi, Aso, Asu⟩

/-- keccak_core.cpp:65-256: `for (round = 0; round < 24; round += 2)`; `n` is the number of iterations left. -/
def roundLoop : Nat → Nat → Lanes → Lanes
  | 0, _, s => s
  | n + 1, round, s => roundLoop n (round + 2) (oddRound (constants.getD (round + 1) 0) (evenRound (constants.getD round 0) s))

/-- misc.h `BlockGetAndPut<word64, LittleEndian, true, true>::Get`: the word at byte offset `8 i`. -/
def getWord (st : List Byte) (i : Nat) : Word := BitVec.ofNat 64 (leVal ((st.drop (8 * i)).take 8))

/-- keccak_core.cpp:63. -/
def getLanes (st : List Byte) : Lanes :=
  ⟨getWord st 0, getWord st 1, getWord st 2, getWord st 3, getWord st 4, getWord st 5, getWord st 6, getWord st 7, getWord st 8, getWord st 9, getWord st 10, getWord st 11, getWord st 12, getWord st 13, getWord st 14, getWord st 15, getWord st 16, getWord st 17, getWord st 18, getWord st 19, getWord st 20, getWord st 21, getWord st 22, getWord st 23, getWord st 24⟩

/-- keccak_core.cpp:258. -/
def putLanes (s : Lanes) : List Byte :=
  [s.ba, s.be, s.bi, s.bo, s.bu, s.ga, s.ge, s.gi, s.go, s.gu, s.ka, s.ke, s.ki, s.ko, s.ku, s.ma, s.me, s.mi, s.mo, s.mu, s.sa, s.se, s.si, s.so, s.su].flatMap
    fun w => leBytes 8 w.toNat

/-- keccak_core.cpp:47-259 `KeccakF1600`. -/
def keccakF1600 (st : List Byte) : List Byte := putLanes (roundLoop 12 0 (getLanes st))

/-- What distinguishes the classes: `BlockSize()` (`r()`), `DigestSize()`, the byte xored after the message, and whether the class is
`SHAKE` (keccak.h:72-96, sha3.h:59-86, shake.h:65-97; keccak.cpp:60, sha3.cpp:64, shake.cpp:67). -/
structure Variant where
  rate : Nat
  digestSize : Nat
  domain : Byte
  xof : Bool

/-- keccak.h:72-114 `Keccak_Final<T_DigestSize>`. -/
def keccak (d : Nat) : Variant := ⟨200 - 2 * d, d, 0x01, false⟩
/-- sha3.h:60-103 `SHA3_Final<T_DigestSize>`. -/
def sha3 (d : Nat) : Variant := ⟨200 - 2 * d, d, 0x06, false⟩
/-- shake.h:66-156 `SHAKE_Final<T_Strength>(outputSize)`. -/
def shake (strength outputSize : Nat) : Variant := ⟨if strength = 128 then 1344 / 8 else 1088 / 8, outputSize, 0x1F, true⟩

/-- `m_state` and `m_counter` (keccak.h:64-65). -/
structure State where
  st : List Byte
  counter : Nat
deriving DecidableEq

/-- `UINT_MAX`. -/
def uintMax : Nat := 2 ^ 32 - 1

/-- `xorbuf(m_state.BytePtr() + off, input, n)` (misc.cpp:32-94) and `m_state.BytePtr()[off] ^= x`; outside the 200 bytes it is undefined. -/
def xorAt (st : List Byte) (off : Nat) (x : List Byte) : Except Err (List Byte) :=
  if off + x.length > st.length then .error .undefinedBehaviour
  else .ok (st.take off ++ xorBytes ((st.drop off).take x.length) x ++ st.drop (off + x.length))

/-- keccak.cpp:33-42, sha3.cpp:37-46, shake.cpp:33-42 (one text): `while (length >= (spaceLeft = r() - m_counter))`; the subtraction is of
`unsigned int`s.  `fuel` bounds the number of iterations; running out is reported. -/
def absorb (V : Variant) : Nat → State → List Byte → Except Err (State × List Byte)
  | 0, _, _ => .error .diverges
  | fuel + 1, s, input =>
    let spaceLeft := (V.rate + 2 ^ 32 - s.counter) % 2 ^ 32
    if input.length ≥ spaceLeft then do
      let st ← if spaceLeft ≠ 0 then xorAt s.st s.counter (input.take spaceLeft) else .ok s.st
      absorb V fuel ⟨keccakF1600 st, 0⟩ (input.drop spaceLeft)
    else .ok (s, input)

/-- keccak.cpp:28-47, sha3.cpp:32-51, shake.cpp:28-47 `Update`. -/
def update (V : Variant) (s : State) (input : List Byte) : Except Err State :=
  if input.length = 0 then .ok s
  else do
    let (s, input) ← absorb V (input.length + 2) s input
    let st ← if input.length ≠ 0 then xorAt s.st s.counter input else .ok s.st
    return ⟨st, (s.counter + input.length % 2 ^ 32) % 2 ^ 32⟩

/-- keccak.cpp:49-53, sha3.cpp:53-57, shake.cpp:49-53 `Restart`. -/
def restart (_ : State) : State := ⟨List.replicate 200 0, 0⟩

/-- The constructors (keccak.h:51, sha3.h:39, shake.h:40) call `Restart`. -/
def init : State := restart ⟨[], 0⟩

/-- shake.cpp:71-80: the squeezing loop. -/
def squeeze (V : Variant) : Nat → List Byte → Nat → Except Err (List Byte × List Byte)
  | _, st, 0 => .ok (st, [])
  | 0, _, _ + 1 => .error .diverges
  | fuel + 1, st, size@(_ + 1) => do
    let st := keccakF1600 st
    let segmentLen := min size V.rate
    let (st', rest) ← squeeze V fuel st (size - segmentLen)
    return (st', st.take segmentLen ++ rest)

/-- keccak.cpp:55-65, sha3.cpp:59-69, shake.cpp:55-83 `TruncatedFinal`, with `ThrowIfInvalidTruncatedSize` (cryptlib.cpp:415-419 for the
first two, shake.cpp:55-60 for `SHAKE`). -/
def final (V : Variant) (s : State) (size : Nat) : Except Err (State × List Byte) :=
  if V.xof then
    if size > uintMax then .error .invalidArgument
    else do
      let st ← xorAt s.st s.counter [V.domain]
      let st ← xorAt st (V.rate - 1) [0x80]
      let (st, out) ← squeeze V size st size
      return (restart ⟨st, s.counter⟩, out)
  else
    if size > V.digestSize then .error .invalidArgument
    else do
      let st ← xorAt s.st s.counter [V.domain]
      let st ← xorAt st (V.rate - 1) [0x80]
      let st := keccakF1600 st
      if size > st.length then .error .undefinedBehaviour
      else return (restart ⟨st, s.counter⟩, st.take size)

/-- The class as a `HashTransformation`. -/
def obj (V : Variant) : Hash.Obj State := ⟨V.digestSize, V.rate, update V, restart, final V⟩

end Verif.Keccak
