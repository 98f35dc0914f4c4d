import Verif.Auth.Model
import Verif.Cmac.Model
import Verif.Modes.CtrModel

/-!
# CCM (ccm.h, ccm.cpp)

The virtual functions of `AuthenticatedSymmetricCipherBase` for CCM, and `SpecifyDataLengths`. The block cipher is any function on blocks of 16 bytes; `par` is `OptimalNumberOfParallelBlocks`.
-/
namespace Verif.Ccm

open Verif.Modes (Ctr ctrPolicy)
open Verif.Auth (Op Out)

/-- A keyed block cipher and the `DigestSize` parameter, as `SetKeyWithoutResync` accepts it (ccm.cpp:19-21). -/
structure Key where
  E : List Byte → List Byte
  length : ∀ x, x.length = 16 → (E x).length = 16
  M : Nat
  even : M % 2 = 0
  min : 4 ≤ M
  max : M ≤ 16

/-- The cipher, `m_digestSize`, `m_L`; `m_buffer` as `Resync` left it; `CBC_Buffer()`; `m_aadLength`, `m_messageLength`, `m_ctr`, and what newly allocated memory holds. -/
structure Obj where
  E : List Byte → List Byte
  dig : Nat
  L : Nat
  buf : List Byte
  cbc : List Byte
  aad : Nat
  mlen : Nat
  ctr : Stream.State Ctr
  junk : Mem

section
variable (par : Nat)

/-- `SetKeyWithoutResync` (ccm.cpp:11-25). -/
def Obj.setKey (s : Obj) (k : Key) : Obj := { s with E := k.E, dig := k.M, L := 8, buf := load s.junk 0 16, cbc := load s.junk 16 16 }

/-- `Resync` (ccm.cpp:27-48). `m_state` is `State_KeySet` when it is called (authenc.cpp:74-76), so the first branch of the condition is not taken; `SetCipherWithIV` (modes.h:117-125) calls `Resynchronize`. -/
def Obj.resync (s : Obj) (iv : List Byte) : Except Err Obj := do
  let L := if 15 - iv.length > 8 then 8 else 15 - iv.length
  let buf := BitVec.ofNat 8 (L - 1) :: (iv ++ List.replicate (15 - iv.length) 0)
  if h : buf.length = 16 then
    let ctr ← Stream.seek (ctrPolicy s.E 16 par) (Stream.resynchronize (ctrPolicy s.E 16 par) s.ctr (some ⟨buf, h⟩) s.junk) 16
    .ok { s with L := L, buf := buf, ctr := ctr, aad := 0, mlen := 0 }
  else .error .undefinedBehaviour

/-- `AuthenticateBlocks` (ccm.cpp:92-97). -/
def Obj.authBlocks (s : Obj) (d : List Byte) : Except Err (Obj × Nat) := do
  let cbc ← Cmac.chainBlocks s.E 16 s.cbc d d.length
  .ok ({ s with cbc := cbc }, d.length % 16)

/-- `xorbuf(cbcBuffer, m_buffer, m_bufferedDataLength)` and `ProcessBlock` (ccm.cpp:107-112, 123-128) -/
def Obj.last (s : Obj) (pending : List Byte) : Obj :=
  if pending.length > 0 then { s with cbc := s.E (xorBytes (s.cbc.take pending.length) pending ++ s.cbc.drop pending.length) } else s

/-- `AuthenticateLastHeaderBlock` (ccm.cpp:99-113). -/
def Obj.lastHeader (s : Obj) (pending : List Byte) (hdr : Nat) : Except Err Obj := if s.aad ≠ hdr then .error .invalidArgument else .ok (s.last pending)

/-- `AuthenticateLastConfidentialBlock` (ccm.cpp:115-129). -/
def Obj.lastConfidential (s : Obj) (pending : List Byte) (msg : Nat) : Except Err Obj := if s.mlen ≠ msg then .error .invalidArgument else .ok (s.last pending)

/-- `AuthenticateLastFooterBlock` (ccm.cpp:131-135). -/
def Obj.lastFooter (s : Obj) (n : Nat) : Except Err (Obj × List Byte) := do
  let ctr ← Stream.seek (ctrPolicy s.E 16 par) s.ctr 0
  let (ctr, out) ← Stream.processData (ctrPolicy s.E 16 par) ctr (s.cbc.take n)
  .ok ({ s with ctr := ctr }, out)

/-- `m_ctr.ProcessData` -/
def Obj.process (s : Obj) (x : List Byte) : Except Err (Obj × List Byte) := do
  let (ctr, out) ← Stream.processData (ctrPolicy s.E 16 par) s.ctr x
  .ok ({ s with ctr := ctr }, out)

/-- `CCM_Base` (ccm.h:18-93) and `CCM_Final`. `MaxMessageLength` and `DigestSize` depend on the object. -/
def hooks (L dig : Nat) (forward : Bool) : Auth.Hooks Obj Key where
  blockSize := 16
  onPlaintext := true
  forward := forward
  maxHeader := 2 ^ 64 - 1
  maxMessage := if L < 8 then 2 ^ (8 * L) - 1 else 2 ^ 64 - 1
  maxFooter := 0
  digestSize := dig
  ivOk := fun n => decide (7 ≤ n ∧ n ≤ 13)
  setKey := Obj.setKey
  resync := Obj.resync par
  authBlocks := Obj.authBlocks
  lastHeader := fun s p h => s.lastHeader p h
  lastConfidential := fun s p _ m => s.lastConfidential p m
  lastFooter := fun s _ n => s.lastFooter par n
  process := Obj.process par

/-- The length bytes `UncheckedSpecifyDataLengths` puts into `m_buffer` (ccm.cpp:65-89). -/
def lengthBytes (h : Nat) : List Byte :=
  if h > 0 then
    if h < 2 ^ 16 - 2 ^ 8 then beBytes 2 h
    else if h < 2 ^ 32 then 0xff :: 0xfe :: beBytes 4 h
    else 0xff :: 0xff :: beBytes 8 h
  else []

/-- The block built in `CBC_Buffer()` (ccm.cpp:61-63). -/
def firstBlock (cbc buf : List Byte) (dig L h m : Nat) : List Byte :=
  let c := cbc.set 0 (BitVec.ofNat 8 (64 * (if h > 0 then 1 else 0) + 8 * ((dig - 2) / 2) + (L - 1)))
  let c := c.take 8 ++ beBytes 8 m
  c.take 1 ++ (buf.drop 1).take (15 - L) ++ c.drop (16 - L)

/-- `SpecifyDataLengths` (cryptlib.cpp:233-245) without footer and `UncheckedSpecifyDataLengths` (ccm.cpp:50-90). `m_buffer` holds the nonce, and over it what was buffered; that is all if there was no `Update` before
(`hdr = 0`). After an `Update` its content is not modelled, which is an outcome of its own. The lengths of a type of 64 bits. -/
def specify (forward : Bool) (s : Auth.State Obj) (h m : Nat) : Auth.State Obj × Except Err Unit :=
  if h > (hooks par s.o.L s.o.dig forward).maxHeader then (s, .error .invalidArgument)
  else if m > (hooks par s.o.L s.o.dig forward).maxMessage then (s, .error .invalidArgument)
  else if s.phase ≠ .ivSet then (s, .error .badState)
  else if s.hdr ≠ 0 then (s, .error .undefinedBehaviour)
  else
    let cbc := s.o.E (firstBlock s.o.cbc (s.pending ++ s.o.buf.drop s.pending.length) s.o.dig s.o.L h m)
    ({ s with o := { s.o with aad := h, mlen := m, cbc := cbc }, pending := if h > 0 then lengthBytes h else s.pending }, .ok ())

/-- The calls a user can make. -/
inductive Call where
  | op (o : Op Key)
  | specify (header message : Nat)

def step (forward : Bool) (s : Auth.State Obj) : Call → Auth.State Obj × Except Err Out
  | .op o => Auth.step (hooks par s.o.L s.o.dig forward) s o
  | .specify h m => ((specify par forward s h m).1, (specify par forward s h m).2.map fun _ => .nothing)

def run (forward : Bool) (s : Auth.State Obj) : List Call → List (Except Err Out)
  | [] => []
  | c :: cs => (step par forward s c).2 :: run forward (step par forward s c).1 cs

/-- `EncryptAndAuthenticate` (cryptlib.cpp:247-254). -/
def encryptAndAuthenticate (s : Auth.State Obj) (iv header message : List Byte) (macSize : Nat) : Except Err (List Byte × List Byte) :=
  match Auth.resynchronize (hooks par s.o.L s.o.dig true) s iv with
  | (_, .error e) => .error e
  | (s, .ok _) =>
    match specify par true s header.length message.length with
    | (_, .error e) => .error e
    | (s, .ok _) =>
      match Auth.update (hooks par s.o.L s.o.dig true) s header with
      | (_, .error e) => .error e
      | (s, .ok _) =>
        match Auth.processData (hooks par s.o.L s.o.dig true) s message with
        | (_, .error e) => .error e
        | (s, .ok ciphertext) =>
          match Auth.truncatedFinal (hooks par s.o.L s.o.dig true) s macSize with
          | (_, .error e) => .error e
          | (_, .ok mac) => .ok (ciphertext, mac)

/-- `DecryptAndVerify` (cryptlib.cpp:256-263). -/
def decryptAndVerify (s : Auth.State Obj) (iv header ciphertext mac : List Byte) : Except Err (List Byte × Bool) :=
  match Auth.resynchronize (hooks par s.o.L s.o.dig false) s iv with
  | (_, .error e) => .error e
  | (s, .ok _) =>
    match specify par false s header.length ciphertext.length with
    | (_, .error e) => .error e
    | (s, .ok _) =>
      match Auth.update (hooks par s.o.L s.o.dig false) s header with
      | (_, .error e) => .error e
      | (s, .ok _) =>
        match Auth.processData (hooks par s.o.L s.o.dig false) s ciphertext with
        | (_, .error e) => .error e
        | (s, .ok message) =>
          match Auth.truncatedVerify (hooks par s.o.L s.o.dig false) s mac with
          | (_, .error e) => .error e
          | (_, .ok good) => .ok (message, good)

end

end Verif.Ccm
