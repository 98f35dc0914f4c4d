import Verif.Auth.Model
import Verif.Cmac.Model
import Verif.Modes.CtrModel

/-!
# EAX (eax.h, eax.cpp)

The virtual functions of `AuthenticatedSymmetricCipherBase` for EAX, over `CMAC_Base` and CTR mode. The block cipher is any function on blocks of `b` bytes; `par` is `OptimalNumberOfParallelBlocks`.
The first half of `m_buffer` is written before it is read in every function, so it is not part of the state.
-/
namespace Verif.Eax

open Verif.Modes (Ctr ctrPolicy)

/-- A keyed block cipher. -/
abbrev Cipher (b : Nat) := { E : List Byte → List Byte // ∀ x, x.length = b → (E x).length = b }

/-- The MAC, with the cipher; the second half of `m_buffer`; `m_ctr`; what newly allocated memory holds. -/
structure Obj where
  mac : Cmac.St
  half : List Byte
  ctr : Stream.State Ctr
  junk : Mem

section
variable (b par : Nat)

/-- The first half of `m_buffer`: zeros, and `t` as last byte. -/
def marked (t : Byte) : List Byte := List.replicate (b - 1) 0 ++ [t]

/-- `SetKeyWithoutResync` (eax.cpp:8-12). -/
def Obj.setKey (s : Obj) (k : Cipher b) : Obj := { s with mac := Cmac.setKey b k.1, half := load s.junk b b }

/-- `Resync` (eax.cpp:14-27). `SetCipherWithIV` (modes.h:117-125) calls `Resynchronize`. -/
def Obj.resync (s : Obj) (iv : List Byte) : Except Err Obj := do
  let mac ← Cmac.update b s.mac (marked b 0)
  let (mac, N) ← (Cmac.obj b).calculateDigest mac iv
  let mac ← Cmac.update b mac (marked b 1)
  if h : N.length = b then
    .ok { s with mac := mac, half := N, ctr := Stream.resynchronize (ctrPolicy mac.E b par) s.ctr (some ⟨N, h⟩) s.junk }
  else .error .undefinedBehaviour

/-- `AuthenticateBlocks` (eax.cpp:29-33). -/
def Obj.authBlocks (s : Obj) (d : List Byte) : Except Err (Obj × Nat) := do
  let mac ← Cmac.update b s.mac d
  .ok ({ s with mac := mac }, 0)

/-- `AuthenticateLastHeaderBlock` (eax.cpp:35-47). -/
def Obj.lastHeader (s : Obj) : Except Err Obj := do
  let (mac, d) ← Cmac.truncatedFinal b s.mac b
  let half := xorBytes s.half d
  let mac ← Cmac.update b mac (marked b 2)
  .ok { s with mac := mac, half := half }

/-- `AuthenticateLastFooterBlock` (eax.cpp:49-57). -/
def Obj.lastFooter (s : Obj) (n : Nat) : Except Err (Obj × List Byte) := do
  let (mac, d) ← Cmac.truncatedFinal b s.mac n
  .ok ({ s with mac := mac }, xorBytes d (s.half.take n))

/-- `m_ctr.ProcessData` -/
def Obj.process (s : Obj) (x : List Byte) : Except Err (Obj × List Byte) := do
  let (ctr, out) ← Stream.processData (ctrPolicy s.mac.E b par) s.ctr x
  .ok ({ s with ctr := ctr }, out)

/-- `EAX_Base` (eax.h:19-66) and `EAX_Final`; `AuthenticateLastConfidentialBlock` is that of the base class and does nothing (authenc.h:71). The length of an initialisation vector is an `int`. -/
def eax (forward : Bool) : Auth.Hooks Obj (Cipher b) where
  blockSize := 1
  onPlaintext := false
  forward := forward
  maxHeader := 2 ^ 64 - 1
  maxMessage := 2 ^ 64 - 1
  maxFooter := 0
  digestSize := b
  ivOk := fun n => decide (n < 2 ^ 31)
  setKey := Obj.setKey b
  resync := Obj.resync b par
  authBlocks := Obj.authBlocks b
  lastHeader := fun s _ _ => s.lastHeader b
  lastConfidential := fun s _ _ _ => .ok s
  lastFooter := fun s _ n => s.lastFooter b n
  process := Obj.process b par

end

end Verif.Eax
