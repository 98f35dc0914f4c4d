import Verif.Auth.Model
import Verif.Ghash.Model
import Verif.Modes.CtrModel

/-!
# GCM (gcm.h, gcm.cpp)

The virtual functions of `AuthenticatedSymmetricCipherBase` for GCM, on the C++ code for GHASH (`Verif.Ghash`), where `ReverseHashBufferIfNeeded` (gcm.cpp:296-314) does nothing. The block cipher is any function
from 16-byte blocks to 16-byte blocks.
-/
namespace Verif.Gcm

open Verif.Modes (Ctr ctrOperate seekLoop incrementCounterByOne)
open Verif.Ghash (mulTable reductionTable authenticateBlocks)

/-- A keyed block cipher. -/
abbrev Cipher := { E : List Byte → List Byte // ∀ b, b.length = 16 → (E b).length = 16 }

/-- `GCTR::IncrementCounterBy256` (gcm.cpp:50-53), counter at `c`. -/
def incrementCounterBy256 (m : Mem) (c : Nat) : Mem := store m (c + 16 - 4) (incrementCounterByOne 3 (load m (c + 16 - 4) 3))

/-- What `CipherResynchronize` stores (modes.cpp:169-177). The code copies one IV to both arrays, as `Obj.resync` below does. -/
abbrev Start := { c : Ctr // c.register.length = 16 ∧ c.counter.length = 16 }

/-- The policy of `GCTR` (gcm.h:106-110), that is `CTR_ModePolicy` with its own increment; `par` is `OptimalNumberOfParallelBlocks`. The counter is at address 0, the buffer at 16. -/
def gctrPolicy (E : List Byte → List Byte) (par : Nat) : Stream.Policy Ctr Start where
  bpi := 16
  iters := par
  canOperate := true
  write := fun p n =>
    match ctrOperate E 16 incrementCounterBy256 n (store (fun _ => 0) 0 p.counter) 0 none 16 n with
    | .ok m => ({ p with counter := load m 0 16 }, load m 16 (n * 16))
    | .error _ => (p, [])
  operate := fun p x n =>
    match ctrOperate E 16 incrementCounterBy256 n (store (store (fun _ => 0) 0 p.counter) 16 x) 0 (some 16) 16 n with
    | .ok m => ({ p with counter := load m 0 16 }, load m 16 (n * 16))
    | .error _ => (p, [])
  seek := fun p j => .ok { p with counter := seekLoop p.register 16 j 0 p.counter }
  resync := fun _ v => v.1

/-- The cipher, `MulTable()`, `s_reductionTable`, `HashBuffer()`, `m_ctr`; `junk` is what newly allocated memory holds. -/
structure Obj where
  E : List Byte → List Byte
  table : Nat → List Byte
  red : Nat → Nat
  hash : List Byte
  ctr : Stream.State Ctr
  junk : Mem

section
variable (order : ByteOrder) (large : Bool) (par : Nat)

/-- `SetKeyWithoutResync` (gcm.cpp:99-294) with a cipher of block size 16. The reduction table is made at every call; the code makes it at the first. -/
def Obj.setKey (s : Obj) (k : Cipher) : Obj :=
  { s with E := k.1, table := mulTable large (k.1 (List.replicate 16 0)) s.table, red := reductionTable s.red }

/-- `AuthenticateBlocks` -/
def Obj.authBlocks (s : Obj) (d : List Byte) : Except Err (Obj × Nat) :=
  match authenticateBlocks order large s.table s.red s.hash d with
  | .error e => .error e
  | .ok (h, n) => .ok ({ s with hash := h }, n)

/-- The first part of `Resync` (gcm.cpp:321-350): the hash buffer becomes the first counter block. -/
def Obj.counter0 (s : Obj) (iv : List Byte) : Except Err Obj :=
  if iv.length = 12 then .ok { s with hash := iv ++ List.replicate 3 0 ++ [1] }
  else do
    let s := { s with hash := List.replicate 16 0 }
    let (s, len) ← (if iv.length ≥ 16 then s.authBlocks order large iv else .ok (s, iv.length))
    let left := iv.drop (iv.length - len)
    let s ← (if len > 0 then do
        let (s, _) ← s.authBlocks order large (left ++ List.replicate (16 - len) 0)
        .ok s
      else .ok s)
    let (s, _) ← s.authBlocks order large (beBytes 8 0 ++ beBytes 8 (iv.length * 8))
    .ok s

/-- `Resync` (gcm.cpp:316-360). The base class has left `m_state` below `State_IVSet`, so the code always calls `SetCipherWithIV` (modes.h:117-125), which calls `Resynchronize`. -/
def Obj.resync (s : Obj) (iv : List Byte) : Except Err Obj := do
  let s ← s.counter0 order large iv
  if h : s.hash.length = 16 then do
    let ctr := Stream.resynchronize (gctrPolicy s.E par) s.ctr ⟨⟨s.hash, s.hash⟩, h, h⟩ s.junk
    let ctr ← Stream.seek (gctrPolicy s.E par) ctr 16
    .ok { s with ctr := ctr, hash := List.replicate 16 0 }
  else .error .undefinedBehaviour

/-- `AuthenticateLastHeaderBlock` (gcm.cpp:838-846). -/
def Obj.lastHeader (s : Obj) (pending : List Byte) : Except Err Obj :=
  if pending.length > 0 then do
    let (s, _) ← s.authBlocks order large (pending ++ List.replicate (16 - pending.length) 0)
    .ok s
  else .ok s

/-- `AuthenticateLastConfidentialBlock` (gcm.cpp:848-853). -/
def Obj.lastConfidential (s : Obj) (pending : List Byte) (hdr msg : Nat) : Except Err Obj := do
  let s ← s.lastHeader order large pending
  let (s, _) ← s.authBlocks order large (beBytes 8 (hdr * 8) ++ beBytes 8 (msg * 8))
  .ok s

/-- `AuthenticateLastFooterBlock` (gcm.cpp:855-860). -/
def Obj.lastFooter (s : Obj) (n : Nat) : Except Err (Obj × List Byte) := do
  let ctr ← Stream.seek (gctrPolicy s.E par) s.ctr 0
  let (ctr, mac) ← Stream.processData (gctrPolicy s.E par) ctr (s.hash.take n)
  .ok ({ s with ctr := ctr }, mac)

/-- `m_ctr.ProcessData` -/
def Obj.process (s : Obj) (x : List Byte) : Except Err (Obj × List Byte) := do
  let (ctr, out) ← Stream.processData (gctrPolicy s.E par) s.ctr x
  .ok ({ s with ctr := ctr }, out)

/-- `GCM_Base` (gcm.h:38-118) and `GCM_Final`. The length of an initialisation vector is an `int`, from 1 on. -/
def gcm (forward : Bool) : Auth.Hooks Obj Cipher where
  blockSize := 16
  onPlaintext := false
  forward := forward
  maxHeader := 2 ^ 61 - 1
  maxMessage := (2 ^ 39 - 256) / 8
  maxFooter := 0
  digestSize := 16
  ivOk := fun n => decide (1 ≤ n ∧ n < 2 ^ 31)
  setKey := Obj.setKey large
  resync := Obj.resync order large par
  authBlocks := Obj.authBlocks order large
  lastHeader := fun s p _ => s.lastHeader order large p
  lastConfidential := Obj.lastConfidential order large
  lastFooter := fun s _ n => s.lastFooter par n
  process := Obj.process par

end

end Verif.Gcm
