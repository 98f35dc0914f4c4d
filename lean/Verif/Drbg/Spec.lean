import Verif.Drbg.Model
import Verif.Hmac.Spec

/-!
# SP 800-90A Rev. 1: `Hash_DRBG` (10.1.1, 10.3.1) and `HMAC_DRBG` (10.1.2)

On strings of bytes; lengths are in bytes. `H` is the hash function.
-/
namespace Verif.Drbg.Spec
open Verif.Drbg (Op)

/-- Section 9: the internal state, and the functions of a mechanism. -/
structure Mech (St : Type) where
  instantiate : List Byte → List Byte → List Byte → St
  reseed : St → List Byte → List Byte → St
  /-- the reseed counter is the second argument -/
  generate : St → Nat → List Byte → Nat → List Byte × St

/-- 10.3.1: the blocks of `Hash_df` from number `i` on. -/
def dfBlocks (H : List Byte → List Byte) (bits : Nat) (input : List Byte) : Nat → Nat → List Byte
  | 0, _ => []
  | n + 1, i => H ([BitVec.ofNat 8 i] ++ beBytes 4 bits ++ input) ++ dfBlocks H bits input n (i + 1)

/-- 10.3.1 `Hash_df`: `n` bytes; `outlen` is the length of a hash. -/
def hashDf (H : List Byte → List Byte) (outlen : Nat) (input : List Byte) (n : Nat) : List Byte :=
  (dfBlocks H (8 * n) input ((n + outlen - 1) / outlen) 1).take n

/-- 10.1.1.4 `Hashgen`: `m` blocks from `data` on. -/
def hashgen (H : List Byte → List Byte) : Nat → List Byte → List Byte
  | 0, _ => []
  | m + 1, data => H data ++ hashgen H m (beBytes data.length (beVal data + 1))

/-- 10.1.1: `V` and `C`. -/
structure HashState where
  V : List Byte
  C : List Byte

def hashSeed (H : List Byte → List Byte) (outlen seedlen : Nat) (material : List Byte) : HashState :=
  let seed := hashDf H outlen material seedlen
  ⟨seed, hashDf H outlen ([0] ++ seed) seedlen⟩

/-- 10.1.1.2, 10.1.1.3, 10.1.1.4 -/
def hashMech (H : List Byte → List Byte) (outlen seedlen : Nat) : Mech HashState where
  instantiate := fun entropy nonce personalization => hashSeed H outlen seedlen (entropy ++ nonce ++ personalization)
  reseed := fun s entropy additional => hashSeed H outlen seedlen ([1] ++ s.V ++ entropy ++ additional)
  generate := fun s counter additional n =>
    let V := if additional = [] then s.V else beBytes seedlen (beVal s.V + beVal (H ([2] ++ s.V ++ additional)))
    ((hashgen H ((n + outlen - 1) / outlen) V).take n, ⟨beBytes seedlen (beVal V + beVal (H ([3] ++ V)) + beVal s.C + counter), s.C⟩)

/-- 10.1.2: `Key` and `V`. -/
structure HmacState where
  K : List Byte
  V : List Byte

/-- 10.1.2.2 `HMAC_DRBG_Update`; `M` is HMAC, key first. -/
def hmacUpdate (M : List Byte → List Byte → List Byte) (data : List Byte) (s : HmacState) : HmacState :=
  let K := M s.K (s.V ++ [0] ++ data)
  let V := M K s.V
  if data = [] then ⟨K, V⟩
  else
    let K := M K (V ++ [1] ++ data)
    ⟨K, M K V⟩

/-- 10.1.2.5 step 4: `m` blocks, and the last value of `V`. -/
def hmacBlocks (M : List Byte → List Byte → List Byte) (K : List Byte) : Nat → List Byte → List Byte × List Byte
  | 0, V => ([], V)
  | m + 1, V => (M K V ++ (hmacBlocks M K m (M K V)).1, (hmacBlocks M K m (M K V)).2)

/-- 10.1.2.3, 10.1.2.4, 10.1.2.5 -/
def hmacMech (M : List Byte → List Byte → List Byte) (outlen : Nat) : Mech HmacState where
  instantiate := fun entropy nonce personalization => hmacUpdate M (entropy ++ nonce ++ personalization) ⟨List.replicate outlen 0, List.replicate outlen 1⟩
  reseed := fun s entropy additional => hmacUpdate M (entropy ++ additional) s
  generate := fun s _ additional n =>
    let s := if additional = [] then s else hmacUpdate M additional s
    let r := hmacBlocks M s.K ((n + outlen - 1) / outlen) s.V
    (r.1.take n, hmacUpdate M additional ⟨s.K, r.2⟩)

/-- A generator in use: its state and reseed counter. `strength` is the least length of the entropy, `interval` the number of requests between reseeds, `most` the most bytes in one. An error leaves the state. -/
def step {St : Type} (A : Mech St) (strength interval most : Nat) (s : St × Nat) : Op → (St × Nat) × Except Err (List Byte)
  | .reseed entropy additional => if entropy.length < strength then (s, .error .other) else ((A.reseed s.1 entropy additional, 1), .ok [])
  | .generate additional n =>
    if s.2 > interval ∨ n > most then (s, .error .other)
    else (((A.generate s.1 s.2 additional n).2, s.2 + 1), .ok (A.generate s.1 s.2 additional n).1)

def run {St : Type} (A : Mech St) (strength interval most : Nat) (s : St × Nat) : List Op → List (Except Err (List Byte))
  | [] => []
  | op :: ops => (step A strength interval most s op).2 :: run A strength interval most (step A strength interval most s op).1 ops

end Verif.Drbg.Spec
