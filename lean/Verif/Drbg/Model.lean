import Verif.Kdf.Model
import Verif.Modes.Apb

/-!
# The generators of drbg.h

Over any hash object. A pointer is null exactly when its length is 0. `CRYPTOPP_ASSERT` does nothing. `NIST_DRBG::Err` is `Err.other`. Every call returns the object it leaves, also when it throws at a limit.
-/
namespace Verif.Drbg
open Verif.Hash

variable {σ : Type} (O : Obj σ)

/-- The calls a user can make: `IncorporateEntropy(entropy, additional)` and `GenerateBlock(additional, size)` (drbg.h:231-241, 358-368); without `additional`, the overloads pass null. -/
inductive Op where
  | reseed (entropy additional : List Byte)
  | generate (additional : List Byte) (size : Nat)

/-- `MAXIMUM_REQUESTS_BEFORE_RESEED`, that is `INT_MAX` (drbg.h:178, 305). -/
def maxRequests : Nat := 2 ^ 31 - 1

/-- `MAXIMUM_BYTES_PER_REQUEST` (drbg.h:177, 304). -/
def maxBytes : Nat := 65536

/-- The lines `if (input && inlen) m_hash.Update(input, inlen);`. -/
def feed (s : σ) : List (List Byte) → Except Err σ
  | [] => .ok s
  | x :: xs =>
    if x.length ≠ 0 then
      match O.update s x with
      | .error e => .error e
      | .ok s => feed s xs
    else feed s xs

/-- Calls of `Update` one after the other. -/
def updates (s : σ) : List (List Byte) → Except Err σ
  | [] => .ok s
  | x :: xs =>
    match O.update s x with
    | .error e => .error e
    | .ok s => updates s xs

/-! ## `Hash_DRBG` -/

/-- `m_hash`, `m_c`, `m_v`, `m_reseed` (drbg.h:262-265). `m_temp` holds nothing between calls that is used. -/
structure HashGen (σ : Type) where
  hash : σ
  c : List Byte
  v : List Byte
  reseed : Nat

/-- The loop of `Hash_Update` (drbg.h:556-575); `bits` are the bytes of the word `bits`, `fuel` an upper bound for the rounds. -/
def hashUpdateLoop (bits : List Byte) (inputs : List (List Byte)) : Nat → σ → Byte → Nat → Except Err (σ × List Byte)
  | 0, s, _, outlen => if outlen = 0 then .ok (s, []) else .error .diverges
  | fuel + 1, s, counter, outlen =>
    if outlen = 0 then .ok (s, []) else do
    let s ← O.update s [counter]
    let s ← O.update s bits
    let s ← feed O s inputs
    let count := min outlen O.digestSize
    let (s, out) ← O.final s count
    let (s, rest) ← hashUpdateLoop bits inputs fuel s (counter + 1) (outlen - count)
    .ok (s, out ++ rest)

/-- `Hash_Update` (drbg.h:548-576): `Hash_df` of the concatenated inputs. -/
def hashUpdate (s : σ) (inputs : List (List Byte)) (outlen : Nat) : Except Err (σ × List Byte) :=
  hashUpdateLoop O (beBytes 4 (outlen * 8)) inputs outlen s 1 outlen

/-- The constructor without entropy (drbg.h:211-222): `m_hash` is new. -/
def hashNew (seedLength : Nat) (h : σ) : HashGen σ := ⟨h, List.replicate seedLength 0, List.replicate seedLength 0, 0⟩

/-- `DRBG_Instantiate` (drbg.h:397-425). -/
def hashInstantiate (strength seedLength : Nat) (g : HashGen σ) (entropy nonce personalization : List Byte) : Except Err (HashGen σ) :=
  if entropy.length < strength then .error .other else do
  let (h, t1) ← hashUpdate O g.hash [entropy, nonce, personalization, []] seedLength
  let (h, t2) ← hashUpdate O h [[0], t1, [], []] seedLength
  .ok ⟨h, t2, t1, 1⟩

/-- The constructor (drbg.h:211-222). -/
def hashConstruct (strength seedLength : Nat) (h : σ) (entropy nonce personalization : List Byte) : Except Err (HashGen σ) :=
  if entropy.length ≠ 0 then hashInstantiate O strength seedLength (hashNew seedLength h) entropy nonce personalization else .ok (hashNew seedLength h)

/-- `DRBG_Reseed` (drbg.h:427-452), after the check. -/
def hashReseed (seedLength : Nat) (g : HashGen σ) (entropy additional : List Byte) : Except Err (HashGen σ) := do
  let (h, t1) ← hashUpdate O g.hash [[1], g.v, entropy, additional] seedLength
  let (h, t2) ← hashUpdate O h [[0], t1, [], []] seedLength
  .ok ⟨h, t2, t1, 1⟩

/-- `a[n - 1 - d]` for an array of `n` bytes: the indices of the loops below all start at the last byte and descend together. -/
def fromEnd (a : List Byte) (d : Nat) : Except Err Nat := if d < a.length then .ok (a.getD (a.length - 1 - d) 0).toNat else .error .undefinedBehaviour

/-- The sum of the bytes at one place. -/
def sumAt (d : Nat) : List (List Byte) → Except Err Nat
  | [] => .ok 0
  | a :: as => do
    let x ← fromEnd a d
    let y ← sumAt d as
    .ok (x + y)

/-- `n` rounds of one of the loops `carry = m_v[i] + ... + carry; m_v[i] = static_cast<byte>(carry); i--; carry >>= 8;`; `m_v`, the number of rounds done and `carry`. -/
def carryLoop (terms : List (List Byte)) : Nat → List Byte × Nat × Nat → Except Err (List Byte × Nat × Nat)
  | 0, r => .ok r
  | n + 1, (v, d, carry) => do
    let x ← fromEnd v d
    let y ← sumAt d terms
    let carry := x + y + carry
    carryLoop terms n (v.set (v.length - 1 - d) (BitVec.ofNat 8 carry), d + 1, carry >>> 8)

/-- Step 2 of `Hash_Generate` (drbg.h:469-494). -/
def mixAdditional (s : σ) (v additional : List Byte) : Except Err (σ × List Byte) :=
  if additional.length ≠ 0 then do
    let s ← updates O s [[2], v, additional]
    let (s, temp) ← O.final s O.digestSize
    let r ← carryLoop [temp] O.digestSize (v, 0, 0)
    let r ← carryLoop [] (v.length - O.digestSize) r
    .ok (s, r.1)
  else .ok (s, v)

/-- Step 3 of `Hash_Generate` (drbg.h:496-508), from the copy of `m_v` on. -/
def hashgen : Nat → σ → List Byte → Nat → Except Err (σ × List Byte)
  | 0, s, _, size => if size = 0 then .ok (s, []) else .error .diverges
  | fuel + 1, s, temp, size =>
    if size = 0 then .ok (s, []) else do
    let s ← O.update s temp
    let count := min size O.digestSize
    let (s, out) ← O.final s count
    let (s, rest) ← hashgen fuel s (Modes.incrementCounterByOne temp.length temp) (size - count)
    .ok (s, out ++ rest)

/-- Steps 4 to 7 of `Hash_Generate` (drbg.h:510-543). -/
def hashNext (s : σ) (v c : List Byte) (reseed : Nat) : Except Err (σ × List Byte) := do
  let s ← updates O s [[3], v]
  let (s, temp) ← O.final s O.digestSize
  let r ← carryLoop [c, temp, beBytes 8 reseed] 8 (v, 0, 0)
  let r ← carryLoop [c, temp] (O.digestSize - 8) r
  let r ← carryLoop [c] (v.length - O.digestSize) r
  .ok (s, r.1)

/-- `Hash_Generate` (drbg.h:454-546), after the checks. -/
def hashGenerate (g : HashGen σ) (additional : List Byte) (size : Nat) : Except Err (HashGen σ × List Byte) := do
  let (h, v) ← mixAdditional O g.hash g.v additional
  let (h, out) ← hashgen O size h v size
  let (h, v) ← hashNext O h v g.c g.reseed
  .ok (⟨h, g.c, v, (g.reseed + 1) % 2 ^ 64⟩, out)

/-- One call. -/
def hashStep (strength seedLength : Nat) (g : HashGen σ) : Op → HashGen σ × Except Err (List Byte)
  | .reseed entropy additional =>
    if entropy.length < strength then (g, .error .other)
    else
      match hashReseed O seedLength g entropy additional with
      | .error e => (g, .error e)
      | .ok g => (g, .ok [])
  | .generate additional size =>
    if g.reseed ≥ maxRequests then (g, .error .other)
    else if size > maxBytes then (g, .error .other)
    else
      match hashGenerate O g additional size with
      | .error e => (g, .error e)
      | .ok (g, out) => (g, .ok out)

/-- The results of a history of calls. -/
def hashRun (strength seedLength : Nat) (g : HashGen σ) : List Op → List (Except Err (List Byte))
  | [] => []
  | op :: ops => (hashStep O strength seedLength g op).2 :: hashRun strength seedLength (hashStep O strength seedLength g op).1 ops

/-! ## `HMAC_DRBG` -/

/-- `m_hmac`, `m_k`, `m_v`, `m_reseed` (drbg.h:386-389); `fresh` is what `HMAC::SetKey` finds in its buffer. -/
structure HmacGen (σ : Type) where
  hmac : Hmac.State σ
  k : List Byte
  v : List Byte
  reseed : Nat
  fresh : List Byte

/-- Two steps of `HMAC_Update`: key `m_k` from `m_v`, a byte and the inputs, then a new `m_v` (drbg.h:672-689 and 696-713). -/
def hmacHalf (g : HmacGen σ) (b : Byte) (inputs : List (List Byte)) : Except Err (HmacGen σ) := do
  let h ← Hmac.setKey O g.hmac g.fresh g.k
  let h ← updates (Kdf.hmacObj O) h [g.v, [b]]
  let h ← feed (Kdf.hmacObj O) h inputs
  let (h, k) ← (Kdf.hmacObj O).final h g.k.length
  let h ← Hmac.setKey O h g.fresh k
  let h ← updates (Kdf.hmacObj O) h [g.v]
  let (h, v) ← (Kdf.hmacObj O).final h g.v.length
  .ok { g with hmac := h, k := k, v := v }

/-- `HMAC_Update` (drbg.h:665-714). -/
def hmacUpdate (g : HmacGen σ) (inputs : List (List Byte)) : Except Err (HmacGen σ) := do
  let g ← hmacHalf O g 0 inputs
  if inputs.all (fun x => x.length = 0) then .ok g else hmacHalf O g 1 inputs

/-- The constructor without entropy (drbg.h:338-349): `m_hmac` is new. -/
def hmacNew (h : Hmac.State σ) (fresh : List Byte) : HmacGen σ := ⟨h, List.replicate O.digestSize 0, List.replicate O.digestSize 0, 0, fresh⟩

/-- `DRBG_Instantiate` (drbg.h:580-605). -/
def hmacInstantiate (strength : Nat) (g : HmacGen σ) (entropy nonce personalization : List Byte) : Except Err (HmacGen σ) :=
  if entropy.length < strength then .error .other else do
  let g ← hmacUpdate O { g with k := List.replicate g.k.length 0, v := List.replicate g.v.length 1 } [entropy, nonce, personalization]
  .ok { g with reseed := 1 }

/-- The constructor (drbg.h:338-349). -/
def hmacConstruct (strength : Nat) (h : Hmac.State σ) (fresh entropy nonce personalization : List Byte) : Except Err (HmacGen σ) :=
  if entropy.length ≠ 0 then hmacInstantiate O strength (hmacNew O h fresh) entropy nonce personalization else .ok (hmacNew O h fresh)

/-- `DRBG_Reseed` (drbg.h:607-627), after the check. -/
def hmacReseed (g : HmacGen σ) (entropy additional : List Byte) : Except Err (HmacGen σ) := do
  let g ← hmacUpdate O g [entropy, additional, []]
  .ok { g with reseed := 1 }

/-- The loop of `HMAC_Generate` (drbg.h:651-659). -/
def hmacLoop : Nat → Hmac.State σ → List Byte → Nat → Except Err (Hmac.State σ × List Byte × List Byte)
  | 0, h, v, size => if size = 0 then .ok (h, v, []) else .error .diverges
  | fuel + 1, h, v, size =>
    if size = 0 then .ok (h, v, []) else do
    let h ← updates (Kdf.hmacObj O) h [v]
    let (h, v) ← (Kdf.hmacObj O).final h v.length
    let count := min size O.digestSize
    let (h, v', rest) ← hmacLoop fuel h v (size - count)
    .ok (h, v', v.take count ++ rest)

/-- `HMAC_Generate` (drbg.h:629-663), after the checks. -/
def hmacGenerate (g : HmacGen σ) (additional : List Byte) (size : Nat) : Except Err (HmacGen σ × List Byte) := do
  let g ← (if additional.length ≠ 0 then hmacUpdate O g [additional, [], []] else .ok g)
  let h ← Hmac.setKey O g.hmac g.fresh g.k
  let (h, v, out) ← hmacLoop O size h g.v size
  let g ← hmacUpdate O { g with hmac := h, v := v } [additional, [], []]
  .ok ({ g with reseed := (g.reseed + 1) % 2 ^ 64 }, out)

/-- One call. -/
def hmacStep (strength : Nat) (g : HmacGen σ) : Op → HmacGen σ × Except Err (List Byte)
  | .reseed entropy additional =>
    if entropy.length < strength then (g, .error .other)
    else
      match hmacReseed O g entropy additional with
      | .error e => (g, .error e)
      | .ok g => (g, .ok [])
  | .generate additional size =>
    if g.reseed ≥ maxRequests then (g, .error .other)
    else if size > maxBytes then (g, .error .other)
    else
      match hmacGenerate O g additional size with
      | .error e => (g, .error e)
      | .ok (g, out) => (g, .ok out)

/-- The results of a history of calls. -/
def hmacRun (strength : Nat) (g : HmacGen σ) : List Op → List (Except Err (List Byte))
  | [] => []
  | op :: ops => (hmacStep O strength g op).2 :: hmacRun strength (hmacStep O strength g op).1 ops

end Verif.Drbg
