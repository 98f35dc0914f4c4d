import Verif.Modes.Apb
import Verif.Stream.Model

/-!
# `CTR_ModePolicy` and `OFB_ModePolicy` (modes.h, modes.cpp)

The functions run in memory, where the object's arrays and the caller's buffers are; the policies of `Verif.Stream`
run them in a memory that holds just these. An initialisation vector is a block, or null (`CopyOrZero`, modes.h:185-194).
-/
namespace Verif.Modes

/-- An IV argument: null or a block. -/
abbrev IV (s : Nat) := Option { v : List Byte // v.length = s }

/-- `CopyOrZero` -/
def IV.bytes {s : Nat} : IV s → List Byte
  | none => List.replicate s 0
  | some v => v.1

section
variable (E : List Byte → List Byte) (s : Nat)

/-- `CTR_ModePolicy::IncrementCounterBy256` (modes.cpp:134-137), counter at `c`. -/
def incrementCounterBy256 (m : Mem) (c : Nat) : Mem := store m c (incrementCounterByOne (s - 1) (load m c s))

/-- `CTR_ModePolicy::OperateKeystream` (modes.cpp:139-166); `n` iterations. `inc` is `IncrementCounterBy256`, which is virtual. -/
def ctrOperate (inc : Mem → Nat → Mem) : Nat → Mem → Nat → Option Nat → Nat → Nat → Except Err Mem
  | _, m, _, _, _, 0 => .ok m
  | 0, _, _, _, _, _ + 1 => .error .diverges
  | fuel + 1, m, c, inP, outP, n + 1 => do
    let lsb := m (c + s - 1)
    let blocks := min (n + 1) (256 - lsb.toNat)
    let m ← apb E s m c inP outP (blocks * s) { inBlockIsCounter := true }
    let b := BitVec.ofNat 8 (lsb.toNat + blocks)
    let m := store m (c + s - 1) [b]
    let m := if b = 0 then inc m c else m
    ctrOperate inc fuel m c (inP.map (· + blocks * s)) (outP + blocks * s) (n + 1 - blocks)

/-- `CTR_ModePolicy::SeekToIteration` (modes.cpp:122-132): the loop down from index `i - 1`. -/
def seekLoop (reg : List Byte) : Nat → Nat → Nat → List Byte → List Byte
  | 0, _, _, ctr => ctr
  | i + 1, iterationCount, carry, ctr =>
    let sum := (reg.getD i 0).toNat + iterationCount % 256 + carry
    seekLoop reg i (iterationCount / 256) (sum / 256) (ctr.set i (BitVec.ofNat 8 sum))

/-- `m_register`, `m_counterArray` -/
structure Ctr where
  register : List Byte
  counter : List Byte

/-- The policy. The counter is at address 0, the buffer at `s`; `OperateKeystream` runs in place. -/
def ctrPolicy (parallel : Nat) : Stream.Policy Ctr (IV s) where
  bpi := s
  iters := parallel
  canOperate := true
  write := fun p n =>
    match ctrOperate E s (incrementCounterBy256 s) n (store (fun _ => 0) 0 p.counter) 0 none s n with
    | .ok m => ({ p with counter := load m 0 s }, load m s (n * s))
    | .error _ => (p, [])
  operate := fun p x n =>
    match ctrOperate E s (incrementCounterBy256 s) n (store (store (fun _ => 0) 0 p.counter) s x) 0 (some s) s n with
    | .ok m => ({ p with counter := load m 0 s }, load m s (n * s))
    | .error _ => (p, [])
  seek := fun p j => .ok { p with counter := seekLoop p.register s j 0 p.counter }
  resync := fun _ v => ⟨v.bytes, v.bytes⟩

/-- `OFB_ModePolicy::WriteKeystream` (modes.cpp:99-110), register at `r`. -/
def ofbWrite (m : Mem) (r ks n : Nat) : Except Err Mem := do
  let m := store m ks (E (load m r s))
  let m ← (if n > 1 then apb E s m ks none (ks + s) (s * (n - 1)) {} else .ok m)
  .ok (store m r (load m (ks + (n - 1) * s) s))

/-- The policy, on `m_register`, which is at address 0; the buffer is at `s`. `OperateKeystream` is not available
(strciphr.h:150-157) and `SeekToIteration` throws (strciphr.h:182-186). -/
def ofbPolicy (parallel : Nat) : Stream.Policy (List Byte) (IV s) where
  bpi := s
  iters := parallel
  canOperate := false
  write := fun p n =>
    match ofbWrite E s (store (fun _ => 0) 0 p) 0 s n with
    | .ok m => (load m 0 s, load m s (n * s))
    | .error _ => (p, [])
  operate := fun p _ _ => (p, [])
  seek := fun _ _ => .error .other
  resync := fun _ v => v.bytes

end

end Verif.Modes
