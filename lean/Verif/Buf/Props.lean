import Verif.Buf.Proofs

/-! # C43: buffer utilities -/
namespace Verif.Buf
open Verif.Modes

/-- **C43.** `xorbuf(output, input, mask, count)` on any build (byte order, vector strides): exactly the `count` output bytes change,
and output byte `i` becomes input byte `i` xor mask byte `i`, when neither source is overwritten before it is read. -/
theorem xorbuf3_bytewise (o : ByteOrder) (wide : List Nat) (m : Mem) (out inp mask count : Nat) (h1 : Apart out inp count) (h2 : Apart out mask count) (p : Nat) :
    xorbuf3 o wide m out inp mask count p = if out ≤ p ∧ p < out + count then m (inp + (p - out)) ^^^ m (mask + (p - out)) else m p := by
  rw [xorbuf3_spec o wide m out inp mask count h1 h2]
  unfold Done store
  simp only [xorBytes_length, load_length, Nat.min_self]
  split
  · rename_i h
    have hl : p - out < count := by omega
    rw [List.getD_eq_getElem?_getD, List.getElem?_eq_getElem (by simp; exact hl)]
    simp [xorBytes, load]
  · rfl

/-- **C43.** `xorbuf(buf, mask, count)`, with `mask` equal to `buf`, disjoint from it, or starting after it. -/
theorem xorbuf2_bytewise (o : ByteOrder) (wide : List Nat) (m : Mem) (buf mask count : Nat) (h : Apart buf mask count) (p : Nat) :
    xorbuf2 o wide m buf mask count p = if buf ≤ p ∧ p < buf + count then m p ^^^ m (mask + (p - buf)) else m p := by
  unfold xorbuf2
  rw [xorbuf3_bytewise o wide m buf buf mask count (Or.inl (Nat.le_refl _)) h p]
  split
  · rename_i hp
    rw [Nat.add_sub_cancel' hp.1]
  · rfl

/-- **C43.** `VerifyBufsEqual` returns true exactly when the buffers hold the same bytes: all lengths, both code paths, both byte orders. -/
theorem verifyBufsEqual_iff (o : ByteOrder) (wide : Bool) (m : Mem) (buf mask count : Nat) :
    verifyBufsEqual o wide m buf mask count = true ↔ ∀ i, i < count → m (buf + i) = m (mask + i) := by
  rw [verifyBufsEqual_spec]
  constructor
  · intro h i hi
    have := congrArg (fun l => l[i]?) h
    simpa [load, hi] using this
  · intro h
    unfold load
    apply List.map_congr_left
    intro i hi
    exact h i (List.mem_range.mp hi)

/-- **C43.** `IncrementCounterByOne` adds one modulo `256^size`, most significant byte first, and touches nothing else. -/
theorem incrementInPlace_adds_one (m : Mem) (p size : Nat) :
    beVal (load (incrementInPlace m p size) p size) = (beVal (load m p size) + 1) % 256 ^ size ∧
      ∀ q, q < p ∨ p + size ≤ q → incrementInPlace m p size q = m q := by
  have e := incrementCounterByOne_spec size (load m p size) [] (by simp)
  rw [List.append_nil, List.append_nil] at e
  unfold incrementInPlace
  rw [e]
  refine ⟨?_, ?_⟩
  · rw [load_store' _ _ _ _ (by simp), beVal_beBytes]
  · intro q hq
    exact store_out _ _ _ _ (by simp; exact hq)

/-- **C43.** The three-argument form writes the incremented input to the output. -/
theorem incrementTo_adds_one (out inp : List Byte) (h : out.length = inp.length) :
    incrementCounterByOneTo inp.length out inp = beBytes inp.length (beVal inp + 1) := by
  have := incrementCounterByOneTo_spec inp.length out inp [] [] h rfl
  simpa using this

/-- **C43.** `ConditionalSwap` swaps exactly when asked. -/
theorem conditionalSwap_spec {w : Nat} (c : Bool) (a b : BitVec w) : conditionalSwap c a b = if c then (b, a) else (a, b) := by
  unfold conditionalSwap
  have h1 : a ^^^ (a ^^^ b) = b := by rw [← BitVec.xor_assoc, BitVec.xor_self, BitVec.zero_xor]
  have h2 : b ^^^ (a ^^^ b) = a := by rw [BitVec.xor_comm a b, ← BitVec.xor_assoc, BitVec.xor_self, BitVec.zero_xor]
  cases c
  · simp
  · simp only [if_true, BitVec.one_mul]
    rw [h1, h2]

/-! ## Concrete cases, and overlap -/

/-- A memory holding `bs` from address 0. -/
def memOf (bs : List Byte) : Mem := fun a => bs.getD a 0

example : Apart 0 0 7 ∧ Apart 0 100 7 := by unfold Apart; decide
example : load (xorbuf2 .little [32, 16] (memOf [1, 2, 3, 4, 5, 6, 7, 0xf0, 0xf0, 0xf0, 0xf0, 0xf0, 0xf0, 0xf0]) 0 7 7) 0 7 =
    [0xf1, 0xf2, 0xf3, 0xf4, 0xf5, 0xf6, 0xf7] := by decide +kernel
example : verifyBufsEqual .little true (memOf [1, 2, 3, 4, 5, 6, 7, 8, 9, 1, 2, 3, 4, 5, 6, 7, 8, 9]) 0 9 9 = true := by decide +kernel
example : verifyBufsEqual .big false (memOf [1, 2, 3, 4, 5, 6, 7, 8, 9, 1, 2, 0x13, 4, 5, 6, 7, 8, 9]) 0 9 9 = false := by decide +kernel
example : load (incrementInPlace (memOf [1, 0xff, 0xff, 7]) 0 3) 0 4 = [2, 0, 0, 7] := by decide +kernel

/-- Without the proviso the result depends on how the library was built: an output one byte after its input gives one answer with
vector instructions and another without. -/
theorem xorbuf_overlap_depends_on_build :
    ∃ m : Mem, load (xorbuf3 .little [16] m 1 0 100 16) 1 16 ≠ load (xorbuf3 .little [] m 1 0 100 16) 1 16 :=
  ⟨memOf [1, 2, 3, 4, 5, 6, 7, 8, 9, 10, 11, 12, 13, 14, 15, 16], by decide +kernel⟩

end Verif.Buf
