import Verif.Cmac.Proofs
import Verif.Hash.History
import Verif.Aes.Spec

/-!
# C62: CMAC and CBC-MAC

Every history of calls on a `CMAC<T>` or `CBC_MAC<T>` object returns the code the standard defines of the bytes given since the last reset.
-/
namespace Verif.Cmac

open Verif.Hash (Call Ret SizesOk specCalls)

/-- C62. `CMAC<T>` with a block cipher of 8, 16, 32, 64 or 128 bytes, after `SetKey`. -/
theorem cmac_history (b : Nat) (hw : Width b) (E : List Byte → List Byte) (hE : ∀ x, x.length = b → (E x).length = b) (cs : List Call) (hs : SizesOk b cs) :
    (obj b).run (setKey b E) cs = .ok (specCalls (Spec.cmac E b) [] cs) := by
  have hb : 0 < b := by unfold Width at hw; omega
  exact Hash.Obj.Computes.calls (cmac_computes hb hE) cs _ _ (setKey_rep b hw E hE) hs

/-- C62. `CBC_MAC<T>` with a block cipher of any size. -/
theorem cbcMac_history (b : Nat) (hb : 0 < b) (E : List Byte → List Byte) (hE : ∀ x, x.length = b → (E x).length = b) (cs : List Call) (hs : SizesOk b cs) :
    (cbcObj b).run (cbcSetKey b E) cs = .ok (specCalls (Spec.cbcMac E b) [] cs) :=
  Hash.Obj.Computes.calls (cbc_computes hb hE) cs _ _ (cbcSetKey_rep hb) hs

theorem specCalls_pieces (H : List Byte → List Byte) (mac : List Byte) : ∀ (xs : List (List Byte)) (m : List Byte),
    specCalls H m (xs.map .update ++ [.verify mac]) = xs.map (fun _ => .nothing) ++ [.bool ((H (m ++ xs.flatten)).take mac.length == mac)] := by
  intro xs
  induction xs with
  | nil => intro m; simp [specCalls]
  | cons x xs ih => intro m; simp [specCalls, ih]

theorem sizes_pieces (b : Nat) (mac : List Byte) (hm : mac.length ≤ b) : ∀ xs : List (List Byte), SizesOk b (xs.map .update ++ [.verify mac]) := by
  intro xs
  induction xs with
  | nil => exact ⟨hm, trivial⟩
  | cons x xs ih => exact ih

/-- C62. Verification of a message in any pieces accepts exactly the truncations of its code. -/
theorem cmac_verify (b : Nat) (hw : Width b) (E : List Byte → List Byte) (hE : ∀ x, x.length = b → (E x).length = b) (xs : List (List Byte)) (mac : List Byte) (hm : mac.length ≤ b) :
    (obj b).run (setKey b E) (xs.map .update ++ [.verify mac]) = .ok (xs.map (fun _ => .nothing) ++ [.bool true]) ↔ mac = (Spec.cmac E b xs.flatten).take mac.length := by
  rw [cmac_history b hw E hE _ (sizes_pieces b mac hm xs), specCalls_pieces]
  constructor
  · intro h
    injection h with h
    have := List.append_cancel_left h
    injection this with this _
    injection this with this
    exact (eq_of_beq this).symm
  · intro h
    rw [List.nil_append, ← h, beq_self_eq_true]

/-! ## RFC 4493, and an object at work -/

def key4493 : List Byte := [0x2b, 0x7e, 0x15, 0x16, 0x28, 0xae, 0xd2, 0xa6, 0xab, 0xf7, 0x15, 0x88, 0x09, 0xcf, 0x4f, 0x3c]
def text4493 : List Byte := [0x6b, 0xc1, 0xbe, 0xe2, 0x2e, 0x40, 0x9f, 0x96, 0xe9, 0x3d, 0x7e, 0x11, 0x73, 0x93, 0x17, 0x2a]

example : Spec.cmac (Aes.Spec.cipher key4493) 16 [] = [0xbb, 0x1d, 0x69, 0x29, 0xe9, 0x59, 0x37, 0x28, 0x7f, 0xa3, 0x7d, 0x12, 0x9b, 0x75, 0x67, 0x46] := by decide +kernel
example : Spec.cmac (Aes.Spec.cipher key4493) 16 text4493 = [0x07, 0x0a, 0x16, 0xb4, 0x6b, 0x4d, 0x41, 0x44, 0xf7, 0x9b, 0xdd, 0x9d, 0xd0, 0x4a, 0x28, 0x7c] := by decide +kernel

/-- A permutation of 8-byte blocks, and a history with a complete last block, an empty message and a truncated code. -/
example : (obj 8).run (setKey 8 fun x => (x.map (· + 1)).reverse) [.update [1, 2, 3], .update [4, 5, 6, 7, 8], .final 8, .final 4, .update [9], .restart, .verify []] =
    .ok (specCalls (Spec.cmac (fun x => (x.map (· + 1)).reverse) 8) [] [.update [1, 2, 3], .update [4, 5, 6, 7, 8], .final 8, .final 4, .update [9], .restart, .verify []]) :=
  cmac_history 8 (.inl rfl) _ (fun x h => by simp [h]) _ (by simp [SizesOk])

end Verif.Cmac
