import Verif.Common

/-!
# Hash objects (`HashTransformation`, cryptlib.h:1099-1290)

The interface the rest of the library uses, and what it means for an object to compute a function of its message.
-/
namespace Verif.Hash

/-- A `HashTransformation`: `Update`, `Restart`, `TruncatedFinal`, `DigestSize`, `BlockSize`. -/
structure Obj (σ : Type) where
  digestSize : Nat
  blockSize : Nat
  update : σ → List Byte → Except Err σ
  restart : σ → σ
  final : σ → Nat → Except Err (σ × List Byte)

/-- `O` computes `H` on messages below `lim` bytes; `Rep s m`: the object `s` has been given the message `m` so far. -/
structure Obj.Computes {σ : Type} (O : Obj σ) (H : List Byte → List Byte) (lim : Nat) (Rep : σ → List Byte → Prop) : Prop where
  update : ∀ s m x, Rep s m → (m ++ x).length < lim → ∃ s', O.update s x = .ok s' ∧ Rep s' (m ++ x)
  restart : ∀ s m, Rep s m → Rep (O.restart s) []
  final : ∀ s m n, Rep s m → n ≤ O.digestSize → ∃ s', O.final s n = .ok (s', (H m).take n) ∧ Rep s' []
  reject : ∀ s n, O.digestSize < n → O.final s n = .error .invalidArgument
  length : ∀ m, (H m).length = O.digestSize

/-- `CalculateDigest` (cryptlib.h:1193-1194). -/
def Obj.calculateDigest {σ : Type} (O : Obj σ) (s : σ) (input : List Byte) : Except Err (σ × List Byte) := do
  let s ← O.update s input
  O.final s O.digestSize

theorem Obj.Computes.calculateDigest {σ : Type} {O : Obj σ} {H lim Rep} (h : O.Computes H lim Rep) (s : σ) (m x : List Byte) (hr : Rep s m)
    (hl : (m ++ x).length < lim) : ∃ s', O.calculateDigest s x = .ok (s', H (m ++ x)) ∧ Rep s' [] := by
  obtain ⟨s1, e1, r1⟩ := h.update s m x hr hl
  obtain ⟨s2, e2, r2⟩ := h.final s1 _ O.digestSize r1 (Nat.le_refl _)
  refine ⟨s2, ?_, r2⟩
  unfold Obj.calculateDigest
  rw [e1]
  show O.final s1 O.digestSize = _
  rw [e2, List.take_of_length_le (by rw [h.length]; omega)]

end Verif.Hash
