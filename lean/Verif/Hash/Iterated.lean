import Verif.Hash.Obj
import Verif.IterHash.Proofs

/-! `IteratedHashBase` is a hash object that computes the Merkle-Damgard digest. -/
namespace Verif.Hash
open Verif.IterHash

/-- An iterated hash as an object; `al`, `ad` say which inputs and outputs are aligned. -/
def iterated (P : Params) (al : List Byte → Bool) (ad : Nat → Bool) : Obj State where
  digestSize := P.digestSize
  blockSize := P.B
  update := fun s x => update P s x (al x) false
  restart := restart P
  final := fun s n => truncatedFinal P s n (ad n)

/-- The state is long enough for the digest (true of every hash in the library). -/
def StateLen (P : Params) : Prop := (∀ st ws, (P.compress st ws).length * P.k ≥ P.digestSize)

theorem flatMap_len (o : ByteOrder) (k : Nat) (l : List Nat) : (l.flatMap (o.bytes k)).length = l.length * k := by
  induction l with
  | nil => simp
  | cons x l ih => rw [List.flatMap_cons, List.length_append, ih, ByteOrder.bytes_length, List.length_cons, Nat.succ_mul]; omega

theorem digest_length {P : Params} (ok : P.Ok) (hs : StateLen P) (m : List Byte) : (digest P m).length = P.digestSize := by
  have hB := Bpos ok
  unfold digest
  rw [List.length_take, flatMap_len]
  apply Nat.min_eq_left
  unfold fold
  have hne : m ++ mdPadding P m.length ≠ [] := by simp [mdPadding]
  have : ∀ (l : List (List Byte)) (st : List Nat), l ≠ [] → P.digestSize ≤ (l.foldl (compressBlock P) st).length * P.k := by
    intro l
    induction l with
    | nil => intro st h; exact absurd rfl h
    | cons b l ih =>
      intro st _
      rw [List.foldl_cons]
      cases l with
      | nil => exact hs _ _
      | cons c l => exact ih _ (by simp)
  apply this
  rw [chunks_of_ne_nil _ hB _ hne]
  simp

theorem iterated_computes {P : Params} (ok : P.Ok) (hs : StateLen P) (al : List Byte → Bool) (ad : Nat → Bool) :
    (iterated P al ad).Computes (digest P) (P.W * P.W) (Inv P) where
  update := fun s m x hr hl => update_spec ok s m x (al x) false hr hl (by simp)
  restart := fun s m hr => by
    have hW := W_pos ok
    exact ⟨Nat.mul_pos hW hW, by simp [iterated, IterHash.restart], by simp [iterated, IterHash.restart], hr.buf.len, by simp, by simp [iterated, IterHash.restart, foldFrom]⟩
  final := fun s m n hr hn => final_spec ok s m hr n hn (ad n)
  reject := fun s n hn => by
    show truncatedFinal P s n (ad n) = _
    have : n > P.digestSize := hn
    simp [truncatedFinal, this]
  length := digest_length ok hs

end Verif.Hash
