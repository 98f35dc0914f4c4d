import Verif.Hmac.Proofs
import Verif.Hash.Iterated

/-! Property C12: HMAC. -/
namespace Verif.Hmac
open Verif.Hash

/-- C12. Over any hash object that computes a function `H` (digest no longer than a block): after the first `SetKey`, any
history of `SetKey`, `Update`, `Restart`, `TruncatedFinal` and `TruncatedVerify` calls gives the results RFC 2104 demands:
the MAC of the bytes given since the last reset under the key last set, truncated; `Verify` accepts exactly that. -/
theorem history_macs {σ : Type} {O : Obj σ} {H : List Byte → List Byte} {lim : Nat} {Rep : σ → List Byte → Prop} (C : O.Computes H lim Rep)
    (hdB : O.digestSize ≤ O.blockSize) (hB : O.blockSize ≠ 0) (hlim : O.blockSize + O.digestSize < lim)
    (h0 : σ) (hr : Rep h0 []) (key fresh : List Byte) (ops : List Op) (hw : Within O lim [] (.setKey key fresh :: ops)) :
    run O ⟨h0, [], false⟩ (.setKey key fresh :: ops) = .ok (specRun O H key [] ops) := by
  obtain ⟨s', e, i⟩ := setKey_spec C hdB hB ⟨h0, [], false⟩ key fresh ⟨fun _ => hr, fun e => by cases e⟩ hw.1 hw.2.1
  simp only [run, e, bind_ok]
  exact run_inv C hdB hB hlim ops s' key [] i hw.2.2

/-- C12 for the iterated hashes of the library: HMAC over the Merkle-Damgard digest. -/
theorem history_macs_iterated {P : IterHash.Params} (ok : P.Ok) (hs : StateLen P) (al : List Byte → Bool) (ad : Nat → Bool)
    (hdB : P.digestSize ≤ P.B) (hlim : P.B + P.digestSize < P.W * P.W) (junk : List Byte) (hj : junk.length = P.B)
    (key fresh : List Byte) (ops : List Op) (hw : Within (iterated P al ad) (P.W * P.W) [] (.setKey key fresh :: ops)) :
    run (iterated P al ad) ⟨IterHash.new P junk, [], false⟩ (.setKey key fresh :: ops) =
      .ok (specRun (iterated P al ad) (IterHash.digest P) key [] ops) := by
  have hW := IterHash.W_pos ok
  have hB := IterHash.Bpos ok
  refine history_macs (iterated_computes ok hs al ad) hdB (by show P.B ≠ 0; omega) hlim _ ?_ key fresh ops hw
  exact ⟨Nat.mul_pos hW hW, by simp [IterHash.new], by simp [IterHash.new], hj, by simp, by simp [IterHash.new, IterHash.foldFrom]⟩

/-- C12. A MAC is split-independent: the pieces of a message may be given in any number of `Update` calls. -/
theorem mac_split_independent {σ : Type} {O : Obj σ} {H : List Byte → List Byte} {lim : Nat} {Rep : σ → List Byte → Prop} (C : O.Computes H lim Rep)
    (hdB : O.digestSize ≤ O.blockSize) (hB : O.blockSize ≠ 0) (hlim : O.blockSize + O.digestSize < lim)
    (h0 : σ) (hr : Rep h0 []) (key fresh : List Byte) (hk : key.length < lim) (hf : 2 * O.blockSize + O.digestSize ≤ fresh.length)
    (pieces : List (List Byte)) (hl : O.blockSize + pieces.flatten.length < lim) :
    run O ⟨h0, [], false⟩ (.setKey key fresh :: (pieces.map .update ++ [.final O.digestSize])) =
      .ok [.mac (hmac H O.blockSize key pieces.flatten)] := by
  have hmac_len : ∀ m, (hmac H O.blockSize key m).length = O.digestSize := fun m => C.length _
  rw [history_macs C hdB hB hlim h0 hr]
  · have : ∀ (l : List (List Byte)) (m : List Byte), specRun O H key m (l.map .update ++ [.final O.digestSize]) =
        [.mac (hmac H O.blockSize key (m ++ l.flatten))] := by
      intro l
      induction l with
      | nil => intro m; simp [specRun, List.take_of_length_le, hmac_len]
      | cons x l ih => intro m; simp only [List.map_cons, List.cons_append, specRun, ih]; simp
    rw [this]; simp
  · refine ⟨hk, hf, ?_⟩
    have : ∀ (l : List (List Byte)) (m : List Byte), O.blockSize + (m ++ l.flatten).length < lim →
        Within O lim m (l.map .update ++ [.final O.digestSize]) := by
      intro l
      induction l with
      | nil => intro m _; simp [Within]
      | cons x l ih =>
        intro m hm
        simp only [List.flatten_cons, List.length_append] at hm
        refine ⟨by rw [List.length_append]; omega, ih _ ?_⟩
        simp only [List.length_append]; omega
    exact this pieces [] (by simpa using hl)

/-- A hash object without a block size is rejected, as documented. -/
theorem needs_block_hash {σ : Type} (O : Obj σ) (h : O.blockSize = 0) (s : State σ) (fresh key : List Byte) :
    setKey O s fresh key = .error .invalidArgument := by simp [setKey, h]

/-- The hypothesis `digestSize ≤ blockSize` is needed: otherwise a key longer than a block is hashed to something longer than
a block and the `memset` length wraps (hmac.cpp:37; only an assertion guards it). -/
theorem long_digest_undefined {σ : Type} {O : Obj σ} {H : List Byte → List Byte} {lim : Nat} {Rep : σ → List Byte → Prop} (C : O.Computes H lim Rep)
    (hB : O.blockSize ≠ 0) (hd : O.blockSize < O.digestSize) (h0 : σ) (hr : Rep h0 []) (fresh key : List Byte)
    (hf : 2 * O.blockSize + O.digestSize ≤ fresh.length) (hk : O.blockSize < key.length) (hl : key.length < lim) :
    setKey O ⟨h0, [], false⟩ fresh key = .error .undefinedBehaviour := by
  unfold setKey
  rw [if_neg hB]
  simp only [restart, Bool.false_eq_true, if_false, copyKey, if_neg (Nat.not_le.mpr hk)]
  obtain ⟨h', e, _⟩ := C.calculateDigest h0 [] key hr (by simpa using hl)
  have hl2 := C.length key
  rw [e]
  simp only [bind_ok, List.nil_append, write]
  rw [if_pos (by simp; omega)]
  simp only [bind_ok]
  rw [if_pos hd]

/-! ## The hypotheses can be met -/

/-- A toy iterated hash with 2-byte words and 8-byte blocks. -/
def toy : IterHash.Params where
  k := 2
  B := 8
  order := .little
  native := .big
  digestSize := 4
  init := [1, 2]
  compress := fun st ws => [(st.getD 0 0 * 31 + ws.getD 0 0 + 7 * ws.getD 3 0) % 65536, (st.getD 1 0 * 3 + st.getD 0 0 + ws.getD 1 0 + ws.getD 2 0) % 65536]

theorem toy_ok : toy.Ok := ⟨by decide, ⟨3, by decide, by decide⟩, by decide, by decide, by decide⟩

def toyOps : List Op :=
  [.update [1, 2, 3], .update (List.replicate 20 9), .final 4, .final 5, .verify [0, 0], .restart,
    .setKey (List.replicate 30 7) (List.replicate 20 0xcc), .update [5], .verify [1, 2, 3, 4, 5]]

example : run (iterated toy (fun _ => true) (fun _ => false)) ⟨IterHash.new toy (List.replicate 8 0xcc), [], false⟩
      (.setKey [1, 2, 3] (List.replicate 20 0xdd) :: toyOps) =
    .ok (specRun (iterated toy (fun _ => true) (fun _ => false)) (IterHash.digest toy) [1, 2, 3] [] toyOps) :=
  history_macs_iterated toy_ok (by intro st ws; simp [toy]) _ _ (by decide) (by decide) _ (by simp [toy]) _ _ _
    (by simp [Within, toyOps, iterated, toy, IterHash.Params.W])

example : hmac (IterHash.digest toy) 8 [1, 2, 3] [1, 2, 3] ≠ hmac (IterHash.digest toy) 8 [1, 2, 3] [1, 2, 4] := by decide +kernel

end Verif.Hmac
