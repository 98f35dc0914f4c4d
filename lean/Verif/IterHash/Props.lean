import Verif.IterHash.Proofs

/-! Properties C10 and C11: iterated hashes. -/
namespace Verif.IterHash

theorem run_inv {P : Params} (ok : P.Ok) (ops : List Op) : ∀ (h : State) (m : List Byte), Inv P h m → Within P m ops →
    run P h ops = .ok (specRun P m ops) := by
  induction ops with
  | nil => intro h m _ _; rfl
  | cons op ops ih =>
    intro h m hinv hw
    cases op with
    | update bs a =>
      obtain ⟨h', e, i⟩ := update_spec ok h m bs a false hinv hw.1 (by simp)
      simp only [run, specRun, e, bind_ok]
      exact ih _ _ i hw.2
    | updateInPlace bs a =>
      obtain ⟨h', e, i⟩ := updateInPlace_spec ok h m bs a hinv hw.1 hw.2.1
      simp only [run, specRun, e, bind_ok]
      exact ih _ _ i hw.2.2
    | restart =>
      simp only [run, specRun]
      have hW := W_pos ok
      exact ih _ _ ⟨Nat.mul_pos hW hW, by simp [restart], by simp [restart], hinv.buf.len, by simp, by simp [restart, foldFrom]⟩ hw
    | final n a =>
      simp only [run, specRun]
      by_cases hn : n > P.digestSize
      · have e : truncatedFinal P h n a = .error .invalidArgument := by simp [truncatedFinal, hn]
        simp only [Within, if_pos hn] at hw
        rw [e, if_pos hn]
        simp only [ih _ _ hinv hw, bind_ok]
      · simp only [Within, if_neg hn] at hw
        obtain ⟨h', e, i⟩ := final_spec ok h m hinv n (by omega) a
        rw [e, if_neg hn]
        simp only [ih _ _ i hw, bind_ok]

/-- C10, C11. Every history of `Update` (any split, aligned or not, in place or not), `Restart` and `TruncatedFinal` calls
on one object: each digest returned is the requested prefix of the Merkle-Damgard digest of the concatenation of the bytes
given since the last `Restart` or successful `TruncatedFinal`; too long a truncation is rejected and changes nothing. -/
theorem history_digests {P : Params} (ok : P.Ok) (junk : List Byte) (hj : junk.length = P.B) (ops : List Op) (hw : Within P [] ops) :
    run P (new P junk) ops = .ok (specRun P [] ops) := by
  have hW := W_pos ok
  exact run_inv ok ops _ _ ⟨Nat.mul_pos hW hW, by simp [new], by simp [new], hj, by simp, by simp [new, foldFrom]⟩ hw

/-- C10. The digest of a message does not depend on how it is split, on alignment, or on the machine's byte order. -/
theorem split_independent {P : Params} (ok : P.Ok) (junk : List Byte) (hj : junk.length = P.B) (pieces : List (List Byte × Bool))
    (hlim : (pieces.map (·.1)).flatten.length < P.W * P.W) (aligned : Bool) :
    run P (new P junk) (pieces.map (fun p => .update p.1 p.2) ++ [.final P.digestSize aligned]) =
      .ok [.ok (digest P (pieces.map (·.1)).flatten)] := by
  rw [history_digests ok junk hj]
  · have : ∀ (l : List (List Byte × Bool)) (m : List Byte),
        specRun P m (l.map (fun p => .update p.1 p.2) ++ [.final P.digestSize aligned]) = [.ok (digest P (m ++ (l.map (·.1)).flatten))] := by
      intro l
      induction l with
      | nil => intro m; simp [specRun, digest, List.take_take]
      | cons p l ih => intro m; simp only [List.map_cons, List.cons_append, specRun, ih]; simp
    rw [this]; simp
  · have : ∀ (l : List (List Byte × Bool)) (m : List Byte), (m ++ (l.map (·.1)).flatten).length < P.W * P.W →
        Within P m (l.map (fun p => .update p.1 p.2) ++ [.final P.digestSize aligned]) := by
      intro l
      induction l with
      | nil => intro m _; simp [Within]
      | cons p l ih =>
        intro m hm
        simp only [List.map_cons, List.flatten_cons, List.length_append] at hm
        refine ⟨by rw [List.length_append]; omega, ih _ ?_⟩
        simp only [List.length_append]; omega
    exact this pieces [] (by simpa using hlim)

/-- C11. After a `TruncatedFinal`, whatever came before, the object behaves as a new one. -/
theorem reusable {P : Params} (ok : P.Ok) (junk junk' : List Byte) (hj : junk.length = P.B) (hj' : junk'.length = P.B) (before after : List Op)
    (n : Nat) (a : Bool) (hn : n ≤ P.digestSize) (hw : Within P [] (before ++ .final n a :: after)) (hw' : Within P [] after) :
    ∃ pre suf, run P (new P junk) (before ++ .final n a :: after) = .ok (pre ++ suf) ∧ run P (new P junk') after = .ok suf := by
  rw [history_digests ok junk hj _ hw, history_digests ok junk' hj' _ hw']
  have : ∀ (ops : List Op) (m : List Byte), ∃ pre, specRun P m (ops ++ .final n a :: after) = pre ++ specRun P [] after := by
    intro ops
    induction ops with
    | nil => intro m; exact ⟨[.ok ((digest P m).take n)], by simp [specRun, Nat.not_lt.mpr hn]⟩
    | cons op ops ih =>
      intro m
      cases op with
      | update bs x => exact ih _
      | updateInPlace bs x => exact ih _
      | restart => exact ih _
      | final k x =>
        simp only [List.cons_append, specRun]
        split
        · obtain ⟨pre, e⟩ := ih m; exact ⟨_ :: pre, by rw [e]; rfl⟩
        · obtain ⟨pre, e⟩ := ih []; exact ⟨_ :: pre, by rw [e]; rfl⟩
  obtain ⟨pre, e⟩ := this before []
  exact ⟨pre, _, by rw [e], rfl⟩

/-- C11. A truncation longer than the digest is rejected. -/
theorem truncation_rejected (P : Params) (h : State) (n : Nat) (a : Bool) (hn : P.digestSize < n) :
    truncatedFinal P h n a = .error .invalidArgument := by simp [truncatedFinal, hn]

theorem run_too_long {P : Params} (ok : P.Ok) (input : List Byte) (a : Bool) (hone : input.length / P.W + 1 < P.W) (ops : List Op) :
    ∀ (h : State) (m : List Byte), Inv P h m → Within P m ops → P.W * P.W ≤ (held P m ops ++ input).length →
    run P h (ops ++ [.update input a]) = .error .hashInputTooLong := by
  induction ops with
  | nil =>
    intro h m hinv _ hlong
    have hl := hinv.lim
    simp only [held, List.length_append] at hlong
    have := counts_reject ok m.length input.length hinv.lim hone hlong
    have e : update P h input a false = .error .hashInputTooLong := by
      unfold update counts
      rw [if_neg (by omega), hinv.lo, hinv.hi]
      dsimp only at this ⊢
      rw [if_pos]
      rw [decide_eq_true_eq]
      exact Or.inl this
    simp [run, e]
    rfl
  | cons op ops ih =>
    intro h m hinv hw hlong
    cases op with
    | update bs a =>
      obtain ⟨h', e, i⟩ := update_spec ok h m bs a false hinv hw.1 (by simp)
      simp only [run, List.cons_append, e, bind_ok]
      exact ih _ _ i hw.2 hlong
    | updateInPlace bs a =>
      obtain ⟨h', e, i⟩ := updateInPlace_spec ok h m bs a hinv hw.1 hw.2.1
      simp only [run, List.cons_append, e, bind_ok]
      exact ih _ _ i hw.2.2 hlong
    | restart =>
      simp only [run, List.cons_append]
      have hW := W_pos ok
      exact ih _ [] ⟨Nat.mul_pos hW hW, by simp [restart], by simp [restart], hinv.buf.len, by simp, by simp [restart, foldFrom]⟩ hw hlong
    | final n a =>
      simp only [run, List.cons_append]
      by_cases hn : n > P.digestSize
      · have e : truncatedFinal P h n a = .error .invalidArgument := by simp [truncatedFinal, hn]
        simp only [Within, held, if_pos hn] at hw hlong
        rw [e]
        simp only [ih _ _ hinv hw hlong]
        rfl
      · simp only [Within, held, if_neg hn] at hw hlong
        obtain ⟨h', e, i⟩ := final_spec ok h m hinv n (by omega) a
        rw [e]
        simp only [ih _ _ i hw hlong]
        rfl

/-- C10. An `Update` that takes the message held past `256 ^ (2 k)` bytes throws `HashInputTooLong`, after any history,
provided this one call passes fewer than `256 ^ k * (256 ^ k - 1)` bytes (always so with 64-bit lengths and 64-bit words). -/
theorem too_long_rejected {P : Params} (ok : P.Ok) (junk : List Byte) (hj : junk.length = P.B) (ops : List Op) (hw : Within P [] ops)
    (input : List Byte) (a : Bool) (hone : input.length / P.W + 1 < P.W) (hlong : P.W * P.W ≤ (held P [] ops ++ input).length) :
    run P (new P junk) (ops ++ [.update input a]) = .error .hashInputTooLong := by
  have hW := W_pos ok
  exact run_too_long ok input a hone ops _ [] ⟨Nat.mul_pos hW hW, by simp [new], by simp [new], hj, by simp, by simp [new, foldFrom]⟩ hw hlong

theorem exec_inv {P : Params} (ok : P.Ok) (ops : List Op) : ∀ (h : State) (m : List Byte), Inv P h m → Within P m ops →
    ∃ h', exec P h ops = .ok h' ∧ Inv P h' (held P m ops) := by
  induction ops with
  | nil => intro h m hi _; exact ⟨h, rfl, hi⟩
  | cons op ops ih =>
    intro h m hinv hw
    cases op with
    | update bs a =>
      obtain ⟨h', e, i⟩ := update_spec ok h m bs a false hinv hw.1 (by simp)
      simp only [exec, held, e, bind_ok]
      exact ih _ _ i hw.2
    | updateInPlace bs a =>
      obtain ⟨h', e, i⟩ := updateInPlace_spec ok h m bs a hinv hw.1 hw.2.1
      simp only [exec, held, e, bind_ok]
      exact ih _ _ i hw.2.2
    | restart =>
      simp only [exec, held]
      have hW := W_pos ok
      exact ih _ [] ⟨Nat.mul_pos hW hW, by simp [restart], by simp [restart], hinv.buf.len, by simp, by simp [restart, foldFrom]⟩ hw
    | final n a =>
      simp only [exec, held]
      by_cases hn : n > P.digestSize
      · have e : truncatedFinal P h n a = .error .invalidArgument := by simp [truncatedFinal, hn]
        simp only [Within, if_pos hn] at hw
        rw [e, if_pos hn]
        exact ih _ _ hinv hw
      · simp only [Within, if_neg hn] at hw
        obtain ⟨h', e, i⟩ := final_spec ok h m hinv n (by omega) a
        rw [e, if_neg hn]
        exact ih _ _ i hw

/-- C10. `CreateUpdateSpace` offers exactly the free part of the block buffer, after any history. -/
theorem offered_space {P : Params} (ok : P.Ok) (junk : List Byte) (hj : junk.length = P.B) (ops : List Op) (hw : Within P [] ops) :
    ∃ h, exec P (new P junk) ops = .ok h ∧ h.data.length = P.B ∧
      createUpdateSpace P h = ((held P [] ops).length % P.B, P.B - (held P [] ops).length % P.B) := by
  have hW := W_pos ok
  obtain ⟨h, e, i⟩ := exec_inv ok ops (new P junk) []
    ⟨Nat.mul_pos hW hW, by simp [new], by simp [new], hj, by simp, by simp [new, foldFrom]⟩ hw
  refine ⟨h, e, i.buf.len, ?_⟩
  unfold createUpdateSpace
  rw [i.lo, and_eq ok, Nat.mod_mod_of_dvd _ (Nat.dvd_of_mod_eq_zero (W_mod ok))]

theorem W4 (P : Params) (hk : P.k = 4) : P.W = 4294967296 := by unfold Params.W; rw [hk]

/-- Where the code disagrees: with 32-bit hash words, an update that takes the total past the limit by exactly one round of
the high counter is accepted; the counters then belong to a shorter message. Total length 6 * 2^32 - 1 is held, and
2^64 - 1 more bytes are given. -/
theorem too_long_undetected (P : Params) (hk : P.k = 4) (data : List Byte) (st : List Nat) :
    counts P ⟨2 ^ 32 - 1, 5, data, st⟩ (2 ^ 64 - 1) = (⟨2 ^ 32 - 2, 5, data, st⟩, false) := by
  simp only [counts, W4 P hk]
  simp only [Nat.reducePow, Nat.reduceSub, Nat.reduceAdd, Nat.reduceMod, Nat.reduceDiv, Nat.reduceMul, Nat.reduceLT, if_true, ne_eq, or_self, not_true]
  simp

/-- Where the code disagrees: a rejected `Update` has already changed the counters, so the object does not hold the message
it held before the call. -/
theorem too_long_changes_object (P : Params) (hk : P.k = 4) (data : List Byte) (st : List Nat) :
    counts P ⟨2 ^ 32 - 1, 2 ^ 32 - 1, data, st⟩ 1 = (⟨0, 0, data, st⟩, true) := by
  simp only [counts, W4 P hk]
  simp only [Nat.reducePow, Nat.reduceSub, Nat.reduceAdd, Nat.reduceMod, Nat.reduceDiv, Nat.reduceMul, Nat.reduceLT, if_true, ne_eq, or_self, not_true]
  simp

/-- The length field is the bit length modulo `256 ^ (2 k)`: two messages whose lengths differ by `2 ^ (16 k - 3)` bytes get
the same padding, and the limit enforced (`256 ^ (2 k)` bytes) is eight times above that. -/
theorem length_field_wraps (P : Params) (ok : P.Ok) (n : Nat) :
    P.order.bytes (2 * P.k) (8 * (n + 2 ^ (16 * P.k - 3))) = P.order.bytes (2 * P.k) (8 * n) := by
  have hk := ok.kpos
  have : 8 * 2 ^ (16 * P.k - 3) = 256 ^ (2 * P.k) := by
    rw [show (256 : Nat) ^ (2 * P.k) = 2 ^ (8 * (2 * P.k)) by rw [Nat.pow_mul 2 8], show (8 : Nat) = 2 ^ 3 from rfl, ← Nat.pow_add]
    congr 1; omega
  rw [← bytes_mod, Nat.mul_add, this, Nat.add_mod_right, bytes_mod]

/-! ## The hypotheses can be met -/

/-- A toy hash: 4-byte words, 16-byte blocks. -/
def toy : Params where
  k := 4
  B := 16
  order := .big
  native := .little
  digestSize := 8
  init := [1, 2]
  compress := fun st ws => (st.zip ws).map fun p => (p.1 * 31 + p.2 + 7 * ws.getD 3 0) % 2 ^ 32

theorem toy_ok : toy.Ok := ⟨by decide, ⟨4, by decide, by decide⟩, by decide, by decide, by decide⟩

def toyOps : List Op :=
  [.update [1, 2, 3] true, .updateInPlace [4, 5] false, .update (List.replicate 40 9) false, .final 5 true, .final 9 true,
    .update [1] true, .restart, .update (List.replicate 15 1) true, .updateInPlace [7] true, .final 8 false]

example : Within toy [] toyOps := by simp [Within, toyOps, toy, Params.W]

example : run toy (new toy (List.replicate 16 0xcc)) toyOps = .ok (specRun toy [] toyOps) :=
  history_digests toy_ok _ (by simp [toy]) _ (by simp [Within, toyOps, toy, Params.W])

example : (specRun toy [] toyOps).length = 3 := by decide +kernel

/-- A one-byte-word hash, whose limit of 65536 bytes is reached by two updates. -/
def tiny : Params where
  k := 1
  B := 4
  order := .little
  native := .big
  digestSize := 1
  init := [1]
  compress := fun st _ => st

theorem tiny_ok : tiny.Ok := ⟨by decide, ⟨2, by decide, by decide⟩, by decide, by decide, by decide⟩

example : run tiny (new tiny [0, 0, 0, 0]) ([.update (List.replicate 65000 1) true] ++ [.update (List.replicate 536 1) false]) =
    .error .hashInputTooLong :=
  too_long_rejected tiny_ok _ rfl _
    (by simp only [Within, List.length_append, List.length_replicate, List.length_nil]; exact ⟨by decide, trivial⟩) _ _
    (by simp only [List.length_replicate]; decide)
    (by simp only [held, List.length_append, List.length_replicate, List.length_nil]; decide)

end Verif.IterHash
