import Verif.Queue.Proofs

/-!
# Properties C01 and C02: `ByteQueue` is a FIFO of bytes
-/
namespace Verif.Queue
open BQ

/-- **C01.** Every history of public calls on a freshly constructed queue, with any node size (0 = automatic), returns
exactly what a plain byte list returns (`Explained`, `Allowed` in `Spec.lean`). -/
theorem byteQueue_is_fifo (nodeSize : Nat) (ops : List Op) :
    Explained ⟨[], 0⟩ ops (run (BQ.init nodeSize) ops).1 := by
  obtain ⟨h1, h2⟩ := init_spec nodeSize
  rw [← h2]; exact run_spec _ ops h1

/-- A queue state some history of valid calls leads to, together with the plain byte list that history denotes. -/
inductive Reachable : BQ → Abs → Prop
  | init (n : Nat) : Reachable (BQ.init n) ⟨[], 0⟩
  | step {q s s'} (op : Op) : Reachable q s → op.Valid s → Allowed s op (step q op).1 s' → Reachable (step q op).2 s'

theorem allowed_deterministic {s : Abs} {op : Op} {out : Out} {s1 s2 : Abs}
    (h1 : Allowed s op out s1) (h2 : Allowed s op out s2) : s1 = s2 := by
  cases op <;> simp only [Allowed] at h1 h2
  case undoLazyPut n =>
    split at h1 <;> simp_all
  case putViaSpace size bs =>
    obtain ⟨n, _, h3, h4⟩ := h1
    obtain ⟨m, _, h5, h6⟩ := h2
    rw [h3] at h5; cases h5; rw [h4, h6]
  case spy =>
    obtain ⟨_, _, _, _, h3⟩ := h1
    obtain ⟨_, _, _, _, h4⟩ := h2
    rw [h3, h4]
  all_goals rw [h1.2, h2.2]

theorem reachable_inv {q : BQ} {s : Abs} (h : Reachable q s) : q.Inv ∧ q.abs = s := by
  induction h with
  | init n => exact init_spec n
  | step op _ hv ha ih =>
    obtain ⟨h1, h2⟩ := ih
    obtain ⟨h3, h4⟩ := step_spec _ op h1 (h2 ▸ hv)
    refine ⟨h3, ?_⟩
    rw [h2] at h4
    exact allowed_deterministic h4 ha

/-- Every valid call in a reachable state has an allowed result, so `Reachable` states cover every history. -/
theorem reachable_progress {q : BQ} {s : Abs} (h : Reachable q s) (op : Op) (hv : op.Valid s) :
    ∃ s', Allowed s op (step q op).1 s' ∧ Reachable (step q op).2 s' := by
  obtain ⟨h1, h2⟩ := reachable_inv h
  obtain ⟨h3, h4⟩ := step_spec _ op h1 (h2 ▸ hv)
  rw [h2] at h4
  exact ⟨_, h4, .step op h hv h4⟩

/-- **C01, sizes.** In every reachable state `CurrentSize` and `IsEmpty` report the length and emptiness of the byte list. -/
theorem sizes_agree {q : BQ} {s : Abs} (h : Reachable q s) :
    q.currentSize = s.content.length ∧ q.isEmpty = s.content.isEmpty := by
  obtain ⟨h1, rfl⟩ := reachable_inv h
  exact ⟨currentSize_spec q h1, isEmpty_spec q h1⟩

/-- **C01, no loss.** Anything put, then read out completely in chunks of any sizes adding up to enough, comes back
unchanged and in order. -/
theorem put_then_get_all {q : BQ} {s : Abs} (h : Reachable q s) (bs : List Byte) (n : Nat)
    (hn : s.content.length + bs.length ≤ n) :
    ∃ q1, q.put bs = .ok q1 ∧ (q1.getN n).1 = s.content ++ bs ∧ (q1.getN n).2.isEmpty = true := by
  obtain ⟨h1, rfl⟩ := reachable_inv h
  obtain ⟨q1, p1, p2, p3⟩ := put_spec q bs h1
  obtain ⟨t1, t2, t3⟩ := transferTo_spec q1 n p2
  refine ⟨q1, p1, ?_, ?_⟩
  · simp only [getN]; rw [t1, p3]; exact List.take_of_length_le (by simpa using hn)
  · simp only [getN]; rw [isEmpty_spec _ t2, t3, p3]; simp; omega

/-- **C02, copy.** The copy of any reachable queue holds the same bytes (and none of them is lazy any more);
so the copy compares equal to the original. -/
theorem copy_same_bytes {q : BQ} {s : Abs} (h : Reachable q s) (oldLazyStr : List Byte) :
    ∃ q', q.copyFrom oldLazyStr = .ok q' ∧ (q'.transferTo s.content.length).1 = s.content ∧
      q'.currentSize = s.content.length ∧ q'.eq q = true := by
  obtain ⟨h1, rfl⟩ := reachable_inv h
  obtain ⟨q', c1, c2, c3⟩ := copyFrom_spec q oldLazyStr h1
  refine ⟨q', c1, ?_, ?_, ?_⟩
  · rw [(transferTo_spec q' _ c2).1, c3]; simp
  · rw [currentSize_spec q' c2, c3]
  · rw [eq_spec q' q c2 h1, c3]; simp

/-- **C02, comparison.** `operator==` of two reachable queues is equality of their byte sequences, however the bytes are
spread over nodes. -/
theorem eq_iff_same_bytes {q r : BQ} {s t : Abs} (hq : Reachable q s) (hr : Reachable r t) :
    q.eq r = true ↔ s.content = t.content := by
  obtain ⟨h1, rfl⟩ := reachable_inv hq
  obtain ⟨h2, rfl⟩ := reachable_inv hr
  rw [eq_spec q r h1 h2]; simp

/-- **C02, indexing.** -/
theorem index_is_ith {q : BQ} {s : Abs} (h : Reachable q s) (i : Nat) : q.index i = s.content[i]? := by
  obtain ⟨h1, rfl⟩ := reachable_inv h
  exact index_spec q h1 i

/-- **C02, Spy.** A prefix of the content, empty only when the queue is. -/
theorem spy_prefix {q : BQ} {s : Abs} (h : Reachable q s) :
    q.spy <+: s.content ∧ (q.spy = [] → s.content = []) := by
  obtain ⟨h1, rfl⟩ := reachable_inv h
  exact spy_spec q h1

/-- **C02, CopyRangeTo.** -/
theorem copyRange_is_slice {q : BQ} {s : Abs} (h : Reachable q s) (b e : Nat) (hbe : b ≤ e) (he : e < 2 ^ 64) :
    (q.copyRangeTo2 recorder [] b e).2.2 = (s.content.take e).drop b := by
  obtain ⟨h1, rfl⟩ := reachable_inv h
  exact copyRange_spec q b e h1 hbe he

/-- **C02, walking.** Reading through a `Walker` in chunks `n` then `m` gives the first `n` and the next `m` bytes. -/
theorem walker_reads_in_order {q : BQ} {s : Abs} (h : Reachable q s) (n m : Nat) :
    (q.walker.get n).1 = s.content.take n ∧ ((q.walker.get n).2.get m).1 = (s.content.drop n).take m := by
  obtain ⟨h1, rfl⟩ := reachable_inv h
  obtain ⟨w1, w2⟩ := walker_inv q h1
  obtain ⟨g1, g2, g3⟩ := walker_get q.walker n w1
  obtain ⟨k1, _, _⟩ := walker_get _ m g2
  exact ⟨by rw [g1, w2], by rw [k1, g3, w2]⟩

/-- **C01/C02, non-blocking transfer to a target that may refuse data.** The bytes the target accepted are a prefix of the
queue's content, exactly those bytes are removed from the queue and counted, and when nothing was refused everything
asked for was moved. `acc t bs t'` is any description of "t' is t after accepting exactly bs". -/
theorem nonblocking_transfer_loses_nothing {τ : Type} (tg : Target τ) (acc : τ → List Byte → τ → Prop)
    (hacc : Walker.Accepts tg acc) {q : BQ} {s : Abs} (h : Reachable q s) (t : τ) (n : Nat) :
    ∃ c t1, c ≤ n ∧ acc t (s.content.take c) t1 ∧
      (q.transferTo2NonBlocking tg t n).2.1 = c ∧
      ((q.transferTo2NonBlocking tg t n).2.2.1.getN (s.content.length)).1 = s.content.drop c ∧
      ((q.transferTo2NonBlocking tg t n).1 = 0 →
        c = min n s.content.length ∧ (q.transferTo2NonBlocking tg t n).2.2.2 = t1) ∧
      ((q.transferTo2NonBlocking tg t n).1 ≠ 0 → ∃ chunk, chunk <+: s.content.drop c ∧ chunk.length ≤ n - c ∧
        tg.put2 t1 chunk = ((q.transferTo2NonBlocking tg t n).1, (q.transferTo2NonBlocking tg t n).2.2.2)) := by
  obtain ⟨h1, rfl⟩ := reachable_inv h
  obtain ⟨w1, w2⟩ := walker_inv q h1
  obtain ⟨c, t1, i0, i1, i2, i3, i4, i5, i6⟩ := walker_spec_gen tg acc hacc q.walker t n n w1 (Nat.le_refl _)
  rw [w2] at i3 i4 i5 i6
  have hc : (q.walker.transferTo2 tg t n n).2.1 = c := by rw [i1]; omega
  refine ⟨c, t1, i0, i4, ?_, ?_, ?_, ?_⟩
  · simp only [transferTo2NonBlocking]; exact hc
  · simp only [transferTo2NonBlocking, skip, getN, hc]
    obtain ⟨j1, j2, j3⟩ := transferTo_spec q c h1
    rw [(transferTo_spec _ _ j2).1, j3]
    exact List.take_of_length_le (by simp)
  · simpa only [transferTo2NonBlocking] using i5
  · simpa only [transferTo2NonBlocking] using i6

/-! ### Non-vacuity -/

/-- A history that crosses nodes, uses lazy strings, ungets and cleans up: node size 2. -/
def sampleOps : List Op :=
  [.put [1, 2, 3], .get, .unget [9, 8, 7, 6, 5], .lazyPut [4, 4], .undoLazyPut 1, .copyRange 1 6, .getN 4, .currentSize,
   .putViaSpace 3 [1, 1, 1, 1, 1], .index 2, .transferTo 100, .isEmpty]

example : (run (BQ.init 2) sampleOps).1 =
    [.unit, .byte? (some 1), .unit, .unit, .unit, .bytes [8, 7, 6, 5, 2], .bytes [9, 8, 7, 6], .nat 4,
     .nat 3, .byte? (some 3), .bytes [5, 2, 3, 4, 1, 1, 1], .bool true] := by
  decide +kernel

/-- The sample history consists of valid calls, and its final state is reachable. -/
theorem run_reachable {q : BQ} {s : Abs} (h : Reachable q s) (op : Op) (hv : op.Valid s) :
    ∃ s', Reachable (step q op).2 s' := by
  obtain ⟨s', _, h2⟩ := reachable_progress h op hv
  exact ⟨s', h2⟩

example : ∃ s, Reachable (step (step (BQ.init 2) (.put [1, 2, 3])).2 (.lazyPut [4])).2 s := by
  obtain ⟨s1, _, h1⟩ := reachable_progress (.init 2) (.put [1, 2, 3]) trivial
  exact run_reachable h1 _ trivial

/-! ### Where the code differs from the property -/

/-- `ByteQueue::IsolatedInitialize` with parameter NodeSize = 0 on an automatically sized queue, then a `Put` longer than
the first node: the loop that doubles the node size never ends (queue.cpp:242-246). This is why `Op.Valid` excludes it. -/
theorem initialize_zero_then_put_diverges :
    ((BQ.init 0).isolatedInitialize 0).put (List.replicate 257 7) = .error .diverges := by
  decide +kernel

/-- `Walker::MaxRetrievable` (queue.h:175-176) subtracts `m_position`, which is not advanced while walking the lazy
string (queue.cpp:571-582): after all three bytes have been walked it still reports two. -/
theorem walker_maxRetrievable_overreports :
    let q := (step (step (BQ.init 4) (.put [1])).2 (.lazyPut [2, 3])).2
    let r := q.walker.get 3
    r.1 = [1, 2, 3] ∧ r.2.rest = [] ∧ r.2.maxRetrievable q = 2 := by
  decide +kernel

end Verif.Queue
