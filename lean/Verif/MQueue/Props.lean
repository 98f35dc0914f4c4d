import Verif.MQueue.Proofs

/-! # C44: `MessageQueue` keeps messages and their boundaries; `EqualityComparisonFilter` compares exactly -/
namespace Verif.MQueue

/-- **C44 (history).** Whatever calls are made on a new queue, with fewer than 2^32 - 1 complete messages in it at any time, every
call answers as a list of complete messages and one in progress would: bytes come out in order and never across the end of the
message being read, the message ends come out where they went in, and `NumberOfMessages` counts the complete messages. The transfer
loops end. -/
theorem queue_history (uintMax ulongMax : Nat) (hui : uintMax = 2 ^ 32 - 1) (hum : 0 < ulongMax) (ops : List Op) (hw : Within ⟨[], []⟩ ops) :
    run uintMax ulongMax MQ.init ops = specRun ⟨[], []⟩ ops :=
  run_spec uintMax ulongMax hui hum ops rep_init hw

/-- A history with three messages, one of them empty, and one unfinished. -/
def exOps : List Op := [.put [1, 2] false, .put [3] true, .put [] true, .put [4] true, .put [5, 6] false, .numberOfMessages, .maxRetrievable,
  .get 2, .nextMessage, .get 9, .get 1, .nextMessage, .anyRetrievable, .nextMessage, .copyRange 0 5, .totalBytes, .copyMessages 7, .transferAll, .numberOfMessages]

-- The hypotheses are met, and this is what comes out.
example (uintMax ulongMax : Nat) (hui : uintMax = 2 ^ 32 - 1) (hum : 0 < ulongMax) : run uintMax ulongMax MQ.init exOps =
    [.unit, .unit, .unit, .unit, .unit, .nat 3, .nat 3, .bytes [1, 2], .bool false, .bytes [3], .bytes [], .bool true, .bool false, .bool true,
      .bytes [4], .nat 3, .toks [some 4, none] 1, .toks [some 4, none, some 5, some 6] 1, .nat 0] := by
  rw [queue_history uintMax ulongMax hui hum exOps (by simp [exOps, Within, specStep, Abs.setFront, Abs.front])]
  decide

/-- **C44, negative.** `NumberOfMessagesInThisSeries` counts messages that were read and removed: after one message has gone in and come
out it is 1 although the queue is empty. -/
theorem messagesInThisSeries_never_decreases :
    ((((MQ.init.put2 [7] true).transferTo 1).2.getNextMessage).2.messagesInThisSeries, (((MQ.init.put2 [7] true).transferTo 1).2.getNextMessage).2.numberOfMessages) = (1, 0) := by
  decide

/-- **C44, negative.** `swap` exchanges the bytes and the message lengths but not the message counts: the counts then belong to
the other queue's content. -/
theorem swap_leaves_counts : (MQ.swap (MQ.init.put2 [1] true) MQ.init).2 = ⟨[1], [1, 0], [0]⟩ ∧ (MQ.swap (MQ.init.put2 [1] true) MQ.init).1 = ⟨[], [0], [1]⟩ := by
  decide

theorem copyLoop_pos (n : Nat) (ls : List Nat) (w : List Byte) (hn : 0 < n) (hl : ls ≠ []) : (copyLoop n ls w).2 ≠ 0 := by
  cases n with
  | zero => omega
  | succ n => cases ls with
    | nil => exact absurd rfl hl
    | cons a l => simp [copyLoop]

/-- **C44, negative.** `CopyAllTo` does not end once the queue holds a complete message, since `CopyMessagesTo` returns the number
of messages copied and the loop runs until that is 0: no number of rounds is enough. -/
theorem copyAll_diverges (uintMax : Nat) (h : 0 < uintMax) (q : MQ) (hq : 2 ≤ q.lengths.length) (fuel : Nat) : q.copyAll uintMax fuel = .error .diverges := by
  induction fuel with
  | zero => rfl
  | succ f ih =>
    simp only [MQ.copyAll]
    rw [if_neg]
    · rw [ih]
    · exact copyLoop_pos _ _ _ h (fun hd => by have := congrArg List.length hd; simp at this; omega)

example : 2 ≤ (MQ.init.put2 [1] true).lengths.length := by decide

/-- **C44 (`EqualityComparisonFilter`).** For every history of fewer than 2^32 calls of `ChannelPut2` on the two channels, in any order
and with the input split in any way (and the queues' blocks of memory split in any way), the filter has reported a mismatch exactly
if the streams seen so far (bytes and message ends) differ at a place both have reached. It reports with one 0 byte, or with an
exception if so configured, once. -/
theorem filter_exact (spy : List Byte → Nat) (hspy : ∀ l, l ≠ [] → 0 < spy l) (throws : Bool) (h : List (Bool × List Byte × Bool)) (hn : h.length < 2 ^ 32) :
    let r := cmpRun spy throws Cmp.init h
    (r.1.mismatch = true ↔ ¬ Compatible (streamOf false h) (streamOf true h)) ∧
      r.1.sent = (if r.1.mismatch && !throws then [0#8] else []) ∧ r.2 = (r.1.mismatch && throws) := by
  have := cmpRun_spec spy hspy throws h init_cmpInv (by omega)
  simpa using this

-- Equal streams, split differently, one ahead of the other: no report. Then a difference.
example : (cmpRun (fun l => min 2 l.length) false Cmp.init [(false, [1, 2, 3], true), (true, [1], false), (false, [4], false), (true, [2, 3], true)]).1.sent = [] ∧
    (cmpRun (fun l => min 2 l.length) false Cmp.init [(false, [1, 2, 3], true), (true, [1], false), (false, [4], false), (true, [2, 3], false), (true, [4], false)]).1.sent = [0] := by
  decide

/-- **C44, negative.** The end of a series with an unfinished message on this channel is reported as equality (a byte 1) although the
streams differ: the first channel sends a complete series, the second one more byte and then the end of its series. -/
theorem unfinished_message_reported_equal :
    (((Cmp.init.seriesEnd false false).1.put (·.length) false true [9] false).1.seriesEnd false true).1.sent = [1] := by
  decide

/-- **C44, negative.** After one pair of equal series, a message on the second channel arriving before its counterpart is reported as
a mismatch: the count of ended series is never taken back. -/
theorem second_series_false_mismatch :
    (((Cmp.init.seriesEnd false false).1.seriesEnd false true).1.put (·.length) false true [] true).1.sent = [1, 0] := by
  decide

end Verif.MQueue
