import Verif.Queue.Model

/-!
# Specification of `ByteQueue`: a plain list of bytes

The abstract state is the list of bytes in the queue and how many of the last ones were added by a `LazyPut` that has
not been committed (only those can be undone). Operations are the public calls; `Allowed s op out s'` says which results
a call may have.
-/
namespace Verif.Queue

/-- What a user thinks a `ByteQueue` is: bytes in order, and the number of trailing bytes that are still lazy. -/
structure Abs where
  content : List Byte
  lz : Nat
deriving DecidableEq, Repr

/-- The public operations. -/
inductive Op where
  | put (bs : List Byte)
  | lazyPut (bs : List Byte)
  | lazyPutModifiable (bs : List Byte)
  | undoLazyPut (n : Nat)
  | finalizeLazyPut
  /-- `CreatePutSpace(size)`, write at most the offered number of bytes of `bs`, `Put` them. -/
  | putViaSpace (size : Nat) (bs : List Byte)
  | get
  | getN (n : Nat)
  | skip (n : Nat)
  | transferTo (n : Nat)
  | peek
  | peekN (n : Nat)
  | unget (bs : List Byte)
  | clear
  | setNodeSize (n : Nat)
  | isolatedInitialize (nodeSize : Nat)
  | isEmpty
  | currentSize
  | index (i : Nat)
  | spy
  /-- `CopyRangeTo(target, begin, end)` -/
  | copyRange (b e : Nat)

/-- Results of a call. -/
inductive Out where
  | unit
  | byte? (b : Option Byte)
  | bytes (bs : List Byte)
  | nat (n : Nat)
  | bool (b : Bool)
  | err (e : Err)
deriving DecidableEq, Repr

/-- The calls the property speaks about. `NodeSize` 0 is excluded (see `initialize_zero_then_put_diverges`), and so are
an out-of-range `operator[]` (documented as unchecked) and a range with `end < begin` or beyond 64 bits. -/
def Op.Valid (s : Abs) : Op → Prop
  | .isolatedInitialize n => 0 < n
  | .index i => i < s.content.length
  | .copyRange b e => b ≤ e ∧ e < 2 ^ 64
  | .peekN n => n < 2 ^ 64
  | _ => True

/-- Which results and next states a call may have, in terms of the plain byte list. -/
def Allowed (s : Abs) : Op → Out → Abs → Prop
  | .put bs, out, s' => out = .unit ∧ s' = ⟨s.content ++ bs, 0⟩
  | .lazyPut bs, out, s' => out = .unit ∧ s' = ⟨s.content ++ bs, bs.length⟩
  | .lazyPutModifiable bs, out, s' => out = .unit ∧ s' = ⟨s.content ++ bs, bs.length⟩
  | .undoLazyPut n, out, s' =>
      if s.lz < n then out = .err .invalidArgument ∧ s' = s
      else out = .unit ∧ s' = ⟨s.content.take (s.content.length - n), s.lz - n⟩
  | .finalizeLazyPut, out, s' => out = .unit ∧ s' = ⟨s.content, 0⟩
  | .putViaSpace _ bs, out, s' =>
      ∃ n, 0 < n ∧ out = .nat n ∧ s' = ⟨s.content ++ bs.take n, 0⟩
  | .get, out, s' => out = .byte? s.content.head? ∧ s' = ⟨s.content.tail, min s.lz s.content.tail.length⟩
  | .getN n, out, s' | .transferTo n, out, s' =>
      out = .bytes (s.content.take n) ∧ s' = ⟨s.content.drop n, min s.lz (s.content.drop n).length⟩
  | .skip n, out, s' =>
      out = .nat (min n s.content.length) ∧ s' = ⟨s.content.drop n, min s.lz (s.content.drop n).length⟩
  | .peek, out, s' => out = .byte? s.content.head? ∧ s' = s
  | .peekN n, out, s' => out = .bytes (s.content.take n) ∧ s' = s
  | .unget bs, out, s' => out = .unit ∧ s' = ⟨bs ++ s.content, s.lz⟩
  | .clear, out, s' => out = .unit ∧ s' = ⟨[], 0⟩
  | .setNodeSize _, out, s' => out = .unit ∧ s' = s
  | .isolatedInitialize _, out, s' => out = .unit ∧ s' = ⟨[], 0⟩
  | .isEmpty, out, s' => out = .bool s.content.isEmpty ∧ s' = s
  | .currentSize, out, s' => out = .nat s.content.length ∧ s' = s
  | .index i, out, s' => out = .byte? s.content[i]? ∧ s' = s
  | .spy, out, s' =>
      ∃ p, out = .bytes p ∧ p <+: s.content ∧ (p = [] → s.content = []) ∧ s' = s
  | .copyRange b e, out, s' => out = .bytes ((s.content.take e).drop b) ∧ s' = s

/-- The result of a model call that returns a queue or fails; on failure the queue keeps its state. -/
def ofExcept (q : BQ) : Except Err BQ → Out × BQ
  | .ok q' => (.unit, q')
  | .error e => (.err e, q)

/-- One public call on the model. -/
def step (q : BQ) : Op → Out × BQ
  | .put bs => ofExcept q (q.put bs)
  | .lazyPut bs => ofExcept q (q.lazyPut bs)
  | .lazyPutModifiable bs => ofExcept q (q.lazyPutModifiable bs)
  | .undoLazyPut n => ofExcept q (q.undoLazyPut n)
  | .finalizeLazyPut => ofExcept q q.finalizeLazyPut
  | .putViaSpace size bs =>
      match q.createPutSpace size with
      | .error e => (.err e, q)
      | .ok (offered, _) =>
        match q.putViaSpace size (bs.take offered) with
        | .ok q' => (.nat offered, q')
        | .error e => (.err e, q)
  | .get => let (b, q') := q.get1; (.byte? b, q')
  | .getN n => let (bs, q') := q.getN n; (.bytes bs, q')
  | .transferTo n => let (bs, q') := q.transferTo n; (.bytes bs, q')
  | .skip n => let (k, q') := q.skip n; (.nat k, q')
  | .peek => (.byte? q.peek1, q)
  | .peekN n => (.bytes (q.copyRangeTo2 BQ.recorder [] 0 n).2.2, q)
  | .unget bs => (.unit, q.unget bs)
  | .clear => (.unit, q.clear)
  | .setNodeSize n => (.unit, q.setNodeSize n)
  | .isolatedInitialize n => (.unit, q.isolatedInitialize n)
  | .isEmpty => (.bool q.isEmpty, q)
  | .currentSize => (.nat q.currentSize, q)
  | .index i => (.byte? (q.index i), q)
  | .spy => (.bytes q.spy, q)
  | .copyRange b e => (.bytes (q.copyRangeTo2 BQ.recorder [] b e).2.2, q)

/-- Run a history of calls, collecting the results. -/
def run : BQ → List Op → List Out × BQ
  | q, [] => ([], q)
  | q, op :: ops =>
    let r := step q op
    let rs := run r.2 ops
    (r.1 :: rs.1, rs.2)

/-- The results `outs` of the history `ops` are explained by the plain byte list, started in state `s`, as long as
every call is `Valid` in the state it is made in. -/
def Explained : Abs → List Op → List Out → Prop
  | _, [], [] => True
  | s, op :: ops, out :: outs => op.Valid s → ∃ s', Allowed s op out s' ∧ Explained s' ops outs
  | _, _, _ => False

end Verif.Queue
