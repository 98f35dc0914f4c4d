import Verif.Queue.Spec

/-! # Refinement proof for `ByteQueue` (helper lemmas) -/
namespace Verif.Queue

/-- The unread bytes of a node. -/
def Node.data (n : Node) : List Byte := (n.buf.take n.tail).drop n.head

/-- Well-formed and not used up. -/
def Node.Ok (n : Node) : Prop := n.head ≤ n.tail ∧ n.tail ≤ n.buf.length ∧ n.head < n.buf.length

def Node.Full (n : Node) : Prop := n.tail = n.buf.length ∧ n.head < n.tail

theorem Node.data_length (n : Node) (h : n.Ok) : n.data.length = n.currentSize := by
  obtain ⟨h1, h2, _⟩ := h
  simp [data, currentSize]; omega

theorem Node.bytes_eq (n : Node) (len : Nat) (hl : len ≤ n.tail - n.head) :
    n.bytes len = n.data.take len := by
  simp [bytes, data, List.drop_take, List.take_take, Nat.min_eq_left hl]

theorem Node.new_ok (k : Nat) (h : 0 < k) : (Node.new k).Ok := by simp [Node.new, Node.Ok, h]

theorem Node.new_data (k : Nat) : (Node.new k).data = [] := by simp [Node.new, Node.data]

theorem Node.put_fst (n : Node) (bs : List Byte) :
    (n.put bs).1 = min bs.length (n.maxSize - n.tail) := by
  unfold Node.put; split <;> simp_all

theorem Node.put_ok (n : Node) (bs : List Byte) (h : n.Ok) : (n.put bs).2.Ok := by
  obtain ⟨h1, h2, h3⟩ := h
  unfold Node.put Node.Ok Node.maxSize at *
  split
  · exact ⟨h1, h2, h3⟩
  · simp; omega

theorem Node.put_data (n : Node) (bs : List Byte) (h : n.Ok) :
    (n.put bs).2.data = n.data ++ bs.take (n.put bs).1 := by
  obtain ⟨h1, h2, h3⟩ := h
  rw [Node.put_fst]
  unfold Node.put Node.data Node.maxSize at *
  split
  · rename_i h0
    have : bs = [] := List.eq_nil_of_length_eq_zero h0
    simp [this]
  · simp only
    rw [List.take_append_of_le_length (by simp; omega)]
    have hl : (List.take n.tail n.buf ++ List.take (min bs.length (n.buf.length - n.tail)) bs).length
        = n.tail + min bs.length (n.buf.length - n.tail) := by simp; omega
    rw [← hl, List.take_length, List.drop_append_of_le_length (by simp; omega)]

theorem Node.put_full (n : Node) (bs : List Byte) (h : n.Ok) (hlt : (n.put bs).1 < bs.length) :
    (n.put bs).2.Full := by
  obtain ⟨h1, h2, h3⟩ := h
  rw [Node.put_fst] at *
  unfold Node.put Node.Full Node.maxSize at *
  split
  · simp_all
  · simp only [List.length_append, List.length_take, List.length_drop]
    omega

namespace BQ

def nodes (q : BQ) : List Node := q.hd :: q.tl

def flat (ns : List Node) : List Byte := (ns.map Node.data).flatten

/-- Abstraction: the bytes of the chain followed by the pending lazy bytes. -/
def abs (q : BQ) : Abs := ⟨flat q.nodes ++ q.lazyStr.take q.lazyLen, q.lazyLen⟩

/-- All nodes but the last are full and non-empty. -/
def ChainOk : List Node → Prop
  | [] => False
  | [n] => n.Ok
  | n :: m :: ns => n.Ok ∧ n.Full ∧ ChainOk (m :: ns)

structure Inv (q : BQ) : Prop where
  chain : ChainOk q.nodes
  lazy : q.lazyLen ≤ q.lazyStr.length
  size : 0 < q.nodeSize

theorem chainOk_append (ns : List Node) (n : Node) :
    ChainOk (ns ++ [n]) ↔ (∀ m ∈ ns, m.Ok ∧ m.Full) ∧ n.Ok := by
  induction ns with
  | nil => simp [ChainOk]
  | cons a ns ih =>
    cases ns with
    | nil => simp [ChainOk, and_assoc]
    | cons b ns =>
      simp only [List.cons_append, ChainOk] at *
      rw [ih]; simp [and_assoc]

theorem nodes_split (q : BQ) : q.nodes = q.nodes.dropLast ++ [q.tailNode] := by
  simp only [nodes, tailNode]
  exact (List.dropLast_concat_getLast (List.cons_ne_nil _ _)).symm

theorem setTail_nodes (q : BQ) (n : Node) : (q.setTail n).nodes = q.nodes.dropLast ++ [n] := by
  obtain ⟨hd, tl, ls, ll, ns, au⟩ := q
  cases tl <;> simp [nodes, setTail]

theorem appendNode_nodes (q : BQ) (n : Node) : (q.appendNode n).nodes = q.nodes ++ [n] := by
  simp [nodes, appendNode]

@[simp] theorem setTail_lazyStr (q : BQ) (n) : (q.setTail n).lazyStr = q.lazyStr := by
  unfold setTail; split <;> rfl
@[simp] theorem setTail_lazyLen (q : BQ) (n) : (q.setTail n).lazyLen = q.lazyLen := by
  unfold setTail; split <;> rfl
@[simp] theorem setTail_nodeSize (q : BQ) (n) : (q.setTail n).nodeSize = q.nodeSize := by
  unfold setTail; split <;> rfl
@[simp] theorem setTail_auto (q : BQ) (n) : (q.setTail n).autoNodeSize = q.autoNodeSize := by
  unfold setTail; split <;> rfl

theorem flat_append (a b : List Node) : flat (a ++ b) = flat a ++ flat b := by simp [flat]

theorem flat_nodes (q : BQ) : flat q.nodes = flat q.nodes.dropLast ++ q.tailNode.data := by
  conv => lhs; rw [nodes_split]
  rw [flat_append]; simp [flat]

theorem chain_split (q : BQ) (h : ChainOk q.nodes) :
    (∀ m ∈ q.nodes.dropLast, m.Ok ∧ m.Full) ∧ q.tailNode.Ok := by
  rw [nodes_split] at h; rw [← chainOk_append]; exact h

theorem grow_some (n len : Nat) (h : 0 < n) : ∃ m, grow n len = some m ∧ 0 < m := by
  fun_induction grow n len with
  | case1 => omega
  | case2 => rename_i ih; apply ih; omega
  | case3 => exact ⟨_, rfl, by omega⟩

/-- `Put` on any well-formed queue appends the bytes; it terminates and never fails. The tail node may be empty only
when it is not yet followed by another node, hence the case distinction on `Full` is on the data of the node. -/
theorem putLoop_spec (q : BQ) (bs : List Byte) (hc : ChainOk q.nodes) (hs : 0 < q.nodeSize) :
    ∃ q', q.putLoop bs = .ok q' ∧ ChainOk q'.nodes ∧ flat q'.nodes = flat q.nodes ++ bs ∧
      0 < q'.nodeSize ∧ q'.lazyStr = q.lazyStr ∧ q'.lazyLen = q.lazyLen := by
  fun_induction putLoop q bs with
  | case1 q bs l hlt ns hns =>
    exfalso
    simp only [ns] at hns
    split at hns
    · obtain ⟨m, hm, _⟩ := grow_some q.nodeSize (bs.length - l) hs
      rw [hm] at hns; cases hns
    · cases hns
  | case2 q bs l q1 hlt ns n hns ih =>
    obtain ⟨hini, htail⟩ := chain_split q hc
    have hn : 0 < n := by
      simp only [ns] at hns
      split at hns
      · obtain ⟨m, hm, hm0⟩ := grow_some q.nodeSize (bs.length - l) hs
        rw [hm] at hns; cases hns; exact hm0
      · cases hns; exact hs
    have hnodes : ({ q1 with nodeSize := n }.appendNode (Node.new (max n (bs.length - l)))).nodes
        = (q.nodes.dropLast ++ [(q.tailNode.put bs).2]) ++ [Node.new (max n (bs.length - l))] := by
      rw [appendNode_nodes]; congr 1; exact setTail_nodes _ _
    obtain ⟨q', h1, h2, h3, h4, h5, h6⟩ := ih (by
        rw [hnodes, chainOk_append]
        refine ⟨?_, Node.new_ok _ (by omega)⟩
        intro m hm
        rcases List.mem_append.1 hm with hm | hm
        · exact hini m hm
        · simp only [List.mem_singleton] at hm
          subst hm
          exact ⟨Node.put_ok _ _ htail, Node.put_full _ _ htail hlt⟩) hn
    refine ⟨q', h1, h2, ?_, h4, ?_, ?_⟩
    · rw [h3, hnodes, flat_append, flat_append, flat_nodes]
      simp [flat, Node.put_data _ _ htail, Node.new_data, l]
    · rw [h5]; simp [appendNode, q1]
    · rw [h6]; simp [appendNode, q1]
  | case3 q bs l q1 hlt =>
    obtain ⟨hini, htail⟩ := chain_split q hc
    refine ⟨_, rfl, ?_, ?_, by simpa [q1] using hs, by simp [q1], by simp [q1]⟩
    · simp only [q1]
      rw [setTail_nodes, chainOk_append]
      exact ⟨hini, Node.put_ok _ _ htail⟩
    · simp only [q1]
      rw [setTail_nodes, flat_append, flat_nodes]
      have : l = bs.length := by
        have := Node.put_fst q.tailNode bs
        simp only [l] at *; omega
      simp only [l] at this
      simp [flat, Node.put_data _ _ htail, this]


theorem abs_eq (q : BQ) : q.abs = ⟨flat q.nodes ++ q.lazyStr.take q.lazyLen, q.lazyLen⟩ := rfl

theorem finalize_spec (q : BQ) (h : q.Inv) :
    ∃ q', q.finalizeLazyPut = .ok q' ∧ q'.Inv ∧ q'.abs = ⟨q.abs.content, 0⟩ := by
  obtain ⟨hc, hl, hs⟩ := h
  unfold finalizeLazyPut
  simp only
  split
  · obtain ⟨q', h1, h2, h3, h4, h5, h6⟩ :=
      putLoop_spec { q with lazyLen := 0 } (q.lazyStr.take q.lazyLen) hc hs
    refine ⟨q', h1, ⟨h2, ?_, h4⟩, ?_⟩
    · rw [h6]; exact Nat.zero_le _
    · simp only [abs_eq, h6, h3]; simp [nodes]
  · rename_i h0
    refine ⟨_, rfl, ⟨hc, Nat.zero_le _, hs⟩, ?_⟩
    have : q.lazyLen = 0 := by omega
    simp [abs_eq, nodes, this]

theorem flush_spec (q : BQ) (h : q.Inv) :
    ∃ q', (if q.lazyLen > 0 then q.finalizeLazyPut else .ok q) = .ok q' ∧ q'.Inv ∧
      q'.abs = ⟨q.abs.content, 0⟩ := by
  split
  · exact finalize_spec q h
  · refine ⟨q, rfl, h, ?_⟩
    have : q.lazyLen = 0 := by omega
    simp [abs_eq, this]

theorem abs_lz (q : BQ) : q.abs.lz = q.lazyLen := rfl

theorem abs_content_of_lazyLen (q : BQ) (h : q.lazyLen = 0) : q.abs.content = flat q.nodes := by
  simp [abs_eq, h]

theorem put_spec (q : BQ) (bs : List Byte) (h : q.Inv) :
    ∃ q', q.put bs = .ok q' ∧ q'.Inv ∧ q'.abs = ⟨q.abs.content ++ bs, 0⟩ := by
  obtain ⟨q1, h1, h2, h3⟩ := flush_spec q h
  obtain ⟨q', g1, g2, g3, g4, g5, g6⟩ := putLoop_spec q1 bs h2.chain h2.size
  have hz : q1.lazyLen = 0 := by rw [← abs_lz, h3]
  refine ⟨q', ?_, ⟨g2, ?_, g4⟩, ?_⟩
  · unfold put; split at h1 <;> simp_all [bind, Except.bind]
  · rw [g6, hz]; exact Nat.zero_le _
  · have hc : q.abs.content = flat q1.nodes := by rw [← abs_content_of_lazyLen q1 hz, h3]
    rw [hc, abs_eq, g3, g6, hz]; simp

theorem lazyPut_spec (q : BQ) (bs : List Byte) (h : q.Inv) :
    ∃ q', q.lazyPut bs = .ok q' ∧ q'.Inv ∧ q'.abs = ⟨q.abs.content ++ bs, bs.length⟩ := by
  obtain ⟨q1, h1, h2, h3⟩ := flush_spec q h
  have hz : q1.lazyLen = 0 := by rw [← abs_lz, h3]
  refine ⟨{ q1 with lazyStr := bs, lazyLen := bs.length }, ?_, ⟨h2.chain, Nat.le_refl _, h2.size⟩, ?_⟩
  · unfold lazyPut; split at h1 <;> simp_all [bind, Except.bind]
  · have hc : q.abs.content = flat q1.nodes := by rw [← abs_content_of_lazyLen q1 hz, h3]
    rw [hc]; simp [abs_eq, nodes]

theorem lazyPutModifiable_spec (q : BQ) (bs : List Byte) (h : q.Inv) :
    ∃ q', q.lazyPutModifiable bs = .ok q' ∧ q'.Inv ∧ q'.abs = ⟨q.abs.content ++ bs, bs.length⟩ := by
  obtain ⟨q1, h1, h2, h3⟩ := flush_spec q h
  have hz : q1.lazyLen = 0 := by rw [← abs_lz, h3]
  refine ⟨{ q1 with lazyStr := bs, lazyLen := bs.length }, ?_, ⟨h2.chain, Nat.le_refl _, h2.size⟩, ?_⟩
  · unfold lazyPutModifiable; split at h1 <;> simp_all [bind, Except.bind]
  · have hc : q.abs.content = flat q1.nodes := by rw [← abs_content_of_lazyLen q1 hz, h3]
    rw [hc]; simp [abs_eq, nodes]

theorem abs_length (q : BQ) (h : q.Inv) : q.abs.content.length = (flat q.nodes).length + q.lazyLen := by
  simp [abs_eq, Nat.min_eq_left h.lazy]

theorem undo_spec (q : BQ) (n : Nat) (h : q.Inv) (hn : ¬ q.lazyLen < n) :
    ({ q with lazyLen := q.lazyLen - n } : BQ).Inv ∧
    ({ q with lazyLen := q.lazyLen - n } : BQ).abs
      = ⟨q.abs.content.take (q.abs.content.length - n), q.lazyLen - n⟩ := by
  have hl := h.lazy
  refine ⟨⟨h.chain, by simp only; omega, h.size⟩, ?_⟩
  rw [abs_length q h]
  simp only [abs_eq, Abs.mk.injEq, and_true, nodes]
  generalize flat (q.hd :: q.tl) = c
  rw [Nat.add_sub_assoc (by omega), List.take_append, Nat.add_sub_cancel_left, List.take_take,
    List.take_of_length_le (l := c) (by omega), Nat.min_eq_left (by omega)]

/-! ### Transfers and cleanup -/

/-- Well-formed, possibly used up. -/
def _root_.Verif.Queue.Node.Wf (n : Node) : Prop := n.head ≤ n.tail ∧ n.tail ≤ n.buf.length ∧ 0 < n.buf.length

theorem _root_.Verif.Queue.Node.Ok.wf {n : Node} (h : n.Ok) : n.Wf := ⟨h.1, h.2.1, by have := h.2.2; omega⟩

theorem _root_.Verif.Queue.Node.Wf.data_length {n : Node} (h : n.Wf) : n.data.length = n.currentSize := by
  obtain ⟨h1, h2, _⟩ := h
  simp [Node.data, Node.currentSize]; omega

/-- Chain of well-formed nodes where all but the last are filled to the end. -/
def ChainWf : List Node → Prop
  | [] => False
  | [n] => n.Wf
  | n :: m :: ns => n.Wf ∧ n.tail = n.buf.length ∧ ChainWf (m :: ns)

/-- A chain in which only a prefix of the nodes may be used up. -/
def ChainPre : List Node → Prop
  | [] => False
  | [n] => n.Wf
  | n :: m :: ns => n.Wf ∧ n.tail = n.buf.length ∧
      ((n.head < n.tail ∧ ChainOk (m :: ns)) ∨ (n.head = n.tail ∧ ChainPre (m :: ns)))

theorem ChainOk.pre : ∀ {ns : List Node}, ChainOk ns → ChainPre ns
  | [_], h => Node.Ok.wf h
  | _ :: _ :: _, ⟨h1, h2, h3⟩ => ⟨h1.wf, h2.1, Or.inl ⟨h2.2, h3⟩⟩

theorem node_transfer (n : Node) (h : n.Wf) (k : Nat) :
    (n.transferTo k).1 = n.data.take k ∧ (n.transferTo k).2.data = n.data.drop k ∧ (n.transferTo k).2.Wf ∧
    (n.transferTo k).2.tail = n.tail ∧ (n.transferTo k).2.buf = n.buf ∧
    (n.transferTo k).2.head = n.head + min (n.tail - n.head) k := by
  have hl := h.data_length
  obtain ⟨h1, h2, h3⟩ := h
  refine ⟨?_, ?_, ?_, rfl, rfl, rfl⟩
  · simp only [Node.transferTo]
    rw [Node.bytes_eq _ _ (Nat.min_le_left _ _)]
    rw [List.take_eq_take_iff, hl]; simp [Node.currentSize]; omega
  · simp only [Node.transferTo, Node.data, List.drop_drop]
    by_cases hk : k ≤ n.tail - n.head
    · rw [Nat.min_eq_right hk]
    · rw [Nat.min_eq_left (by omega), List.drop_of_length_le, List.drop_of_length_le] <;> simp <;> omega
  · simp only [Node.transferTo, Node.Wf]; omega

theorem transferNodes_spec (k : Nat) (ns : List Node) (h : ChainPre ns) :
    (transferNodes k ns).1 = (flat ns).take k ∧
    (transferNodes k ns).2.1 = k - (flat ns).length ∧
    flat (transferNodes k ns).2.2 = (flat ns).drop k ∧
    ChainPre (transferNodes k ns).2.2 := by
  induction ns generalizing k with
  | nil => exact h.elim
  | cons n ns ih =>
    unfold transferNodes
    split
    · rename_i h0; subst h0; simp [h]
    · rename_i hk
      have hwf : n.Wf := by cases ns with
        | nil => exact h
        | cons m ms => exact h.1
      obtain ⟨t1, t2, t3, t4, t5, t6⟩ := node_transfer n hwf k
      have hlen := hwf.data_length
      cases ns with
      | nil =>
        simp only [transferNodes, List.append_nil]
        refine ⟨?_, ?_, ?_, t3⟩
        · simp [flat, t1]
        · simp [flat, t1]; omega
        · simp [flat, t2]
      | cons m ms =>
        obtain ⟨_, hfull, hor⟩ := h
        have hpre : ChainPre (m :: ms) := by
          rcases hor with ⟨_, h⟩ | ⟨_, h⟩
          · exact h.pre
          · exact h
        obtain ⟨i1, i2, i3, i4⟩ := ih (k - (n.transferTo k).1.length) hpre
        have hcons : flat (n :: m :: ms) = n.data ++ flat (m :: ms) := by simp [flat]
        have hne : ∃ m' ms', (transferNodes (k - (n.transferTo k).1.length) (m :: ms)).2.2 = m' :: ms' := by
          match hh : (transferNodes (k - (n.transferTo k).1.length) (m :: ms)).2.2 with
          | [] => rw [hh] at i4; exact i4.elim
          | a :: b => exact ⟨a, b, rfl⟩
        obtain ⟨m', ms', hm'⟩ := hne
        simp only
        rw [hcons]
        have hlk : (n.transferTo k).1.length = min k n.data.length := by rw [t1]; simp
        refine ⟨?_, ?_, ?_, ?_⟩
        · rw [i1, t1, List.take_append]; congr 2; simp; omega
        · rw [i2, hlk]; simp; omega
        · show flat ((n.transferTo k).2 :: _) = _
          rw [show ∀ (a : Node) l, flat (a :: l) = a.data ++ flat l from fun a l => by simp [flat], i3, t2,
            List.drop_append]
          congr 2; rw [hlk]; omega
        · show ChainPre ((n.transferTo k).2 :: _)
          rw [hm'] at i4 ⊢
          refine ⟨t3, by rw [t4, t5]; exact hfull, ?_⟩
          by_cases hall : n.tail - n.head ≤ k
          · right
            refine ⟨?_, i4⟩
            rw [t6, t4]; have := hwf.1; omega
          · left
            refine ⟨by rw [t6, t4]; have := hwf.1; omega, ?_⟩
            have hz : k - (n.transferTo k).1.length = 0 := by
              rw [hlk, hlen]; simp [Node.currentSize]; omega
            have hsame : (transferNodes 0 (m :: ms)).2.2 = m :: ms := by simp [transferNodes]
            rw [hz, hsame] at hm'
            rw [← hm']
            rcases hor with ⟨_, h⟩ | ⟨hh, _⟩
            · exact h
            · omega

theorem cleanup_go_spec (hd : Node) (tl : List Node) (h : ChainPre (hd :: tl)) :
    flat ((cleanup.go hd tl).1 :: (cleanup.go hd tl).2) = flat (hd :: tl) ∧
    ((cleanup.go hd tl).2 = [] ∧ (cleanup.go hd tl).1.Wf ∨
      ChainOk ((cleanup.go hd tl).1 :: (cleanup.go hd tl).2) ∧ (cleanup.go hd tl).1.data ≠ []) := by
  induction tl generalizing hd with
  | nil => simp [cleanup.go]; exact Or.inl h
  | cons n tl ih =>
    obtain ⟨h1, h2, h3⟩ := h
    unfold cleanup.go
    split
    · rename_i hu
      have hu' : hd.head = hd.buf.length := by simpa [Node.usedUp, Node.maxSize] using hu
      have hdata : hd.data = [] := by
        apply List.eq_nil_of_length_eq_zero; rw [h1.data_length]; simp [Node.currentSize]; omega
      rcases h3 with ⟨hlt, _⟩ | ⟨_, hp⟩
      · omega
      · obtain ⟨i1, i2⟩ := ih n hp
        refine ⟨?_, i2⟩
        rw [i1]; simp [flat, hdata]
    · rename_i hu
      have hu' : hd.head ≠ hd.buf.length := by simpa [Node.usedUp, Node.maxSize] using hu
      refine ⟨rfl, Or.inr ⟨?_, ?_⟩⟩
      · rcases h3 with ⟨hlt, hc⟩ | ⟨heq, _⟩
        · exact ⟨⟨h1.1, h1.2.1, by have := h1.2; show hd.head < hd.buf.length; omega⟩, ⟨h2, hlt⟩, hc⟩
        · omega
      · intro hnil
        have := h1.data_length
        rw [hnil] at this
        simp [Node.currentSize] at this
        rcases h3 with ⟨hlt, _⟩ | ⟨heq, _⟩ <;> omega

theorem cleanup_spec (q : BQ) (h : ChainPre q.nodes) :
    ChainOk q.cleanup.nodes ∧ flat q.cleanup.nodes = flat q.nodes ∧
    q.cleanup.lazyStr = q.lazyStr ∧ q.cleanup.lazyLen = q.lazyLen ∧ q.cleanup.nodeSize = q.nodeSize := by
  obtain ⟨h1, h2⟩ := cleanup_go_spec q.hd q.tl h
  refine ⟨?_, ?_, rfl, rfl, rfl⟩
  · simp only [cleanup, nodes]
    rcases h2 with ⟨hnil, hwf⟩ | ⟨hok, hne⟩
    · rw [hnil]
      split
      · exact ⟨Nat.le_refl _, Nat.zero_le _, hwf.2.2⟩
      · rename_i hs
        simp [Node.currentSize] at hs
        obtain ⟨w1, w2, w3⟩ := hwf
        exact ⟨w1, w2, by omega⟩
    · have hhd : (cleanup.go q.hd q.tl).1.Ok := by
        cases hh : (cleanup.go q.hd q.tl).2 with
        | nil => rw [hh] at hok; exact hok
        | cons a b => rw [hh] at hok; exact hok.1
      have : ((cleanup.go q.hd q.tl).1.currentSize == 0) = false := by
        have hl := Node.data_length _ hhd
        have : (cleanup.go q.hd q.tl).1.data.length ≠ 0 := fun hz => hne (List.eq_nil_of_length_eq_zero hz)
        simp; omega
      rw [this]; exact hok
  · simp only [cleanup, nodes]
    rw [← h1]
    split
    · rename_i hs
      have hz : (cleanup.go q.hd q.tl).1.data = [] := by
        rcases h2 with ⟨_, hwf⟩ | ⟨hok, hne⟩
        · apply List.eq_nil_of_length_eq_zero; rw [hwf.data_length]; simpa using hs
        · exfalso; apply hne
          have hhd : (cleanup.go q.hd q.tl).1.Ok := by
            cases hh : (cleanup.go q.hd q.tl).2 with
            | nil => rw [hh] at hok; exact hok
            | cons a b => rw [hh] at hok; exact hok.1
          apply List.eq_nil_of_length_eq_zero; rw [Node.data_length _ hhd]; simpa using hs
      have hz' : (cleanup.go q.hd q.tl).1.clear.data = [] := by simp [Node.clear, Node.data]
      simp [flat, hz, hz']
    · rfl

theorem transferTo_spec (q : BQ) (k : Nat) (h : q.Inv) :
    (q.transferTo k).1 = q.abs.content.take k ∧ (q.transferTo k).2.Inv ∧
    (q.transferTo k).2.abs = ⟨q.abs.content.drop k, min q.lazyLen (q.abs.content.drop k).length⟩ := by
  have hlz := h.lazy
  obtain ⟨t1, t2, t3, t4⟩ := transferNodes_spec k q.nodes h.chain.pre
  unfold transferTo
  rw [show q.hd :: q.tl = q.nodes from rfl]
  match hh : transferNodes k q.nodes with
  | (out, left, []) => rw [hh] at t4; exact t4.elim
  | (out, left, hd :: tl) =>
    rw [hh] at t1 t2 t3 t4
    simp only at t1 t2 t3 t4
    obtain ⟨c1, c2, c3, c4, c5⟩ := cleanup_spec { q with hd := hd, tl := tl } t4
    simp only [nodes] at c1 c2 c3 c4 c5
    rw [t3] at c2
    have hcontent : q.abs.content = flat q.nodes ++ q.lazyStr.take q.lazyLen := rfl
    simp only [c3, c4]
    split
    · rename_i hlen
      refine ⟨?_, ⟨c1, ?_, ?_⟩, ?_⟩
      · simp only
        rw [t1, hcontent, List.take_append, List.take_take, t2]
      · simp; omega
      · simp only [c5]; exact h.size
      · have hle : (flat q.nodes).length ≤ k := by omega
        have hfl : (flat q.nodes).drop k = [] := List.drop_of_length_le hle
        rw [hcontent, List.drop_append, hfl, ← t2, abs_eq, Abs.mk.injEq]
        simp only [nodes]
        rw [c2, hfl]
        constructor
        · simp only [List.nil_append, List.drop_take]
          by_cases hb : left ≤ q.lazyLen
          · rw [Nat.min_eq_left hb]
          · rw [Nat.min_eq_right (by omega)]
            have e1 : q.lazyLen - q.lazyLen = 0 := by omega
            have e2 : q.lazyLen - left = 0 := by omega
            rw [e1, e2]; simp
        · simp; omega
    · rename_i hlen
      refine ⟨?_, ⟨c1, ?_, ?_⟩, ?_⟩
      · simp only
        rw [t1, hcontent, List.take_append, List.take_take, ← t2]
        have : min left q.lazyLen = 0 := by omega
        rw [this]; simp
      · simp only [c3, c4]; exact hlz
      · simp only [c5]; exact h.size
      · rw [hcontent, List.drop_append, ← t2, abs_eq, Abs.mk.injEq]
        simp only [nodes, c3, c4]
        rw [c2]
        by_cases hz : left = 0
        · subst hz
          exact ⟨by simp [nodes], by simp; omega⟩
        · have : q.lazyLen = 0 := by omega
          simp [this, nodes]


theorem flat_cons (n : Node) (ns : List Node) : flat (n :: ns) = n.data ++ flat ns := by simp [flat]

theorem flat_nil : flat [] = [] := rfl

theorem ChainOk.head_ok {n : Node} {ns : List Node} (h : ChainOk (n :: ns)) : n.Ok := by
  cases ns with
  | nil => exact h
  | cons a b => exact h.1

theorem foldl_size (ns : List Node) (k : Nat) (h : ∀ n ∈ ns, n.Ok) :
    ns.foldl (fun size n => size + n.currentSize) k = k + (flat ns).length := by
  induction ns generalizing k with
  | nil => simp [flat]
  | cons n ns ih =>
    rw [List.foldl_cons, ih _ (fun m hm => h m (List.mem_cons_of_mem _ hm)), flat_cons, List.length_append,
      Node.data_length n (h n List.mem_cons_self)]
    omega

theorem ChainOk.all_ok : ∀ {ns : List Node}, ChainOk ns → ∀ n ∈ ns, n.Ok
  | [n], h => by intro m hm; simp at hm; exact hm ▸ h
  | a :: b :: c, h => by
    intro m hm
    rcases List.mem_cons.1 hm with rfl | hm
    · exact h.1
    · exact ChainOk.all_ok h.2.2 m hm

theorem currentSize_spec (q : BQ) (h : q.Inv) : q.currentSize = q.abs.content.length := by
  rw [abs_length q h]
  unfold currentSize
  rw [show q.hd :: q.tl = q.nodes from rfl, foldl_size _ _ h.chain.all_ok]; simp

theorem isEmpty_spec (q : BQ) (h : q.Inv) : q.isEmpty = q.abs.content.isEmpty := by
  have hlen := abs_length q h
  have hc := h.chain
  rw [Bool.eq_iff_iff]
  simp only [isEmpty, Bool.and_eq_true, List.isEmpty_iff, beq_iff_eq]
  rw [← List.length_eq_zero_iff (l := q.abs.content), hlen]
  simp only [nodes] at hc ⊢
  cases ht : q.tl with
  | nil =>
    rw [ht] at hc
    rw [flat_cons, List.length_append, Node.data_length _ hc, flat_nil]
    simp
  | cons a b =>
    rw [ht] at hc
    obtain ⟨h1, h2, h3⟩ := hc
    rw [flat_cons, List.length_append, Node.data_length _ h1]
    have := h2.2
    simp [Node.currentSize]; omega

theorem head?_nil_iff (n : Node) (h : n.Ok) : n.tail = n.head ↔ n.data = [] := by
  rw [← List.length_eq_zero_iff, Node.data_length n h]
  have := h.1
  simp only [Node.currentSize]; omega

theorem node_peek (n : Node) (h : n.Ok) : n.peek1 = n.data.head? := by
  unfold Node.peek1
  split
  · rename_i he
    have : n.data = [] := (head?_nil_iff n h).1 (by simpa using he)
    rw [this]; rfl
  · rename_i he
    have he : ¬ n.tail = n.head := by simpa using he
    obtain ⟨h1, h2, h3⟩ := h
    rw [List.head?_eq_getElem?, Node.data, List.getElem?_drop, List.getElem?_take]
    have : n.head < n.tail := by omega
    simp [this]

theorem data_empty_chain (q : BQ) (h : q.Inv) (hd : q.hd.data = []) : q.tl = [] := by
  have hc := h.chain
  simp only [nodes] at hc
  cases ht : q.tl with
  | nil => rfl
  | cons a b =>
    rw [ht] at hc
    obtain ⟨h1, h2, h3⟩ := hc
    have := (head?_nil_iff _ h1).2 hd
    have := h2.2
    omega

theorem peek1_spec (q : BQ) (h : q.Inv) : q.peek1 = q.abs.content.head? := by
  have hok := h.chain.head_ok
  have hl := h.lazy
  unfold peek1
  rw [node_peek _ hok, abs_eq]
  simp only [nodes, flat_cons]
  cases hd : q.hd.data with
  | nil =>
    rw [data_empty_chain q h hd, flat_nil]
    simp only [List.head?_nil, List.nil_append]
    split
    · rw [List.head?_take, List.head?_eq_getElem?]; simp; omega
    · have : q.lazyLen = 0 := by omega
      simp [this]
  | cons a b => simp

theorem get1_spec (q : BQ) (h : q.Inv) :
    q.get1.1 = q.abs.content.head? ∧ q.get1.2.Inv ∧
    q.get1.2.abs = ⟨q.abs.content.tail, min q.lazyLen q.abs.content.tail.length⟩ := by
  have hok := h.chain.head_ok
  have hl := h.lazy
  have hlen := abs_length q h
  unfold get1 Node.get1
  rw [node_peek _ hok]
  cases hd : q.hd.data with
  | nil =>
    have htl := data_empty_chain q h hd
    have hcont : q.abs.content = q.lazyStr.take q.lazyLen := by
      rw [abs_eq]; simp [nodes, flat_cons, htl, hd, flat_nil]
    simp only [List.head?_nil]
    split
    · rename_i hpos
      refine ⟨?_, ⟨h.chain, ?_, h.size⟩, ?_⟩
      · rw [hcont, List.head?_take, List.head?_eq_getElem?]; simp; omega
      · simp; omega
      · rw [hcont]
        simp only [abs_eq, nodes, flat_cons, htl, hd, flat_nil, List.nil_append]
        rw [Abs.mk.injEq]
        constructor
        · rw [← List.drop_one, List.drop_take]
        · simp; omega
    · have : q.lazyLen = 0 := by omega
      refine ⟨by rw [hcont, this]; simp, h, ?_⟩
      rw [hcont]
      simp [abs_eq, nodes, flat_cons, htl, hd, flat_nil, this]
  | cons a b =>
    simp only [List.head?_cons]
    obtain ⟨h1, h2, h3⟩ := hok
    have hdl := Node.data_length _ ⟨h1, h2, h3⟩
    rw [hd] at hdl
    simp only [List.length_cons, Node.currentSize] at hdl
    have hdata : ({ q.hd with head := q.hd.head + 1 } : Node).data = b := by
      have : ({ q.hd with head := q.hd.head + 1 } : Node).data = q.hd.data.drop 1 := by
        simp [Node.data, List.drop_drop]
      rw [this, hd]; rfl
    have hcont : q.abs.content = a :: (b ++ flat q.tl ++ q.lazyStr.take q.lazyLen) := by
      rw [abs_eq]; simp [nodes, flat_cons, hd]
    have hflat : flat (({ q.hd with head := q.hd.head + 1 } : Node) :: q.tl) = b ++ flat q.tl := by
      rw [flat_cons, hdata]
    have habs : (⟨b ++ flat q.tl ++ q.lazyStr.take q.lazyLen, q.lazyLen⟩ : Abs)
        = ⟨q.abs.content.tail, min q.lazyLen q.abs.content.tail.length⟩ := by
      rw [hcont]; simp; omega
    refine ⟨by rw [hcont]; rfl, ?_⟩
    have hwf : ({ q.hd with head := q.hd.head + 1 } : Node).Wf := ⟨by simp only; omega, h2, by show 0 < q.hd.buf.length; omega⟩
    split
    · rename_i hu
      have hu : q.hd.head + 1 = q.hd.buf.length := by simpa [Node.usedUp, Node.maxSize] using hu
      have hpre : ChainPre ({ q with hd := { q.hd with head := q.hd.head + 1 } } : BQ).nodes := by
        have hc := h.chain
        simp only [nodes] at hc ⊢
        cases ht : q.tl with
        | nil => exact hwf
        | cons m ms =>
          rw [ht] at hc
          refine ⟨hwf, hc.2.1.1, Or.inr ⟨?_, hc.2.2.pre⟩⟩
          show q.hd.head + 1 = q.hd.tail
          rw [hc.2.1.1]; exact hu
      obtain ⟨c1, c2, c3, c4, c5⟩ := cleanup_spec _ hpre
      refine ⟨⟨c1, by rw [c3, c4]; exact hl, by rw [c5]; exact h.size⟩, ?_⟩
      rw [abs_eq, c2, c3, c4, ← habs]
      simp only [nodes]; rw [hflat]
    · rename_i hu
      have hu : ¬ q.hd.head + 1 = q.hd.buf.length := by simpa [Node.usedUp, Node.maxSize] using hu
      have hok' : ({ q.hd with head := q.hd.head + 1 } : Node).Ok :=
        ⟨by simp only; omega, h2, by show q.hd.head + 1 < q.hd.buf.length; omega⟩
      refine ⟨⟨?_, hl, h.size⟩, ?_⟩
      · have hc := h.chain
        simp only [nodes] at hc ⊢
        cases ht : q.tl with
        | nil => exact hok'
        | cons m ms =>
          rw [ht] at hc
          refine ⟨hok', ⟨hc.2.1.1, ?_⟩, hc.2.2⟩
          have := hc.2.1.1
          show q.hd.head + 1 < q.hd.tail
          omega
      · rw [abs_eq, ← habs]; simp only [nodes]; rw [hflat]

theorem unget_spec (q : BQ) (bs : List Byte) (h : q.Inv) :
    (q.unget bs).Inv ∧ (q.unget bs).abs = ⟨bs ++ q.abs.content, q.lazyLen⟩ := by
  obtain ⟨h1, h2, h3⟩ := h.chain.head_ok
  have hc := h.chain
  -- the old head node after taking back the last `len` bytes
  have key : ∀ (len : Nat), len = min bs.length q.hd.head →
      let n : Node := { q.hd with
        buf := q.hd.buf.take (q.hd.head - len) ++ bs.drop (bs.length - len) ++ q.hd.buf.drop (q.hd.head - len + len),
        head := q.hd.head - len }
      n.Ok ∧ n.data = bs.drop (bs.length - len) ++ q.hd.data ∧ n.buf.length = q.hd.buf.length := by
    intro len hlen n
    have hnl : n.buf.length = q.hd.buf.length := by simp [n]; omega
    refine ⟨⟨?_, ?_, ?_⟩, ?_, hnl⟩
    · show q.hd.head - len ≤ q.hd.tail; omega
    · rw [hnl]; exact h2
    · rw [hnl]; show q.hd.head - len < _; omega
    · have e1 : q.hd.head - len + len = q.hd.head := by omega
      simp only [n, Node.data, e1]
      have hpl : (q.hd.buf.take (q.hd.head - len)).length = q.hd.head - len := by simp; omega
      have hml : (bs.drop (bs.length - len)).length = len := by simp; omega
      rw [List.append_assoc, List.take_append, List.drop_append]
      simp only [hpl, List.length_take]
      have e2 : min (q.hd.tail) (q.hd.head - len) = q.hd.head - len := by omega
      rw [List.drop_of_length_le (by simp; omega), List.nil_append]
      have e3 : q.hd.head - len - min q.hd.tail (q.hd.head - len) = 0 := by omega
      rw [e3, List.drop_zero, List.take_append, hml]
      rw [List.take_of_length_le (by omega)]
      rw [List.drop_take]
      congr 2; omega
  unfold unget
  simp only
  obtain ⟨k1, k2, k3⟩ := key _ rfl
  split
  · rename_i hpos
    have hnew : (Node.new (bs.length - min bs.length q.hd.head)).Ok := Node.new_ok _ (by omega)
    have hb : (bs.take (bs.length - min bs.length q.hd.head)).length = bs.length - min bs.length q.hd.head := by
      simp
    have hfst := Node.put_fst (Node.new (bs.length - min bs.length q.hd.head))
      (bs.take (bs.length - min bs.length q.hd.head))
    refine ⟨⟨?_, h.lazy, h.size⟩, ?_⟩
    · refine ⟨?_, ?_, ?_⟩
      · exact Node.put_ok _ _ hnew
      · unfold Node.put Node.Full Node.maxSize Node.new
        simp only [hb, List.length_replicate]
        rw [if_neg (by omega)]
        simp; omega
      · simp only [nodes] at hc
        cases ht : q.tl with
        | nil => exact k1
        | cons m ms =>
          rw [ht] at hc
          refine ⟨k1, ⟨?_, ?_⟩, hc.2.2⟩
          · rw [k3]; exact hc.2.1.1
          · have := hc.2.1.2
            show q.hd.head - _ < q.hd.tail; omega
    · simp only [abs_eq, nodes]
      rw [flat_cons, flat_cons, flat_cons, k2, Node.put_data _ _ hnew, Node.new_data, hfst, hb]
      simp only [Node.maxSize, Node.new, List.length_replicate, List.nil_append, Nat.sub_zero, Nat.min_self,
        List.take_take]
      simp only [← List.append_assoc, List.take_append_drop]
  · rename_i hpos
    refine ⟨⟨?_, h.lazy, h.size⟩, ?_⟩
    · simp only [nodes] at hc ⊢
      cases ht : q.tl with
      | nil => exact k1
      | cons m ms =>
        rw [ht] at hc
        refine ⟨k1, ⟨?_, ?_⟩, hc.2.2⟩
        · rw [k3]; exact hc.2.1.1
        · have := hc.2.1.2
          show q.hd.head - _ < q.hd.tail; omega
    · have : bs.drop (bs.length - min bs.length q.hd.head) = bs := by
        rw [show bs.length - min bs.length q.hd.head = 0 by omega]; rfl
      simp only [abs_eq, nodes]
      rw [flat_cons, flat_cons, k2, this]
      simp


theorem spy_spec (q : BQ) (h : q.Inv) : q.spy <+: q.abs.content ∧ (q.spy = [] → q.abs.content = []) := by
  have hok := h.chain.head_ok
  have hd : q.hd.bytes (q.hd.tail - q.hd.head) = q.hd.data := by
    rw [Node.bytes_eq _ _ (Nat.le_refl _), List.take_of_length_le]
    rw [Node.data_length _ hok]; exact Nat.le_refl _
  unfold spy
  simp only [hd]
  split
  · rename_i hs
    simp only [Bool.and_eq_true, beq_iff_eq, decide_eq_true_eq] at hs
    have hz : q.hd.data = [] := (head?_nil_iff _ hok).1 (by have := hok.1; omega)
    have htl := data_empty_chain q h hz
    have hcont : q.abs.content = q.lazyStr.take q.lazyLen := by
      rw [abs_eq]; simp [nodes, flat_cons, htl, hz, flat_nil]
    rw [hcont]; exact ⟨List.prefix_refl _, id⟩
  · rename_i hs
    simp only [Bool.and_eq_true, beq_iff_eq, decide_eq_true_eq] at hs
    constructor
    · rw [abs_eq]; simp only [nodes, flat_cons, List.append_assoc]; exact List.prefix_append _ _
    · intro hz
      have htl := data_empty_chain q h hz
      have := (head?_nil_iff _ hok).2 hz
      have hl : q.lazyLen = 0 := by omega
      rw [abs_eq]; simp [nodes, flat_cons, htl, hz, flat_nil, hl]

theorem createPutSpace_spec (q : BQ) (size : Nat) (h : q.Inv) :
    ∃ n q', q.createPutSpace size = .ok (n, q') ∧ 0 < n ∧ n = q'.tailNode.maxSize - q'.tailNode.tail ∧
      q'.Inv ∧ q'.abs = ⟨q.abs.content, 0⟩ := by
  obtain ⟨q1, h1, h2, h3⟩ := flush_spec q h
  have hz : q1.lazyLen = 0 := by rw [← abs_lz, h3]
  obtain ⟨hini, htail⟩ := chain_split q1 h2.chain
  have hcr : q.createPutSpace size = .ok
      ((if q1.tailNode.tail == q1.tailNode.maxSize then q1.appendNode (Node.new (max q1.nodeSize size)) else q1).tailNode.maxSize -
        (if q1.tailNode.tail == q1.tailNode.maxSize then q1.appendNode (Node.new (max q1.nodeSize size)) else q1).tailNode.tail,
        if q1.tailNode.tail == q1.tailNode.maxSize then q1.appendNode (Node.new (max q1.nodeSize size)) else q1) := by
    unfold createPutSpace; split at h1 <;> simp_all [bind, Except.bind]
  refine ⟨_, _, hcr, ?_, rfl, ?_⟩
  · split
    · have : (q1.appendNode (Node.new (max q1.nodeSize size))).tailNode = Node.new (max q1.nodeSize size) := by
        simp only [tailNode, appendNode, ← List.cons_append, List.getLast_concat]
      rw [this]; simp [Node.maxSize, Node.new]; have := h2.size; omega
    · rename_i hne
      have : ¬ q1.tailNode.tail = q1.tailNode.maxSize := by simpa using hne
      have := htail.2.1
      unfold Node.maxSize at *; omega
  · split
    · rename_i he
      have he : q1.tailNode.tail = q1.tailNode.buf.length := by simpa [Node.maxSize] using he
      have hnn := appendNode_nodes q1 (Node.new (max q1.nodeSize size))
      refine ⟨⟨?_, ?_, ?_⟩, ?_⟩
      · rw [hnn, chainOk_append]
        refine ⟨?_, Node.new_ok _ (by have := h2.size; omega)⟩
        intro n hn
        rw [nodes_split q1] at hn
        rcases List.mem_append.1 hn with hn | hn
        · exact hini n hn
        · simp at hn; subst hn; exact ⟨htail, he, by have := htail.2.2; omega⟩
      · exact h2.lazy
      · exact h2.size
      · rw [← h3, abs_eq, abs_eq, hnn, flat_append]
        simp [appendNode, flat, Node.new_data]
    · exact ⟨h2, h3⟩

theorem putViaSpace_spec (q : BQ) (size : Nat) (bs : List Byte) (h : q.Inv) :
    ∃ n q', (step q (.putViaSpace size bs)) = (.nat n, q') ∧ 0 < n ∧ q'.Inv ∧
      q'.abs = ⟨q.abs.content ++ bs.take n, 0⟩ := by
  obtain ⟨n, q1, h1, h2, h3, h4, h5⟩ := createPutSpace_spec q size h
  have hz : q1.lazyLen = 0 := by rw [← abs_lz, h5]
  obtain ⟨hini, htail⟩ := chain_split q1 h4.chain
  have hlen : (bs.take n).length ≤ n := by simp; omega
  have hput : ((q1.tailNode.writeSpace (bs.take n)).putInPlace (bs.take n).length).2 = (q1.tailNode.put (bs.take n)).2 := by
    unfold Node.writeSpace Node.putInPlace Node.put
    have h22 := htail.2.1
    split
    · rename_i h0
      have : bs.take n = [] := List.eq_nil_of_length_eq_zero h0
      simp [this]
    · rename_i h0
      have hm : min (bs.take n).length (q1.tailNode.maxSize - q1.tailNode.tail) = (bs.take n).length := by
        rw [← h3]; omega
      simp only [hm, List.take_length]
      simp only [Node.maxSize, List.length_append, List.length_drop, List.length_take] at *
      congr 1
      omega
  have hfst : (q1.tailNode.put (bs.take n)).1 = (bs.take n).length := by
    rw [Node.put_fst, ← h3]; omega
  refine ⟨n, q1.setTail (q1.tailNode.put (bs.take n)).2, ?_, h2, ⟨?_, ?_, ?_⟩, ?_⟩
  · unfold step
    simp only [h1]
    unfold putViaSpace
    simp only [h1, bind, Except.bind, if_pos hlen, hput]
  · rw [setTail_nodes, chainOk_append]; exact ⟨hini, Node.put_ok _ _ htail⟩
  · simpa using h4.lazy
  · simpa using h4.size
  · have hc : q.abs.content = flat q1.nodes := by rw [← abs_content_of_lazyLen q1 hz, h5]
    rw [hc, abs_eq, setTail_nodes, flat_append, flat_nodes]
    simp [hz, flat, Node.put_data _ _ htail, hfst]
    rw [List.take_take, Nat.min_eq_left (Nat.min_le_left _ _), List.take_eq_take_iff]; simp

theorem index_go_spec (q : BQ) (hl : q.lazyLen ≤ q.lazyStr.length) (ns : List Node) (h : ∀ n ∈ ns, n.Ok) (i : Nat) :
    index.go q ns i = (flat ns ++ q.lazyStr.take q.lazyLen)[i]? := by
  induction ns generalizing i with
  | nil =>
    unfold index.go
    simp only [flat_nil, List.nil_append, List.getElem?_take]
  | cons n ns ih =>
    have hn := h n List.mem_cons_self
    unfold index.go
    rw [flat_cons, List.append_assoc]
    split
    · rename_i hi
      rw [List.getElem?_append_left (by rw [Node.data_length n hn]; exact hi)]
      simp only [Node.at?, Node.data, Node.currentSize, List.getElem?_drop] at *
      rw [List.getElem?_take, if_pos (by omega)]
    · rename_i hi
      rw [List.getElem?_append_right (by rw [Node.data_length n hn]; omega), Node.data_length n hn]
      exact ih (fun m hm => h m (List.mem_cons_of_mem _ hm)) _

theorem index_spec (q : BQ) (h : q.Inv) (i : Nat) : q.index i = q.abs.content[i]? :=
  index_go_spec q h.lazy _ h.chain.all_ok i

theorem copyFrom_spec (q : BQ) (ls : List Byte) (h : q.Inv) :
    ∃ q', q.copyFrom ls = .ok q' ∧ q'.Inv ∧ q'.abs = ⟨q.abs.content, 0⟩ := by
  unfold copyFrom
  obtain ⟨q', h1, h2, h3⟩ := put_spec ⟨q.hd, q.tl, ls, 0, q.nodeSize, q.autoNodeSize⟩ (q.lazyStr.take q.lazyLen)
    ⟨h.chain, Nat.zero_le _, h.size⟩
  refine ⟨q', h1, h2, ?_⟩
  rw [h3]; simp [abs_eq, nodes]

theorem clear_spec (q : BQ) (h : q.Inv) : q.clear.Inv ∧ q.clear.abs = ⟨[], 0⟩ := by
  have hok := h.chain.head_ok
  refine ⟨⟨⟨Nat.le_refl _, Nat.zero_le _, ?_⟩, Nat.zero_le _, h.size⟩, ?_⟩
  · show 0 < q.hd.buf.length; have := hok.2.2; omega
  · simp [abs_eq, clear, nodes, flat, Node.clear, Node.data]

/-! ### Walkers -/

/-- The bytes a walker has not yet visited. -/
def Walker.rest (w : Walker) : List Byte :=
  (flat w.nodes).drop w.offset ++ w.lazyStr.take w.lazyLen

structure Walker.WInv (w : Walker) : Prop where
  ok : ∀ n ∈ w.nodes, n.Ok
  off : ∀ n ns, w.nodes = n :: ns → w.offset ≤ n.currentSize
  off0 : w.nodes = [] → w.offset = 0
  lazy : w.lazyLen ≤ w.lazyStr.length

/-- A target that absorbs some chunks and may block on one: the state after `puts` is described by `acc`: `acc t bs t'`
means that `t'` is `t` after accepting exactly the bytes `bs`. -/
structure Walker.Accepts {τ : Type} (tg : Target τ) (acc : τ → List Byte → τ → Prop) : Prop where
  refl : ∀ t, acc t [] t
  trans : ∀ t a t' b t'', acc t a t' → acc t' b t'' → acc t (a ++ b) t''
  put : ∀ t bs, (tg.put2 t bs).1 = 0 → acc t bs (tg.put2 t bs).2

theorem walker_spec_gen {τ : Type} (tg : Target τ) (acc : τ → List Byte → τ → Prop) (hacc : Walker.Accepts tg acc)
    (w : Walker) (t : τ) (k K : Nat) (hw : w.WInv) (hk : k ≤ K) :
    ∃ c t1, c ≤ k ∧ (w.transferTo2 tg t k K).2.1 = K - k + c ∧ (w.transferTo2 tg t k K).2.2.1.WInv ∧
      (w.transferTo2 tg t k K).2.2.1.rest = w.rest.drop c ∧ acc t (w.rest.take c) t1 ∧
      ((w.transferTo2 tg t k K).1 = 0 → c = min k w.rest.length ∧ (w.transferTo2 tg t k K).2.2.2 = t1) ∧
      ((w.transferTo2 tg t k K).1 ≠ 0 → ∃ chunk, chunk <+: w.rest.drop c ∧ chunk.length ≤ k - c ∧
        tg.put2 t1 chunk = ((w.transferTo2 tg t k K).1, (w.transferTo2 tg t k K).2.2.2)) := by
  induction hn : w.nodes generalizing w t k with
  | nil =>
    obtain ⟨ns, pos, off, ls, ll⟩ := w
    simp only at hn; subst hn
    have h0 := hw.off0 rfl
    simp only at h0; subst h0
    have hl := hw.lazy
    simp only at hl
    have hrest : (Walker.mk [] pos 0 ls ll).rest = ls.take ll := by simp [Walker.rest, flat_nil]
    rw [hrest]
    unfold Walker.transferTo2
    split
    · simp only
      split
      · rename_i hb
        refine ⟨0, t, Nat.zero_le _, rfl, hw, by rw [hrest]; rfl, by simpa using hacc.refl t,
          fun h => absurd h hb, fun _ => ⟨ls.take (min k ll), ?_, by simp; omega, rfl⟩⟩
        rw [List.drop_zero]; exact List.take_prefix_take_left (by omega)
      · rename_i hb
        have hp := hacc.put t (ls.take (min k ll)) (by simpa using hb)
        refine ⟨min k ll, (tg.put2 t (ls.take (min k ll))).2, Nat.min_le_left _ _, ?_, ⟨by simp, by simp, by simp, ?_⟩, ?_, ?_, ?_, ?_⟩
        · simp; omega
        · simp; omega
        · simp only [Walker.rest, flat_nil, List.drop_nil, List.nil_append, List.drop_take]
        · rw [List.take_take, Nat.min_eq_left (Nat.min_le_right _ _)]; exact hp
        · intro _; exact ⟨by simp; omega, rfl⟩
        · intro h; exact absurd rfl h
    · rename_i hne
      have hz : k = 0 ∨ ll = 0 := by omega
      refine ⟨0, t, Nat.zero_le _, rfl, hw, by rw [hrest]; rfl, by simpa using hacc.refl t, fun _ => ⟨?_, rfl⟩,
        fun h => absurd rfl h⟩
      rcases hz with rfl | rfl <;> simp
  | cons n ns ih =>
    obtain ⟨ns', pos, off, ls, ll⟩ := w
    simp only at hn; subst hn
    have hok := hw.ok n List.mem_cons_self
    have hoff := hw.off n ns rfl
    have hl := hw.lazy
    simp only at hoff hl
    have hdl := Node.data_length n hok
    have hrest : (Walker.mk (n :: ns) pos off ls ll).rest = n.data.drop off ++ (flat ns ++ ls.take ll) := by
      simp only [Walker.rest, flat_cons]
      rw [List.drop_append_of_le_length (by rw [hdl]; exact hoff), List.append_assoc]
    have hchunk : (n.buf.drop (n.head + off)).take (min k (n.currentSize - off)) = (n.data.drop off).take k := by
      simp only [Node.data, List.drop_drop, Node.currentSize] at *
      rw [List.drop_take, List.take_take]
      congr 1; omega
    have hdroplen : (n.data.drop off).length = n.currentSize - off := by simp [hdl]
    rw [hrest]
    unfold Walker.transferTo2
    simp only [hchunk]
    split
    · rename_i hb
      refine ⟨0, t, Nat.zero_le _, rfl, hw, by rw [hrest]; rfl, by simpa using hacc.refl t,
          fun h => absurd h hb, fun _ => ⟨(n.data.drop off).take k, ?_, by simp; omega, rfl⟩⟩
      rw [List.drop_zero]
      exact (List.take_prefix _ _).trans (List.prefix_append _ _)
    · rename_i hb
      have hp := hacc.put t ((n.data.drop off).take k) (by simpa using hb)
      split
      · rename_i hle
        have hle2 : k ≤ (n.data.drop off).length := by omega
        refine ⟨k, (tg.put2 t ((n.data.drop off).take k)).2, Nat.le_refl _, ?_, ⟨hw.ok, ?_, ?_, hl⟩, ?_, ?_, ?_, ?_⟩
        · simp only; omega
        · intro n' ns' he; cases he; simp only; omega
        · simp
        · rw [List.drop_append_of_le_length hle2]
          simp only [Walker.rest, flat_cons]
          rw [List.drop_append_of_le_length (by omega), List.drop_drop, List.append_assoc]
          congr 2; omega
        · rw [List.take_append_of_le_length hle2]; exact hp
        · intro _; refine ⟨?_, rfl⟩
          rw [List.length_append]; omega
        · intro h; exact absurd rfl h
      · rename_i hle
        obtain ⟨c, t1, i0, i1, i2, i3, i4, i5, i6⟩ := ih ⟨ns, pos + min k (n.currentSize - off), 0, ls, ll⟩
          (tg.put2 t ((n.data.drop off).take k)).2 (k - min k (n.currentSize - off))
          ⟨fun m hm => hw.ok m (List.mem_cons_of_mem _ hm), fun _ _ _ => Nat.zero_le _, fun _ => rfl, hl⟩
          (by omega) rfl
        have hr2 : (Walker.mk ns (pos + min k (n.currentSize - off)) 0 ls ll).rest = flat ns ++ ls.take ll := by
          simp [Walker.rest]
        rw [hr2] at i3 i4 i5 i6
        have hfull : (n.data.drop off).take k = n.data.drop off := List.take_of_length_le (by omega)
        have hdrop : ∀ (l : List Byte), (n.data.drop off ++ l).drop (min k (n.currentSize - off) + c) = l.drop c := by
          intro l
          clear i5 i6
          rw [List.drop_append, List.drop_of_length_le (l := n.data.drop off) (by omega), List.nil_append]
          congr 1; omega
        refine ⟨min k (n.currentSize - off) + c, t1, by clear i5 i6; omega, ?_, i2, ?_, ?_, ?_, ?_⟩
        · rw [i1]; clear i5 i6; omega
        · rw [i3, hdrop]
        · rw [List.take_append, List.take_of_length_le (l := n.data.drop off) (by clear i5 i6; omega)]
          have hcc : min k (n.currentSize - off) + c - (n.data.drop off).length = c := by clear i5 i6; omega
          rw [hcc]
          rw [hfull] at hp i4
          exact hacc.trans _ _ _ _ _ hp i4
        · intro h; obtain ⟨j1, j2⟩ := i5 h
          refine ⟨?_, j2⟩
          clear i5 i6
          rw [List.length_append]; omega
        · intro h; obtain ⟨chunk, j1, j2, j3⟩ := i6 h
          clear i5 i6; exact ⟨chunk, by rw [hdrop]; exact j1, by omega, j3⟩

theorem walker_spec {τ : Type} (tg : Target τ) (acc : τ → List Byte → τ → Prop) (hacc : Walker.Accepts tg acc)
    (w : Walker) (t : τ) (k K : Nat) (hw : w.WInv) (hk : k ≤ K)
    (h0 : (w.transferTo2 tg t k K).1 = 0) : 
    (w.transferTo2 tg t k K).2.2.1.WInv ∧ (w.transferTo2 tg t k K).2.2.1.rest = w.rest.drop k ∧
      acc t (w.rest.take k) (w.transferTo2 tg t k K).2.2.2 := by
  obtain ⟨c, t1, i0, i1, i2, i3, i4, i5, i6⟩ := walker_spec_gen tg acc hacc w t k K hw hk
  obtain ⟨rfl, j2⟩ := i5 h0
  refine ⟨i2, ?_, ?_⟩
  · rw [i3]
    by_cases h : k ≤ w.rest.length
    · rw [Nat.min_eq_left h]
    · rw [List.drop_of_length_le (by omega), List.drop_of_length_le (by omega)]
  · rw [j2]
    have : w.rest.take k = w.rest.take (min k w.rest.length) := by rw [List.take_eq_take_iff]; omega
    rw [this]; exact i4

theorem recorder_accepts : Walker.Accepts recorder (fun t bs t' => t' = t ++ bs) :=
  ⟨by simp, by intros; simp_all, by intros; rfl⟩

theorem recorder_never_blocks (w : Walker) (t : List Byte) (k K : Nat) :
    (w.transferTo2 recorder t k K).1 = 0 := by
  induction hn : w.nodes generalizing w t k with
  | nil =>
    obtain ⟨ns, pos, off, ls, ll⟩ := w
    simp only at hn; subst hn
    unfold Walker.transferTo2
    split
    · simp [recorder]
    · rfl
  | cons n ns ih =>
    obtain ⟨ns', pos, off, ls, ll⟩ := w
    simp only at hn; subst hn
    unfold Walker.transferTo2
    simp only [recorder, ne_eq, not_true, if_false]
    split
    · rfl
    · exact ih _ _ _ rfl

theorem walker_get (w : Walker) (k : Nat) (hw : w.WInv) :
    (w.get k).1 = w.rest.take k ∧ (w.get k).2.WInv ∧ (w.get k).2.rest = w.rest.drop k := by
  obtain ⟨h2, h3, h4⟩ := walker_spec recorder _ recorder_accepts w [] k k hw (Nat.le_refl _)
    (recorder_never_blocks _ _ _ _)
  exact ⟨h4, h2, h3⟩

theorem walker_inv (q : BQ) (h : q.Inv) : q.walker.WInv ∧ q.walker.rest = q.abs.content :=
  ⟨⟨h.chain.all_ok, fun _ _ _ => Nat.zero_le _, fun _ => rfl, h.lazy⟩, by
    simp [Walker.rest, walker, abs_eq, nodes]⟩

theorem copyRange_spec (q : BQ) (b e : Nat) (h : q.Inv) (hbe : b ≤ e) (he : e < 2 ^ 64) :
    (q.copyRangeTo2 recorder [] b e).2.2 = (q.abs.content.take e).drop b := by
  obtain ⟨w1, w2⟩ := walker_inv q h
  obtain ⟨g1, g2, g3⟩ := walker_get q.walker b w1
  unfold copyRangeTo2
  simp only
  have ht : (e + 2 ^ 64 - b) % 2 ^ 64 = e - b := by omega
  rw [ht]
  obtain ⟨h2, h3, h4⟩ := walker_spec recorder _ recorder_accepts (q.walker.get b).2 [] (e - b) (e - b) g2
    (Nat.le_refl _) (recorder_never_blocks _ _ _ _)
  rw [h4, g3, w2, List.nil_append, List.drop_take]

theorem eqLoop_spec (fuel : Nat) (w1 w2 : Walker) (h1 : w1.WInv) (h2 : w2.WInv)
    (hl : w1.rest.length = w2.rest.length) (hf : w1.rest.length < fuel) :
    eqLoop fuel w1 w2 = decide (w1.rest = w2.rest) := by
  induction fuel generalizing w1 w2 with
  | zero => omega
  | succ fuel ih =>
    obtain ⟨a1, a2, a3⟩ := walker_get w1 1 h1
    obtain ⟨b1, b2, b3⟩ := walker_get w2 1 h2
    unfold eqLoop
    cases hr1 : w1.rest with
    | nil =>
      have hr2 : w2.rest = [] := List.eq_nil_of_length_eq_zero (by rw [← hl, hr1]; rfl)
      match hg : w1.get 1 with
      | ([], w') => simp [hr2]
      | (x :: xs, w') => rw [hg, hr1] at a1; simp at a1
    | cons x xs =>
      cases hr2 : w2.rest with
      | nil => rw [hr1, hr2] at hl; simp at hl
      | cons y ys =>
        match hg : w1.get 1, hg2 : w2.get 1 with
        | ([], w'), _ => rw [hg, hr1] at a1; simp at a1
        | (x' :: xs', w1'), ([], w') => rw [hg2, hr2] at b1; simp at b1
        | (x' :: xs', w1'), (y' :: ys', w2') =>
          rw [hg] at a1 a2 a3; rw [hg2] at b1 b2 b3
          rw [hr1] at a1 a3 hl hf; rw [hr2] at b1 b3 hl
          simp at a1 a3 b1 b3 hl hf a2 b2
          simp only
          obtain ⟨rfl, _⟩ := a1
          obtain ⟨rfl, _⟩ := b1
          split
          · rename_i hne; simp [hne]
          · rename_i hne
            rw [ih w1' w2' a2 b2 (by rw [a3, b3]; exact hl) (by rw [a3]; omega), a3, b3]
            have : x' = y' := by simpa using hne
            simp [this]

theorem eq_spec (q r : BQ) (hq : q.Inv) (hr : r.Inv) : q.eq r = decide (q.abs.content = r.abs.content) := by
  unfold eq
  rw [currentSize_spec q hq, currentSize_spec r hr]
  obtain ⟨w1, w2⟩ := walker_inv q hq
  obtain ⟨v1, v2⟩ := walker_inv r hr
  split
  · rename_i hne
    have : q.abs.content ≠ r.abs.content := fun h => hne (by rw [h])
    simp [this]
  · rename_i he
    rw [eqLoop_spec _ _ _ w1 v1 (by rw [w2, v2]; simpa using he) (by rw [w2]; omega), w2, v2]

/-! ### One call -/

theorem init_spec (n : Nat) : (init n).Inv ∧ (init n).abs = ⟨[], 0⟩ := by
  have hpos : 0 < (if (n == 0) = true then 256 else n) := by
    split
    · omega
    · rename_i h; have : ¬ n = 0 := by simpa using h
      omega
  exact ⟨⟨Node.new_ok _ hpos, Nat.zero_le _, hpos⟩, by simp [abs_eq, init, nodes, flat, Node.new_data]⟩

theorem ofExcept_ok {q q' : BQ} {r : Except Err BQ} (h : r = .ok q') : ofExcept q r = (.unit, q') := by
  subst h; rfl

theorem step_spec (q : BQ) (op : Op) (h : q.Inv) (hv : op.Valid q.abs) :
    (step q op).2.Inv ∧ Allowed q.abs op (step q op).1 (step q op).2.abs := by
  cases op with
  | put bs =>
    obtain ⟨q', h1, h2, h3⟩ := put_spec q bs h
    simp only [step, ofExcept_ok h1]; exact ⟨h2, rfl, h3⟩
  | lazyPut bs =>
    obtain ⟨q', h1, h2, h3⟩ := lazyPut_spec q bs h
    simp only [step, ofExcept_ok h1]; exact ⟨h2, rfl, h3⟩
  | lazyPutModifiable bs =>
    obtain ⟨q', h1, h2, h3⟩ := lazyPutModifiable_spec q bs h
    simp only [step, ofExcept_ok h1]; exact ⟨h2, rfl, h3⟩
  | undoLazyPut n =>
    simp only [step, undoLazyPut, Allowed, abs_lz]
    by_cases hn : q.lazyLen < n
    · simp only [if_pos hn, ofExcept]; exact ⟨h, trivial, trivial⟩
    · simp only [if_neg hn, ofExcept]
      obtain ⟨u1, u2⟩ := undo_spec q n h hn
      exact ⟨u1, trivial, u2⟩
  | finalizeLazyPut =>
    obtain ⟨q', h1, h2, h3⟩ := finalize_spec q h
    simp only [step, ofExcept_ok h1]; exact ⟨h2, rfl, h3⟩
  | putViaSpace size bs =>
    obtain ⟨n, q', h1, h2, h3, h4⟩ := putViaSpace_spec q size bs h
    rw [h1]; exact ⟨h3, n, h2, rfl, h4⟩
  | get =>
    obtain ⟨h1, h2, h3⟩ := get1_spec q h
    exact ⟨h2, by simp only [step]; rw [h1], h3⟩
  | getN n =>
    obtain ⟨h1, h2, h3⟩ := transferTo_spec q n h
    exact ⟨h2, by simp only [step, getN]; rw [h1], h3⟩
  | transferTo n =>
    obtain ⟨h1, h2, h3⟩ := transferTo_spec q n h
    exact ⟨h2, by simp only [step]; rw [h1], h3⟩
  | skip n =>
    obtain ⟨h1, h2, h3⟩ := transferTo_spec q n h
    exact ⟨h2, by simp only [step, skip]; rw [h1]; simp, h3⟩
  | peek => exact ⟨h, by simp only [step]; rw [peek1_spec q h], rfl⟩
  | peekN n =>
    exact ⟨h, by simp only [step]; rw [copyRange_spec q 0 n h (Nat.zero_le _) hv]; simp, rfl⟩
  | unget bs =>
    obtain ⟨h1, h2⟩ := unget_spec q bs h
    exact ⟨h1, rfl, h2⟩
  | clear =>
    obtain ⟨h1, h2⟩ := clear_spec q h
    exact ⟨h1, rfl, h2⟩
  | setNodeSize n =>
    refine ⟨⟨h.chain, h.lazy, ?_⟩, rfl, rfl⟩
    simp only [step, setNodeSize]
    split
    · omega
    · rename_i h; have : ¬ n = 0 := by simpa using h
      omega
  | isolatedInitialize n =>
    obtain ⟨h1, h2⟩ := clear_spec { q with nodeSize := n } ⟨h.chain, h.lazy, hv⟩
    exact ⟨h1, rfl, h2⟩
  | isEmpty => exact ⟨h, by simp only [step]; rw [isEmpty_spec q h], rfl⟩
  | currentSize => exact ⟨h, by simp only [step]; rw [currentSize_spec q h], rfl⟩
  | index i => exact ⟨h, by simp only [step]; rw [index_spec q h], rfl⟩
  | spy =>
    obtain ⟨h1, h2⟩ := spy_spec q h
    exact ⟨h, _, rfl, h1, h2, rfl⟩
  | copyRange b e =>
    exact ⟨h, by simp only [step]; rw [copyRange_spec q b e h hv.1 hv.2], rfl⟩

theorem run_spec (q : BQ) (ops : List Op) (h : q.Inv) : Explained q.abs ops (run q ops).1 := by
  induction ops generalizing q with
  | nil => trivial
  | cons op ops ih =>
    intro hv
    obtain ⟨h1, h2⟩ := step_spec q op h hv
    exact ⟨_, h2, ih _ h1⟩

end BQ
end Verif.Queue
