import Verif.Ida.Model
import Verif.MQueue.Proofs
import Mathlib.Data.List.Forall2
import Mathlib.Data.List.Nodup

/-! # The column-by-column processing of `RawIDA` -/
namespace Verif.Ida
open Verif.MQueue Verif.Gf

/-- What one input channel has received: its bytes and whether its message was ended. -/
structure Chan where
  id : W32
  data : List Byte
  ended : Bool

/-- The `k`-th big-endian word of some data, zeros for missing bytes. -/
def wordAt (data : List Byte) (k : Nat) : W32 :=
  word ((data.drop (4 * k)).take 4 ++ List.replicate (4 - ((data.drop (4 * k)).take 4).length) 0)

def absOf (c : Nat) (ch : Chan) : Abs := if ch.ended then ⟨[ch.data.drop (4 * c)], []⟩ else ⟨[], ch.data.drop (4 * c)⟩

/-- The queue holds what is left of the channel's data after `c` words. -/
def QRep (c : Nat) (q : MQ) (ch : Chan) : Prop := Rep q (absOf c ch)

theorem absOf_front (c : Nat) (ch : Chan) : (absOf c ch).front = ch.data.drop (4 * c) := by
  unfold absOf; cases ch.ended <;> rfl

theorem absOf_done (c : Nat) (ch : Chan) : (absOf c ch).done.length = if ch.ended then 1 else 0 := by
  unfold absOf; cases ch.ended <;> rfl

theorem absOf_setFront (c c' : Nat) (ch : Chan) : (absOf c ch).setFront (ch.data.drop (4 * c')) = absOf c' ch := by
  unfold absOf; cases ch.ended <;> rfl

theorem qrep_max {c : Nat} {q : MQ} {ch : Chan} (h : QRep c q ch) : q.maxRetrievable = ch.data.length - 4 * c := by
  rw [rep_max h, absOf_front, List.length_drop]

theorem qrep_any {c : Nat} {q : MQ} {ch : Chan} (h : QRep c q ch) : q.anyRetrievable = decide (4 * c < ch.data.length) := by
  unfold MQ.anyRetrievable
  rw [qrep_max h, decide_eq_decide]
  omega

theorem qrep_number {c : Nat} {q : MQ} {ch : Chan} (h : QRep c q ch) : q.numberOfMessages = if ch.ended then 1 else 0 := by
  rw [rep_number h (by rw [absOf_done]; split <;> decide), absOf_done]

theorem qrep_content {c : Nat} {q : MQ} {ch : Chan} (h : QRep c q ch) : q.content.length = ch.data.length - 4 * c := by
  rw [h.content]; unfold absOf; cases ch.ended <;> simp

theorem getWord32_spec {c : Nat} {q : MQ} {ch : Chan} (h : QRep c q ch) :
    (getWord32 q).1 = wordAt ch.data c ∧ QRep (c + 1) (getWord32 q).2 ch := by
  unfold getWord32
  simp only [rep_copyRange h, absOf_front, List.drop_zero]
  refine ⟨rfl, ?_⟩
  have := (rep_transfer h ((ch.data.drop (4 * c)).take 4).length).2
  rw [absOf_front] at this
  have e : (ch.data.drop (4 * c)).drop ((ch.data.drop (4 * c)).take 4).length = ch.data.drop (4 * (c + 1)) := by
    rw [List.drop_drop, List.length_take, List.length_drop]
    by_cases hl : 4 * (c + 1) ≤ ch.data.length
    · congr 1; omega
    · rw [List.drop_of_length_le (by omega), List.drop_of_length_le (by omega)]
  rw [e, absOf_setFront] at this
  exact this

/-- Whether the channel is counted by `m_channelsReady` in the main loop. -/
def avail (fin : Bool) (c : Nat) (ch : Chan) : Bool :=
  if fin then decide (4 * c < ch.data.length) else ch.ended || decide (4 * (c + 1) ≤ ch.data.length)

theorem readRound_spec (fin : Bool) {c : Nat} {qs : List MQ} {chans : List Chan} (h : List.Forall₂ (QRep c) qs chans) :
    (readRound fin qs).1 = chans.map (fun ch => wordAt ch.data c) ∧ (readRound fin qs).2.1 = chans.countP (avail fin (c + 1)) ∧
      List.Forall₂ (QRep (c + 1)) (readRound fin qs).2.2 chans := by
  induction h with
  | nil => exact ⟨rfl, rfl, List.Forall₂.nil⟩
  | @cons q ch qs chans hq _ ih =>
    obtain ⟨h1, h2⟩ := getWord32_spec hq
    obtain ⟨i1, i2, i3⟩ := ih
    refine ⟨by simp only [readRound, List.map_cons, h1, i1], ?_, List.Forall₂.cons h2 i3⟩
    simp only [readRound, i2, List.countP_cons, Nat.add_comm]
    congr 1
    have : (if fin = true then (getWord32 q).2.anyRetrievable else decide (0 < (getWord32 q).2.numberOfMessages) || decide (4 ≤ (getWord32 q).2.maxRetrievable)) = avail fin (c + 1) ch := by
      unfold avail
      cases fin
      · simp only [Bool.false_eq_true, if_false, qrep_number h2, qrep_max h2]
        congr 1
        · cases ch.ended <;> rfl
        · rw [decide_eq_decide]; omega
      · simp only [if_true, qrep_any h2]
    rw [this]

/-- The word an output channel gets. -/
def interpVal (R : RingOps W32) (ids w y : List W32) (o : W32) : W32 :=
  if o ∈ ids then y.getD (ids.idxOf o) 0 else interpolateAt R y (prepareAt R o ids w) R.zero

/-- The interpolation has been prepared. -/
structure Prep (R : RingOps W32) (cfg : Cfg) (s : Ida) : Prop where
  w : prepare R s.inIds = .ok s.w
  outToIn : ∀ i, i < s.outIds.length → s.outToIn.getD i 0 = s.lookup cfg (s.outIds.getD i 0)
  v : ∀ i, i < s.outIds.length → s.v.getD i [] = [] ∨ s.v.getD i [] = prepareAt R (s.outIds.getD i 0) s.inIds s.w

theorem outWord_spec {R : RingOps W32} {cfg : Cfg} {s : Ida} (ht : 0 < cfg.threshold) (hp : Prep R cfg s) (hl : s.inIds.length = cfg.threshold)
    (y : List W32) (i : Nat) (hi : i < s.outIds.length) : s.outWord R cfg y i = interpVal R s.inIds s.w y (s.outIds.getD i 0) := by
  unfold Ida.outWord interpVal
  rw [hp.outToIn i hi]
  unfold Ida.lookup
  by_cases hm : s.outIds.getD i 0 ∈ s.inIds
  · have := List.idxOf_lt_length_of_mem hm
    rw [if_pos hm, if_pos hm, if_pos (by omega)]
  · rw [if_neg hm, if_neg hm, if_neg (by simp)]
    rcases hp.v i hi with h | h
    · rw [h, if_neg (by simp; omega)]
    · rw [h]; split <;> rfl

theorem map_range_getD {α β : Type} (l : List α) (d : α) (f : α → β) : (List.range l.length).map (fun i => f (l.getD i d)) = l.map f := by
  apply List.ext_getElem?
  intro i
  simp only [List.getElem?_map]
  by_cases hi : i < l.length
  · rw [List.getElem?_range hi, List.getElem?_eq_getElem hi]
    simp [List.getD, List.getElem?_eq_getElem hi]
  · rw [List.getElem?_eq_none (by simp; omega), List.getElem?_eq_none (by omega)]; rfl

/-- Column `k` of the outputs. -/
def colOut (R : RingOps W32) (ids w outIds : List W32) (chans : List Chan) (k : Nat) : List W32 :=
  outIds.map (interpVal R ids w (chans.map fun ch => wordAt ch.data k))

theorem col_eq {R : RingOps W32} {cfg : Cfg} {s : Ida} (ht : 0 < cfg.threshold) (hp : Prep R cfg s) (hl : s.inIds.length = cfg.threshold)
    (y : List W32) : (List.range s.outIds.length).map (s.outWord R cfg y) = s.outIds.map (interpVal R s.inIds s.w y) := by
  rw [← map_range_getD s.outIds 0]
  apply List.map_congr_left
  intro i hi
  exact outWord_spec ht hp hl y i (List.mem_range.mp hi)

/-- Bytes not yet used. -/
def restTotal (c : Nat) (chans : List Chan) : Nat := (chans.map fun ch => ch.data.length - 4 * c).sum

theorem restTotal_succ_le (c : Nat) (chans : List Chan) : restTotal (c + 1) chans ≤ restTotal c chans := by
  unfold restTotal
  induction chans with
  | nil => simp
  | cons ch l ih => simp only [List.map_cons, List.sum_cons]; omega

theorem restTotal_succ_lt {c : Nat} {chans : List Chan} (h : ∃ ch ∈ chans, 4 * c < ch.data.length) : restTotal (c + 1) chans < restTotal c chans := by
  obtain ⟨ch, hm, hl⟩ := h
  induction chans with
  | nil => cases hm
  | cons x l ih =>
    have hle := restTotal_succ_le c l
    unfold restTotal at *
    simp only [List.map_cons, List.sum_cons]
    rcases List.mem_cons.mp hm with rfl | hm
    · omega
    · have := ih hm; omega

theorem countP_eq_length_iff {α : Type} (p : α → Bool) (l : List α) : l.countP p = l.length ↔ ∀ a ∈ l, p a = true := List.countP_eq_length

/-- The columns from `c` to `c'`. -/
def cols (R : RingOps W32) (ids w outIds : List W32) (chans : List Chan) (c c' : Nat) : List (List W32) :=
  (List.range' c (c' - c)).map (colOut R ids w outIds chans)

theorem loop_spec {R : RingOps W32} {cfg : Cfg} (ht : 0 < cfg.threshold) (fin : Bool) {chans : List Chan} (hcl : chans.length = cfg.threshold)
    (hfin : fin = true → ∀ ch ∈ chans, ch.ended = true) (hnf : fin = false → ∃ ch ∈ chans, ch.ended = false) (fuel : Nat) :
    ∀ {s : Ida} {c : Nat}, Prep R cfg s → s.inIds.length = cfg.threshold → List.Forall₂ (QRep c) s.inQ chans →
      s.ready = chans.countP (avail fin c) → restTotal c chans < fuel →
      ∃ c' inQ', c ≤ c' ∧ s.loop R cfg fin fuel = .ok { s with inQ := inQ', ready := chans.countP (avail fin c'), sink := (cols R s.inIds s.w s.outIds chans c c').foldl Sink.column s.sink } ∧
        List.Forall₂ (QRep c') inQ' chans ∧
        (if fin then chans.countP (avail fin c') = 0 else chans.countP (avail fin c') < cfg.threshold) ∧
        (c < c' → (∀ ch ∈ chans, ch.ended = true ∨ 4 * c' ≤ ch.data.length) ∧ ∃ ch ∈ chans, 4 * (c' - 1) < ch.data.length) := by
  induction fuel with
  | zero => intro s c _ _ _ _ h; omega
  | succ f ih =>
    intro s c hp hl hq hr hrest
    rw [Ida.loop]
    by_cases hc : (if fin = true then 0 < s.ready else s.ready = cfg.threshold)
    · rw [if_pos hc]
      have hall : ∀ ch ∈ chans, ch.ended = true ∨ 4 * (c + 1) ≤ ch.data.length := by
        cases fin
        · simp only [Bool.false_eq_true, if_false] at hc
          rw [hr, ← hcl, countP_eq_length_iff] at hc
          intro ch hm
          have := hc ch hm
          simpa [avail] using this
        · exact fun ch hm => Or.inl (hfin rfl ch hm)
      have hex : ∃ ch ∈ chans, 4 * c < ch.data.length := by
        cases fin
        · obtain ⟨ch, hm, he⟩ := hnf rfl
          rcases hall ch hm with h | h
          · rw [he] at h; cases h
          · exact ⟨ch, hm, by omega⟩
        · simp only [if_true] at hc
          rw [hr, List.countP_pos_iff] at hc
          obtain ⟨ch, hm, h⟩ := hc
          exact ⟨ch, hm, by simpa [avail] using h⟩
      obtain ⟨r1, r2, r3⟩ := readRound_spec fin hq
      simp only
      rw [col_eq ht hp hl, r1]
      obtain ⟨c', inQ', h1, h2, h3, h4, h5⟩ := ih (s := { s with inQ := (readRound fin s.inQ).2.2, ready := (readRound fin s.inQ).2.1, sink := s.sink.column (s.outIds.map (interpVal R s.inIds s.w (chans.map fun ch => wordAt ch.data c))) }) (c := c + 1)
        ⟨hp.w, hp.outToIn, hp.v⟩ hl r3 r2 (by have := restTotal_succ_lt hex; omega)
      refine ⟨c', inQ', by omega, ?_, h3, h4, fun _ => ?_⟩
      · rw [h2]
        have e : c' - c = (c' - (c + 1)) + 1 := by omega
        have : cols R s.inIds s.w s.outIds chans c c' = colOut R s.inIds s.w s.outIds chans c :: cols R s.inIds s.w s.outIds chans (c + 1) c' := by
          unfold cols; rw [e, List.range'_succ, List.map_cons]
        rw [this, List.foldl_cons]
        rfl
      · rcases Nat.lt_or_ge (c + 1) c' with h | h
        · exact h5 h
        · have : c' = c + 1 := by omega
          subst this
          exact ⟨hall, by simpa using hex⟩
    · rw [if_neg hc]
      refine ⟨c, s.inQ, Nat.le_refl _, ?_, hq, ?_, fun h => absurd h (Nat.lt_irrefl _)⟩
      · simp [cols, ← hr]
      · rw [hr] at hc
        cases fin
        · simp only [Bool.false_eq_true, if_false] at hc ⊢
          have := List.countP_le_length (p := avail false c) (l := chans)
          omega
        · simp only [if_true] at hc ⊢; omega

theorem content_sum {c : Nat} {qs : List MQ} {chans : List Chan} (h : List.Forall₂ (QRep c) qs chans) :
    (qs.map fun q => q.content.length).sum = restTotal c chans := by
  unfold restTotal
  induction h with
  | nil => rfl
  | cons hq _ ih => simp only [List.map_cons, List.sum_cons, ih, qrep_content hq]

/-- The flush at the end of `ProcessInputQueues`. -/
def flushIf (cfg : Cfg) (outIds : List W32) (k : Sink) : Sink :=
  if 0 < outIds.length ∧ k.outQ.headD [] ≠ [] then k.flush cfg outIds else k

/-- The sink after some columns have been put in its queues with flushes in between. -/
inductive Fed (cfg : Cfg) (outIds : List W32) (k0 : Sink) : List (List W32) → Sink → Prop where
  | init : Fed cfg outIds k0 [] k0
  | step {cs : List (List W32)} {k : Sink} (new : List (List W32)) : Fed cfg outIds k0 cs k →
      Fed cfg outIds k0 (cs ++ new) (flushIf cfg outIds (new.foldl Sink.column k))

theorem cols_append {R : RingOps W32} {ids w outIds : List W32} {chans : List Chan} {c c' : Nat} (h : c ≤ c') :
    cols R ids w outIds chans 0 c ++ cols R ids w outIds chans c c' = cols R ids w outIds chans 0 c' := by
  unfold cols
  rw [← List.map_append, Nat.sub_zero, Nat.sub_zero]
  have := List.range'_append_1 (s := 0) (m := c) (n := c' - c)
  rw [Nat.zero_add] at this
  rw [this]
  congr 2; omega

/-- The state between calls: the channels seen with their data, and `c` columns processed. -/
structure Inv (R : RingOps W32) (cfg : Cfg) (outIds : List W32) (k0 : Sink) (s : Ida) (chans : List Chan) (c : Nat) : Prop where
  outs : s.outIds = outIds
  ids : s.inIds = chans.map Chan.id
  nodup : s.inIds.Nodup
  le : chans.length ≤ cfg.threshold
  inQ : List.Forall₂ (QRep c) s.inQ chans
  full : 0 < c → chans.length = cfg.threshold ∧ (∀ ch ∈ chans, ch.ended = true ∨ 4 * c ≤ ch.data.length) ∧ ∃ ch ∈ chans, 4 * (c - 1) < ch.data.length
  prep : chans.length = cfg.threshold → Prep R cfg s
  readyLo : chans.countP (fun ch => decide (4 * (c + 1) ≤ ch.data.length)) ≤ s.ready
  readyHi : s.ready ≤ chans.countP (avail false c)
  readyLt : s.ready < cfg.threshold
  finished : s.finished = chans.countP Chan.ended
  finishedLt : s.finished < cfg.threshold
  vnil : chans.length < cfg.threshold → s.v = []
  fed : Fed cfg outIds k0 (cols R s.inIds s.w outIds chans 0 c) s.sink

/-- `process` while some channel is not finished. -/
theorem process_mid {R : RingOps W32} {cfg : Cfg} (ht : 0 < cfg.threshold) {outIds : List W32} {k0 : Sink} {chans : List Chan} {s : Ida} {c : Nat}
    (ho : s.outIds = outIds) (hids : s.inIds = chans.map Chan.id) (hnd : s.inIds.Nodup) (hcl : chans.length = cfg.threshold)
    (hq : List.Forall₂ (QRep c) s.inQ chans) (hp : Prep R cfg s) (hr : s.ready = cfg.threshold) (hhi : s.ready ≤ chans.countP (avail false c))
    (hf : s.finished = chans.countP Chan.ended) (hlt : s.finished < cfg.threshold)
    (hfull : 0 < c → chans.length = cfg.threshold ∧ (∀ ch ∈ chans, ch.ended = true ∨ 4 * c ≤ ch.data.length) ∧ ∃ ch ∈ chans, 4 * (c - 1) < ch.data.length)
    (hfed : Fed cfg outIds k0 (cols R s.inIds s.w outIds chans 0 c) s.sink) :
    ∃ s' c', s.process R cfg = .ok s' ∧ Inv R cfg outIds k0 s' chans c' := by
  have hle := List.countP_le_length (p := avail false c) (l := chans)
  have hnf : ∃ ch ∈ chans, ch.ended = false := by
    by_contra hc
    have : chans.countP Chan.ended = chans.length := by
      rw [countP_eq_length_iff]
      intro ch hm
      by_contra he
      exact hc ⟨ch, hm, by simpa using he⟩
    omega
  have hil : s.inIds.length = cfg.threshold := by rw [hids, List.length_map, hcl]
  obtain ⟨c', inQ', h1, h2, h3, h4, h5⟩ := loop_spec ht false hcl (fun h => by cases h) (fun _ => hnf) ((s.inQ.map fun q => q.content.length).sum + 1)
    hp hil hq (by omega) (by rw [content_sum hq]; omega)
  simp only [Bool.false_eq_true, if_false] at h4
  unfold Ida.process
  have hff : (s.finished == cfg.threshold) = false := by simp; omega
  simp only [hff, h2, Bool.false_eq_true, if_false]
  have hfed' := Fed.step (cols R s.inIds s.w outIds chans c c') hfed
  rw [cols_append h1] at hfed'
  have lo : chans.countP (fun ch => decide (4 * (c' + 1) ≤ ch.data.length)) ≤ chans.countP (avail false c') := by
    apply List.countP_mono_left
    intro ch _ h
    simp only [avail, Bool.false_eq_true, if_false, Bool.or_eq_true]
    exact Or.inr h
  have hfull' : 0 < c' → chans.length = cfg.threshold ∧ (∀ ch ∈ chans, ch.ended = true ∨ 4 * c' ≤ ch.data.length) ∧ ∃ ch ∈ chans, 4 * (c' - 1) < ch.data.length := by
    intro hc'
    rcases Nat.lt_or_ge c c' with h | h
    · exact ⟨hcl, h5 h⟩
    · have : c' = c := by omega
      rw [this] at hc' ⊢
      exact hfull hc'
  subst ho
  refine ⟨_, c', rfl, ?_⟩
  unfold flushIf at hfed'
  split
  · rename_i hc
    rw [if_pos hc] at hfed'
    exact ⟨rfl, hids, hnd, Nat.le_of_eq hcl, h3, hfull', fun _ => ⟨hp.w, hp.outToIn, hp.v⟩, lo, Nat.le_refl _, h4, hf, hlt, fun h => by omega, hfed'⟩
  · rename_i hc
    rw [if_neg hc] at hfed'
    exact ⟨rfl, hids, hnd, Nat.le_of_eq hcl, h3, hfull', fun _ => ⟨hp.w, hp.outToIn, hp.v⟩, lo, Nat.le_refl _, h4, hf, hlt, fun h => by omega, hfed'⟩

theorem resize_getD {α : Type} (l : List α) (n : Nat) (d e : α) (i : Nat) (hi : i < n) (hl : i < l.length) : (resize l n d).getD i e = l.getD i e := by
  unfold resize
  simp only [List.getD_eq_getElem?_getD]
  rw [List.getElem?_append_left (by rw [List.length_take]; omega), List.getElem?_take_of_lt hi]

theorem resize_length {α : Type} (l : List α) (n : Nat) (d : α) : (resize l n d).length = n := by
  simp [resize]; omega

theorem getD_set {α : Type} (l : List α) (i j : Nat) (a d : α) (hj : j < l.length) : (l.set i a).getD j d = if i = j then a else l.getD j d := by
  simp only [List.getD_eq_getElem?_getD, List.getElem?_set]
  split
  · rename_i h; subst h; rw [if_pos hj]; rfl
  · rfl

theorem computeAll_spec (R : RingOps W32) (cfg : Cfg) (s : Ida) (hv : s.v = []) (n : Nat) (hn : n ≤ s.outIds.length) :
    ∃ v o, s.computeAll R cfg n = { s with v := v, outToIn := o } ∧ v.length = n ∧ n ≤ o.length + (if n = 0 then 0 else 0) ∧
      (∀ i, i < n → o.getD i 0 = s.lookup cfg (s.outIds.getD i 0)) ∧
      (∀ i, i < n → v.getD i [] = [] ∨ v.getD i [] = prepareAt R (s.outIds.getD i 0) s.inIds s.w) := by
  induction n with
  | zero => exact ⟨s.v, s.outToIn, rfl, by rw [hv]; rfl, Nat.zero_le _, fun i h => absurd h (Nat.not_lt_zero _), fun i h => absurd h (Nat.not_lt_zero _)⟩
  | succ n ih =>
    obtain ⟨v, o, e, l1, l2, h1, h2⟩ := ih (by omega)
    have l2' : n ≤ o.length := by simpa using l2
    rw [Ida.computeAll, e]
    unfold Ida.computeV
    simp only [l1, Nat.le_refl, if_true]
    have hlook : ∀ (x : List (List W32)) (y : List Nat) (id : W32), Ida.lookup cfg { s with v := x, outToIn := y } id = s.lookup cfg id := fun _ _ _ => rfl
    simp only [hlook]
    have hol : (resize o (n + 1) 0).length = n + 1 := resize_length _ _ _
    have hvl : (resize v (n + 1) []).length = n + 1 := resize_length _ _ _
    have ho : ∀ i, i < n + 1 → ((resize o (n + 1) 0).set n (s.lookup cfg (s.outIds.getD n 0))).getD i 0 = s.lookup cfg (s.outIds.getD i 0) := by
      intro i hi
      rw [getD_set _ _ _ _ _ (by omega)]
      split
      · rename_i h; rw [h]
      · rw [resize_getD _ _ _ _ _ hi (by omega)]; exact h1 i (by omega)
    have hvn : (resize v (n + 1) []).getD n [] = [] := by
      unfold resize
      simp only [List.getD_eq_getElem?_getD]
      rw [List.getElem?_append_right (by rw [List.length_take]; omega)]
      simp [l1]
    have hv' : ∀ i, i < n → (resize v (n + 1) []).getD i [] = v.getD i [] := fun i hi => resize_getD _ _ _ _ _ (by omega) (by omega)
    split
    · refine ⟨_, _, rfl, by simp [hvl], by simp [hol], ho, ?_⟩
      intro i hi
      rw [getD_set _ _ _ _ _ (by omega)]
      split
      · rename_i h; subst h; exact Or.inr rfl
      · rw [hv' i (by omega)]; exact h2 i (by omega)
    · refine ⟨_, _, rfl, by simp [hvl], by simp [hol], ho, ?_⟩
      intro i hi
      rcases Nat.lt_or_ge i n with h | h
      · rw [hv' i h]; exact h2 i h
      · have : i = n := by omega
        subst this; exact Or.inl hvn

theorem qrep_init (c : Nat) (id : W32) : QRep c MQ.init ⟨id, [], false⟩ := by
  unfold QRep absOf
  simpa using rep_init

theorem cols_zero (R : RingOps W32) (ids w outIds : List W32) (chans : List Chan) : cols R ids w outIds chans 0 0 = [] := rfl

/-- `InsertInputChannel`: afterwards the channel is in the list, at the returned position. -/
theorem insert_spec {R : RingOps W32} {cfg : Cfg} (hR : ∀ x, ∃ w, prepare R x = .ok w) {outIds : List W32} {k0 : Sink} {s : Ida} {chans : List Chan} {c : Nat}
    (h : Inv R cfg outIds k0 s chans c) (id : W32) (hid : id ∈ chans.map Chan.id ∨ chans.length < cfg.threshold) :
    ∃ s' A ch B, s.insert R cfg id = .ok (A.length, s') ∧ Inv R cfg outIds k0 s' (A ++ ch :: B) c ∧ ch.id = id ∧
      ((id ∈ chans.map Chan.id ∧ A ++ ch :: B = chans) ∨ (id ∉ chans.map Chan.id ∧ A = chans ∧ ch = ⟨id, [], false⟩ ∧ B = [])) := by
  unfold Ida.insert
  by_cases hm : id ∈ s.inIds
  · rw [if_pos hm]
    have hm' := hm
    rw [h.ids] at hm'
    have hlt := List.idxOf_lt_length_of_mem hm'
    have hlt' : (chans.map Chan.id).idxOf id < chans.length := by simpa using hlt
    have e1 : chans = chans.take ((chans.map Chan.id).idxOf id) ++ chans[(chans.map Chan.id).idxOf id] :: chans.drop ((chans.map Chan.id).idxOf id + 1) := by
      conv => lhs; rw [← List.take_append_drop ((chans.map Chan.id).idxOf id) chans]
      rw [List.drop_eq_getElem_cons hlt']
    refine ⟨s, _, _, _, ?_, by rw [← e1]; exact h, ?_, Or.inl ⟨hm', e1.symm⟩⟩
    · rw [h.ids, List.length_take]; congr 2; omega
    · have := List.getElem_idxOf hlt
      rwa [List.getElem_map] at this
  · have hm' := hm
    rw [h.ids] at hm'
    have hlt : chans.length < cfg.threshold := by rcases hid with h' | h'; exact absurd h' hm'; exact h'
    have hil : s.inIds.length = chans.length := by rw [h.ids, List.length_map]
    rw [if_neg hm, if_neg (by omega)]
    have hc0 : c = 0 := by
      by_contra hc
      have := (h.full (by omega)).1
      omega
    subst hc0
    have hnd : (s.inIds ++ [id]).Nodup := by
      rw [List.nodup_append]
      exact ⟨h.nodup, by simp, fun a ha b hb => by simp at hb; subst hb; exact fun he => hm (he ▸ ha)⟩
    have hq : List.Forall₂ (QRep 0) (s.inQ ++ [MQ.init]) (chans ++ [(⟨id, [], false⟩ : Chan)]) := List.rel_append h.inQ (List.Forall₂.cons (qrep_init 0 id) List.Forall₂.nil)
    have hids : s.inIds ++ [id] = (chans ++ [(⟨id, [], false⟩ : Chan)]).map Chan.id := by rw [h.ids]; simp
    have lo : (chans ++ [(⟨id, [], false⟩ : Chan)]).countP (fun ch => decide (4 * (0 + 1) ≤ ch.data.length)) ≤ s.ready := by
      rw [List.countP_append]
      simpa using h.readyLo
    have hi : s.ready ≤ (chans ++ [(⟨id, [], false⟩ : Chan)]).countP (avail false 0) := by
      rw [List.countP_append]; have := h.readyHi; omega
    have fin : s.finished = (chans ++ [(⟨id, [], false⟩ : Chan)]).countP Chan.ended := by
      rw [List.countP_append, h.finished]; simp
    have hfed := h.fed
    rw [cols_zero] at hfed
    simp only [List.length_append, List.length_singleton]
    by_cases ht : s.inIds.length + 1 = cfg.threshold
    · rw [if_pos ht]
      unfold Ida.prepareInterpolation
      obtain ⟨w, hw⟩ := hR (s.inIds ++ [id])
      simp only [hw]
      obtain ⟨v, o, e, l1, l2, h1, h2⟩ := computeAll_spec R cfg { s with inIds := s.inIds ++ [id], inQ := s.inQ ++ [MQ.init], w := w } (h.vnil hlt) s.outIds.length (Nat.le_refl _)
      rw [e]
      refine ⟨_, chans, ⟨id, [], false⟩, [], by rw [hil], ?_, rfl, Or.inr ⟨hm', rfl, rfl, rfl⟩⟩
      exact ⟨h.outs, hids, hnd, by simp; omega, hq, fun h => absurd h (Nat.lt_irrefl _), fun _ => ⟨hw, h1, h2⟩, lo, hi, h.readyLt, fin, h.finishedLt,
        fun hl => by simp at hl; omega, by rw [cols_zero]; exact hfed⟩
    · rw [if_neg ht]
      refine ⟨_, chans, ⟨id, [], false⟩, [], by rw [hil], ?_, rfl, Or.inr ⟨hm', rfl, rfl, rfl⟩⟩
      exact ⟨h.outs, hids, hnd, by simp; omega, hq, fun h => absurd h (Nat.lt_irrefl _), fun hl => by simp at hl; omega, lo, hi, h.readyLt, fin, h.finishedLt,
        fun _ => h.vnil hlt, by rw [cols_zero]; exact hfed⟩

theorem modify_mid {α : Type} (A B : List α) (x : α) (f : α → α) : (A ++ x :: B).modify A.length f = A ++ f x :: B := by
  induction A with
  | nil => rfl
  | cons a A ih => simp [List.modify_succ_cons, ih]

theorem forall₂_mid {α β : Type} {P : α → β → Prop} {l : List α} {A B : List β} {x : β} (h : List.Forall₂ P l (A ++ x :: B)) :
    ∃ A' x' B', l = A' ++ x' :: B' ∧ A'.length = A.length ∧ List.Forall₂ P A' A ∧ P x' x ∧ List.Forall₂ P B' B := by
  induction A generalizing l with
  | nil =>
    cases h with
    | cons h1 h2 => exact ⟨[], _, _, rfl, rfl, List.Forall₂.nil, h1, h2⟩
  | cons a A ih =>
    cases h with
    | cons h1 h2 =>
      obtain ⟨A', x', B', e, l', p1, p2, p3⟩ := ih h2
      exact ⟨_ :: A', x', B', by rw [e]; rfl, by simp [l'], List.Forall₂.cons h1 p1, p2, p3⟩

theorem wordAt_append (data bs : List Byte) (k : Nat) (h : 4 * (k + 1) ≤ data.length) : wordAt (data ++ bs) k = wordAt data k := by
  unfold wordAt
  rw [List.drop_append_of_le_length (by omega), List.take_append_of_le_length (by rw [List.length_drop]; omega)]

theorem cols_data {R : RingOps W32} {ids w outIds : List W32} {A B : List Chan} {ch : Chan} (bs : List Byte) (e : Bool) {c : Nat}
    (h : 0 < c → 4 * c ≤ ch.data.length) :
    cols R ids w outIds (A ++ { ch with data := ch.data ++ bs, ended := e } :: B) 0 c = cols R ids w outIds (A ++ ch :: B) 0 c := by
  unfold cols
  apply List.map_congr_left
  intro k hk
  have hk : k < c := by simp [List.mem_range'_1] at hk; omega
  unfold colOut
  congr 2
  simp only [List.map_append, List.map_cons]
  congr 2
  exact wordAt_append _ _ _ (by have := h (by omega); omega)

theorem qrep_put {c : Nat} {q : MQ} {ch : Chan} (h : QRep c q ch) (he : ch.ended = false) (hc : 4 * c ≤ ch.data.length) (bs : List Byte) :
    QRep c (q.put2 bs false) { ch with data := ch.data ++ bs } := by
  have := rep_put h bs false
  unfold QRep
  have e : (specStep (absOf c ch) (.put bs false)).2 = absOf c { ch with data := ch.data ++ bs } := by
    unfold absOf
    simp [he, specStep, List.drop_append_of_le_length hc]
  rw [e] at this
  exact this

theorem qrep_end {c : Nat} {q : MQ} {ch : Chan} (h : QRep c q ch) (he : ch.ended = false) :
    QRep c (q.put2 [] true) { ch with ended := true } := by
  have := rep_put h [] true
  unfold QRep
  have e : (specStep (absOf c ch) (.put [] true)).2 = absOf c { ch with ended := true } := by
    unfold absOf
    simp [he, specStep]
  rw [e] at this
  exact this

theorem inv_pos {R : RingOps W32} {cfg : Cfg} {outIds : List W32} {k0 : Sink} {s : Ida} {A B : List Chan} {ch : Chan} {c : Nat}
    (h : Inv R cfg outIds k0 s (A ++ ch :: B) c) (he : ch.ended = false) : 4 * c ≤ ch.data.length := by
  rcases Nat.eq_zero_or_pos c with h0 | h0
  · omega
  · rcases (h.full h0).2.1 ch (by simp) with h1 | h1
    · rw [he] at h1; cases h1
    · exact h1

theorem getD_mid {α : Type} (A B : List α) (x d : α) (n : Nat) (h : A.length = n) : (A ++ x :: B).getD n d = x := by
  subst h; simp [List.getD_eq_getElem?_getD]

/-- The first half of `ChannelData`: the bytes. -/
theorem data_stage {R : RingOps W32} {cfg : Cfg} (ht : 0 < cfg.threshold) {outIds : List W32} {k0 : Sink} {s : Ida} {A B : List Chan} {ch : Chan} {c : Nat}
    (h : Inv R cfg outIds k0 s (A ++ ch :: B) c) (he : ch.ended = false) (bs : List Byte) :
    ∃ s' c', (if (s.inQ.getD A.length MQ.init).maxRetrievable < 4 ∧ 4 ≤ (s.inQ.getD A.length MQ.init).maxRetrievable + bs.length then
          if s.ready + 1 = cfg.threshold then ({ s with inQ := s.inQ.modify A.length (·.put2 bs false), ready := s.ready + 1 } : Ida).process R cfg
          else .ok { s with inQ := s.inQ.modify A.length (·.put2 bs false), ready := s.ready + 1 }
        else .ok { s with inQ := s.inQ.modify A.length (·.put2 bs false) }) = .ok s' ∧
      Inv R cfg outIds k0 s' (A ++ { ch with data := ch.data ++ bs } :: B) c' := by
  obtain ⟨QA, q, QB, eq, lq, r1, r2, r3⟩ := forall₂_mid h.inQ
  have hpos := inv_pos h he
  rw [eq, getD_mid _ _ _ _ _ lq, ← lq, modify_mid, qrep_max r2]
  have hq' : List.Forall₂ (QRep c) (QA ++ q.put2 bs false :: QB) (A ++ { ch with data := ch.data ++ bs } :: B) :=
    List.rel_append r1 (List.Forall₂.cons (qrep_put r2 he hpos bs) r3)
  have hlen : (A ++ { ch with data := ch.data ++ bs } :: B).length = (A ++ ch :: B).length := by simp
  have hids : s.inIds = (A ++ { ch with data := ch.data ++ bs } :: B).map Chan.id := by rw [h.ids]; simp
  have hfull : 0 < c → (A ++ { ch with data := ch.data ++ bs } :: B).length = cfg.threshold ∧
      (∀ x ∈ A ++ { ch with data := ch.data ++ bs } :: B, x.ended = true ∨ 4 * c ≤ x.data.length) ∧
      ∃ x ∈ A ++ { ch with data := ch.data ++ bs } :: B, 4 * (c - 1) < x.data.length := by
    intro h0
    obtain ⟨f1, f2, f3⟩ := h.full h0
    refine ⟨by rw [hlen]; exact f1, ?_, ?_⟩
    · intro x hx
      rcases List.mem_append.mp hx with hx | hx
      · exact f2 x (List.mem_append_left _ hx)
      · rcases List.mem_cons.mp hx with rfl | hx
        · right; simp; omega
        · exact f2 x (List.mem_append_right _ (List.mem_cons_of_mem _ hx))
    · obtain ⟨x, hx, hl⟩ := f3
      rcases List.mem_append.mp hx with hx | hx
      · exact ⟨x, List.mem_append_left _ hx, hl⟩
      · rcases List.mem_cons.mp hx with rfl | hx
        · exact ⟨_, List.mem_append_right _ (List.mem_cons_self), by simp; omega⟩
        · exact ⟨x, List.mem_append_right _ (List.mem_cons_of_mem _ hx), hl⟩
  have hfin : s.finished = (A ++ { ch with data := ch.data ++ bs } :: B).countP Chan.ended := by
    rw [h.finished, List.countP_append, List.countP_append, List.countP_cons, List.countP_cons]
  have hfed : Fed cfg outIds k0 (cols R s.inIds s.w outIds (A ++ { ch with data := ch.data ++ bs } :: B) 0 c) s.sink := by
    have := cols_data (R := R) (ids := s.inIds) (w := s.w) (outIds := outIds) (A := A) (B := B) (ch := ch) bs ch.ended (c := c) (fun _ => hpos)
    rw [this]; exact h.fed
  have lo := h.readyLo
  have hi := h.readyHi
  rw [List.countP_append, List.countP_cons] at lo hi
  have a0 : avail false c ch = decide (4 * (c + 1) ≤ ch.data.length) := by simp [avail, he]
  have a1 : avail false c { ch with data := ch.data ++ bs } = decide (4 * (c + 1) ≤ ch.data.length + bs.length) := by simp [avail, he]
  rw [a0] at hi
  by_cases hcross : ch.data.length - 4 * c < 4 ∧ 4 ≤ ch.data.length - 4 * c + bs.length
  · rw [if_pos hcross]
    have d0 : decide (4 * (c + 1) ≤ ch.data.length) = false := by simp; omega
    have d1 : decide (4 * (c + 1) ≤ ch.data.length + bs.length) = true := by simp; omega
    have lo' : (A ++ { ch with data := ch.data ++ bs } :: B).countP (fun ch => decide (4 * (c + 1) ≤ ch.data.length)) ≤ s.ready + 1 := by
      rw [List.countP_append, List.countP_cons]
      simp only [List.length_append, d1, if_true]
      omega
    have hi' : s.ready + 1 ≤ (A ++ { ch with data := ch.data ++ bs } :: B).countP (avail false c) := by
      rw [List.countP_append, List.countP_cons, a1, d1]
      rw [d0] at hi
      simp only [if_true, Bool.false_eq_true, if_false] at hi ⊢
      omega
    by_cases hr : s.ready + 1 = cfg.threshold
    · rw [if_pos hr]
      have hcl : (A ++ { ch with data := ch.data ++ bs } :: B).length = cfg.threshold := by
        have h1 := List.countP_le_length (p := avail false c) (l := A ++ { ch with data := ch.data ++ bs } :: B)
        have h2 := h.le
        omega
      have hp := h.prep (by rw [← hlen]; exact hcl)
      exact process_mid ht (s := { s with inQ := QA ++ q.put2 bs false :: QB, ready := s.ready + 1 }) h.outs hids h.nodup hcl hq' ⟨hp.w, hp.outToIn, hp.v⟩ hr hi' hfin h.finishedLt hfull hfed
    · rw [if_neg hr]
      exact ⟨_, c, rfl, ⟨h.outs, hids, h.nodup, by rw [hlen]; exact h.le, hq', hfull,
        fun hl => have hp := h.prep (by rw [← hlen]; exact hl); ⟨hp.w, hp.outToIn, hp.v⟩, lo', hi', by have := h.readyLt; show s.ready + 1 < _; omega, hfin, h.finishedLt, fun hl => h.vnil (by rw [← hlen]; exact hl), hfed⟩⟩
  · rw [if_neg hcross]
    have dd : decide (4 * (c + 1) ≤ ch.data.length + bs.length) = decide (4 * (c + 1) ≤ ch.data.length) := by rw [decide_eq_decide]; omega
    refine ⟨_, c, rfl, ⟨h.outs, hids, h.nodup, by rw [hlen]; exact h.le, hq', hfull,
        fun hl => have hp := h.prep (by rw [← hlen]; exact hl); ⟨hp.w, hp.outToIn, hp.v⟩, ?_, ?_, h.readyLt, hfin, h.finishedLt, fun hl => h.vnil (by rw [← hlen]; exact hl), hfed⟩⟩
    · rw [List.countP_append, List.countP_cons]
      simp only [List.length_append, dd]
      exact lo
    · rw [List.countP_append, List.countP_cons, a1, dd]
      exact hi

/-- Everything was processed and the message ended: the sink, and a state ready for the next message. -/
def Final (R : RingOps W32) (cfg : Cfg) (outIds : List W32) (k0 : Sink) (s : Ida) (chans : List Chan) : Prop :=
  ∃ w n k, prepare R (chans.map Chan.id) = .ok w ∧ (∀ ch ∈ chans, ch.data.length ≤ 4 * n) ∧ (0 < n → ∃ ch ∈ chans, 4 * (n - 1) < ch.data.length) ∧
    Fed cfg outIds k0 (cols R (chans.map Chan.id) w outIds chans 0 n) k ∧
    s.inIds = [] ∧ s.inQ = [] ∧ s.outIds = outIds ∧ s.v = [] ∧ s.ready = 0 ∧ s.finished = 0 ∧ s.sink = k.ends cfg outIds

theorem leftover_nil {c : Nat} {q : MQ} {ch : Chan} (h : QRep c q ch) (he : ch.ended = true) (hl : ch.data.length ≤ 4 * c) : leftover ch.id q = [] := by
  have habs : absOf c ch = ⟨[[]], []⟩ := by
    unfold absOf; rw [he, List.drop_of_length_le hl]; rfl
  unfold QRep at h
  rw [habs] at h
  have hn := (rep_next h (by decide)).2
  have e : (specStep ⟨[[]], []⟩ .nextMessage).2 = (⟨[], []⟩ : Abs) := rfl
  rw [e] at hn
  unfold leftover
  simp only
  rw [hn.content, hn.lengths]
  rfl

theorem leftover_all {c : Nat} {qs : List MQ} {chans : List Chan} (h : List.Forall₂ (QRep c) qs chans) (he : ∀ ch ∈ chans, ch.ended = true)
    (hl : ∀ ch ∈ chans, ch.data.length ≤ 4 * c) : (List.zipWith leftover (chans.map Chan.id) qs).flatten = [] := by
  induction h with
  | nil => rfl
  | @cons q ch qs chans h1 _ ih =>
    simp only [List.map_cons, List.zipWith_cons_cons, List.flatten_cons]
    rw [leftover_nil h1 (he _ (List.mem_cons_self)) (hl _ (List.mem_cons_self)), ih (fun x hx => he x (List.mem_cons_of_mem _ hx)) (fun x hx => hl x (List.mem_cons_of_mem _ hx))]
    rfl

theorem any_sum {c : Nat} {qs : List MQ} {chans : List Chan} (h : List.Forall₂ (QRep c) qs chans) :
    (qs.map fun q : MQ => if q.anyRetrievable then 1 else 0).sum = chans.countP (avail true c) := by
  induction h with
  | nil => rfl
  | @cons q ch qs chans h1 _ ih =>
    simp only [List.map_cons, List.sum_cons, List.countP_cons, ih, qrep_any h1, avail, if_true]
    omega

theorem process_end {R : RingOps W32} {cfg : Cfg} (ht : 0 < cfg.threshold) {outIds : List W32} {k0 : Sink} {chans : List Chan} {s : Ida} {c : Nat}
    (ho : s.outIds = outIds) (hids : s.inIds = chans.map Chan.id) (hcl : chans.length = cfg.threshold)
    (hq : List.Forall₂ (QRep c) s.inQ chans) (hp : Prep R cfg s) (hr : s.ready = chans.countP (avail true c))
    (hf : s.finished = cfg.threshold) (hend : ∀ ch ∈ chans, ch.ended = true)
    (hfull : 0 < c → ∃ ch ∈ chans, 4 * (c - 1) < ch.data.length)
    (hfed : Fed cfg outIds k0 (cols R s.inIds s.w outIds chans 0 c) s.sink) :
    ∃ s', s.process R cfg = .ok s' ∧ Final R cfg outIds k0 s' chans := by
  have hil : s.inIds.length = cfg.threshold := by rw [hids, List.length_map, hcl]
  obtain ⟨c', inQ', h1, h2, h3, h4, h5⟩ := loop_spec ht true hcl (fun _ => hend) (fun h => by cases h) ((s.inQ.map fun q => q.content.length).sum + 1)
    hp hil hq hr (by rw [content_sum hq]; omega)
  simp only [if_true] at h4
  have hall : ∀ ch ∈ chans, ch.data.length ≤ 4 * c' := by
    intro ch hm
    have := (List.countP_eq_zero.mp h4) ch hm
    simpa [avail] using this
  unfold Ida.process
  have hff : (s.finished == cfg.threshold) = true := by simp [hf]
  simp only [hff, h2, if_true]
  have hfed' := Fed.step (cols R s.inIds s.w outIds chans c c') hfed
  rw [cols_append h1] at hfed'
  subst ho
  have hlo := leftover_all h3 hend hall
  have hw := hp.w
  rw [hids] at hw hfed' ⊢
  have hfull' : 0 < c' → ∃ ch ∈ chans, 4 * (c' - 1) < ch.data.length := by
    intro hc'
    rcases Nat.lt_or_ge c c' with h | h
    · exact (h5 h).2
    · have : c' = c := by omega
      rw [this] at hc' ⊢
      exact hfull hc'
  refine ⟨_, rfl, s.w, c', _, hw, hall, hfull', hfed', ?_⟩
  unfold flushIf
  by_cases hc : 0 < s.outIds.length ∧ ((cols R (chans.map Chan.id) s.w s.outIds chans c c').foldl Sink.column s.sink).outQ.headD [] ≠ []
  · simp only [hids, if_pos hc, hlo, List.append_nil, and_self]
  · simp only [hids, if_neg hc, hlo, List.append_nil, and_self]

/-- The second half of `ChannelData`: the message end. -/
theorem end_stage {R : RingOps W32} {cfg : Cfg} (ht : 0 < cfg.threshold) {outIds : List W32} {k0 : Sink} {s : Ida} {A B : List Chan} {ch : Chan} {c : Nat}
    (h : Inv R cfg outIds k0 s (A ++ ch :: B) c) (he : ch.ended = false) :
    ∃ s', (if ((s.inQ.modify A.length (·.put2 [] true)).getD A.length MQ.init).numberOfMessages = 1 then
            if s.finished + 1 = cfg.threshold then
              ({ s with inQ := s.inQ.modify A.length (·.put2 [] true), finished := s.finished + 1,
                        ready := ((s.inQ.modify A.length (·.put2 [] true)).map fun q : MQ => if q.anyRetrievable then 1 else 0).sum } : Ida).process R cfg
            else .ok { s with inQ := s.inQ.modify A.length (·.put2 [] true), finished := s.finished + 1 }
          else .ok { s with inQ := s.inQ.modify A.length (·.put2 [] true) }) = .ok s' ∧
      (((A ++ { ch with ended := true } :: B).countP Chan.ended = cfg.threshold ∧ Final R cfg outIds k0 s' (A ++ { ch with ended := true } :: B)) ∨
        Inv R cfg outIds k0 s' (A ++ { ch with ended := true } :: B) c) := by
  obtain ⟨QA, q, QB, eq, lq, r1, r2, r3⟩ := forall₂_mid h.inQ
  rw [eq, ← lq, modify_mid, getD_mid _ _ _ _ _ rfl, qrep_number (qrep_end r2 he), if_pos rfl]
  have hq' : List.Forall₂ (QRep c) (QA ++ q.put2 [] true :: QB) (A ++ { ch with ended := true } :: B) :=
    List.rel_append r1 (List.Forall₂.cons (qrep_end r2 he) r3)
  have hlen : (A ++ { ch with ended := true } :: B).length = (A ++ ch :: B).length := by simp
  have hids : s.inIds = (A ++ { ch with ended := true } :: B).map Chan.id := by rw [h.ids]; simp
  have hfull : 0 < c → (A ++ { ch with ended := true } :: B).length = cfg.threshold ∧
      (∀ x ∈ A ++ { ch with ended := true } :: B, x.ended = true ∨ 4 * c ≤ x.data.length) ∧
      ∃ x ∈ A ++ { ch with ended := true } :: B, 4 * (c - 1) < x.data.length := by
    intro h0
    obtain ⟨f1, f2, f3⟩ := h.full h0
    refine ⟨by rw [hlen]; exact f1, ?_, ?_⟩
    · intro x hx
      rcases List.mem_append.mp hx with hx | hx
      · exact f2 x (List.mem_append_left _ hx)
      · rcases List.mem_cons.mp hx with rfl | hx
        · left; rfl
        · exact f2 x (List.mem_append_right _ (List.mem_cons_of_mem _ hx))
    · obtain ⟨x, hx, hl⟩ := f3
      rcases List.mem_append.mp hx with hx | hx
      · exact ⟨x, List.mem_append_left _ hx, hl⟩
      · rcases List.mem_cons.mp hx with rfl | hx
        · exact ⟨_, List.mem_append_right _ (List.mem_cons_self), hl⟩
        · exact ⟨x, List.mem_append_right _ (List.mem_cons_of_mem _ hx), hl⟩
  have hfin : s.finished + 1 = (A ++ { ch with ended := true } :: B).countP Chan.ended := by
    rw [h.finished, List.countP_append, List.countP_append, List.countP_cons, List.countP_cons, he]
    simp only [if_true, Bool.false_eq_true, if_false]; omega
  have hcols : ∀ (n : Nat), cols R s.inIds s.w outIds (A ++ { ch with ended := true } :: B) 0 n = cols R s.inIds s.w outIds (A ++ ch :: B) 0 n := by
    intro n; unfold cols colOut; simp
  have hfed : Fed cfg outIds k0 (cols R s.inIds s.w outIds (A ++ { ch with ended := true } :: B) 0 c) s.sink := by
    rw [hcols]; exact h.fed
  by_cases hr : s.finished + 1 = cfg.threshold
  · rw [if_pos hr]
    have hcl : (A ++ { ch with ended := true } :: B).length = cfg.threshold := by
      have h1 := List.countP_le_length (p := Chan.ended) (l := A ++ { ch with ended := true } :: B)
      have h2 := h.le
      omega
    have hp := h.prep (by rw [← hlen]; exact hcl)
    have hend : ∀ x ∈ A ++ { ch with ended := true } :: B, x.ended = true := by
      rw [← countP_eq_length_iff]; omega
    obtain ⟨s', e1, e2⟩ := process_end (k0 := k0) ht (s := { s with inQ := QA ++ q.put2 [] true :: QB, finished := s.finished + 1, ready := ((QA ++ q.put2 [] true :: QB).map fun q : MQ => if q.anyRetrievable then 1 else 0).sum }) h.outs hids hcl hq' ⟨hp.w, hp.outToIn, hp.v⟩
      (any_sum hq') hr hend (fun h0 => (hfull h0).2.2) hfed
    exact ⟨s', e1, Or.inl ⟨by omega, e2⟩⟩
  · rw [if_neg hr]
    refine ⟨_, rfl, Or.inr ⟨h.outs, hids, h.nodup, by rw [hlen]; exact h.le, hq', hfull,
        fun hl => have hp := h.prep (by rw [← hlen]; exact hl); ⟨hp.w, hp.outToIn, hp.v⟩, ?_, ?_, h.readyLt, hfin, ?_, fun hl => h.vnil (by rw [← hlen]; exact hl), hfed⟩⟩
    · have := h.readyLo
      rw [List.countP_append, List.countP_cons] at this ⊢
      exact this
    · have := h.readyHi
      rw [List.countP_append, List.countP_cons] at this ⊢
      have a1 : avail false c { ch with ended := true } = true := by simp [avail]
      rw [a1]
      simp only [if_true]
      split at this <;> omega
    · have := h.finishedLt; show s.finished + 1 < _; omega

theorem channelData_spec {R : RingOps W32} {cfg : Cfg} (hR : ∀ x, ∃ w, prepare R x = .ok w) (ht : 0 < cfg.threshold) {outIds : List W32} {k0 : Sink} {s : Ida} {chans : List Chan} {c : Nat}
    (h : Inv R cfg outIds k0 s chans c) (id : W32) (bs : List Byte) (e : Bool)
    (hid : (∃ ch ∈ chans, ch.id = id ∧ ch.ended = false) ∨ (id ∉ chans.map Chan.id ∧ chans.length < cfg.threshold)) :
    ∃ s' A ch B, s.channelData R cfg id bs e = .ok s' ∧ ch.id = id ∧ ch.ended = false ∧
      ((id ∈ chans.map Chan.id ∧ A ++ ch :: B = chans) ∨ (id ∉ chans.map Chan.id ∧ A = chans ∧ ch = ⟨id, [], false⟩ ∧ B = [])) ∧
      (((A ++ ⟨id, ch.data ++ bs, e⟩ :: B).countP Chan.ended = cfg.threshold ∧ Final R cfg outIds k0 s' (A ++ ⟨id, ch.data ++ bs, e⟩ :: B)) ∨
        ∃ c', Inv R cfg outIds k0 s' (A ++ ⟨id, ch.data ++ bs, e⟩ :: B) c') := by
  have hid' : id ∈ chans.map Chan.id ∨ chans.length < cfg.threshold := by
    rcases hid with ⟨ch, hm, he, _⟩ | h'
    · left; exact he ▸ List.mem_map_of_mem hm
    · exact Or.inr h'.2
  obtain ⟨s1, A, ch, B, e1, inv1, hcid, hor⟩ := insert_spec hR h id hid'
  have hend : ch.ended = false := by
    rcases hor with ⟨hm, hch⟩ | ⟨_, _, hch, _⟩
    · rcases hid with ⟨x, hx, hxid, hxe⟩ | h'
      · have hnd := h.nodup
        rw [h.ids] at hnd
        have : ch ∈ chans := by rw [← hch]; simp
        have := (List.inj_on_of_nodup_map hnd) this hx (by rw [hcid, hxid])
        rw [this]; exact hxe
      · exact absurd hm h'.1
    · rw [hch]
  have hAl : A.length < cfg.threshold := by have := inv1.le; simp at this; omega
  obtain ⟨s2, c2, e2, inv2⟩ := data_stage ht inv1 hend bs
  unfold Ida.channelData
  simp only [e1, if_pos hAl]
  rw [e2]
  cases e with
  | false =>
    refine ⟨s2, A, ch, B, rfl, hcid, hend, hor, Or.inr ⟨c2, ?_⟩⟩
    have : ({ ch with data := ch.data ++ bs } : Chan) = ⟨id, ch.data ++ bs, false⟩ := by rw [← hcid, ← hend]
    rw [← this]; exact inv2
  | true =>
    obtain ⟨s3, e3, h3⟩ := end_stage ht inv2 (ch := { ch with data := ch.data ++ bs }) hend
    have : ({ ch with data := ch.data ++ bs, ended := true } : Chan) = ⟨id, ch.data ++ bs, true⟩ := by rw [← hcid]
    refine ⟨s3, A, ch, B, e3, hcid, hend, hor, ?_⟩
    rw [← this]
    rcases h3 with h3 | h3
    · exact Or.inl h3
    · exact Or.inr ⟨_, h3⟩

end Verif.Ida
