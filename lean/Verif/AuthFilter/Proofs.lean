import Verif.AuthFilter.Spec
import Verif.BufFilter.Props
import Verif.HashFilter.Proofs

/-! Proofs about the buffers of the filters, and about the stream part. -/
namespace Verif.AuthFilter

open Verif.BufFilter Verif.BufFilter.Filt
open Verif.HashFilter (bind_ok' reset_pre slice_all)

/-! ## Buffers -/

/-- Nothing is held back but `c`, the last bytes, and `FirstPut` gets nothing. -/
def Ready (f : Filt) (L : Nat) (c : List Byte) : Prop := c.length ≤ L ∧ (Mid f 0 1 L c ∨ (c = [] ∧ Pre f 0 1 L []))

/-- Calls of `NextPut`, perhaps after `FirstPut(NULL)`. -/
def Nexts (evs : List Ev) (xs : List (List Byte)) : Prop := evs = xs.map .next ∨ evs = .first [] :: xs.map .next

theorem Ready.last {f L c} (h : Ready f L c) : f.lastSize = L := by
  rcases h.2 with h | ⟨_, h⟩ <;> exact h.ls

theorem Ready.first {f L c} (h : Ready f L c) : f.firstSize = 0 := by
  rcases h.2 with h | ⟨_, h⟩ <;> exact h.fs

theorem ready_data {f : Filt} {L : Nat} {c : List Byte} (h : Ready f L c) (x : List Byte) :
    ∃ f' c' xs evs, f.putData x = .ok (f', evs) ∧ Nexts evs xs ∧ Ready f' L c' ∧ xs.flatten ++ c' = c ++ x ∧ NextOk 1 xs ∧ (xs ≠ [] → L ≤ c'.length) := by
  rcases h.2 with hm | ⟨hc, hp⟩
  · obtain ⟨f', c', xs, e, m, h1, h2, h3, h4⟩ := putData_mid f 0 1 L c x hm
    exact ⟨f', c', xs, _, e, .inl rfl, ⟨by omega, .inl m⟩, h1, h2, h3⟩
  · subst hc
    obtain ⟨f', c', xs, e, m, h1, h2, h3, h4⟩ := putData_pre_long f 0 1 L [] x hp (by simp) (by simp)
    rw [List.take_zero] at e
    exact ⟨f', c', xs, _, e, .inr rfl, ⟨by omega, .inl m⟩, by simpa using h1, h2, h3⟩

theorem ready_put {f : Filt} {L : Nat} {c : List Byte} (h : Ready f L c) (x : List Byte) :
    ∃ f' c' xs evs, f.put x false = .ok (f', evs) ∧ Nexts evs xs ∧ Ready f' L c' ∧ xs.flatten ++ c' = c ++ x ∧ NextOk 1 xs ∧ (xs ≠ [] → L ≤ c'.length) := by
  unfold Filt.put
  by_cases hx : x.length = 0
  · have : x = [] := List.eq_nil_of_length_eq_zero hx
    subst this
    exact ⟨f, c, [], [], rfl, .inl rfl, h, by simp, by intro x hx; simp at hx, by simp⟩
  · obtain ⟨f', c', xs, evs, e, h1, h2, h3, h4, h5⟩ := ready_data h x
    rw [if_pos hx, e]
    refine ⟨f', c', xs, evs, ?_, h1, h2, h3, h4, h5⟩
    rw [bind_ok']
    simp only [Bool.false_eq_true, if_false]
    rw [bind_ok', List.append_nil]

theorem force1_empty (fuel : Nat) : ∀ (f f' : Filt) (evs : List Ev), force1 .leftToRight fuel f = .ok (f', evs) → f'.q.size = 0 := by
  induction fuel with
  | zero => intro f f' evs h; cases h
  | succ fuel ih =>
    intro f f' evs h
    unfold force1 at h
    by_cases hc : f.q.size > 0
    · rw [if_pos hc] at h
      rcases hg : f.q.getContiguous f.q.size with e | ⟨p, q⟩
      · rw [hg] at h; cases h
      · rw [hg, bind_ok'] at h
        dsimp only at h
        rw [bind_ok'] at h
        rcases hr : force1 .leftToRight fuel { f with q := q } with e | ⟨f2, e2⟩
        · rw [hr] at h; cases h
        · rw [hr, bind_ok'] at h
          simp only [Except.ok.injEq, Prod.mk.injEq] at h
          rw [← h.1]
          exact ih _ _ _ hr
    · rw [if_neg hc] at h
      simp only [Except.ok.injEq, Prod.mk.injEq] at h
      rw [← h.1]; omega

theorem ready_force {f : Filt} {L : Nat} {c : List Byte} (h : Ready f L c) :
    ∃ f' xs, f.forceNextPut .leftToRight = .ok (f', xs.map .next) ∧ Ready f' L [] ∧ xs.flatten = c ∧ NextOk 1 xs := by
  rcases h.2 with hm | ⟨hc, hp⟩
  · obtain ⟨f', c', xs, e, m, h1, h2⟩ := forceNextPut_spec f 0 1 L c .leftToRight (.inl rfl) hm
    have hz : c' = [] := by
      apply List.eq_nil_of_length_eq_zero
      rw [← m.size]
      have e' := e
      unfold forceNextPut at e'
      simp only [hm.done, Bool.not_true, Bool.false_eq_true, if_false] at e'
      rw [hm.bs, if_neg (by omega)] at e'
      exact force1_empty _ _ _ _ e'
    subst hz
    rw [List.append_nil] at h1
    exact ⟨f', xs, e, ⟨Nat.zero_le _, .inl m⟩, h1, h2⟩
  · subst hc
    refine ⟨f, [], ?_, h, rfl, by intro x hx; simp at hx⟩
    unfold forceNextPut
    rw [hp.done]; rfl

/-- `GetAll` empties the queue: an exception after it leaves the filter so. -/
theorem ready_all {f : Filt} {L : Nat} {c : List Byte} (h : Ready f L c) : ∃ q', f.q.getAll = .ok (c, q') ∧ Ready { f with q := q' } L [] := by
  rcases h.2 with hm | ⟨hc, hp⟩
  · obtain ⟨q', e, h1, h2, h3, h4⟩ := Ring.getAll_state f.q hm.qinv
    rw [hm.con] at e
    exact ⟨q', e, Nat.zero_le _, .inl ⟨hm.fs, hm.bs, hm.ls, hm.pos, h1, h2, hm.done, h3.trans hm.qbs, h4.trans hm.qmb, Nat.mod_one _⟩⟩
  · subst hc
    obtain ⟨q', e, h1, h2, h3, h4⟩ := Ring.getAll_state f.q hp.qinv
    rw [hp.con] at e
    refine ⟨q', e, Nat.zero_le _, .inr ⟨rfl, ⟨hp.fs, hp.bs, hp.ls, hp.pos, h1, h2, hp.done, h3.trans hp.qbs, h4.trans hp.qmb, ?_⟩⟩⟩
    have := h1.cap
    have hb := h1.beg
    rw [h4, hp.qmb, Nat.mul_zero] at this
    dsimp only
    omega

/-- The end of a message without an exception. -/
theorem ready_reset {f : Filt} {L : Nat} {c : List Byte} (h : Ready f L c) : Ready { f with firstDone := false, q := Ring.reset f.junk 1 f.firstSize } L [] := by
  have h' : f.firstSize = 0 ∧ f.blockSize = 1 ∧ f.lastSize = L := by
    rcases h.2 with h | ⟨_, h⟩ <;> exact ⟨h.fs, h.bs, h.ls⟩
  exact ⟨Nat.zero_le _, .inr ⟨rfl, reset_pre h'.1 h'.2.1 h'.2.2 (Nat.le_refl _)⟩⟩

theorem ready_finish {f : Filt} {L : Nat} {c : List Byte} (h : Ready f L c) :
    ∃ f' evs, f.finish = .ok (f', evs) ∧ Ready f' L [] ∧ (evs = [.last c, .messageEnd] ∨ evs = [.first [], .last c, .messageEnd]) := by
  rcases h.2 with hm | ⟨hc, hp⟩
  · obtain ⟨f', e, p⟩ := finish_spec f 0 1 L c hm
    exact ⟨f', _, e, ⟨Nat.zero_le _, .inr ⟨rfl, p⟩⟩, .inl rfl⟩
  · subst hc
    obtain ⟨f', e, p⟩ := finish_pre f 0 1 L [] hp
    exact ⟨f', _, e, ⟨Nat.zero_le _, .inr ⟨rfl, p⟩⟩, .inr rfl⟩

theorem init_ready (junk : Nat → Byte) (L : Nat) : ∃ f, Filt.init junk 0 1 L = .ok f ∧ Ready f L [] := by
  obtain ⟨f, e, p⟩ := init_pre junk 0 1 L (Nat.le_refl _)
  exact ⟨f, e, Nat.zero_le _, .inr ⟨rfl, p⟩⟩

/-- A filter with no first and no last part passes everything on. -/
theorem ready0 {f : Filt} {c : List Byte} (h : Ready f 0 c) : c = [] := List.eq_nil_of_length_eq_zero (Nat.le_zero.1 h.1)

/-! ## Text through the cipher -/

section
variable {σ : Type} {O : Aead σ} {C : Cipher} {Hd : σ → List Byte → Prop} {Tx : σ → List Byte → List Byte → Prop} (S : O.Serves C Hd Tx)
  {cut : Nat → Nat} (hcut : ∀ r, 0 < r → 1 ≤ cut r ∧ cut r ≤ r)
include S

omit S in
theorem xor_cut (x : List Byte) (q k : Nat) : xorBytes (x.take k) (load C.ks q (x.take k).length) ++ xorBytes (x.drop k) (load C.ks (q + (x.take k).length) (x.drop k).length) = xorBytes x (load C.ks q x.length) := by
  rw [← xorBytes_append _ _ _ _ (by simp), ← load_add, List.take_append_drop, ← List.length_append, List.take_append_drop]

include hcut

theorem processAll_spec (fuel : Nat) : ∀ (c : σ) (a t x : List Byte), Tx c a t → 0 < x.length → x.length < fuel → (t ++ x).length ≤ C.maxMessage →
    ∃ c', processAll O cut fuel c x = .ok (c', xorBytes x (load C.ks t.length x.length)) ∧ Tx c' a (t ++ x) := by
  induction fuel with
  | zero => intro c a t x _ _ h; omega
  | succ fuel ih =>
    intro c a t x ht hx hf hl
    obtain ⟨k1, k2⟩ := hcut _ hx
    unfold processAll
    have hl' : t.length + x.length ≤ C.maxMessage := by simpa using hl
    obtain ⟨c1, e1, t1⟩ := S.process c a t (x.take (cut x.length)) ht (by simp; omega)
    rw [e1, bind_ok']
    dsimp only
    by_cases hr : x.length - cut x.length > 0
    · rw [if_pos hr]
      obtain ⟨c2, e2, t2⟩ := ih c1 a (t ++ x.take (cut x.length)) (x.drop (cut x.length)) t1 (by simp; omega) (by simp; omega)
        (by rw [List.append_assoc, List.take_append_drop]; exact hl)
      rw [e2, bind_ok', List.length_append]
      rw [List.append_assoc, List.take_append_drop] at t2
      refine ⟨c2, ?_, t2⟩
      show Except.ok (c2, _ ++ _) = _
      rw [xor_cut]
    · rw [if_neg hr]
      have : x.take (cut x.length) = x := List.take_of_length_le (by omega)
      rw [this] at t1 ⊢
      exact ⟨c1, rfl, t1⟩

theorem stream_nexts (fw : Bool) (xs : List (List Byte)) (hxs : NextOk 1 xs) : ∀ (c : σ) (a t : List Byte) (tail : List Ev), Tx c a t → (t ++ xs.flatten).length ≤ C.maxMessage →
    ∃ c', streamEvents O fw cut c (xs.map .next ++ tail) = (do let (c, o) ← streamEvents O fw cut c' tail; return (c, xorBytes xs.flatten (load C.ks t.length xs.flatten.length) ++ o)) ∧
      Tx c' a (t ++ xs.flatten) := by
  induction xs with
  | nil =>
    intro c a t tail h _
    refine ⟨c, ?_, by simpa using h⟩
    rw [List.map_nil, List.nil_append]
    rcases streamEvents O fw cut c tail with e | ⟨s, o⟩ <;> rfl
  | cons x xs ih =>
    intro c a t tail h hl
    rw [List.flatten_cons] at hl ⊢
    have hl' : t.length + (x.length + xs.flatten.length) ≤ C.maxMessage := by simpa using hl
    obtain ⟨c1, e1, t1⟩ := processAll_spec S hcut (x.length + 1) c a t x h (hxs x (by simp)).1 (by omega) (by simp; omega)
    obtain ⟨c2, e2, t2⟩ := ih (fun y hy => hxs y (List.mem_cons_of_mem _ hy)) c1 a (t ++ x) tail t1 (by simp only [List.length_append]; omega)
    refine ⟨c2, ?_, by simpa using t2⟩
    rw [List.map_cons, List.cons_append, streamEvents, e1, bind_ok']
    dsimp only
    rw [e2, List.length_append, List.length_append, load_add, xorBytes_append _ _ _ _ (by simp)]
    rcases streamEvents O fw cut c2 tail with e | ⟨s, o⟩
    · rfl
    · show Except.ok (s, _ ++ (_ ++ o)) = Except.ok (s, _ ++ o)
      rw [List.append_assoc]

theorem stream_put (fw : Bool) {f : Filt} (h : Ready f 0 []) (x : List Byte) (c : σ) (a t : List Byte) (ht : Tx c a t) (hl : (t ++ x).length ≤ C.maxMessage) :
    ∃ f' evs c', f.put x false = .ok (f', evs) ∧ Ready f' 0 [] ∧ streamEvents O fw cut c evs = .ok (c', xorBytes x (load C.ks t.length x.length)) ∧ Tx c' a (t ++ x) := by
  obtain ⟨f', c', xs, evs, e, hn, hr, h1, h2, h3⟩ := ready_put h x
  have := ready0 hr
  subst this
  rw [List.append_nil, List.nil_append] at h1
  obtain ⟨c2, e2, t2⟩ := stream_nexts S hcut fw xs h2 c a t [] ht (by rw [h1]; exact hl)
  rw [h1] at t2 e2
  refine ⟨f', evs, c2, e, hr, ?_, t2⟩
  rw [List.append_nil] at e2
  have e3 : streamEvents O fw cut c2 [] = .ok (c2, []) := rfl
  rw [e3, bind_ok'] at e2
  dsimp only at e2
  rw [List.append_nil] at e2
  rcases hn with hn | hn
  · rw [hn]; exact e2
  · rw [hn]; exact e2

theorem stream_end (fw : Bool) {f : Filt} (h : Ready f 0 []) (x : List Byte) (c : σ) (a t : List Byte) (ht : Tx c a t) (hl : (t ++ x).length ≤ C.maxMessage) :
    ∃ f' evs c', f.put x true = .ok (f', evs) ∧ Ready f' 0 [] ∧ streamEvents O fw cut c evs = .ok (c', xorBytes x (load C.ks t.length x.length)) ∧ Tx c' a (t ++ x) := by
  obtain ⟨f1, e1evs, xs, f2, evs2, hp1, hn, h2, h1, hp2, hr2, hlast⟩ : ∃ f1 evs1 xs f2 evs2, (if x.length ≠ 0 then f.putData x else .ok (f, [])) = .ok (f1, evs1) ∧ Nexts evs1 xs ∧ NextOk 1 xs ∧
      xs.flatten = x ∧ f1.finish = .ok (f2, evs2) ∧ Ready f2 0 [] ∧ (evs2 = [.last [], .messageEnd] ∨ evs2 = [.first [], .last [], .messageEnd]) := by
    by_cases hx : x.length = 0
    · have : x = [] := List.eq_nil_of_length_eq_zero hx
      subst this
      obtain ⟨f2, evs2, e, r, hl⟩ := ready_finish h
      exact ⟨f, [], [], f2, evs2, rfl, .inl rfl, by intro x hx; simp at hx, rfl, e, r, hl⟩
    · obtain ⟨f', c', xs, evs, e, hn, hr, h1, h2, h3⟩ := ready_data h x
      have := ready0 hr
      subst this
      obtain ⟨f2, evs2, e2, r, hl⟩ := ready_finish hr
      rw [if_pos hx]
      exact ⟨f', evs, xs, f2, evs2, e, hn, h2, by simpa using h1, e2, r, hl⟩
  obtain ⟨c2, es, t2⟩ := stream_nexts S hcut fw xs h2 c a t evs2 ht (by rw [h1]; exact hl)
  rw [h1] at t2 es
  refine ⟨f2, e1evs ++ evs2, c2, ?_, hr2, ?_, t2⟩
  · unfold Filt.put
    rw [hp1, bind_ok']
    dsimp only
    rw [if_pos rfl, hp2, bind_ok']
  · have e3 : streamEvents O fw cut c2 evs2 = .ok (c2, []) := by
      rcases hlast with h | h <;> rw [h] <;> rfl
    rw [e3, bind_ok'] at es
    dsimp only at es
    rw [List.append_nil] at es
    rcases hn with hn | hn
    · rw [hn]; exact es
    · rw [hn]; exact es

end

end Verif.AuthFilter
