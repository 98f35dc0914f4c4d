import Verif.AuthFilter.Proofs

/-! Proofs about the decryption filter. -/
namespace Verif.AuthFilter

open Verif.BufFilter Verif.BufFilter.Filt
open Verif.HashFilter (bind_ok' reset_pre slice_all)

section
variable {σ : Type} {O : Aead σ} {C : Cipher} {Hd : σ → List Byte → Prop} {Tx : σ → List Byte → List Byte → Prop} (S : O.Serves C Hd Tx)
  {cut : Nat → Nat} (hcut : ∀ r, 0 < r → 1 ≤ cut r ∧ cut r ≤ r) (fl : Flags)
include S

theorem hv_nexts (xs : List (List Byte)) (hxs : NextOk 1 xs) : ∀ (s : Dec σ) (a : List Byte), Hd s.c a → (a ++ xs.flatten).length ≤ C.maxHeader →
    ∃ c', Dec.hvEvents O fl s (xs.map .next) = .ok { s with c := c' } ∧ Hd c' (a ++ xs.flatten) := by
  induction xs with
  | nil => intro s a h _; exact ⟨s.c, rfl, by simpa using h⟩
  | cons x xs ih =>
    intro s a h hl
    rw [List.flatten_cons] at hl ⊢
    obtain ⟨c1, e1, h1⟩ := S.update s.c a x h (by have := (hxs x (by simp)).1; omega) (by simp at hl ⊢; omega)
    obtain ⟨c2, e2, h2⟩ := ih (fun y hy => hxs y (List.mem_cons_of_mem _ hy)) { s with c := c1 } (a ++ x) h1 (by simpa using hl)
    refine ⟨c2, ?_, by simpa using h2⟩
    rw [List.map_cons, Dec.hvEvents, e1]
    exact e2

/-- Additional data, when the code comes at the end. -/
theorem hvPut_end (hfl : fl.macAtBegin = false) (n : Nat) (s : Dec σ) (a c x : List Byte) (hr : Ready s.hv n c) (hh : Hd s.c a) (hl : (a ++ (c ++ x)).length ≤ C.maxHeader) :
    ∃ hv' c' a' k', Dec.hvPut O fl s x = .ok { s with hv := hv', c := k' } ∧ Ready hv' n c' ∧ Hd k' a' ∧ a' ++ c' = a ++ (c ++ x) := by
  obtain ⟨f', c', xs, evs, e, hn, hr', h1, h2, h3⟩ := ready_put hr x
  have hlx : (a ++ xs.flatten).length ≤ C.maxHeader := by
    rw [← h1] at hl
    simp only [List.length_append] at hl ⊢; omega
  obtain ⟨k', e', hk⟩ := hv_nexts S fl xs h2 { s with hv := f' } a hh hlx
  refine ⟨f', c', a ++ xs.flatten, k', ?_, hr', hk, by rw [List.append_assoc, h1]⟩
  unfold Dec.hvPut
  rw [e, bind_ok']
  dsimp only
  rcases hn with hn | hn
  · rw [hn]; exact e'
  · rw [hn, Dec.hvEvents, hfl]; exact e'

theorem aadAll_end (hfl : fl.macAtBegin = false) (n : Nat) (xs : List (List Byte)) : ∀ (s : Dec σ) (a c : List Byte), Ready s.hv n c → Hd s.c a → (a ++ (c ++ xs.flatten)).length ≤ C.maxHeader →
    ∃ hv' c' a' k', Dec.aadAll O fl s xs = .ok { s with hv := hv', c := k' } ∧ Ready hv' n c' ∧ Hd k' a' ∧ a' ++ c' = a ++ (c ++ xs.flatten) := by
  induction xs with
  | nil => intro s a c hr hh _; exact ⟨s.hv, c, a, s.c, rfl, hr, hh, by simp⟩
  | cons x xs ih =>
    intro s a c hr hh hl
    rw [List.flatten_cons] at hl ⊢
    obtain ⟨hv1, c1, a1, k1, e1, r1, h1, g1⟩ := hvPut_end S fl hfl n s a c x hr hh (by simp only [List.length_append] at hl ⊢; omega)
    have hg : a1 ++ (c1 ++ xs.flatten) = a ++ (c ++ (x ++ xs.flatten)) := by
      rw [← List.append_assoc, g1]; simp only [List.append_assoc]
    obtain ⟨hv2, c2, a2, k2, e2, r2, h2, g2⟩ := ih { s with hv := hv1, c := k1 } a1 c1 r1 h1 (by rw [hg]; exact hl)
    refine ⟨hv2, c2, a2, k2, ?_, r2, h2, g2.trans hg⟩
    rw [Dec.aadAll, Dec.aad, e1, bind_ok', e2]

include hcut

theorem sfPut_spec (s : Dec σ) (a t x : List Byte) (hr : Ready s.sf 0 []) (ht : Tx s.c a t) (hl : (t ++ x).length ≤ C.maxMessage) (messageEnd : Bool) :
    ∃ sf' c', Dec.sfPut O cut s x messageEnd = .ok ({ s with sf := sf', c := c' }, xorBytes x (load C.ks t.length x.length)) ∧ Ready sf' 0 [] ∧ Tx c' a (t ++ x) := by
  cases messageEnd with
  | false =>
    obtain ⟨f', evs, c', e1, r, e2, t'⟩ := stream_put S hcut false hr x s.c a t ht hl
    refine ⟨f', c', ?_, r, t'⟩
    unfold Dec.sfPut
    rw [e1, bind_ok']
    dsimp only
    rw [e2]; rfl
  | true =>
    obtain ⟨f', evs, c', e1, r, e2, t'⟩ := stream_end S hcut false hr x s.c a t ht hl
    refine ⟨f', c', ?_, r, t'⟩
    unfold Dec.sfPut
    rw [e1, bind_ok']
    dsimp only
    rw [e2]; rfl

theorem events_nexts (xs : List (List Byte)) : ∀ (s : Dec σ) (a t : List Byte), Ready s.sf 0 [] → Tx s.c a t → (t ++ xs.flatten).length ≤ C.maxMessage →
    ∃ sf' c', Dec.events O cut fl s (xs.map .next) = .ok ({ s with sf := sf', c := c' }, xorBytes xs.flatten (load C.ks t.length xs.flatten.length)) ∧ Ready sf' 0 [] ∧ Tx c' a (t ++ xs.flatten) := by
  induction xs with
  | nil => intro s a t hr ht _; exact ⟨s.sf, s.c, rfl, hr, by simpa using ht⟩
  | cons x xs ih =>
    intro s a t hr ht hl
    rw [List.flatten_cons] at hl ⊢
    obtain ⟨sf1, c1, e1, r1, t1⟩ := sfPut_spec S hcut s a t x hr ht (by simp only [List.length_append] at hl ⊢; omega) false
    obtain ⟨sf2, c2, e2, r2, t2⟩ := ih { s with sf := sf1, c := c1 } a (t ++ x) r1 t1 (by rw [List.append_assoc]; exact hl)
    refine ⟨sf2, c2, ?_, r2, by rw [List.append_assoc] at t2; exact t2⟩
    rw [List.map_cons, Dec.events, e1, bind_ok']
    dsimp only
    rw [e2, bind_ok', List.length_append, List.length_append, load_add, xorBytes_append _ _ _ _ (by simp)]
    rfl

/-! ## `MAC_AT_END` -/

/-- The text has begun: `d` has come on the default channel. -/
structure EndSt (Tx : σ → List Byte → List Byte → Prop) (n : Nat) (s : Dec σ) (a t c : List Byte) : Prop where
  base : Ready s.base n c
  hv : Ready s.hv n []
  sf : Ready s.sf 0 []
  tx : Tx s.c a t
  short : t ≠ [] → n ≤ c.length

/-- The three buffers between messages, whether or not the last message ended with the exception. -/
structure Idle (n : Nat) (s : Dec σ) : Prop where
  base : Ready s.base n []
  hv : Ready s.hv n []
  sf : Ready s.sf 0 []

omit hcut in
/-- `ForceNextPut`, or nothing. -/
theorem force_end (n : Nat) (s : Dec σ) (a c d : List Byte) (hb : Ready s.base n d) (hr : Ready s.hv n c) (hh : Hd s.c a) (hl : (a ++ c).length ≤ C.maxHeader) :
    ∃ hv' k', (if s.base.lastSize > 0 then Dec.hvForce O .leftToRight fl s else .ok s) = .ok { s with hv := hv', c := k' } ∧ Ready hv' n [] ∧ Hd k' (a ++ c) := by
  rw [hb.last]
  by_cases hn : n > 0
  · rw [if_pos hn]
    obtain ⟨f', xs, e, r, h1, h2⟩ := ready_force hr
    obtain ⟨k', e', hk⟩ := hv_nexts S fl xs h2 { s with hv := f' } a hh (by rw [h1]; exact hl)
    rw [h1] at hk
    refine ⟨f', k', ?_, r, hk⟩
    unfold Dec.hvForce
    rw [e]; exact e'
  · rw [if_neg hn]
    have hn0 : n = 0 := by omega
    subst hn0
    have := ready0 hr
    subst this
    exact ⟨s.hv, s.c, rfl, hr, by simpa using hh⟩

omit S hcut in
theorem force_idle (n : Nat) (s : Dec σ) (d : List Byte) (hb : Ready s.base n d) (hr : Ready s.hv n []) :
    ∃ hv', (if s.base.lastSize > 0 then Dec.hvForce O .leftToRight fl s else .ok s) = .ok { s with hv := hv' } ∧ Ready hv' n [] := by
  rw [hb.last]
  by_cases hn : n > 0
  · rw [if_pos hn]
    obtain ⟨f', xs, e, r, h1, h2⟩ := ready_force hr
    have hxs : xs = [] := by
      cases xs with
      | nil => rfl
      | cons x xs =>
        have := (h2 x (by simp)).1
        rw [List.flatten_cons] at h1
        have : x = [] := (List.append_eq_nil_iff.1 h1).1
        subst this
        simp at *
    subst hxs
    refine ⟨f', ?_, r⟩
    unfold Dec.hvForce
    rw [e]; rfl
  · rw [if_neg hn]; exact ⟨s.hv, rfl, hr⟩

/-- The data part of `Put`. -/
theorem data_end (n : Nat) (s : Dec σ) (a t c x : List Byte) (h : EndSt Tx n s a t c) (hl : (t ++ (c ++ x)).length ≤ C.maxMessage + n) :
    ∃ s' t' c' y, (if x.length ≠ 0 then do
        let (base, evs) ← s.base.putData x
        Dec.events O cut fl { s with base := base } evs
      else .ok (s, []) : Except Err (Dec σ × List Byte)) = .ok (s', xorBytes y (load C.ks t.length y.length)) ∧ EndSt Tx n s' a t' c' ∧ t' = t ++ y ∧ t' ++ c' = t ++ (c ++ x) := by
  by_cases hx : x.length = 0
  · have : x = [] := List.eq_nil_of_length_eq_zero hx
    subst this
    exact ⟨s, t, c, [], rfl, h, by simp, by simp⟩
  · rw [if_pos hx]
    obtain ⟨f', c', xs, evs, e, hn, hr, h1, h2, h3⟩ := ready_data h.base x
    have hlen : (t ++ xs.flatten).length ≤ C.maxMessage := by
      by_cases hxs : xs = []
      · subst hxs
        rw [List.flatten_nil, List.nil_append] at h1
        rw [List.flatten_nil, List.append_nil]
        by_cases ht : t = []
        · subst ht; simp
        · have := h.short ht
          rw [← h1] at hl
          have hc1 : c'.length = c.length + x.length := by rw [h1, List.length_append]
          have := hr.1
          simp only [List.length_append] at hl; omega
      · have := h3 hxs
        rw [← h1] at hl
        simp only [List.length_append] at hl ⊢; omega
    obtain ⟨sf', k', e', r', t'⟩ := events_nexts S hcut fl xs { s with base := f' } a t h.sf h.tx hlen
    refine ⟨{ s with base := f', sf := sf', c := k' }, t ++ xs.flatten, c', xs.flatten, ?_, ⟨hr, h.hv, r', t', ?_⟩, rfl, by rw [List.append_assoc, h1]⟩
    · rw [e, bind_ok']
      dsimp only
      rcases hn with hn | hn
      · rw [hn]; exact e'
      · rw [hn, Dec.events]
        have : Dec.hvPut O fl { s with base := f' } [] = .ok { s with base := f' } := by
          unfold Dec.hvPut Filt.put; rfl
        rw [this, bind_ok']; exact e'
    · intro hne
      by_cases hxs : xs = []
      · subst hxs
        rw [List.flatten_nil, List.nil_append] at h1
        rw [List.flatten_nil, List.append_nil] at hne
        have := h.short hne
        rw [h1, List.length_append]; omega
      · exact h3 hxs

omit S hcut in
theorem hv_short (n : Nat) (hfl : fl.macAtBegin = false) (s : Dec σ) (x : List Byte) (hr : Ready s.hv n []) (hx : x.length ≤ n) :
    ∃ hv', Dec.hvPut O fl s x = .ok { s with hv := hv' } ∧ Ready hv' n x := by
  obtain ⟨f', c', xs, evs, e, hn, hr', h1, h2, h3⟩ := ready_put hr x
  rw [List.nil_append] at h1
  have hxs : xs = [] := by
    cases xs with
    | nil => rfl
    | cons y ys =>
      have := (h2 y (by simp)).1
      have := h3 (by simp)
      rw [← h1] at hx
      rw [List.flatten_cons] at hx
      simp only [List.length_append] at hx; omega
  subst hxs
  rw [List.flatten_nil, List.nil_append] at h1
  subst h1
  refine ⟨f', ?_, hr'⟩
  unfold Dec.hvPut
  rw [e, bind_ok']
  dsimp only
  rcases hn with hn | hn
  · rw [hn]; rfl
  · rw [hn, Dec.hvEvents, hfl]; rfl

omit hcut in
theorem hvEnd_end (hfl : fl.macAtBegin = false) (n : Nat) (s : Dec σ) (a t x : List Byte) (hr : Ready s.hv n []) (hx : x.length ≤ n) (ht : Tx s.c a t)
    (ha : a.length ≤ C.maxHeader) (hl : t.length ≤ C.maxMessage) (hd : n ≤ O.digestSize) (ok : Bool) (hok : ok = decide (x.length = n ∧ C.tag a t n = x)) :
    ∃ hv' c', Dec.hvEnd O fl n s x = .ok ({ s with hv := hv', c := c', verified := ok }, fl.throwException && !ok) ∧ Ready hv' n [] := by
  obtain ⟨hv1, e1, r1⟩ := hv_short fl n hfl s x hr hx
  obtain ⟨q', e2, r2⟩ := ready_all r1
  have hv : ∃ c', (if fl.macAtBegin then Dec.verify O { s with hv := { hv1 with q := q' } } s.expected n
      else if x.length = n then Dec.verify O { s with hv := { hv1 with q := q' } } x n
      else .ok { s with hv := { hv1 with q := q' }, verified := false }) = .ok { s with hv := { hv1 with q := q' }, c := c', verified := ok } := by
    rw [hfl]
    simp only [Bool.false_eq_true, if_false]
    by_cases hc : x.length = n
    · rw [if_pos hc]
      obtain ⟨c', e⟩ := S.final s.c a t n ht ha hl hd
      refine ⟨c', ?_⟩
      unfold Dec.verify
      dsimp only
      rw [e, bind_ok']
      dsimp only
      rw [slice_all x n hc, bind_ok', hok]
      simp only [hc, true_and]
      rfl
    · rw [if_neg hc]
      refine ⟨s.c, ?_⟩
      rw [hok]
      simp only [hc, false_and, decide_false]
  obtain ⟨c', e3⟩ := hv
  by_cases hthrow : (fl.throwException && !ok) = true
  · refine ⟨{ hv1 with q := q' }, c', ?_, r2⟩
    unfold Dec.hvEnd
    rw [e1, bind_ok']
    dsimp only
    rw [if_neg (by rw [hfl]; simp)]
    dsimp only
    rw [e2, bind_ok']
    dsimp only
    rw [e3, bind_ok']
    dsimp only
    rw [if_pos hthrow, hthrow]
    rfl
  · refine ⟨{ hv1 with firstDone := false, q := Ring.reset hv1.junk 1 hv1.firstSize }, c', ?_, ready_reset r1⟩
    unfold Dec.hvEnd
    rw [e1, bind_ok']
    dsimp only
    rw [if_neg (by rw [hfl]; simp)]
    dsimp only
    rw [e2, bind_ok']
    dsimp only
    rw [e3, bind_ok']
    dsimp only
    rw [if_neg hthrow, Bool.eq_false_iff.2 hthrow]
    rfl

/-- The message end. -/
theorem finish_end (hfl : fl.macAtBegin = false) (n : Nat) (hd : n ≤ O.digestSize) (s : Dec σ) (a t c : List Byte) (h : EndSt Tx n s a t c)
    (ha : a.length ≤ C.maxHeader) (hl : t.length ≤ C.maxMessage) (ok : Bool) (hok : ok = decide (c.length = n ∧ C.tag a t n = c)) :
    ∃ s', Dec.finish O cut fl n s = .ok (s', if fl.throwException && !ok then [] else [.messageEnd], fl.throwException && !ok) ∧ Idle n s' ∧ s'.verified = ok := by
  have e0 : (if !s.base.firstDone ∧ s.base.firstSize = 0 then Dec.hvPut O fl s [] else .ok s) = .ok s := by
    split
    · unfold Dec.hvPut Filt.put; rfl
    · rfl
  obtain ⟨q', e1, r1⟩ := ready_all h.base
  obtain ⟨sf', c1, e2, r2, t2⟩ := sfPut_spec S hcut { s with base := { s.base with q := q' } } a t [] h.sf h.tx (by simpa using hl) true
  rw [List.append_nil] at t2
  obtain ⟨hv', c2, e3, r3⟩ := hvEnd_end S fl hfl n { s with base := { s.base with q := q' }, sf := sf', c := c1 } a t c h.hv h.base.1 t2 ha hl hd ok hok
  by_cases hthrow : (fl.throwException && !ok) = true
  · refine ⟨{ s with base := { s.base with q := q' }, sf := sf', hv := hv', c := c2, verified := ok }, ?_, ⟨r1, r3, r2⟩, rfl⟩
    unfold Dec.finish
    rw [e0, bind_ok', e1, bind_ok']
    dsimp only
    rw [e2, bind_ok']
    dsimp only
    rw [e3, bind_ok']
    dsimp only
    rw [if_pos hthrow, if_pos hthrow, hthrow]
    rfl
  · refine ⟨{ s with base := { s.base with firstDone := false, q := Ring.reset s.base.junk 1 s.base.firstSize }, sf := sf', hv := hv', c := c2, verified := ok }, ?_, ⟨ready_reset h.base, r3, r2⟩, rfl⟩
    unfold Dec.finish
    rw [e0, bind_ok', e1, bind_ok']
    dsimp only
    rw [e2, bind_ok']
    dsimp only
    rw [e3, bind_ok']
    dsimp only
    rw [if_neg hthrow, if_neg hthrow, Bool.eq_false_iff.2 hthrow]
    rfl

theorem channelPut_more (n : Nat) (s : Dec σ) (a t c x : List Byte) (h : EndSt Tx n s a t c) (hl : (t ++ (c ++ x)).length ≤ C.maxMessage + n) :
    ∃ s' t' c' y, Dec.channelPut O .leftToRight cut fl n s x false = .ok (s', (xorBytes y (load C.ks t.length y.length)).map .text, false) ∧ EndSt Tx n s' a t' c' ∧ t' = t ++ y ∧ t' ++ c' = t ++ (c ++ x) := by
  obtain ⟨hv', e1, r1⟩ := force_idle (O := O) fl n s c h.base h.hv
  obtain ⟨s', t', c', y, e2, h2, h3, h4⟩ := data_end S hcut fl n { s with hv := hv' } a t c x ⟨h.base, r1, h.sf, h.tx, h.short⟩ hl
  refine ⟨s', t', c', y, ?_, h2, h3, h4⟩
  unfold Dec.channelPut
  rw [e1, bind_ok']
  unfold Dec.put
  rw [e2, bind_ok']
  rfl

theorem dataMore_end (n : Nat) (xs : List (List Byte)) : ∀ (s : Dec σ) (a t c : List Byte), EndSt Tx n s a t c → (t ++ (c ++ xs.flatten)).length ≤ C.maxMessage + n →
    ∃ s' t' c' y, Dec.dataMore O .leftToRight cut fl n s xs = .ok (s', (xorBytes y (load C.ks t.length y.length)).map .text) ∧ EndSt Tx n s' a t' c' ∧ t' = t ++ y ∧ t' ++ c' = t ++ (c ++ xs.flatten) := by
  induction xs with
  | nil => intro s a t c h _; exact ⟨s, t, c, [], rfl, h, by simp, by simp⟩
  | cons x xs ih =>
    intro s a t c h hl
    rw [List.flatten_cons] at hl ⊢
    obtain ⟨s1, t1, c1, y1, e1, h1, g1, g1'⟩ := channelPut_more S hcut fl n s a t c x h (by simp only [List.length_append] at hl ⊢; omega)
    have hg : t1 ++ (c1 ++ xs.flatten) = t ++ (c ++ (x ++ xs.flatten)) := by
      rw [← List.append_assoc, g1']; simp only [List.append_assoc]
    obtain ⟨s2, t2, c2, y2, e2, h2, g2, g2'⟩ := ih s1 a t1 c1 h1 (by rw [hg]; exact hl)
    refine ⟨s2, t2, c2, y1 ++ y2, ?_, h2, by rw [g2, g1, List.append_assoc], g2'.trans hg⟩
    rw [Dec.dataMore, e1, bind_ok']
    dsimp only
    rw [e2, bind_ok', List.length_append, load_add, xorBytes_append _ _ _ _ (by simp), List.map_append, g1, List.length_append]
    rfl

/-- One message, with the code at the end, from any state between messages. -/
theorem message_end (hfl : fl.macAtBegin = false) (n : Nat) (hd : n ≤ O.digestSize) (s : Dec σ) (hi : Idle n s) (m : Msg σ) (hc : Hd m.c [])
    (ha : m.aads.flatten.length ≤ C.maxHeader) (hl : m.datas.flatten.length ≤ C.maxMessage + n) :
    ∃ s1 s', Dec.aadAll O fl { s with c := m.c } m.aads = .ok s1 ∧
      Dec.dataAll O .leftToRight cut fl n s1 m.datas = .ok (s', (decSpecEnd C fl n m.aads.flatten m.datas.flatten).output, (decSpecEnd C fl n m.aads.flatten m.datas.flatten).thrown) ∧
      Idle n s' ∧ s'.verified = (decSpecEnd C fl n m.aads.flatten m.datas.flatten).lastResult := by
  obtain ⟨hv1, c1, a1, k1, e1, r1, h1, g1⟩ := aadAll_end S fl hfl n m.aads { s with c := m.c } [] [] hi.hv hc (by simpa using ha)
  rw [List.nil_append, List.nil_append] at g1
  refine ⟨{ s with hv := hv1, c := k1 }, ?_⟩
  obtain ⟨s2, t2, c2, y2, e2, h2, g2, g2'⟩ : ∃ s2 t2 c2 y2, (do
      let (s, o) ← Dec.dataMore O .leftToRight cut fl n { s with hv := hv1, c := k1 } m.datas
      let s ← (if s.base.lastSize > 0 then Dec.hvForce O .leftToRight fl s else .ok s : Except Err (Dec σ))
      return (s, o) : Except Err (Dec σ × List Item)) = .ok (s2, (xorBytes y2 (load C.ks 0 y2.length)).map .text) ∧ EndSt Tx n s2 m.aads.flatten t2 c2 ∧ t2 = y2 ∧ t2 ++ c2 = m.datas.flatten := by
    obtain ⟨hv2, k2, f1, f2, f3⟩ := force_end S fl n { s with hv := hv1, c := k1 } a1 c1 [] hi.base r1 h1 (by rw [g1]; exact ha)
    rw [g1] at f3
    cases hds : m.datas with
    | nil =>
      rw [Dec.dataMore, bind_ok']
      dsimp only at f1 ⊢
      rw [f1, bind_ok']
      exact ⟨_, [], [], [], rfl, ⟨hi.base, f2, hi.sf, S.weaken _ _ f3, by simp⟩, rfl, rfl⟩
    | cons x xs =>
      rw [hds] at hl
      have hst : EndSt Tx n { s with hv := hv2, c := k2 } m.aads.flatten [] [] := ⟨hi.base, f2, hi.sf, S.weaken _ _ f3, by simp⟩
      -- a second `ForceNextPut` changes nothing that matters
      obtain ⟨s3, t3, c3, y3, e3, h3, g3, g3'⟩ := data_end S hcut fl n { s with hv := hv2, c := k2 } m.aads.flatten [] [] x hst (by simp only [List.length_append, List.length_flatten, List.map_cons, List.sum_cons, List.length_nil] at hl ⊢; omega)
      rw [List.nil_append] at g3
      rw [List.nil_append, List.nil_append] at g3'
      have hg : t3 ++ (c3 ++ xs.flatten) = (x :: xs).flatten := by rw [← List.append_assoc, g3', List.flatten_cons]
      obtain ⟨s4, t4, c4, y4, e4, h4, g4, g4'⟩ := dataMore_end S hcut fl n xs s3 m.aads.flatten t3 c3 h3 (by rw [hg]; exact hl)
      obtain ⟨hv5, e5, r5⟩ := force_idle (O := O) fl n s4 c4 h4.base h4.hv
      refine ⟨{ s4 with hv := hv5 }, t4, c4, y3 ++ y4, ?_, ⟨h4.base, r5, h4.sf, h4.tx, h4.short⟩, by rw [g4, g3], g4'.trans hg⟩
      have e6 : Dec.dataMore O .leftToRight cut fl n { s with hv := hv1, c := k1 } (x :: xs) = .ok (s4, (xorBytes (y3 ++ y4) (load C.ks 0 (y3 ++ y4).length)).map .text) := by
        rw [Dec.dataMore]
        unfold Dec.channelPut
        rw [f1, bind_ok']
        unfold Dec.put
        rw [e3, bind_ok']
        dsimp only
        simp only [Bool.false_eq_true, if_false]
        show (do let (s, o') ← Dec.dataMore O .leftToRight cut fl n s3 xs; return (s, _ ++ o')) = _
        rw [e4, bind_ok', List.length_append, load_add, xorBytes_append _ _ _ _ (by simp), List.map_append, g3]
        simp only [List.length_nil, Nat.zero_add]
        rfl
      rw [e6, bind_ok']
      dsimp only
      rw [e5, bind_ok']
      rfl
  have hct : c2.length = n ↔ n ≤ m.datas.flatten.length := by
    have := h2.base.1
    rw [← g2', List.length_append]
    constructor
    · intro h; omega
    · intro h
      by_cases ht : t2 = []
      · subst ht; simp at h; omega
      · have := h2.short ht; omega
  have htxt : t2 = m.datas.flatten.take (m.datas.flatten.length - n) := by
    by_cases hlt : n ≤ m.datas.flatten.length
    · have := hct.2 hlt
      rw [← g2', List.length_append, this, Nat.add_sub_cancel, List.take_left' rfl]
    · have : t2 = [] := by
        by_cases ht : t2 = []
        · exact ht
        · have := h2.short ht
          rw [← g2', List.length_append] at hlt; omega
      rw [this, show m.datas.flatten.length - n = 0 by omega, List.take_zero]
  have hmac : n ≤ m.datas.flatten.length → c2 = m.datas.flatten.drop (m.datas.flatten.length - n) := by
    intro hlt
    have := hct.2 hlt
    rw [← g2', List.length_append, this, Nat.add_sub_cancel, List.drop_left' rfl]
  have htl : t2.length ≤ C.maxMessage := by
    rw [htxt, List.length_take]; omega
  have hok : (decide (n ≤ m.datas.flatten.length ∧ C.tag m.aads.flatten (m.datas.flatten.take (m.datas.flatten.length - n)) n = m.datas.flatten.drop (m.datas.flatten.length - n))) =
      decide (c2.length = n ∧ C.tag m.aads.flatten t2 n = c2) := by
    apply decide_eq_decide.2
    rw [← htxt, hct]
    constructor
    · rintro ⟨h1, h2⟩; exact ⟨h1, h2.trans (hmac h1).symm⟩
    · rintro ⟨h1, h2⟩; exact ⟨h1, h2.trans (hmac h1)⟩
  obtain ⟨s7, e7, i7, v7⟩ := finish_end S hcut fl hfl n hd s2 m.aads.flatten t2 c2 h2 ha htl _ hok
  refine ⟨s7, e1, ?_, i7, v7⟩
  have e8 : ∀ (s0 : Dec σ) (xs : List (List Byte)), Dec.dataAll O .leftToRight cut fl n s0 xs = (do
      let (s, o) ← (do
        let (s, o) ← Dec.dataMore O .leftToRight cut fl n s0 xs
        let s ← (if s.base.lastSize > 0 then Dec.hvForce O .leftToRight fl s else .ok s : Except Err (Dec σ))
        return (s, o) : Except Err (Dec σ × List Item))
      let (s, o', thrown) ← Dec.finish O cut fl n s
      return (s, o ++ o', thrown)) := by
    intro s0 xs
    unfold Dec.dataAll Dec.channelPut Dec.put
    rcases Dec.dataMore O .leftToRight cut fl n s0 xs with e | ⟨s, o⟩
    · rfl
    · rw [bind_ok', bind_ok']
      dsimp only
      rcases (if s.base.lastSize > 0 then Dec.hvForce O .leftToRight fl s else .ok s) with e | s'
      · rfl
      · rw [bind_ok', bind_ok', if_neg (by simp), bind_ok']
        dsimp only
        rw [if_pos rfl]
        show _ = (do let (s, o', thrown) ← Dec.finish O cut fl n s'; return (s, o ++ o', thrown))
        rcases Dec.finish O cut fl n s' with e | ⟨s2, o2, th⟩ <;> rfl
  rw [e8, e2, bind_ok']
  dsimp only
  rw [e7, bind_ok']
  dsimp only
  unfold decSpecEnd Result.make Cipher.crypt
  dsimp only
  rw [← g2, htxt]
  rfl

end

end Verif.AuthFilter
