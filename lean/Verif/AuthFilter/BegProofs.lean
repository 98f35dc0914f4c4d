import Verif.AuthFilter.DecProofs

/-! Proofs about the decryption filter with `MAC_AT_BEGIN`. -/
namespace Verif.AuthFilter

open Verif.BufFilter Verif.BufFilter.Filt
open Verif.HashFilter (bind_ok' reset_pre slice_all)

/-- `d` has come on the default channel, and `a` as additional data. -/
structure BegSt {σ : Type} (Hd : σ → List Byte → Prop) (Tx : σ → List Byte → List Byte → Prop) (n : Nat) (s : Dec σ) (a d : List Byte) : Prop where
  sf : Ready s.sf 0 []
  short : d.length < n → Pre s.base n 1 0 d ∧ Pre s.hv n 1 0 [] ∧ Hd s.c [] ∧ a = []
  long : n ≤ d.length → Mid s.base n 1 0 [] ∧ Mid s.hv n 1 0 [] ∧ s.expected = d.take n ∧ Tx s.c a (d.drop n) ∧ (d.length = n → Hd s.c a)

/-- Between messages, the last of which did not end with the exception. -/
structure Fresh {σ : Type} (n : Nat) (s : Dec σ) : Prop where
  base : Pre s.base n 1 0 []
  hv : Pre s.hv n 1 0 []
  sf : Ready s.sf 0 []

theorem nexts_nil {xs : List (List Byte)} (h : NextOk 1 xs) (h0 : xs.flatten = []) : xs = [] := by
  cases xs with
  | nil => rfl
  | cons x xs =>
    have h1 := (h x (by simp)).1
    rw [List.flatten_cons] at h0
    have : x = [] := (List.append_eq_nil_iff.1 h0).1
    rw [this] at h1
    exact absurd h1 (by decide)

section
variable {σ : Type} {O : Aead σ} {C : Cipher} {Hd : σ → List Byte → Prop} {Tx : σ → List Byte → List Byte → Prop} (S : O.Serves C Hd Tx)
  {cut : Nat → Nat} (hcut : ∀ r, 0 < r → 1 ≤ cut r ∧ cut r ≤ r) (fl : Flags)

theorem hvPut_nil (s : Dec σ) : Dec.hvPut O fl s [] = .ok s := by unfold Dec.hvPut Filt.put; rfl

/-- The code reaches the verifier. -/
theorem hvPut_mac (hfl : fl.macAtBegin = true) (n : Nat) (hn : 0 < n) (s : Dec σ) (x : List Byte) (hx : x.length = n) (hr : Pre s.hv n 1 0 []) :
    ∃ hv', Dec.hvPut O fl s x = .ok { s with hv := hv', expected := x } ∧ Mid hv' n 1 0 [] := by
  obtain ⟨f', c', xs, e, m, h1, h2, h3, h4⟩ := putData_pre_long s.hv n 1 0 [] x hr (Nat.zero_le _) (by simp; omega)
  rw [List.nil_append, List.drop_eq_nil_of_le (by omega)] at h1
  rw [List.nil_append, List.take_of_length_le (by omega)] at e
  have hc : c' = [] := (List.append_eq_nil_iff.1 h1).2
  have hxs := nexts_nil h2 (List.append_eq_nil_iff.1 h1).1
  subst hc hxs
  refine ⟨f', ?_, m⟩
  unfold Dec.hvPut Filt.put
  rw [if_pos (by omega), e, bind_ok']
  simp only [Bool.false_eq_true, if_false]
  rw [bind_ok', bind_ok']
  dsimp only
  rw [List.map_nil, List.append_nil, Dec.hvEvents, hfl]
  rfl

include S

theorem aad_begin (n : Nat) (s : Dec σ) (a d x : List Byte) (h : BegSt Hd Tx n s a d) (hd : d.length = n) (hl : (a ++ x).length ≤ C.maxHeader) :
    ∃ s', Dec.aad O fl s x = .ok s' ∧ BegSt Hd Tx n s' (a ++ x) d := by
  obtain ⟨h1, h2, h3, h4, h5⟩ := h.long (by omega)
  unfold Dec.aad
  by_cases hx : x.length = 0
  · have : x = [] := List.eq_nil_of_length_eq_zero hx
    subst this
    exact ⟨s, hvPut_nil fl s, by rw [List.append_nil]; exact h⟩
  · obtain ⟨f', c', xs, e, m, g1, g2, g3, g4⟩ := putData_mid s.hv n 1 0 [] x h2
    have hc : c' = [] := List.eq_nil_of_length_eq_zero (by omega)
    subst hc
    rw [List.append_nil, List.nil_append] at g1
    obtain ⟨k', e', hk⟩ := hv_nexts S fl xs g2 { s with hv := f' } a (h5 hd) (by rw [g1]; exact hl)
    rw [g1] at hk
    refine ⟨{ s with hv := f', c := k' }, ?_, h.sf, fun hlt => by omega, fun _ => ⟨h1, m, h3, ?_, fun _ => hk⟩⟩
    · unfold Dec.hvPut Filt.put
      rw [if_pos hx, e, bind_ok']
      simp only [Bool.false_eq_true, if_false]
      rw [bind_ok', bind_ok']
      dsimp only
      rw [List.append_nil]
      exact e'
    · rw [List.drop_eq_nil_of_le (by omega)]
      exact S.weaken _ _ hk

theorem aadAll_begin (n : Nat) (xs : List (List Byte)) : ∀ (s : Dec σ) (a d : List Byte), BegSt Hd Tx n s a d → (d.length = n ∨ xs.flatten = []) → (a ++ xs.flatten).length ≤ C.maxHeader →
    ∃ s', Dec.aadAll O fl s xs = .ok s' ∧ BegSt Hd Tx n s' (a ++ xs.flatten) d := by
  induction xs with
  | nil => intro s a d h _ _; exact ⟨s, rfl, by simpa using h⟩
  | cons x xs ih =>
    intro s a d h hd hl
    rw [List.flatten_cons] at hd hl ⊢
    obtain ⟨s1, e1, h1⟩ : ∃ s', Dec.aad O fl s x = .ok s' ∧ BegSt Hd Tx n s' (a ++ x) d := by
      rcases hd with hd | hd
      · exact aad_begin S fl n s a d x h hd (by simp only [List.length_append] at hl ⊢; omega)
      · have : x = [] := (List.append_eq_nil_iff.1 hd).1
        subst this
        exact ⟨s, hvPut_nil fl s, by rw [List.append_nil]; exact h⟩
    obtain ⟨s2, e2, h2⟩ := ih s1 (a ++ x) d h1 (hd.imp id (fun h => (List.append_eq_nil_iff.1 h).2)) (by rw [List.append_assoc]; exact hl)
    refine ⟨s2, ?_, by rw [List.append_assoc] at h2; exact h2⟩
    rw [Dec.aadAll, e1, bind_ok', e2]

include hcut

/-- `events_nexts`, and nothing happens when there is no text. -/
theorem events_nexts' (xs : List (List Byte)) (hxs : NextOk 1 xs) (s : Dec σ) (a t : List Byte) (hr : Ready s.sf 0 []) (ht : Tx s.c a t) (hl : (t ++ xs.flatten).length ≤ C.maxMessage) :
    ∃ sf' c', Dec.events O cut fl s (xs.map .next) = .ok ({ s with sf := sf', c := c' }, xorBytes xs.flatten (load C.ks t.length xs.flatten.length)) ∧ Ready sf' 0 [] ∧ Tx c' a (t ++ xs.flatten) ∧
      (xs.flatten = [] → c' = s.c) := by
  by_cases h0 : xs.flatten = []
  · have := nexts_nil hxs h0
    subst this
    exact ⟨s.sf, s.c, rfl, hr, by simpa using ht, fun _ => rfl⟩
  · obtain ⟨sf', c', e, r, t'⟩ := events_nexts S hcut fl xs s a t hr ht hl
    exact ⟨sf', c', e, r, t', fun h => absurd h h0⟩

theorem data_begin (hfl : fl.macAtBegin = true) (n : Nat) (hn : 0 < n) (s : Dec σ) (a d x : List Byte) (h : BegSt Hd Tx n s a d) (hl : (d ++ x).length ≤ C.maxMessage + n) :
    ∃ s' y, Dec.channelPut O .leftToRight cut fl n s x false = .ok (s', (xorBytes y (load C.ks (d.drop n).length y.length)).map .text, false) ∧ BegSt Hd Tx n s' a (d ++ x) ∧
      (d ++ x).drop n = d.drop n ++ y := by
  have hls : s.base.lastSize = 0 := by
    by_cases hc : d.length < n
    · exact (h.short hc).1.ls
    · exact (h.long (by omega)).1.ls
  have key : ∃ s' y, (if x.length ≠ 0 then do
        let (base, evs) ← s.base.putData x
        Dec.events O cut fl { s with base := base } evs
      else .ok (s, []) : Except Err (Dec σ × List Byte)) = .ok (s', xorBytes y (load C.ks (d.drop n).length y.length)) ∧ BegSt Hd Tx n s' a (d ++ x) ∧ (d ++ x).drop n = d.drop n ++ y := by
    by_cases hx : x.length = 0
    · have : x = [] := List.eq_nil_of_length_eq_zero hx
      subst this
      exact ⟨s, [], rfl, by rw [List.append_nil]; exact h, by simp⟩
    rw [if_pos hx]
    rw [List.length_append] at hl
    by_cases hc : d.length < n
    · obtain ⟨h1, h2, h3, h4⟩ := h.short hc
      have hd0 : d.drop n = [] := List.drop_eq_nil_of_le (by omega)
      by_cases hs : (d ++ x).length < n
      · obtain ⟨f', e, p⟩ := putData_pre_short s.base n 1 0 d x h1 hs
        refine ⟨{ s with base := f' }, [], by rw [e]; rfl, ⟨h.sf, fun _ => ⟨p, h2, h3, h4⟩, fun hge => by omega⟩, ?_⟩
        rw [hd0, List.drop_eq_nil_of_le (by omega)]; rfl
      · have hge : n ≤ (d ++ x).length := by omega
        obtain ⟨f', c', xs, e, m, g1, g2, g3, g4⟩ := putData_pre_long s.base n 1 0 d x h1 (by omega) hge
        have hc' : c' = [] := List.eq_nil_of_length_eq_zero (by omega)
        subst hc'
        rw [List.append_nil] at g1
        obtain ⟨hv', e1, m1⟩ := hvPut_mac (O := O) fl hfl n hn { s with base := f' } ((d ++ x).take n) (by rw [List.length_take]; omega) h2
        obtain ⟨sf', k', e2, r2, t2, z2⟩ := events_nexts' S hcut fl xs g2 { s with base := f', hv := hv', expected := (d ++ x).take n } [] [] h.sf (S.weaken _ _ h3)
          (by rw [g1]; simp only [List.nil_append, List.length_drop, List.length_append]; omega)
        rw [g1, List.nil_append] at t2
        rw [g1] at e2 z2
        refine ⟨{ s with base := f', hv := hv', expected := (d ++ x).take n, sf := sf', c := k' }, (d ++ x).drop n, ?_, ⟨r2, fun hlt => by omega, fun _ => ⟨m, m1, rfl, by rw [h4]; exact t2, fun hlen => ?_⟩⟩, by rw [hd0]; rfl⟩
        · rw [e, bind_ok']
          dsimp only
          rw [Dec.events, e1, bind_ok', e2, hd0]
        · have := z2 (List.drop_eq_nil_of_le (by omega))
          show Hd k' a
          rw [this, h4]; exact h3
    · obtain ⟨h1, h2, h3, h4, h5⟩ := h.long (by omega)
      obtain ⟨f', c', xs, e, m, g1, g2, g3, g4⟩ := putData_mid s.base n 1 0 [] x h1
      have hc' : c' = [] := List.eq_nil_of_length_eq_zero (by omega)
      subst hc'
      rw [List.append_nil, List.nil_append] at g1
      have hdrop : (d ++ x).drop n = d.drop n ++ x := List.drop_append_of_le_length (by omega)
      obtain ⟨sf', k', e2, r2, t2⟩ := events_nexts S hcut fl xs { s with base := f' } a (d.drop n) h.sf h4
        (by rw [g1]; simp only [List.length_drop, List.length_append]; omega)
      rw [g1] at t2 e2
      refine ⟨{ s with base := f', sf := sf', c := k' }, x, ?_, ⟨r2, fun hlt => ?_, fun _ => ⟨m, h2, ?_, by rw [hdrop]; exact t2, fun hlen => ?_⟩⟩, hdrop⟩
      · rw [e, bind_ok']; exact e2
      · rw [List.length_append] at hlt; omega
      · show s.expected = _
        rw [h3, List.take_append_of_le_length (by omega)]
      · rw [List.length_append] at hlen; omega
  obtain ⟨s', y, e, h1, h2⟩ := key
  refine ⟨s', y, ?_, h1, h2⟩
  unfold Dec.channelPut
  rw [hls, if_neg (by omega), bind_ok']
  unfold Dec.put
  rw [e, bind_ok']
  rfl

theorem dataMore_begin (hfl : fl.macAtBegin = true) (n : Nat) (hn : 0 < n) (xs : List (List Byte)) : ∀ (s : Dec σ) (a d : List Byte), BegSt Hd Tx n s a d → (d ++ xs.flatten).length ≤ C.maxMessage + n →
    ∃ s' y, Dec.dataMore O .leftToRight cut fl n s xs = .ok (s', (xorBytes y (load C.ks (d.drop n).length y.length)).map .text) ∧ BegSt Hd Tx n s' a (d ++ xs.flatten) ∧
      (d ++ xs.flatten).drop n = d.drop n ++ y := by
  induction xs with
  | nil => intro s a d h _; exact ⟨s, [], rfl, by simpa using h, by simp⟩
  | cons x xs ih =>
    intro s a d h hl
    rw [List.flatten_cons] at hl ⊢
    obtain ⟨s1, y1, e1, h1, g1⟩ := data_begin S hcut fl hfl n hn s a d x h (by simp only [List.length_append] at hl ⊢; omega)
    obtain ⟨s2, y2, e2, h2, g2⟩ := ih s1 a (d ++ x) h1 (by rw [List.append_assoc]; exact hl)
    rw [List.append_assoc] at h2 g2
    refine ⟨s2, y1 ++ y2, ?_, h2, by rw [g2, g1, List.append_assoc]⟩
    rw [Dec.dataMore, e1, bind_ok']
    dsimp only
    rw [e2, bind_ok', g1, List.length_append, List.length_append, load_add, xorBytes_append _ _ _ _ (by simp), List.map_append]
    rfl

/-- The message end. -/
theorem finish_begin (hfl : fl.macAtBegin = true) (n : Nat) (hd : n ≤ O.digestSize) (s : Dec σ) (a d : List Byte) (h : BegSt Hd Tx n s a d) (hlen : n ≤ d.length)
    (ha : a.length ≤ C.maxHeader) (hl : d.length ≤ C.maxMessage + n) (ok : Bool) (hok : ok = decide (C.tag a (d.drop n) n = d.take n)) :
    ∃ s', Dec.channelPut O .leftToRight cut fl n s [] true = .ok (s', if fl.throwException && !ok then [] else [.messageEnd], fl.throwException && !ok) ∧ s'.verified = ok ∧
      ((fl.throwException && !ok) = false → Fresh n s') := by
  obtain ⟨h1, h2, h3, h4, _⟩ := h.long hlen
  have hll : (d.drop n).length ≤ C.maxMessage := by rw [List.length_drop]; omega
  obtain ⟨q1, e1⟩ := Ring.getAll_spec s.base.q h1.qinv
  obtain ⟨q2, e2⟩ := Ring.getAll_spec s.hv.q h2.qinv
  rw [h1.con] at e1
  rw [h2.con] at e2
  obtain ⟨sf', c1, e3, r3, t3⟩ := sfPut_spec S hcut { s with base := { s.base with q := q1 } } a (d.drop n) [] h.sf h4 (by simpa using hll) true
  rw [List.append_nil] at t3
  obtain ⟨c2, e4⟩ := S.final c1 a (d.drop n) n t3 ha hll hd
  have e5 : Dec.verify O { s with base := { s.base with q := q1 }, sf := sf', c := c1, hv := { s.hv with q := q2 } } s.expected n =
      .ok { s with base := { s.base with q := q1 }, sf := sf', c := c2, hv := { s.hv with q := q2 }, verified := ok } := by
    unfold Dec.verify
    dsimp only
    rw [e4, bind_ok']
    dsimp only
    rw [slice_all s.expected n (by rw [h3, List.length_take]; omega), bind_ok', hok, h3]
    rfl
  have e6 : Dec.hvEnd O fl n { s with base := { s.base with q := q1 }, sf := sf', c := c1 } [] = .ok (
      if fl.throwException && !ok then { s with base := { s.base with q := q1 }, sf := sf', c := c2, hv := { s.hv with q := q2 }, verified := ok }
      else { s with base := { s.base with q := q1 }, sf := sf', c := c2, hv := { s.hv with firstDone := false, q := Ring.reset s.hv.junk 1 s.hv.firstSize }, verified := ok }, fl.throwException && !ok) := by
    unfold Dec.hvEnd
    rw [hvPut_nil, bind_ok']
    dsimp only
    rw [if_neg (by rw [h2.done]; simp)]
    dsimp only
    rw [e2, bind_ok']
    dsimp only
    rw [if_pos hfl, e5, bind_ok']
    dsimp only
    by_cases hthrow : (fl.throwException && !ok) = true
    · rw [if_pos hthrow, if_pos hthrow, hthrow]; rfl
    · rw [if_neg hthrow, if_neg hthrow, Bool.eq_false_iff.2 hthrow]; rfl
  have e0 : Dec.channelPut O .leftToRight cut fl n s [] true = Dec.finish O cut fl n s := by
    unfold Dec.channelPut
    rw [h1.ls, if_neg (by omega), bind_ok']
    unfold Dec.put
    rw [if_neg (by simp), bind_ok']
    dsimp only
    rw [if_pos rfl]
    rcases Dec.finish O cut fl n s with e | ⟨x, y, z⟩ <;> rfl
  by_cases hthrow : (fl.throwException && !ok) = true
  · rw [hthrow] at e6 ⊢
    refine ⟨{ s with base := { s.base with q := q1 }, sf := sf', c := c2, hv := { s.hv with q := q2 }, verified := ok }, ?_, rfl, fun h => (Bool.noConfusion h)⟩
    rw [e0]
    unfold Dec.finish
    rw [if_neg (by rw [h1.done]; simp), bind_ok', e1, bind_ok']
    dsimp only
    rw [e3, bind_ok']
    dsimp only
    rw [e6, bind_ok']
    rfl
  · rw [Bool.eq_false_iff.2 hthrow] at e6 ⊢
    refine ⟨{ s with base := { s.base with firstDone := false, q := Ring.reset s.base.junk 1 s.base.firstSize }, sf := sf', c := c2, hv := { s.hv with firstDone := false, q := Ring.reset s.hv.junk 1 s.hv.firstSize }, verified := ok }, ?_, rfl,
      fun _ => ⟨reset_pre h1.fs h1.bs h1.ls (Nat.le_refl _), reset_pre h2.fs h2.bs h2.ls (Nat.le_refl _), r3⟩⟩
    rw [e0]
    unfold Dec.finish
    rw [if_neg (by rw [h1.done]; simp), bind_ok', e1, bind_ok']
    dsimp only
    rw [e3, bind_ok']
    dsimp only
    rw [e6, bind_ok']
    rfl

/-- One message with the code at the beginning. -/
theorem message_begin (hfl : fl.macAtBegin = true) (n : Nat) (hn : 0 < n) (hd : n ≤ O.digestSize) (s : Dec σ) (hi : Fresh n s) (m : BMsg σ) (hc : Hd m.c [])
    (hm : m.macs.flatten.length = n ∨ m.aads.flatten = []) (hlen : n ≤ (m.macs.flatten ++ m.datas.flatten).length)
    (ha : m.aads.flatten.length ≤ C.maxHeader) (hl : (m.macs.flatten ++ m.datas.flatten).length ≤ C.maxMessage + n) :
    ∃ s1 s2 s' o o' , Dec.dataMore O .leftToRight cut fl n { s with c := m.c } m.macs = .ok (s1, o) ∧ Dec.aadAll O fl s1 m.aads = .ok s2 ∧
      Dec.dataAll O .leftToRight cut fl n s2 m.datas = .ok (s', o', (decSpecBegin C fl n m.aads.flatten (m.macs.flatten ++ m.datas.flatten)).thrown) ∧
      o ++ o' = (decSpecBegin C fl n m.aads.flatten (m.macs.flatten ++ m.datas.flatten)).output ∧ s'.verified = (decSpecBegin C fl n m.aads.flatten (m.macs.flatten ++ m.datas.flatten)).lastResult ∧
      ((decSpecBegin C fl n m.aads.flatten (m.macs.flatten ++ m.datas.flatten)).thrown = false → Fresh n s') := by
  have h0 : BegSt Hd Tx n { s with c := m.c } [] [] := ⟨hi.sf, fun _ => ⟨hi.base, hi.hv, hc, rfl⟩, fun h => by simp at h; omega⟩
  rw [List.length_append] at hl
  obtain ⟨s1, y1, e1, h1, g1⟩ := dataMore_begin S hcut fl hfl n hn m.macs { s with c := m.c } [] [] h0 (by rw [List.nil_append]; omega)
  rw [List.nil_append] at h1 g1
  rw [List.drop_nil, List.nil_append] at g1
  obtain ⟨s2, e2, h2⟩ := aadAll_begin S fl n m.aads s1 [] m.macs.flatten h1 hm (by rw [List.nil_append]; exact ha)
  rw [List.nil_append] at h2
  obtain ⟨s3, y3, e3, h3, g3⟩ := dataMore_begin S hcut fl hfl n hn m.datas s2 m.aads.flatten m.macs.flatten h2 (by rw [List.length_append]; omega)
  obtain ⟨s4, e4, v4, f4⟩ := finish_begin S hcut fl hfl n hd s3 m.aads.flatten _ h3 hlen ha (by rw [List.length_append]; omega) _ rfl
  have e6 : ∀ (o : List Item), Dec.dataMore O .leftToRight cut fl n s2 m.datas = .ok (s3, o) → ∀ (o' : List Item) (t : Bool), Dec.channelPut O .leftToRight cut fl n s3 [] true = .ok (s4, o', t) →
      Dec.dataAll O .leftToRight cut fl n s2 m.datas = .ok (s4, o ++ o', t) := by
    intro o h o' t h'
    unfold Dec.dataAll
    rw [h, bind_ok']
    dsimp only
    rw [h', bind_ok']
    rfl
  refine ⟨s1, s2, s4, _, _, e1, e2, e6 _ e3 _ _ e4, ?_, v4, f4⟩
  · unfold decSpecBegin Result.make Cipher.crypt
    dsimp only
    rw [g3, g1, ← List.append_assoc, ← List.map_append, List.drop_nil, List.length_nil, List.length_append, load_add, xorBytes_append _ _ _ _ (by simp), Nat.zero_add]

end

end Verif.AuthFilter
