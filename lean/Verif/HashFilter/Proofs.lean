import Verif.HashFilter.Spec
import Verif.BufFilter.Props

namespace Verif.HashFilter
open Verif.BufFilter Verif.BufFilter.Filt
variable {σ : Type} {O : Hash.Obj σ} {H : List Byte → List Byte} {lim : Nat} {Rep : σ → List Byte → Prop}

theorem out_append (a b : List Byte) : out (a ++ b) = out a ++ out b := by simp [out]
theorem out_nil : out [] = [] := rfl

theorem bind_ok' {α β : Type} (a : α) (f : α → Except Err β) : (Except.ok a >>= f) = f a := rfl

theorem handle_nexts (C : O.Computes H lim Rep) (fl : Flags) (xs : List (List Byte)) (s : HV σ) (m : List Byte) (h : Rep s.hash m)
    (hl : (m ++ xs.flatten).length < lim) :
    ∃ h', handle O fl s (xs.map .next) = .ok ({ s with hash := h' }, if fl.putMessage then out xs.flatten else []) ∧ Rep h' (m ++ xs.flatten) := by
  induction xs generalizing s m with
  | nil => exact ⟨s.hash, by simp [handle, out], by simpa using h⟩
  | cons x xs ih =>
    rw [List.flatten_cons] at hl ⊢
    obtain ⟨h1, e1, r1⟩ := C.update s.hash m x h (by simp at hl ⊢; omega)
    obtain ⟨h2, e2, r2⟩ := ih { s with hash := h1 } (m ++ x) r1 (by simpa using hl)
    refine ⟨h2, ?_, by simpa using r2⟩
    rw [List.map_cons, handle, nextPut, e1]
    simp only [bind_ok', pure, Except.pure]
    rw [e2]
    simp only [bind_ok']
    cases fl.putMessage <;> simp [out_append]

/-- The result byte, the exception and the message end. -/
def tail (fl : Flags) (v : Bool) : List (Option Byte) :=
  (if fl.putResult then out [if v then 1 else 0] else []) ++ (if fl.throwException && !v then [] else [none])

/-! ## `HASH_AT_END` -/

/-- The filter has passed on `m` and holds back `c`. -/
structure AtEnd (Rep : σ → List Byte → Prop) (n : Nat) (s : HV σ) (m c : List Byte) : Prop where
  hash : Rep s.hash m
  len : c.length ≤ n
  full : m ≠ [] → c.length = n
  base : Mid s.base 0 1 n c ∨ (m = [] ∧ c = [] ∧ Pre s.base 0 1 n [])

theorem putFalse_end (C : O.Computes H lim Rep) (fl : Flags) (hfl : fl.hashAtBegin = false) (n : Nat) (s : HV σ) (m c inp : List Byte) (h : AtEnd Rep n s m c)
    (hl : (m ++ c ++ inp).length < lim) :
    ∃ s' x c', put O fl n s inp false = .ok (s', if fl.putMessage then out x else [], false) ∧ AtEnd Rep n s' (m ++ x) c' ∧ m ++ x ++ c' = m ++ c ++ inp := by
  by_cases hi : inp.length = 0
  · rw [List.length_eq_zero_iff.mp hi]
    refine ⟨s, [], c, ?_, by simpa using h, by simp⟩
    unfold put
    simp [out, bind_ok', pure, Except.pure]
  · have key : ∃ f' c' xs evs, s.base.putData inp = .ok (f', evs) ∧ Mid f' 0 1 n c' ∧ xs.flatten ++ c' = c ++ inp ∧ (xs ≠ [] → n ≤ c'.length) ∧
        c'.length < 1 + n ∧ NextOk 1 xs ∧ (evs = xs.map .next ∨ evs = .first [] :: xs.map .next) := by
      rcases h.base with hb | ⟨-, hc, hb⟩
      · obtain ⟨f', c', xs, e1, e2, e3, e4, e5, e6⟩ := putData_mid s.base 0 1 n c inp hb
        exact ⟨f', c', xs, _, e1, e2, e3, e5, e6, e4, .inl rfl⟩
      · subst hc
        obtain ⟨f', c', xs, e1, e2, e3, e4, e5, e6⟩ := putData_pre_long s.base 0 1 n [] inp hb (by simp) (by simp)
        exact ⟨f', c', xs, _, e1, e2, by simpa using e3, e5, e6, e4, .inr (by simp)⟩
    obtain ⟨f', c', xs, evs, e1, e2, e3, e5, e6, e4, e7⟩ := key
    obtain ⟨h', e8, r8⟩ := handle_nexts C fl xs { s with base := f' } m h.hash (by
      have := congrArg List.length e3
      rw [List.append_assoc, ← e3] at hl
      simp only [List.length_append] at hl ⊢; omega)
    have e9 : handle O fl { s with base := f' } evs = .ok ({ s with base := f', hash := h' }, if fl.putMessage then out xs.flatten else []) := by
      rcases e7 with rfl | rfl
      · exact e8
      · rw [handle, firstPut, hfl]
        simp only [Bool.false_eq_true, if_false]
        rw [e8]; rfl
    refine ⟨{ s with base := f', hash := h' }, xs.flatten, c', ?_, ⟨r8, by omega, ?_, .inl e2⟩, by rw [List.append_assoc, e3, List.append_assoc]⟩
    · unfold put
      rw [if_pos hi, e1]
      simp only [bind_ok']
      rw [e9]
      rfl
    · intro hne
      have : xs ≠ [] ∨ m ≠ [] := by
        by_cases hx : xs = []
        · subst hx; right; simpa using hne
        · exact .inl hx
      rcases this with hx | hm
      · have := e5 hx; omega
      · by_cases hx : xs = []
        · subst hx
          have := h.full hm
          have e3' : c' = c ++ inp := by simpa using e3
          have := congrArg List.length e3'
          rw [List.length_append] at this
          omega
        · have := e5 hx; omega

theorem reset_pre {f : Filt} {F B L : Nat} (h1 : f.firstSize = F) (h2 : f.blockSize = B) (h3 : f.lastSize = L) (h4 : 1 ≤ B) :
    Pre { f with firstDone := false, q := Ring.reset f.junk 1 f.firstSize } F B L [] := by
  have r := Ring.reset_spec f.junk 1 f.firstSize
  exact ⟨h1, h2, h3, h4, r.1, r.2, rfl, rfl, h1, rfl⟩

theorem slice_all (d : List Byte) (n : Nat) (h : d.length = n) : slice d 0 n = .ok d := by
  unfold slice; rw [if_pos (by omega), List.drop_zero, List.take_of_length_le (by omega)]

theorem lastPut_end (C : O.Computes H lim Rep) (fl : Flags) (hfl : fl.hashAtBegin = false) (n : Nat) (hn : n ≤ O.digestSize) (s : HV σ) (m c : List Byte)
    (hh : Rep s.hash m) (hlen : c.length < n → m = []) :
    ∃ s', s'.base = s.base ∧ Rep s'.hash [] ∧ s'.verified = decide (c.length = n ∧ (H m).take n = c) ∧
      lastPut O fl n s c = .ok (s', (if fl.putHash then out c else []) ++ (if fl.putResult then out [if s'.verified then 1 else 0] else []),
        fl.throwException && !s'.verified) ∨ n < c.length := by
  by_cases hgt : n < c.length
  · exact ⟨s, .inr hgt⟩
  unfold lastPut
  rw [hfl]
  by_cases hc : c.length = n
  · obtain ⟨h', e1, r1⟩ := C.final s.hash m n hh hn
    refine ⟨{ s with hash := h', verified := decide ((H m).take n = c) }, .inl ⟨rfl, r1, by simp [hc], ?_⟩⟩
    simp only [Bool.false_eq_true, if_false]
    rw [if_pos hc, hc, truncatedVerify, e1]
    simp only [bind_ok']
    rw [slice_all c n hc]
    rfl
  · refine ⟨{ s with verified := false }, .inl ⟨rfl, ?_, by simp [hc], ?_⟩⟩
    · have := hlen (by omega)
      rw [this] at hh; exact hh
    · simp only [Bool.false_eq_true, if_false]
      rw [if_neg hc]
      rfl

theorem finish_end (C : O.Computes H lim Rep) (fl : Flags) (hfl : fl.hashAtBegin = false) (n : Nat) (hn : n ≤ O.digestSize) (s : HV σ) (m c : List Byte)
    (h : AtEnd Rep n s m c) :
    ∃ s' v, finish O fl n s = .ok (s', (if fl.putHash then out c else []) ++ tail fl v, fl.throwException && !v) ∧ s'.verified = v ∧
      v = decide (c.length = n ∧ (H m).take n = c) ∧ AtEnd Rep n s' [] [] := by
  have hqs : s.base.q.Inv ∧ s.base.q.content = c := by
    rcases h.base with hb | ⟨-, hc, hb⟩
    · exact ⟨hb.qinv, hb.con⟩
    · exact ⟨hb.qinv, by rw [hb.con, hc]⟩
  obtain ⟨q', e1, q1, q2, q3, q4⟩ := Ring.getAll_state s.base.q hqs.1
  rw [hqs.2] at e1
  obtain ⟨s', hs⟩ := lastPut_end C fl hfl n hn { s with base := { s.base with q := q' } } m c h.hash (by
    intro hlt
    by_cases hm : m = []
    · exact hm
    · have := h.full hm; omega)
  have hlen := h.len
  rcases hs with ⟨hb, hr, hv, e2⟩ | hgt
  · have hfirst : (if !s.base.firstDone ∧ s.base.firstSize = 0 then firstPut fl s [] else (s, [])) = (s, []) := by
      unfold firstPut; rw [hfl]; simp
    refine ⟨if fl.throwException && !s'.verified then s' else { s' with base := { s'.base with firstDone := false, q := Ring.reset s'.base.junk 1 s'.base.firstSize } },
      s'.verified, ?_, ?_, hv, ?_⟩
    · unfold finish
      rw [hfirst]
      simp only
      rw [e1]
      simp only [bind_ok']
      rw [e2]
      simp only [bind_ok', List.nil_append]
      unfold tail
      cases ht : (fl.throwException && !s'.verified) <;> simp [pure, Except.pure]
    · split <;> rfl
    · have hfields : s.base.firstSize = 0 ∧ s.base.blockSize = 1 ∧ s.base.lastSize = n := by
        rcases h.base with hb | ⟨-, -, hb⟩ <;> exact ⟨hb.fs, hb.bs, hb.ls⟩
      split
      · refine ⟨hr, Nat.zero_le _, fun h => absurd rfl h, ?_⟩
        rw [hb]
        rcases h.base with hb | ⟨-, -, hb⟩
        · exact .inl ⟨hb.fs, hb.bs, hb.ls, hb.pos, q1, q2, hb.done, by rw [q3]; exact hb.qbs, by rw [q4]; exact hb.qmb, Nat.mod_one _⟩
        · refine .inr ⟨rfl, rfl, ⟨hb.fs, hb.bs, hb.ls, hb.pos, q1, q2, hb.done, by rw [q3]; exact hb.qbs, by rw [q4]; exact hb.qmb, ?_⟩⟩
          have := q1.beg
          have hcap := q1.cap
          rw [q4, hb.qmb, Nat.mul_zero] at hcap
          show q'.begin_ = 0
          omega
      · refine ⟨hr, Nat.zero_le _, fun h => absurd rfl h, .inr ⟨rfl, rfl, ?_⟩⟩
        rw [hb]
        exact reset_pre hfields.1 hfields.2.1 hfields.2.2 (Nat.le_refl _)
  · omega

theorem put_true (fl : Flags) (n : Nat) (s s' : HV σ) (inp : List Byte) (o : List (Option Byte)) (t : Bool) (h : put O fl n s inp false = .ok (s', o, t)) :
    put O fl n s inp true = (do let (s, o2, thrown) ← finish O fl n s'; return (s, o ++ o2, thrown)) := by
  unfold put at h ⊢
  revert h
  generalize (if inp.length ≠ 0 then _ else _ : Except Err (HV σ × List (Option Byte))) = r
  intro h
  cases r with
  | error e => cases h
  | ok p =>
    obtain ⟨a, b⟩ := p
    simp only [bind_ok', Bool.false_eq_true, if_false, if_true, pure, Except.pure, Except.ok.injEq, Prod.mk.injEq] at h ⊢
    obtain ⟨rfl, rfl, -⟩ := h
    rfl

theorem feed_end (C : O.Computes H lim Rep) (fl : Flags) (hfl : fl.hashAtBegin = false) (n : Nat) (hn : n ≤ O.digestSize) (pieces : List (List Byte)) (s : HV σ)
    (m c : List Byte) (h : AtEnd Rep n s m c) (hl : (m ++ c ++ pieces.flatten).length < lim) :
    ∃ s' v x d, feed O fl n s pieces = .ok (s', (if fl.putMessage then out x else []) ++ (if fl.putHash then out d else []) ++ tail fl v, fl.throwException && !v) ∧
      s'.verified = v ∧ v = decide (d.length = n ∧ (H (m ++ x)).take n = d) ∧ m ++ x ++ d = m ++ c ++ pieces.flatten ∧ d.length ≤ n ∧ (m ++ x ≠ [] → d.length = n) ∧
      AtEnd Rep n s' [] [] := by
  have single : ∀ (p : List Byte) (s : HV σ) (m c : List Byte), AtEnd Rep n s m c → (m ++ c ++ p).length < lim →
      ∃ s' v x d, put O fl n s p true = .ok (s', (if fl.putMessage then out x else []) ++ (if fl.putHash then out d else []) ++ tail fl v, fl.throwException && !v) ∧
      s'.verified = v ∧ v = decide (d.length = n ∧ (H (m ++ x)).take n = d) ∧ m ++ x ++ d = m ++ c ++ p ∧ d.length ≤ n ∧ (m ++ x ≠ [] → d.length = n) ∧
      AtEnd Rep n s' [] [] := by
    intro p s m c h hl
    obtain ⟨s1, x, c1, e1, h1, hx⟩ := putFalse_end C fl hfl n s m c p h hl
    obtain ⟨s2, v, e2, hv, hv2, h2⟩ := finish_end C fl hfl n hn s1 (m ++ x) c1 h1
    refine ⟨s2, v, x, c1, ?_, hv, hv2, hx, h1.len, h1.full, h2⟩
    rw [put_true fl n s s1 p _ _ e1, e2]
    simp [bind_ok', pure, Except.pure]
  match pieces with
  | [] => simpa [feed] using single [] s m c h (by simpa using hl)
  | [p] => simpa [feed] using single p s m c h (by simpa using hl)
  | p :: p' :: ps =>
    rw [List.flatten_cons] at hl ⊢
    obtain ⟨s1, x, c1, e1, h1, hx⟩ := putFalse_end C fl hfl n s m c p h (by simp at hl ⊢; omega)
    have hl' : (m ++ x ++ c1 ++ (p' :: ps).flatten).length < lim := by rw [hx]; simpa [-List.length_flatten] using hl
    obtain ⟨s2, v, x2, d, e2, hv, hv2, hx2, hd, hd2, h2⟩ := feed_end C fl hfl n hn (p' :: ps) s1 (m ++ x) c1 h1 hl'
    refine ⟨s2, v, x ++ x2, d, ?_, hv, by rw [← List.append_assoc]; exact hv2, ?_, hd, by rw [← List.append_assoc]; exact hd2, h2⟩
    · rw [feed, e1]
      · simp only [bind_ok']
        rw [e2]
        cases fl.putMessage <;> simp [bind_ok', pure, Except.pure, out_append]
      · simp
    · rw [← List.append_assoc m, hx2, hx]; simp

theorem feed_end_spec (C : O.Computes H lim Rep) (fl : Flags) (hfl : fl.hashAtBegin = false) (n : Nat) (hn : n ≤ O.digestSize) (pieces : List (List Byte)) (s : HV σ)
    (h : AtEnd Rep n s [] []) (hl : pieces.flatten.length < lim) :
    ∃ s' o t, feed O fl n s pieces = .ok (s', o, t) ∧ (⟨o, t, s'.verified⟩ : Result) = specEnd H fl n pieces.flatten ∧ AtEnd Rep n s' [] [] := by
  obtain ⟨s', v, x, d, e, hv, hv2, hx, hd, hd2, h'⟩ := feed_end C fl hfl n hn pieces s [] [] h (by simpa using hl)
  refine ⟨s', _, _, e, ?_, h'⟩
  simp only [List.nil_append] at hx hd2 hv2
  rw [← hx]
  have hlen : d.length < n → x = [] := by
    intro hlt
    by_cases h0 : x = []
    · exact h0
    · have := hd2 h0; omega
  have htake : (x ++ d).take ((x ++ d).length - n) = x ∧ (x ++ d).drop ((x ++ d).length - n) = d := by
    by_cases hdn : d.length = n
    · rw [List.length_append, show x.length + d.length - n = x.length by omega]; simp
    · have := hlen (by omega)
      subst this
      rw [List.nil_append, show d.length - n = 0 by omega]; simp
  unfold specEnd
  dsimp only
  rw [htake.1, htake.2, hv]
  have hvv : v = decide (n ≤ (x ++ d).length ∧ (H x).take n = d) := by
    rw [hv2]
    congr 1
    apply propext
    constructor
    · rintro ⟨h1, h2⟩; exact ⟨by simp; omega, h2⟩
    · rintro ⟨h1, h2⟩
      refine ⟨?_, h2⟩
      by_cases hdn : d.length = n
      · exact hdn
      · have := hlen (by omega)
        subst this
        simp at h1; omega
  rw [← hvv]
  unfold Result.make tail out
  simp only [List.map_append]
  cases fl.putMessage <;> cases fl.putHash <;> cases fl.putResult <;> simp

theorem run_end (C : O.Computes H lim Rep) (fl : Flags) (hfl : fl.hashAtBegin = false) (n : Nat) (hn : n ≤ O.digestSize) (ms : List (List (List Byte))) (s : HV σ)
    (h : AtEnd Rep n s [] []) (hl : ∀ m ∈ ms, m.flatten.length < lim) :
    run O fl n s ms = .ok (ms.map fun m => specEnd H fl n m.flatten) := by
  induction ms generalizing s with
  | nil => rfl
  | cons m ms ih =>
    obtain ⟨s', o, t, e, hr, h'⟩ := feed_end_spec C fl hfl n hn m s h (hl m (by simp))
    rw [run, e]
    simp only [bind_ok']
    rw [ih s' h' fun m hm => hl m (by simp [hm]), List.map_cons, ← hr]
    rfl

/-! ## `HASH_AT_BEGIN` -/

/-- The filter has been given `t`. -/
def AtBegin (Rep : σ → List Byte → Prop) (n : Nat) (s : HV σ) (t : List Byte) : Prop :=
  (Pre s.base n 1 0 t ∧ (t.length < n ∨ (n = 0 ∧ t = [])) ∧ Rep s.hash []) ∨
  (Mid s.base n 1 0 [] ∧ n ≤ t.length ∧ s.expected = t.take n ∧ Rep s.hash (t.drop n))

/-- What has been delivered when `t` has been given. -/
def sofar (fl : Flags) (n : Nat) (t : List Byte) : List (Option Byte) :=
  if t.length < n then [] else (if fl.putHash then out (t.take n) else []) ++ (if fl.putMessage then out (t.drop n) else [])

theorem putFalse_begin (C : O.Computes H lim Rep) (fl : Flags) (hfl : fl.hashAtBegin = true) (n : Nat) (s : HV σ) (t inp : List Byte) (h : AtBegin Rep n s t)
    (hl : (t ++ inp).length < lim) :
    ∃ s' o, put O fl n s inp false = .ok (s', o, false) ∧ AtBegin Rep n s' (t ++ inp) ∧ sofar fl n t ++ o = sofar fl n (t ++ inp) := by
  by_cases hi : inp.length = 0
  · rw [List.length_eq_zero_iff.mp hi]
    exact ⟨s, [], by unfold put; simp [bind_ok', pure, Except.pure], by simpa using h, by simp⟩
  have wrap : ∀ (b : Filt) (evs : List Ev) (s' : HV σ) (o : List (Option Byte)), s.base.putData inp = .ok (b, evs) → handle O fl { s with base := b } evs = .ok (s', o) →
      put O fl n s inp false = .ok (s', o, false) := by
    intro b evs s' o h1 h2
    unfold put
    rw [if_pos hi, h1]
    simp only [bind_ok']
    rw [h2]; rfl
  rcases h with ⟨hb, ht, hh⟩ | ⟨hb, ht, hex, hh⟩
  · by_cases hs : (t ++ inp).length < n
    · obtain ⟨f', e1, p1⟩ := putData_pre_short s.base n 1 0 t inp hb hs
      refine ⟨{ s with base := f' }, [], wrap _ _ _ _ e1 rfl, .inl ⟨p1, .inl hs, hh⟩, ?_⟩
      unfold sofar
      rw [if_pos hs, if_pos (by simp at hs; omega)]; rfl
    · obtain ⟨f', c', xs, e1, p1, p2, p3, p4, p5⟩ := putData_pre_long s.base n 1 0 t inp hb (by rcases ht with h | ⟨h, h'⟩; omega; simp [h']) (by omega)
      have hc' : c' = [] := List.length_eq_zero_iff.mp (by omega)
      subst hc'
      rw [List.append_nil] at p2
      obtain ⟨h', e2, r2⟩ := handle_nexts C fl xs { s with base := f', expected := (t ++ inp).take n } [] hh (by
        rw [List.nil_append, p2]; rw [List.length_drop]; omega)
      refine ⟨{ s with base := f', expected := (t ++ inp).take n, hash := h' }, (if fl.putHash then out ((t ++ inp).take n) else []) ++ (if fl.putMessage then out ((t ++ inp).drop n) else []),
        wrap _ _ _ _ e1 ?_, .inr ⟨p1, by omega, rfl, by rw [p2, List.nil_append] at r2; exact r2⟩, ?_⟩
      · rw [handle, firstPut, hfl]
        simp only [if_true]
        rw [e2, p2]; rfl
      · unfold sofar
        rw [if_neg hs]
        by_cases hlt : t.length < n
        · rw [if_pos hlt]; rfl
        · rcases ht with h | ⟨h, h'⟩
          · omega
          · subst h'; subst h
            rw [if_neg (by simp)]
            simp [out]
  · obtain ⟨f', c', xs, e1, p1, p2, p3, p4, p5⟩ := putData_mid s.base n 1 0 [] inp hb
    have hc' : c' = [] := List.length_eq_zero_iff.mp (by omega)
    subst hc'
    rw [List.append_nil, List.nil_append] at p2
    obtain ⟨h', e2, r2⟩ := handle_nexts C fl xs { s with base := f' } (t.drop n) hh (by
      rw [p2]; simp only [List.length_append, List.length_drop] at hl ⊢; omega)
    have hd : (t ++ inp).drop n = t.drop n ++ inp := by rw [List.drop_append_of_le_length ht]
    refine ⟨{ s with base := f', hash := h' }, if fl.putMessage then out inp else [], wrap _ _ _ _ e1 (by rw [e2, p2]),
      .inr ⟨p1, by rw [List.length_append]; omega, by rw [List.take_append_of_le_length ht]; exact hex, by rw [hd, ← p2]; exact r2⟩, ?_⟩
    unfold sofar
    rw [if_neg (by omega), if_neg (show ¬ (t ++ inp).length < n by rw [List.length_append]; omega), hd, List.take_append_of_le_length ht]
    cases fl.putMessage <;> simp [out_append]

theorem finish_begin (C : O.Computes H lim Rep) (fl : Flags) (hfl : fl.hashAtBegin = true) (n : Nat) (hn : n ≤ O.digestSize) (s : HV σ) (t : List Byte)
    (h : AtBegin Rep n s t) (hlen : n ≤ t.length) :
    ∃ s' v, finish O fl n s = .ok (s', tail fl v, fl.throwException && !v) ∧ s'.verified = v ∧ v = decide ((H (t.drop n)).take n = t.take n) ∧
      ((fl.throwException && !v) = false → AtBegin Rep n s' []) := by
  -- the state `LastPut` sees
  have core : ∀ s1 : HV σ, s1.base.q.Inv → s1.base.q.content = [] → s1.expected = t.take n → Rep s1.hash (t.drop n) →
      s1.base.firstSize = n → s1.base.blockSize = 1 → s1.base.lastSize = 0 →
      ∃ s' v, (do
          let (x, q) ← s1.base.q.getAll
          let s := { s1 with base := { s1.base with q := q } }
          let (s, o2, thrown) ← lastPut O fl n s x
          if thrown then return (s, [] ++ o2, true)
          else return ({ s with base := { s.base with firstDone := false, q := Ring.reset s.base.junk 1 s.base.firstSize } }, [] ++ o2 ++ [none], false))
        = (.ok (s', tail fl v, fl.throwException && !v) : Except Err (HV σ × List (Option Byte) × Bool)) ∧
        s'.verified = v ∧ v = decide ((H (t.drop n)).take n = t.take n) ∧ ((fl.throwException && !v) = false → AtBegin Rep n s' []) := by
    intro s1 h1 h2 h3 h4 f1 f2 f3
    obtain ⟨q', e1, -, -, -, -⟩ := Ring.getAll_state s1.base.q h1
    obtain ⟨h', e2, r2⟩ := C.final s1.hash (t.drop n) n h4 hn
    refine ⟨if fl.throwException && !decide ((H (t.drop n)).take n = t.take n) then { s1 with base := { s1.base with q := q' }, hash := h', verified := decide ((H (t.drop n)).take n = t.take n) }
      else { s1 with base := { s1.base with firstDone := false, q := Ring.reset s1.base.junk 1 s1.base.firstSize }, hash := h', verified := decide ((H (t.drop n)).take n = t.take n) },
      decide ((H (t.drop n)).take n = t.take n), ?_, by split <;> rfl, rfl, ?_⟩
    · rw [e1]
      simp only [bind_ok']
      unfold lastPut
      rw [hfl]
      simp only [if_true]
      unfold truncatedVerify
      rw [e2]
      simp only [bind_ok']
      rw [h3, slice_all (t.take n) n (by simp; omega)]
      simp only [bind_ok', pure, Except.pure, List.nil_append]
      unfold tail
      cases ht : (fl.throwException && !decide ((H (t.drop n)).take n = t.take n)) <;> simp
    · intro hno
      rw [if_neg (by rw [hno]; simp)]
      refine .inl ⟨reset_pre f1 f2 f3 (Nat.le_refl _), ?_, r2⟩
      by_cases h0 : n = 0
      · exact .inr ⟨h0, rfl⟩
      · exact .inl (by simp; omega)
  rcases h with ⟨hb, ht, hh⟩ | ⟨hb, ht, hex, hh⟩
  · have h0 : n = 0 ∧ t = [] := by rcases ht with h | h; omega; exact h
    obtain ⟨rfl, rfl⟩ := h0
    obtain ⟨s', v, e, r⟩ := core { s with expected := [] } hb.qinv hb.con rfl hh hb.fs hb.bs hb.ls
    refine ⟨s', v, ?_, r⟩
    rw [← e]
    unfold finish
    rw [if_pos ⟨by simp [hb.done], hb.fs⟩, firstPut, hfl]
    simp only [if_true]
    cases fl.putHash <;> rfl
  · obtain ⟨s', v, e, r⟩ := core s hb.qinv hb.con hex hh hb.fs hb.bs hb.ls
    refine ⟨s', v, ?_, r⟩
    rw [← e]
    unfold finish
    rw [if_neg (by simp [hb.done])]

theorem feed_begin (C : O.Computes H lim Rep) (fl : Flags) (hfl : fl.hashAtBegin = true) (n : Nat) (hn : n ≤ O.digestSize) (pieces : List (List Byte)) (s : HV σ)
    (t : List Byte) (h : AtBegin Rep n s t) (hl : (t ++ pieces.flatten).length < lim) (hlen : n ≤ (t ++ pieces.flatten).length) :
    ∃ s' v o, feed O fl n s pieces = .ok (s', o, fl.throwException && !v) ∧ sofar fl n t ++ o = sofar fl n (t ++ pieces.flatten) ++ tail fl v ∧
      s'.verified = v ∧ v = decide ((H ((t ++ pieces.flatten).drop n)).take n = (t ++ pieces.flatten).take n) ∧ ((fl.throwException && !v) = false → AtBegin Rep n s' []) := by
  have single : ∀ (p : List Byte) (s : HV σ) (t : List Byte), AtBegin Rep n s t → (t ++ p).length < lim → n ≤ (t ++ p).length →
      ∃ s' v o, put O fl n s p true = .ok (s', o, fl.throwException && !v) ∧ sofar fl n t ++ o = sofar fl n (t ++ p) ++ tail fl v ∧
      s'.verified = v ∧ v = decide ((H ((t ++ p).drop n)).take n = (t ++ p).take n) ∧ ((fl.throwException && !v) = false → AtBegin Rep n s' []) := by
    intro p s t h hl hlen
    obtain ⟨s1, o1, e1, h1, ho⟩ := putFalse_begin C fl hfl n s t p h hl
    obtain ⟨s2, v, e2, hv, hv2, h2⟩ := finish_begin C fl hfl n hn s1 (t ++ p) h1 hlen
    refine ⟨s2, v, o1 ++ tail fl v, ?_, by rw [← List.append_assoc, ho], hv, hv2, h2⟩
    rw [put_true fl n s s1 p _ _ e1, e2]
    rfl
  match pieces with
  | [] => simpa [feed] using single [] s t h (by simpa using hl) (by simpa using hlen)
  | [p] => simpa [feed] using single p s t h (by simpa using hl) (by simpa using hlen)
  | p :: p' :: ps =>
    rw [List.flatten_cons] at hl hlen ⊢
    obtain ⟨s1, o1, e1, h1, ho⟩ := putFalse_begin C fl hfl n s t p h (by simp at hl ⊢; omega)
    obtain ⟨s2, v, o2, e2, ho2, r⟩ := feed_begin C fl hfl n hn (p' :: ps) s1 (t ++ p) h1 (by simpa [-List.length_flatten] using hl) (by simpa [-List.length_flatten] using hlen)
    rw [List.append_assoc] at ho2 r
    refine ⟨s2, v, o1 ++ o2, ?_, by rw [← List.append_assoc, ho, ho2], r⟩
    rw [feed, e1]
    · simp only [bind_ok']
      rw [e2]; rfl
    · simp

theorem run_begin (C : O.Computes H lim Rep) (fl : Flags) (hfl : fl.hashAtBegin = true) (n : Nat) (hn : n ≤ O.digestSize) (ms : List (List (List Byte))) (s : HV σ)
    (h : AtBegin Rep n s []) (hl : ∀ m ∈ ms, m.flatten.length < lim ∧ n ≤ m.flatten.length) (hth : ∀ m ∈ ms.dropLast, (specBegin H fl n m.flatten).thrown = false) :
    run O fl n s ms = .ok (ms.map fun m => specBegin H fl n m.flatten) := by
  induction ms generalizing s with
  | nil => rfl
  | cons m ms ih =>
    obtain ⟨s', v, o, e, ho, hv, hv2, h'⟩ := feed_begin C fl hfl n hn m s [] h (by simpa using (hl m (by simp)).1) (by simpa using (hl m (by simp)).2)
    simp only [List.nil_append] at ho hv2
    have hlm := (hl m (by simp)).2
    have hres : (⟨o, fl.throwException && !v, s'.verified⟩ : Result) = specBegin H fl n m.flatten := by
      have ho' : o = sofar fl n m.flatten ++ tail fl v := by
        rw [← ho]
        unfold sofar
        by_cases h0 : ([] : List Byte).length < n
        · rw [if_pos h0]; rfl
        · rw [if_neg h0]; simp [out]
      unfold specBegin
      dsimp only
      rw [← hv2, ho', hv]
      unfold Result.make sofar tail out
      rw [if_neg (by omega)]
      simp only [List.map_append]
      cases fl.putMessage <;> cases fl.putHash <;> cases fl.putResult <;> simp
    rw [run, e]
    simp only [bind_ok']
    cases ms with
    | nil =>
      rw [List.map_cons, List.map_nil, ← hres]; rfl
    | cons m2 ms2 =>
      have hno : (fl.throwException && !v) = false := by
        have := hth m (by simp)
        rw [← hres] at this; exact this
      rw [ih s' (h' hno) (fun k hk => hl k (by simp [hk])) (fun k hk => hth k (by rw [List.dropLast_cons_of_ne_nil (by simp)]; simp [hk])), List.map_cons (a := m), ← hres]
      rfl

end Verif.HashFilter
