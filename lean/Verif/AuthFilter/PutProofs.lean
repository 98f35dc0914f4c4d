import Verif.AuthFilter.EncProofs

/-! `Put` after additional data. -/
namespace Verif.AuthFilter

open Verif.BufFilter Verif.BufFilter.Filt
open Verif.HashFilter (bind_ok')

/-- Additional data after the text is refused, at the latest by `TruncatedFinal`. -/
structure Late {σ : Type} (O : Aead σ) (Tx : σ → List Byte → List Byte → Prop) (Dead : Nat → σ → Prop) : Prop where
  enter : ∀ s x y, Tx s [] x → x ≠ [] → 0 < y.length → y.length < 2 ^ 32 → ∃ s', O.update s y = .ok s' ∧ Dead y.length s'
  stay : ∀ s m y, Dead m s → 0 < y.length → m + y.length < 2 ^ 32 → ∃ s', O.update s y = .ok s' ∧ Dead (m + y.length) s'
  final : ∀ s m n, Dead m s → O.final s n = .error .invalidArgument

section
variable {σ : Type} {O : Aead σ} {C : Cipher} {Hd : σ → List Byte → Prop} {Tx : σ → List Byte → List Byte → Prop} {Dead : Nat → σ → Prop} (S : O.Serves C Hd Tx) (L : Late O Tx Dead)
  {cut : Nat → Nat} (hcut : ∀ r, 0 < r → 1 ≤ cut r ∧ cut r ≤ r) (fl : Flags)

include L

theorem dead_nexts (xs : List (List Byte)) (hxs : NextOk 1 xs) : ∀ (s : Dec σ) (m : Nat), Dead m s.c → m + xs.flatten.length < 2 ^ 32 →
    ∃ c' m', Dec.hvEvents O fl s (xs.map .next) = .ok { s with c := c' } ∧ Dead m' c' := by
  induction xs with
  | nil => intro s m h _; exact ⟨s.c, m, rfl, h⟩
  | cons x xs ih =>
    intro s m h hl
    rw [List.flatten_cons, List.length_append] at hl
    obtain ⟨c1, e1, h1⟩ := L.stay s.c m x h (hxs x (by simp)).1 (by omega)
    obtain ⟨c2, m2, e2, h2⟩ := ih (fun y hy => hxs y (List.mem_cons_of_mem _ hy)) { s with c := c1 } _ h1 (by omega)
    refine ⟨c2, m2, ?_, h2⟩
    rw [List.map_cons, Dec.hvEvents, e1]
    exact e2

theorem late_nexts (xs : List (List Byte)) (hxs : NextOk 1 xs) (hne : xs ≠ []) (s : Dec σ) (t : List Byte) (h : Tx s.c [] t) (ht : t ≠ []) (hl : xs.flatten.length < 2 ^ 32) :
    ∃ c' m', Dec.hvEvents O fl s (xs.map .next) = .ok { s with c := c' } ∧ Dead m' c' := by
  cases xs with
  | nil => exact absurd rfl hne
  | cons x xs =>
    rw [List.flatten_cons, List.length_append] at hl
    obtain ⟨c1, e1, h1⟩ := L.enter s.c t x h ht (hxs x (by simp)).1 (by omega)
    obtain ⟨c2, m2, e2, h2⟩ := dead_nexts L fl xs (fun y hy => hxs y (List.mem_cons_of_mem _ hy)) { s with c := c1 } _ h1 (by omega)
    refine ⟨c2, m2, ?_, h2⟩
    rw [List.map_cons, Dec.hvEvents, e1]
    exact e2

theorem hvEnd_late (hfl : fl.macAtBegin = false) (n : Nat) (s : Dec σ) (b t x : List Byte) (hr : Ready s.hv n b) (hb : 0 < b.length) (hbs : b.length < 2 ^ 32) (hx : x.length = n) (ht : Tx s.c [] t) (htn : t ≠ []) :
    Dec.hvEnd O fl n s x = .error .invalidArgument := by
  obtain ⟨f', c', xs, evs, e, hn, hr', h1, h2, h3⟩ := ready_put hr x
  have hlen := congrArg List.length h1
  rw [List.length_append, List.length_append, hx] at hlen
  have hc := hr'.1
  have hne : xs ≠ [] := by
    intro h
    rw [h, List.flatten_nil, List.length_nil] at hlen; omega
  have hge := h3 hne
  have hcn : c'.length = n := by omega
  obtain ⟨k', m', e', hk⟩ := late_nexts L fl xs h2 hne { s with hv := f' } t ht htn (by omega)
  have e1 : Dec.hvPut O fl s x = .ok { s with hv := f', c := k' } := by
    unfold Dec.hvPut
    rw [e, bind_ok']
    dsimp only
    rcases hn with hn | hn
    · rw [hn]; exact e'
    · rw [hn, Dec.hvEvents, hfl]; exact e'
  obtain ⟨q', e2, r2⟩ := ready_all hr'
  unfold Dec.hvEnd
  rw [e1, bind_ok']
  dsimp only
  rw [if_neg (by rw [hfl]; simp)]
  dsimp only
  rw [e2, bind_ok']
  dsimp only
  rw [hfl]
  simp only [Bool.false_eq_true, if_false]
  rw [if_pos hcn]
  unfold Dec.verify
  rw [L.final k' m' n hk]
  rfl

include S hcut

/-- Additional data, not longer than the code; then text and code with one call of `Put`, and the message end. -/
theorem put_late (hfl : fl.macAtBegin = false) (n : Nat) (s : Dec σ) (hi : Idle n s) (hs : Hd s.c []) (b x : List Byte) (hb : 0 < b.length) (hbn : b.length ≤ n) (hbs : b.length < 2 ^ 32)
    (hx : n < x.length) (hl : x.length ≤ C.maxMessage + n) :
    (do let s ← Dec.aad O fl s b; Dec.put O cut fl n s x true) = .error .invalidArgument := by
  obtain ⟨hv', e1, r1⟩ := hv_short (O := O) fl n hfl s b hi.hv hbn
  unfold Dec.aad
  rw [e1, bind_ok']
  have hx0 : x.length ≠ 0 := by omega
  obtain ⟨f', c', xs, evs, e, hn, hr, h1, h2, h3⟩ := ready_data hi.base x
  rw [List.nil_append] at h1
  have hlen := congrArg List.length h1
  rw [List.length_append] at hlen
  have hc := hr.1
  have hcn : c'.length = n := by
    by_cases hxs : xs = []
    · rw [hxs, List.flatten_nil, List.length_nil] at hlen; omega
    · have := h3 hxs; omega
  obtain ⟨sf', k', e', r', t'⟩ := events_nexts S hcut fl xs { s with hv := hv', base := f' } [] [] hi.sf (S.weaken _ _ hs) (by rw [List.nil_append]; omega)
  rw [List.nil_append] at t'
  have ed : (if x.length ≠ 0 then do
      let (base, evs) ← s.base.putData x
      Dec.events O cut fl { s with hv := hv', base := base } evs
    else .ok ({ s with hv := hv' }, []) : Except Err (Dec σ × List Byte)) = .ok ({ s with hv := hv', base := f', sf := sf', c := k' }, xorBytes xs.flatten (load C.ks 0 xs.flatten.length)) := by
    rw [if_pos hx0, e, bind_ok']
    dsimp only
    rcases hn with hn | hn
    · rw [hn]; exact e'
    · rw [hn, Dec.events]
      have : Dec.hvPut O fl { s with hv := hv', base := f' } [] = .ok { s with hv := hv', base := f' } := by
        unfold Dec.hvPut Filt.put; rfl
      rw [this, bind_ok']; exact e'
  unfold Dec.put
  dsimp only
  rw [ed, bind_ok']
  dsimp only
  rw [if_pos rfl]
  have e0 : (if !f'.firstDone ∧ f'.firstSize = 0 then Dec.hvPut O fl { s with hv := hv', base := f', sf := sf', c := k' } [] else .ok { s with hv := hv', base := f', sf := sf', c := k' }) =
      .ok { s with hv := hv', base := f', sf := sf', c := k' } := by
    split
    · unfold Dec.hvPut Filt.put; rfl
    · rfl
  obtain ⟨q', e3, r3⟩ := ready_all hr
  obtain ⟨sf2, c2, e4, r4, t4⟩ := sfPut_spec S hcut { s with hv := hv', base := { f' with q := q' }, sf := sf', c := k' } [] xs.flatten [] r' t' (by rw [List.append_nil]; omega) true
  unfold Dec.finish
  dsimp only
  rw [e0, bind_ok']
  dsimp only
  rw [e3, bind_ok']
  dsimp only
  rw [e4, bind_ok']
  dsimp only
  rw [hvEnd_late L fl hfl n _ b _ c' r1 hb hbs hcn t4 (by intro h; rw [List.append_nil] at h; rw [h, List.length_nil] at hlen; omega)]
  rfl

end

section
open Verif.Auth
variable {σ κ α : Type} {Hk : Hooks σ κ} {A : Auth.Spec.Alg κ} {I : Impl κ α} {Key : κ → σ → Prop} {Rep : κ → List Byte → α → Nat → σ → Prop}

/-- A footer of `m` bytes has entered. -/
def DeadOf (Hk : Hooks σ κ) (I : Impl κ α) (Key : κ → σ → Prop) (Rep : κ → List Byte → α → Nat → σ → Prop) (k : κ) (iv : List Byte) (m : Nat) (s : State σ) : Prop :=
  0 < m ∧ ∃ C F off, F.length = m ∧ Sim Hk I Key Rep s ⟨.footer k iv, [], C, F, off⟩

/-- A mode that takes no footer. -/
theorem auth_late (ok : Hk.Ok A I Key Rep) (hf : A.maxFooter = 0) (k : κ) (iv : List Byte) : Late (ofAuth Hk) (TxOf A Hk I Key Rep k iv) (DeadOf Hk I Key Rep k iv) where
  enter := by
    intro s x y h hx hy hl
    rcases h with ⟨h, _⟩ | h
    · exact absurd h hx
    obtain ⟨u1, u2⟩ := step_sim ok s _ (.update y) (by simp only [updated, List.length_nil]; omega) h
    have hu : Auth.Spec.step A ⟨.message k iv, [], authText A k iv 0 x, [], x.length⟩ (.update y) = (⟨.footer k iv, [], authText A k iv 0 x, y, x.length⟩, .ok .nothing) := by
      unfold Auth.Spec.step
      dsimp only; rw [if_neg (by omega), List.nil_append]
    rw [hu] at u1 u2
    have e2 : (update Hk s y).2 = .ok () := by
      simp only [step] at u1
      generalize (update Hk s y).2 = r at u1
      cases r with
      | error e => cases u1
      | ok u => rfl
    refine ⟨(update Hk s y).1, ?_, hy, _, y, _, rfl, u2⟩
    show (settle (update Hk s y)).map (·.1) = _
    rw [settle_ok _ _ e2]; rfl
  stay := by
    intro s m y h hy hl
    obtain ⟨hm, C, F, off, hF, h⟩ := h
    obtain ⟨u1, u2⟩ := step_sim ok s _ (.update y) (by simp only [updated, List.length_nil]; omega) h
    have hu : Auth.Spec.step A ⟨.footer k iv, [], C, F, off⟩ (.update y) = (⟨.footer k iv, [], C, F ++ y, off⟩, .ok .nothing) := by
      unfold Auth.Spec.step
      dsimp only; rw [if_neg (by omega)]
    rw [hu] at u1 u2
    have e2 : (update Hk s y).2 = .ok () := by
      simp only [step] at u1
      generalize (update Hk s y).2 = r at u1
      cases r with
      | error e => cases u1
      | ok u => rfl
    refine ⟨(update Hk s y).1, ?_, by omega, C, F ++ y, off, by rw [List.length_append, hF], u2⟩
    show (settle (update Hk s y)).map (·.1) = _
    rw [settle_ok _ _ e2]; rfl
  final := by
    intro s m n h
    obtain ⟨hm, C, F, off, hF, h⟩ := h
    have e := (final_sim ok s _ n h).1
    unfold Auth.Spec.finish at e
    rw [if_pos (Or.inr (Or.inr (by dsimp only; rw [hF, hf]; exact hm)))] at e
    show settle (truncatedFinal Hk s n) = _
    generalize truncatedFinal Hk s n = r at e
    obtain ⟨s', r⟩ := r
    dsimp only at e
    subst e
    rfl

end

end Verif.AuthFilter
