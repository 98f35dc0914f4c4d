import Verif.Padding.Spec
import Verif.BufFilter.Props

namespace Verif.Padding
open Verif.BufFilter

theorem nextPutMultiple_eq (c : Cipher σ) (hc : c.Ok) (opt : Nat) (hopt : c.optimalBlock ≤ opt) (space : Nat → Nat)
    (hs : ∀ r, c.mandatory ≤ space r) (fuel : Nat) (st : σ) (inp : List Byte) (h0 : 0 < inp.length)
    (hm : inp.length % c.mandatory = 0) (hf : inp.length < fuel) :
    nextPutMultiple c opt space fuel st inp = .ok (c.process st inp) := by
  induction fuel generalizing st inp with
  | zero => omega
  | succ fuel ih =>
    unfold nextPutMultiple
    dsimp only
    have hpos := hc.pos
    by_cases hl : space inp.length < inp.length
    · rw [if_pos hl]
      have hlb : c.mandatory ≤ (if space inp.length = opt then space inp.length - c.optimalUsed st else space inp.length) := by
        have := hs inp.length
        have := hc.used st
        split <;> omega
      have hub : (if space inp.length = opt then space inp.length - c.optimalUsed st else space inp.length) < inp.length := by
        split <;> omega
      generalize hg : (if space inp.length = opt then space inp.length - c.optimalUsed st else space inp.length) = l at *
      have hmod : (l - l % c.mandatory) % c.mandatory = 0 := by
        rw [← Nat.div_mul_self_eq_mod_sub_self]; exact Nat.mul_mod_left _ _
      have hge : c.mandatory ≤ l - l % c.mandatory := by
        rw [← Nat.div_mul_self_eq_mod_sub_self]
        have : 1 ≤ l / c.mandatory := by rw [Nat.le_div_iff_mul_le (by omega)]; omega
        exact Nat.le_mul_of_pos_left _ this
      have hn : l - l % c.mandatory ≤ l := Nat.sub_le _ _
      generalize l - l % c.mandatory = n at *
      have hn' : n < inp.length := by omega
      rw [if_pos (by omega)]
      have hdm : (inp.drop n).length % c.mandatory = 0 := by
        rw [List.length_drop]
        have h1 := Nat.dvd_of_mod_eq_zero hm
        have h2 := Nat.dvd_of_mod_eq_zero hmod
        exact Nat.mod_eq_zero_of_dvd (Nat.dvd_sub h1 h2)
      have htm : (inp.take n).length % c.mandatory = 0 := by
        rw [List.length_take, Nat.min_eq_left (by omega)]; exact hmod
      rw [ih _ _ (by rw [List.length_drop]; omega) hdm (by rw [List.length_drop]; omega)]
      have := hc.append st (inp.take n) (inp.drop n) htm hdm
      rw [List.take_append_drop] at this
      rw [this, bind_ok]
    · rw [if_neg hl, if_neg (by omega), List.take_length]

theorem nexts_mod (s : Nat) (nexts : List (List Byte)) (h : ∀ x ∈ nexts, 0 < x.length ∧ x.length % s = 0) :
    nexts.flatten.length % s = 0 := by
  induction nexts with
  | nil => simp
  | cons x xs ih =>
    rw [List.flatten_cons, List.length_append, Nat.add_mod, (h x (by simp)).2, ih fun y hy => h y (by simp [hy])]
    simp

theorem dispatch_nexts (c : Cipher σ) (hc : c.Ok) (p : Scheme) (env : Env) (he : env.Ok c.mandatory) (nexts : List (List Byte))
    (hn : ∀ x ∈ nexts, 0 < x.length ∧ x.length % c.mandatory = 0) (l : List Byte) (i opt : Nat)
    (hopt : c.optimalBlock ≤ opt) (st : σ) :
    dispatch c p env i opt st (nexts.map .next ++ [.last l, .messageEnd]) =
      (do let (st2, o2) ← lastPut c p (c.process st nexts.flatten).1 l; .ok (st2, (c.process st nexts.flatten).2 ++ o2)) := by
  induction nexts generalizing i st with
  | nil =>
    simp only [List.map_nil, List.nil_append, List.flatten_nil, hc.nil]
    unfold dispatch
    congr 1
    funext r
    obtain ⟨a, b⟩ := r
    simp [dispatch, bind_ok]
  | cons x xs ih =>
    have hx := hn x (by simp)
    rw [List.map_cons, List.cons_append]
    unfold dispatch
    have hstep : (if env.modifiable i then (.ok (nextPutModifiable c st x) : Except Err (σ × List Byte))
        else nextPutMultiple c opt (env.space i) (x.length + 1) st x) = .ok (c.process st x) := by
      split
      · rfl
      · exact nextPutMultiple_eq c hc opt hopt _ (he i) _ st x hx.1 hx.2 (by omega)
    rw [hstep, bind_ok]
    dsimp only
    rw [ih (fun y hy => hn y (by simp [hy]))]
    have hmx := nexts_mod c.mandatory xs (fun y hy => hn y (by simp [hy]))
    rw [List.flatten_cons, hc.append st x xs.flatten hx.2 hmx]
    dsimp only
    generalize lastPut c p (c.process (c.process st x).1 xs.flatten).1 l = r
    cases r with
    | error e => rfl
    | ok v => obtain ⟨a, b⟩ := v; simp [bind_ok]

theorem firstPut_ge (o : Nat) : o ≤ firstPut o := by unfold firstPut; omega

/-- A message through the filter is: all but the last `lastLength` bytes to `process`, the rest to `LastPut`. -/
theorem runFilter_eq (junk : Nat → Byte) (c : Cipher σ) (hc : c.Ok) (padding : Option Scheme) (env : Env)
    (he : env.Ok c.mandatory) (st : σ) (pieces : List (List Byte)) (p : Scheme) (L : Nat) (hi : initSizes c padding = .ok (p, L)) :
    let total := pieces.flatten
    let n := total.length - lastLength 0 c.mandatory L total.length
    runFilter junk c padding env st pieces =
      (do let (st2, o2) ← lastPut c p (c.process st (total.take n)).1 (total.drop n)
          .ok (st2, (c.process st (total.take n)).2 ++ o2)) ∧ (total.take n).length % c.mandatory = 0 := by
  intro total n
  obtain ⟨f, evs, h1, h2, h3, h4⟩ := filter_delivers junk 0 c.mandatory L hc.pos [pieces]
  unfold runFilter filterMessage
  rw [hi, bind_ok]
  dsimp only
  rw [h1, bind_ok]
  -- one message
  unfold Filt.feedMany at h2
  cases hfd : f.feed pieces with
  | error e => rw [hfd] at h2; cases h2
  | ok v =>
    obtain ⟨f', ev⟩ := v
    rw [hfd, bind_ok] at h2
    dsimp only at h2
    rw [show Filt.feedMany f' [] = .ok [] from rfl, bind_ok] at h2
    cases h2
    have hd := h4 (pieces, ev) (by simp)
    obtain ⟨l, l1, l2, l3, l4⟩ := lastPut_determined 0 c.mandatory L hc.pos pieces.flatten ev hd
    unfold Delivered at hd
    simp only [Nat.not_lt_zero, if_false, List.take_zero, List.drop_zero] at hd
    obtain ⟨nexts, l', d1, d2, d3, d4⟩ := hd
    have hll : l' = l := l2 l' (by rw [d1]; simp)
    subst hll
    have hdrop : total.drop n = l' := l3.symm
    have htake : total.take n = nexts.flatten := by
      have : total = nexts.flatten ++ l' := d2.symm
      have hlen : n = nexts.flatten.length := by
        have := congrArg List.length d2
        rw [List.length_append] at this
        show total.length - lastLength 0 c.mandatory L total.length = _
        rw [← l4]; show pieces.flatten.length - _ = _; omega
      rw [hlen, this, List.take_left]
    refine ⟨?_, by rw [htake]; exact nexts_mod _ _ d3⟩
    rw [hdrop, htake, bind_ok]
    dsimp only
    rw [d1]
    rw [List.cons_append]
    unfold dispatch
    rw [dispatch_nexts c hc p env he nexts d3 l' _ _ (firstPut_ge _)]
    generalize lastPut c p (c.process st nexts.flatten).1 l' = r
    cases r with
    | error e => rfl
    | ok v => rfl

end Verif.Padding
