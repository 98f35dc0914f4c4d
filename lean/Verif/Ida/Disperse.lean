import Verif.Ida.Recover

/-! # `InformationDispersal`, then `InformationRecovery` -/
namespace Verif.Ida
open Verif.MQueue Verif.Gf Polynomial

/-- Every `t`-th byte, beginning with the one at position `c`. -/
def lane (t : Nat) : Nat → List Byte → List Byte
  | _, [] => []
  | 0, b :: l => b :: lane t (t - 1) l
  | c + 1, _ :: l => lane t c l

theorem lane_get (t : Nat) (ht : 0 < t) (l : List Byte) : ∀ (c k : Nat), (lane t c l)[k]? = l[c + k * t]? := by
  induction l with
  | nil => intro c k; simp [lane]
  | cons b l ih =>
    intro c k
    cases c with
    | succ c => rw [lane, ih, show c + 1 + k * t = (c + k * t) + 1 by omega, List.getElem?_cons_succ]
    | zero =>
      rw [lane]
      cases k with
      | zero => simp
      | succ k =>
        rw [List.getElem?_cons_succ, ih, show 0 + (k + 1) * t = (t - 1 + k * t) + 1 by rw [Nat.add_mul]; omega, List.getElem?_cons_succ]

/-- The channels of `InformationDispersal`. -/
def laneIds (t : Nat) : List W32 := (List.range t).map (BitVec.ofNat 32)

theorem disperse_spec (t : Nat) (ht : 0 < t) (ht2 : t ≤ 2 ^ 32) (bs : List Byte) : ∀ next, next < t →
    (∀ c ∈ (disperseCalls t next bs).1, c.id ∈ laneIds t ∧ c.last = false) ∧
    (∀ i < t, bytesOf (BitVec.ofNat 32 i) (disperseCalls t next bs).1 = lane t (if next ≤ i then i - next else i + t - next) bs) ∧
    (disperseCalls t next bs).2 = (next + bs.length) % t := by
  induction bs with
  | nil =>
    intro next hn
    refine ⟨fun c hc => (List.not_mem_nil hc).elim, fun i _ => ?_, ?_⟩
    · rw [disperseCalls, lane]; rfl
    · rw [disperseCalls]; exact (Nat.mod_eq_of_lt hn).symm
  | cons b bs ih =>
    intro next hn
    rw [disperseCalls]
    simp only
    obtain ⟨h1, h2, h3⟩ := ih (if next + 1 = t then 0 else next + 1) (by split <;> omega)
    refine ⟨?_, ?_, ?_⟩
    · intro c hc
      rcases List.mem_cons.mp hc with rfl | hc
      · exact ⟨List.mem_map_of_mem (List.mem_range.mpr hn), rfl⟩
      · exact h1 c hc
    · intro i hi
      rw [← List.singleton_append, bytesOf_append, h2 i hi]
      by_cases he : i = next
      · subst he
        rw [bytesOf_single ⟨BitVec.ofNat 32 i, [b], false⟩, if_pos (Nat.le_refl _), Nat.sub_self, lane]
        simp only [List.singleton_append]
        congr 2
        split <;> split <;> omega
      · have hne : BitVec.ofNat 32 next ≠ BitVec.ofNat 32 i := fun h => he (ofNat_inj (by omega) (by omega) h).symm
        rw [bytesOf_single_ne _ ⟨BitVec.ofNat 32 next, [b], false⟩ hne, List.nil_append]
        obtain ⟨c, hc⟩ : ∃ c, (if next ≤ i then i - next else i + t - next) = c + 1 := ⟨(if next ≤ i then i - next else i + t - next) - 1, by split <;> omega⟩
        rw [hc, lane]
        congr 1
        have : c = (if next ≤ i then i - next else i + t - next) - 1 := by omega
        rw [this]
        split <;> split <;> split <;> omega
    · rw [h3, List.length_cons]
      by_cases he : next + 1 = t
      · rw [if_pos he, show next + (bs.length + 1) = bs.length + t by omega, Nat.add_mod_right, Nat.zero_add]
      · rw [if_neg he]; congr 1; omega

theorem disperse_append (t : Nat) (a b : List Byte) : ∀ next, disperseCalls t next (a ++ b) =
    ((disperseCalls t next a).1 ++ (disperseCalls t (disperseCalls t next a).2 b).1, (disperseCalls t (disperseCalls t next a).2 b).2) := by
  induction a with
  | nil => intro next; rfl
  | cons x a ih => intro next; rw [List.cons_append, disperseCalls, ih, disperseCalls]; rfl

/-- The message with its padding. -/
def marked (pad : Bool) (m : List Byte) : List Byte := m ++ if pad then [1] else []

theorem laneIds_length (t : Nat) : (laneIds t).length = t := by simp [laneIds]
theorem laneIds_nodup (t : Nat) (h : t ≤ 2 ^ 32) : (laneIds t).Nodup := range_ids_nodup t h

section
variable {fr : Bool} {cfg : Cfg} {outIds : List W32} {s0 : Ida} {next0 : Nat}

/-- The filter's `RawIDA` has had the calls for these bytes. -/
def DRuns (fr : Bool) (cfg : Cfg) (s0 : Ida) (next0 : Nat) (s : Dispersal) (bs : List Byte) : Prop :=
  s0.run (gf32 fr) cfg (disperseCalls cfg.threshold next0 bs).1 = .ok s.ida ∧ s.next = (disperseCalls cfg.threshold next0 bs).2

theorem dput_runs (ht : 0 < cfg.threshold) (ht2 : cfg.threshold ≤ 2 ^ 32) (hn0 : next0 < cfg.threshold) (hs : Fresh outIds s0) {s : Dispersal} {done : List Byte}
    (h : DRuns fr cfg s0 next0 s done) (bs : List Byte) : ∃ s', s.put (gf32 fr) cfg bs = .ok s' ∧ DRuns fr cfg s0 next0 s' (done ++ bs) := by
  obtain ⟨s2, chans, n, e, _, _⟩ := noend_run (gf32_prepare fr) ht hs (laneIds_nodup _ ht2) (laneIds_length _)
    (H := (disperseCalls cfg.threshold next0 (done ++ bs)).1) (disperse_spec _ ht ht2 _ _ hn0).1
  have e' := e
  rw [disperse_append] at e'
  simp only at e'
  rw [run_append, h.1] at e'
  simp only [← h.2] at e'
  unfold Dispersal.put
  simp only [e']
  refine ⟨_, rfl, e, ?_⟩
  simp only
  rw [h.2, disperse_append]

theorem dputs_runs (ht : 0 < cfg.threshold) (ht2 : cfg.threshold ≤ 2 ^ 32) (hn0 : next0 < cfg.threshold) (hs : Fresh outIds s0) (pieces : List (List Byte)) : ∀ {s : Dispersal} {done : List Byte},
    DRuns fr cfg s0 next0 s done → ∃ s', s.puts (gf32 fr) cfg pieces = .ok s' ∧ DRuns fr cfg s0 next0 s' (done ++ pieces.flatten) := by
  induction pieces with
  | nil => intro s done h; exact ⟨s, rfl, by simpa using h⟩
  | cons bs l ih =>
    intro s done h
    obtain ⟨s1, e1, h1⟩ := dput_runs ht ht2 hn0 hs h bs
    obtain ⟨s2, e2, h2⟩ := ih h1
    refine ⟨s2, by simp only [Dispersal.puts, e1]; exact e2, by simpa using h2⟩

theorem dmessage_runs (fr : Bool) {cfg : Cfg} (ht : 0 < cfg.threshold) (ht2 : cfg.threshold ≤ 2 ^ 32) {outIds : List W32} {s0 : Ida} (hs : Fresh outIds s0) (next0 : Nat) (hn0 : next0 < cfg.threshold)
    (pad : Bool) (pieces : List (List Byte)) {ida : Ida}
    (hrun : s0.run (gf32 fr) cfg ((disperseCalls cfg.threshold next0 (marked pad pieces.flatten)).1 ++ (laneIds cfg.threshold).map fun id => ⟨id, [], true⟩) = .ok ida) :
    Dispersal.message (gf32 fr) cfg pad pieces ⟨s0, next0⟩ = .ok ⟨ida, (next0 + (marked pad pieces.flatten).length) % cfg.threshold⟩ := by
  have h0 : DRuns fr cfg s0 next0 ⟨s0, next0⟩ [] := ⟨rfl, rfl⟩
  obtain ⟨s1, e1, h1⟩ := dputs_runs ht ht2 hn0 hs pieces h0
  rw [List.nil_append] at h1
  have hends : (laneIds cfg.threshold).map (fun id => (⟨id, [], true⟩ : Call)) = (List.range cfg.threshold).map fun i => ⟨BitVec.ofNat 32 i, [], true⟩ := by
    rw [laneIds, List.map_map]; rfl
  have fin : ∀ s : Dispersal, DRuns fr cfg s0 next0 s (marked pad pieces.flatten) →
      (match s.ida.run (gf32 fr) cfg ((List.range cfg.threshold).map fun i => ⟨BitVec.ofNat 32 i, [], true⟩) with
      | .error e => .error e
      | .ok ida => .ok { s with ida := ida }) = (.ok ⟨ida, (next0 + (marked pad pieces.flatten).length) % cfg.threshold⟩ : Except Err Dispersal) := by
    intro s h
    rw [run_append, h.1, hends] at hrun
    simp only at hrun
    rw [hrun, ← (disperse_spec _ ht ht2 (marked pad pieces.flatten) next0 hn0).2.2, ← h.2]
  unfold Dispersal.message Dispersal.messageEnd
  simp only [e1]
  cases pad with
  | false => simp only [Bool.false_eq_true, if_false]; exact fin s1 (by unfold marked; simpa using h1)
  | true =>
    obtain ⟨s2, e2, h2⟩ := dput_runs ht ht2 hn0 hs h1 [1]
    simp only [if_true, e2]
    exact fin s2 h2
end

/-- The number of words per channel. -/
def wordsFor (t L : Nat) : Nat := (L + 4 * t - 1) / (4 * t)

/-- What `InformationDispersal`, at its first channel, sends out for a message. -/
theorem disperse_message (fr : Bool) {cfg : Cfg} (hk : cfg.kind = .raw) (ht : 0 < cfg.threshold) (ht2 : cfg.threshold ≤ 2 ^ 32) {outIds : List W32} (hon : outIds.Nodup)
    {s0 : Ida} (hs : Ready outIds s0) (pad : Bool) (pieces : List (List Byte)) :
    ∃ (f : Nat → F32[X]) (n : Nat) (s' : Ida), (∀ k, (f k).degree < cfg.threshold) ∧
      (∀ k, ∀ i < cfg.threshold, (f k).eval (φ32 (BitVec.ofNat 32 i)) = φ32 (wordAt (lane cfg.threshold i (marked pad pieces.flatten)) k)) ∧
      Dispersal.message (gf32 fr) cfg pad pieces ⟨s0, 0⟩ = .ok ⟨s', (marked pad pieces.flatten).length % cfg.threshold⟩ ∧ Ready outIds s' ∧
      (∀ ch, received ch s'.sink.out = received ch s0.sink.out ++ carried outIds (polys f n) ch ++ endTok cfg.prop outIds ch) ∧
      (∀ i < cfg.threshold, (lane cfg.threshold i (marked pad pieces.flatten)).length ≤ 4 * n) ∧
      (0 < n → ∃ i < cfg.threshold, 4 * (n - 1) < (lane cfg.threshold i (marked pad pieces.flatten)).length) := by
  have hsp := disperse_spec cfg.threshold ht ht2 (marked pad pieces.flatten) 0 ht
  have hby : ∀ i < cfg.threshold, bytesOf (BitVec.ofNat 32 i) (disperseCalls cfg.threshold 0 (marked pad pieces.flatten)).1 = lane cfg.threshold i (marked pad pieces.flatten) := by
    intro i hi
    have := hsp.2.1 i hi
    rwa [if_pos (Nat.zero_le _), Nat.sub_zero] at this
  have hpts := fun k => exists_poly (laneIds cfg.threshold) (fun id => wordAt (lane cfg.threshold id.toNat (marked pad pieces.flatten)) k)
  choose f hf using hpts
  have hl : ((laneIds cfg.threshold).length : WithBot Nat) = cfg.threshold := by rw [laneIds_length]
  have hf1 : ∀ k, (f k).degree < cfg.threshold := fun k => by rw [← hl]; exact (hf k).1
  have hf2 : ∀ k, ∀ i < cfg.threshold, (f k).eval (φ32 (BitVec.ofNat 32 i)) = φ32 (wordAt (lane cfg.threshold i (marked pad pieces.flatten)) k) := by
    intro k i hi
    have := (hf k).2 (BitVec.ofNat 32 i) (List.mem_map_of_mem (List.mem_range.mpr hi))
    rwa [BitVec.toNat_ofNat, Nat.mod_eq_of_lt (by omega)] at this
  obtain ⟨s', n, e, hr, hout, hn1, hn2⟩ := raw_message fr hk ht hon hs (laneIds_nodup _ ht2) (laneIds_length _) (delivers_of (laneIds_nodup _ ht2) hsp.1) f hf1 (by
    intro k _ id hid
    obtain ⟨i, hi, rfl⟩ := List.mem_map.mp hid
    rw [hby i (List.mem_range.mp hi)]
    exact hf2 k i (List.mem_range.mp hi))
  refine ⟨f, n, s', hf1, hf2, ?_, hr, hout, ?_, ?_⟩
  · have := dmessage_runs fr ht ht2 hs.1 0 ht pad pieces e
    rwa [Nat.zero_add] at this
  · intro i hi
    have := hn1 _ (List.mem_map_of_mem (List.mem_range.mpr hi))
    rwa [hby i hi] at this
  · intro hn
    obtain ⟨id, hid, h⟩ := hn2 hn
    obtain ⟨i, hi, rfl⟩ := List.mem_map.mp hid
    rw [hby i (List.mem_range.mp hi)] at h
    exact ⟨i, List.mem_range.mp hi, h⟩

theorem lane_length_lt (t : Nat) (ht : 0 < t) (l : List Byte) (i k : Nat) : k < (lane t i l).length ↔ i + k * t < l.length := by
  have := lane_get t ht l i k
  constructor
  · intro h
    rw [List.getElem?_eq_getElem h] at this
    exact (List.getElem?_eq_some_iff.mp this.symm).1
  · intro h
    rw [List.getElem?_eq_getElem h] at this
    exact (List.getElem?_eq_some_iff.mp this).1

/-- Reading the lanes in turn gives the message, and zeros. -/
theorem lanes_back (t n : Nat) (ht : 0 < t) (l : List Byte) (hl : l.length ≤ t * (4 * n)) :
    ((List.range (4 * n)).flatMap fun j => (List.range t).map fun i => (lane t i l ++ List.replicate (4 * n - (lane t i l).length) 0).getD j 0) = l ++ List.replicate (t * (4 * n) - l.length) 0 := by
  have h1 : ∀ j i, (lane t i l ++ List.replicate (4 * n - (lane t i l).length) 0).getD j 0 = l.getD (i + j * t) 0 := by
    intro j i
    rw [List.getD_eq_getElem?_getD, List.getD_eq_getElem?_getD]
    by_cases hj : j < (lane t i l).length
    · rw [List.getElem?_append_left hj, lane_get t ht]
    · have h2 := mt (lane_length_lt t ht l i j).mpr hj
      rw [List.getElem?_append_right (by omega), List.getElem?_eq_none (by omega : l.length ≤ i + j * t), List.getElem?_replicate]
      split <;> rfl
  simp only [h1]
  have h2 : ∀ m, ((List.range m).flatMap fun j => (List.range t).map fun i => l.getD (i + j * t) 0) = (List.range (t * m)).map fun x => l.getD x 0 := by
    intro m
    induction m with
    | zero => simp
    | succ m ih =>
      rw [List.range_succ, List.flatMap_append, ih, Nat.mul_add, Nat.mul_one, List.range_add, List.map_append, List.map_map]
      simp only [List.flatMap_cons, List.flatMap_nil, List.append_nil]
      congr 1
      apply List.map_congr_left
      intro i _
      simp only [Function.comp]
      congr 1
      rw [Nat.mul_comm m t]; omega
  rw [h2]
  apply List.ext_getElem
  · simp; omega
  · intro x h3 h4
    rw [List.getElem_map, List.getElem_range, List.getD_eq_getElem?_getD]
    by_cases hx : x < l.length
    · rw [List.getElem_append_left hx, List.getElem?_eq_getElem hx]; rfl
    · rw [List.getElem_append_right (by omega), List.getElem?_eq_none (by omega)]; simp

/-- The message comes back. -/
theorem info_recover (fr : Bool) {cfg : Cfg} {pad : Bool} (hk : cfg.kind = .info pad) (ht : 0 < cfg.threshold) (hfl : ∀ q, (cfg.split q).flatten = q)
    {s : Ida} (hs : Ready (laneIds cfg.threshold) s) (m : List Byte) (hgood : (∀ q, q.length = 4 * cfg.threshold → cfg.split q = [q]) ∨ ¬ Padded m)
    (f : Nat → F32[X]) (n : Nat) (hf : ∀ k, (f k).degree < cfg.threshold)
    (h1 : ∀ k, ∀ i < cfg.threshold, (f k).eval (φ32 (BitVec.ofNat 32 i)) = φ32 (wordAt (lane cfg.threshold i (marked pad m)) k))
    (h2 : ∀ i < cfg.threshold, (lane cfg.threshold i (marked pad m)).length ≤ 4 * n) (h3 : 0 < n → ∃ i < cfg.threshold, 4 * (n - 1) < (lane cfg.threshold i (marked pad m)).length)
    {ids : List W32} (hnd : ids.Nodup) (hids : ids.length = cfg.threshold) {data : W32 → List Byte} (hdata : ∀ id ∈ ids, data id = strm (polys f n) id)
    {h : List Call} (hd : Delivers ids data h) :
    ∃ s' z, s.run (gf32 fr) cfg h = .ok s' ∧ Ready (laneIds cfg.threshold) s' ∧ z < 4 * cfg.threshold ∧ (m.length + z) % (4 * cfg.threshold) = 0 ∧
      s'.sink.out = s.sink.out ++ ((m ++ if pad then [] else List.replicate z 0).map some ++ if cfg.prop then [none] else []).map (fun t => (none, t)) := by
  obtain ⟨s', n', p, q, e, hr, hout, hpq, hql, hn1, hn2⟩ := info_message fr hk ht (laneIds_length _) hs hnd hids hd f hf (words_of hdata)
  have hn := lens_eq (by omega) hdata hn1 hn2
  subst hn
  have hL : (marked pad m).length ≤ cfg.threshold * (4 * n') := by
    by_contra hc
    have := (lane_length_lt cfg.threshold ht (marked pad m) 0 (4 * n')).mpr (by rw [Nat.mul_comm]; omega)
    have := h2 0 ht
    omega
  have hL2 : 0 < n' → cfg.threshold * (4 * (n' - 1)) < (marked pad m).length := by
    intro hp
    obtain ⟨i, hi, hl⟩ := h3 hp
    have := (lane_length_lt cfg.threshold ht (marked pad m) i _).mp hl
    rw [Nat.mul_comm] at this; omega
  have hst : (polys f n').flatMap (spread (laneIds cfg.threshold)) = marked pad m ++ List.replicate (cfg.threshold * (4 * n') - (marked pad m).length) 0 := by
    rw [← flatMap_spread, polys_length, ← lanes_back cfg.threshold n' ht _ hL]
    apply List.flatMap_congr
    intro j _
    rw [laneIds, List.map_map]
    apply List.map_congr_left
    intro i hi
    have hi := List.mem_range.mp hi
    simp only [Function.comp]
    rw [strm_input f n' _ _ (h2 i hi) (fun k _ => h1 k i hi)]
  rw [hst] at hpq
  have hm4 : cfg.threshold * (4 * n') = 4 * cfg.threshold * n' := by rw [Nat.mul_comm 4 cfg.threshold, Nat.mul_assoc]
  have hz : cfg.threshold * (4 * n') - (marked pad m).length < 4 * cfg.threshold := by
    rcases Nat.eq_zero_or_pos n' with h0 | hp
    · rw [h0]; simp; omega
    · have := hL2 hp
      have e1 : cfg.threshold * (4 * n') = cfg.threshold * (4 * (n' - 1)) + 4 * cfg.threshold := by
        rw [show 4 * n' = 4 * (n' - 1) + 4 by omega, Nat.mul_add]; omega
      omega
  cases pad with
  | false =>
    have hmk : marked false m = m := by simp [marked]
    rw [hmk] at hz hL hpq
    refine ⟨s', cfg.threshold * (4 * n') - m.length, e, hr, hz, ?_, ?_⟩
    · rw [show m.length + (cfg.threshold * (4 * n') - m.length) = cfg.threshold * (4 * n') by omega, hm4, Nat.mul_mod_right]
    · rw [hout]
      have : q = [] := List.length_eq_zero_iff.mp (by simpa using hql)
      rw [this, List.append_nil] at hpq
      simp only [Bool.false_eq_true, if_false, List.append_nil, hpq]
  | true =>
    have hmk : (marked true m).length = m.length + 1 := by simp [marked]
    refine ⟨s', (4 * cfg.threshold - m.length % (4 * cfg.threshold)) % (4 * cfg.threshold), e, hr, Nat.mod_lt _ (by omega), ?_, ?_⟩
    · rw [← Nat.mod_add_mod, Nat.add_mod_mod]
      have := Nat.mod_lt m.length (show 0 < 4 * cfg.threshold by omega)
      rw [show m.length % (4 * cfg.threshold) + (4 * cfg.threshold - m.length % (4 * cfg.threshold)) = 4 * cfg.threshold by omega, Nat.mod_self]
    · rw [hout]
      congr 4
      simp only [if_true, List.append_nil]
      have hnp : 0 < n' := by
        rcases Nat.eq_zero_or_pos n' with h0 | hp
        · rw [h0, Nat.mul_zero] at hL; omega
        · exact hp
      rw [if_pos ⟨rfl, hnp⟩] at hql
      refine unpad hfl (z := cfg.threshold * (4 * n') - (marked true m).length) ?_ (by omega) ?_
      · rw [hpq]; simp [marked]
      · rcases hgood with hg | hg
        · exact Or.inl (hg q hql)
        · exact Or.inr hg

end Verif.Ida
