import Verif.Ida.Field
import Verif.Ida.History
import Verif.Ida.Streams
import Verif.Ida.Pad

/-! # A whole message through `RawIDA`, `SecretRecovery` and `InformationRecovery` -/
namespace Verif.Ida
open Verif.MQueue Verif.Gf Polynomial

/-! ## Words and bytes -/

theorem wordBytes_word (bs : List Byte) (h : bs.length = 4) : wordBytes (word bs) = bs := by
  have h1 := beVal_lt bs
  rw [h] at h1
  rw [wordBytes, word, BitVec.toNat_ofNat, Nat.mod_eq_of_lt (by simpa using h1)]
  have := beBytes_beVal bs
  rwa [h] at this

theorem word_wordBytes (x : W32) : word (wordBytes x) = x := by
  apply BitVec.eq_of_toNat_eq
  rw [word, wordBytes, beVal_beBytes, BitVec.toNat_ofNat]
  have := x.isLt
  rw [Nat.mod_eq_of_lt (a := x.toNat % 256 ^ 4) (by omega), Nat.mod_eq_of_lt (by omega)]

theorem wordBytes_wordAt (d : List Byte) (k : Nat) : wordBytes (wordAt d k) = (d.drop (4 * k)).take 4 ++ List.replicate (4 - ((d.drop (4 * k)).take 4).length) 0 := by
  apply wordBytes_word
  rw [List.length_append, List.length_replicate, List.length_take]; omega

/-- The words of some data give it back with zeros up to a whole number of words. -/
theorem words_back (n : Nat) : ∀ (d : List Byte), d.length ≤ 4 * n →
    ((List.range n).flatMap fun k => wordBytes (wordAt d k)) = d ++ List.replicate (4 * n - d.length) 0 := by
  induction n with
  | zero => intro d h; have : d = [] := List.length_eq_zero_iff.mp (by omega)
            subst this; rfl
  | succ n ih =>
    intro d h
    have := ih (d.drop 4) (by rw [List.length_drop]; omega)
    rw [List.range_succ_eq_map, List.flatMap_cons, List.flatMap_map]
    have e : ∀ k, wordAt d (k + 1) = wordAt (d.drop 4) k := by
      intro k; unfold wordAt; rw [List.drop_drop, show 4 * (k + 1) = 4 + 4 * k by omega]
    simp only [e, this]
    rw [wordBytes_wordAt, Nat.mul_zero, List.drop_zero, List.length_take, List.length_drop]
    by_cases hl : 4 ≤ d.length
    · rw [Nat.min_eq_left hl]
      simp only [Nat.sub_self, List.replicate_zero, List.append_nil]
      rw [← List.append_assoc, List.take_append_drop]
      congr 2; omega
    · rw [Nat.min_eq_right (by omega), List.take_of_length_le (by omega), List.drop_of_length_le (by omega), List.append_assoc, List.nil_append, List.replicate_append_replicate]
      congr 2; omega

theorem strm_drop (ks : List (W32 → W32)) (o : W32) : ∀ k, (strm ks o).drop (4 * k) = strm (ks.drop k) o := by
  induction ks with
  | nil => intro k; simp [strm]
  | cons h t ih =>
    intro k
    cases k with
    | zero => rfl
    | succ k =>
      rw [List.drop_succ_cons, ← ih k, strm, List.flatMap_cons, show 4 * (k + 1) = 4 + 4 * k by omega, ← List.drop_drop]
      congr 1

theorem wordAt_strm (ks : List (W32 → W32)) (o : W32) (k : Nat) (h : k < ks.length) : wordAt (strm ks o) k = ks[k] o := by
  unfold wordAt
  rw [strm_drop, List.drop_eq_getElem_cons h, strm, List.flatMap_cons, List.take_append_of_le_length (by rw [wordBytes_length]), List.take_of_length_le (by rw [wordBytes_length]),
    wordBytes_length]
  simp [word_wordBytes]

/-- The columns of polynomials. -/
noncomputable def polys (f : Nat → F32[X]) (n : Nat) : List (W32 → W32) := (List.range n).map fun k => evalAt (f k)

theorem polys_length (f : Nat → F32[X]) (n : Nat) : (polys f n).length = n := by simp [polys]

theorem wordAt_polys (f : Nat → F32[X]) (n k : Nat) (o : W32) (h : k < n) : wordAt (strm (polys f n) o) k = evalAt (f k) o := by
  rw [wordAt_strm _ _ _ (by rw [polys_length]; exact h)]
  have : (polys f n)[k]'(by rw [polys_length]; exact h) = evalAt (f k) := by unfold polys; rw [List.getElem_map, List.getElem_range]
  rw [this]

theorem evalAt_of (f : F32[X]) (o v : W32) (h : f.eval (φ32 o) = φ32 v) : evalAt f o = v := by
  apply φ32_inj; rw [evalAt, φ32_word32, h]

/-- The stream of an input is the input. -/
theorem strm_input (f : Nat → F32[X]) (n : Nat) (o : W32) (d : List Byte) (hd : d.length ≤ 4 * n) (h : ∀ k < n, (f k).eval (φ32 o) = φ32 (wordAt d k)) :
    strm (polys f n) o = d ++ List.replicate (4 * n - d.length) 0 := by
  rw [← words_back n d hd, strm, polys, List.flatMap_map]
  apply List.flatMap_congr
  intro k hk
  rw [evalAt_of _ _ _ (h k (List.mem_range.mp hk))]

/-! ## A message -/

/-- Ready for a message: no input channels, nothing buffered. -/
def Ready (outIds : List W32) (s : Ida) : Prop := Fresh outIds s ∧ s.sink.outQ = outIds.map (fun _ => []) ∧ s.sink.queue = []

theorem init_ready (outIds : List W32) : Ready outIds (Ida.init outIds) := ⟨init_fresh outIds, rfl, rfl⟩

theorem ida_message (fr : Bool) {cfg : Cfg} (ht : 0 < cfg.threshold) {outIds : List W32} {s : Ida} (hs : Fresh outIds s)
    {ids : List W32} (hnd : ids.Nodup) (hids : ids.length = cfg.threshold) {data : W32 → List Byte} {h : List Call} (hd : Delivers ids data h)
    (f : Nat → F32[X]) (hf : ∀ k, (f k).degree < cfg.threshold) (hfy : ∀ k, (∃ id ∈ ids, 4 * k < (data id).length) → ∀ id ∈ ids, (f k).eval (φ32 id) = φ32 (wordAt (data id) k)) :
    ∃ s' k n, s.run (gf32 fr) cfg h = .ok s' ∧ Fresh outIds s' ∧ s'.sink = k.ends cfg outIds ∧ Fed cfg outIds s.sink ((polys f n).map fun h => outIds.map h) k ∧
      (∀ id ∈ ids, (data id).length ≤ 4 * n) ∧ (0 < n → ∃ id ∈ ids, 4 * (n - 1) < (data id).length) := by
  obtain ⟨s', chans, e, ⟨w, n, k, h1, h2, h3, h4, h5⟩, hperm, hdata⟩ := run_final (gf32_prepare fr) ht hs hnd hids hd
  have hlen : chans.length = cfg.threshold := by rw [← hids, ← hperm.length_eq, List.length_map]
  have hmem : ∀ id ∈ ids, ∃ ch ∈ chans, ch.id = id := fun id hm => by
    have := hperm.symm.subset hm
    obtain ⟨ch, h1, h2⟩ := List.mem_map.mp this
    exact ⟨ch, h1, h2⟩
  have hmem' : ∀ ch ∈ chans, ch.id ∈ ids := fun ch hm => hperm.subset (List.mem_map_of_mem hm)
  have h3' : 0 < n → ∃ id ∈ ids, 4 * (n - 1) < (data id).length := by
    intro hn
    obtain ⟨ch, hm, hl⟩ := h3 hn
    exact ⟨ch.id, hmem' ch hm, by rw [← hdata ch hm]; exact hl⟩
  have hc := cols_exact fr (by omega) (hperm.nodup_iff.mpr hnd) h1 outIds f (by rw [hlen]; exact hf) n (by
    intro k hk ch hm
    rw [hdata ch hm]
    obtain ⟨id, hid, hl⟩ := h3' (by omega)
    exact hfy k ⟨id, hid, by omega⟩ ch.id (hmem' ch hm))
  rw [hc] at h4
  refine ⟨s', k, n, e, ⟨h5.1, h5.2.1, h5.2.2.1, h5.2.2.2.1, h5.2.2.2.2.1, h5.2.2.2.2.2.1⟩, h5.2.2.2.2.2.2, ?_, ?_, h3'⟩
  · rw [polys, List.map_map]; exact h4
  · intro id hm
    obtain ⟨ch, hm', rfl⟩ := hmem id hm
    rw [← hdata ch hm']; exact h2 ch hm'

/-- Whether the channel gets a message end. -/
def endTok (prop : Bool) (outIds : List W32) : Option W32 → List Tok
  | some o => if prop ∧ o ∈ outIds then [none] else []
  | none => []

theorem raw_message (fr : Bool) {cfg : Cfg} (hk : cfg.kind = .raw) (ht : 0 < cfg.threshold) {outIds : List W32} (hon : outIds.Nodup) {s : Ida} (hs : Ready outIds s)
    {ids : List W32} (hnd : ids.Nodup) (hids : ids.length = cfg.threshold) {data : W32 → List Byte} {h : List Call} (hd : Delivers ids data h)
    (f : Nat → F32[X]) (hf : ∀ k, (f k).degree < cfg.threshold) (hfy : ∀ k, (∃ id ∈ ids, 4 * k < (data id).length) → ∀ id ∈ ids, (f k).eval (φ32 id) = φ32 (wordAt (data id) k)) :
    ∃ s' n, s.run (gf32 fr) cfg h = .ok s' ∧ Ready outIds s' ∧
      (∀ ch, received ch s'.sink.out = received ch s.sink.out ++ carried outIds (polys f n) ch ++ endTok cfg.prop outIds ch) ∧
      (∀ id ∈ ids, (data id).length ≤ 4 * n) ∧ (0 < n → ∃ id ∈ ids, 4 * (n - 1) < (data id).length) := by
  obtain ⟨s', k, n, e, hfr, hsk, hfed, h1, h2⟩ := ida_message fr ht hs.1 hnd hids hd f hf hfy
  obtain ⟨g1, g2, g3⟩ := raw_closed hk hon hs.2.1 hfed
  have hq : s'.sink.outQ = k.outQ ∧ s'.sink.queue = k.queue := by
    rw [hsk]; unfold Sink.ends; rw [hk]; simp only; split <;> exact ⟨rfl, rfl⟩
  refine ⟨s', n, e, ⟨hfr, by rw [hq.1, g1], by rw [hq.2, g2, hs.2.2]⟩, ?_, h1, h2⟩
  intro ch
  rw [hsk]
  unfold Sink.ends
  rw [hk]
  simp only
  have hend : received ch (outIds.map fun id => ((some id, none) : Ev)) = endTok true outIds ch := by
    clear hs hfed hsk hfr g1 g3 hq e
    induction outIds with
    | nil => cases ch <;> rfl
    | cons i l ih =>
      rw [List.nodup_cons] at hon
      have := ih hon.2
      rw [List.map_cons, ← List.singleton_append, received_append, this]
      have h1 := received_map ch (some i) [none]
      rw [List.map_cons, List.map_nil] at h1
      rw [h1]
      cases ch with
      | none => simp [endTok]
      | some o =>
        by_cases h : o = i
        · subst h; simp [endTok, hon.1]
        · simp [endTok, h]
  cases hp : cfg.prop with
  | true => simp only [if_true]; rw [received_append, g3, hend]
  | false => simp only [Bool.false_eq_true, if_false]; rw [g3]; cases ch <;> simp [endTok]

theorem secret_message (fr : Bool) {cfg : Cfg} {pad : Bool} (hk : cfg.kind = .secret pad) (ht : 0 < cfg.threshold) {o : W32} {s : Ida} (hs : Ready [o] s)
    {ids : List W32} (hnd : ids.Nodup) (hids : ids.length = cfg.threshold) {data : W32 → List Byte} {h : List Call} (hd : Delivers ids data h)
    (f : Nat → F32[X]) (hf : ∀ k, (f k).degree < cfg.threshold) (hfy : ∀ k, (∃ id ∈ ids, 4 * k < (data id).length) → ∀ id ∈ ids, (f k).eval (φ32 id) = φ32 (wordAt (data id) k)) :
    ∃ s' n p q, s.run (gf32 fr) cfg h = .ok s' ∧ Ready [o] s' ∧
      s'.sink.out = s.sink.out ++ ((p ++ if pad then removePadding (cfg.split q) else []).map some ++ if cfg.prop then [none] else []).map (fun t => (none, t)) ∧
      p ++ q = strm (polys f n) o ∧ (q.length = if pad ∧ 0 < n then 4 else 0) ∧
      (∀ id ∈ ids, (data id).length ≤ 4 * n) ∧ (0 < n → ∃ id ∈ ids, 4 * (n - 1) < (data id).length) := by
  obtain ⟨s', k, n, e, hfr, hsk, hfed, h1, h2⟩ := ida_message fr ht hs.1 hnd hids hd f hf hfy
  obtain ⟨p, q, g1, g2, g3, g4, g5⟩ := secret_closed hk hs.2.1 hfed
  have hn : polys f n ≠ [] ↔ 0 < n := by rw [← List.length_pos_iff, polys_length]
  simp only [hn] at g5
  have hq : s'.sink.outQ = [[]] ∧ s'.sink.queue = k.queue := by
    rw [hsk]; unfold Sink.ends; rw [hk]
    cases pad with
    | true => simp only [if_true]; split <;> exact ⟨by rw [g1]; rfl, rfl⟩
    | false =>
      have : q = [] := List.length_eq_zero_iff.mp (by simpa using g5)
      simp only [Bool.false_eq_true, if_false]; split <;> exact ⟨by rw [g1, this], rfl⟩
  refine ⟨s', n, p, q, e, ⟨hfr, hq.1, by rw [hq.2, g2, hs.2.2]⟩, ?_, g4, g5, h1, h2⟩
  rw [hsk]
  unfold Sink.ends
  rw [hk, g1]
  cases pad <;> cases cfg.prop <;> simp [g3, Function.comp_def]

theorem info_message (fr : Bool) {cfg : Cfg} {pad : Bool} (hk : cfg.kind = .info pad) (ht : 0 < cfg.threshold) {outIds : List W32} (hol : outIds.length = cfg.threshold)
    {s : Ida} (hs : Ready outIds s)
    {ids : List W32} (hnd : ids.Nodup) (hids : ids.length = cfg.threshold) {data : W32 → List Byte} {h : List Call} (hd : Delivers ids data h)
    (f : Nat → F32[X]) (hf : ∀ k, (f k).degree < cfg.threshold) (hfy : ∀ k, (∃ id ∈ ids, 4 * k < (data id).length) → ∀ id ∈ ids, (f k).eval (φ32 id) = φ32 (wordAt (data id) k)) :
    ∃ s' n p q, s.run (gf32 fr) cfg h = .ok s' ∧ Ready outIds s' ∧
      s'.sink.out = s.sink.out ++ ((p ++ if pad then removePadding (cfg.split q) else []).map some ++ if cfg.prop then [none] else []).map (fun t => (none, t)) ∧
      p ++ q = (polys f n).flatMap (spread outIds) ∧ (q.length = if pad ∧ 0 < n then 4 * cfg.threshold else 0) ∧
      (∀ id ∈ ids, (data id).length ≤ 4 * n) ∧ (0 < n → ∃ id ∈ ids, 4 * (n - 1) < (data id).length) := by
  obtain ⟨s', k, n, e, hfr, hsk, hfed, h1, h2⟩ := ida_message fr ht hs.1 hnd hids hd f hf hfy
  obtain ⟨p, q, g1, g2, g3, g4, g5⟩ := info_closed hk hol ht hs.2.1 hs.2.2 hfed
  have hn : polys f n ≠ [] ↔ 0 < n := by rw [← List.length_pos_iff, polys_length]
  simp only [hn] at g5
  have hq : s'.sink.outQ = k.outQ ∧ s'.sink.queue = [] := by
    rw [hsk]; unfold Sink.ends; rw [hk]
    cases pad with
    | true => simp only [if_true]; split <;> exact ⟨rfl, rfl⟩
    | false =>
      have : q = [] := List.length_eq_zero_iff.mp (by simpa using g5)
      simp only [Bool.false_eq_true, if_false]; split <;> exact ⟨rfl, by rw [g2, this]⟩
  refine ⟨s', n, p, q, e, ⟨hfr, by rw [hq.1, g1], hq.2⟩, ?_, g4, g5, h1, h2⟩
  rw [hsk]
  unfold Sink.ends
  rw [hk, g2]
  cases pad <;> cases cfg.prop <;> simp [g3, Function.comp_def]

end Verif.Ida
