import Verif.Ida.Share

/-! # Sharing, then recovering -/
namespace Verif.Ida
open Verif.MQueue Verif.Gf Polynomial

/-- What `SecretSharing` sends out for a message, in terms of any polynomials through the secret and the random words. -/
theorem share_message (fr : Bool) {cfg : Cfg} (hk : cfg.kind = .raw) (ht : 0 < cfg.threshold) (ht2 : cfg.threshold ≤ 2 ^ 32) {outIds : List W32} (hon : outIds.Nodup)
    {s0 : Ida} (hs : Ready outIds s0) (rng : Nat → Byte) (pos0 fuel : Nat) (hfu : 4 ≤ fuel) (pad : Bool) (pieces : List (List Byte))
    (f : Nat → F32[X]) (hf : ∀ k, (f k).degree < cfg.threshold)
    (h1 : ∀ k, 4 * k < (padded pad pieces.flatten).length → (f k).eval (φ32 0xffffffff) = φ32 (wordAt (padded pad pieces.flatten) k))
    (h2 : ∀ k, 4 * k < (padded pad pieces.flatten).length → ∀ j < cfg.threshold - 1,
      (f k).eval (φ32 (BitVec.ofNat 32 j)) = φ32 (wordAt (randomOf rng cfg.threshold j (chunkList pad pieces) pos0) k)) :
    ∃ s', Sharing.message (gf32 fr) cfg rng fuel pad pieces ⟨s0, pos0⟩ = .ok ⟨s', pos0 + (cfg.threshold - 1) * (padded pad pieces.flatten).length⟩ ∧ Ready outIds s' ∧
      ∀ ch, received ch s'.sink.out = received ch s0.sink.out ++ carried outIds (polys f (((padded pad pieces.flatten).length + 3) / 4)) ch ++ endTok cfg.prop outIds ch := by
  have hsp := chunkCalls_spec rng _ ht2 (chunkList pad pieces) pos0
  have hlen : ∀ id ∈ shareIds cfg.threshold, (bytesOf id (chunkCalls rng cfg.threshold (chunkList pad pieces) pos0)).length = (padded pad pieces.flatten).length := by
    intro id hid
    rcases List.mem_cons.mp hid with rfl | hid
    · rw [← chunkList_flatten]; exact congrArg List.length hsp.2.1
    · obtain ⟨j, hj, rfl⟩ := List.mem_map.mp hid
      rw [hsp.2.2 j (List.mem_range.mp hj), randomOf_length, chunkList_flatten]
  obtain ⟨s', n, e, hr, hout, hn1, hn2⟩ := raw_message fr hk ht hon hs (shareIds_nodup _ ht2) (shareIds_length _ ht) (delivers_of (shareIds_nodup _ ht2) hsp.1) f hf (by
    rintro k ⟨id0, hid0, hl⟩ id hid
    rw [hlen id0 hid0] at hl
    rcases List.mem_cons.mp hid with rfl | hid
    · have := hsp.2.1
      rw [chunkList_flatten] at this
      exact (h1 k hl).trans (congrArg (fun d => φ32 (wordAt d k)) this.symm)
    · obtain ⟨j, hj, rfl⟩ := List.mem_map.mp hid
      rw [hsp.2.2 j (List.mem_range.mp hj)]
      exact h2 k hl j (List.mem_range.mp hj))
  have hm : (0xffffffff : W32) ∈ shareIds cfg.threshold := by simp [shareIds]
  have hn : n = ((padded pad pieces.flatten).length + 3) / 4 := by
    have a1 := hn1 _ hm
    rw [hlen _ hm] at a1
    rcases Nat.eq_zero_or_pos n with rfl | hp
    · omega
    · obtain ⟨id, hid, hl⟩ := hn2 hp
      rw [hlen id hid] at hl
      omega
  subst hn
  exact ⟨s', message_runs fr ht ht2 hs.1 rng pos0 fuel hfu pad pieces e, hr, hout⟩

/-- The polynomials of a message. -/
theorem share_polys (rng : Nat → Byte) (t pos0 : Nat) (ht : 0 < t) (ht2 : t ≤ 2 ^ 32) (P : List Byte) (chunks : List (List Byte)) :
    ∃ f : Nat → F32[X], (∀ k, (f k).degree < t) ∧ (∀ k, (f k).eval (φ32 0xffffffff) = φ32 (wordAt P k)) ∧
      ∀ k, ∀ j < t - 1, (f k).eval (φ32 (BitVec.ofNat 32 j)) = φ32 (wordAt (randomOf rng t j chunks pos0) k) := by
  have := fun k => exists_poly (shareIds t) (fun id => if id = 0xffffffff then wordAt P k else wordAt (randomOf rng t id.toNat chunks pos0) k)
  choose f hf using this
  have hl : ((shareIds t).length : WithBot Nat) = t := by rw [shareIds_length t ht]
  refine ⟨f, fun k => by rw [← hl]; exact (hf k).1, fun k => by simpa using (hf k).2 0xffffffff (by simp [shareIds]), ?_⟩
  intro k j hj
  have := (hf k).2 (BitVec.ofNat 32 j) (List.mem_cons_of_mem _ (List.mem_map_of_mem (List.mem_range.mpr hj)))
  rw [if_neg, BitVec.toNat_ofNat, Nat.mod_eq_of_lt (by omega)] at this
  · exact this
  · intro he
    have := ofNat_inj (i := j) (j := 0xffffffff) (by omega) (by omega) he
    omega

/-- From shares that are values of polynomials, the recovery outputs come back. -/
theorem lens_eq {ids : List W32} {f : Nat → F32[X]} {n n' : Nat} {data : W32 → List Byte} (hne : 0 < ids.length) (hdata : ∀ id ∈ ids, data id = strm (polys f n) id)
    (h1 : ∀ id ∈ ids, (data id).length ≤ 4 * n') (h2 : 0 < n' → ∃ id ∈ ids, 4 * (n' - 1) < (data id).length) : n' = n := by
  obtain ⟨id, hid⟩ := List.exists_mem_of_length_pos hne
  have a1 := h1 id hid
  rw [hdata id hid, strm_length, polys_length] at a1
  rcases Nat.eq_zero_or_pos n' with rfl | hp
  · omega
  · obtain ⟨id, hid, hl⟩ := h2 hp
    rw [hdata id hid, strm_length, polys_length] at hl
    omega

theorem words_of {ids : List W32} {f : Nat → F32[X]} {n : Nat} {data : W32 → List Byte} (hdata : ∀ id ∈ ids, data id = strm (polys f n) id) (k : Nat)
    (hk : ∃ id ∈ ids, 4 * k < (data id).length) : ∀ id ∈ ids, (f k).eval (φ32 id) = φ32 (wordAt (data id) k) := by
  obtain ⟨id0, hid0, hl⟩ := hk
  rw [hdata id0 hid0, strm_length, polys_length] at hl
  intro id hid
  rw [hdata id hid, wordAt_polys f n k id (by omega), evalAt, φ32_word32]

/-- What the last bytes of a padded message look like. -/
theorem last_part {p q m : List Byte} {z : Nat} (h : p ++ q = m ++ 1 :: List.replicate z 0) (hq : z < q.length) :
    ∃ m', m = p ++ m' ∧ q = m' ++ 1 :: List.replicate z 0 := by
  have hl := congrArg List.length h
  simp only [List.length_append, List.length_cons, List.length_replicate] at hl
  rcases List.append_eq_append_iff.mp h with ⟨a, h1, h2⟩ | ⟨a, h1, h2⟩
  · exact ⟨a, h1, h2⟩
  · have : a = [] := by
      have := congrArg List.length h2
      simp only [List.length_append, List.length_cons, List.length_replicate] at this
      exact List.length_eq_zero_iff.mp (by omega)
    subst this
    refine ⟨[], by simpa using h1.symm, by simpa using h2.symm⟩

theorem badCut_padded {pieces : List (List Byte)} {m : List Byte} {z : Nat} (h : pieces.flatten = m ++ 1 :: List.replicate z 0) (hb : BadCut pieces) : Padded m := by
  obtain ⟨pre, suf, he, ⟨a, y, hp⟩, b, z', hs⟩ := hb
  rw [he, List.flatten_append, hp, hs] at h
  have e : a ++ 1 :: List.replicate y 0 ++ (List.replicate b 0 ++ 1 :: List.replicate z' 0) = (a ++ 1 :: List.replicate (y + b) 0) ++ 1 :: List.replicate z' (0 : Byte) := by
    rw [← List.replicate_append_replicate]; simp only [List.append_assoc, List.cons_append]
  rw [e] at h
  exact ⟨a, y + b, (padded_unique h).symm⟩

theorem padded_append {p m : List Byte} (h : Padded m) : Padded (p ++ m) := by
  obtain ⟨a, z, h⟩ := h
  exact ⟨p ++ a, z, by rw [h, List.append_assoc]⟩

/-- The recovered bytes of a padded message. -/
theorem unpad {split : List Byte → List (List Byte)} (hfl : ∀ q, (split q).flatten = q) {p q m : List Byte} {z : Nat} (h : p ++ q = m ++ 1 :: List.replicate z 0) (hq : z < q.length)
    (hgood : split q = [q] ∨ ¬ Padded m) : p ++ removePadding (split q) = m := by
  obtain ⟨m', h1, h2⟩ := last_part h hq
  rw [removePadding_exact (split q) m' z (by rw [hfl, h2]) ?_, h1]
  intro hb
  rcases hgood with hs | hs
  · rw [hs] at hb; exact badCut_single q hb
  · exact hs (by rw [h1]; exact padded_append (badCut_padded (by rw [hfl, h2]) hb))

/-- The secret comes back. -/
theorem secret_recover (fr : Bool) {cfg : Cfg} {pad : Bool} (hk : cfg.kind = .secret pad) (ht : 0 < cfg.threshold) (hfl : ∀ q, (cfg.split q).flatten = q)
    {s : Ida} (hs : Ready [0xffffffff] s) (m : List Byte) (hgood : (∀ q, q.length = 4 → cfg.split q = [q]) ∨ ¬ Padded m)
    (f : Nat → F32[X]) (hf : ∀ k, (f k).degree < cfg.threshold) (h1 : ∀ k, (f k).eval (φ32 0xffffffff) = φ32 (wordAt (padded pad m) k))
    {ids : List W32} (hnd : ids.Nodup) (hids : ids.length = cfg.threshold) {data : W32 → List Byte} (hdata : ∀ id ∈ ids, data id = strm (polys f (((padded pad m).length + 3) / 4)) id)
    {h : List Call} (hd : Delivers ids data h) :
    ∃ s', s.run (gf32 fr) cfg h = .ok s' ∧ Ready [0xffffffff] s' ∧
      s'.sink.out = s.sink.out ++ ((m ++ if pad then [] else List.replicate ((4 - m.length % 4) % 4) 0).map some ++ if cfg.prop then [none] else []).map (fun t => (none, t)) := by
  obtain ⟨s', n, p, q, e, hr, hout, hpq, hql, hn1, hn2⟩ := secret_message fr hk ht hs hnd hids hd f hf (words_of hdata)
  have hn := lens_eq (by omega) hdata hn1 hn2
  refine ⟨s', e, hr, ?_⟩
  rw [hout]
  congr 4
  rw [strm_input f n _ (padded pad m) (by omega) (fun k _ => h1 k)] at hpq
  cases pad with
  | false =>
    simp only [Bool.false_eq_true, if_false, List.append_nil]
    have : q = [] := List.length_eq_zero_iff.mp (by simpa using hql)
    rw [this, List.append_nil] at hpq
    rw [hpq]
    simp only [padded, Bool.false_eq_true, if_false, List.append_nil] at hn ⊢
    congr 2; omega
  | true =>
    simp only [if_true, List.append_nil]
    have hpl : (padded true m).length = m.length + 1 + (4 - (m.length + 1) % 4) % 4 := by simp [padded]; omega
    have hz : 4 * n - (padded true m).length = 0 := by omega
    rw [hz] at hpq
    have hnp : 0 < n := by omega
    rw [if_pos ⟨rfl, hnp⟩] at hql
    refine unpad hfl (z := (4 - (m.length + 1) % 4) % 4) ?_ (by omega) ?_
    · rw [hpq]; simp [padded]
    · rcases hgood with hg | hg
      · exact Or.inl (hg q hql)
      · exact Or.inr hg

end Verif.Ida
