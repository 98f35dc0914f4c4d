import Verif.Ida.Recover

/-! # Fewer shares than the threshold say nothing about the secret -/
namespace Verif.Ida
open Verif.MQueue Verif.Gf Polynomial

/-- The generator's stream that makes the channels get these bytes. -/
def rngFor (t : Nat) : List (List Byte) → Nat → (Nat → List Byte) → Nat → Byte
  | [], _, _, _ => 0
  | c :: l, pos, D, x =>
    if x < pos + (t - 1) * c.length then (D ((x - pos) / c.length)).getD ((x - pos) % c.length) 0
    else rngFor t l (pos + (t - 1) * c.length) (fun j => (D j).drop c.length) x

theorem randomOf_congr {r1 r2 : Nat → Byte} (t j : Nat) (hj : j < t - 1) (l : List (List Byte)) : ∀ pos, (∀ x, pos ≤ x → x < pos + (t - 1) * l.flatten.length → r1 x = r2 x) →
    randomOf r1 t j l pos = randomOf r2 t j l pos := by
  induction l with
  | nil => intro pos _; rfl
  | cons c l ih =>
    intro pos h
    rw [List.flatten_cons, List.length_append, Nat.mul_add] at h
    rw [randomOf, randomOf, ih _ (fun x h1 h2 => h x (by omega) (by omega))]
    congr 1
    apply List.map_congr_left
    intro k hk
    have hk := List.mem_range.mp hk
    have : (j + 1) * c.length ≤ (t - 1) * c.length := Nat.mul_le_mul_right _ (by omega)
    rw [Nat.add_mul] at this
    exact h _ (by omega) (by omega)

theorem rngFor_spec (t : Nat) (l : List (List Byte)) : ∀ (pos : Nat) (D : Nat → List Byte), (∀ j < t - 1, (D j).length = l.flatten.length) →
    ∀ j < t - 1, randomOf (rngFor t l pos D) t j l pos = D j := by
  induction l with
  | nil => intro pos D hD j hj; have := hD j hj; exact (List.length_eq_zero_iff.mp this).symm
  | cons c l ih =>
    intro pos D hD j hj
    have hl : ∀ j < t - 1, (D j).length = c.length + l.flatten.length := fun j hj => by rw [hD j hj, List.flatten_cons, List.length_append]
    rw [randomOf]
    have := ih (pos + (t - 1) * c.length) (fun j => (D j).drop c.length) (fun j hj => by rw [List.length_drop, hl j hj]; omega) j hj
    rw [randomOf_congr (r2 := rngFor t l (pos + (t - 1) * c.length) (fun j => (D j).drop c.length)) t j hj l _ ?_, this]
    · conv => rhs; rw [← List.take_append_drop c.length (D j)]
      congr 1
      apply List.ext_getElem
      · rw [List.length_map, List.length_range, List.length_take, hl j hj]; omega
      · intro k h1 h2
        rw [List.length_map, List.length_range] at h1
        rw [List.getElem_map, List.getElem_range, List.getElem_take, rngFor]
        have hm : (j + 1) * c.length ≤ (t - 1) * c.length := Nat.mul_le_mul_right _ (by omega)
        rw [Nat.add_mul] at hm
        rw [if_pos (by omega), show pos + j * c.length + k - pos = k + c.length * j by rw [Nat.mul_comm j]; omega, Nat.add_mul_div_left _ _ (by omega), Nat.add_mul_mod_self_left,
          Nat.div_eq_of_lt h1, Nat.mod_eq_of_lt h1, Nat.zero_add, getD_lt _ _ (by rw [hl j hj]; omega)]
    · intro x h1 h2
      rw [rngFor, if_neg (by omega)]

theorem randomOf_inj {r1 r2 : Nat → Byte} (t : Nat) (l : List (List Byte)) : ∀ pos, (∀ j < t - 1, randomOf r1 t j l pos = randomOf r2 t j l pos) →
    ∀ x, x < (t - 1) * l.flatten.length → r1 (pos + x) = r2 (pos + x) := by
  induction l with
  | nil => intro pos _ x hx; simp at hx
  | cons c l ih =>
    intro pos h x hx
    rw [List.flatten_cons, List.length_append, Nat.mul_add] at hx
    have hs : ∀ j < t - 1, ((List.range c.length).map fun k => r1 (pos + j * c.length + k)) = ((List.range c.length).map fun k => r2 (pos + j * c.length + k)) ∧
        randomOf r1 t j l (pos + (t - 1) * c.length) = randomOf r2 t j l (pos + (t - 1) * c.length) := by
      intro j hj
      have := h j hj
      rw [randomOf, randomOf] at this
      exact List.append_inj this (by simp)
    by_cases hc : x < (t - 1) * c.length
    · have hcp : 0 < c.length := by
        rcases Nat.eq_zero_or_pos c.length with h0 | h0
        · rw [h0] at hc; simp at hc
        · exact h0
      have hj : x / c.length < t - 1 := (Nat.div_lt_iff_lt_mul hcp).mpr hc
      have := (hs _ hj).1
      have hk := Nat.mod_lt x hcp
      have e := congrArg (fun l => l[x % c.length]?) this
      simp only [List.getElem?_map, List.getElem?_range hk, Option.map_some, Option.some.injEq] at e
      have hx' : pos + x / c.length * c.length + x % c.length = pos + x := by
        have := Nat.div_add_mod x c.length
        rw [Nat.mul_comm] at this; omega
      rwa [hx'] at e
    · have := ih (pos + (t - 1) * c.length) (fun j hj => (hs j hj).2) (x - (t - 1) * c.length) (by omega)
      rwa [show pos + (t - 1) * c.length + (x - (t - 1) * c.length) = pos + x by omega] at this

theorem wordAt_inj {a b : List Byte} {n : Nat} (ha : a.length = 4 * n) (hb : b.length = 4 * n) (h : ∀ k < n, wordAt a k = wordAt b k) : a = b := by
  have h1 := words_back n a (by omega)
  have h2 := words_back n b (by omega)
  rw [ha, Nat.sub_self, List.replicate_zero, List.append_nil] at h1
  rw [hb, Nat.sub_self, List.replicate_zero, List.append_nil] at h2
  rw [← h1, ← h2]
  apply List.flatMap_congr
  intro k hk
  rw [h k (List.mem_range.mp hk)]

/-- A polynomial of degree below the number of points is determined by its values there. -/
theorem poly_unique {F : Type} [Field F] {E : Type} (φ : E → F) (hφ : Function.Injective φ) {l : List E} (hl : l.Nodup) {f g : F[X]} (hf : f.degree < l.length) (hg : g.degree < l.length)
    (h : ∀ x ∈ l, f.eval (φ x) = g.eval (φ x)) : f = g := by
  classical
  have hcard : l.toFinset.card = l.length := List.toFinset_card_of_nodup hl
  refine Polynomial.eq_of_degrees_lt_of_eval_index_eq l.toFinset (v := φ) hφ.injOn ?_ ?_ (fun x hx => h x (List.mem_toFinset.mp hx))
  · rw [hcard]; exact hf
  · rw [hcard]; exact hg

/-- Every view of `threshold - 1` shares comes from exactly one stream of random bytes. -/
theorem views (fr : Bool) {cfg : Cfg} (hk : cfg.kind = .raw) (ht : 0 < cfg.threshold) (ht2 : cfg.threshold ≤ 2 ^ 32) {outIds : List W32} (hon : outIds.Nodup)
    {s0 : Ida} (hs : Ready outIds s0) (pos0 fuel : Nat) (hfu : 4 ≤ fuel) (pad : Bool) (pieces : List (List Byte)) (n : Nat) (hn : (padded pad pieces.flatten).length = 4 * n)
    {S : List W32} (hS : S.Nodup) (hSl : S.length + 1 = cfg.threshold) (hSo : ∀ id ∈ S, id ∈ outIds) (hS1 : 0xffffffff#32 ∉ S) (V : W32 → List Byte) (hV : ∀ id ∈ S, (V id).length = 4 * n) :
    let sees := fun rng : Nat → Byte => ∃ s', Sharing.message (gf32 fr) cfg rng fuel pad pieces ⟨s0, pos0⟩ = .ok s' ∧
      ∀ id ∈ S, received (some id) s'.ida.sink.out = received (some id) s0.sink.out ++ (V id).map some ++ if cfg.prop then [none] else []
    ∃ rng, sees rng ∧ ∀ rng', sees rng' → ∀ x < (cfg.threshold - 1) * (4 * n), rng' (pos0 + x) = rng (pos0 + x) := by
  intro sees
  have hn4 : ((padded pad pieces.flatten).length + 3) / 4 = n := by omega
  -- the polynomials through the view and the secret
  have hpts : ∀ k, ∃ g : F32[X], g.degree < cfg.threshold ∧ g.eval (φ32 0xffffffff) = φ32 (wordAt (padded pad pieces.flatten) k) ∧ ∀ id ∈ S, g.eval (φ32 id) = φ32 (wordAt (V id) k) := by
    intro k
    obtain ⟨g, h1, h2⟩ := exists_poly (0xffffffff#32 :: S) (fun id => if id = 0xffffffff#32 then wordAt (padded pad pieces.flatten) k else wordAt (V id) k)
    have hl : ((0xffffffff#32 :: S).length : WithBot Nat) = cfg.threshold := by rw [List.length_cons, hSl]
    refine ⟨g, by rw [← hl]; exact h1, by simpa using h2 0xffffffff#32 (List.mem_cons_self), ?_⟩
    intro id hid
    have := h2 id (List.mem_cons_of_mem _ hid)
    rwa [if_neg (fun he : id = 0xffffffff#32 => hS1 (he ▸ hid))] at this
  choose g hg using hpts
  have hD : ∀ j < cfg.threshold - 1, (strm (polys g n) (BitVec.ofNat 32 j)).length = (chunkList pad pieces).flatten.length := by
    intro j _; rw [strm_length, polys_length, chunkList_flatten, hn]
  -- what a stream that gives the view must be
  have key : ∀ rng, sees rng ↔ ∀ j < cfg.threshold - 1, randomOf rng cfg.threshold j (chunkList pad pieces) pos0 = strm (polys g n) (BitVec.ofNat 32 j) := by
    intro rng
    constructor
    · rintro ⟨s', e, hv⟩ j hj
      obtain ⟨f, hf, hf1, hf2⟩ := share_polys rng cfg.threshold pos0 ht ht2 (padded pad pieces.flatten) (chunkList pad pieces)
      obtain ⟨s2, e2, _, hout⟩ := share_message fr hk ht ht2 hon hs rng pos0 fuel hfu pad pieces f hf (fun k _ => hf1 k) (fun k _ => hf2 k)
      rw [e] at e2
      have he := Except.ok.inj e2
      rw [he] at hv
      have hfg : ∀ k < n, f k = g k := by
        intro k hk'
        have hl : ((0xffffffff#32 :: S).length : WithBot Nat) = cfg.threshold := by rw [List.length_cons, hSl]
        refine poly_unique φ32 φ32_inj (List.nodup_cons.mpr ⟨hS1, hS⟩) (by rw [hl]; exact hf k) (by rw [hl]; exact (hg k).1) ?_
        · intro id hid
          rcases List.mem_cons.mp hid with rfl | hid
          · exact (hf1 k).trans (hg k).2.1.symm
          · rw [(hg k).2.2 id hid]
            have h1 := hv id hid
            rw [hout (some id), hn4] at h1
            simp only [carried, endTok, hSo id hid, if_true, and_true] at h1
            have h2 := List.append_inj_right (List.append_inj_left' h1 (by cases cfg.prop <;> rfl)) rfl
            have h3 : strm (polys f n) id = V id := List.map_injective_iff.mpr (Option.some_injective _) h2
            rw [← h3, wordAt_polys f n k id hk', evalAt, φ32_word32]
      apply wordAt_inj (n := n)
      · rw [randomOf_length, chunkList_flatten, hn]
      · rw [strm_length, polys_length]
      · intro k hk'
        rw [wordAt_polys g n k _ hk', ← hfg k hk']
        exact (evalAt_of _ _ _ (hf2 k j hj)).symm
    · intro h
      obtain ⟨s2, e2, _, hout⟩ := share_message fr hk ht ht2 hon hs rng pos0 fuel hfu pad pieces g (fun k => (hg k).1) (fun k _ => (hg k).2.1) (by
        intro k hk' j hj
        rw [h j hj, wordAt_polys g n k _ (by omega), evalAt, φ32_word32])
      refine ⟨_, e2, ?_⟩
      intro id hid
      rw [hout (some id), hn4]
      simp only [carried, endTok, hSo id hid, if_true, and_true]
      have : strm (polys g n) id = V id := by
        have := strm_input g n id (V id) (by rw [hV id hid]) (fun k _ => (hg k).2.2 id hid)
        rwa [hV id hid, Nat.sub_self, List.replicate_zero, List.append_nil] at this
      rw [this]
  refine ⟨rngFor cfg.threshold (chunkList pad pieces) pos0 fun j => strm (polys g n) (BitVec.ofNat 32 j), ?_, ?_⟩
  · rw [key]; exact rngFor_spec _ _ _ _ hD
  · intro rng' h x hx
    rw [key] at h
    refine randomOf_inj cfg.threshold (chunkList pad pieces) pos0 ?_ x (by rw [chunkList_flatten, hn]; exact hx)
    intro j hj
    rw [h j hj, rngFor_spec _ _ _ _ hD j hj]

end Verif.Ida
