import Verif.Flate.BodyProofs

/-!
# The header of a block
-/
namespace Verif.Flate

theorem getD_le {M : Nat} {l : List Nat} (h : ∀ x ∈ l, x ≤ M) (i : Nat) : l.getD i 0 ≤ M := by
  by_cases hz : l.getD i 0 = 0
  · omega
  · exact h _ (getD_mem hz)

/-- If `A` is all there, `B` is what follows. -/
theorem split_prefix {A B S G : List Bool} (h : S ++ G = A ++ B) (hl : A.length ≤ S.length) : S = A ++ S.drop A.length ∧ S.drop A.length ++ G = B := by
  have h1 := congrArg (List.take A.length) h
  have h2 := congrArg (List.drop A.length) h
  rw [List.take_left' rfl, List.take_append_of_le_length hl] at h1
  rw [List.drop_left' rfl, List.drop_append_of_le_length hl] at h2
  refine ⟨?_, h2⟩
  conv => lhs; rw [← List.take_append_drop A.length S, h1]

open Classical in
theorem readClens_spec {c : List Nat} (hc : ∀ x ∈ c, x ≤ 7) (n : Nat) : ∀ (i : Nat) (r : Reader) (a : Nat → Nat) (rest : List Bool), r.Ok →
    r.str = (List.range' i n).flatMap (fun j => bits 3 (c.getD (order.getD j 0) 0)) ++ rest →
    (readClens n i r a).1.Ok ∧ (readClens n i r a).1.str = rest ∧ (readClens n i r a).1.bits ≤ max r.bits 7 ∧
    ∀ t, (readClens n i r a).2 t = if ∃ j, i ≤ j ∧ j < i + n ∧ order.getD j 0 = t then c.getD t 0 else a t := by
  induction n with
  | zero =>
    intro i r a rest h1 h2
    refine ⟨h1, by simpa [readClens] using h2, by simp [readClens], fun t => ?_⟩
    rw [if_neg (by rintro ⟨j, _, _, _⟩; omega)]
    rfl
  | succ n ih =>
    intro i r a rest h1 h2
    have hv : c.getD (order.getD i 0) 0 < 2 ^ 3 := by have := getD_le hc (order.getD i 0); omega
    rw [List.range'_succ, List.flatMap_cons, List.append_assoc] at h2
    obtain ⟨g1, g2, g3, g4⟩ := get_bits h1 (by decide) hv h2
    obtain ⟨i1, i2, i3, i4⟩ := ih (i + 1) (r.get 3).2 (put a (order.getD i 0) (r.get 3).1) rest g1 g3
    rw [readClens]
    refine ⟨i1, i2, by omega, fun t => ?_⟩
    rw [i4]
    by_cases hex : ∃ j, i + 1 ≤ j ∧ j < i + 1 + n ∧ order.getD j 0 = t
    · rw [if_pos hex, if_pos]
      obtain ⟨j, j1, j2, j3⟩ := hex
      exact ⟨j, by omega, by omega, j3⟩
    · rw [if_neg hex]
      unfold put
      by_cases ht : t = order.getD i 0
      · rw [if_pos ht, if_pos ⟨i, by omega, by omega, ht.symm⟩, g2, ht]
      · rw [if_neg ht, if_neg]
        rintro ⟨j, j1, j2, j3⟩
        by_cases hj : j = i
        · rw [hj] at j3; exact ht j3.symm
        · exact hex ⟨j, by omega, by omega, j3⟩

open Classical in
theorem clens_read {c : List Nat} {a : Nat → Nat} {k : Nat} (hc : c.length = 19) (hu : ∀ i, k ≤ i → i < 19 → c.getD (order.getD i 0) 0 = 0)
    (h : ∀ t, a t = if ∃ j, 0 ≤ j ∧ j < 0 + k ∧ order.getD j 0 = t then c.getD t 0 else 0) : (List.range 19).map a = c := by
  apply List.ext_getElem
  · simp [hc]
  · intro t h1 h2
    have ht : t < 19 := by omega
    rw [List.getElem_map, List.getElem_range, h]
    have hget : c[t] = c.getD t 0 := by rw [List.getD_eq_getElem?_getD, List.getElem?_eq_getElem h2]; rfl
    rw [hget]
    have hex : ∀ t : Fin 19, ∃ j : Fin 19, order.getD j.1 0 = t.1 := by decide +kernel
    obtain ⟨j, hj⟩ := hex ⟨t, ht⟩
    by_cases hk : j.1 < k
    · rw [if_pos ⟨j.1, by omega, by omega, hj⟩]
    · have := hu j.1 (by omega) j.2
      rw [hj] at this
      simp only [] at this
      rw [this]
      split <;> rfl

/-! ## The code lengths -/

theorem LenOp.run_length {l l' : List Nat} {p : LenOp} (h : p.run l = some l') : l.length + 1 ≤ l'.length := by
  unfold LenOp.run at h
  split at h
  · cases h; simp
  split at h
  · cases hl : l.getLast? with
    | none => rw [hl] at h; cases h
    | some x => rw [hl] at h; cases h; simp; omega
  split at h
  · cases h; simp; omega
  split at h
  · cases h; simp; omega
  · cases h

theorem runOps_length {ops : List LenOp} : ∀ {l l' : List Nat}, runOps l ops = some l' → l.length + ops.length ≤ l'.length := by
  induction ops with
  | nil => intro l l' h; cases h; simp
  | cons p ps ih =>
    intro l l' h
    rw [runOps] at h
    cases hp : p.run l with
    | none => rw [hp] at h; cases h
    | some l2 =>
      rw [hp, Option.bind_some] at h
      have := ih h
      have := LenOp.run_length hp
      simp
      omega

theorem getLast_getD {l : List Nat} {x : Nat} (h : l.getLast? = some x) : l.length ≠ 0 ∧ l.getD (l.length - 1) 0 = x := by
  rw [List.getLast?_eq_getElem?] at h
  have hlt : l.length - 1 < l.length := by
    rcases List.getElem?_eq_some_iff.1 h with ⟨h1, _⟩
    exact h1
  exact ⟨by omega, by rw [List.getD_eq_getElem?_getD, h]; rfl⟩

/-- Extra bits that are all there. -/
theorem fill_get {r : Reader} (hr : r.Ok) {n x : Nat} {rest : List Bool} (hn : n ≤ 13) (hx : x < 2 ^ n) (h : r.str = bits n x ++ rest) :
    (r.fill n).1 = true ∧ ((r.fill n).2.get n).1 = x ∧ ∃ r', ((r.fill n).2.get n).2 = r' ∧ r'.Ok ∧ r'.str = rest ∧ r'.bits ≤ max r.bits 7 := by
  rw [← List.append_nil r.str, ← byteBits_nil] at h
  rcases extra_spec hr hn hx h with ⟨e1, e2, e3, e4, e5, e6⟩ | ⟨_, _, _, _, e⟩
  · rw [byteBits_nil, List.append_nil] at e4
    exact ⟨e1, e2, _, rfl, e3, e4, e5⟩
  · exact absurd rfl e

theorem readLens_spec {c : List Nat} {d : Decoder} (hd : Decodes d c) (hc : ∀ x ∈ c, x ≤ 7) {total : Nat} (ht : total ≤ 318) {lens : List Nat}
    (hlens : lens.length = total) (f : Nat) : ∀ (ops : List LenOp) (acc : List Nat) (r : Reader) (rest : List Bool), r.Ok →
    (∀ p ∈ ops, c.getD p.sym 0 ≠ 0 ∧ p.extra < 2 ^ lenOpExtra p.sym) → runOps acc ops = some lens → ops.length < f →
    r.str = ops.flatMap (fun p => codeBits c p.sym ++ bits (lenOpExtra p.sym) p.extra) ++ rest →
    ∃ r', readLens d total f acc r = .ok (lens, r') ∧ r'.Ok ∧ r'.str = rest ∧ r'.bits ≤ max r.bits 13 := by
  induction f with
  | zero => intro ops acc r rest _ _ _ h; omega
  | succ f ih =>
    intro ops acc r rest hr hops hrun hf hstr
    rw [readLens]
    cases ops with
    | nil =>
      cases hrun
      rw [if_neg (by omega)]
      exact ⟨r, rfl, hr, hstr, by omega⟩
    | cons p ps =>
      rw [runOps] at hrun
      cases hp : p.run acc with
      | none => rw [hp] at hrun; cases hrun
      | some acc' =>
        rw [hp, Option.bind_some] at hrun
        have hl1 := runOps_length hrun
        have hl2 := LenOp.run_length hp
        rw [if_pos (by omega)]
        obtain ⟨hs, hx⟩ := hops p List.mem_cons_self
        rw [List.flatMap_cons, List.append_assoc, List.append_assoc] at hstr
        have hstr' := hstr
        rw [← List.append_nil r.str, ← byteBits_nil] at hstr'
        rcases decodeSym_spec hd hc (by decide) hr hs hstr' with ⟨r1, e1, e2, e3, e4, e5⟩ | ⟨x, r1, e1, e2, e3, e4, e5⟩
        · rw [byteBits_nil, List.append_nil] at e3
          rw [e1]
          simp only []
          have hps : ∀ p ∈ ps, c.getD p.sym 0 ≠ 0 ∧ p.extra < 2 ^ lenOpExtra p.sym := fun q hq => hops q (List.mem_cons_of_mem _ hq)
          have hlen : ps.length < f := by simp at hf; omega
          unfold LenOp.run at hp
          by_cases c1 : p.sym ≤ 15
          · rw [if_pos c1] at hp ⊢
            cases hp
            have hz : lenOpExtra p.sym = 0 := by unfold lenOpExtra; rw [if_neg (by omega), if_neg (by omega), if_neg (by omega)]
            rw [hz] at e3
            simp at hl1
            rw [if_neg (by omega), if_neg (by omega)]
            obtain ⟨r', i1, i2, i3, i4⟩ := ih ps _ r1 rest e2 hps hrun hlen e3
            exact ⟨r', i1, i2, i3, by omega⟩
          rw [if_neg c1] at hp ⊢
          by_cases c2 : p.sym = 16
          · rw [if_pos c2] at hp ⊢
            have hz : lenOpExtra p.sym = 2 := by rw [c2]; rfl
            rw [hz] at e3 hx
            obtain ⟨hfill, g2, r2, g0, g1, g3, g4⟩ := fill_get e2 (by decide) hx e3
            cases hlast : acc.getLast? with
            | none => rw [hlast] at hp; cases hp
            | some x =>
              rw [hlast, Option.map_some] at hp
              cases hp
              obtain ⟨l1, l2⟩ := getLast_getD hlast
              simp at hl1
              rw [if_neg (by rw [hfill]; decide), if_neg (by omega), g2, g0, l2, if_neg (by omega), if_neg (by omega)]
              obtain ⟨r', i1, i2, i3, i4⟩ := ih ps _ _ rest g1 hps hrun hlen g3
              exact ⟨r', i1, i2, i3, by omega⟩
          rw [if_neg c2] at hp ⊢
          by_cases c3 : p.sym = 17
          · rw [if_pos c3] at hp ⊢
            have hz : lenOpExtra p.sym = 3 := by rw [c3]; rfl
            rw [hz] at e3 hx
            obtain ⟨hfill, g2, r2, g0, g1, g3, g4⟩ := fill_get e2 (by decide) hx e3
            cases hp
            simp at hl1
            rw [if_neg (by rw [hfill]; decide), g2, g0, if_neg (by omega), if_neg (by omega)]
            obtain ⟨r', i1, i2, i3, i4⟩ := ih ps _ _ rest g1 hps hrun hlen g3
            exact ⟨r', i1, i2, i3, by omega⟩
          rw [if_neg c3] at hp ⊢
          by_cases c4 : p.sym = 18
          · rw [if_pos c4] at hp ⊢
            have hz : lenOpExtra p.sym = 7 := by rw [c4]; rfl
            rw [hz] at e3 hx
            obtain ⟨hfill, g2, r2, g0, g1, g3, g4⟩ := fill_get e2 (by decide) hx e3
            cases hp
            simp at hl1
            rw [if_neg (by rw [hfill]; decide), g2, g0, if_neg (by omega), if_neg (by omega)]
            obtain ⟨r', i1, i2, i3, i4⟩ := ih ps _ _ rest g1 hps hrun hlen g3
            exact ⟨r', i1, i2, i3, by omega⟩
          rw [if_neg c4] at hp
          cases hp
        · exact absurd rfl e5

/-! ## The whole header -/

theorem get_bits' {r : Reader} (hr : r.Ok) {len v : Nat} {rest : List Bool} (hlen : len ≤ 25) (hv : v < 2 ^ len)
    (h : r.str = Flate.bits len v ++ rest) :
    ∃ r', r.get len = (v, r') ∧ r'.Ok ∧ (r.get len).1 = v ∧ r'.str = rest ∧ r'.bits ≤ max r.bits (len + 7) - len := by
  obtain ⟨g1, g2, g3, g4⟩ := get_bits hr hlen hv h
  exact ⟨_, Prod.ext g2 rfl, g1, g2, g3, g4⟩


theorem not_valid_zero : ¬ ValidCode 15 [0] := by
  rintro ⟨_, h | ⟨_, h⟩⟩
  · revert h; decide
  · revert h; decide

theorem readDynamic_spec {s : Inf} {h : Header} {rest : List Bool} (hr : s.rd.Ok) (hh : h.Valid) (hstr : s.rd.str = h.bits ++ rest) :
    ∃ r dl dd, s.readDynamic = .ok { s with rd := r, dynLit := dl, dynDist := dd, next := .literal, phase := .decodingBody } ∧
      r.Ok ∧ r.str = rest ∧ r.bits ≤ max s.rd.bits 13 ∧ Decodes dl h.lit ∧ ((∀ i, h.dist.getD i 0 = 0) ∨ Decodes dd h.dist) := by
  obtain ⟨h1, h2, h3, h4, h5, h6, h7, h8, h9, h10, h11, h12⟩ := hh
  unfold Header.bits at hstr
  simp only [List.append_assoc] at hstr
  have hfill := (fill_true_iff hr (len := 14) (.inl (by decide))).2 (by rw [hstr]; simp only [List.length_append, bits_length]; omega)
  obtain ⟨f1, f2, f3, f4, f5⟩ := fill_spec hr (len := 14) (.inl (by decide))
  rw [← f2] at hstr
  obtain ⟨r1, a0, a1, a2, a3, a4⟩ := get_bits' f1 (len := 5) (by decide) (by omega) hstr
  obtain ⟨r2, b0, b1, b2, b3, b4⟩ := get_bits' a1 (len := 5) (by decide) (by omega) a3
  obtain ⟨r3, c0, c1, c2, c3, c4⟩ := get_bits' b1 (len := 4) (by decide) (by omega) b3
  rw [List.range_eq_range'] at c3
  obtain ⟨d1, d2, d3, d4⟩ := readClens_spec h5.1 (h.hclen + 4) 0 _ (fun _ => 0) _ c1 c3
  obtain ⟨d, e1, e2⟩ := decoder_ok (by decide) h5
  have hmap := clens_read h4 h6 d4
  have hops := runOps_length h8
  obtain ⟨r', i1, i2, i3, i4⟩ := readLens_spec e2 h5.1 (total := h.hlit + 257 + h.hdist + 1) (by omega) h9 (h.hlit + 257 + h.hdist + 2) h.ops [] _ rest d1 h7 h8
    (by simp at hops; omega) d2
  obtain ⟨dl, l1, l2⟩ := decoder_ok (by decide) h10
  have hbits : r'.bits ≤ max s.rd.bits 13 := by omega
  unfold Inf.readDynamic
  rw [if_neg (by rw [hfill]; decide)]
  simp only [a0, b0, c0, hmap, e1, i1]
  rw [show h.lens.take (h.hlit + 257) = h.lit from rfl, l1]
  simp only []
  have hdl : h.dist.length = h.hdist + 1 := by rw [Header.dist, List.length_drop]; omega
  have hget : h.lens.getD (h.hlit + 257) 0 = h.dist.getD 0 0 := by
    rw [Header.dist, List.getD_eq_getElem?_getD, List.getD_eq_getElem?_getD, List.getElem?_drop, Nat.add_zero]
  rw [hget]
  by_cases hz : h.hdist = 0 ∧ h.dist.getD 0 0 = 0
  · have hd0 : h.dist = [0] := by
      match hd : h.dist, hdl, hz with
      | [x], _, hz => rw [show x = 0 from hz.2]
      | [], hdl, _ => simp at hdl
      | _ :: _ :: _, hdl, hz => simp at hdl; omega
    rcases h12 with hc | ⟨_, hc⟩
    · rw [hd0] at hc; exact absurd hc not_valid_zero
    · rw [if_pos hz, if_neg (by omega)]
      refine ⟨r', dl, s.dynDist, rfl, i2, i3, hbits, l2, .inl fun i => ?_⟩
      rw [hd0]
      cases i <;> rfl
  · rw [if_neg hz]
    rcases h12 with hc | ⟨hc, _⟩
    · obtain ⟨dd, m1, m2⟩ := decoder_ok (by decide) hc
      rw [show h.lens.drop (h.hlit + 257) = h.dist from rfl, m1]
      exact ⟨r', dl, dd, rfl, i2, i3, hbits, l2, .inr m2⟩
    · rw [hc] at hz hdl
      simp at hz hdl
      omega

theorem readStored_spec {s : Inf} {pad : List Bool} {n : Nat} {rest : List Bool} (hr : s.rd.Ok) (hn : n < 65536) (hpad : pad.length = s.rd.bits % 8)
    (hstr : s.rd.str = pad ++ bits 16 n ++ bits 16 (65535 - n) ++ rest) :
    ∃ r, s.readStored = .ok { s with rd := r, storedLen := n, phase := .decodingBody } ∧ r.Ok ∧ r.str = rest ∧ r.bits = 0 := by
  obtain ⟨s1, s2, s3, s4⟩ := skip_spec hr (len := s.rd.bits % 8) (by omega)
  rw [hstr, List.append_assoc, List.append_assoc, ← hpad, List.drop_left' rfl, hpad] at s2
  have hmod : (s.rd.skip (s.rd.bits % 8)).bits % 8 = 0 := by rw [s3]; omega
  have hfill := (fill_true_iff s1 (len := 32) (.inr ⟨by decide, hmod⟩)).2 (by rw [s2]; simp only [List.length_append, bits_length]; omega)
  obtain ⟨f1, f2, f3, f4, f5⟩ := fill_spec s1 (len := 32) (.inr ⟨by decide, hmod⟩)
  rw [← f2] at s2
  have h32 := f3 hfill
  have h32' := f1.2
  generalize hfl : (s.rd.skip (s.rd.bits % 8)).fill 32 = fl at *
  obtain ⟨r1, a0, a1, a2, a3, a4⟩ := get_bits' f1 (len := 16) (by decide) hn s2
  obtain ⟨r2, b0, b1, b2, b3, b4⟩ := get_bits' a1 (len := 16) (by decide) (by omega) a3
  unfold Inf.readStored
  rw [hfl, if_neg (by rw [hfill]; decide)]
  simp only [a0, b0]
  rw [if_neg (by omega)]
  refine ⟨_, rfl, b1, b3, ?_⟩
  have hl := congrArg List.length s2
  rw [Reader.str_length] at hl
  have hl2 := congrArg List.length b3
  rw [Reader.str_length] at hl2
  simp only [List.length_append, bits_length] at hl
  omega

theorem first_bit (b : Bool) (l : List Bool) : b :: l = bits 1 b.toNat ++ l := by cases b <;> rfl

theorem fill_full {r : Reader} {n : Nat} (h : n ≤ r.bits) : r.fill n = (true, r) := by
  unfold Reader.fill
  cases hq : r.queue with
  | nil => rw [fillLoop, if_neg (by omega)]; exact Prod.ext rfl (Reader.ext' rfl rfl hq.symm)
  | cons b q => rw [fillLoop, if_neg (by omega)]; exact Prod.ext rfl (Reader.ext' rfl rfl hq.symm)

/-- What all headers have in common. -/
theorem header_start {s : Inf} {final : Bool} {type : Nat} {rest : List Bool} (hr : s.rd.Ok) (ht : type < 4)
    (hstr : s.rd.str = final :: bits 2 type ++ rest) :
    ∃ r, s.decodeHeader = (let s := { s with rd := r, eof := final, blockType := type }
        if type = 0 then s.readStored
        else if type = 1 then .ok { s with next := .literal, phase := .decodingBody }
        else if type = 2 then s.readDynamic
        else .error .invalidDataFormat) ∧ r.Ok ∧ r.str = rest ∧ r.bits ≤ max s.rd.bits 10 - 3 := by
  rw [List.cons_append, first_bit] at hstr
  have hfill := (fill_true_iff hr (len := 3) (.inl (by decide))).2 (by rw [hstr]; simp only [List.length_append, bits_length]; omega)
  obtain ⟨f1, f2, f3, f4, f5⟩ := fill_spec hr (len := 3) (.inl (by decide))
  rw [← f2] at hstr
  have h3 := f3 hfill
  generalize hfl : s.rd.fill 3 = fl at *
  obtain ⟨r1, a0, a1, a2, a3, a4⟩ := get_bits' f1 (len := 1) (by decide) (by cases final <;> decide) hstr
  obtain ⟨r2, b0, b1, b2, b3, b4⟩ := get_bits' a1 (len := 2) (by decide) (by omega) a3
  unfold Inf.decodeHeader
  rw [hfl, if_neg (by rw [hfill]; decide)]
  simp only [a0, b0]
  rw [show (final.toNat != 0) = final by cases final <;> rfl]
  refine ⟨r2, rfl, b1, b3, ?_⟩
  have q1 := a0
  rw [Reader.get, fill_full (by omega)] at q1
  have q2 : fl.2.skip 1 = r1 := congrArg Prod.snd q1
  have q3 := (skip_spec f1 (len := 1) (by omega)).2.2.1
  rw [q2] at q3
  have q4 := b0
  rw [Reader.get, fill_full (by omega)] at q4
  have q5 : r1.skip 2 = r2 := congrArg Prod.snd q4
  have q6 := (skip_spec a1 (len := 2) (by omega)).2.2.1
  rw [q5] at q6
  rw [q6, q3]
  omega

theorem fixedLit_valid : ValidCode 9 fixedLit := by
  refine ⟨?_, .inl (by decide +kernel)⟩
  intro l hl
  simp only [fixedLit, List.mem_append, List.mem_replicate] at hl
  omega

theorem fixedDist_valid : ValidCode 5 fixedDist := by
  refine ⟨?_, .inl (by decide +kernel)⟩
  intro l hl
  simp only [fixedDist, List.mem_replicate] at hl
  omega

/-- A header is never longer than `MAX_HEADER_SIZE` bytes. -/
theorem header_length {h : Header} (hh : h.Valid) : h.bits.length + 3 ≤ 8 * maxHeaderSize := by
  have hops := runOps_length hh.lens
  rw [hh.length] at hops
  have h1 := hh.hlit
  have h2 := hh.hdist
  have h3 := hh.hclen
  have hsum : ∀ ops : List LenOp, (ops.flatMap fun p => codeBits h.clens p.sym ++ bits (lenOpExtra p.sym) p.extra).length ≤ 14 * ops.length := by
    intro ops
    induction ops with
    | nil => simp
    | cons p ps ih =>
      rw [List.flatMap_cons, List.length_append, List.length_append, codeBits_length, bits_length, List.length_cons]
      have e1 := getD_le hh.ccode.1 p.sym
      have e2 : lenOpExtra p.sym ≤ 7 := by unfold lenOpExtra; split <;> [decide; skip]; split <;> [decide; skip]; split <;> decide
      omega
  have hc : ∀ l : List Nat, (l.flatMap fun i => bits 3 (h.clens.getD (order.getD i 0) 0)).length = 3 * l.length := by
    intro l
    induction l with
    | nil => rfl
    | cons a l ih => rw [List.flatMap_cons, List.length_append, ih, bits_length, List.length_cons]; omega
  have := hsum h.ops
  unfold Header.bits maxHeaderSize
  rw [List.length_append, List.length_append, List.length_append, List.length_append, hc, bits_length, bits_length, bits_length, List.length_range]
  simp at hops
  omega

end Verif.Flate
