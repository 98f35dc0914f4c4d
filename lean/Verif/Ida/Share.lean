import Verif.Ida.Message

/-! # `SecretSharing` -/
namespace Verif.Ida
open Verif.MQueue Verif.Gf Polynomial

/-- The input channels of the `RawIDA` inside a `SecretSharing`. -/
def shareIds (t : Nat) : List W32 := 0xffffffff#32 :: (List.range (t - 1)).map (BitVec.ofNat 32)

theorem shareIds_length (t : Nat) (h : 0 < t) : (shareIds t).length = t := by simp [shareIds]; omega

theorem ofNat_inj {i j : Nat} (hi : i < 2 ^ 32) (hj : j < 2 ^ 32) (h : BitVec.ofNat 32 i = BitVec.ofNat 32 j) : i = j := by
  have := congrArg BitVec.toNat h
  rwa [BitVec.toNat_ofNat, BitVec.toNat_ofNat, Nat.mod_eq_of_lt hi, Nat.mod_eq_of_lt hj] at this

theorem range_ids_nodup (n : Nat) (h : n ≤ 2 ^ 32) : ((List.range n).map (BitVec.ofNat 32)).Nodup := by
  refine (List.nodup_map_iff_inj_on List.nodup_range).mpr ?_
  intro i hi j hj he
  exact ofNat_inj (by have := List.mem_range.mp hi; omega) (by have := List.mem_range.mp hj; omega) he

theorem shareIds_nodup (t : Nat) (h : t ≤ 2 ^ 32) : (shareIds t).Nodup := by
  rw [shareIds, List.nodup_cons]
  refine ⟨?_, range_ids_nodup _ (by omega)⟩
  intro hm
  obtain ⟨i, hi, he⟩ := List.mem_map.mp hm
  have hi' := List.mem_range.mp hi
  have := ofNat_inj (i := i) (j := 0xffffffff) (by omega) (by omega) he
  omega

/-- The calls for a list of pieces of the secret, each followed by random bytes for the other channels. -/
def chunkCalls (rng : Nat → Byte) (t : Nat) : List (List Byte) → Nat → List Call
  | [], _ => []
  | c :: l, pos => ⟨0xffffffff, c, false⟩ :: randomCalls rng c.length 0 (t - 1) pos ++ chunkCalls rng t l (pos + (t - 1) * c.length)

/-- How `Put2` cuts its input. -/
def cuts (size : Nat) : Nat → List Byte → List (List Byte)
  | 0, _ => []
  | f + 1, bs => if bs.length = 0 then [] else bs.take size :: cuts size f (bs.drop size)

theorem chunkCalls_append (rng : Nat → Byte) (t : Nat) (a b : List (List Byte)) : ∀ pos,
    chunkCalls rng t (a ++ b) pos = chunkCalls rng t a pos ++ chunkCalls rng t b (pos + (t - 1) * a.flatten.length) := by
  induction a with
  | nil => intro pos; simp [chunkCalls]
  | cons c l ih =>
    intro pos
    rw [List.cons_append, chunkCalls, chunkCalls, ih, List.flatten_cons, List.length_append, Nat.mul_add]
    simp [Nat.add_assoc]

theorem shareCalls_eq (rng : Nat → Byte) (t size : Nat) (hs : 0 < size) (f : Nat) : ∀ (bs : List Byte) (pos : Nat), bs.length ≤ f →
    shareCalls rng t size f bs pos = (chunkCalls rng t (cuts size f bs) pos, pos + (t - 1) * bs.length) := by
  induction f with
  | zero => intro bs pos h; have : bs = [] := List.length_eq_zero_iff.mp (by omega)
            subst this; rfl
  | succ f ih =>
    intro bs pos h
    rw [shareCalls, cuts]
    by_cases hb : bs.length = 0
    · rw [if_pos hb, if_pos hb, hb]; rfl
    · rw [if_neg hb, if_neg hb]
      simp only
      rw [ih _ _ (by rw [List.length_drop]; omega), chunkCalls, List.length_take, List.length_drop]
      have e1 : bs.take (min bs.length size) = bs.take size := by
        by_cases hl : size ≤ bs.length
        · rw [Nat.min_eq_right hl]
        · rw [Nat.min_eq_left (by omega), List.take_length, List.take_of_length_le (by omega)]
      have e2 : bs.drop (min bs.length size) = bs.drop size := by
        by_cases hl : size ≤ bs.length
        · rw [Nat.min_eq_right hl]
        · rw [Nat.min_eq_left (by omega), List.drop_length, List.drop_of_length_le (by omega)]
      rw [e1, e2, Nat.min_comm]
      refine Prod.ext rfl ?_
      simp only
      rw [Nat.add_assoc, ← Nat.mul_add]
      congr 2; omega

theorem cuts_flatten (size : Nat) (hs : 0 < size) (f : Nat) : ∀ bs : List Byte, bs.length ≤ f → (cuts size f bs).flatten = bs := by
  induction f with
  | zero => intro bs h; have : bs = [] := List.length_eq_zero_iff.mp (by omega)
            subst this; rfl
  | succ f ih =>
    intro bs h
    rw [cuts]
    by_cases hb : bs.length = 0
    · rw [if_pos hb]; exact (List.length_eq_zero_iff.mp hb).symm
    · rw [if_neg hb, List.flatten_cons, ih _ (by rw [List.length_drop]; omega), List.take_append_drop]

theorem randomCalls_mem (rng : Nat → Byte) (len : Nat) (m : Nat) : ∀ i pos, ∀ c ∈ randomCalls rng len i m pos, (∃ j, i ≤ j ∧ j < i + m ∧ c.id = BitVec.ofNat 32 j) ∧ c.last = false := by
  induction m with
  | zero => intro i pos c hc; cases hc
  | succ m ih =>
    intro i pos c hc
    rw [randomCalls] at hc
    rcases List.mem_cons.mp hc with rfl | hc
    · exact ⟨⟨i, by omega, by omega, rfl⟩, rfl⟩
    · obtain ⟨⟨j, h1, h2, h3⟩, h4⟩ := ih (i + 1) _ c hc
      exact ⟨⟨j, by omega, by omega, h3⟩, h4⟩

theorem callsOf_nil_of {id : W32} {l : List Call} (h : ∀ c ∈ l, c.id ≠ id) : callsOf id l = [] := by
  simp only [callsOf, List.filter_eq_nil_iff]
  intro c hc; simpa using h c hc

/-- Channel `j` gets its part of the random bytes. -/
theorem randomCalls_bytes (rng : Nat → Byte) (len m : Nat) : ∀ (i pos : Nat), i + m ≤ 2 ^ 32 → ∀ j, j < m →
    bytesOf (BitVec.ofNat 32 (i + j)) (randomCalls rng len i m pos) = (List.range len).map fun k => rng (pos + j * len + k) := by
  induction m with
  | zero => intro i pos _ j hj; omega
  | succ m ih =>
    intro i pos h j hj
    rw [randomCalls, ← List.singleton_append, bytesOf_append]
    cases j with
    | zero =>
      rw [Nat.add_zero, bytesOf_single ⟨BitVec.ofNat 32 i, _, false⟩]
      have : callsOf (BitVec.ofNat 32 i) (randomCalls rng len (i + 1) m (pos + len)) = [] := by
        apply callsOf_nil_of
        intro c hc he
        obtain ⟨⟨j, h1, h2, h3⟩, _⟩ := randomCalls_mem rng len m _ _ c hc
        have := ofNat_inj (by omega) (by omega) (h3.symm.trans he)
        omega
      simp [bytesOf, this]
    | succ j =>
      have hne : BitVec.ofNat 32 i ≠ BitVec.ofNat 32 (i + (j + 1)) := by
        intro he
        have := ofNat_inj (by omega) (by omega) he
        omega
      rw [bytesOf_single_ne _ ⟨BitVec.ofNat 32 i, _, false⟩ hne, List.nil_append]
      have := ih (i + 1) (pos + len) (by omega) j (by omega)
      rw [show i + (j + 1) = i + 1 + j by omega, this]
      apply List.map_congr_left
      intro k _
      congr 1
      rw [Nat.add_mul]; omega

/-- The bytes channel `j` gets from the generator's stream. -/
def randomOf (rng : Nat → Byte) (t j : Nat) : List (List Byte) → Nat → List Byte
  | [], _ => []
  | c :: l, pos => ((List.range c.length).map fun k => rng (pos + j * c.length + k)) ++ randomOf rng t j l (pos + (t - 1) * c.length)

theorem randomOf_length (rng : Nat → Byte) (t j : Nat) (l : List (List Byte)) : ∀ pos, (randomOf rng t j l pos).length = l.flatten.length := by
  induction l with
  | nil => intro pos; rfl
  | cons c l ih => intro pos; rw [randomOf, List.length_append, ih]; simp

theorem chunkCalls_spec (rng : Nat → Byte) (t : Nat) (ht : t ≤ 2 ^ 32) (l : List (List Byte)) : ∀ pos,
    (∀ c ∈ chunkCalls rng t l pos, c.id ∈ shareIds t ∧ c.last = false) ∧
    bytesOf 0xffffffff (chunkCalls rng t l pos) = l.flatten ∧
    ∀ j, j < t - 1 → bytesOf (BitVec.ofNat 32 j) (chunkCalls rng t l pos) = randomOf rng t j l pos := by
  induction l with
  | nil => intro pos; exact ⟨fun c hc => (List.not_mem_nil hc).elim, rfl, fun _ _ => rfl⟩
  | cons c l ih =>
    intro pos
    obtain ⟨h1, h2, h3⟩ := ih (pos + (t - 1) * c.length)
    refine ⟨?_, ?_, ?_⟩
    · intro x hx
      rw [chunkCalls, List.cons_append] at hx
      rcases List.mem_cons.mp hx with rfl | hx
      · exact ⟨by simp [shareIds], rfl⟩
      · rcases List.mem_append.mp hx with hx | hx
        · obtain ⟨⟨j, a, b, d⟩, e⟩ := randomCalls_mem rng _ _ _ _ x hx
          refine ⟨?_, e⟩
          rw [d, shareIds]
          exact List.mem_cons_of_mem _ (List.mem_map_of_mem (List.mem_range.mpr (by omega)))
        · exact h1 x hx
    · rw [chunkCalls, List.cons_append, ← List.singleton_append, bytesOf_append, bytesOf_append, h2, bytesOf_single ⟨0xffffffff, c, false⟩, List.flatten_cons]
      have : callsOf 0xffffffff (randomCalls rng c.length 0 (t - 1) pos) = [] := by
        apply callsOf_nil_of
        intro x hx he
        obtain ⟨⟨j, a, b, d⟩, _⟩ := randomCalls_mem rng _ _ _ _ x hx
        have := ofNat_inj (i := j) (j := 0xffffffff) (by omega) (by omega) (d.symm.trans he)
        omega
      rw [show bytesOf 0xffffffff (randomCalls rng c.length 0 (t - 1) pos) = [] by rw [bytesOf, this]; rfl, List.nil_append]
    · intro j hj
      have hne : (0xffffffff#32) ≠ BitVec.ofNat 32 j := by
        intro he
        have := ofNat_inj (i := 0xffffffff) (j := j) (by omega) (by omega) he
        omega
      have hr := randomCalls_bytes rng c.length (t - 1) 0 pos (by omega) j hj
      rw [Nat.zero_add] at hr
      rw [chunkCalls, List.cons_append, ← List.singleton_append, bytesOf_append, bytesOf_append, h3 j hj, bytesOf_single_ne _ ⟨0xffffffff, c, false⟩ hne, List.nil_append, hr, randomOf]

/-- Calls without ends followed by the ends deliver what was sent. -/
theorem delivers_of {ids : List W32} (hnd : ids.Nodup) {H : List Call} (h : ∀ c ∈ H, c.id ∈ ids ∧ c.last = false) :
    Delivers ids (fun id => bytesOf id H) (H ++ ids.map fun id => ⟨id, [], true⟩) := by
  have key : ∀ id ∈ ids, callsOf id (ids.map fun id => (⟨id, [], true⟩ : Call)) = [⟨id, [], true⟩] := by
    clear h
    induction ids with
    | nil => intro id h; cases h
    | cons i l ih =>
      rw [List.nodup_cons] at hnd
      intro id hm
      rw [List.map_cons]
      by_cases hi : i = id
      · subst hi
        rw [callsOf_cons_self ⟨i, [], true⟩, callsOf_nil_of]
        intro c hc he
        obtain ⟨x, hx, rfl⟩ := List.mem_map.mp hc
        exact hnd.1 (show i ∈ l from (show x = i from he) ▸ hx)
      · rw [callsOf_cons_ne id ⟨i, [], true⟩ _ hi]
        exact ih hnd.2 id ((List.mem_cons.mp hm).resolve_left (Ne.symm hi))
  refine ⟨?_, ?_⟩
  · intro c hc
    rcases List.mem_append.mp hc with hc | hc
    · exact (h c hc).1
    · obtain ⟨x, hx, rfl⟩ := List.mem_map.mp hc
      exact hx
  · intro id hm
    refine ⟨?_, callsOf id H, ⟨id, [], true⟩, ?_, rfl, fun c hc => (h c (List.mem_filter.mp hc).1).2⟩
    · simp only [bytesOf, callsOf_append, key id hm]; simp
    · rw [callsOf_append, key id hm]

theorem noend_run {R : RingOps W32} {cfg : Cfg} (hR : ∀ x, ∃ w, prepare R x = .ok w) (ht : 0 < cfg.threshold) {outIds : List W32} {s : Ida} (hs : Fresh outIds s)
    {ids : List W32} (hnd : ids.Nodup) (hids : ids.length = cfg.threshold) {H : List Call} (h : ∀ c ∈ H, c.id ∈ ids ∧ c.last = false) :
    ∃ s' chans n, s.run R cfg H = .ok s' ∧ Track H chans ∧ Inv R cfg outIds s.sink s' chans n := by
  have hd := delivers_of hnd h
  cases ids with
  | nil => simp at hids; omega
  | cons i l => exact run_prefix hR ht hs hids H _ _ hd

/-- When every channel got the same number of bytes, less than a word of each is buffered. -/
theorem buffered_eq {R : RingOps W32} {cfg : Cfg} {outIds : List W32} {s' : Ida} {k0 : Sink} {ids : List W32} (hnd : ids.Nodup) (hids : ids.length = cfg.threshold)
    {H : List Call} (h : ∀ c ∈ H, c.id ∈ ids ∧ c.last = false) {L : Nat} (hL : 0 < L) (hlen : ∀ id ∈ ids, (bytesOf id H).length = L)
    {chans : List Chan} {n : Nat} (tr : Track H chans) (inv : Inv R cfg outIds k0 s' chans n) (id : W32) (hid : id ∈ ids) : s'.inputBuffered cfg id = L % 4 := by
  have hsub : ids ⊆ chans.map Chan.id := by
    intro x hx
    rw [tr.ids]
    intro he
    have := hlen x hx
    rw [bytesOf, he] at this; simp at this; omega
  have hcl : chans.length = cfg.threshold := by
    have := (List.subperm_of_subset hnd hsub).length_le
    have := inv.le
    rw [List.length_map] at *; omega
  have hperm := (List.subperm_of_subset hnd hsub).perm_of_length_le (by rw [List.length_map]; omega)
  have hdl : ∀ ch ∈ chans, ch.data.length = L := by
    intro ch hm
    rw [tr.data ch hm]
    exact hlen _ (hperm.symm.subset (List.mem_map_of_mem hm))
  have hne : ∀ ch ∈ chans, ch.ended = false := by
    intro ch hm
    rw [tr.ended ch hm, List.any_eq_false]
    intro c hc
    simp [(h c (List.mem_filter.mp hc).1).2]
  have hlo : L < 4 * (n + 1) := by
    by_contra hc
    have h1 := inv.readyLo
    have h2 := inv.readyLt
    have : chans.countP (fun ch => decide (4 * (n + 1) ≤ ch.data.length)) = chans.length := by
      rw [countP_eq_length_iff]
      intro ch hm
      rw [hdl ch hm]; simp; omega
    omega
  have hhi : 4 * n ≤ L := by
    rcases Nat.eq_zero_or_pos n with rfl | hn
    · omega
    · obtain ⟨_, h1, ch, hm, _⟩ := inv.full hn
      rcases h1 ch hm with h2 | h2
      · rw [hne ch hm] at h2; cases h2
      · rw [hdl ch hm] at h2; exact h2
  have hin : id ∈ s'.inIds := by rw [inv.ids]; exact hsub hid
  unfold Ida.inputBuffered Ida.lookup
  simp only [if_pos hin]
  have hlt := List.idxOf_lt_length_iff.mpr hin
  have hil : s'.inIds.length = cfg.threshold := by rw [inv.ids, List.length_map, hcl]
  rw [if_pos (by omega)]
  have hql := inv.inQ.length_eq
  have hq : s'.inIds.idxOf id < s'.inQ.length := by omega
  rw [getD_lt _ _ hq]
  have := List.forall₂_iff_get.mp inv.inQ
  have hq2 := this.2 (s'.inIds.idxOf id) hq (by omega)
  rw [List.get_eq_getElem, List.get_eq_getElem] at hq2
  rw [qrep_max hq2, hdl _ (List.getElem_mem _)]
  omega

/-! ## The filter -/

/-- The pieces of the secret that `SecretSharing` gives to its `RawIDA`. -/
def chunkList (pad : Bool) (pieces : List (List Byte)) : List (List Byte) :=
  (pieces.flatMap fun bs => cuts (min 256 bs.length) bs.length bs) ++
    if pad then [1] :: List.replicate ((4 - (pieces.flatten.length + 1) % 4) % 4) [0] else []

theorem cuts_all (bs : List Byte) : (cuts (min 256 bs.length) bs.length bs).flatten = bs := by
  cases bs with
  | nil => rfl
  | cons b l => exact cuts_flatten _ (by rw [List.length_cons]; omega) _ _ (Nat.le_refl _)

theorem flatMap_cuts (pieces : List (List Byte)) : (pieces.flatMap fun bs => cuts (min 256 bs.length) bs.length bs).flatten = pieces.flatten := by
  induction pieces with
  | nil => rfl
  | cons b l ih => rw [List.flatMap_cons, List.flatten_append, ih, cuts_all, List.flatten_cons]

theorem flatten_single (z : Nat) (b : Byte) : (List.replicate z [b]).flatten = List.replicate z b := by simp

/-- The secret with its padding. -/
def padded (pad : Bool) (m : List Byte) : List Byte := m ++ if pad then 1 :: List.replicate ((4 - (m.length + 1) % 4) % 4) 0 else []

theorem chunkList_flatten (pad : Bool) (pieces : List (List Byte)) : (chunkList pad pieces).flatten = padded pad pieces.flatten := by
  unfold chunkList padded
  rw [List.flatten_append, flatMap_cuts]
  cases pad <;> simp

section
variable {fr : Bool} {cfg : Cfg} {outIds : List W32} {s0 : Ida} {rng : Nat → Byte} {pos0 : Nat}

/-- The filter's `RawIDA` has had the calls for these pieces. -/
def Runs (fr : Bool) (cfg : Cfg) (s0 : Ida) (rng : Nat → Byte) (pos0 : Nat) (s : Sharing) (chunks : List (List Byte)) : Prop :=
  s0.run (gf32 fr) cfg (chunkCalls rng cfg.threshold chunks pos0) = .ok s.ida ∧ s.pos = pos0 + (cfg.threshold - 1) * chunks.flatten.length

theorem put_runs (ht : 0 < cfg.threshold) (ht2 : cfg.threshold ≤ 2 ^ 32) (hs : Fresh outIds s0) {s : Sharing} {chunks : List (List Byte)}
    (h : Runs fr cfg s0 rng pos0 s chunks) (bs : List Byte) :
    ∃ s', s.put (gf32 fr) cfg rng bs = .ok s' ∧ Runs fr cfg s0 rng pos0 s' (chunks ++ cuts (min 256 bs.length) bs.length bs) := by
  have hsc : shareCalls rng cfg.threshold (min 256 bs.length) bs.length bs s.pos = (chunkCalls rng cfg.threshold (cuts (min 256 bs.length) bs.length bs) s.pos, s.pos + (cfg.threshold - 1) * bs.length) := by
    cases bs with
    | nil => rfl
    | cons b l => exact shareCalls_eq rng _ _ (by rw [List.length_cons]; omega) _ _ _ (Nat.le_refl _)
  obtain ⟨s2, chans, n, e, _, _⟩ := noend_run (gf32_prepare fr) ht hs (shareIds_nodup _ ht2) (shareIds_length _ ht)
    (H := chunkCalls rng cfg.threshold (chunks ++ cuts (min 256 bs.length) bs.length bs) pos0) (chunkCalls_spec rng _ ht2 _ _).1
  have e' := e
  rw [chunkCalls_append, run_append, h.1] at e'
  simp only [← h.2] at e'
  unfold Sharing.put
  simp only [hsc, e']
  refine ⟨_, rfl, e, ?_⟩
  simp only
  rw [h.2, List.flatten_append, List.length_append, cuts_all, Nat.mul_add]; omega

theorem pad_runs (ht : 0 < cfg.threshold) (ht2 : cfg.threshold ≤ 2 ^ 32) (hs : Fresh outIds s0) (f : Nat) : ∀ {s : Sharing} {chunks : List (List Byte)},
    Runs fr cfg s0 rng pos0 s chunks → 0 < chunks.flatten.length → (4 - chunks.flatten.length % 4) % 4 < f →
    ∃ s', s.padLoop (gf32 fr) cfg rng f = .ok s' ∧ Runs fr cfg s0 rng pos0 s' (chunks ++ List.replicate ((4 - chunks.flatten.length % 4) % 4) [0]) := by
  induction f with
  | zero => intro s chunks _ _ h; omega
  | succ f ih =>
    intro s chunks h hl hf
    have hsp := chunkCalls_spec rng _ ht2 chunks pos0
    obtain ⟨s2, chans, n, e, tr, inv⟩ := noend_run (gf32_prepare fr) ht hs (shareIds_nodup _ ht2) (shareIds_length _ ht) hsp.1
    have hs2 : s2 = s.ida := by rw [h.1] at e; exact (Except.ok.inj e).symm
    have hb := buffered_eq (shareIds_nodup _ ht2) (shareIds_length _ ht) hsp.1 hl (by
      intro id hid
      rcases List.mem_cons.mp hid with rfl | hid
      · exact congrArg List.length hsp.2.1
      · obtain ⟨j, hj, rfl⟩ := List.mem_map.mp hid
        rw [hsp.2.2 j (List.mem_range.mp hj), randomOf_length]) tr inv 0xffffffff (by simp [shareIds])
    rw [hs2] at hb
    rw [Sharing.padLoop, hb]
    by_cases hz : chunks.flatten.length % 4 = 0
    · rw [if_neg (by omega), hz]
      exact ⟨s, rfl, by simpa using h⟩
    · rw [if_pos (by omega)]
      obtain ⟨s3, e3, h3⟩ := put_runs ht ht2 hs h [0]
      have hc : cuts (min 256 [(0 : Byte)].length) [(0 : Byte)].length [0] = [[0]] := rfl
      rw [hc] at h3
      have hfl : (chunks ++ [[(0 : Byte)]]).flatten.length = chunks.flatten.length + 1 := by simp
      obtain ⟨s4, e4, h4⟩ := ih h3 (by omega) (by omega)
      simp only [e3]
      refine ⟨s4, e4, ?_⟩
      rw [hfl] at h4
      rw [show (4 - chunks.flatten.length % 4) % 4 = (4 - (chunks.flatten.length + 1) % 4) % 4 + 1 by omega, List.replicate_succ]
      simpa using h4

theorem puts_runs (ht : 0 < cfg.threshold) (ht2 : cfg.threshold ≤ 2 ^ 32) (hs : Fresh outIds s0) (pieces : List (List Byte)) : ∀ {s : Sharing} {chunks : List (List Byte)},
    Runs fr cfg s0 rng pos0 s chunks →
    ∃ s', s.puts (gf32 fr) cfg rng pieces = .ok s' ∧ Runs fr cfg s0 rng pos0 s' (chunks ++ pieces.flatMap fun bs => cuts (min 256 bs.length) bs.length bs) := by
  induction pieces with
  | nil => intro s chunks h; exact ⟨s, rfl, by simpa using h⟩
  | cons bs l ih =>
    intro s chunks h
    obtain ⟨s1, e1, h1⟩ := put_runs ht ht2 hs h bs
    obtain ⟨s2, e2, h2⟩ := ih h1
    refine ⟨s2, by simp only [Sharing.puts, e1]; exact e2, by simpa using h2⟩

/-- The whole message is one history of calls on the `RawIDA`. -/
theorem message_runs (fr : Bool) {cfg : Cfg} (ht : 0 < cfg.threshold) (ht2 : cfg.threshold ≤ 2 ^ 32) {outIds : List W32} {s0 : Ida} (hs : Fresh outIds s0) (rng : Nat → Byte) (pos0 : Nat)
    (fuel : Nat) (hf : 4 ≤ fuel) (pad : Bool) (pieces : List (List Byte)) {ida : Ida}
    (hrun : s0.run (gf32 fr) cfg (chunkCalls rng cfg.threshold (chunkList pad pieces) pos0 ++ (shareIds cfg.threshold).map fun id => ⟨id, [], true⟩) = .ok ida) :
    Sharing.message (gf32 fr) cfg rng fuel pad pieces ⟨s0, pos0⟩ = .ok ⟨ida, pos0 + (cfg.threshold - 1) * (padded pad pieces.flatten).length⟩ := by
  have h0 : Runs fr cfg s0 rng pos0 ⟨s0, pos0⟩ [] := ⟨rfl, by simp⟩
  obtain ⟨s1, e1, h1⟩ := puts_runs ht ht2 hs pieces h0
  rw [List.nil_append] at h1
  have hends : (shareIds cfg.threshold).map (fun id => (⟨id, [], true⟩ : Call)) = ⟨0xffffffff, [], true⟩ :: (List.range (cfg.threshold - 1)).map fun i => ⟨BitVec.ofNat 32 i, [], true⟩ := by
    rw [shareIds, List.map_cons, List.map_map]; rfl
  have fin : ∀ s : Sharing, Runs fr cfg s0 rng pos0 s (chunkList pad pieces) →
      (match s.ida.run (gf32 fr) cfg (⟨0xffffffff, [], true⟩ :: (List.range (cfg.threshold - 1)).map fun i => ⟨BitVec.ofNat 32 i, [], true⟩) with
      | .error e => .error e
      | .ok ida => .ok { s with ida := ida }) = (.ok ⟨ida, pos0 + (cfg.threshold - 1) * (padded pad pieces.flatten).length⟩ : Except Err Sharing) := by
    intro s h
    rw [run_append, h.1, hends] at hrun
    simp only at hrun
    rw [hrun, ← chunkList_flatten, ← h.2]
  unfold Sharing.message Sharing.messageEnd
  simp only [e1]
  cases pad with
  | false => simp only [Bool.false_eq_true, if_false]; exact fin s1 (by unfold chunkList; simpa using h1)
  | true =>
    obtain ⟨s2, e2, h2⟩ := put_runs ht ht2 hs h1 [1]
    have hc : cuts (min 256 [(1 : Byte)].length) [(1 : Byte)].length [1] = [[1]] := rfl
    rw [hc] at h2
    have hfl : ((pieces.flatMap fun bs => cuts (min 256 bs.length) bs.length bs) ++ [[(1 : Byte)]]).flatten.length = pieces.flatten.length + 1 := by
      rw [List.flatten_append, flatMap_cuts]; simp
    obtain ⟨s3, e3, h3⟩ := pad_runs ht ht2 hs fuel h2 (by omega) (by omega)
    simp only [if_true, e2, e3]
    apply fin s3
    rw [hfl] at h3
    unfold chunkList
    simpa using h3
end

end Verif.Ida
