import Verif.Flate.IoProofs
import Verif.Flate.WindowProofs
import Verif.Flate.HuffmanProofs

/-!
# The body of a block with Huffman codes
-/
namespace Verif.Flate

theorem codeBits_length (lens : List Nat) (s : Nat) : (codeBits lens s).length = lens.getD s 0 := by
  rw [codeBits, List.length_reverse, bits_length]

/-- Reading a symbol: it is read, or the input ends within its code and nothing is lost. -/
theorem decodeSym_spec {d : Decoder} {lens : List Nat} {M : Nat} (hd : Decodes d lens) (hM : ∀ l ∈ lens, l ≤ M) (hM2 : M ≤ 15) {r : Reader} (hr : r.Ok)
    {F : List Byte} {v : Nat} {rest : List Bool} (hv : lens.getD v 0 ≠ 0) (h : r.str ++ byteBits F = codeBits lens v ++ rest) :
    (∃ r', decodeSym d r = .ok (true, v, r') ∧ r'.Ok ∧ r'.str ++ byteBits F = rest ∧ r'.bits ≤ max r.bits (M + 7) - lens.getD v 0 ∧
      r'.str.length + lens.getD v 0 = r.str.length) ∨
    (∃ x r', decodeSym d r = .ok (false, x, r') ∧ r'.Ok ∧ r'.str = r.str ∧ r'.bits < 15 ∧ F ≠ []) := by
  have hmax : d.maxBits ≤ M := by rw [hd.max]; exact maxLen_le hM
  have hlen : lens.getD v 0 ≤ d.maxBits := by rw [hd.max]; exact le_maxLen (getD_mem hv)
  obtain ⟨f1, f2, f3, f4, f5⟩ := fill_spec hr (len := d.maxBits) (.inl (by omega))
  rw [← f2] at h
  unfold decodeSym
  generalize (r.fill d.maxBits).2 = r1 at *
  generalize (r.fill d.maxBits).1 = ok at *
  by_cases hb : lens.getD v 0 ≤ r1.bits
  · left
    have hcode : bits (lens.getD v 0) r1.buf = codeBits lens v := by
      have := congrArg (List.take (lens.getD v 0)) h
      rw [List.take_left' (codeBits_length _ _), Reader.str, List.append_assoc,
        List.take_append_of_le_length (by rw [bits_length]; exact hb), bits_take _ _ _ hb] at this
      exact this
    rw [hd.hit v _ hv hcode]
    simp only []
    rw [if_neg (by omega)]
    obtain ⟨s1, s2, s3, s4⟩ := skip_spec f1 hb
    have hsl : lens.getD v 0 ≤ r1.str.length := by rw [Reader.str_length]; omega
    refine ⟨_, rfl, s1, ?_, by rw [s3]; omega, ?_⟩
    · rw [s2]
      have := congrArg (List.drop (lens.getD v 0)) h
      rw [List.drop_left' (codeBits_length _ _), List.drop_append_of_le_length hsl] at this
      exact this
    · rw [s2, List.length_drop, ← f2]; omega
  · right
    have hok : ok = false := by
      cases ok
      · rfl
      · have := f3 rfl; omega
    obtain ⟨q1, q2⟩ := f4 hok
    have hstr : r1.str = bits r1.bits r1.buf := by rw [Reader.str, q1]; simp
    have hpre : bits r1.bits r1.buf = (codeBits lens v).take r1.bits := by
      have := congrArg (List.take r1.bits) h
      rw [hstr, List.take_left' (bits_length _ _), List.take_append_of_le_length (by rw [codeBits_length]; omega)] at this
      exact this
    obtain ⟨x, l, e1, e2⟩ := hd.short v r1.buf r1.bits hv (by omega) f1.1 hpre
    rw [e1]
    simp only []
    rw [if_pos (by omega)]
    refine ⟨x, r1, rfl, f1, f2, by omega, fun hF => ?_⟩
    rw [hF, byteBits_nil, List.append_nil, hstr] at h
    have := congrArg List.length h
    rw [bits_length, List.length_append, codeBits_length] at this
    omega

/-- Reading `n` extra bits. -/
theorem extra_spec {r : Reader} (hr : r.Ok) {F : List Byte} {n x : Nat} {rest : List Bool} (hn : n ≤ 13) (hx : x < 2 ^ n)
    (h : r.str ++ byteBits F = bits n x ++ rest) :
    ((r.fill n).1 = true ∧ ((r.fill n).2.get n).1 = x ∧ ((r.fill n).2.get n).2.Ok ∧ ((r.fill n).2.get n).2.str ++ byteBits F = rest ∧
      ((r.fill n).2.get n).2.bits ≤ max r.bits 7 ∧ ((r.fill n).2.get n).2.str.length + n = r.str.length) ∨
    ((r.fill n).1 = false ∧ (r.fill n).2.Ok ∧ (r.fill n).2.str = r.str ∧ (r.fill n).2.bits < 13 ∧ F ≠ []) := by
  obtain ⟨f1, f2, f3, f4, f5⟩ := fill_spec hr (len := n) (.inl (by omega))
  have hiff := fill_true_iff hr (len := n) (.inl (by omega))
  rw [← f2] at h hiff
  generalize (r.fill n).2 = r1 at *
  generalize (r.fill n).1 = ok at *
  cases ok
  · right
    obtain ⟨q1, q2⟩ := f4 rfl
    refine ⟨rfl, f1, f2, by omega, fun hF => ?_⟩
    have : ¬ n ≤ r1.str.length := fun hc => by have := hiff.2 hc; cases this
    rw [hF, byteBits_nil, List.append_nil] at h
    rw [h, List.length_append, bits_length] at this
    omega
  · left
    have hle := hiff.1 rfl
    obtain ⟨g1, g2, g3, g4⟩ := get_spec f1 (len := n) (by omega) hle
    refine ⟨rfl, ?_, g1, ?_, by omega, by rw [g3, List.length_drop, ← f2]; omega⟩
    · rw [g2]
      have := congrArg (List.take n) h
      rw [List.take_left' (bits_length _ _), List.take_append_of_le_length hle] at this
      rw [this, val_bits, Nat.mod_eq_of_lt hx]
    · rw [g3]
      have := congrArg (List.drop n) h
      rw [List.drop_left' (bits_length _ _), List.drop_append_of_le_length hle] at this
      exact this

/-! ## Where the loop is -/

/-- The bits still to come from label `n` on. -/
def bodyBits (lit dist : List Nat) : Next → List Item → List Bool
  | .literal, is => itemsBits lit dist is
  | .lengthBits, .copy lc lx dc dx :: is =>
    bits (lengthExtra.getD (lc - 257) 0) lx ++ (codeBits dist dc ++ (bits (distExtra.getD dc 0) dx ++ itemsBits lit dist is))
  | .distance, .copy _ _ dc dx :: is => codeBits dist dc ++ (bits (distExtra.getD dc 0) dx ++ itemsBits lit dist is)
  | .distanceBits, .copy _ _ dc dx :: is => bits (distExtra.getD dc 0) dx ++ itemsBits lit dist is
  | _, _ => []

/-- What `m_literal` and `m_distance` hold at label `n`. -/
def Regs (literal distance : Nat) : Next → List Item → Prop
  | .literal, _ => True
  | .lengthBits, .copy lc _ _ _ :: _ => literal = lc
  | .distance, .copy lc lx _ _ :: _ => literal = lx + lengthBase.getD (lc - 257) 0
  | .distanceBits, .copy lc lx dc _ :: _ => literal = lx + lengthBase.getD (lc - 257) 0 ∧ distance = dc
  | _, _ => False

/-- The loop is at its label, the items `is` are still to come, `o` has been produced, and `m` will have been at the
end of the block; then come the bits `tail`. -/
structure BodyInv (lit dist : List Nat) (β : Nat) (o : List Byte) (is : List Item) (m : List Byte) (tail : List Bool) (F : List Byte) (s : Inf) : Prop where
  rd : s.rd.Ok
  bits : s.rd.bits ≤ β
  win : WinOk s o
  valid : ∀ i ∈ is, i.Valid lit dist
  run : runItems o is = some m
  regs : Regs s.literal s.distance s.next is
  str : s.rd.str ++ byteBits F = bodyBits lit dist s.next is ++ tail

/-- Fields the loop leaves alone. -/
structure SameHead (s t : Inf) : Prop where
  phase : t.phase = s.phase
  eof : t.eof = s.eof
  type : t.blockType = s.blockType
  lit : t.dynLit = s.dynLit
  dist : t.dynDist = s.dynDist
  rep : t.repeats = s.repeats

theorem Inf.Frame.head {s t : Inf} (h : s.Frame t) : SameHead s t := by
  unfold Inf.Frame at h
  rw [h]
  exact ⟨rfl, rfl, rfl, rfl, rfl, rfl⟩

theorem SameHead.trans {s t u : Inf} (h : SameHead s t) (k : SameHead t u) : SameHead s u :=
  ⟨k.phase.trans h.phase, k.eof.trans h.eof, k.type.trans h.type, k.lit.trans h.lit, k.dist.trans h.dist, k.rep.trans h.rep⟩

def Next.rank : Next → Nat
  | .literal => 0
  | .lengthBits => 3
  | .distance => 2
  | .distanceBits => 1

theorem lengthExtra_le (i : Nat) : lengthExtra.getD i 0 ≤ 13 := by
  by_cases h : i < 29
  · have : ∀ i : Fin 29, lengthExtra.getD i.1 0 ≤ 13 := by decide
    exact this ⟨i, h⟩
  · rw [List.getD_eq_getElem?_getD, List.getElem?_eq_none (by show 29 ≤ i; omega)]; decide

theorem distExtra_le (i : Nat) : distExtra.getD i 0 ≤ 13 := by
  by_cases h : i < 30
  · have : ∀ i : Fin 30, distExtra.getD i.1 0 ≤ 13 := by decide
    exact this ⟨i, h⟩
  · rw [List.getD_eq_getElem?_getD, List.getElem?_eq_none (by show 30 ≤ i; omega)]; decide

theorem dist_range {dc dx : Nat} (h : dc < 30) (hx : dx < 2 ^ distExtra.getD dc 0) :
    1 ≤ distBase.getD dc 0 + dx ∧ distBase.getD dc 0 + dx ≤ 32768 := by
  have : ∀ i : Fin 30, 1 ≤ distBase.getD i.1 0 ∧ distBase.getD i.1 0 + 2 ^ distExtra.getD i.1 0 ≤ 32769 := by decide
  have := this ⟨dc, h⟩
  simp only [] at this
  omega

theorem length_range {lc lx : Nat} (h : lc ≤ 285) (hx : lx < 2 ^ lengthExtra.getD (lc - 257) 0) :
    lengthBase.getD (lc - 257) 0 + lx ≤ 32768 := by
  have : ∀ i : Fin 29, lengthBase.getD i.1 0 + 2 ^ lengthExtra.getD i.1 0 ≤ 32769 := by decide
  have := this ⟨lc - 257, by omega⟩
  simp only [] at this
  omega

/-- What a turn of the loop does. -/
theorem body_step {lit dist : List Nat} {dl dd : Decoder} {M D β : Nat} (hdl : Decodes dl lit) (hM : ∀ l ∈ lit, l ≤ M) (hM2 : M ≤ 15)
    (hdd : (∀ i, dist.getD i 0 = 0) ∨ Decodes dd dist) (hD : ∀ l ∈ dist, l ≤ D) (hD2 : D ≤ 15) (heob : lit.getD 256 0 ≠ 0)
    (hβ1 : M + 7 ≤ β) (hβ2 : D + 7 ≤ β) (hβ3 : 15 ≤ β)
    {o : List Byte} {is : List Item} {m : List Byte} {tail : List Bool} {F : List Byte} {s : Inf} (h : BodyInv lit dist β o is m tail F s) :
    (∃ o' is' t, s.bodyStep dl dd = .ok (.go, t) ∧ BodyInv lit dist β o' is' m tail F t ∧ SameHead s t ∧
      4 * t.rd.str.length + t.next.rank < 4 * s.rd.str.length + s.next.rank) ∨
    (∃ t, s.bodyStep dl dd = .ok (.wait, t) ∧ BodyInv lit dist β o is m tail F t ∧ SameHead s t ∧ F ≠ []) ∨
    (∃ t, s.bodyStep dl dd = .ok (.stop, t) ∧ t.rd.Ok ∧ WinOk t m ∧ t.rd.str ++ byteBits F = tail ∧ SameHead s t ∧
      t.rd.bits + lit.getD 256 0 ≤ β ∧ t.rd.str.length < s.rd.str.length) := by
  obtain ⟨h1, h2, h3, h4, h5, h6, h7⟩ := h
  unfold Inf.bodyStep
  cases hn : s.next with
  | literal =>
    rw [hn] at h6 h7
    simp only []
    -- the symbol that comes
    cases is with
    | nil =>
      have hstr : s.rd.str ++ byteBits F = codeBits lit 256 ++ tail := h7
      rcases decodeSym_spec hdl hM hM2 h1 heob hstr with ⟨r, e1, e2, e3, e4, e5⟩ | ⟨x, r, e1, e2, e3, e4, e5⟩
      · rw [e1]
        simp only []
        refine .inr (.inr ⟨{ s with next := .literal, rd := r, literal := 256 }, by rw [if_neg (by decide)]; rfl, e2, ?_, e3, ⟨rfl, rfl, rfl, rfl, rfl, rfl⟩, ?_, ?_⟩)
        · cases h5; exact ⟨h3.1, h3.2, h3.3, h3.4, h3.5⟩
        · simp only []
          have := le_maxLen (getD_mem heob)
          have := maxLen_le hM
          omega
        · simp only []; omega
      · rw [e1]
        simp only []
        refine .inr (.inl ⟨_, rfl, ⟨e2, by simp only []; omega, ⟨h3.1, h3.2, h3.3, h3.4, h3.5⟩, h4, h5, by simp only [hn]; exact h6, by simp only [hn]; rw [e3]; exact h7⟩,
          ⟨rfl, rfl, rfl, rfl, rfl, rfl⟩, e5⟩)
    | cons i is =>
      have hval := h4 i List.mem_cons_self
      have hrest : ∀ i ∈ is, i.Valid lit dist := fun x hx => h4 x (List.mem_cons_of_mem _ hx)
      cases i with
      | lit b =>
        have hstr : s.rd.str ++ byteBits F = codeBits lit b.toNat ++ (itemsBits lit dist is ++ tail) := by
          rw [h7]; simp [bodyBits, itemsBits, Item.bits]
        have hb : b.toNat < 256 := b.isLt
        rcases decodeSym_spec hdl hM hM2 h1 hval hstr with ⟨r, e1, e2, e3, e4, e5⟩ | ⟨x, r, e1, e2, e3, e4, e5⟩
        · rw [e1]
          simp only []
          rw [if_pos hb, BitVec.ofNat_toNat, BitVec.setWidth_eq]
          have hw : WinOk { s with next := .literal, rd := r, literal := b.toNat } o := ⟨h3.1, h3.2, h3.3, h3.4, h3.5⟩
          obtain ⟨w1, w2⟩ := hw.byte b
          have hfr := w2
          unfold Inf.Frame at w2
          have hrd : ({ s with next := .literal, rd := r, literal := b.toNat }.outputByte b).rd = r := by rw [w2]
          have hnx : ({ s with next := .literal, rd := r, literal := b.toNat }.outputByte b).next = .literal := by rw [w2]
          refine .inl ⟨o ++ [b], is, _, rfl, ⟨by rw [hrd]; exact e2, by rw [hrd]; omega, w1, hrest, ?_, by rw [hnx]; trivial, by rw [hrd, hnx]; exact e3⟩, ?_, ?_⟩
          · simpa [runItems, Item.run] using h5
          · exact SameHead.trans (t := { s with next := .literal, rd := r, literal := b.toNat }) ⟨rfl, rfl, rfl, rfl, rfl, rfl⟩ hfr.head
          · rw [hrd, hnx]
            simp only [Item.Valid] at hval
            omega
        · rw [e1]
          simp only []
          refine .inr (.inl ⟨_, rfl, ⟨e2, by simp only []; omega, ⟨h3.1, h3.2, h3.3, h3.4, h3.5⟩, h4, h5, by simp only [hn]; exact h6, by simp only [hn]; rw [e3]; exact h7⟩,
            ⟨rfl, rfl, rfl, rfl, rfl, rfl⟩, e5⟩)
      | copy lc lx dc dx =>
        obtain ⟨v1, v2, v3, v4, -, v5, v6, v7⟩ := hval
        have hstr : s.rd.str ++ byteBits F = codeBits lit lc ++ (bodyBits lit dist .lengthBits (.copy lc lx dc dx :: is) ++ tail) := by
          rw [h7]; simp [bodyBits, itemsBits, Item.bits]
        rcases decodeSym_spec hdl hM hM2 h1 v3 hstr with ⟨r, e1, e2, e3, e4, e5⟩ | ⟨x, r, e1, e2, e3, e4, e5⟩
        · rw [e1]
          simp only []
          rw [if_neg (by omega), if_neg (by omega), if_neg (by omega)]
          refine .inl ⟨o, .copy lc lx dc dx :: is, _, rfl, ⟨e2, by simp only []; omega, ⟨h3.1, h3.2, h3.3, h3.4, h3.5⟩, h4, h5, rfl, e3⟩,
            ⟨rfl, rfl, rfl, rfl, rfl, rfl⟩, ?_⟩
          simp only [Next.rank]
          omega
        · rw [e1]
          simp only []
          refine .inr (.inl ⟨_, rfl, ⟨e2, by simp only []; omega, ⟨h3.1, h3.2, h3.3, h3.4, h3.5⟩, h4, h5, by simp only [hn]; exact h6, by simp only [hn]; rw [e3]; exact h7⟩,
            ⟨rfl, rfl, rfl, rfl, rfl, rfl⟩, e5⟩)
  | lengthBits =>
    rw [hn] at h6 h7
    simp only []
    rcases is with _ | ⟨_ | ⟨lc, lx, dc, dx⟩, is⟩
    · exact h6.elim
    · exact h6.elim
    · skip
      obtain ⟨v1, v2, v3, v4, -, v5, v6, v7⟩ := h4 _ List.mem_cons_self
      have h6' : s.literal = lc := h6
      rw [h6']
      have hstr : s.rd.str ++ byteBits F = bits (lengthExtra.getD (lc - 257) 0) lx ++ (bodyBits lit dist .distance (.copy lc lx dc dx :: is) ++ tail) := by
        rw [h7]; simp [bodyBits]
      rcases extra_spec h1 (lengthExtra_le _) v4 hstr with ⟨e1, e2, e3, e4, e5, e6⟩ | ⟨e1, e2, e3, e4, e5⟩
      · rw [if_neg (by rw [e1]; decide)]
        refine .inl ⟨o, .copy lc lx dc dx :: is, _, rfl, ⟨e3, by simp only []; omega, ⟨h3.1, h3.2, h3.3, h3.4, h3.5⟩, h4, h5,
          by simp only [e2]; rfl, e4⟩, ⟨rfl, rfl, rfl, rfl, rfl, rfl⟩, ?_⟩
        simp only [Next.rank]
        omega
      · rw [if_pos e1]
        refine .inr (.inl ⟨_, rfl, ⟨e2, by simp only []; omega, ⟨h3.1, h3.2, h3.3, h3.4, h3.5⟩, h4, h5, rfl,
          by simp only [hn]; rw [e3]; exact h7⟩, ⟨rfl, rfl, rfl, rfl, rfl, rfl⟩, e5⟩)
  | distance =>
    rw [hn] at h6 h7
    simp only []
    rcases is with _ | ⟨_ | ⟨lc, lx, dc, dx⟩, is⟩
    · exact h6.elim
    · exact h6.elim
    · skip
      obtain ⟨v1, v2, v3, v4, -, v5, v6, v7⟩ := h4 _ List.mem_cons_self
      have hdd' : Decodes dd dist := by
        rcases hdd with h | h
        · exact absurd (h dc) v6
        · exact h
      have hstr : s.rd.str ++ byteBits F = codeBits dist dc ++ (bodyBits lit dist .distanceBits (.copy lc lx dc dx :: is) ++ tail) := by
        rw [h7]; simp [bodyBits]
      rcases decodeSym_spec hdd' hD hD2 h1 v6 hstr with ⟨r, e1, e2, e3, e4, e5⟩ | ⟨x, r, e1, e2, e3, e4, e5⟩
      · rw [e1]
        simp only []
        refine .inl ⟨o, .copy lc lx dc dx :: is, _, rfl, ⟨e2, by simp only []; omega, ⟨h3.1, h3.2, h3.3, h3.4, h3.5⟩, h4, h5, ⟨h6, rfl⟩, e3⟩,
          ⟨rfl, rfl, rfl, rfl, rfl, rfl⟩, ?_⟩
        simp only [Next.rank]
        omega
      · rw [e1]
        simp only []
        refine .inr (.inl ⟨_, rfl, ⟨e2, by simp only []; omega, ⟨h3.1, h3.2, h3.3, h3.4, h3.5⟩, h4, h5, by simp only [hn]; exact h6,
          by simp only [hn]; rw [e3]; exact h7⟩, ⟨rfl, rfl, rfl, rfl, rfl, rfl⟩, e5⟩)
  | distanceBits =>
    rw [hn] at h6 h7
    simp only []
    rcases is with _ | ⟨_ | ⟨lc, lx, dc, dx⟩, is⟩
    · exact h6.elim
    · exact h6.elim
    · skip
      obtain ⟨v1, v2, v3, v4, -, v5, v6, v7⟩ := h4 _ List.mem_cons_self
      obtain ⟨g1, g2⟩ := h6
      rw [g2, if_neg (by omega)]
      have hstr : s.rd.str ++ byteBits F = bits (distExtra.getD dc 0) dx ++ (itemsBits lit dist is ++ tail) := by
        rw [h7]; simp [bodyBits]
      rcases extra_spec h1 (distExtra_le _) v7 hstr with ⟨e1, e2, e3, e4, e5, e6⟩ | ⟨e1, e2, e3, e4, e5⟩
      · rw [if_neg (by rw [e1]; decide), e2]
        have hrun := h5
        rw [runItems, Item.run] at hrun
        by_cases hdo : distBase.getD dc 0 + dx ≤ o.length
        · rw [if_pos hdo, Option.bind_some] at hrun
          obtain ⟨d1, d2⟩ := dist_range v5 v7
          have hl := length_range v2 v4
          have hw : WinOk { s with rd := ((s.rd.fill (distExtra.getD dc 0)).2.get (distExtra.getD dc 0)).2, distance := dx + distBase.getD dc 0, next := .literal } o :=
            ⟨h3.1, h3.2, h3.3, h3.4, h3.5⟩
          obtain ⟨t, t1, t2, t3⟩ := hw.past (d := dx + distBase.getD dc 0) (n := s.literal) (by omega) (by omega) (by omega) (by omega)
          rw [t1]
          simp only []
          have hfr := t3.head
          unfold Inf.Frame at t3
          have hrd : t.rd = ((s.rd.fill (distExtra.getD dc 0)).2.get (distExtra.getD dc 0)).2 := by rw [t3]
          have hnx : t.next = .literal := by rw [t3]
          refine .inl ⟨_, is, t, rfl, ⟨by rw [hrd]; exact e3, by rw [hrd]; omega, t2, fun x hx => h4 x (List.mem_cons_of_mem _ hx), ?_, by rw [hnx]; trivial,
            by rw [hrd, hnx]; exact e4⟩, ?_, ?_⟩
          · rw [g1, Nat.add_comm dx, Nat.add_comm lx]; exact hrun
          · exact SameHead.trans (t := { s with rd := ((s.rd.fill (distExtra.getD dc 0)).2.get (distExtra.getD dc 0)).2, distance := dx + distBase.getD dc 0, next := .literal })
              ⟨rfl, rfl, rfl, rfl, rfl, rfl⟩ hfr
          · rw [hrd, hnx]
            simp only [Next.rank]
            omega
        · rw [if_neg hdo] at hrun
          cases hrun
      · rw [if_pos e1]
        refine .inr (.inl ⟨_, rfl, ⟨e2, by simp only []; omega, ⟨h3.1, h3.2, h3.3, h3.4, h3.5⟩, h4, h5, by simp only [hn]; exact ⟨g1, rfl⟩,
          by simp only [hn]; rw [e3]; exact h7⟩, ⟨rfl, rfl, rfl, rfl, rfl, rfl⟩, e5⟩)

/-- The loop runs to the end of the block, or waits for more input. -/
theorem body_loop {lit dist : List Nat} {dl dd : Decoder} {M D β : Nat} (hdl : Decodes dl lit) (hM : ∀ l ∈ lit, l ≤ M) (hM2 : M ≤ 15)
    (hdd : (∀ i, dist.getD i 0 = 0) ∨ Decodes dd dist) (hD : ∀ l ∈ dist, l ≤ D) (hD2 : D ≤ 15) (heob : lit.getD 256 0 ≠ 0)
    (hβ1 : M + 7 ≤ β) (hβ2 : D + 7 ≤ β) (hβ3 : 15 ≤ β) {m : List Byte} {tail : List Bool} {F : List Byte} (f : Nat) :
    ∀ (o : List Byte) (is : List Item) (s : Inf), BodyInv lit dist β o is m tail F s → 4 * s.rd.str.length + s.next.rank < f →
    (∃ o' is' t, Inf.bodyLoop dl dd f s = .ok (false, t) ∧ BodyInv lit dist β o' is' m tail F t ∧ SameHead s t ∧ F ≠ []) ∨
    (∃ t, Inf.bodyLoop dl dd f s = .ok (true, t) ∧ t.rd.Ok ∧ WinOk t m ∧ t.rd.str ++ byteBits F = tail ∧ SameHead s t ∧
      t.rd.bits + lit.getD 256 0 ≤ β ∧ t.rd.str.length ≤ s.rd.str.length) := by
  induction f with
  | zero => intro o is s _ h; omega
  | succ f ih =>
    intro o is s h hf
    rw [Inf.bodyLoop]
    rcases body_step hdl hM hM2 hdd hD hD2 heob hβ1 hβ2 hβ3 h with ⟨o', is', t, e1, e2, e3, e4⟩ | ⟨t, e1, e2, e3, e4⟩ | ⟨t, e1, e2, e3, e4, e5, e6, e7⟩
    · rw [e1]
      simp only []
      have hlen : t.rd.str.length ≤ s.rd.str.length := by
        have : s.next.rank ≤ 3 := by cases s.next <;> decide
        omega
      rcases ih o' is' t e2 (by omega) with ⟨o2, is2, u, i1, i2, i3, i4⟩ | ⟨u, i1, i2, i3, i4, i5, i6, i7⟩
      · exact .inl ⟨o2, is2, u, i1, i2, e3.trans i3, i4⟩
      · exact .inr ⟨u, i1, i2, i3, i4, e3.trans i5, i6, by omega⟩
    · rw [e1]
      exact .inl ⟨o, is, t, rfl, e2, e3, e4⟩
    · rw [e1]
      exact .inr ⟨t, rfl, e2, e3, e4, e5, e6, by omega⟩

end Verif.Flate
