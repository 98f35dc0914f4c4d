import Verif.Flate.HeaderProofs

/-!
# `Inflator` reads every DEFLATE stream
-/
namespace Verif.Flate

theorem byteBits_inj : ∀ {l m : List Byte}, byteBits l = byteBits m → l = m
  | [], [], _ => rfl
  | [], b :: m, h => by have := congrArg List.length h; simp at this; omega
  | a :: l, [], h => by have := congrArg List.length h; simp at this
  | a :: l, b :: m, h => by
    rw [byteBits_cons, byteBits_cons] at h
    obtain ⟨h1, h2⟩ := List.append_inj h (by simp)
    rw [byteBits_inj h2, BitVec.eq_of_toNat_eq (bits_inj a.isLt b.isLt h1)]

theorem Block.bits_length (b : Block) (x y : Bool) : (b.bits x).length = (b.bits y).length := by
  cases b <;> simp [Block.bits]

theorem blocksBits_cons (b : Block) (bs : List Block) : blocksBits (b :: bs) = b.bits (decide (bs = [])) ++ blocksBits bs := by
  cases bs with
  | nil => simp [blocksBits]
  | cons c cs => rw [blocksBits, decide_eq_false (by simp)]; simp

theorem Block.bits_pos (b : Block) (x : Bool) : 3 ≤ (b.bits x).length := by
  cases b <;> simp [Block.bits]

/-! ## How far the reader looks ahead -/

/-- At most so many bits are left in the reader after block `b`, if there were at most `ρ` before it. -/
def lookahead (ρ : Nat) : Block → Nat
  | .stored _ _ => 0
  | .fixed _ => if ρ ≤ 19 then 9 else 15
  | .dynamic h _ => 22 - h.lit.getD 256 0

/-- No header lies wholly in what the reader holds when it comes to it, and something follows the header of a last,
empty stored block.  `extra` is the number of bits after the last block. -/
def Roomy (extra : Nat) : Nat → List Block → Prop
  | _, [] => True
  | ρ, b :: bs => ρ < (blocksBits (b :: bs)).length + extra ∧ (∀ pad, b = .stored pad [] → bs ≠ [] ∨ 0 < extra) ∧
      Roomy extra (lookahead ρ b) bs

/-- What is still to come: the blocks `bs`, `pad`, and the bytes `T`. -/
structure Plan (m T : List Byte) (ρ pos : Nat) (o : List Byte) (bs : List Block) (pad : List Bool) : Prop where
  prod : Produces pos o bs m
  padLen : pad.length < 8
  align : (pos + (blocksBits bs).length + pad.length) % 8 = 0
  roomy : Roomy (pad.length + 8 * T.length) ρ bs
  ahead : ρ ≤ 21

theorem Plan.next {m T : List Byte} {ρ pos : Nat} {o : List Byte} {b : Block} {bs : List Block} {pad : List Bool} (h : Plan m T ρ pos o (b :: bs) pad) :
    b.Valid pos ∧ ∃ o', b.run o = some o' ∧ Plan m T (lookahead ρ b) (pos + (b.bits false).length) o' bs pad := by
  obtain ⟨⟨h1, o', h2, h3⟩, h4, h5, h6, h7⟩ := h
  refine ⟨h1, o', h2, h3, h4, ?_, h6.2.2, ?_⟩
  · rw [blocksBits_cons, List.length_append, b.bits_length _ false] at h5
    rw [← h5]; congr 1; omega
  · unfold lookahead
    cases b with
    | stored => simp
    | fixed => simp only []; split <;> omega
    | dynamic hd is =>
      have := h1.1.eob
      simp only []
      omega

def tailBits (T : List Byte) (bs : List Block) (pad : List Bool) : List Bool := blocksBits bs ++ (pad ++ byteBits T)

/-- All the states the object can be in while it reads; `F` is the input still to be put. -/
inductive At (m T F : List Byte) (s : Inf) : Prop
  | pre (bs : List Block) (pad : List Bool) (hphase : s.phase = .preStream) (hrep : s.repeats = false) (hbs : bs ≠ []) (hrd : s.rd.Ok) (hbits : s.rd.bits = 0) (hout : s.out = [])
      (hplan : Plan m T 0 0 [] bs pad) (hstr : s.rd.str ++ byteBits F = tailBits T bs pad)
  | head (bs : List Block) (pad : List Bool) (ρ pos : Nat) (o : List Byte) (hphase : s.phase = .waitHeader) (hrep : s.repeats = false) (hbs : bs ≠ []) (hrd : s.rd.Ok)
      (hbits : s.rd.bits ≤ ρ) (hwin : WinOk s o) (hplan : Plan m T ρ pos o bs pad) (hstr : s.rd.str ++ byteBits F = tailBits T bs pad)
  | stored (data : List Byte) (bs : List Block) (pad : List Bool) (pos : Nat) (o : List Byte) (hphase : s.phase = .decodingBody) (hrep : s.repeats = false) (htype : s.blockType = 0)
      (hlen : s.storedLen = data.length) (heof : s.eof = decide (bs = [])) (hrd : s.rd.Ok) (hbits : s.rd.bits = 0) (hwin : WinOk s o)
      (hplan : Plan m T 0 pos (o ++ data) bs pad) (hmore : 0 < s.rd.str.length + F.length) (hstr : s.rd.str ++ byteBits F = byteBits data ++ tailBits T bs pad)
  | body (lit dist : List Nat) (dl dd : Decoder) (M D β : Nat) (o o' : List Byte) (is : List Item) (bs : List Block) (pad : List Bool) (pos : Nat)
      (hphase : s.phase = .decodingBody) (hrep : s.repeats = false) (htype : s.blockType ≠ 0) (heof : s.eof = decide (bs = []))
      (hdl : s.litDecoder = .ok dl) (hdd : s.distDecoder = .ok dd) (cl : Decodes dl lit) (hM : ∀ l ∈ lit, l ≤ M) (hM2 : M ≤ 15)
      (cd : (∀ i, dist.getD i 0 = 0) ∨ Decodes dd dist) (hD : ∀ l ∈ dist, l ≤ D) (hD2 : D ≤ 15) (heob : lit.getD 256 0 ≠ 0)
      (hβ1 : M + 7 ≤ β) (hβ2 : D + 7 ≤ β) (hβ3 : 15 ≤ β) (hinv : BodyInv lit dist β o is o' (tailBits T bs pad) F s)
      (hplan : Plan m T (β - lit.getD 256 0) pos o' bs pad)
  | post (hphase : s.phase = .postStream) (hrep : s.repeats = false) (hout : s.out = m) (hflush : s.lastFlush = s.current) (hrd : s.rd.Ok) (hbits : s.rd.bits = 0) (hq : s.rd.queue ++ F = T)
  | after (hphase : s.phase = .afterEnd) (hrep : s.repeats = false) (hout : s.out ++ (s.rd.queue ++ F) = m ++ T) (hflush : s.lastFlush = s.current) (hrd : s.rd.Ok) (hbits : s.rd.bits = 0)

def Phase.rank : Phase → Nat
  | .preStream => 3
  | .waitHeader => 2
  | .decodingBody => 4
  | .postStream => 2
  | .afterEnd => 1

/-! ## The end of a block -/

theorem skip_spec' {r : Reader} (hr : r.Ok) {len : Nat} (h : len ≤ r.bits) :
    ∃ u, r.skip len = u ∧ u.Ok ∧ u.str = r.str.drop len ∧ u.bits = r.bits - len ∧ u.queue = r.queue := by
  obtain ⟨s1, s2, s3, s4⟩ := skip_spec hr h
  exact ⟨_, rfl, s1, s2, s3, s4⟩

theorem takeBytes_spec (n : Nat) : ∀ r : Reader, r.Ok → r.bits = 8 * n →
    (takeBytes n r).2.Ok ∧ (takeBytes n r).2.bits = 0 ∧ (takeBytes n r).2.queue = r.queue ∧ byteBits (takeBytes n r).1 = bits r.bits r.buf := by
  induction n with
  | zero =>
    intro r hr hb
    exact ⟨hr, hb, rfl, by rw [hb]; rfl⟩
  | succ n ih =>
    intro r hr hb
    have hf : r.fill 8 = (true, r) := fill_full (by omega)
    obtain ⟨u, s0, s1, s2, s3, s4⟩ := skip_spec' hr (len := 8) (by omega)
    have hg : r.get 8 = (r.buf &&& (2 ^ 8 - 1), u) := by rw [Reader.get, hf, s0]
    obtain ⟨i1, i2, i3, i4⟩ := ih u s1 (by omega)
    rw [takeBytes, hg]
    refine ⟨i1, i2, by rw [i3, s4], ?_⟩
    rw [byteBits_cons, i4, s3, Nat.and_two_pow_sub_one_eq_mod, BitVec.toNat_ofNat, Nat.mod_mod, bits_mod]
    have e := bits_drop 8 r.bits r.buf (by omega)
    rw [show u.buf = r.buf / 2 ^ 8 by rw [← s0]; exact Nat.shiftRight_eq_div_pow _ _, ← e, ← bits_take 8 r.bits r.buf (by omega), List.take_append_drop]

theorem end_block {m T F : List Byte} {s : Inf} {ρ pos : Nat} {o : List Byte} {bs : List Block} {pad : List Bool} (hrd : s.rd.Ok) (hwin : WinOk s o)
    (hphase : s.phase = .decodingBody) (hrep : s.repeats = false) (heof : s.eof = decide (bs = [])) (hbits : s.rd.bits ≤ ρ) (hplan : Plan m T ρ pos o bs pad)
    (hstr : s.rd.str ++ byteBits F = tailBits T bs pad) :
    At m T F s.endBlock ∧ s.endBlock.phase.rank ≤ 2 ∧ s.endBlock.rd.str.length ≤ s.rd.str.length := by
  unfold Inf.endBlock
  by_cases hb : bs = []
  · rw [if_pos (by rw [heof, hb]; rfl)]
    subst hb
    have hm : m = o := hplan.prod
    obtain ⟨w1, w2, w3⟩ := hwin.flushed
    have hout := w3 (by rw [hphase]; decide)
    have hfl : s.flushOutput.lastFlush = s.flushOutput.current := by unfold Inf.flushOutput; rw [if_pos (by rw [hphase]; decide)]
    unfold Inf.Frame at w2
    have hrd' : s.flushOutput.rd = s.rd := by rw [w2]
    have hrep' : s.flushOutput.repeats = false := by rw [w2]; exact hrep
    generalize s.flushOutput = t at *
    have hal := hplan.align
    have hpad := hplan.padLen
    have hl := congrArg List.length hstr
    rw [tailBits] at hl hstr
    simp only [blocksBits, List.length_append, List.length_nil, Nat.add_zero, byteBits_length, Reader.str_length] at hl hal
    have hmod : s.rd.bits % 8 = pad.length := by omega
    rw [← hrd'] at hrd hstr hmod
    obtain ⟨r, s0, s1, s2, s3, s4⟩ := skip_spec' hrd (len := t.rd.bits % 8) (by omega)
    have hst : r.str ++ byteBits F = byteBits T := by
      have := congrArg (List.drop pad.length) hstr
      rw [blocksBits, List.nil_append, List.drop_left' rfl, List.drop_append_of_le_length (by rw [Reader.str_length]; omega), ← hmod, ← s2] at this
      exact this
    have hlen : r.str.length ≤ s.rd.str.length := by rw [s2, List.length_drop, hrd']; omega
    simp only []
    rw [s0]
    by_cases hz : r.bits ≠ 0
    · rw [if_pos hz]
      obtain ⟨t1, t2, t3, t4⟩ := takeBytes_spec (r.bits / 8) r s1 (by omega)
      refine ⟨.post rfl hrep' (by rw [hm]; exact hout) hfl t1 t2 ?_, by decide, ?_⟩
      · apply byteBits_inj
        rw [byteBits_append, byteBits_append, t4, t3]
        exact hst
      · simp only [Reader.str, t2, bits, List.nil_append, byteBits_append, t3, t4]
        exact hlen
    · rw [if_neg hz]
      refine ⟨.post rfl hrep' (by rw [hm]; exact hout) hfl s1 (by simp only []; omega) ?_, by decide, hlen⟩
      apply byteBits_inj
      rw [byteBits_append]
      rw [Reader.str, show r.bits = 0 by omega] at hst
      exact hst
  · rw [if_neg (by rw [heof]; simpa using hb)]
    refine ⟨.head bs pad ρ pos o rfl hrep hb hrd hbits ⟨hwin.1, hwin.2, hwin.3, hwin.4, hwin.5⟩ hplan hstr, by simp only []; decide, by simp only []; omega⟩

/-! ## Stored blocks -/

theorem stored_loop {spy : List Byte → Nat} (hspy : ∀ q, q ≠ [] → 1 ≤ spy q ∧ spy q ≤ q.length) {F : List Byte} {tail : List Bool} (f : Nat) :
    ∀ (s : Inf) (o data : List Byte), s.rd.queue.length < f → s.rd.Ok → s.rd.bits = 0 → s.storedLen = data.length → WinOk s o → 0 < s.rd.str.length + F.length →
    s.rd.str ++ byteBits F = byteBits data ++ tail →
    (∃ t o' d', Inf.storedLoop spy f s = .ok (false, t) ∧ t.rd.Ok ∧ t.rd.bits = 0 ∧ t.storedLen = d'.length ∧ WinOk t o' ∧ o' ++ d' = o ++ data ∧ SameHead s t ∧
      t.rd.str ++ byteBits F = byteBits d' ++ tail ∧ F ≠ []) ∨
    (∃ t, Inf.storedLoop spy f s = .ok (true, t) ∧ t.rd.Ok ∧ t.rd.bits = 0 ∧ WinOk t (o ++ data) ∧ SameHead s t ∧ t.rd.str ++ byteBits F = tail ∧
      t.rd.str.length ≤ s.rd.str.length) := by
  induction f with
  | zero => intro s o data h; omega
  | succ f ih =>
    intro s o data hf hrd hb hlen hwin hmore hstr
    rw [Inf.storedLoop]
    have hs0 : s.rd.str = byteBits s.rd.queue := by rw [Reader.str, hb]; rfl
    by_cases hq : s.rd.queue.length = 0
    · rw [if_pos hq]
      refine .inl ⟨s, o, data, rfl, hrd, hb, hlen, hwin, rfl, ⟨rfl, rfl, rfl, rfl, rfl, rfl⟩, hstr, fun hF => ?_⟩
      rw [hs0, byteBits_length, hF] at hmore
      simp [hq] at hmore
    · rw [if_neg hq]
      simp only []
      obtain ⟨p1, p2⟩ := hspy s.rd.queue (fun h => hq (by rw [h]; rfl))
      generalize hsz : min s.storedLen (spy s.rd.queue) = size
      have hsz1 : size ≤ data.length := by omega
      have hsz2 : size ≤ s.rd.queue.length := by omega
      -- the bytes taken are the next bytes of the block
      have hqF : byteBits (s.rd.queue ++ F) = byteBits data ++ tail := by rw [byteBits_append, ← hs0]; exact hstr
      have hl8 : ∀ l : List Byte, ∀ n, n ≤ l.length → (byteBits l).take (8 * n) = byteBits (l.take n) ∧ (byteBits l).drop (8 * n) = byteBits (l.drop n) := by
        intro l n hn
        have e : byteBits l = byteBits (l.take n) ++ byteBits (l.drop n) := by rw [← byteBits_append, List.take_append_drop]
        have el : (byteBits (l.take n)).length = 8 * n := by rw [byteBits_length, List.length_take]; omega
        constructor
        · rw [e, List.take_left' el]
        · rw [e, List.drop_left' el]
      have hdl : (byteBits data).length = 8 * data.length := byteBits_length _
      have htake : s.rd.queue.take size = data.take size := by
        apply byteBits_inj
        have := congrArg (List.take (8 * size)) hqF
        rw [(hl8 _ _ (by rw [List.length_append]; omega)).1, List.take_append_of_le_length hsz2,
          List.take_append_of_le_length (by omega), (hl8 _ _ hsz1).1] at this
        exact this
      have hdrop : byteBits (s.rd.queue.drop size) ++ byteBits F = byteBits (data.drop size) ++ tail := by
        have := congrArg (List.drop (8 * size)) hqF
        rw [(hl8 _ _ (by rw [List.length_append]; omega)).2, List.drop_append_of_le_length hsz2, byteBits_append,
          List.drop_append_of_le_length (by omega), (hl8 _ _ hsz1).2] at this
        exact this
      obtain ⟨w1, w2⟩ := WinOk.string (size + 1) s o (s.rd.queue.take size) hwin (by rw [List.length_take]; omega)
      rw [htake] at w1
      have hfr := w2.head
      unfold Inf.Frame at w2
      rw [htake] at w2 hfr ⊢
      have hrd2 : (Inf.outputString (size + 1) s (data.take size)).rd = s.rd := by rw [w2]
      generalize Inf.outputString (size + 1) s (data.take size) = t at *
      have hstr2 : Reader.str { t.rd with queue := s.rd.queue.drop size } = byteBits (s.rd.queue.drop size) := by
        rw [Reader.str, hrd2]
        simp only []
        rw [hb]; rfl
      by_cases hz : s.storedLen - size = 0
      · rw [if_pos hz]
        have hd : data.length = size := by omega
        refine .inr ⟨_, rfl, by rw [hrd2]; exact hrd, by rw [hrd2]; exact hb, ⟨?_, ?_, ?_, ?_, ?_⟩, ⟨hfr.1, hfr.2, hfr.3, hfr.4, hfr.5, hfr.6⟩, ?_, ?_⟩
        · rw [← hd, List.take_length] at w1; exact w1.1
        · rw [← hd, List.take_length] at w1; exact w1.2
        · rw [← hd, List.take_length] at w1; exact w1.3
        · exact w1.4
        · rw [← hd, List.take_length] at w1; exact w1.5
        · rw [hstr2, hdrop, ← hd, List.drop_length]; rfl
        · rw [hstr2, hs0, byteBits_length, byteBits_length, List.length_drop]; omega
      · rw [if_neg hz]
        have hsize : 1 ≤ size := by omega
        have hdne : data.drop size ≠ [] := by
          intro h
          have := congrArg List.length h
          rw [List.length_drop] at this
          simp at this
          omega
        have := ih { t with rd := { t.rd with queue := s.rd.queue.drop size }, storedLen := s.storedLen - size } (o ++ data.take size) (data.drop size)
          (by simp only [List.length_drop]; omega) (by simp only [hrd2]; exact hrd) (by simp only [hrd2]; exact hb) (by simp only [List.length_drop]; omega)
          ⟨w1.1, w1.2, w1.3, w1.4, w1.5⟩ (by
            simp only [hstr2]
            have h1 := congrArg List.length hdrop
            have h2 : 0 < (data.drop size).length := List.length_pos_iff.2 hdne
            rw [List.length_append, List.length_append, byteBits_length, byteBits_length, byteBits_length] at h1
            rw [byteBits_length]
            omega) (by simp only [hstr2]; exact hdrop)
        have hsh : SameHead s { t with rd := { t.rd with queue := s.rd.queue.drop size }, storedLen := s.storedLen - size } :=
          ⟨hfr.1, hfr.2, hfr.3, hfr.4, hfr.5, hfr.6⟩
        rw [List.append_assoc, List.take_append_drop] at this
        rcases this with ⟨u, o', d', u1, u2, u3, u4, u5, u6, u7, u8, u9⟩ | ⟨u, u1, u2, u3, u4, u5, u6, u7⟩
        · exact .inl ⟨u, o', d', u1, u2, u3, u4, u5, u6, hsh.trans u7, u8, u9⟩
        · refine .inr ⟨u, u1, u2, u3, u4, hsh.trans u5, u6, Nat.le_trans u7 ?_⟩
          simp only [hstr2, hs0, byteBits_length, List.length_drop]
          omega

/-! ## `DecodeBody` -/

theorem fixedLit_eob : fixedLit.getD 256 0 = 7 := by decide +kernel
theorem fixedLit_decoder : ∃ d, fixedLitDecoder = .ok d ∧ Decodes d fixedLit := decoder_ok (by decide) fixedLit_valid
theorem fixedDist_decoder : ∃ d, fixedDistDecoder = .ok d ∧ Decodes d fixedDist := decoder_ok (by decide) fixedDist_valid

/-- `DecodeBody`: the block is decoded to its end, or the object waits. -/
theorem decode_body {spy : List Byte → Nat} (hspy : ∀ q, q ≠ [] → 1 ≤ spy q ∧ spy q ≤ q.length) {m T F : List Byte} {s : Inf} (h : At m T F s)
    (hphase : s.phase = .decodingBody) :
    (∃ t, s.decodeBody spy = .ok (true, t) ∧ At m T F t ∧ t.phase.rank ≤ 2 ∧ t.rd.str.length ≤ s.rd.str.length) ∨
    (∃ t, s.decodeBody spy = .ok (false, t) ∧ At m T F t ∧ F ≠ []) := by
  cases h with
  | pre _ _ hp => rw [hp] at hphase; cases hphase
  | head _ _ _ _ _ hp => rw [hp] at hphase; cases hphase
  | post hp => rw [hp] at hphase; cases hphase
  | after hp => rw [hp] at hphase; cases hphase
  | stored data bs pad pos o _ hrep htype hlen heof hrd hbits hwin hplan hmore hstr =>
    unfold Inf.decodeBody
    simp only []
    rw [if_pos htype]
    rcases stored_loop hspy (s.rd.queue.length + 1) s o data (by omega) hrd hbits hlen hwin hmore hstr with
      ⟨t, o', d', e1, e2, e3, e4, e5, e6, e7, e8, e9⟩ | ⟨t, e1, e2, e3, e4, e5, e6, e7⟩
    · rw [e1]
      refine .inr ⟨t, rfl, .stored d' bs pad pos o' (e7.phase.trans hphase) (e7.rep.trans hrep) (e7.type.trans htype) e4 (e7.eof.trans heof) e2 e3 e5
        (by rw [e6]; exact hplan) ?_ e8, e9⟩
      have := List.length_pos_iff.2 e9
      omega
    · rw [e1]
      obtain ⟨a1, a2, a3⟩ := end_block e2 e4 (e5.phase.trans hphase) (e5.rep.trans hrep) (e5.eof.trans heof) (by omega) hplan e6
      exact .inl ⟨_, rfl, a1, a2, by omega⟩
  | body lit dist dl dd M D β o o' is bs pad pos _ hrep htype heof hdl hdd cl hM hM2 cd hD hD2 heob hβ1 hβ2 hβ3 hinv hplan =>
    unfold Inf.decodeBody
    simp only []
    rw [if_neg htype, hdl, hdd]
    simp only []
    have hr3 : s.next.rank ≤ 3 := by cases s.next <;> decide
    rcases body_loop cl hM hM2 cd hD hD2 heob hβ1 hβ2 hβ3 (4 * (s.rd.bits + 8 * s.rd.queue.length) + 4) o is s hinv (by rw [Reader.str_length]; omega) with
      ⟨o2, is2, t, e1, e2, e3, e4⟩ | ⟨t, e1, e2, e3, e4, e5, e6, e7⟩
    · rw [e1]
      refine .inr ⟨t, rfl, .body lit dist dl dd M D β o2 o' is2 bs pad pos (e3.phase.trans hphase) (e3.rep.trans hrep) (by rw [e3.type]; exact htype) (e3.eof.trans heof)
        (by rw [← hdl]; unfold Inf.litDecoder; rw [e3.type, e3.lit]) (by rw [← hdd]; unfold Inf.distDecoder; rw [e3.type, e3.dist])
        cl hM hM2 cd hD hD2 heob hβ1 hβ2 hβ3 e2 hplan, e4⟩
    · rw [e1]
      obtain ⟨a1, a2, a3⟩ := end_block e2 e3 (e5.phase.trans hphase) (e5.rep.trans hrep) (e5.eof.trans heof) (by omega) hplan e4
      exact .inl ⟨_, rfl, a1, a2, by omega⟩

/-! ## `DecodeHeader` -/

theorem decode_header {m T F : List Byte} {s : Inf} (h : At m T F s) (hphase : s.phase = .waitHeader) (hq : F = [] ∨ maxHeaderSize ≤ s.rd.queue.length) :
    ∃ t, s.decodeHeader = .ok t ∧ At m T F t ∧ t.phase = .decodingBody ∧ t.rd.str.length + 3 ≤ s.rd.str.length := by
  cases h with
  | pre _ _ hp => rw [hp] at hphase; cases hphase
  | stored _ _ _ _ _ hp => rw [hp] at hphase; cases hphase
  | body _ _ _ _ _ _ _ _ _ _ _ _ _ hp => rw [hp] at hphase; cases hphase
  | post hp => rw [hp] at hphase; cases hphase
  | after hp => rw [hp] at hphase; cases hphase
  | head bs pad ρ pos o _ hrep hbs hrd hbits hwin hplan hstr =>
    -- enough of the input is there
    have hroom : ∀ A B : List Bool, A.length ≤ 8 * maxHeaderSize → s.rd.str ++ byteBits F = A ++ B → A.length ≤ s.rd.str.length := by
      intro A B hA hAB
      rcases hq with rfl | hq
      · rw [byteBits_nil, List.append_nil] at hAB
        rw [hAB, List.length_append]; omega
      · rw [Reader.str_length]; omega
    have hmx : maxHeaderSize = 591 := rfl
    cases bs with
    | nil => exact absurd rfl hbs
    | cons b bs =>
      have hlen := congrArg List.length hstr
      have hal := hplan.align
      rw [tailBits, blocksBits_cons, List.append_assoc] at hstr
      simp only [tailBits, List.length_append, byteBits_length, Reader.str_length] at hlen
      obtain ⟨hv, o', ho', hplan'⟩ := hplan.next
      have hst := hplan.roomy.2.1
      have hah := hplan.ahead
      cases b with
      | stored spad data =>
        obtain ⟨v1, v2, v3⟩ := hv
        cases ho'
        have hstr' : s.rd.str ++ byteBits F = (decide (bs = []) :: bits 2 0 ++ (spad ++ bits 16 data.length ++ bits 16 (65535 - data.length))) ++
            (byteBits data ++ tailBits T bs pad) := by rw [hstr]; simp [Block.bits, tailBits]
        obtain ⟨p1, p2⟩ := split_prefix hstr' (hroom _ _ (by simp; omega) hstr')
        generalize s.rd.str.drop _ = R at p1 p2
        rw [List.append_assoc] at p1
        obtain ⟨r, e1, e2, e3, e4⟩ := header_start hrd (by decide) p1
        rw [e1]
        simp only []
        rw [if_pos trivial]
        have hl1 := congrArg List.length p1
        have hl2 := congrArg List.length e3
        simp only [List.length_append, List.length_cons, bits_length, Reader.str_length] at hl1 hl2
        obtain ⟨r', f1, f2, f3, f4⟩ := readStored_spec (s := { s with rd := r, eof := decide (bs = []), blockType := 0 }) e2 v3 (pad := spad) (by simp only []; omega) e3
        rw [f1]
        simp only [lookahead] at hplan'
        refine ⟨_, rfl, .stored data bs pad _ o rfl hrep rfl rfl rfl f2 f4 ⟨hwin.1, hwin.2, hwin.3, hwin.4, hwin.5⟩ hplan' ?_ (by simp only [f3]; exact p2), rfl, ?_⟩
        · simp only [f3]
          have hl3 := congrArg List.length p2
          simp only [List.length_append, byteBits_length, tailBits] at hl3
          have : 0 < data.length ∨ bs ≠ [] ∨ 0 < pad.length + 8 * T.length := by
            cases data with
            | nil => exact .inr (hst _ rfl)
            | cons => exact .inl (by simp)
          have hbs' : bs ≠ [] → 3 ≤ (blocksBits bs).length := by
            intro hne
            cases bs with
            | nil => exact absurd rfl hne
            | cons c cs => rw [blocksBits_cons, List.length_append]; have := c.bits_pos (decide (cs = [])); omega
          rcases this with h | h | h
          · omega
          · have := hbs' h; omega
          · omega
        · simp only [f3, p1, List.length_append, List.length_cons, bits_length]; omega
      | fixed is =>
        have hstr' : s.rd.str ++ byteBits F = (decide (bs = []) :: bits 2 1) ++ (itemsBits fixedLit fixedDist is ++ tailBits T bs pad) := by
          rw [hstr]; simp [Block.bits, tailBits]
        obtain ⟨p1, p2⟩ := split_prefix hstr' (hroom _ _ (by simp; omega) hstr')
        generalize s.rd.str.drop _ = R at p1 p2
        obtain ⟨r, e1, e2, e3, e4⟩ := header_start hrd (by decide) p1
        rw [e1]
        simp only []
        rw [if_neg (by decide), if_pos trivial]
        obtain ⟨dl, g1, g2⟩ := fixedLit_decoder
        obtain ⟨dd, g3, g4⟩ := fixedDist_decoder
        refine ⟨_, rfl, .body fixedLit fixedDist dl dd 9 5 (if ρ ≤ 19 then 16 else 22) o o' is bs pad (pos + (Block.bits false (.fixed is)).length) rfl hrep (by simp only []; decide) rfl
          (by unfold Inf.litDecoder; rw [if_pos rfl]; exact g1) (by unfold Inf.distDecoder; rw [if_pos rfl]; exact g3) g2 fixedLit_valid.1 (by decide) (.inr g4) fixedDist_valid.1 (by decide)
          (by rw [fixedLit_eob]; decide) (by split <;> omega) (by split <;> omega) (by split <;> omega)
          ⟨e2, by simp only []; split <;> omega, ⟨hwin.1, hwin.2, hwin.3, hwin.4, hwin.5⟩, hv, ho', trivial, by simp only [e3]; exact p2⟩ ?_, rfl, ?_⟩
        · rw [fixedLit_eob]
          simp only [lookahead] at hplan'
          by_cases hc : ρ ≤ 19
          · rw [if_pos hc] at hplan' ⊢; exact hplan'
          · rw [if_neg hc] at hplan' ⊢; exact hplan'
        · simp only [e3, p1, List.length_append, List.length_cons, bits_length]; omega
      | dynamic hd is =>
        obtain ⟨v1, v2⟩ := hv
        have hstr' : s.rd.str ++ byteBits F = (decide (bs = []) :: bits 2 2 ++ hd.bits) ++ (itemsBits hd.lit hd.dist is ++ tailBits T bs pad) := by
          rw [hstr]; simp [Block.bits, tailBits]
        have hhl := header_length v1
        obtain ⟨p1, p2⟩ := split_prefix hstr' (hroom _ _ (by simp; omega) hstr')
        generalize s.rd.str.drop _ = R at p1 p2
        rw [List.append_assoc] at p1
        obtain ⟨r, e1, e2, e3, e4⟩ := header_start hrd (by decide) p1
        rw [e1]
        simp only []
        rw [if_neg (by decide), if_neg (by decide), if_pos trivial]
        obtain ⟨r', dl, dd, f1, f2, f3, f4, f5, f6⟩ := readDynamic_spec (s := { s with rd := r, eof := decide (bs = []), blockType := 2 }) e2 v1 e3
        rw [f1]
        simp only [] at f4
        have hdist : ∀ l ∈ hd.dist, l ≤ 15 := by
          rcases v1.dist with h | ⟨h, _⟩
          · exact h.1
          · rw [h]; simp
        refine ⟨_, rfl, .body hd.lit hd.dist dl dd 15 15 22 o o' is bs pad _ rfl hrep (by simp only []; decide) rfl
          (by simp only [Inf.litDecoder]; rw [if_neg (by decide)]) (by simp only [Inf.distDecoder]; rw [if_neg (by decide)]) f5 v1.lit.1 (by decide) f6 hdist (by decide)
          v1.eob (by decide) (by decide) (by decide)
          ⟨f2, by simp only []; omega, ⟨hwin.1, hwin.2, hwin.3, hwin.4, hwin.5⟩, v2, ho', trivial, by simp only [f3]; exact p2⟩ hplan', rfl, ?_⟩
        simp only [f3, p1, List.length_append, List.length_cons, bits_length]; omega

/-! ## `ProcessInput` -/

theorem process_input {spy : List Byte → Nat} (hspy : ∀ q, q ≠ [] → 1 ≤ spy q ∧ spy q ≤ q.length) {m T F : List Byte} {flush : Bool} (hF : flush = true → F = []) (f : Nat) :
    ∀ s : Inf, At m T F s → s.rd.str.length + s.phase.rank < f →
    ∃ t, Inf.processInput spy flush f s = .ok t ∧ At m T F t ∧ (flush = true → t.phase = .afterEnd ∧ t.out = m ++ T) := by
  induction f with
  | zero => intro s _ h; omega
  | succ f ih =>
    intro s h hf
    rw [Inf.processInput]
    cases hp : s.phase with
    | preStream =>
      simp only []
      cases h with
      | head _ _ _ _ _ hp' => rw [hp] at hp'; cases hp'
      | stored _ _ _ _ _ hp' => rw [hp] at hp'; cases hp'
      | body _ _ _ _ _ _ _ _ _ _ _ _ _ hp' => rw [hp] at hp'; cases hp'
      | post hp' => rw [hp] at hp'; cases hp'
      | after hp' => rw [hp] at hp'; cases hp'
      | pre bs pad _ hrep hbs hrd hbits hout hplan hstr =>
        refine ih _ (.head bs pad 0 0 [] rfl hrep hbs hrd (by simp only []; omega) ⟨rfl, by simp, fun k hk => absurd hk (by simp), Nat.le_refl _, by simpa using hout⟩ hplan hstr) ?_
        simp only [Phase.rank]
        rw [hp] at hf
        simp only [Phase.rank] at hf
        omega
    | waitHeader =>
      simp only []
      have hq : (s.rd.queue.length < if flush = true then 1 else maxHeaderSize) → flush = false := by
        intro hlt
        cases flush with
        | false => rfl
        | true =>
          exfalso
          rw [if_pos rfl] at hlt
          have hF' := hF rfl
          cases h with
          | pre _ _ hp' => rw [hp] at hp'; cases hp'
          | stored _ _ _ _ _ hp' => rw [hp] at hp'; cases hp'
          | body _ _ _ _ _ _ _ _ _ _ _ _ _ hp' => rw [hp] at hp'; cases hp'
          | post hp' => rw [hp] at hp'; cases hp'
          | after hp' => rw [hp] at hp'; cases hp'
          | head bs pad ρ pos o _ hrep hbs hrd hbits hwin hplan hstr =>
            cases bs with
            | nil => exact hbs rfl
            | cons b bs =>
              have hr := hplan.roomy.1
              have hl := congrArg List.length hstr
              rw [hF'] at hl
              simp only [tailBits, List.length_append, byteBits_length, Reader.str_length, List.length_nil] at hl
              omega
      by_cases hlt : s.rd.queue.length < if flush = true then 1 else maxHeaderSize
      · rw [if_pos hlt]
        have := hq hlt
        exact ⟨s, rfl, h, fun hfl => by rw [this] at hfl; cases hfl⟩
      · rw [if_neg hlt]
        have hge := hlt
        obtain ⟨t, e1, e2, e3, e4⟩ := decode_header h hp (by
          cases flush with
          | true => exact .inl (hF rfl)
          | false =>
            rw [if_neg (by decide)] at hge
            exact .inr (by omega))
        rw [e1]
        refine ih t e2 ?_
        rw [hp] at hf
        rw [e3]
        simp only [Phase.rank] at hf ⊢
        omega
    | decodingBody =>
      simp only []
      rcases decode_body hspy h hp with ⟨t, e1, e2, e3, e4⟩ | ⟨t, e1, e2, e3⟩
      · rw [e1]
        refine ih t e2 ?_
        rw [hp] at hf
        simp only [Phase.rank] at hf
        omega
      · rw [e1]
        exact ⟨t, rfl, e2, fun hfl => absurd (hF hfl) e3⟩
    | postStream =>
      simp only []
      cases h with
      | pre _ _ hp' => rw [hp] at hp'; cases hp'
      | head _ _ _ _ _ hp' => rw [hp] at hp'; cases hp'
      | stored _ _ _ _ _ hp' => rw [hp] at hp'; cases hp'
      | body _ _ _ _ _ _ _ _ _ _ _ _ _ hp' => rw [hp] at hp'; cases hp'
      | after hp' => rw [hp] at hp'; cases hp'
      | post _ hrep hout hflush hrd hbits hq =>
        simp only [hrep, Bool.false_eq_true, if_false]
        have hat : At m T F { s with phase := .afterEnd, repeats := false } := .after rfl rfl (by simp only [hout, hq]) hflush hrd hbits
        split
        · rename_i hz
          refine ⟨_, rfl, hat, fun hfl => ⟨rfl, ?_⟩⟩
          have hqn : s.rd.queue = [] := List.eq_nil_of_length_eq_zero hz
          rw [hF hfl, hqn] at hq
          simp only [hout, ← hq, List.append_nil]
        · refine ih _ hat ?_
          rw [hp] at hf
          simp only [Phase.rank] at hf ⊢
          omega
    | afterEnd =>
      simp only []
      cases h with
      | pre _ _ hp' => rw [hp] at hp'; cases hp'
      | head _ _ _ _ _ hp' => rw [hp] at hp'; cases hp'
      | stored _ _ _ _ _ hp' => rw [hp] at hp'; cases hp'
      | body _ _ _ _ _ _ _ _ _ _ _ _ _ hp' => rw [hp] at hp'; cases hp'
      | post hp' => rw [hp] at hp'; cases hp'
      | after _ hrep hout hflush hrd hbits =>
        refine ⟨_, rfl, .after rfl hrep (by simp only [List.nil_append, List.append_assoc]; exact hout) hflush hrd hbits, fun hfl => ⟨rfl, ?_⟩⟩
        rw [hF hfl, List.append_nil] at hout
        exact hout

/-! ## `Put` and `Flush` -/

/-- Input moves from what is still to come into the queue. -/
theorem At.feed {m T d F : List Byte} {s : Inf} (h : At m T (d ++ F) s) : At m T F { s with rd := { s.rd with queue := s.rd.queue ++ d } } := by
  have hs : Reader.str { s.rd with queue := s.rd.queue ++ d } ++ byteBits F = s.rd.str ++ byteBits (d ++ F) := by
    simp [Reader.str]
  cases h with
  | pre bs pad hphase hrep hbs hrd hbits hout hplan hstr => exact .pre bs pad hphase hrep hbs hrd hbits hout hplan (hs.trans hstr)
  | head bs pad ρ pos o hphase hrep hbs hrd hbits hwin hplan hstr =>
    exact .head bs pad ρ pos o hphase hrep hbs hrd hbits ⟨hwin.1, hwin.2, hwin.3, hwin.4, hwin.5⟩ hplan (hs.trans hstr)
  | stored data bs pad pos o hphase hrep htype hlen heof hrd hbits hwin hplan hmore hstr =>
    refine .stored data bs pad pos o hphase hrep htype hlen heof hrd hbits ⟨hwin.1, hwin.2, hwin.3, hwin.4, hwin.5⟩ hplan ?_ (hs.trans hstr)
    simp only [Reader.str_length, List.length_append] at hmore ⊢
    omega
  | body lit dist dl dd M D β o o' is bs pad pos hphase hrep htype heof hdl hdd cl hM hM2 cd hD hD2 heob hβ1 hβ2 hβ3 hinv hplan =>
    refine .body lit dist dl dd M D β o o' is bs pad pos hphase hrep htype heof hdl hdd cl hM hM2 cd hD hD2 heob hβ1 hβ2 hβ3
      ⟨hinv.rd, hinv.bits, ⟨hinv.win.1, hinv.win.2, hinv.win.3, hinv.win.4, hinv.win.5⟩, hinv.valid, hinv.run, hinv.regs, hs.trans hinv.str⟩ hplan
  | post hphase hrep hout hflush hrd hbits hq => exact .post hphase hrep hout hflush hrd hbits (by simp only [List.append_assoc]; exact hq)
  | after hphase hrep hout hflush hrd hbits => exact .after hphase hrep (by simp only [List.append_assoc]; exact hout) hflush hrd hbits

theorem At.soft {m T F : List Byte} {s : Inf} (h : At m T F s) : At m T F s.flushOutput := by
  have key : ∀ o, WinOk s o → WinOk s.flushOutput o ∧ s.Frame s.flushOutput := fun o ho => ⟨ho.flushed.1, ho.flushed.2.1⟩
  have idem : s.lastFlush = s.current → s.flushOutput = s := by
    intro e
    unfold Inf.flushOutput
    split
    · rw [e, windowPart, Nat.sub_self, List.range'_zero, List.map_nil, List.append_nil]
      clear key h
      cases s
      simp only [] at e
      subst e
      rfl
    · rfl
  cases h with
  | pre bs pad hphase hrep hbs hrd hbits hout hplan hstr =>
    have : s.flushOutput = s := by unfold Inf.flushOutput; rw [if_neg (by rw [hphase]; decide)]
    rw [this]
    exact .pre bs pad hphase hrep hbs hrd hbits hout hplan hstr
  | head bs pad ρ pos o hphase hrep hbs hrd hbits hwin hplan hstr =>
    obtain ⟨k1, k2⟩ := key o hwin
    unfold Inf.Frame at k2
    generalize s.flushOutput = t at *
    have e : t.rd = s.rd := by rw [k2]
    exact .head bs pad ρ pos o (by rw [k2]; exact hphase) (by rw [k2]; exact hrep) hbs (by rw [e]; exact hrd) (by rw [e]; exact hbits) k1 hplan (by rw [e]; exact hstr)
  | stored data bs pad pos o hphase hrep htype hlen heof hrd hbits hwin hplan hmore hstr =>
    obtain ⟨k1, k2⟩ := key o hwin
    unfold Inf.Frame at k2
    generalize s.flushOutput = t at *
    have e : t.rd = s.rd := by rw [k2]
    exact .stored data bs pad pos o (by rw [k2]; exact hphase) (by rw [k2]; exact hrep) (by rw [k2]; exact htype) (by rw [k2]; exact hlen) (by rw [k2]; exact heof)
      (by rw [e]; exact hrd) (by rw [e]; exact hbits) k1 hplan (by rw [e]; exact hmore) (by rw [e]; exact hstr)
  | body lit dist dl dd M D β o o' is bs pad pos hphase hrep htype heof hdl hdd cl hM hM2 cd hD hD2 heob hβ1 hβ2 hβ3 hinv hplan =>
    obtain ⟨k1, k2⟩ := key o hinv.win
    unfold Inf.Frame at k2
    generalize s.flushOutput = t at *
    have e : t.rd = s.rd := by rw [k2]
    have en : t.next = s.next := by rw [k2]
    exact .body lit dist dl dd M D β o o' is bs pad pos (by rw [k2]; exact hphase) (by rw [k2]; exact hrep) (by rw [k2]; exact htype) (by rw [k2]; exact heof)
      (by rw [← hdl, k2]; rfl) (by rw [← hdd, k2]; rfl) cl hM hM2 cd hD hD2 heob hβ1 hβ2 hβ3
      ⟨by rw [e]; exact hinv.rd, by rw [e]; exact hinv.bits, k1, hinv.valid, hinv.run, by rw [k2]; exact hinv.regs, by rw [e, en]; exact hinv.str⟩ hplan
  | post hphase hrep hout hflush hrd hbits hq => rw [idem hflush]; exact .post hphase hrep hout hflush hrd hbits hq
  | after hphase hrep hout hflush hrd hbits => rw [idem hflush]; exact .after hphase hrep hout hflush hrd hbits

theorem rank_le (p : Phase) : p.rank ≤ 4 := by cases p <;> decide

theorem At.put {spy : List Byte → Nat} (hspy : ∀ q, q ≠ [] → 1 ≤ spy q ∧ spy q ≤ q.length) {m T d F : List Byte} {s : Inf} (h : At m T (d ++ F) s) :
    ∃ t, s.put spy d false = .ok t ∧ At m T F t := by
  have h1 := h.feed
  unfold Inf.put
  simp only []
  obtain ⟨t, e1, e2, _⟩ := process_input hspy (flush := false) (by intro h; cases h) (2 * (s.rd.bits + 8 * (s.rd.queue ++ d).length) + 10) _ h1
    (by simp only [Reader.str_length]; have := rank_le s.phase; omega)
  rw [e1]
  exact ⟨t, by simp, e2⟩

theorem At.last {spy : List Byte → Nat} (hspy : ∀ q, q ≠ [] → 1 ≤ spy q ∧ spy q ≤ q.length) {m T d : List Byte} {s : Inf} (h : At m T d s) :
    ∃ t, s.put spy d true = .ok t ∧ t.out = m ++ T := by
  rw [← List.append_nil d] at h
  have h1 := h.feed
  unfold Inf.put
  simp only []
  obtain ⟨t, e1, e2, e3⟩ := process_input hspy (flush := true) (by intro _; rfl) (2 * (s.rd.bits + 8 * (s.rd.queue ++ d).length) + 10) _ h1
    (by simp only [Reader.str_length]; have := rank_le s.phase; omega)
  obtain ⟨e4, e5⟩ := e3 rfl
  rw [e1]
  refine ⟨t, ?_, e5⟩
  simp only []
  rw [if_neg]
  rintro ⟨_, hc⟩
  exact hc (.inr e4)

end Verif.Flate
