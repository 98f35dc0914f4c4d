import Verif.BaseN.Spec

namespace Verif.BaseN

theorem chunk_nil {α} (w : Nat) : chunk w ([] : List α) = [] := by unfold chunk; simp

theorem chunk_cons {α} {w : Nat} {l : List α} (hw : 0 < w) (hl : l ≠ []) : chunk w l = l.take w :: chunk w (l.drop w) := by
  conv => lhs; unfold chunk
  rw [dif_neg]; intro h; rcases h with h | h
  · exact hl h
  · omega

theorem chunk_append {α} {w : Nat} (hw : 0 < w) (k : Nat) (a b : List α) (ha : a.length = k * w) :
    chunk w (a ++ b) = chunk w a ++ chunk w b := by
  induction k generalizing a with
  | zero =>
    have : a = [] := List.eq_nil_of_length_eq_zero (by simpa using ha)
    subst this; simp [chunk_nil]
  | succ k ih =>
    have hlen : w ≤ a.length := by rw [ha, Nat.succ_mul]; omega
    have hne : a ≠ [] := by intro h; subst h; simp at hlen; omega
    rw [chunk_cons hw hne, chunk_cons hw (by simp [hne]), List.take_append_of_le_length hlen,
      List.drop_append_of_le_length hlen, ih _ (by simp [ha, Nat.succ_mul])]
    rfl

theorem chunk_length_mul {α} {w : Nat} (hw : 0 < w) (k : Nat) (a : List α) (ha : a.length = k * w) :
    (chunk w a).length = k := by
  induction k generalizing a with
  | zero =>
    have : a = [] := List.eq_nil_of_length_eq_zero (by simpa using ha)
    subst this; simp [chunk_nil]
  | succ k ih =>
    have hlen : w ≤ a.length := by rw [ha, Nat.succ_mul]; omega
    have hne : a ≠ [] := by intro h; subst h; simp at hlen; omega
    rw [chunk_cons hw hne, List.length_cons, ih _ (by simp [ha, Nat.succ_mul])]

/-! ### Cells of bits -/

/-- The bits of a buffer of `w`-bit cells. -/
def flatW (w : Nat) (buf : List Byte) : List Bool := buf.flatMap fun s => bitsBE w s.toNat

theorem flatW_length (w : Nat) (buf : List Byte) : (flatW w buf).length = buf.length * w := by
  induction buf with
  | nil => simp [flatW]
  | cons a b ih => simp [flatW, Nat.succ_mul] at *; omega

theorem flatW_append (w : Nat) (a b : List Byte) : flatW w (a ++ b) = flatW w a ++ flatW w b := by simp [flatW]

theorem flatW_replicate (w n : Nat) : flatW w (List.replicate n 0) = List.replicate (n * w) false := by
  induction n with
  | zero => simp [flatW]
  | succ n ih =>
    rw [List.replicate_succ, Nat.succ_mul, Nat.add_comm, ← List.replicate_append_replicate, ← ih]
    simp [flatW, bitsBE_zero]

theorem flatW_take (w : Nat) (buf : List Byte) (i : Nat) : flatW w (buf.take i) = (flatW w buf).take (i * w) := by
  induction buf generalizing i with
  | nil => simp [flatW]
  | cons a b ih =>
    cases i with
    | zero => simp [flatW]
    | succ i =>
      have h1 : flatW w (a :: b) = bitsBE w a.toNat ++ flatW w b := by simp [flatW]
      have h2 : flatW w (a :: b.take i) = bitsBE w a.toNat ++ flatW w (b.take i) := by simp [flatW]
      rw [List.take_succ_cons, h1, h2, List.take_append, ih]
      rw [List.take_of_length_le (l := bitsBE w a.toNat) (by simp [Nat.succ_mul])]
      simp [Nat.succ_mul]

theorem flatW_drop (w : Nat) (buf : List Byte) (i : Nat) : flatW w (buf.drop i) = (flatW w buf).drop (i * w) := by
  induction buf generalizing i with
  | nil => simp [flatW]
  | cons a b ih =>
    cases i with
    | zero => simp [flatW]
    | succ i =>
      have h1 : flatW w (a :: b) = bitsBE w a.toNat ++ flatW w b := by simp [flatW]
      rw [List.drop_succ_cons, h1, List.drop_append, ih]
      rw [List.drop_of_length_le (l := bitsBE w a.toNat) (by simp [Nat.succ_mul])]
      simp [Nat.succ_mul]

theorem getD_bits (w : Nat) (buf : List Byte) (i : Nat) (hi : i < buf.length) :
    bitsBE w (buf.getD i 0).toNat = ((flatW w buf).drop (i * w)).take w := by
  have h1 : ∀ (a : Byte) l, flatW w (a :: l) = bitsBE w a.toNat ++ flatW w l := fun a l => by simp [flatW]
  rw [← flatW_drop, List.drop_eq_getElem_cons hi, h1, List.take_left' (by simp)]
  simp [List.getD_eq_getElem?_getD, List.getElem?_eq_getElem hi]

theorem flatW_set (w : Nat) (buf : List Byte) (i : Nat) (v : Byte) (hi : i < buf.length) :
    flatW w (buf.set i v) = (flatW w buf).take (i * w) ++ bitsBE w v.toNat ++ (flatW w buf).drop (i * w + w) := by
  rw [List.set_eq_take_append_cons_drop, if_pos hi]
  have : ∀ l, flatW w (v :: l) = bitsBE w v.toNat ++ flatW w l := fun l => by simp [flatW]
  rw [flatW_append, flatW_take, this, flatW_drop, Nat.succ_mul]; simp

theorem zip_or_left (p c : List Bool) : List.zipWith (· || ·) (p ++ List.replicate c.length false)
    (List.replicate p.length false ++ c) = p ++ c := by
  rw [List.zipWith_append (by simp)]
  congr 1
  · apply List.ext_getElem <;> simp
  · apply List.ext_getElem <;> simp

/-- Or-ing a value into the cell at the write position appends its bits. -/
theorem or_cell (w : Nat) (buf : List Byte) (P C : List Bool) (i q : Nat) (v : Byte)
    (hi : i < buf.length) (hP : P.length = i * w + q) (hq : q < w)
    (hflat : flatW w buf = P ++ List.replicate (buf.length * w - P.length) false)
    (hv : bitsBE w v.toNat = List.replicate q false ++ C) :
    flatW w (buf.set i (buf.getD i 0 ||| v)) = P ++ C ++ List.replicate (buf.length * w - (i * w + w)) false := by
  have hC : C.length = w - q := by have := congrArg List.length hv; simp at this; omega
  have hiw : i * w + w ≤ buf.length * w := by
    have := Nat.mul_le_mul_right w hi; rw [Nat.succ_mul] at this; exact this
  rw [flatW_set w buf i _ hi, BitVec.toNat_or, bitsBE_or, getD_bits w buf i hi, hv, hflat]
  have h1 : ((P ++ List.replicate (buf.length * w - P.length) false).drop (i * w)).take w
      = P.drop (i * w) ++ List.replicate (w - q) false := by
    rw [List.drop_append_of_le_length (by omega), List.take_append,
      List.take_of_length_le (by simp; omega), List.take_replicate]
    congr 2; simp; omega
  rw [h1]
  have h2 := zip_or_left (P.drop (i * w)) C
  rw [show (P.drop (i * w)).length = q by simp; omega, hC] at h2
  rw [h2, List.take_append_of_le_length (by omega), ← List.append_assoc, List.take_append_drop, List.drop_append,
    List.drop_of_length_le (by omega), List.drop_replicate]
  simp; omega

theorem toNat_ofNat_lt (x w : Nat) (hx : x < 2 ^ w) (hw : w ≤ 8) : (BitVec.ofNat 8 x).toNat = x := by
  have : 2 ^ w ≤ 2 ^ 8 := Nat.pow_le_pow_right (by omega) hw
  rw [BitVec.toNat_ofNat]; exact Nat.mod_eq_of_lt (by omega)

/-! ### The encoder -/

/-- Parameters that do not change. -/
structure Enc.Params (e : Enc) (a : Nat → Byte) (p : Option Byte) (w obs : Nat) : Prop where
  alphabet_eq : e.alphabet = a
  padding_eq : e.padding = p
  w_eq : e.bitsPerChar = w
  obs_eq : e.outputBlockSize = obs
  len : e.outBuf.length = obs

/-- The buffer holds the pending bits `P`, followed by zero bits, and the positions point just after them. -/
structure Enc.Holds (e : Enc) (P : List Bool) : Prop where
  flat : flatW e.bitsPerChar e.outBuf = P ++ List.replicate (e.outBuf.length * e.bitsPerChar - P.length) false
  small : ∀ s ∈ e.outBuf, s.toNat < 2 ^ e.bitsPerChar
  pos : P.length = e.bytePos * e.bitsPerChar + e.bitPos
  bit : e.bitPos < e.bitsPerChar

theorem Enc.spread_spec (fuel : Nat) (e : Enc) (P B : List Bool) (b k a p w obs : _) (hp : e.Params a p w obs)
    (hw : 0 < w) (hw8 : w < 8) (h : e.Holds P) (hb : b < 256) (hB : B.length = k) (hk : 0 < k) (hk8 : k ≤ 8)
    (hbits : bitsBE 8 b = B ++ List.replicate (8 - k) false) (hfuel : k ≤ fuel) (hroom : P.length + k ≤ obs * w) :
    (spread fuel e b k).Params a p w obs ∧ (spread fuel e b k).Holds (P ++ B) := by
  induction fuel generalizing e P B b k with
  | zero => omega
  | succ fuel ih =>
    obtain ⟨ha, hpad, hwe, hobs, hlen⟩ := hp
    obtain ⟨hflat, hsmall, hpos, hbit⟩ := h
    rw [hwe] at hflat hsmall hpos hbit
    have hbyte : e.bytePos < e.outBuf.length := by
      rw [hlen]
      apply Nat.lt_of_mul_lt_mul_right (a := w); omega
    -- the value or-ed into the cell
    have hx : b >>> (8 - (w - e.bitPos)) < 2 ^ (w - e.bitPos) := by
      rw [Nat.shiftRight_eq_div_pow]
      apply Nat.div_lt_of_lt_mul
      rw [← Nat.pow_add]
      have : 8 - (w - e.bitPos) + (w - e.bitPos) = 8 := by omega
      rw [this]; exact hb
    have hxbits : bitsBE w (BitVec.ofNat 8 (b >>> (8 - (w - e.bitPos)))).toNat
        = List.replicate e.bitPos false ++ (bitsBE 8 b).take (w - e.bitPos) := by
      rw [toNat_ofNat_lt _ _ hx (by omega)]
      have := bitsBE_widen (w - e.bitPos) e.bitPos _ hx
      rw [show e.bitPos + (w - e.bitPos) = w by omega] at this
      rw [this, bitsBE_shiftRight, show w - e.bitPos + (8 - (w - e.bitPos)) = 8 by omega]
    have hcell := or_cell w e.outBuf P _ e.bytePos e.bitPos _ hbyte hpos hbit hflat hxbits
    have hsmall' : ∀ s ∈ e.outBuf.set e.bytePos (e.outBuf.getD e.bytePos 0 ||| BitVec.ofNat 8 (b >>> (8 - (w - e.bitPos)))),
        s.toNat < 2 ^ w := by
      intro s hs
      rcases List.mem_or_eq_of_mem_set hs with hs | rfl
      · exact hsmall s hs
      · rw [BitVec.toNat_or]
        apply Nat.or_lt_two_pow
        · have : e.outBuf.getD e.bytePos 0 ∈ e.outBuf := by
            simp [List.getD_eq_getElem?_getD, List.getElem?_eq_getElem hbyte]
          exact hsmall _ this
        · rw [toNat_ofNat_lt _ _ hx (by omega)]
          exact Nat.lt_of_lt_of_le hx (Nat.pow_le_pow_right (by omega) (by omega))
    unfold spread
    simp only [hwe]
    rw [hlen] at hcell
    rw [hbits] at hcell
    have hroom2 : e.bytePos * w + w ≤ obs * w := by
      rw [hlen] at hbyte
      have := Nat.mul_le_mul_right w hbyte; rw [Nat.succ_mul] at this; exact this
    split
    · rename_i hge
      have htake : (B ++ List.replicate (8 - k) false).take (w - e.bitPos) = B.take (w - e.bitPos) :=
        List.take_append_of_le_length (by omega)
      rw [htake] at hcell
      have hPB : (P ++ B.take (w - e.bitPos)).length = (e.bytePos + 1) * w := by
        simp [hpos, Nat.succ_mul]; omega
      split
      · rename_i h0
        have hk' : B.take (w - e.bitPos) = B := List.take_of_length_le (by omega)
        rw [hk'] at hcell hPB
        refine ⟨⟨ha, hpad, rfl, hobs, by simpa using hlen⟩, ⟨?_, ?_, ?_, ?_⟩⟩
        · simp only [List.length_set]; rw [hcell, hlen, hPB, Nat.succ_mul]
        · exact hsmall'
        · simp only; rw [hPB]; rfl
        · exact hw
      · rename_i h0
        have hb' : (b <<< (w - e.bitPos)) &&& 0xff < 256 := Nat.lt_of_le_of_lt Nat.and_le_right (by omega)
        have hbits' : bitsBE 8 ((b <<< (w - e.bitPos)) &&& 0xff)
            = B.drop (w - e.bitPos) ++ List.replicate (8 - (k - (w - e.bitPos))) false := by
          rw [show (0xff : Nat) = 2 ^ 8 - 1 from rfl, Nat.and_two_pow_sub_one_eq_mod, bitsBE_mod,
            bitsBE_shiftLeft _ _ _ (by omega), hbits, List.drop_append_of_le_length (by omega), List.append_assoc,
            List.replicate_append_replicate]
          congr 2; omega
        have := ih { e with
            outBuf := e.outBuf.set e.bytePos (e.outBuf.getD e.bytePos 0 ||| BitVec.ofNat 8 (b >>> (8 - (w - e.bitPos)))),
            bitPos := 0, bytePos := e.bytePos + 1 } (P ++ B.take (w - e.bitPos)) (B.drop (w - e.bitPos)) _
            (k - (w - e.bitPos)) ⟨ha, hpad, hwe, hobs, by simpa using hlen⟩ ⟨?_, ?_, ?_, ?_⟩ hb' (by simp; omega)
            (by omega) (by omega) hbits' (by omega) (by rw [hPB, Nat.succ_mul]; omega)
        · rw [List.append_assoc, List.take_append_drop] at this
          simpa only [hwe] using this
        · simp only [List.length_set, hwe]; rw [hcell, hlen, hPB, Nat.succ_mul]
        · simp only [hwe]; exact hsmall'
        · simp only [hwe]; rw [hPB]; rfl
        · simp only [hwe]; exact hw
    · rename_i hlt
      have htake : (B ++ List.replicate (8 - k) false).take (w - e.bitPos) = B ++ List.replicate (w - e.bitPos - k) false := by
        rw [List.take_append, List.take_of_length_le (by omega), List.take_replicate, hB]
        congr 2; omega
      rw [htake] at hcell
      refine ⟨⟨ha, hpad, rfl, hobs, by simpa using hlen⟩, ⟨?_, ?_, ?_, ?_⟩⟩
      · simp only [List.length_set]
        rw [hcell, hlen, ← List.append_assoc, List.append_assoc, List.append_assoc, List.replicate_append_replicate,
          ← List.append_assoc]
        congr 2; simp [hpos]; omega
      · exact hsmall'
      · simp [hpos]; omega
      · simp only; omega


theorem symbolOf_bits (w : Nat) (s : Nat) (hs : s < 2 ^ w) : symbolOf w (bitsBE w s) = s := by
  simp [symbolOf, ofBits_bitsBE, Nat.mod_eq_of_lt hs]

theorem chunk_flatW (w : Nat) (hw : 0 < w) (buf : List Byte) (h : ∀ s ∈ buf, s.toNat < 2 ^ w) :
    (chunk w (flatW w buf)).map (symbolOf w) = buf.map (·.toNat) := by
  induction buf with
  | nil => simp [flatW, chunk_nil]
  | cons a b ih =>
    have h1 : flatW w (a :: b) = bitsBE w a.toNat ++ flatW w b := by simp [flatW]
    have hne : bitsBE w a.toNat ++ flatW w b ≠ [] := by
      intro h; have := congrArg List.length h; simp at this; omega
    rw [h1, chunk_cons hw hne, List.take_left' (by simp), List.drop_left' (by simp), List.map_cons,
      symbolOf_bits w _ (h a List.mem_cons_self), ih (fun s hs => h s (List.mem_cons_of_mem _ hs))]
    rfl

theorem chunk_fill (w : Nat) (hw : 0 < w) (n : Nat) (P : List Bool) (h1 : P.length ≤ n * w) (h2 : n * w < P.length + w) :
    (chunk w (P ++ List.replicate (n * w - P.length) false)).map (symbolOf w) = (chunk w P).map (symbolOf w) := by
  induction n generalizing P with
  | zero =>
    have : P = [] := List.eq_nil_of_length_eq_zero (by simpa using h1)
    subst this; simp
  | succ n ih =>
    rw [Nat.succ_mul] at h1 h2 ⊢
    have hne : P ≠ [] := by intro h; subst h; simp at h2; omega
    rw [chunk_cons hw hne, chunk_cons hw (by simp [hne]), List.map_cons, List.map_cons]
    by_cases hP : w ≤ P.length
    · rw [List.take_append_of_le_length hP, List.drop_append_of_le_length hP]
      have := ih (P.drop w) (by simp; omega) (by simp; omega)
      rw [← this]
      congr 5
      simp; omega
    · have hn : n * w = 0 := by
        cases n with
        | zero => simp
        | succ n => rw [Nat.succ_mul] at h2; omega
      rw [hn] at *
      have e1 : (P ++ List.replicate (0 + w - P.length) false).drop w = [] :=
        List.drop_of_length_le (by simp; omega)
      have e2 : P.drop w = [] := List.drop_of_length_le (by omega)
      have e3 : P.take w = P := List.take_of_length_le (by omega)
      have e4 : (P ++ List.replicate (0 + w - P.length) false).take w = P ++ List.replicate (w - P.length) false := by
        rw [List.take_of_length_le (by simp; omega)]; simp
      rw [e1, e2, e3, e4]
      congr 1
      simp [symbolOf]; congr 3
      simp; omega

theorem blockChars_spec : ∀ w, 0 < w → w < 8 → 0 < blockChars w ∧ blockChars w * w % 8 = 0 := by
  intro w h1 h2
  have : w = 1 ∨ w = 2 ∨ w = 3 ∨ w = 4 ∨ w = 5 ∨ w = 6 ∨ w = 7 := by omega
  rcases this with rfl | rfl | rfl | rfl | rfl | rfl | rfl <;> decide

/-- Between bytes: `P` are the bits not yet output. -/
structure Enc.St (e : Enc) (P : List Bool) : Prop where
  lt : P.length < e.outputBlockSize * e.bitsPerChar
  dvd : P.length % 8 = 0
  nil : P = [] → e.bytePos = 0 ∧ e.bitPos = 0
  holds : P ≠ [] → e.Holds P

theorem Enc.putByte_spec (e : Enc) (P : List Bool) (x : Byte) (a p w obs : _) (hp : e.Params a p w obs)
    (hw : 0 < w) (hw8 : w < 8) (hobs : obs * w % 8 = 0) (hobs0 : 0 < obs) (h : e.St P) :
    (e.putByte x).1.Params a p w obs ∧
    ((e.putByte x).2 = [] ∧ (e.putByte x).1.St (P ++ bitsBE 8 x.toNat) ∨
     ∃ syms : List Byte, (e.putByte x).2 = [(syms.map fun s => a s.toNat, false)] ∧ syms.length = obs ∧
       (∀ s ∈ syms, s.toNat < 2 ^ w) ∧ flatW w syms = P ++ bitsBE 8 x.toNat ∧ (e.putByte x).1.St []) := by
  obtain ⟨ha, hpad, hwe, hobse, hlen⟩ := hp
  obtain ⟨hlt, hdvd, hnil, hholds⟩ := h
  rw [hwe, hobse] at hlt
  -- after the conditional memset
  have hreset : ∀ e' : Enc, e' = (if e.bytePos = 0 then { e with outBuf := List.replicate e.outputBlockSize 0 } else e) →
      e'.Params a p w obs ∧ e'.Holds P := by
    intro e' he'
    by_cases hP : P = []
    · obtain ⟨h1, h2⟩ := hnil hP
      rw [if_pos h1] at he'
      subst he'; subst hP
      refine ⟨⟨ha, hpad, hwe, hobse, by simp [hobse]⟩, ⟨?_, ?_, ?_, ?_⟩⟩
      · exact (flatW_replicate _ _).trans (by simp)
      · intro s hs; simp at hs; rw [hs.2]; exact Nat.two_pow_pos _
      · simp [h1, h2]
      · simp only [h2, hwe]; exact hw
    · have hh := hholds hP
      have hpos := hh.pos
      have hbit := hh.bit
      rw [hwe] at hpos hbit
      have hne : P.length ≠ 0 := fun h => hP (List.eq_nil_of_length_eq_zero h)
      have : e.bytePos ≠ 0 := by intro h; rw [h] at hpos; omega
      rw [if_neg this] at he'
      subst he'
      exact ⟨⟨ha, hpad, hwe, hobse, hlen⟩, hh⟩
  obtain ⟨hp', hh'⟩ := hreset _ rfl
  have hroom : P.length + 8 ≤ obs * w := by omega
  obtain ⟨sp, sh⟩ := spread_spec 9 _ P (bitsBE 8 x.toNat) x.toNat 8 a p w obs hp' hw hw8 hh' x.isLt (by simp)
    (by omega) (by omega) (by simp) (by omega) hroom
  obtain ⟨sflat, ssmall, spos, sbit⟩ := sh
  rw [sp.w_eq] at sflat ssmall spos sbit
  rw [sp.len] at sflat
  unfold putByte
  simp only
  revert sp sflat ssmall spos sbit
  generalize spread 9 (if e.bytePos = 0 then { e with outBuf := List.replicate e.outputBlockSize 0 } else e) x.toNat 8 = e2
  intro sp sflat ssmall spos sbit
  split
  · rename_i hfull
    rw [sp.obs_eq] at hfull
    have hPl : (P ++ bitsBE 8 x.toNat).length = obs * w := by
      rw [spos, hfull]
      have : (P ++ bitsBE 8 x.toNat).length ≤ obs * w := by simp; omega
      rw [spos, hfull] at this; omega
    refine ⟨⟨sp.alphabet_eq, sp.padding_eq, sp.w_eq, sp.obs_eq, ?_⟩, Or.inr ⟨_, ?_, sp.len, ssmall, ?_, ?_⟩⟩
    · simp [translate, sp.len, hfull]
    · rw [sp.obs_eq]
      simp only [translate, hfull, sp.alphabet_eq]
      congr 2
      rw [List.take_append_of_le_length (by simp [sp.len]), List.take_of_length_le (by simp [sp.len]),
        List.take_of_length_le (by simp [sp.len])]
    · rw [sflat, hPl]; simp
    · exact ⟨by simp only [sp.obs_eq, sp.w_eq]; exact Nat.mul_pos hobs0 hw, rfl, fun _ => ⟨rfl, rfl⟩, fun h => absurd rfl h⟩
  · rename_i hfull
    rw [sp.obs_eq] at hfull
    refine ⟨sp, Or.inl ⟨rfl, ⟨?_, ?_, ?_, ?_⟩⟩⟩
    · rw [sp.obs_eq, sp.w_eq]
      have hle : (P ++ bitsBE 8 x.toNat).length ≤ obs * w := by simp; omega
      have hne : (P ++ bitsBE 8 x.toNat).length ≠ obs * w := by
        intro he
        apply hfull
        rw [spos] at he hle
        have h1 : e2.bytePos ≤ obs := by
          apply Nat.le_of_mul_le_mul_right (c := w) _ hw
          exact Nat.le_trans (Nat.le_add_right _ _) hle
        rcases Nat.lt_or_ge e2.bytePos obs with h2 | h2
        · exfalso
          have := Nat.mul_le_mul_right w h2
          rw [Nat.succ_mul] at this
          omega
        · omega
      omega
    · simp; omega
    · intro h; have := congrArg List.length h; simp at this
    · intro _; exact ⟨by rw [sp.w_eq, sp.len]; exact sflat, by rw [sp.w_eq]; exact ssmall,
        by rw [sp.w_eq]; exact spos, by rw [sp.w_eq]; exact sbit⟩

/-- What a run over some bytes outputs: whole blocks of symbols, leaving `P'` pending. -/
theorem Enc.putBytes_spec (bs : List Byte) (e : Enc) (P : List Bool) (a p w obs : _) (hp : e.Params a p w obs)
    (hw : 0 < w) (hw8 : w < 8) (hobs : obs * w % 8 = 0) (hobs0 : 0 < obs) (h : e.St P) :
    ∃ (m : Nat) (syms : List Byte) (P' : List Bool),
      (e.put2 bs false).1.Params a p w obs ∧ (e.put2 bs false).1.St P' ∧
      callBytes (e.put2 bs false).2 = syms.map (fun s => a s.toNat) ∧ syms.length = m * obs ∧
      (∀ s ∈ syms, s.toNat < 2 ^ w) ∧ flatW w syms ++ P' = P ++ bytesToBits bs ∧
      (∀ c ∈ (e.put2 bs false).2, c.2 = false) := by
  have gen : ∀ (bs : List Byte) (e : Enc) (P : List Bool) (acc : List Call), e.Params a p w obs → e.St P →
      ∃ (m : Nat) (syms : List Byte) (P' : List Bool) (cs : List Call),
        (bs.foldl (fun (s : Enc × List Call) x => let t := s.1.putByte x; (t.1, s.2 ++ t.2)) (e, acc)).1.Params a p w obs ∧
        (bs.foldl (fun (s : Enc × List Call) x => let t := s.1.putByte x; (t.1, s.2 ++ t.2)) (e, acc)).1.St P' ∧
        (bs.foldl (fun (s : Enc × List Call) x => let t := s.1.putByte x; (t.1, s.2 ++ t.2)) (e, acc)).2 = acc ++ cs ∧
        callBytes cs = syms.map (fun s => a s.toNat) ∧ syms.length = m * obs ∧
        (∀ s ∈ syms, s.toNat < 2 ^ w) ∧ flatW w syms ++ P' = P ++ bytesToBits bs ∧ (∀ c ∈ cs, c.2 = false) := by
    intro bs
    induction bs with
    | nil => intro e P acc hp h; exact ⟨0, [], P, [], hp, h, by simp, by simp [callBytes], by simp, by simp, by simp [flatW, bytesToBits], by simp⟩
    | cons x bs ih =>
      intro e P acc hp h
      obtain ⟨hp1, hor⟩ := putByte_spec e P x a p w obs hp hw hw8 hobs hobs0 h
      rw [List.foldl_cons]
      rcases hor with ⟨h1, h2⟩ | ⟨sy, h1, h2, h3, h4, h5⟩
      · obtain ⟨m, syms, P', cs, i1, i2, i3, i4, i5, i6, i7, i8⟩ := ih _ _ (acc ++ (e.putByte x).2) hp1 h2
        refine ⟨m, syms, P', cs, i1, i2, ?_, i4, i5, i6, ?_, i8⟩
        · rw [i3, h1]; simp
        · rw [i7, bytesToBits_cons]; simp
      · obtain ⟨m, syms, P', cs, i1, i2, i3, i4, i5, i6, i7, i8⟩ := ih _ _ (acc ++ (e.putByte x).2) hp1 h5
        refine ⟨m + 1, sy ++ syms, P', (sy.map (fun s => a s.toNat), false) :: cs, i1, i2, ?_, ?_, ?_, ?_, ?_, ?_⟩
        · rw [i3, h1]; simp
        · simp only [callBytes, List.flatMap_cons, List.map_append] at *; rw [i4]
        · simp [i5, h2, Nat.succ_mul]; omega
        · intro s hs; rcases List.mem_append.1 hs with hs | hs
          · exact h3 s hs
          · exact i6 s hs
        · rw [flatW_append, List.append_assoc, i7, h4, bytesToBits_cons]; simp
        · intro c hc; rcases List.mem_cons.1 hc with rfl | hc
          · rfl
          · exact i8 c hc
  obtain ⟨m, syms, P', cs, i1, i2, i3, i4, i5, i6, i7, i8⟩ := gen bs e P [] hp h
  simp only [List.nil_append] at i3
  have hput : e.put2 bs false =
      bs.foldl (fun (s : Enc × List Call) x => let t := s.1.putByte x; (t.1, s.2 ++ t.2)) (e, []) := rfl
  refine ⟨m, syms, P', i1, i2, ?_, i5, i6, i7, ?_⟩
  · rw [hput, i3, i4]
  · rw [hput, i3]; exact i8

theorem Enc.finish_spec (e : Enc) (P : List Bool) (a p w obs : _) (hp : e.Params a p w obs)
    (hw : 0 < w) (hobs0 : 0 < obs) (h : e.St P) :
    e.finish.1.Params a p w obs ∧ e.finish.1.St [] ∧
    ∃ n, n * w < P.length + w ∧ P.length ≤ n * w ∧ n ≤ obs ∧
      e.finish.2 = [((chunk w P).map (fun g => a (symbolOf w g)) ++
        (match p with
         | none => []
         | some c => if n = 0 then [] else List.replicate (obs - n) c), true)] ∧ (chunk w P).length = n := by
  obtain ⟨ha, hpad, hwe, hobse, hlen⟩ := hp
  obtain ⟨hlt, hdvd, hnil, hholds⟩ := h
  rw [hwe, hobse] at hlt
  by_cases hP : P = []
  · obtain ⟨h1, h2⟩ := hnil hP
    subst hP
    have hfin : e.finish = ({ e with outBuf := e.translate, bytePos := 0, bitPos := 0 }, [([], true)]) := by
      clear hnil hholds hlt hdvd
      obtain ⟨al, pd, bp, ob, buf, by_, bi⟩ := e
      simp only at h1 h2
      subst h1 h2
      unfold finish
      cases pd <;> simp [translate]
    rw [hfin]
    refine ⟨⟨ha, hpad, hwe, hobse, ?_⟩, ⟨?_, rfl, fun _ => ⟨rfl, rfl⟩, fun h => absurd rfl h⟩, 0, by simpa using hw, by simp, by omega, ?_, by simp [chunk_nil]⟩
    · simp [translate, h1, hlen]
    · simp only [hobse, hwe]; exact Nat.mul_pos hobs0 hw
    · cases p <;> simp [chunk_nil]
  · obtain ⟨hflat, hsmall, hpos, hbit⟩ := hholds hP
    rw [hwe] at hflat hsmall hpos hbit
    rw [hlen] at hflat
    have hPl : P.length ≠ 0 := fun h => hP (List.eq_nil_of_length_eq_zero h)
    -- the number of symbols
    have hn : ∃ n, (if e.bitPos > 0 then e.bytePos + 1 else e.bytePos) = n ∧ n * w < P.length + w ∧ P.length ≤ n * w ∧ n ≤ obs ∧ n ≠ 0 := by
      refine ⟨_, rfl, ?_⟩
      split
      · have : (e.bytePos + 1) * w < P.length + w := by rw [Nat.succ_mul]; omega
        refine ⟨this, by rw [Nat.succ_mul]; omega, ?_, by omega⟩
        rcases Nat.lt_or_ge obs (e.bytePos + 1) with hc | hc
        · exfalso
          have h3 : obs ≤ e.bytePos := by omega
          have := Nat.mul_le_mul_right w h3
          omega
        · exact hc
      · have h0 : e.bitPos = 0 := by omega
        rw [h0] at hpos
        refine ⟨by omega, by omega, ?_, ?_⟩
        · apply Nat.le_of_mul_le_mul_right (c := w) _ hw; omega
        · intro h; rw [h] at hpos; omega
    obtain ⟨n, hn0, hn1, hn2, hn3, hn4⟩ := hn
    have hsyms : (chunk w P).map (fun g => a (symbolOf w g)) = (e.outBuf.take n).map (fun s => a s.toNat) := by
      have h1 : flatW w (e.outBuf.take n) = P ++ List.replicate (n * w - P.length) false := by
        have hle : n * w ≤ obs * w := Nat.mul_le_mul_right w hn3
        rw [flatW_take, hflat, List.take_append, List.take_of_length_le hn2, List.take_replicate]
        congr 2; omega
      have h2 := chunk_fill w hw n P hn2 hn1
      rw [← h1, chunk_flatW w hw _ (fun s hs => hsmall s (List.mem_of_mem_take hs))] at h2
      have h3 := congrArg (List.map a) h2
      simpa [List.map_map, Function.comp_def] using h3.symm
    have hcount : (chunk w P).length = n := by
      have := congrArg List.length hsyms
      simp [hlen] at this; omega
    have e1 : (if e.bitPos > 0 then ({ e with bytePos := e.bytePos + 1 } : Enc) else e) = { e with bytePos := n } := by
      rw [← hn0]; split <;> rfl
    have htr : ({ e with bytePos := n } : Enc).translate = (e.outBuf.take n).map (fun s => a s.toNat) ++ e.outBuf.drop n := by
      simp [translate, ha]
    have htl : ((e.outBuf.take n).map (fun s => a s.toNat)).length = n := by simp [hlen]; omega
    unfold finish
    simp only [e1, htr]
    rw [hsyms]
    cases hpd : e.padding with
    | none =>
      have hpp : p = none := by rw [← hpad, hpd]
      subst hpp
      simp only
      refine ⟨⟨ha, rfl, hwe, hobse, ?_⟩, ⟨?_, rfl, fun _ => ⟨rfl, rfl⟩, fun h => absurd rfl h⟩, n, hn1, hn2, hn3, ?_, hcount⟩
      · simp [hlen]; omega
      · simp only [hobse, hwe]; exact Nat.mul_pos hobs0 hw
      · rw [List.take_left' htl]; simp
    | some c =>
      have hpp : p = some c := by rw [← hpad, hpd]
      subst hpp
      have hpos0 : n > 0 := by omega
      simp only [if_pos hpos0]
      refine ⟨⟨ha, rfl, hwe, hobse, ?_⟩, ⟨?_, rfl, fun _ => ⟨rfl, rfl⟩, fun h => absurd rfl h⟩, n, hn1, hn2, hn3, ?_, hcount⟩
      · simp [hlen, hobse]; omega
      · simp only [hobse, hwe]; exact Nat.mul_pos hobs0 hw
      · rw [List.take_left' htl, hobse, List.take_of_length_le (by simp [hlen]; omega), if_neg hn4]


/-! ### Feeding in pieces -/

theorem Enc.put2_append (e : Enc) (x y : List Byte) (me : Bool) :
    e.put2 (x ++ y) me = (((e.put2 x false).1.put2 y me).1, (e.put2 x false).2 ++ ((e.put2 x false).1.put2 y me).2) := by
  have gen : ∀ (y : List Byte) (e : Enc) (acc : List Call),
      y.foldl (fun (s : Enc × List Call) x => let t := s.1.putByte x; (t.1, s.2 ++ t.2)) (e, acc) =
      ((y.foldl (fun (s : Enc × List Call) x => let t := s.1.putByte x; (t.1, s.2 ++ t.2)) (e, [])).1,
       acc ++ (y.foldl (fun (s : Enc × List Call) x => let t := s.1.putByte x; (t.1, s.2 ++ t.2)) (e, [])).2) := by
    intro y
    induction y with
    | nil => intro e acc; simp
    | cons b y ih =>
      intro e acc
      rw [List.foldl_cons, List.foldl_cons, ih, ih _ ([] ++ _)]
      simp
  unfold put2
  rw [List.foldl_append]
  generalize hx : x.foldl (fun (s : Enc × List Call) x => let t := s.1.putByte x; (t.1, s.2 ++ t.2)) (e, []) = X
  obtain ⟨e1, acc⟩ := X
  have hg := gen y e1 acc
  generalize y.foldl (fun (s : Enc × List Call) x => let t := s.1.putByte x; (t.1, s.2 ++ t.2)) (e1, acc) = Y at hg ⊢
  subst hg
  cases me <;> simp

theorem Enc.feed_eq (e : Enc) (cs : List (List Byte)) : e.feed cs = e.put2 cs.flatten true := by
  match cs with
  | [] => rfl
  | [c] => simp [feed]
  | c :: d :: cs =>
    show (let r := e.put2 c false; let s := feed r.1 (d :: cs); (s.1, r.2 ++ s.2)) = _
    simp only [Enc.feed_eq _ (d :: cs)]
    rw [List.flatten_cons (l := c), Enc.put2_append e c]

theorem Dec.put2_append (e : Dec) (x y : List Byte) (me : Bool) :
    e.put2 (x ++ y) me = (((e.put2 x false).1.put2 y me).1, (e.put2 x false).2 ++ ((e.put2 x false).1.put2 y me).2) := by
  have gen : ∀ (y : List Byte) (e : Dec) (acc : List Call),
      y.foldl (fun (s : Dec × List Call) x => let t := s.1.putByte x; (t.1, s.2 ++ t.2)) (e, acc) =
      ((y.foldl (fun (s : Dec × List Call) x => let t := s.1.putByte x; (t.1, s.2 ++ t.2)) (e, [])).1,
       acc ++ (y.foldl (fun (s : Dec × List Call) x => let t := s.1.putByte x; (t.1, s.2 ++ t.2)) (e, [])).2) := by
    intro y
    induction y with
    | nil => intro e acc; simp
    | cons b y ih =>
      intro e acc
      rw [List.foldl_cons, List.foldl_cons, ih, ih _ ([] ++ _)]
      simp
  unfold put2
  rw [List.foldl_append]
  generalize hx : x.foldl (fun (s : Dec × List Call) x => let t := s.1.putByte x; (t.1, s.2 ++ t.2)) (e, []) = X
  obtain ⟨e1, acc⟩ := X
  have hg := gen y e1 acc
  generalize y.foldl (fun (s : Dec × List Call) x => let t := s.1.putByte x; (t.1, s.2 ++ t.2)) (e1, acc) = Y at hg ⊢
  subst hg
  cases me <;> simp

theorem Dec.feed_eq (e : Dec) (cs : List (List Byte)) : e.feed cs = e.put2 cs.flatten true := by
  match cs with
  | [] => rfl
  | [c] => simp [feed]
  | c :: d :: cs =>
    show (let r := e.put2 c false; let s := feed r.1 (d :: cs); (s.1, r.2 ++ s.2)) = _
    simp only [Dec.feed_eq _ (d :: cs)]
    rw [List.flatten_cons (l := c), Dec.put2_append e c]

theorem callBytes_append (a b : List Call) : callBytes (a ++ b) = callBytes a ++ callBytes b := by simp [callBytes]

theorem Enc.message_spec (e : Enc) (a p w : _) (hw : 0 < w) (hw8 : w < 8) (hp : e.Params a p w (blockChars w))
    (h : e.St []) (msg : List Byte) :
    callBytes (e.put2 msg true).2 = encodeSpec a w p msg ∧
    (e.put2 msg true).1.Params a p w (blockChars w) ∧ (e.put2 msg true).1.St [] := by
  obtain ⟨hb0, hb8⟩ := blockChars_spec w hw hw8
  obtain ⟨m, syms, P', h1, h2, h3, h4, h5, h6, h7⟩ := putBytes_spec msg e [] a p w _ hp hw hw8 hb8 hb0 h
  obtain ⟨f1, f2, n, f3, f4, f5, f6, f7⟩ := finish_spec _ P' a p w _ h1 hw hb0 h2
  have hput : e.put2 msg true = ((e.put2 msg false).1.finish.1, (e.put2 msg false).2 ++ (e.put2 msg false).1.finish.2) := rfl
  rw [hput]
  refine ⟨?_, f1, f2⟩
  simp only
  rw [callBytes_append, h3, f6]
  have hsy : symbols w msg = syms.map (·.toNat) ++ (chunk w P').map (symbolOf w) := by
    unfold symbols
    rw [← List.nil_append (bytesToBits msg), ← h6, chunk_append hw (m * blockChars w) _ _ (by rw [flatW_length, h4]),
      List.map_append, chunk_flatW w hw _ h5]
  have hsl : (symbols w msg).length = m * blockChars w + n := by rw [hsy]; simp [h4, f7]
  unfold encodeSpec
  simp only [hsl]
  rw [hsy]
  simp only [List.map_append, List.map_map, callBytes, List.flatMap_cons, List.flatMap_nil, List.append_nil,
    List.append_assoc, Function.comp_def]
  congr 2
  have hmod : (m * blockChars w + n) % blockChars w = n % blockChars w := by
    rw [Nat.add_comm, Nat.add_mul_mod_self_right]
  cases p with
  | none => rfl
  | some c =>
    simp only [hmod]
    by_cases hn : n = 0
    · subst hn; simp
    · rw [if_neg hn]
      congr 1
      rcases Nat.lt_or_ge n (blockChars w) with hlt | hge
      · rw [Nat.mod_eq_of_lt hlt, Nat.mod_eq_of_lt (by omega)]
      · have : n = blockChars w := by omega
        rw [this]; simp

/-! ### The decoder -/

structure Dec.Params (d : Dec) (lk : Byte → Int) (w obs : Nat) : Prop where
  lookup_eq : d.lookup = lk
  w_eq : d.bitsPerChar = w
  obs_eq : d.outputBlockSize = obs
  len : d.outBuf.length = obs

structure Dec.Holds (d : Dec) (P : List Bool) : Prop where
  flat : flatW 8 d.outBuf = P ++ List.replicate (d.outBuf.length * 8 - P.length) false
  pos : P.length = d.bytePos * 8 + d.bitPos
  bit : d.bitPos < 8

structure Dec.St (d : Dec) (P : List Bool) : Prop where
  lt : P.length < d.outputBlockSize * 8
  dvd : P.length % d.bitsPerChar = 0
  nil : P = [] → d.bytePos = 0 ∧ d.bitPos = 0
  holds : P ≠ [] → d.Holds P

theorem Dec.write_spec (buf : List Byte) (P : List Bool) (i q w v : Nat) (hw : 0 < w) (hw8 : w < 8) (hv : v < 2 ^ w)
    (hflat : flatW 8 buf = P ++ List.replicate (buf.length * 8 - P.length) false)
    (hpos : P.length = i * 8 + q) (hq : q < 8) (hroom : P.length + w ≤ buf.length * 8) :
    flatW 8 (if q + w ≤ 8 then buf.set i (buf.getD i 0 ||| BitVec.ofNat 8 (v <<< (8 - (q + w))))
      else (buf.set i (buf.getD i 0 ||| BitVec.ofNat 8 (v >>> (q + w - 8)))).set (i + 1)
        ((buf.set i (buf.getD i 0 ||| BitVec.ofNat 8 (v >>> (q + w - 8)))).getD (i + 1) 0 |||
          BitVec.ofNat 8 (v <<< (16 - (q + w))))) =
    P ++ bitsBE w v ++ List.replicate (buf.length * 8 - (P ++ bitsBE w v).length) false := by
  have hi : i < buf.length := by omega
  have hwide : ∀ k, bitsBE (k + w) v = List.replicate k false ++ bitsBE w v := fun k => bitsBE_widen w k v hv
  split
  · rename_i hle
    have hb : bitsBE 8 (BitVec.ofNat 8 (v <<< (8 - (q + w)))).toNat =
        List.replicate q false ++ (bitsBE w v ++ List.replicate (8 - (q + w)) false) := by
      rw [BitVec.toNat_ofNat, bitsBE_mod, bitsBE_shiftLeft _ _ _ (by omega)]
      have := hwide (8 - w)
      rw [show 8 - w + w = 8 by omega] at this
      rw [this, List.drop_append_of_le_length (by simp; omega), List.drop_replicate, List.append_assoc]
      congr 2; omega
    rw [or_cell 8 buf P _ i q _ hi hpos hq hflat hb]
    simp only [List.append_assoc, List.replicate_append_replicate]
    congr 3
    simp; omega
  · rename_i hgt
    have hb : bitsBE 8 (BitVec.ofNat 8 (v >>> (q + w - 8))).toNat =
        List.replicate q false ++ (bitsBE w v).take (8 - q) := by
      rw [BitVec.toNat_ofNat, bitsBE_mod, bitsBE_shiftRight, show 8 + (q + w - 8) = q + w by omega, hwide q,
        List.take_append, List.take_of_length_le (by simp; omega)]
      simp
    have h1 := or_cell 8 buf P _ i q _ hi hpos hq hflat hb
    have hb2 : bitsBE 8 (BitVec.ofNat 8 (v <<< (16 - (q + w)))).toNat =
        List.replicate 0 false ++ ((bitsBE w v).drop (8 - q) ++ List.replicate (16 - (q + w)) false) := by
      rw [BitVec.toNat_ofNat, bitsBE_mod, bitsBE_shiftLeft _ _ _ (by omega)]
      have := hwide (8 - w)
      rw [show 8 - w + w = 8 by omega] at this
      rw [this, List.drop_append, List.drop_of_length_le (by simp; omega)]
      rw [List.length_replicate, show 16 - (q + w) - (8 - w) = 8 - q by omega]
      simp
    have hPl : (P ++ (bitsBE w v).take (8 - q)).length = (i + 1) * 8 + 0 := by simp; omega
    have h2 := or_cell 8 (buf.set i (buf.getD i 0 ||| BitVec.ofNat 8 (v >>> (q + w - 8))))
      (P ++ (bitsBE w v).take (8 - q)) _ (i + 1) 0 _ (by simp; omega) hPl (by omega)
      (by rw [h1]; congr 2; rw [hPl]; simp; omega) hb2
    rw [h2]
    simp only [List.append_assoc, List.replicate_append_replicate]
    rw [← List.append_assoc (List.take _ _), List.take_append_drop]
    congr 3
    simp; omega

theorem Dec.putByte_spec (d : Dec) (P : List Bool) (c : Byte) (lk w obs) (hp : d.Params lk w obs)
    (hw : 0 < w) (hw8 : w < 8) (hobs : obs * 8 % w = 0) (hobs0 : 0 < obs) (h : d.St P)
    (hlk : ∀ c, -1 ≤ lk c ∧ lk c < 2 ^ w) :
    (d.putByte c).1.Params lk w obs ∧
    ((d.putByte c).2 = [] ∧ (d.putByte c).1.St (P ++ decodeBits (symbolValue lk) w [c]) ∨
     ∃ out : List Byte, (d.putByte c).2 = [(out, false)] ∧
       bytesToBits out = P ++ decodeBits (symbolValue lk) w [c] ∧ (d.putByte c).1.St []) := by
  obtain ⟨hl1, hwe, hobse, hlen⟩ := hp
  obtain ⟨hlt, hdvd, hnil, hholds⟩ := h
  rw [hwe] at hdvd
  rw [hobse] at hlt
  have hpow : (2 : Int) ^ w ≤ 2 ^ 7 := by
    have h : (2 : Nat) ^ w ≤ 2 ^ 7 := Nat.pow_le_pow_right (by omega) (by omega)
    exact_mod_cast h
  obtain ⟨hr1, hr2⟩ := hlk c
  by_cases hneg : lk c < 0
  · have hval : d.value c ≥ 256 := by
      unfold value; rw [hl1]
      have : lk c = -1 := by omega
      rw [this]; decide
    have hput : d.putByte c = (d, []) := by unfold putByte; simp only; rw [if_pos hval]
    have hdec : decodeBits (symbolValue lk) w [c] = [] := by
      have : ¬ (0 ≤ lk c) := by omega
      simp [decodeBits, symbolValue, this]
    rw [hput, hdec]
    refine ⟨⟨hl1, hwe, hobse, hlen⟩, Or.inl ⟨rfl, ?_⟩⟩
    rw [List.append_nil]
    exact ⟨by rw [hobse]; exact hlt, by rw [hwe]; exact hdvd, hnil, hholds⟩
  · have hval : d.value c = (lk c).toNat := by
      unfold value; rw [hl1, Int.emod_eq_of_lt (by omega) (by omega)]
    have hv : (lk c).toNat < 2 ^ w := by
      have : ((lk c).toNat : Int) < ((2 ^ w : Nat) : Int) := by
        rw [Int.toNat_of_nonneg (by omega)]; exact_mod_cast hr2
      exact_mod_cast this
    have hv256 : ¬ (lk c).toNat ≥ 256 := by
      have : (2 : Nat) ^ w ≤ 2 ^ 7 := Nat.pow_le_pow_right (by omega) (by omega)
      omega
    have hdec : decodeBits (symbolValue lk) w [c] = bitsBE w (lk c).toNat := by
      have : 0 ≤ lk c := by omega
      simp [decodeBits, symbolValue, this]
    rw [hdec]
    have hreset : ∀ e' : Dec, e' = (if d.bytePos = 0 ∧ d.bitPos = 0 then { d with outBuf := List.replicate d.outputBlockSize 0 } else d) →
        e'.Params lk w obs ∧ e'.Holds P := by
      intro e' he'
      by_cases hP : P = []
      · obtain ⟨h1, h2⟩ := hnil hP
        rw [if_pos ⟨h1, h2⟩] at he'
        subst he'; subst hP
        refine ⟨⟨hl1, hwe, hobse, by simp [hobse]⟩, ⟨?_, ?_, ?_⟩⟩
        · exact (flatW_replicate _ _).trans (by simp)
        · simp [h1, h2]
        · simp [h2]
      · have hh := hholds hP
        have hpos := hh.pos
        have hne : P.length ≠ 0 := fun h => hP (List.eq_nil_of_length_eq_zero h)
        rw [if_neg (by omega)] at he'
        subst he'
        exact ⟨⟨hl1, hwe, hobse, hlen⟩, hh⟩
    obtain ⟨rp, rh⟩ := hreset _ rfl
    have hroom : P.length + w ≤ obs * 8 := by
      have h1 := Nat.div_add_mod P.length w
      have h2 := Nat.div_add_mod (obs * 8) w
      rw [hdvd] at h1; rw [hobs] at h2
      have h3 : P.length / w < obs * 8 / w := by
        apply Nat.lt_of_mul_lt_mul_left (a := w); omega
      have h4 := Nat.mul_le_mul_left w h3
      rw [Nat.mul_succ] at h4; omega
    unfold putByte
    simp only [hval]
    rw [if_neg hv256]
    revert rp rh
    generalize (if d.bytePos = 0 ∧ d.bitPos = 0 then { d with outBuf := List.replicate d.outputBlockSize 0 } else d) = d1
    intro rp rh
    have hwr := write_spec d1.outBuf P d1.bytePos d1.bitPos w (lk c).toNat hw hw8 hv rh.flat rh.pos rh.bit
      (by rw [rp.len]; exact hroom)
    have hpos := rh.pos
    have hbit := rh.bit
    have hbl : (d1.write (lk c).toNat).length = obs := by
      unfold write; simp only; split <;> simp [rp.len]
    have hwr' : flatW 8 (d1.write (lk c).toNat) = P ++ bitsBE w (lk c).toNat ++ List.replicate (d1.outBuf.length * 8 - (P ++ bitsBE w (lk c).toNat).length) false := by
      rw [← hwr]; unfold write; simp only [rp.w_eq]
    clear hwr
    rename _ => hwr
    revert hwr hbl
    generalize d1.write (lk c).toNat = buf
    intro hbl hwr
    rw [rp.len] at hwr
    have hPl : (P ++ bitsBE w (lk c).toNat).length = P.length + w := by simp
    simp only [advance, rp.w_eq, rp.obs_eq]
    split
    · rename_i hfull
      have hPf : (P ++ bitsBE w (lk c).toNat).length = obs * 8 := by omega
      refine ⟨⟨rp.lookup_eq, rfl, rfl, hbl⟩, Or.inr ⟨buf, ?_, ?_, ?_⟩⟩
      · rw [List.take_of_length_le (by omega)]
      · show flatW 8 buf = _
        rw [hwr, hPf]; simp
      · exact ⟨by simp only [List.length_nil]; omega, Nat.zero_mod _, fun _ => ⟨rfl, rfl⟩, fun h => absurd rfl h⟩
    · rename_i hfull
      refine ⟨⟨rp.lookup_eq, rfl, rfl, hbl⟩, Or.inl ⟨rfl, ⟨?_, ?_, ?_, ?_⟩⟩⟩
      · simp only; omega
      · simp only [hPl]; rw [Nat.add_mod_right]; exact hdvd
      · intro h; have := congrArg List.length h; simp at this; omega
      · intro _; exact ⟨by simp only [hbl]; exact hwr, by simp only [hPl]; omega, by simp only; omega⟩

theorem decodeBits_append (v : Byte → Option Nat) (w : Nat) (a b : List Byte) :
    decodeBits v w (a ++ b) = decodeBits v w a ++ decodeBits v w b := by simp [decodeBits]

theorem Dec.putBytes_spec (bs : List Byte) (d : Dec) (P : List Bool) (lk w obs) (hp : d.Params lk w obs)
    (hw : 0 < w) (hw8 : w < 8) (hobs : obs * 8 % w = 0) (hobs0 : 0 < obs) (h : d.St P)
    (hlk : ∀ c, -1 ≤ lk c ∧ lk c < 2 ^ w) :
    ∃ (out : List Byte) (P' : List Bool),
      (d.put2 bs false).1.Params lk w obs ∧ (d.put2 bs false).1.St P' ∧
      callBytes (d.put2 bs false).2 = out ∧ bytesToBits out ++ P' = P ++ decodeBits (symbolValue lk) w bs := by
  have gen : ∀ (bs : List Byte) (d : Dec) (P : List Bool) (acc : List Call), d.Params lk w obs → d.St P →
      ∃ (P' : List Bool) (cs : List Call),
        (bs.foldl (fun (s : Dec × List Call) x => let t := s.1.putByte x; (t.1, s.2 ++ t.2)) (d, acc)).1.Params lk w obs ∧
        (bs.foldl (fun (s : Dec × List Call) x => let t := s.1.putByte x; (t.1, s.2 ++ t.2)) (d, acc)).1.St P' ∧
        (bs.foldl (fun (s : Dec × List Call) x => let t := s.1.putByte x; (t.1, s.2 ++ t.2)) (d, acc)).2 = acc ++ cs ∧
        bytesToBits (callBytes cs) ++ P' = P ++ decodeBits (symbolValue lk) w bs := by
    intro bs
    induction bs with
    | nil => intro d P acc hp h; exact ⟨P, [], hp, h, by simp, by simp [callBytes, bytesToBits, decodeBits]⟩
    | cons x bs ih =>
      intro d P acc hp h
      obtain ⟨hp1, hor⟩ := putByte_spec d P x lk w obs hp hw hw8 hobs hobs0 h hlk
      rw [List.foldl_cons]
      have hcons : decodeBits (symbolValue lk) w (x :: bs) = decodeBits (symbolValue lk) w [x] ++ decodeBits (symbolValue lk) w bs := by
        rw [← decodeBits_append]; rfl
      rcases hor with ⟨h1, h2⟩ | ⟨sy, h1, h4, h5⟩
      · obtain ⟨P', cs, i1, i2, i3, i4⟩ := ih _ _ (acc ++ (d.putByte x).2) hp1 h2
        refine ⟨P', cs, i1, i2, ?_, ?_⟩
        · rw [i3, h1]; simp
        · rw [i4, hcons]; simp
      · obtain ⟨P', cs, i1, i2, i3, i4⟩ := ih _ _ (acc ++ (d.putByte x).2) hp1 h5
        refine ⟨P', (sy, false) :: cs, i1, i2, ?_, ?_⟩
        · rw [i3, h1]; simp
        · have : callBytes ((sy, false) :: cs) = sy ++ callBytes cs := by simp [callBytes]
          rw [this, bytesToBits_append, List.append_assoc, i4, h4, hcons]; simp
  obtain ⟨P', cs, i1, i2, i3, i4⟩ := gen bs d P [] hp h
  simp only [List.nil_append] at i3
  have hput : d.put2 bs false =
      bs.foldl (fun (s : Dec × List Call) x => let t := s.1.putByte x; (t.1, s.2 ++ t.2)) (d, []) := rfl
  exact ⟨callBytes cs, P', i1, i2, by rw [hput, i3], i4⟩

theorem bytesOfBits_append (bs : List Byte) (R : List Bool) (hR : R.length < 8) :
    bytesOfBits (bytesToBits bs ++ R) = bs := by
  induction bs with
  | nil =>
    unfold bytesOfBits
    by_cases h : R = []
    · subst h; simp [bytesToBits, chunk_nil]
    · have h0 : R.drop 8 = [] := List.drop_of_length_le (by omega)
      have : (bytesToBits [] ++ R) = R := rfl
      rw [this, chunk_cons (by omega) h, h0, chunk_nil, List.take_of_length_le (by omega)]
      have : ¬ R.length = 8 := by omega
      simp [this]
  | cons b bs ih =>
    unfold bytesOfBits at *
    rw [bytesToBits_cons, List.append_assoc, chunk_cons (by omega) (by
        intro h; have := congrArg List.length h; simp at this), List.take_left' (by simp), List.drop_left' (by simp)]
    simp only [List.filter_cons, bitsBE_length, beq_self_eq_true, if_true, List.map_cons, ih]
    congr 1
    rw [ofBits_bitsBE, Nat.mod_eq_of_lt b.isLt, BitVec.ofNat_toNat]; simp

theorem Dec.message_spec (d : Dec) (lk w obs) (hp : d.Params lk w obs)
    (hw : 0 < w) (hw8 : w < 8) (hobs : obs * 8 % w = 0) (hobs0 : 0 < obs) (h : d.St [])
    (hlk : ∀ c, -1 ≤ lk c ∧ lk c < 2 ^ w) (text : List Byte) :
    callBytes (d.put2 text true).2 = decodeSpec (symbolValue lk) w text ∧
    (d.put2 text true).1.Params lk w obs ∧ (d.put2 text true).1.St [] := by
  obtain ⟨out, P', h1, h2, h3, h4⟩ := putBytes_spec text d [] lk w obs hp hw hw8 hobs hobs0 h hlk
  have hput : d.put2 text true = ((d.put2 text false).1.finish.1, (d.put2 text false).2 ++ (d.put2 text false).1.finish.2) := rfl
  rw [hput]
  refine ⟨?_, ⟨h1.lookup_eq, h1.w_eq, h1.obs_eq, h1.len⟩, ⟨?_, Nat.zero_mod _, fun _ => ⟨rfl, rfl⟩, fun h => absurd rfl h⟩⟩
  · rw [callBytes_append, h3]
    unfold decodeSpec
    rw [← List.nil_append (decodeBits _ _ _), ← h4]
    have : ∃ R : List Bool, R.length < 8 ∧ P' = bytesToBits ((d.put2 text false).1.outBuf.take (d.put2 text false).1.bytePos) ++ R := by
      by_cases hP : P' = []
      · have := h2.nil hP
        exact ⟨[], by simp, by rw [hP, this.1]; simp [bytesToBits]⟩
      · have hh := h2.holds hP
        have hpos := hh.pos
        have hbit := hh.bit
        refine ⟨P'.drop ((d.put2 text false).1.bytePos * 8), by simp; omega, ?_⟩
        have : bytesToBits ((d.put2 text false).1.outBuf.take (d.put2 text false).1.bytePos) = flatW 8 ((d.put2 text false).1.outBuf.take (d.put2 text false).1.bytePos) := rfl
        rw [this, flatW_take, hh.flat, List.take_append_of_le_length (by omega), List.take_append_drop]
    obtain ⟨R, hR, hP'⟩ := this
    rw [hP', ← List.append_assoc, ← bytesToBits_append, bytesOfBits_append _ _ hR]
    simp [callBytes, finish]
  · simp only [finish, List.length_nil]; rw [h1.obs_eq]; omega

end Verif.BaseN
