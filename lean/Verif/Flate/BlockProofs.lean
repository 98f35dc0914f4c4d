import Verif.Flate.Deflator
import Verif.Flate.IoProofs
import Verif.Flate.HuffmanProofs
import Verif.Flate.LengthsProofs
import Verif.Flate.Format

/-!
# `EncodeBlock` writes a block of the format
-/
namespace Verif.Flate

/-! ## Writing bits -/

/-- `w'` is `w` after writing `β`; in counting mode nothing is written. -/
def Wrote (w w' : Writer) (β : List Bool) : Prop :=
  (w.Ok → w'.Ok ∧ w'.str = w.str ++ β) ∧ (w.counting = true → w.Same w')

theorem Wrote.trans {w w' w'' : Writer} {β γ : List Bool} (h : Wrote w w' β) (h' : Wrote w' w'' γ) : Wrote w w'' (β ++ γ) := by
  refine ⟨fun hw => ?_, fun hc => ?_⟩
  · obtain ⟨a1, a2⟩ := h.1 hw
    obtain ⟨b1, b2⟩ := h'.1 a1
    exact ⟨b1, by rw [b2, a2, List.append_assoc]⟩
  · have a := h.2 hc
    have b := h'.2 (by rw [a.counting, hc])
    exact ⟨by rw [b.buf, a.buf], by rw [b.bits, a.bits], by rw [b.pend, a.pend], by rw [b.out, a.out], by rw [b.counting, a.counting]⟩

theorem Wrote.refl (w : Writer) : Wrote w w [] := ⟨fun hw => ⟨hw, by simp⟩, fun _ => ⟨rfl, rfl, rfl, rfl, rfl⟩⟩

theorem Wrote.put (w : Writer) {v n : Nat} (hn : n ≤ 24) (hv : v < 2 ^ n) : Wrote w (w.putBits v n) (Flate.bits n v) :=
  ⟨fun hw => putBits_spec hw hn hv, fun hc => putBits_counting hc v n⟩

/-- A code that the encoder can be set up for. -/
structure Usable (lens : List Nat) : Prop where
  max : ∀ l ∈ lens, l ≤ 15
  kraft : kraft 32 lens ≤ 2 ^ 32

theorem ValidCode.usable {M : Nat} {lens : List Nat} (hM : M ≤ 15) (h : ValidCode M lens) : Usable lens :=
  ⟨fun l hl => Nat.le_trans (h.1 l hl) hM, h.kraft_le (by omega)⟩

theorem encode_wrote {lens : List Nat} (hu : Usable lens) {v : Nat} (hv : lens.getD v 0 ≠ 0) (w : Writer) :
    ∃ w', encode (encoderInit lens) w v = .ok w' ∧ Wrote w w' (codeBits lens v) := by
  obtain ⟨c, h1, h2, h3⟩ := encoder_code (M := 15) (by decide) hu.max hu.kraft hv
  refine ⟨_, by rw [encode, h1], ?_⟩
  simp only []
  rw [← h3]
  have := hu.max _ (getD_mem hv)
  exact Wrote.put w (by omega) h2

/-! ## Tokens -/

/-- A token as an item of the format. -/
def Tok.item (t : Tok) : Item :=
  if 257 ≤ t.literalCode then .copy t.literalCode t.literalExtra t.distanceCode t.distanceExtra else .lit (BitVec.ofNat 8 t.literalCode)

/-- The fields are in range. -/
def Tok.Ok (t : Tok) : Prop :=
  t.literalCode < 256 ∨ (257 ≤ t.literalCode ∧ t.literalCode ≤ 285 ∧ t.literalExtra < 2 ^ lengthExtra.getD (t.literalCode - 257) 0 ∧
    (t.literalCode = 284 → t.literalExtra < 31) ∧ t.distanceCode < 30 ∧ t.distanceExtra < 2 ^ distExtra.getD t.distanceCode 0)

/-- Both codes have what the token needs. -/
def Tok.In (lit dist : List Nat) (t : Tok) : Prop :=
  lit.getD t.literalCode 0 ≠ 0 ∧ (257 ≤ t.literalCode → dist.getD t.distanceCode 0 ≠ 0)

theorem Tok.item_valid {lit dist : List Nat} {t : Tok} (h : t.Ok) (hi : t.In lit dist) : t.item.Valid lit dist := by
  rcases h with h | ⟨h1, h2, h3, h3', h4, h5⟩
  · rw [Tok.item, if_neg (by omega)]
    unfold Item.Valid
    simp only [BitVec.toNat_ofNat]
    rw [Nat.mod_eq_of_lt (by omega)]
    exact hi.1
  · rw [Tok.item, if_pos h1]
    exact ⟨h1, h2, hi.1, h3, h3', h4, hi.2 h1, h5⟩

theorem lengthExtra_le5 (i : Nat) : lengthExtra.getD i 0 ≤ 5 := by
  by_cases h : i < 29
  · have : ∀ j < 29, lengthExtra.getD j 0 ≤ 5 := by decide
    exact this i h
  · rw [List.getD_eq_getElem?_getD, List.getElem?_eq_none (by simp [lengthExtra]; omega)]; simp

theorem distExtra_le13 (i : Nat) : distExtra.getD i 0 ≤ 13 := by
  by_cases h : i < 30
  · have : ∀ j < 30, distExtra.getD j 0 ≤ 13 := by decide
    exact this i h
  · rw [List.getD_eq_getElem?_getD, List.getElem?_eq_none (by simp [distExtra]; omega)]; simp

theorem putToks_wrote {lit dist : List Nat} (hl : Usable lit) (hd : Usable dist) (ts : List Tok) : ∀ w : Writer, (∀ t ∈ ts, t.Ok) →
    (∀ t ∈ ts, t.In lit dist) →
    ∃ w', putToks (encoderInit lit) (encoderInit dist) ts w = .ok w' ∧ Wrote w w' ((ts.map Tok.item).flatMap (Item.bits lit dist)) := by
  induction ts with
  | nil => intro w _ _; exact ⟨w, rfl, Wrote.refl w⟩
  | cons t ts ih =>
    intro w hok hin
    have h1 := hok t List.mem_cons_self
    have h2 := hin t List.mem_cons_self
    obtain ⟨w1, e1, r1⟩ := encode_wrote hl h2.1 w
    rw [putToks, e1, List.map_cons, List.flatMap_cons]
    simp only [bind, Except.bind]
    rcases h1 with h | ⟨h3, h4, h5, -, h6, h7⟩
    · rw [if_neg (by omega)]
      obtain ⟨w', e', r'⟩ := ih w1 (fun t ht => hok t (List.mem_cons_of_mem _ ht)) (fun t ht => hin t (List.mem_cons_of_mem _ ht))
      refine ⟨w', e', ?_⟩
      have : Item.bits lit dist t.item = codeBits lit t.literalCode := by
        rw [Tok.item, if_neg (by omega), Item.bits, BitVec.toNat_ofNat, Nat.mod_eq_of_lt (by omega)]
      rw [this]
      exact r1.trans r'
    · rw [if_pos h3]
      have le1 := lengthExtra_le5 (t.literalCode - 257)
      have le2 := distExtra_le13 t.distanceCode
      have r2 := Wrote.put w1 (by omega) h5
      obtain ⟨w3, e3, r3⟩ := encode_wrote hd (h2.2 h3) (w1.putBits t.literalExtra (lengthExtra.getD (t.literalCode - 257) 0))
      rw [show lengthExtraBits = lengthExtra from rfl, show distanceExtraBits = distExtra from rfl, e3]
      simp only []
      have r4 := Wrote.put w3 (by omega) h7
      obtain ⟨w', e', r'⟩ := ih (w3.putBits t.distanceExtra (distExtra.getD t.distanceCode 0))
        (fun t ht => hok t (List.mem_cons_of_mem _ ht)) (fun t ht => hin t (List.mem_cons_of_mem _ ht))
      refine ⟨w', e', ?_⟩
      rw [Tok.item, if_pos h3, Item.bits]
      exact (((r1.trans r2).trans r3).trans r4).trans r'

theorem putBody_wrote {lit dist : List Nat} (hl : Usable lit) (hd : Usable dist) {ts : List Tok} (w : Writer) (hok : ∀ t ∈ ts, t.Ok)
    (hin : ∀ t ∈ ts, t.In lit dist) (heob : lit.getD 256 0 ≠ 0) :
    ∃ w', putBody (encoderInit lit) (encoderInit dist) ts w = .ok w' ∧ Wrote w w' (itemsBits lit dist (ts.map Tok.item)) := by
  obtain ⟨w1, e1, r1⟩ := putToks_wrote hl hd ts w hok hin
  obtain ⟨w2, e2, r2⟩ := encode_wrote hl heob w1
  refine ⟨w2, ?_, r1.trans r2⟩
  rw [putBody, e1]
  exact e2

/-! ## Trailing zeros -/

theorem getD_zeros (a : List Nat) (n s : Nat) : (a ++ List.replicate n 0).getD s 0 = a.getD s 0 := by
  simp only [List.getD_eq_getElem?_getD]
  by_cases h : s < a.length
  · rw [List.getElem?_append_left h]
  · rw [List.getElem?_append_right (by omega), List.getElem?_eq_none (l := a) (by omega)]
    by_cases h' : s - a.length < n
    · rw [List.getElem?_replicate, if_pos h']; rfl
    · rw [List.getElem?_eq_none (by simp; omega)]

theorem count_zeros (a : List Nat) (n : Nat) {v : Nat} (hv : v ≠ 0) : (a ++ List.replicate n 0).count v = a.count v := by
  rw [List.count_append, List.count_replicate]
  have : (0 == v) = false := by simp; omega
  simp [this]

theorem firstCode_zeros (a : List Nat) (n : Nat) : ∀ l, firstCode (a ++ List.replicate n 0) l = firstCode a l
  | 0 => rfl
  | 1 => rfl
  | l + 2 => by rw [firstCode, firstCode, firstCode_zeros a n (l + 1), count_zeros _ _ (by omega)]

theorem codeBits_zeros (a : List Nat) (n s : Nat) : codeBits (a ++ List.replicate n 0) s = codeBits a s := by
  rw [codeBits, codeBits, getD_zeros]
  by_cases h : a.getD s 0 = 0
  · rw [h]; rfl
  · rw [codeNum, codeNum, getD_zeros, firstCode_zeros]
    have hs : s < a.length := by
      by_contra hc
      exact h (by rw [List.getD_eq_getElem?_getD, List.getElem?_eq_none (by omega)]; rfl)
    rw [List.take_append_of_le_length (by omega)]

theorem kraft_zeros (M : Nat) (a : List Nat) (n : Nat) : kraft M (a ++ List.replicate n 0) = kraft M a := by
  rw [kraft, kraft, List.map_append, List.sum_append]
  simp

theorem validCode_zeros {M : Nat} {a : List Nat} {n : Nat} (h : ValidCode M (a ++ List.replicate n 0)) : ValidCode M a := by
  refine ⟨fun l hl => h.1 l (List.mem_append_left _ hl), ?_⟩
  rcases h.2 with h1 | ⟨h1, h2⟩
  · exact Or.inl (by rw [← kraft_zeros M a n]; exact h1)
  · exact Or.inr ⟨fun l hl => h1 l (List.mem_append_left _ hl), by rw [← count_zeros a n (by decide)]; exact h2⟩

theorem usedLen_le (l : List Nat) : usedLen l ≤ l.length := by
  rw [usedLen]
  have := (List.dropWhile_suffix (p := (· == 0)) (l := l.reverse)).length_le
  simpa using this

theorem usedLen_split (l : List Nat) : l = l.take (usedLen l) ++ List.replicate (l.length - usedLen l) 0 := by
  have h := List.takeWhile_append_dropWhile (p := (· == 0)) (l := l.reverse)
  have h' : (l.reverse.dropWhile (· == 0)).reverse ++ (l.reverse.takeWhile (· == 0)).reverse = l := by
    rw [← List.reverse_append, h, List.reverse_reverse]
  have hz : (l.reverse.takeWhile (· == 0)).reverse = List.replicate (l.length - usedLen l) 0 := by
    rw [List.eq_replicate_iff]
    constructor
    · rw [usedLen]
      have := congrArg List.length h
      simp only [List.length_append, List.length_reverse] at this ⊢
      omega
    · intro b hb
      rw [List.mem_reverse] at hb
      have := List.all_takeWhile (p := (· == 0)) (l := l.reverse)
      rw [List.all_eq_true] at this
      simpa using this b hb
  have ht : l.take (usedLen l) = (l.reverse.dropWhile (· == 0)).reverse := by
    conv => lhs; rw [← h']
    rw [List.take_append_of_le_length (by simp [usedLen]), List.take_of_length_le (by simp [usedLen])]
  rw [ht, ← hz, h']

theorem dropWhile_all {p : Nat → Bool} (l : List Nat) (h : ∀ x ∈ l, p x = true) : l.dropWhile p = [] := by
  induction l with
  | nil => rfl
  | cons x l ih => rw [List.dropWhile_cons, if_pos (h x List.mem_cons_self), ih (fun y hy => h y (List.mem_cons_of_mem _ hy))]

theorem usedLen_zero {l : List Nat} (h : ∀ x ∈ l, x = 0) : usedLen l = 0 := by
  rw [usedLen, dropWhile_all _ (fun x hx => by simpa using h x (List.mem_reverse.1 hx))]; rfl

/-- A code cut off after the last symbol in use (but not before `k`). -/
theorem cut_split (l : List Nat) (k : Nat) :
    ∃ n, l = l.take (usedLen (l.drop k) + k) ++ List.replicate n 0 := by
  refine ⟨(l.drop k).length - usedLen (l.drop k), ?_⟩
  conv => lhs; rw [← List.take_append_drop k l, usedLen_split (l.drop k)]
  rw [← List.append_assoc]
  congr 1
  rw [Nat.add_comm, List.take_add]

/-! ## The code lengths of the header -/

theorem lead_le (v : Nat) : ∀ (k : Nat) (l : List Nat), lead v k l ≤ k ∧ lead v k l ≤ l.length
  | 0, _ => by simp [lead]
  | _ + 1, [] => by simp [lead]
  | k + 1, x :: l => by
    have := lead_le v k l
    rw [lead]
    split
    · simp only [List.length_cons]; omega
    · simp

theorem lead_take (v : Nat) : ∀ (k : Nat) (l : List Nat), l.take (lead v k l) = List.replicate (lead v k l) v
  | 0, _ => by simp [lead]
  | _ + 1, [] => by simp [lead]
  | k + 1, x :: l => by
    rw [lead]
    split
    · rename_i h
      rw [Nat.add_comm, List.take_succ_cons, lead_take v k l, List.replicate_succ, h]
    · simp

/-- An element of the sequence of code lengths. -/
def toOp (o : Nat × Nat × Nat) : LenOp := ⟨o.1, o.2.1⟩

theorem clEncode_spec (acc l : List Nat) (hl : l ≠ []) (h15 : ∀ x ∈ l, x ≤ 15) :
    1 ≤ (clEncode acc.getLast? l).2.2.2 ∧ (clEncode acc.getLast? l).2.2.2 ≤ l.length ∧
      LenOp.run acc ⟨(clEncode acc.getLast? l).1, (clEncode acc.getLast? l).2.1⟩ = some (acc ++ l.take (clEncode acc.getLast? l).2.2.2) ∧
      (clEncode acc.getLast? l).2.2.1 = lenOpExtra (clEncode acc.getLast? l).1 ∧
      (clEncode acc.getLast? l).2.1 < 2 ^ (clEncode acc.getLast? l).2.2.1 ∧ (clEncode acc.getLast? l).1 ≤ 18 := by
  have single : ∀ v rest, v ≤ 15 → LenOp.run acc ⟨v, 0⟩ = some (acc ++ (v :: rest).take 1) ∧ (0 : Nat) = lenOpExtra v ∧
      (0 : Nat) < 2 ^ 0 ∧ v ≤ 18 := by
    intro v rest hv
    refine ⟨?_, ?_, by decide, by omega⟩
    · rw [LenOp.run, if_pos hv]; rfl
    · rw [lenOpExtra, if_neg (by omega), if_neg (by omega), if_neg (by omega)]
  match l, hl, h15 with
  | [v], _, h15 =>
    have := single v [] (h15 v (by simp))
    exact ⟨Nat.le_refl _, by simp [clEncode], this⟩
  | [v, v1], _, h15 =>
    have := single v [v1] (h15 v (by simp))
    exact ⟨Nat.le_refl _, by simp [clEncode], this⟩
  | v :: v1 :: v2 :: rest, _, h15 =>
    rw [clEncode]
    by_cases hz : v = 0 ∧ v1 = 0 ∧ v2 = 0
    · rw [if_pos hz]
      obtain ⟨rfl, rfl, rfl⟩ := hz
      have hl := lead_le 0 135 rest
      have ht : (0 :: 0 :: 0 :: rest).take (3 + lead 0 135 rest) = List.replicate (3 + lead 0 135 rest) 0 := by
        rw [show 3 + lead 0 135 rest = lead 0 135 rest + 1 + 1 + 1 by omega, List.take_succ_cons, List.take_succ_cons, List.take_succ_cons,
          lead_take, List.replicate_succ, List.replicate_succ, List.replicate_succ]
      generalize lead 0 135 rest = n at *
      simp only []
      by_cases hr : 3 + n ≤ 10
      · rw [if_pos hr]
        refine ⟨by simp only []; omega, by simp only [List.length_cons]; omega, ?_, rfl, by simp only []; omega, by simp⟩
        simp only []
        rw [ht, LenOp.run]
        simp
      · rw [if_neg hr]
        refine ⟨by simp only []; omega, by simp only [List.length_cons]; omega, ?_, rfl, by simp only []; omega, by simp⟩
        simp only []
        rw [ht, LenOp.run]
        simp
        omega
    · rw [if_neg hz]
      by_cases hp : acc.getLast? = some v ∧ v = v1 ∧ v = v2
      · rw [if_pos hp]
        obtain ⟨hg, rfl, rfl⟩ := hp
        have hl := lead_le v 3 rest
        have ht : (v :: v :: v :: rest).take (3 + lead v 3 rest) = List.replicate (3 + lead v 3 rest) v := by
          rw [show 3 + lead v 3 rest = lead v 3 rest + 1 + 1 + 1 by omega, List.take_succ_cons, List.take_succ_cons, List.take_succ_cons,
            lead_take, List.replicate_succ, List.replicate_succ, List.replicate_succ]
        generalize lead v 3 rest = n at *
        refine ⟨by simp only []; omega, by simp only [List.length_cons]; omega, ?_, rfl, by simp only []; omega, by simp⟩
        simp only []
        rw [ht, LenOp.run, hg]
        simp
      · rw [if_neg hp]
        have := single v (v1 :: v2 :: rest) (h15 v (by simp))
        exact ⟨Nat.le_refl _, by simp, this⟩

theorem clOps_spec (k : Nat) : ∀ (acc l : List Nat), l.length ≤ k → (∀ x ∈ l, x ≤ 15) →
    runOps acc ((clOps k acc.getLast? l).map toOp) = some (acc ++ l) ∧
      ∀ o ∈ clOps k acc.getLast? l, o.2.2 = lenOpExtra o.1 ∧ o.2.1 < 2 ^ o.2.2 ∧ o.1 ≤ 18 := by
  induction k with
  | zero =>
    intro acc l hl _
    have : l = [] := List.length_eq_zero_iff.1 (by omega)
    subst this
    exact ⟨by simp [clOps, runOps], fun o ho => by simp [clOps] at ho⟩
  | succ k ih =>
    intro acc l hl h15
    cases l with
    | nil => exact ⟨by simp [clOps, runOps], fun o ho => by simp [clOps] at ho⟩
    | cons x l =>
      obtain ⟨a1, a2, a3, a4, a5, a6⟩ := clEncode_spec acc (x :: l) (by simp) h15
      rw [clOps]
      generalize clEncode acc.getLast? (x :: l) = r at *
      generalize hlist : x :: l = L at *
      have hlast : L[r.2.2.2 - 1]? = (acc ++ L.take r.2.2.2).getLast? := by
        rw [List.getLast?_eq_getElem?, List.getElem?_append_right (by simp; omega)]
        simp only [List.length_append, List.length_take]
        rw [List.getElem?_take_of_lt (by omega)]
        congr 1
        omega
      rw [hlast]
      obtain ⟨i1, i2⟩ := ih (acc ++ L.take r.2.2.2) (L.drop r.2.2.2) (by rw [List.length_drop]; omega)
        (fun y hy => h15 y (List.mem_of_mem_drop hy))
      constructor
      · rw [List.map_cons, runOps, toOp, a3, Option.bind_some, i1, List.append_assoc, List.take_append_drop]
      · intro o ho
        rcases List.mem_cons.1 ho with rfl | ho
        · exact ⟨a4, a5, a6⟩
        · exact i2 o ho

theorem foldl_tick_map {α : Type} (g : α → Nat) (os : List α) : ∀ (f : Nat → Nat) (c : Nat),
    os.foldl (fun c o => tick c (g o)) f c = f c + os.countP (fun o => g o == c) := by
  induction os with
  | nil => intro f c; simp
  | cons o os ih =>
    intro f c
    rw [List.foldl_cons, ih, List.countP_cons, tick]
    by_cases h : c = g o
    · rw [if_pos h, if_pos (by simp [h])]; omega
    · rw [if_neg h, if_neg (by simp; omega)]; omega

theorem clCounts_ne {ops : List (Nat × Nat × Nat)} {o : Nat × Nat × Nat} (h : o ∈ ops) : clCounts ops o.1 ≠ 0 := by
  rw [clCounts, foldl_tick_map]
  have : 0 < ops.countP (fun p => p.1 == o.1) := List.countP_pos_iff.2 ⟨o, h, by simp⟩
  omega

theorem getD_range_map (f : Nat → Nat) (n s : Nat) (h : s < n) : ((List.range n).map f).getD s 0 = f s := by
  rw [List.getD_eq_getElem?_getD, List.getElem?_map, List.getElem?_range h]; rfl

theorem trimClens_spec (clens : List Nat) (k : Nat) : trimClens clens k ≤ k ∧
    ∀ i, trimClens clens k + 4 ≤ i → i < k + 4 → clens.getD (border.getD i 0) 0 = 0 := by
  induction k with
  | zero => exact ⟨by simp [trimClens], fun i h1 h2 => by omega⟩
  | succ k ih =>
    rw [trimClens]
    split
    · rename_i h
      refine ⟨by omega, fun i h1 h2 => ?_⟩
      by_cases hi : i = k + 4
      · rw [hi]; exact h
      · exact ih.2 i h1 (by omega)
    · exact ⟨by omega, fun i h1 h2 => by omega⟩

theorem putClens_wrote (clens : List Nat) (h7 : ∀ s, clens.getD s 0 < 2 ^ 3) (bs : List Nat) : ∀ w : Writer,
    Wrote w (putClens clens bs w) (bs.flatMap fun b => Flate.bits 3 (clens.getD b 0)) := by
  induction bs with
  | nil => intro w; exact Wrote.refl w
  | cons b bs ih =>
    intro w
    rw [putClens, List.flatMap_cons]
    exact (Wrote.put w (by decide) (h7 b)).trans (ih _)

theorem putOps_wrote {clens : List Nat} (hu : Usable clens) (ops : List (Nat × Nat × Nat)) : ∀ w : Writer,
    (∀ o ∈ ops, clens.getD o.1 0 ≠ 0 ∧ o.2.2 = lenOpExtra o.1 ∧ o.2.1 < 2 ^ o.2.2) →
    ∃ w', putOps (encoderInit clens) ops w = .ok w' ∧
      Wrote w w' ((ops.map toOp).flatMap fun p => codeBits clens p.sym ++ Flate.bits (lenOpExtra p.sym) p.extra) := by
  induction ops with
  | nil => intro w _; exact ⟨w, rfl, Wrote.refl w⟩
  | cons o ops ih =>
    intro w h
    obtain ⟨a1, a2, a3⟩ := h o List.mem_cons_self
    obtain ⟨w1, e1, r1⟩ := encode_wrote hu a1 w
    rw [putOps, e1]
    simp only [bind, Except.bind]
    have hle : o.2.2 ≤ 24 := by
      rw [a2, lenOpExtra]
      split
      · decide
      · split
        · decide
        · split <;> decide
    obtain ⟨w', e', r'⟩ := ih (w1.putBits o.2.1 o.2.2) (fun p hp => h p (List.mem_cons_of_mem _ hp))
    refine ⟨w', e', ?_⟩
    rw [List.map_cons, List.flatMap_cons]
    have r2 := Wrote.put w1 hle a3
    have := (r1.trans r2).trans r'
    simp only [toOp]
    rw [← a2]
    exact this

/-! ## The block -/

/-- What the tokens and the counts say about each other. -/
structure TokInv (s : Deflator) : Prop where
  ok : ∀ t ∈ s.toks, t.Ok
  lit : ∀ c, s.litCounts c = s.toks.countP (fun t => t.literalCode == c)
  dist : ∀ c, s.distCounts c = s.toks.countP (fun t => decide (257 ≤ t.literalCode) && (t.distanceCode == c))

theorem fixed_in {t : Tok} (h : t.Ok) : t.In fixedLit fixedDist := by
  have h1 : ∀ c < 288, fixedLit.getD c 0 ≠ 0 := by decide +kernel
  have h2 : ∀ c < 32, fixedDist.getD c 0 ≠ 0 := by decide +kernel
  rcases h with h | ⟨h3, h4, h5, -, h6, h7⟩
  · exact ⟨h1 _ (by omega), fun hc => by omega⟩
  · exact ⟨h1 _ (by omega), fun _ => h2 _ (by omega)⟩

theorem fixedLit_usable : Usable fixedLit := ⟨by decide +kernel, by decide +kernel⟩
theorem fixedDist_usable : Usable fixedDist := ⟨by decide +kernel, by decide +kernel⟩

theorem header2 (w : Writer) (eof : Bool) {t : Nat} (ht : t < 4) :
    Wrote w ((w.putBits eof.toNat 1).putBits t 2) (eof :: Flate.bits 2 t) := by
  have r1 := Wrote.put w (v := eof.toNat) (n := 1) (by decide) (by cases eof <;> decide)
  have r2 := Wrote.put (w.putBits eof.toNat 1) (v := t) (n := 2) (by decide) ht
  have := r1.trans r2
  rw [show Flate.bits 1 eof.toNat = [eof] by cases eof <;> rfl] at this
  exact this

theorem encode_fixed (srt : List Leaf → List Leaf) {s : Deflator} (ht : TokInv s) (w : Writer) (eof : Bool) :
    ∃ w', encodeBlock srt s w eof 1 = .ok w' ∧ Wrote w w' (Block.bits eof (.fixed (s.toks.map Tok.item))) ∧
      ∀ i ∈ s.toks.map Tok.item, i.Valid fixedLit fixedDist := by
  obtain ⟨w', e, r⟩ := putBody_wrote fixedLit_usable fixedDist_usable ((w.putBits eof.toNat 1).putBits 1 2) ht.ok
    (fun t h => fixed_in (ht.ok t h)) (by decide +kernel)
  refine ⟨w', ?_, (header2 w eof (by decide)).trans r, ?_⟩
  · rw [encodeBlock, if_neg (by decide), if_neg (by decide)]; exact e
  · intro i hi
    obtain ⟨t, h1, rfl⟩ := List.mem_map.1 hi
    exact Tok.item_valid (ht.ok t h1) (fixed_in (ht.ok t h1))

/-- The header `EncodeBlock` writes. -/
def headerOf (srt : List Leaf → List Leaf) (s : Deflator) : Header :=
  let lit := litLens srt s
  let hlit := usedLen (lit.drop 257)
  let dist := distLens srt s
  let hdist := usedLen (dist.drop 1)
  let combined := lit.take (hlit + 257) ++ dist.take (hdist + 1)
  let ops := clOps combined.length none combined
  let clens := generate srt 7 ((List.range 19).map (clCounts ops))
  { hlit := hlit, hdist := hdist, hclen := trimClens clens 15, clens := clens, ops := ops.map toOp, lens := combined }

theorem headerOf_lit (srt : List Leaf → List Leaf) (s : Deflator) (hlen : (litLens srt s).length = 286) :
    (headerOf srt s).lit = (litLens srt s).take (usedLen ((litLens srt s).drop 257) + 257) := by
  have h := usedLen_le ((litLens srt s).drop 257)
  rw [List.length_drop, hlen] at h
  show List.take (usedLen _ + 257) (_ ++ _) = _
  rw [List.take_append_of_le_length (by rw [List.length_take, hlen]; omega), List.take_take, Nat.min_self]

theorem headerOf_dist (srt : List Leaf → List Leaf) (s : Deflator) (hlen : (litLens srt s).length = 286) :
    (headerOf srt s).dist = (distLens srt s).take (usedLen ((distLens srt s).drop 1) + 1) := by
  have h := usedLen_le ((litLens srt s).drop 257)
  rw [List.length_drop, hlen] at h
  show List.drop (usedLen _ + 257) (_ ++ _) = _
  rw [List.drop_append_of_le_length (by rw [List.length_take, hlen]; omega), List.drop_eq_nil_of_le (by rw [List.length_take]; omega)]
  rfl

theorem range_take (l : List Nat) : ∀ n, n ≤ l.length → l.take n = (List.range n).map fun i => l.getD i 0 := by
  intro n hn
  apply List.ext_getElem?
  intro i
  rw [List.getElem?_take, List.getElem?_map]
  by_cases h : i < n
  · rw [if_pos h, List.getElem?_range h, Option.map_some, List.getD_eq_getElem?_getD, List.getElem?_eq_getElem (by omega)]; rfl
  · rw [if_neg h, List.getElem?_eq_none (l := List.range n) (by simp; omega)]; rfl

theorem encode_dynamic {srt : List Leaf → List Leaf} (hs : IsSort srt) {s : Deflator} (ht : TokInv s) (w : Writer) (eof : Bool) :
    ∃ w', encodeBlock srt s w eof 2 = .ok w' ∧ Wrote w w' (Block.bits eof (.dynamic (headerOf srt s) (s.toks.map Tok.item))) ∧
      (headerOf srt s).Valid ∧ ∀ i ∈ s.toks.map Tok.item, i.Valid (headerOf srt s).lit (headerOf srt s).dist := by
  -- the two codes
  obtain ⟨l1, l2, l3, l4, -⟩ := generate_valid hs (M := 15) (by decide) ((List.range 286).map (put s.litCounts 256 1)) (by simp)
  obtain ⟨d1, d2, d3, d4, -⟩ := generate_valid hs (M := 15) (by decide) ((List.range 30).map s.distCounts) (by simp)
  have hlit : litLens srt s = generate srt 15 ((List.range 286).map (put s.litCounts 256 1)) := rfl
  have hdist : distLens srt s = generate srt 15 ((List.range 30).map s.distCounts) := rfl
  rw [← hlit] at l1 l2 l3 l4
  rw [← hdist] at d1 d2 d3 d4
  rw [List.length_map, List.length_range] at l1 l2 d1 d2
  have L2 : ∀ c, c < 286 → ((litLens srt s).getD c 0 = 0 ↔ put s.litCounts 256 1 c = 0) := fun c hc => by
    rw [l2 c hc, getD_range_map _ _ _ hc]
  have D2 : ∀ c, c < 30 → ((distLens srt s).getD c 0 = 0 ↔ s.distCounts c = 0) := fun c hc => by
    rw [d2 c hc, getD_range_map _ _ _ hc]
  have eob : (litLens srt s).getD 256 0 ≠ 0 := by
    rw [Ne, L2 256 (by decide), put, if_pos rfl]; decide
  have lv : ValidCode 15 (litLens srt s) :=
    l4 ⟨1, List.mem_map.2 ⟨256, by simp, by simp [put]⟩, by decide⟩
  have hin : ∀ t ∈ s.toks, t.In (litLens srt s) (distLens srt s) := by
    intro t h
    have hlt : t.literalCode < 286 := by rcases ht.ok t h with h | h <;> omega
    constructor
    · rw [Ne, L2 _ hlt, put]
      split
      · decide
      · rw [ht.lit]
        have : 0 < s.toks.countP (fun u => u.literalCode == t.literalCode) := List.countP_pos_iff.2 ⟨t, h, by simp⟩
        omega
    · intro h257
      have hdt : t.distanceCode < 30 := by rcases ht.ok t h with h | h <;> omega
      rw [Ne, D2 _ hdt, ht.dist]
      have : 0 < s.toks.countP (fun u => decide (257 ≤ u.literalCode) && (u.distanceCode == t.distanceCode)) :=
        List.countP_pos_iff.2 ⟨t, h, by simp [h257]⟩
      omega
  have du : Usable (distLens srt s) := by
    by_cases hex : ∃ c ∈ (List.range 30).map s.distCounts, c ≠ 0
    · exact (d4 hex).usable (by decide)
    · have hz : distLens srt s = List.replicate 30 0 := by
        rw [List.eq_replicate_iff]
        refine ⟨d1, fun b hb => ?_⟩
        obtain ⟨i, hi, rfl⟩ := List.mem_iff_getElem.1 hb
        have := (D2 i (by omega)).2 (by
          by_contra hc
          exact hex ⟨_, List.mem_map.2 ⟨i, by simp; omega, rfl⟩, hc⟩)
        rwa [List.getD_eq_getElem?_getD, List.getElem?_eq_getElem hi] at this
      rw [hz]
      exact ⟨by decide, by decide +kernel⟩
  -- cutting them off
  obtain ⟨n1, c1⟩ := cut_split (litLens srt s) 257
  obtain ⟨n2, c2⟩ := cut_split (distLens srt s) 1
  have hl := headerOf_lit srt s l1
  have hd := headerOf_dist srt s l1
  rw [← hl] at c1
  rw [← hd] at c2
  have u1 := usedLen_le ((litLens srt s).drop 257)
  have u2 := usedLen_le ((distLens srt s).drop 1)
  rw [List.length_drop, l1] at u1
  rw [List.length_drop, d1] at u2
  have gl : ∀ c, (headerOf srt s).lit.getD c 0 = (litLens srt s).getD c 0 := fun c => by
    conv => rhs; rw [c1, getD_zeros]
  have gd : ∀ c, (headerOf srt s).dist.getD c 0 = (distLens srt s).getD c 0 := fun c => by
    conv => rhs; rw [c2, getD_zeros]
  have cl : ∀ c, codeBits (headerOf srt s).lit c = codeBits (litLens srt s) c := fun c => by
    conv => rhs; rw [c1, codeBits_zeros]
  have cd : ∀ c, codeBits (headerOf srt s).dist c = codeBits (distLens srt s) c := fun c => by
    conv => rhs; rw [c2, codeBits_zeros]
  -- the elements of the header
  have hh : headerOf srt s =
      { hlit := usedLen ((litLens srt s).drop 257), hdist := usedLen ((distLens srt s).drop 1), hclen := (headerOf srt s).hclen,
        clens := (headerOf srt s).clens, ops := (headerOf srt s).ops,
        lens := (litLens srt s).take (usedLen ((litLens srt s).drop 257) + 257) ++ (distLens srt s).take (usedLen ((distLens srt s).drop 1) + 1) } := rfl
  have hc15 : ∀ x ∈ (headerOf srt s).lens, x ≤ 15 := by
    intro x hx
    rcases List.mem_append.1 (show x ∈ (litLens srt s).take _ ++ (distLens srt s).take _ from hx) with h | h
    · exact l3 x (List.mem_of_mem_take h)
    · exact d3 x (List.mem_of_mem_take h)
  obtain ⟨o1, o2⟩ := clOps_spec _ [] (headerOf srt s).lens (Nat.le_refl _) hc15
  rw [List.getLast?_nil] at o1 o2
  rw [List.nil_append] at o1
  have hlens : (headerOf srt s).lens.length = usedLen ((litLens srt s).drop 257) + 257 + usedLen ((distLens srt s).drop 1) + 1 := by
    show (List.take _ _ ++ List.take _ _).length = _
    rw [List.length_append, List.length_take, List.length_take, l1, d1]
    omega
  generalize hops : clOps (headerOf srt s).lens.length none (headerOf srt s).lens = ops at o1 o2
  have hne : ops ≠ [] := by
    intro h
    rw [h] at o1
    have := congrArg (Option.map List.length) o1
    rw [Option.map_some, hlens] at this
    simp [runOps] at this
  obtain ⟨k1, k2, k3, k4, -⟩ := generate_valid hs (M := 7) (by decide) ((List.range 19).map (clCounts ops)) (by simp)
  have hclens : (headerOf srt s).clens = generate srt 7 ((List.range 19).map (clCounts ops)) := by rw [← hops]; rfl
  have hclen : (headerOf srt s).hclen = trimClens (headerOf srt s).clens 15 := rfl
  have hopsH : (headerOf srt s).ops = ops.map toOp := by rw [← hops]; rfl
  rw [← hclens] at k1 k2 k3 k4
  rw [List.length_map, List.length_range] at k1 k2
  have used : ∀ o ∈ ops, (headerOf srt s).clens.getD o.1 0 ≠ 0 := fun o ho => by
    have := (o2 o ho).2.2
    rw [Ne, k2 _ (by omega), getD_range_map _ _ _ (by omega)]
    exact clCounts_ne ho
  have cv : ValidCode 7 (headerOf srt s).clens := by
    obtain ⟨o, ho⟩ := List.exists_mem_of_ne_nil ops hne
    exact k4 ⟨_, List.mem_map.2 ⟨o.1, by have := (o2 o ho).2.2; simp; omega, rfl⟩, clCounts_ne ho⟩
  have lt8 : ∀ c, (headerOf srt s).clens.getD c 0 < 2 ^ 3 := fun c => by
    by_cases h : (headerOf srt s).clens.getD c 0 = 0
    · rw [h]; decide
    · have := k3 _ (getD_mem h); omega
  obtain ⟨t1, t2⟩ := trimClens_spec (headerOf srt s).clens 15
  rw [← hclen] at t1 t2
  have hv : (headerOf srt s).Valid := by
    refine ⟨by rw [hh]; exact u1, by rw [hh]; show usedLen _ ≤ 31; omega, t1, k1, cv, t2, ?_, by rw [hopsH]; exact o1, by rw [hlens]; rfl, ?_, ?_, ?_⟩
    · intro p hp
      rw [hopsH] at hp
      obtain ⟨o, ho, rfl⟩ := List.mem_map.1 hp
      refine ⟨used o ho, ?_⟩
      have := o2 o ho
      show o.2.1 < 2 ^ lenOpExtra o.1
      rw [← this.1]; exact this.2.1
    · exact validCode_zeros (n := n1) (by rw [← c1]; exact lv)
    · rw [gl]; exact eob
    · by_cases hex : ∃ c ∈ (List.range 30).map s.distCounts, c ≠ 0
      · exact Or.inl (validCode_zeros (n := n2) (by rw [← c2]; exact d4 hex))
      · right
        have hz : ∀ c < 30, s.distCounts c = 0 := fun c hc => by
          by_contra h
          exact hex ⟨_, List.mem_map.2 ⟨c, by simp; omega, rfl⟩, h⟩
        have hnc : ∀ t ∈ s.toks, ¬257 ≤ t.literalCode := by
          intro t h h257
          have hdt : t.distanceCode < 30 := by rcases ht.ok t h with h | h <;> omega
          have h0 := hz _ hdt
          rw [ht.dist] at h0
          have : 0 < s.toks.countP (fun u => decide (257 ≤ u.literalCode) && (u.distanceCode == t.distanceCode)) :=
            List.countP_pos_iff.2 ⟨t, h, by simp [h257]⟩
          omega
        constructor
        · have hz1 : ∀ x ∈ distLens srt s, x = 0 := by
            intro x hx
            obtain ⟨i, hi, rfl⟩ := List.mem_iff_getElem.1 hx
            have := (D2 i (by omega)).2 (hz i (by omega))
            rwa [List.getD_eq_getElem?_getD, List.getElem?_eq_getElem hi] at this
          have hz2 : usedLen ((distLens srt s).drop 1) = 0 := usedLen_zero fun x hx => hz1 x (List.mem_of_mem_drop hx)
          rw [hd, hz2]
          generalize distLens srt s = dl at *
          match dl, d1, hz1 with
          | x :: dl, _, hz1 => rw [hz1 x (by simp)]; rfl
        · show usedLen _ = 0
          apply usedLen_zero
          intro x hx
          obtain ⟨i, hi, rfl⟩ := List.mem_iff_getElem.1 hx
          rw [List.length_drop, l1] at hi
          rw [List.getElem_drop]
          have := (L2 (257 + i) (by omega)).2 (by
            rw [put, if_neg (by omega), ht.lit, List.countP_eq_zero]
            intro t h he
            have := hnc t h
            simp at he
            omega)
          rwa [List.getD_eq_getElem?_getD, List.getElem?_eq_getElem (by omega)] at this
  -- writing it
  have w1 := header2 w eof (t := 2) (by decide)
  generalize hw1 : (w.putBits eof.toNat 1).putBits 2 2 = w1' at w1
  have w2 := Wrote.put w1' (v := (headerOf srt s).hlit) (n := 5) (by decide) (by have := hv.hlit; omega)
  have w3 := Wrote.put (w1'.putBits (headerOf srt s).hlit 5) (v := (headerOf srt s).hdist) (n := 5) (by decide) (by have := hv.hdist; omega)
  have w4 := Wrote.put ((w1'.putBits (headerOf srt s).hlit 5).putBits (headerOf srt s).hdist 5) (v := (headerOf srt s).hclen) (n := 4)
    (by decide) (by have := hv.hclen; omega)
  have w5 := putClens_wrote (headerOf srt s).clens lt8 (border.take ((headerOf srt s).hclen + 4))
    (((w1'.putBits (headerOf srt s).hlit 5).putBits (headerOf srt s).hdist 5).putBits (headerOf srt s).hclen 4)
  obtain ⟨w6', e6, w6⟩ := putOps_wrote (cv.usable (by decide)) ops
    (putClens (headerOf srt s).clens (border.take ((headerOf srt s).hclen + 4))
      (((w1'.putBits (headerOf srt s).hlit 5).putBits (headerOf srt s).hdist 5).putBits (headerOf srt s).hclen 4))
    (fun o ho => ⟨used o ho, (o2 o ho).1, (o2 o ho).2.1⟩)
  obtain ⟨w7', e7, w7⟩ := putBody_wrote (lv.usable (by decide)) du w6' ht.ok hin eob
  refine ⟨w7', ?_, ?_, hv, ?_⟩
  · rw [encodeBlock, if_neg (by decide), if_pos rfl, hw1]
    have e6' : putOps (encoderInit (headerOf srt s).clens) ops _ = .ok w6' := e6
    rw [← hops] at e6'
    show (putOps (encoderInit (headerOf srt s).clens) (clOps (headerOf srt s).lens.length none (headerOf srt s).lens)
      (putClens (headerOf srt s).clens (border.take ((headerOf srt s).hclen + 4))
      (((w1'.putBits (headerOf srt s).hlit 5).putBits (headerOf srt s).hdist 5).putBits (headerOf srt s).hclen 4))).bind _ = _
    rw [e6']
    exact e7
  · have := (((((w1.trans w2).trans w3).trans w4).trans w5).trans w6).trans w7
    rw [Block.bits]
    have hbits : (headerOf srt s).bits = Flate.bits 5 (headerOf srt s).hlit ++ Flate.bits 5 (headerOf srt s).hdist ++
        Flate.bits 4 (headerOf srt s).hclen ++
        (border.take ((headerOf srt s).hclen + 4)).flatMap (fun b => Flate.bits 3 ((headerOf srt s).clens.getD b 0)) ++
        (ops.map toOp).flatMap fun p => codeBits (headerOf srt s).clens p.sym ++ Flate.bits (lenOpExtra p.sym) p.extra := by
      rw [Header.bits, hopsH, range_take border _ (by have := hv.hclen; simp [border]; omega), List.flatMap_map (l := List.range _)]
      rfl
    have hitems : itemsBits (headerOf srt s).lit (headerOf srt s).dist (s.toks.map Tok.item) =
        itemsBits (litLens srt s) (distLens srt s) (s.toks.map Tok.item) := by
      have : Item.bits (headerOf srt s).lit (headerOf srt s).dist = Item.bits (litLens srt s) (distLens srt s) := by
        funext i
        cases i <;> simp only [Item.bits, cl, cd]
      rw [itemsBits, itemsBits, this, cl]
    rw [hitems, hbits]
    simpa only [List.append_assoc, List.cons_append] using this
  · intro i hi
    obtain ⟨t, h1, rfl⟩ := List.mem_map.1 hi
    refine Tok.item_valid (ht.ok t h1) ?_
    have := hin t h1
    exact ⟨by rw [gl]; exact this.1, fun h => by rw [gd]; exact this.2 h⟩

theorem byteBits_le16 (v : Nat) : byteBits (le16 v) = Flate.bits 16 v := by
  rw [le16, byteBits_cons, byteBits_cons, byteBits_nil, List.append_nil, BitVec.toNat_ofNat, BitVec.toNat_ofNat, bits_mod, bits_mod,
    Nat.shiftRight_eq_div_pow, ← bits_take 8 16 v (by decide), show Flate.bits 8 (v / 2 ^ 8) = (Flate.bits 16 v).drop 8 by rw [bits_drop 8 16 v (by decide)],
    List.take_append_drop]

theorem encode_stored (srt : List Leaf → List Leaf) {s : Deflator} {w : Writer} (hw : w.Ok) (eof : Bool)
    (hb : s.blockStart + s.blockLen ≤ 2 * s.dsize) (hl : s.blockLen < 65536) :
    ∃ w' pad, encodeBlock srt s w eof 0 = .ok w' ∧ w'.Ok ∧ pad.length < 8 ∧ (w.str.length + 3 + pad.length) % 8 = 0 ∧
      w'.bits = 0 ∧ w'.pend = [] ∧
      w'.str = w.str ++ Block.bits eof (.stored pad ((List.range s.blockLen).map fun i => s.buf (s.blockStart + i))) := by
  obtain ⟨a1, a2⟩ := (header2 w eof (t := 0) (by decide)).1 hw
  obtain ⟨f1, f2, f3, z, f4, f5, f6⟩ := flush_spec a1
  generalize hw1 : (w.putBits eof.toNat 1).putBits 0 2 = w1 at *
  refine ⟨(((w1.flush.putBytes (le16 (s.blockLen % 65536))).putBytes (le16 (65535 - s.blockLen % 65536))).putBytes
        ((List.range s.blockLen).map fun i => s.buf (s.blockStart + i))), List.replicate z false,
    by rw [encodeBlock, if_pos rfl, hw1, if_neg (by omega)], ⟨f1.real, f1.bits, f1.buf⟩,
    by simpa using f4, ?_, f2, f3, ?_⟩
  · rw [a2] at f5
    simp only [List.length_append, List.length_cons, bits_length, List.length_replicate] at f5 ⊢
    omega
  · rw [Nat.mod_eq_of_lt hl]
    show byteBits ((((w1.flush.out ++ _) ++ _) ++ _) ++ w1.flush.pend) ++ Flate.bits w1.flush.bits w1.flush.buf = _
    rw [f2, f3, List.append_nil, Flate.bits, List.append_nil, byteBits_append, byteBits_append, byteBits_append, f6, a2,
      byteBits_le16, byteBits_le16, Block.bits]
    simp [List.append_assoc]

end Verif.Flate
