import Verif.PkPad.OaepProofs

/-! # Proofs about PSS -/
namespace Verif.PkPad
open Verif.Hash Verif.Kdf
open Verif.Hmac (write read)

theorem xor_comm (a b : List Byte) : Spec.xor a b = Spec.xor b a := by
  unfold Spec.xor
  exact List.zipWith_comm_of_comm (fun x y => BitVec.xor_comm x y)

theorem xor_append (a b c d : List Byte) (h : a.length = c.length) : Spec.xor (a ++ b) (c ++ d) = Spec.xor a c ++ Spec.xor b d := List.zipWith_append h

theorem xor_zero (a : List Byte) (n : Nat) (h : a.length = n) : Spec.xor (List.replicate n 0) a = a := by
  induction a generalizing n with
  | nil => subst h; rfl
  | cons x a ih =>
    subst h
    have := ih a.length rfl
    unfold Spec.xor at this ⊢
    rw [List.length_cons, List.replicate_succ, List.zipWith_cons_cons, this]
    simp

theorem crop_eq (bits : Nat) (l : List Byte) : cropFirst bits l = Spec.clearTop bits l := by
  unfold cropFirst
  cases l with
  | nil => simp [Spec.clearTop]
  | cons b r =>
    unfold Spec.clearTop
    by_cases h : bits % 8 = 0
    · simp [h]
    · simp only [h, ne_eq, not_false_iff, if_true, if_false, List.cons.injEq, and_true]
      apply BitVec.eq_of_toNat_eq
      have hk : 2 ^ (bits % 8) - 1 < 2 ^ 8 := by
        have : 2 ^ (bits % 8) ≤ 2 ^ 7 := Nat.pow_le_pow_right (by decide) (by omega)
        omega
      rw [BitVec.toNat_and, BitVec.toNat_ofNat, BitVec.toNat_ofNat, Nat.mod_eq_of_lt hk, Nat.and_two_pow_sub_one_eq_mod,
        Nat.mod_eq_of_lt (Nat.lt_of_le_of_lt (Nat.mod_le _ _) b.isLt)]

theorem clear_append (bits : Nat) (a b : List Byte) (h : 0 < a.length) : Spec.clearTop bits (a ++ b) = Spec.clearTop bits a ++ b := by
  cases a with
  | nil => simp at h
  | cons x a => rfl

theorem clear_length (bits : Nat) (a : List Byte) : (Spec.clearTop bits a).length = a.length := by cases a <;> rfl

theorem clear_clear (bits : Nat) (a : List Byte) : Spec.clearTop bits (Spec.clearTop bits a) = Spec.clearTop bits a := by
  cases a with
  | nil => rfl
  | cons x a =>
    rw [← crop_eq, ← crop_eq]
    unfold cropFirst
    by_cases hb : bits % 8 = 0
    · simp [hb]
    · simp only [hb, ne_eq, not_false_iff, if_true]
      rw [BitVec.and_assoc, BitVec.and_self]

theorem mask_cancel (a g m : Byte) : (((a ^^^ g) &&& m) ^^^ g) &&& m = a &&& m := by
  apply BitVec.eq_of_getLsbD_eq
  intro i hi
  simp only [BitVec.getLsbD_and, BitVec.getLsbD_xor]
  cases a.getLsbD i <;> cases g.getLsbD i <;> cases m.getLsbD i <;> rfl

theorem clear_xor (bits : Nat) (a g : List Byte) (h : a.length ≤ g.length) : Spec.clearTop bits (Spec.xor (Spec.clearTop bits (Spec.xor a g)) g) = Spec.clearTop bits a := by
  cases a with
  | nil => rfl
  | cons x a =>
    cases g with
    | nil => simp at h
    | cons y g =>
      have hc := xor_cancel a g (by simpa using h)
      rw [← crop_eq, ← crop_eq, ← crop_eq]
      unfold Spec.xor at hc ⊢
      unfold cropFirst
      by_cases hb : bits % 8 = 0
      · simp [hb, hc, BitVec.xor_assoc]
      · simp only [hb, ne_eq, not_false_iff, if_true, List.zipWith_cons_cons, mask_cancel, hc]

theorem clear_db (bits k : Nat) (r : List Byte) : Spec.clearTop bits (List.replicate k 0 ++ [1] ++ r) = List.replicate k 0 ++ [1] ++ r := by
  have h1 : ∀ b : Byte, b = 0 ∨ b = 1 → BitVec.ofNat 8 (if bits % 8 = 0 then b.toNat else b.toNat % 2 ^ (bits % 8)) = b := by
    intro b hb
    by_cases h : bits % 8 = 0
    · simp [h]
    · rw [if_neg h]
      have hlt : 1 < 2 ^ (bits % 8) := Nat.one_lt_two_pow h
      rcases hb with rfl | rfl
      · simp
      · rw [show (1 : Byte).toNat = 1 from rfl, Nat.mod_eq_of_lt hlt]; rfl
  cases k with
  | zero => simp only [List.replicate_zero, List.nil_append, List.cons_append, Spec.clearTop, h1 1 (.inr rfl)]
  | succ k => simp only [List.replicate_succ, List.cons_append, Spec.clearTop, h1 0 (.inl rfl)]

theorem lengthBytes_eq (n : Nat) (h : 8 * n < 2 ^ 64) : lengthBytes n = beBytes 8 (8 * n) := by
  unfold lengthBytes
  rw [show (8 : Nat) = 4 + 4 from rfl, beBytes_append 4 4 ((4 + 4) * n)]
  have e1 : n * 8 % 2 ^ 64 % 2 ^ 32 = n * 8 % 256 ^ 4 := by
    rw [Nat.mod_eq_of_lt (show n * 8 < 2 ^ 64 by omega)]
  have e2 : n / 2 ^ 29 % 2 ^ 32 = (4 + 4) * n / 256 ^ 4 := by
    rw [Nat.mod_eq_of_lt (by omega)]; omega
  rw [show n * (4 + 4) = n * 8 by omega, e1, e2, beBytes_mod, show n * 8 = (4 + 4) * n by omega]

theorem xorAt_eq (a b c x : List Byte) (pos : Nat) (ha : a.length = pos) (hx : x.length = b.length) : xorAt (a ++ (b ++ c)) pos x = .ok (a ++ (Spec.xor b x ++ c)) := by
  unfold xorAt
  rw [read_at a b c pos x.length ha hx.symm]
  exact write_at a b c _ pos ha (by simp [xorBytes, hx])

/-- The separator of the data block: what `FindIfNot` and the test of `*M` accept. -/
theorem pss_sep (pre m : List Byte) (hp : 0 < pre.length) :
    (pre.getD (pre.dropLast.findIdx (· != 0)) 0 = 1 ∧ pre.drop (pre.dropLast.findIdx (· != 0) + 1) = m) ↔
    (m.length + 1 ≤ pre.length ∧ pre = List.replicate (pre.length - m.length - 1) 0 ++ [1] ++ m) := by
  induction pre with
  | nil => simp at hp
  | cons x t ih =>
    by_cases hz : x = 0 ∧ 0 < t.length
    · obtain ⟨rfl, ht⟩ := hz
      obtain ⟨y, t', rfl⟩ : ∃ y t', t = y :: t' := List.exists_cons_of_length_pos ht
      have hf : ((0 : Byte) :: y :: t').dropLast.findIdx (fun x : Byte => x != 0) = (y :: t').dropLast.findIdx (· != 0) + 1 := by
        rw [List.dropLast_cons_cons, List.findIdx_cons]; rfl
      rw [hf, List.getD_cons_succ, List.drop_succ_cons, ih ht]
      constructor
      · rintro ⟨h1, h2⟩
        refine ⟨Nat.le_succ_of_le h1, ?_⟩
        rw [show ((0 : Byte) :: y :: t').length - m.length - 1 = ((y :: t').length - m.length - 1) + 1 by simp at h1 ⊢; omega, List.replicate_succ, List.cons_append, List.cons_append, ← h2]
      · rintro ⟨h1, h2⟩
        by_cases hm : m.length + 1 ≤ (y :: t').length
        · rw [show ((0 : Byte) :: y :: t').length - m.length - 1 = ((y :: t').length - m.length - 1) + 1 by simp at hm ⊢; omega, List.replicate_succ, List.cons_append, List.cons_append] at h2
          exact ⟨hm, by injection h2⟩
        · rw [show ((0 : Byte) :: y :: t').length - m.length - 1 = 0 by simp at hm ⊢; omega] at h2
          simp at h2
    · have hf : (x :: t).dropLast.findIdx (fun x : Byte => x != 0) = 0 := by
        cases t with
        | nil => rfl
        | cons y t =>
          have hx : x ≠ 0 := fun h => hz ⟨h, by simp⟩
          rw [List.dropLast_cons_cons, List.findIdx_cons, bne_iff_ne.mpr hx]; rfl
      rw [hf]
      simp only [List.getD_cons_zero, Nat.zero_add, List.drop_succ_cons, List.drop_zero]
      constructor
      · rintro ⟨rfl, rfl⟩
        exact ⟨by simp, by simp⟩
      · rintro ⟨h1, h2⟩
        rcases Nat.eq_zero_or_pos ((x :: t).length - m.length - 1) with h | h
        · rw [h] at h2
          simp at h2; exact h2
        · exfalso
          obtain ⟨k, hk⟩ : ∃ k, (x :: t).length - m.length - 1 = k + 1 := Nat.exists_eq_succ_of_ne_zero (by omega)
          rw [hk, List.replicate_succ] at h2
          injection h2 with h3 h4
          exact hz ⟨h3, by rw [h4]; simp; omega⟩

section
variable {σ : Type} {O : Obj σ} {H : List Byte → List Byte} {lim : Nat} {Rep : σ → List Byte → Prop}

theorem pssUpdates_eq (C : O.Computes H lim Rep) (s : σ) (hs : Rep s []) (rec dig salt : List Byte) (h64 : 8 * rec.length < 2 ^ 64)
    (hlim : 8 + rec.length + dig.length + salt.length < lim) :
    ∃ s1 s2, pssUpdates O s rec dig salt = .ok s1 ∧ O.final s1 O.digestSize = .ok (s2, Spec.pssH H rec dig salt) ∧ Rep s2 [] := by
  unfold pssUpdates
  rw [lengthBytes_eq _ h64]
  obtain ⟨s1, e1, r1⟩ := C.update s [] (beBytes 8 (8 * rec.length)) hs (by simp; omega)
  obtain ⟨s2, e2, r2⟩ := C.update s1 _ rec r1 (by simp; omega)
  obtain ⟨s3, e3, r3⟩ := C.update s2 _ dig r2 (by simp; omega)
  obtain ⟨s4, e4, r4⟩ := C.update s3 _ salt r3 (by simp; omega)
  obtain ⟨s5, e5, r5⟩ := C.final s4 _ O.digestSize r4 (Nat.le_refl _)
  refine ⟨s4, s5, by simp only [bind, Except.bind, e1, e2, e3, e4], ?_, r5⟩
  rw [e5, List.take_of_length_le (Nat.le_of_eq (C.length _))]
  simp only [Spec.pssH, List.nil_append]

theorem pssTrailer_eq (P : Pss) (a b : List Byte) (L : Nat) (hb : b.length = P.hashId.length + 1) (hL : a.length + b.length = L) :
    pssTrailer P (a ++ b) L = .ok (a ++ (P.hashId ++ [if P.hashId = [] then 0xbc else 0xcc])) := by
  obtain ⟨i, t, rfl, hi, ht⟩ := split_at b P.hashId.length 1 (by omega)
  simp only [List.length_append] at hL
  unfold pssTrailer
  by_cases h : P.hashId = []
  · rw [h] at hi ⊢
    rw [List.eq_nil_of_length_eq_zero hi]
    have := write_at a t [] [0xbc] (L - 1) (by simp only [List.length_nil] at hi; omega) (by simp [ht])
    simp only [List.append_nil] at this
    simpa using this
  · rw [if_pos (by simpa using h), if_neg h]
    rw [write_at a i t P.hashId _ (by omega) hi.symm]
    have := write_at (a ++ P.hashId) t [] [0xcc] (L - 1) (by simp; omega) (by simp [ht])
    simp only [List.append_nil, List.append_assoc] at this
    exact this

theorem pssCompute_eq (C : O.Computes H lim Rep) (hd0 : 0 < O.digestSize) (s : σ) (msg : List Byte) (hs : Rep s msg) (P : Pss) (fresh salt rec : List Byte) (bits : Nat)
    (hf : fresh.length = bitsToBytes bits) (hl : salt.length + rec.length + 1 + (P.hashId.length + 1) + O.digestSize ≤ bitsToBytes bits) (h64 : 8 * rec.length < 2 ^ 64)
    (hlim : 8 + rec.length + O.digestSize + salt.length < lim) :
    pssCompute O s P fresh salt rec bits = .ok (Spec.pss H O.digestSize bits P.hashId rec (H msg) salt) := by
  obtain ⟨s1, e1, r1⟩ := C.final s msg O.digestSize hs (Nat.le_refl _)
  rw [List.take_of_length_le (Nat.le_of_eq (C.length _))] at e1
  obtain ⟨s2, s3, e2, e3, r3⟩ := pssUpdates_eq C s1 r1 rec (H msg) salt h64 (by rw [C.length]; omega)
  have hh : (Spec.pssH H rec (H msg) salt).length = O.digestSize := C.length _
  unfold Spec.pss
  simp only
  generalize Spec.pssH H rec (H msg) salt = h at e3 hh ⊢
  unfold pssCompute
  rw [if_neg (by omega), e1]
  simp only [bind, Except.bind]
  rw [e2]
  simp only
  rw [e3]
  simp only
  rw [show (bits + 7) / 8 - O.digestSize - P.hashId.length - 1 = bitsToBytes bits - (P.hashId.length + 1) - O.digestSize by unfold bitsToBytes; omega]
  obtain ⟨n, hn⟩ : ∃ n, n = bitsToBytes bits - (P.hashId.length + 1) - O.digestSize := ⟨_, rfl⟩
  rw [← hn]
  generalize hLL : bitsToBytes bits = L at hf hl hn ⊢
  obtain ⟨r, q, rfl, hr, hq⟩ := split_at fresh n (O.digestSize + (P.hashId.length + 1)) (by omega)
  obtain ⟨h0, idp, rfl, hh0, hidp⟩ := split_at q O.digestSize (P.hashId.length + 1) (by omega)
  rw [write_at r h0 idp h n hr (by omega)]
  simp only
  have rd := read_at [] r (h ++ idp) 0 n rfl hr
  simp only [List.nil_append] at rd
  rw [rd]
  simp only
  rw [mgf1_generate C hd0 s3 r3 r h (by omega)]
  simp only [hr]
  have hmg : (Spec.mgf H O.digestSize h n).length = n := mgf_length H _ hd0 C.length h n
  rw [show MGF H O.digestSize h [] 0 n = Spec.mgf H O.digestSize h n from rfl]
  generalize Spec.mgf H O.digestSize h n = g at hmg ⊢
  have w1 := write_at [] r (h ++ idp) g 0 rfl (by omega)
  simp only [List.nil_append] at w1
  rw [w1]
  simp only
  rw [if_neg (by omega)]
  obtain ⟨g1, g', rfl, hg1, hg'⟩ := split_at g (n - salt.length - rec.length - 1) (1 + rec.length + salt.length) (by omega)
  obtain ⟨g2, g', rfl, hg2, hg'⟩ := split_at g' 1 (rec.length + salt.length) (by omega)
  obtain ⟨g3, g4, rfl, hg3, hg4⟩ := split_at g' rec.length salt.length (by omega)
  simp only [List.append_assoc]
  rw [xorAt_eq g1 g2 _ [1] _ hg1 (by simp [hg2])]
  simp only
  rw [← List.append_assoc g1, xorAt_eq (g1 ++ Spec.xor g2 [1]) g3 _ rec _ (by simp [Spec.xor, hg1, hg2]) hg3.symm]
  simp only
  rw [← List.append_assoc _ (Spec.xor g3 rec), xorAt_eq _ g4 _ salt _ (by simp [Spec.xor, hg1, hg2, hg3]; omega) hg4.symm]
  simp only
  have hX : Spec.xor (Spec.pssDB rec salt n) (g1 ++ (g2 ++ (g3 ++ g4))) = g1 ++ Spec.xor g2 [1] ++ Spec.xor g3 rec ++ Spec.xor g4 salt := by
    unfold Spec.pssDB
    rw [List.append_assoc, List.append_assoc, xor_append _ _ _ _ (by simp [hg1]), xor_zero _ _ hg1, xor_append _ _ _ _ (by simp [hg2]), xor_append _ _ _ _ hg3.symm,
      xor_comm [1], xor_comm rec, xor_comm salt]
    simp
  rw [hX, ← List.append_assoc _ (Spec.xor g4 salt), ← List.append_assoc _ h]
  have hXl : (g1 ++ Spec.xor g2 [1] ++ Spec.xor g3 rec ++ Spec.xor g4 salt).length = n := by simp [Spec.xor, hg1, hg2, hg3, hg4]; omega
  generalize g1 ++ Spec.xor g2 [1] ++ Spec.xor g3 rec ++ Spec.xor g4 salt = X at hXl ⊢
  rw [pssTrailer_eq P (X ++ h) idp L hidp (by simp [hXl, hh, hidp]; omega)]
  simp only [crop_eq]
  rw [List.append_assoc, clear_append _ _ _ (by omega)]

theorem pss_bytes (P : Pss) (bits d : Nat) (h : pssMinBits P d ≤ bits) : P.minPad + P.saltLen + d + P.hashId.length + 2 ≤ bitsToBytes bits := by
  unfold pssMinBits at h; unfold bitsToBytes; omega

theorem pss_rec_bytes (P : Pss) (bits d n : Nat) (h : pssMinBits P d ≤ bits) (hn : n ≤ pssMaxRec P bits d) :
    P.minPad + P.saltLen + d + P.hashId.length + 2 + n ≤ bitsToBytes bits := by
  unfold pssMaxRec at hn
  unfold pssMinBits at h hn; unfold bitsToBytes
  split at hn <;> omega

theorem pss_shape (C : O.Computes H lim Rep) (hd0 : 0 < O.digestSize) (P : Pss) (bits : Nat) (m mh salt : List Byte)
    (hl : salt.length + m.length + 1 + (P.hashId.length + 1) + O.digestSize ≤ (bits + 7) / 8) :
    (Spec.pss H O.digestSize bits P.hashId m mh salt).length = (bits + 7) / 8 ∧
    Spec.clearTop bits (Spec.pss H O.digestSize bits P.hashId m mh salt) = Spec.pss H O.digestSize bits P.hashId m mh salt := by
  have hmg := mgf_length H O.digestSize hd0 C.length
  have hDBl : (Spec.pssDB m salt ((bits + 7) / 8 - O.digestSize - P.hashId.length - 1)).length = (bits + 7) / 8 - O.digestSize - P.hashId.length - 1 := by
    simp [Spec.pssDB]; omega
  have hh : (Spec.pssH H m mh salt).length = O.digestSize := C.length _
  unfold Spec.pss
  simp only
  have hXl : (Spec.xor (Spec.pssDB m salt ((bits + 7) / 8 - O.digestSize - P.hashId.length - 1))
      (Spec.mgf H O.digestSize (Spec.pssH H m mh salt) ((bits + 7) / 8 - O.digestSize - P.hashId.length - 1))).length = (bits + 7) / 8 - O.digestSize - P.hashId.length - 1 := by
    rw [xor_length _ _ (by rw [hmg, hDBl]), hDBl]
  constructor
  · simp only [List.length_append, clear_length, hXl, hh, List.length_singleton]
    omega
  · rw [List.append_assoc, List.append_assoc, clear_append _ _ _ (by rw [clear_length, hXl]; omega)]
    congr 1
    exact clear_clear bits _

/-- The test of the padding length: `k` zero bytes before the separator. -/
def PadOk (P : Pss) (bits k : Nat) : Prop := k < off bits ∨ P.minPad ≤ k - off bits

theorem pssRecover_iff (C : O.Computes H lim Rep) (hd0 : 0 < O.digestSize) (s : σ) (msg : List Byte) (hs : Rep s msg) (P : Pss) (rep : List Byte) (bits : Nat)
    (hb : rep.length = bitsToBytes bits) (htop : Spec.clearTop bits rep = rep) (hl : pssMinBits P O.digestSize ≤ bits) (h64 : bits < 2 ^ 64) (hlim : bitsToBytes bits + 8 < lim) :
    ∃ r, pssRecover O s P rep bits = .ok r ∧ ∀ m, r = some m ↔
      m.length ≤ pssMaxRec P bits O.digestSize ∧ PadOk P bits (bitsToBytes bits - P.hashId.length - 1 - O.digestSize - P.saltLen - m.length - 1) ∧
      ∃ salt : List Byte, salt.length = P.saltLen ∧ rep = Spec.pss H O.digestSize bits P.hashId m (H msg) salt := by
  obtain ⟨s1, e1, r1⟩ := C.final s msg O.digestSize hs (Nat.le_refl _)
  rw [List.take_of_length_le (Nat.le_of_eq (C.length _))] at e1
  have hLb := pss_bytes P bits O.digestSize hl
  have hLm := pss_rec_bytes P bits O.digestSize
  have hpssn : (bits + 7) / 8 - O.digestSize - P.hashId.length - 1 = bitsToBytes bits - (P.hashId.length + 1) - O.digestSize := by unfold bitsToBytes; omega
  have hL64 : 8 * bitsToBytes bits ≤ bits + 7 := by unfold bitsToBytes; omega
  unfold Spec.pss
  simp only
  rw [hpssn]
  unfold pssRecover
  simp only [bind, Except.bind]
  generalize bitsToBytes bits = L at hb hLb hLm hlim hL64 ⊢
  obtain ⟨n, hn⟩ : ∃ n, n = L - (P.hashId.length + 1) - O.digestSize := ⟨_, rfl⟩
  obtain ⟨X, q, rfl, hX, hq⟩ := split_at rep n (O.digestSize + (P.hashId.length + 1)) (by omega)
  obtain ⟨h, q, rfl, hh, hq⟩ := split_at q O.digestSize (P.hashId.length + 1) (by omega)
  obtain ⟨i, t, rfl, hi, ht⟩ := split_at q P.hashId.length 1 (by omega)
  have htopX : Spec.clearTop bits X = X := by
    rw [clear_append _ _ _ (by omega)] at htop
    exact List.append_cancel_right htop
  have rd1 : read (X ++ (h ++ (i ++ t))) (L - 1) 1 = .ok t := by
    have := read_at (X ++ h ++ i) t [] (L - 1) 1 (by simp; omega) ht
    simpa using this
  have rd2 : read (X ++ (h ++ (i ++ t))) (L - (P.hashId.length + 1)) P.hashId.length = .ok i := by
    have := read_at (X ++ h) i t (L - (P.hashId.length + 1)) P.hashId.length (by simp; omega) hi
    simpa using this
  have rd3 : read (X ++ (h ++ (i ++ t))) n O.digestSize = .ok h := read_at X h (i ++ t) n _ hX hh
  have rd4 : read (X ++ (h ++ (i ++ t))) 0 n = .ok X := by
    have := read_at [] X (h ++ (i ++ t)) 0 n rfl hX
    simpa using this
  have hmg := mgf_length H O.digestSize hd0 C.length
  obtain ⟨G, hG⟩ : ∃ G, G = Spec.mgf H O.digestSize h n := ⟨_, rfl⟩
  have hGl : G.length = n := by rw [hG, hmg]
  have em : mgf1 O s1 X h true = .ok (Spec.xor X G) := by
    rw [mgf1_masks C hd0 s1 r1 X h (by omega), hX, hG]; rfl
  obtain ⟨db, hdb⟩ : ∃ db, db = Spec.clearTop bits (Spec.xor X G) := ⟨_, rfl⟩
  have hdbl : db.length = n := by rw [hdb, clear_length, xor_length _ _ (by omega), hX]
  obtain ⟨pre, salt, hps, hpre, hsalt⟩ := split_at db (n - P.saltLen) P.saltLen (by omega)
  have hsp : 0 < n - P.saltLen := by omega
  rw [if_neg (by omega), ← hn, e1]
  simp only
  rw [rd1]; simp only
  rw [rd2]; simp only
  rw [rd3]; simp only
  rw [rd4]; simp only
  rw [em]
  simp only [crop_eq]
  rw [← hdb, if_neg (by omega), hps]
  have htk : (pre ++ salt).take (n - P.saltLen - 1) = pre.dropLast := by
    rw [List.take_append_of_le_length (by omega), List.dropLast_eq_take, hpre]
  rw [htk]
  obtain ⟨M, hM⟩ : ∃ M, M = pre.dropLast.findIdx (fun x : Byte => x != 0) := ⟨_, rfl⟩
  have hMl : M < n - P.saltLen := by
    have : M ≤ pre.dropLast.length := by rw [hM]; exact List.findIdx_le_length
    rw [List.length_dropLast] at this; omega
  rw [← hM]
  have rd5 : read (pre ++ salt) M 1 = .ok [pre.getD M 0] := by
    have e : pre = pre.take M ++ ([pre.getD M 0] ++ pre.drop (M + 1)) := by
      have hlt : M < pre.length := by omega
      simp [List.getD, List.getElem?_eq_getElem hlt]
    have := read_at (pre.take M) [pre.getD M 0] (pre.drop (M + 1) ++ salt) M 1 (by simp; omega) rfl
    rw [← List.append_assoc _ (pre.drop (M + 1)), ← List.append_assoc, ← e] at this
    exact this
  have rd6 : read (pre ++ salt) (n - P.saltLen) P.saltLen = .ok salt := by
    have := read_at pre salt [] (n - P.saltLen) P.saltLen hpre hsalt
    simpa using this
  rw [rd5]; simp only
  rw [rd6]; simp only
  obtain ⟨ok, hok⟩ : ∃ ok, ok = (decide ([pre.getD M 0] = [1]) && (decide (M < off bits) || decide (P.minPad ≤ M - off bits)) &&
    decide (n - P.saltLen - M - 1 ≤ pssMaxRec P bits O.digestSize)) := ⟨_, rfl⟩
  rw [← hok]
  have hseps := fun m => pss_sep pre m (by omega)
  simp only [← hM, hpre] at hseps
  -- the right-hand side, in terms of the decoded block
  have key : ∀ m, (m.length ≤ pssMaxRec P bits O.digestSize ∧ PadOk P bits (L - P.hashId.length - 1 - O.digestSize - P.saltLen - m.length - 1) ∧
      ∃ salt' : List Byte, salt'.length = P.saltLen ∧ X ++ (h ++ (i ++ t)) =
        Spec.clearTop bits (Spec.xor (Spec.pssDB m salt' n) (Spec.mgf H O.digestSize (Spec.pssH H m (H msg) salt') n)) ++ Spec.pssH H m (H msg) salt' ++ P.hashId ++
          [if P.hashId = [] then 0xbc else 0xcc]) ↔
      (ok = true ∧ pre.drop (M + 1) = m ∧ t = [if P.hashId.length ≠ 0 then 0xcc else 0xbc] ∧ i = P.hashId ∧ Spec.pssH H m (H msg) salt = h) := by
    intro m
    have htr : (if P.hashId = [] then (0xbc : Byte) else 0xcc) = if P.hashId.length ≠ 0 then 0xcc else 0xbc := by
      by_cases hid : P.hashId = [] <;> simp [hid]
    rw [hok]
    simp only [Bool.and_eq_true, Bool.or_eq_true, decide_eq_true_eq, List.cons.injEq, and_true]
    rw [htr]
    constructor
    · rintro ⟨hm, hpad, salt', hsl, heq⟩
      simp only [List.append_assoc] at heq
      have hml := hLm m.length hl hm
      have hDBl : (Spec.pssDB m salt' n).length = n := by simp [Spec.pssDB, hsl]; omega
      obtain ⟨hx, heq⟩ := List.append_inj heq (by rw [clear_length, xor_length _ _ (by rw [hmg, hDBl]), hDBl, hX])
      obtain ⟨hhh, heq⟩ := List.append_inj heq (by rw [hh]; exact (C.length _).symm)
      obtain ⟨hii, htt⟩ := List.append_inj heq hi
      rw [← hhh, ← hG] at hx
      have hdb2 : db = Spec.pssDB m salt' n := by
        rw [hdb, hx, clear_xor _ _ _ (by omega)]
        unfold Spec.pssDB
        rw [List.append_assoc _ m, clear_db]
      rw [hdb2] at hps
      unfold Spec.pssDB at hps
      obtain ⟨h1, h2⟩ := List.append_inj hps (by simp [hpre, hsl]; omega)
      have hsep := (hseps m).mpr ⟨by omega, by rw [← h1, hsl]⟩
      have hMm : n - P.saltLen - M - 1 = m.length := by
        rw [← hsep.2, List.length_drop, hpre]; omega
      refine ⟨⟨⟨hsep.1, ?_⟩, by rw [hMm]; exact hm⟩, hsep.2, htt, hii, by rw [← h2, hhh]⟩
      have : M = L - P.hashId.length - 1 - O.digestSize - P.saltLen - m.length - 1 := by omega
      rw [this]; exact hpad
    · rintro ⟨⟨⟨h1, hpad⟩, hmx⟩, hm, htt, hii, hhh⟩
      have hMm : n - P.saltLen - M - 1 = m.length := by rw [← hm, List.length_drop, hpre]; omega
      rw [hMm] at hmx
      have hsep := (hseps m).mp ⟨h1, hm⟩
      have hMk : M = L - P.hashId.length - 1 - O.digestSize - P.saltLen - m.length - 1 := by omega
      refine ⟨hmx, by rw [← hMk]; exact hpad, salt, hsalt, ?_⟩
      have hDB : Spec.pssDB m salt n = db := by
        unfold Spec.pssDB
        rw [hsalt, ← hsep.2, hps]
      rw [hhh, ← hG, hDB, hdb, clear_xor _ _ _ (by omega), htopX, htt, hii]
      simp
  obtain ⟨rec, hrec⟩ : ∃ rec, rec = ((pre ++ salt).drop (M + 1)).take (if ok = true then n - P.saltLen - M - 1 else 0) := ⟨_, rfl⟩
  rw [← hrec]
  have hreclen : rec.length ≤ n - P.saltLen := by rw [hrec, List.length_take]; split <;> omega
  obtain ⟨s2, s3, e2, e3, _⟩ := pssUpdates_eq C s1 r1 rec (H msg) salt (by omega) (by rw [C.length]; omega)
  rw [e2]; simp only
  rw [e3]; simp only
  have hrec1 : ok = true → rec = pre.drop (M + 1) := by
    intro h
    rw [hrec, if_pos h, List.drop_append_of_le_length (by omega), List.take_append_of_le_length (by simp; omega), List.take_of_length_le (by simp; omega)]
  rw [if_neg]
  · refine ⟨_, rfl, ?_⟩
    intro m
    rw [key m]
    by_cases hk : ok = true
    · rw [hrec1 hk, hk]
      simp only [Bool.true_and, Bool.and_eq_true, decide_eq_true_eq]
      constructor
      · intro hh2
        by_cases c : Spec.pssH H (List.drop (M + 1) pre) (H msg) salt = h ∧ i = P.hashId ∧ t = [if P.hashId.length ≠ 0 then 0xcc else 0xbc]
        · rw [if_pos c] at hh2
          simp only [Option.some.injEq] at hh2
          exact ⟨trivial, hh2, c.2.2, c.2.1, by rw [← hh2]; exact c.1⟩
        · rw [if_neg c] at hh2; cases hh2
      · rintro ⟨_, hm, c1, c2, c3⟩
        rw [hm, if_pos ⟨c3, c2, c1⟩]
    · rw [Bool.not_eq_true] at hk
      simp [hk]
  · intro hc
    simp only [Bool.and_eq_true, decide_eq_true_eq, Bool.not_eq_true'] at hc
    obtain ⟨⟨hrv, hv⟩, hne⟩ := hc
    have hk : ok = true := hv.2.1
    rw [if_pos hk] at hne
    rw [hok] at hk
    simp only [Bool.and_eq_true, decide_eq_true_eq] at hk
    have := hk.2
    unfold pssMaxRec at this
    rw [hrv] at this
    simp at this
    omega
end
end Verif.PkPad
