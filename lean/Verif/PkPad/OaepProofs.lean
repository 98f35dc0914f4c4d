import Mathlib.Tactic.ByContra
import Verif.PkPad.Proofs

/-! # Proofs about OAEP -/
namespace Verif.PkPad
open Verif.Hash Verif.Kdf
open Verif.Hmac (write read)

theorem xor_cancel (a g : List Byte) (h : a.length ≤ g.length) : Spec.xor (Spec.xor a g) g = a := by
  unfold Spec.xor
  induction a generalizing g with
  | nil => simp
  | cons x a ih =>
    cases g with
    | nil => simp at h
    | cons y g => simp [BitVec.xor_assoc, ih g (by simpa using h)]

theorem xor_length (a g : List Byte) (h : g.length = a.length) : (Spec.xor a g).length = a.length := by simp [Spec.xor, h]

theorem mgf_length (H : List Byte → List Byte) (d : Nat) (hd : 0 < d) (hH : ∀ m, (H m).length = d) (Z : List Byte) (n : Nat) : (Spec.mgf H d Z n).length = n := by
  unfold Spec.mgf MGF blocks
  rw [List.length_take, List.length_flatMap]
  have hsum : ∀ k, ((List.range k).map fun i => (H (Z ++ beBytes 4 (0 + i) ++ [])).length).sum = d * k := by
    intro k
    induction k with
    | zero => rfl
    | succ k ih => rw [List.range_succ, List.map_append, List.sum_append, ih]; simp [hH, Nat.mul_succ]
  rw [hsum]
  apply Nat.min_eq_left
  have := Nat.div_add_mod (n + d - 1) d
  have := Nat.mod_lt (n + d - 1) hd
  omega

/-- The separator of the data block: what `std::find` and `FindIfNot` accept. -/
theorem sep_spec (tail m : List Byte) :
    (tail.findIdx (· == 1) ≠ tail.length ∧ (tail.take (tail.findIdx (· == 1))).any (· != 0) = false ∧ tail.drop (tail.findIdx (· == 1) + 1) = m) ↔
    (m.length + 1 ≤ tail.length ∧ tail = List.replicate (tail.length - m.length - 1) 0 ++ [1] ++ m) := by
  induction tail with
  | nil => simp
  | cons x t ih =>
    by_cases hx : x = 1
    · subst hx
      have hf : (1 :: t).findIdx (fun x : Byte => x == 1) = 0 := by simp [List.findIdx_cons]
      rw [hf]
      constructor
      · rintro ⟨_, _, h⟩
        simp only [Nat.zero_add, List.drop_succ_cons, List.drop_zero] at h
        subst h
        exact ⟨by simp, by simp⟩
      · rintro ⟨h1, h2⟩
        have hk : (1 :: t).length - m.length - 1 = 0 := by
          by_contra hne
          obtain ⟨k, hk⟩ : ∃ k, (1 :: t).length - m.length - 1 = k + 1 := Nat.exists_eq_succ_of_ne_zero (by omega)
          rw [hk, List.replicate_succ] at h2
          simp at h2
        rw [hk] at h2
        simp only [List.replicate_zero, List.nil_append, List.singleton_append, List.cons.injEq, true_and] at h2
        subst h2
        exact ⟨by simp, by simp, by simp⟩
    · have hf : (x :: t).findIdx (fun x : Byte => x == 1) = t.findIdx (· == 1) + 1 := by
        rw [List.findIdx_cons, beq_eq_false_iff_ne.mpr hx]; rfl
      rw [hf]
      by_cases h0 : x = 0
      · subst h0
        have : ∀ k, ((0 :: t).take (k + 1)).any (fun x : Byte => x != 0) = (t.take k).any (· != 0) := by intro k; simp
        rw [this]
        simp only [List.length_cons, List.drop_succ_cons, ne_eq, Nat.add_right_cancel_iff]
        rw [show (¬ List.findIdx (fun x : Byte => x == 1) t = t.length) = (List.findIdx (fun x : Byte => x == 1) t ≠ t.length) from rfl, ih]
        constructor
        · rintro ⟨h1, h2⟩
          refine ⟨by omega, ?_⟩
          rw [show t.length + 1 - m.length - 1 = (t.length - m.length - 1) + 1 by omega, List.replicate_succ]
          simp only [List.cons_append, List.cons.injEq, true_and]
          exact h2
        · rintro ⟨h1, h2⟩
          by_cases hm : m.length + 1 ≤ t.length
          · rw [show t.length + 1 - m.length - 1 = (t.length - m.length - 1) + 1 by omega, List.replicate_succ] at h2
            simp only [List.cons_append, List.cons.injEq, true_and] at h2
            exact ⟨hm, h2⟩
          · rw [show t.length + 1 - m.length - 1 = 0 by omega] at h2
            simp at h2
      · have : ∀ k, ((x :: t).take (k + 1)).any (fun x : Byte => x != 0) = true := by
          intro k
          rw [List.take_succ_cons, List.any_cons, bne_iff_ne.mpr h0]; rfl
        rw [this]
        constructor
        · rintro ⟨_, h, _⟩; cases h
        · rintro ⟨h1, h2⟩
          exfalso
          rcases Nat.eq_zero_or_pos ((x :: t).length - m.length - 1) with h | h
          · rw [h] at h2; simp at h2; exact hx h2.1
          · obtain ⟨k, hk⟩ : ∃ k, (x :: t).length - m.length - 1 = k + 1 := Nat.exists_eq_succ_of_ne_zero (by omega)
            rw [hk, List.replicate_succ] at h2
            simp at h2; exact h0 h2.1

section
variable {σ : Type} {O : Obj σ} {H : List Byte → List Byte} {lim : Nat} {Rep : σ → List Byte → Prop}

theorem oaepPad_eq (C : O.Computes H lim Rep) (hd0 : 0 < O.digestSize) (s : σ) (hs : Rep s []) (fresh seed label input : List Byte) (bits : Nat)
    (hf : fresh.length = bitsToBytes bits) (hseed : seed.length = O.digestSize) (hl : input.length + 2 * O.digestSize + 1 ≤ bits / 8)
    (hlab : label.length < lim) (hlim : bits / 8 + 4 < lim) :
    oaepPad O s fresh seed label input bits = .ok (Spec.oaep H O.digestSize bits label seed input) := by
  obtain ⟨s', hdig, hrep⟩ := C.calculateDigest s [] label hs (by simpa using hlab)
  rw [List.nil_append] at hdig
  rw [bytes_eq] at hf
  have hn : bits / 8 - O.digestSize = O.digestSize + (bits / 8 - O.digestSize - O.digestSize) := by omega
  obtain ⟨z, r, rfl, hz, hr⟩ := split_at fresh _ _ hf
  obtain ⟨sd, r, rfl, hsd, hr⟩ := split_at r O.digestSize (bits / 8 - O.digestSize) (by omega)
  obtain ⟨g, r, rfl, hg, hr⟩ := split_at r O.digestSize (bits / 8 - O.digestSize - O.digestSize) (by omega)
  obtain ⟨b, r, rfl, hb, hr⟩ := split_at r (bits / 8 - O.digestSize - O.digestSize - input.length - 1) (input.length + 1) (by omega)
  obtain ⟨c, m, rfl, hc, hm⟩ := split_at r 1 input.length (by omega)
  unfold oaepPad
  rw [leadZero_eq _ _ _ hz]
  simp only [bind, Except.bind]
  rw [if_neg (by omega), hdig]
  simp only
  have hl0 := lead_length bits
  rw [← List.append_assoc (Spec.lead bits), write_at _ g _ (H label) _ (by simp [hl0, hsd]) (by rw [C.length, hg])]
  simp only
  rw [if_neg (by omega), ← List.append_assoc _ (H label), write_at _ b _ _ _ (by simp [hl0, hsd, C.length]; try omega) (by simp [hb])]
  simp only
  rw [← List.append_assoc _ (List.replicate _ _), write_at _ c _ [1] _ (by simp [hl0, hsd, C.length]; omega) (by simp [hc])]
  simp only
  rw [← List.append_assoc _ [1]]
  have h5 := write_at (Spec.lead bits ++ sd ++ H label ++ List.replicate (bits / 8 - O.digestSize - O.digestSize - input.length - 1) 0 ++ [1]) m [] input
    (off bits + O.digestSize + (bits / 8 - O.digestSize - input.length)) (by simp [hl0, hsd, C.length]; omega) (by simp [hm])
  simp only [List.append_nil] at h5
  rw [h5]
  have hDB : Spec.lead bits ++ sd ++ H label ++ List.replicate (bits / 8 - O.digestSize - O.digestSize - input.length - 1) 0 ++ [1] ++ input =
      Spec.lead bits ++ (sd ++ Spec.oaepDB H O.digestSize label input (bits / 8 - O.digestSize)) := by simp [Spec.oaepDB]
  rw [hDB]
  have hDBl : (Spec.oaepDB H O.digestSize label input (bits / 8 - O.digestSize)).length = bits / 8 - O.digestSize := by
    simp [Spec.oaepDB, C.length]; omega
  unfold Spec.oaep
  simp only
  generalize Spec.oaepDB H O.digestSize label input (bits / 8 - O.digestSize) = DB at hDBl ⊢
  rw [write_at _ sd _ seed _ hl0 (by omega)]
  simp only
  have r1 := read_at (Spec.lead bits ++ seed) DB [] (off bits + O.digestSize) (bits / 8 - O.digestSize) (by simp [hl0, hseed]) hDBl
  simp only [List.append_nil, List.append_assoc] at r1
  rw [r1]
  simp only
  rw [read_at _ seed _ _ _ hl0 hseed]
  simp only
  rw [mgf1_masks C hd0 s' hrep DB seed (by omega)]
  simp only [hDBl]
  have hm1 : List.zipWith (· ^^^ ·) DB (MGF H O.digestSize seed [] 0 (bits / 8 - O.digestSize)) = Spec.xor DB (Spec.mgf H O.digestSize seed (bits / 8 - O.digestSize)) := rfl
  rw [hm1]
  have hM : (Spec.xor DB (Spec.mgf H O.digestSize seed (bits / 8 - O.digestSize))).length = bits / 8 - O.digestSize := by
    rw [xor_length _ _ (by rw [mgf_length H _ hd0 C.length, hDBl]), hDBl]
  generalize Spec.xor DB (Spec.mgf H O.digestSize seed (bits / 8 - O.digestSize)) = MDB at hM ⊢
  have w1 := write_at (Spec.lead bits ++ seed) DB [] MDB (off bits + O.digestSize) (by simp [hl0, hseed]) (by omega)
  simp only [List.append_nil, List.append_assoc] at w1
  rw [w1]
  simp only
  rw [mgf1_masks C hd0 s' hrep seed MDB (by omega)]
  simp only [hseed]
  have hm2 : List.zipWith (· ^^^ ·) seed (MGF H O.digestSize MDB [] 0 O.digestSize) = Spec.xor seed (Spec.mgf H O.digestSize MDB O.digestSize) := rfl
  rw [hm2, write_at _ seed _ _ _ hl0 (by rw [xor_length _ _ (by rw [mgf_length H _ hd0 C.length, hseed])])]
  rw [List.append_assoc]

/-- What `Unpad` returns for every block long enough. -/
theorem oaepUnpad_iff (C : O.Computes H lim Rep) (hd0 : 0 < O.digestSize) (s : σ) (hs : Rep s []) (block label : List Byte) (bits : Nat)
    (hb : block.length = bitsToBytes bits) (hl : 2 * O.digestSize ≤ bits / 8) (hlab : label.length < lim) (hlim : bits / 8 + 4 < lim) :
    ∃ r, oaepUnpad O s block label bits = .ok r ∧ ∀ m, r = some m ↔
      m.length + 2 * O.digestSize + 1 ≤ bits / 8 ∧ ∃ seed : List Byte, seed.length = O.digestSize ∧ block = Spec.oaep H O.digestSize bits label seed m := by
  obtain ⟨s', hdig, hrep⟩ := C.calculateDigest s [] label hs (by simpa using hlab)
  rw [List.nil_append] at hdig
  rw [bytes_eq] at hb
  obtain ⟨z, r, rfl, hz, hr⟩ := split_at block _ _ hb
  obtain ⟨ms, mdb, rfl, hms, hmdb⟩ := split_at r O.digestSize (bits / 8 - O.digestSize) (by omega)
  have h0 : read (z ++ (ms ++ mdb)) 0 (off bits) = .ok z := by simpa using read_at [] z (ms ++ mdb) 0 (off bits) rfl hz
  have h1 : read (z ++ (ms ++ mdb)) (off bits) (bits / 8) = .ok (ms ++ mdb) := by
    have := read_at z (ms ++ mdb) [] (off bits) (bits / 8) hz (by simp; omega)
    simpa using this
  have hmgf := mgf_length H O.digestSize hd0 C.length
  obtain ⟨seed, hseed⟩ : ∃ x, x = Spec.xor ms (Spec.mgf H O.digestSize mdb O.digestSize) := ⟨_, rfl⟩
  have e1 : mgf1 O s ms mdb true = .ok seed := by
    rw [mgf1_masks C hd0 s hs ms mdb (by omega), hms, hseed]; rfl
  have hseedl : seed.length = O.digestSize := by rw [hseed, xor_length _ _ (by rw [hmgf, hms]), hms]
  obtain ⟨db, hdb⟩ : ∃ x, x = Spec.xor mdb (Spec.mgf H O.digestSize seed (bits / 8 - O.digestSize)) := ⟨_, rfl⟩
  have e2 : mgf1 O s mdb seed true = .ok db := by
    rw [mgf1_masks C hd0 s hs mdb seed (by omega), hmdb, hdb]; rfl
  have hdbl : db.length = bits / 8 - O.digestSize := by rw [hdb, xor_length _ _ (by rw [hmgf, hmdb]), hmdb]
  unfold oaepUnpad
  rw [h0]
  simp only [bind, Except.bind]
  rw [if_neg (by omega), h1]
  simp only
  rw [show (ms ++ mdb).take O.digestSize = ms by rw [← hms]; simp, show (ms ++ mdb).drop O.digestSize = mdb by rw [← hms]; simp, e1]
  simp only
  rw [e2]
  simp only [hdig]
  have key : ∀ m, (z = Spec.lead bits ∧ db.take O.digestSize = H label ∧ m.length + 1 ≤ (db.drop O.digestSize).length ∧
      db.drop O.digestSize = List.replicate ((db.drop O.digestSize).length - m.length - 1) 0 ++ [1] ++ m) ↔
      (m.length + 2 * O.digestSize + 1 ≤ bits / 8 ∧ ∃ sd : List Byte, sd.length = O.digestSize ∧ z ++ (ms ++ mdb) = Spec.oaep H O.digestSize bits label sd m) := by
    intro m
    rw [List.length_drop, hdbl]
    constructor
    · rintro ⟨a, b, c, e⟩
      refine ⟨by omega, seed, hseedl, ?_⟩
      have hDB : Spec.oaepDB H O.digestSize label m (bits / 8 - O.digestSize) = db := by
        unfold Spec.oaepDB
        rw [← b, List.append_assoc, List.append_assoc, ← List.append_assoc (List.replicate _ _), ← e, List.take_append_drop]
      unfold Spec.oaep
      simp only [hDB]
      rw [hdb, xor_cancel _ _ (Nat.le_of_eq (by rw [hmgf, hmdb])), hseed, xor_cancel _ _ (Nat.le_of_eq (by rw [hmgf, hms])), a, List.append_assoc]
    · rintro ⟨hlen, sd, hsd, h⟩
      unfold Spec.oaep at h
      simp only [List.append_assoc] at h
      have hDBl : (Spec.oaepDB H O.digestSize label m (bits / 8 - O.digestSize)).length = bits / 8 - O.digestSize := by simp [Spec.oaepDB, C.length]; omega
      obtain ⟨hz', h⟩ := List.append_inj h (by rw [hz, lead_length])
      obtain ⟨ha, hb'⟩ := List.append_inj h (by rw [hms, xor_length _ _ (by rw [hmgf, hsd]), hsd])
      have hs2 : seed = sd := by rw [hseed, ha, ← hb', xor_cancel _ _ (Nat.le_of_eq (by rw [hmgf, hsd]))]
      have hd2 : db = Spec.oaepDB H O.digestSize label m (bits / 8 - O.digestSize) := by
        rw [hdb, hs2, hb', xor_cancel _ _ (Nat.le_of_eq (by rw [hmgf, hDBl]))]
      rw [hd2]
      unfold Spec.oaepDB
      refine ⟨hz', ?_, by omega, ?_⟩
      · rw [List.append_assoc, List.append_assoc, List.take_append_of_le_length (Nat.le_of_eq (C.length _).symm), List.take_of_length_le (Nat.le_of_eq (C.length _))]
      · rw [List.append_assoc, List.append_assoc, ← C.length label, List.drop_left, C.length, ← List.append_assoc]
  refine ⟨_, (apply_ite Except.ok _ _ _).symm, ?_⟩
  intro m
  rw [← key m, ← and_assoc, ← sep_spec]
  obtain ⟨pos, hpos⟩ : ∃ p, p = (db.drop O.digestSize).findIdx (fun x : Byte => x == 1) := ⟨_, rfl⟩
  rw [← hpos, List.length_drop, hdbl, lead_eq]
  have c5 : pos ≠ bits / 8 - O.digestSize - O.digestSize → 2 * O.digestSize + 1 ≤ bits / 8 := by
    intro hne
    by_contra hlt
    have : (db.drop O.digestSize).length = 0 := by rw [List.length_drop, hdbl]; omega
    have : pos = 0 := by rw [hpos, List.eq_nil_of_length_eq_zero this]; rfl
    omega
  simp
  constructor
  · rintro ⟨⟨a, b, c, e, f⟩, g⟩; exact ⟨⟨f, a.symm⟩, c, b, g⟩
  · rintro ⟨⟨f, a⟩, c, b, g⟩; exact ⟨⟨a.symm, b, c, c5 c, f⟩, g⟩
end
end Verif.PkPad
