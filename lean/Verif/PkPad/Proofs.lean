import Verif.PkPad.Model
import Verif.PkPad.Spec
import Verif.Kdf.Props

/-! # Proofs about the message encodings -/
namespace Verif.PkPad
open Verif.Hash Verif.Kdf
open Verif.Hmac (write read)

theorem write_at (a b c x : List Byte) (pos : Nat) (ha : a.length = pos) (hx : x.length = b.length) : write (a ++ (b ++ c)) pos x = .ok (a ++ (x ++ c)) := by
  unfold write
  rw [if_pos (by simp; omega)]
  have h1 : (a ++ (b ++ c)).take pos = a := by rw [← ha]; simp
  have h2 : (a ++ (b ++ c)).drop (pos + x.length) = c := by
    rw [← ha, hx, ← List.append_assoc, ← List.length_append]; simp
  rw [h1, h2, List.append_assoc]

theorem read_at (a b c : List Byte) (pos n : Nat) (ha : a.length = pos) (hb : b.length = n) : read (a ++ (b ++ c)) pos n = .ok b := by
  unfold Verif.Hmac.read
  rw [if_pos (by simp; omega), ← ha, List.drop_left, ← hb, List.take_left]

theorem split_at (l : List Byte) (n m : Nat) (h : l.length = n + m) : ∃ a b, l = a ++ b ∧ a.length = n ∧ b.length = m :=
  ⟨l.take n, l.drop n, (List.take_append_drop n l).symm, by simp; omega, by simp; omega⟩

theorem lead_length (bits : Nat) : (Spec.lead bits).length = off bits := by
  unfold Spec.lead off
  by_cases h : bits % 8 = 0 <;> simp [h]

theorem lead_eq (bits : Nat) : Spec.lead bits = List.replicate (off bits) 0 := by
  unfold Spec.lead off
  by_cases h : bits % 8 = 0 <;> simp [h]

theorem bytes_eq (bits : Nat) : bitsToBytes bits = off bits + bits / 8 := by
  unfold bitsToBytes off
  by_cases h : bits % 8 = 0 <;> simp [h] <;> omega

theorem leadZero_eq (z r : List Byte) (bits : Nat) (hz : z.length = off bits) : leadZero (z ++ r) bits = .ok (Spec.lead bits ++ r) := by
  unfold leadZero Spec.lead
  unfold off at hz
  by_cases h : bits % 8 = 0
  · simp only [h, ne_eq, not_true, if_false, if_true] at hz ⊢
    rw [List.eq_nil_of_length_eq_zero hz]
  · simp only [h, ne_eq, not_false_iff, if_true, if_false] at hz ⊢
    exact write_at [] z r [0] 0 rfl (by simp [hz])

/-! ## PKCS #1 v1.5 -/

theorem pkcsFill_eq (rnd : Nat → Byte) (base : Nat) (n i : Nat) (a b c : List Byte) (ha : a.length = base + i) (hb : b.length = n) :
    pkcsFill rnd base n i (a ++ (b ++ c)) = .ok (a ++ ((List.range' i n).map rnd ++ c)) := by
  induction n generalizing i a b with
  | zero => rw [List.eq_nil_of_length_eq_zero hb]; rfl
  | succ n ih =>
    obtain ⟨x, y, rfl, hx, hy⟩ := split_at b 1 n (by omega)
    unfold pkcsFill
    rw [List.append_assoc, write_at a x (y ++ c) [rnd i] (base + i) ha (by simp [hx])]
    show pkcsFill rnd base n (i + 1) _ = _
    rw [← List.append_assoc, ih (i + 1) (a ++ [rnd i]) y (by simp; omega) hy, List.range'_succ]
    simp

theorem pkcsPad_eq (fresh : List Byte) (rnd : Nat → Byte) (input : List Byte) (bits : Nat) (hf : fresh.length = bitsToBytes bits) (hl : input.length + 2 ≤ bits / 8) :
    pkcsPad fresh rnd input bits = .ok (Spec.pkcs bits ((List.range' 1 (bits / 8 - input.length - 2)).map rnd) input) := by
  rw [bytes_eq] at hf
  obtain ⟨z, r, rfl, hz, hr⟩ := split_at fresh _ _ hf
  obtain ⟨a, r, rfl, ha, hr⟩ := split_at r 1 (bits / 8 - 1) (by omega)
  obtain ⟨b, r, rfl, hb, hr⟩ := split_at r (bits / 8 - input.length - 2) (input.length + 1) (by omega)
  obtain ⟨c, m, rfl, hc, hm⟩ := split_at r 1 input.length (by omega)
  unfold pkcsPad
  rw [leadZero_eq _ _ _ hz]
  simp only [bind, Except.bind]
  rw [write_at _ a _ [2] (off bits) (lead_length bits) (by simp [ha])]
  simp only
  rw [if_neg (by omega), show bits / 8 - input.length - 1 - 1 = bits / 8 - input.length - 2 by omega, ← List.append_assoc,
    pkcsFill_eq rnd (off bits) _ 1 _ b _ (by simp [lead_length]) hb]
  simp only
  rw [← List.append_assoc, write_at _ c m [0] _ (by simp [lead_length]; omega) (by simp [hc])]
  simp only
  rw [← List.append_assoc]
  have := write_at (Spec.lead bits ++ [2] ++ List.map rnd (List.range' 1 (bits / 8 - input.length - 2)) ++ [0]) m [] input (off bits + (bits / 8 - input.length))
    (by simp [lead_length]; omega) (by simp [hm])
  simp only [List.append_nil] at this
  rw [this]
  simp only [Spec.pkcs, List.append_assoc]

/-- Where the scan stops. -/
theorem pkcsScan_sep (pre ps : List Byte) (rest : List Byte) (len f : Nat) (hne : ∀ x ∈ ps, x ≠ 0) (hf : ps.length < f) (hlen : pre.length + ps.length + 1 ≤ len) :
    pkcsScan (pre ++ (ps ++ 0 :: rest)) len f pre.length = pre.length + ps.length + 1 := by
  induction ps generalizing pre f with
  | nil =>
    obtain ⟨f, rfl⟩ : ∃ g, f = g + 1 := ⟨f - 1, by omega⟩
    unfold pkcsScan
    rw [if_pos (by simp at hlen; omega), if_neg (by simp)]
    simp
  | cons x ps ih =>
    obtain ⟨f, rfl⟩ : ∃ g, f = g + 1 := ⟨f - 1, by omega⟩
    unfold pkcsScan
    have hx : (pre ++ (x :: ps ++ 0 :: rest)).getD pre.length 0 = x := by simp [List.getD]
    rw [if_pos (by simp at hlen; omega), hx, if_pos (hne x (by simp))]
    have := ih (pre ++ [x]) f (fun y hy => hne y (by simp [hy])) (by simp at hf; omega) (by simp at hlen ⊢; omega)
    simp only [List.append_assoc, List.length_append, List.length_singleton] at this
    simp only [List.cons_append, List.nil_append] at this ⊢
    rw [this]; simp; omega

theorem pkcsScan_none (pre ps : List Byte) (len f : Nat) (hne : ∀ x ∈ ps, x ≠ 0) (hf : ps.length ≤ f) (hlen : pre.length + ps.length = len) :
    pkcsScan (pre ++ ps) len f pre.length = len := by
  induction ps generalizing pre f with
  | nil =>
    cases f with
    | zero => simpa [pkcsScan] using hlen
    | succ f =>
      unfold pkcsScan
      rw [if_neg (by simp at hlen; omega)]
      simpa using hlen
  | cons x ps ih =>
    obtain ⟨f, rfl⟩ : ∃ g, f = g + 1 := ⟨f - 1, by simp at hf; omega⟩
    unfold pkcsScan
    have hx : (pre ++ x :: ps).getD pre.length 0 = x := by simp [List.getD]
    rw [if_pos (by simp at hlen; omega), hx, if_pos (hne x (by simp))]
    have := ih (pre ++ [x]) f (fun y hy => hne y (by simp [hy])) (by simp at hf; omega) (by simp at hlen ⊢; omega)
    simp only [List.append_assoc, List.length_append, List.length_singleton, List.cons_append, List.nil_append] at this
    exact this

/-- A list either has a first zero or none. -/
theorem first_zero (l : List Byte) : (∀ x ∈ l, x ≠ 0) ∨ ∃ ps m, l = ps ++ 0 :: m ∧ ∀ x ∈ ps, x ≠ 0 := by
  induction l with
  | nil => left; simp
  | cons x l ih =>
    by_cases hx : x = 0
    · exact .inr ⟨[], l, by rw [hx]; rfl, by simp⟩
    · rcases ih with h | ⟨ps, m, rfl, h⟩
      · left; intro y hy
        rcases List.mem_cons.mp hy with rfl | hy
        · exact hx
        · exact h y hy
      · exact .inr ⟨x :: ps, m, rfl, fun y hy => by
          rcases List.mem_cons.mp hy with rfl | hy
          · exact hx
          · exact h y hy⟩

theorem first_zero_unique (ps m ps' m' : List Byte) (h : ∀ x ∈ ps, x ≠ 0) (h' : ∀ x ∈ ps', x ≠ 0) (e : ps ++ 0 :: m = ps' ++ ([0] ++ m')) : m = m' := by
  induction ps generalizing ps' with
  | nil =>
    cases ps' with
    | nil => simpa using e
    | cons y ps' =>
      simp only [List.nil_append, List.cons_append, List.cons.injEq] at e
      exact absurd e.1.symm (h' y (by simp))
  | cons x ps ih =>
    cases ps' with
    | nil =>
      simp only [List.nil_append, List.cons_append, List.cons.injEq] at e
      exact absurd e.1 (h x (by simp))
    | cons y ps' =>
      simp only [List.cons_append, List.cons.injEq] at e
      exact ih ps' (fun z hz => h z (by simp [hz])) (fun z hz => h' z (by simp [hz])) e.2

/-- What `Unpad` does with every block: `z` the leading byte if any, `t` the type. -/
theorem pkcsUnpad_sep (z ps m : List Byte) (t : Byte) (bits : Nat) (hz : z.length = off bits) (hl : ps.length + m.length + 2 = bits / 8) (hne : ∀ x ∈ ps, x ≠ 0) :
    pkcsUnpad (z ++ ([t] ++ (ps ++ 0 :: m))) bits = .ok (if z = Spec.lead bits ∧ t = 2 ∧ m.length ≤ pkcsMax bits then some m else none) := by
  unfold pkcsUnpad
  have h0 : read (z ++ ([t] ++ (ps ++ 0 :: m))) 0 (off bits) = .ok z := by simpa using read_at [] z ([t] ++ (ps ++ 0 :: m)) 0 (off bits) rfl hz
  have hd : (z ++ ([t] ++ (ps ++ 0 :: m))).drop (off bits) = [t] ++ (ps ++ 0 :: m) := by rw [← hz, List.drop_left]
  have h1 : read ([t] ++ (ps ++ 0 :: m)) 0 1 = .ok [t] := by simpa using read_at [] [t] (ps ++ 0 :: m) 0 1 rfl rfl
  have h2 : pkcsScan ([t] ++ (ps ++ 0 :: m)) (bits / 8) (bits / 8) 1 = 1 + ps.length + 1 := pkcsScan_sep [t] ps m (bits / 8) (bits / 8) hne (by omega) (by simp; omega)
  have h3 : read ([t] ++ (ps ++ 0 :: m)) (1 + ps.length + 1) m.length = .ok m := by
    have := read_at ([t] ++ ps ++ [0]) m [] (1 + ps.length + 1) m.length (by simp; omega) rfl
    simpa using this
  have h4 : bits / 8 - (1 + ps.length + 1) = m.length := by omega
  rw [h0]
  simp only [bind, Except.bind, hd, h1, h2, h4]
  rw [if_neg (by omega), lead_eq]
  by_cases c : z = List.replicate (off bits) 0 ∧ t = 2 ∧ m.length ≤ pkcsMax bits
  · rw [if_pos c, if_neg (by simp [c.1, c.2.1, c.2.2]), h3]
  · rw [if_neg c, if_pos]
    simp only [Bool.or_eq_true, decide_eq_true_eq]
    by_cases c1 : z = List.replicate (off bits) 0
    · by_cases c2 : t = 2
      · exact .inl (by have : ¬ m.length ≤ pkcsMax bits := fun h => c ⟨c1, c2, h⟩
                       omega)
      · exact .inr (.inl (by simpa using c2))
    · exact .inr (.inr c1)

theorem pkcsUnpad_nosep (z ps : List Byte) (t : Byte) (bits : Nat) (hz : z.length = off bits) (hl : ps.length + 1 = bits / 8) (hne : ∀ x ∈ ps, x ≠ 0) :
    pkcsUnpad (z ++ ([t] ++ ps)) bits = .ok (if z = Spec.lead bits ∧ t = 2 then some [] else none) := by
  unfold pkcsUnpad
  have h0 : read (z ++ ([t] ++ ps)) 0 (off bits) = .ok z := by simpa using read_at [] z ([t] ++ ps) 0 (off bits) rfl hz
  have hd : (z ++ ([t] ++ ps)).drop (off bits) = [t] ++ ps := by rw [← hz, List.drop_left]
  have h1 : read ([t] ++ ps) 0 1 = .ok [t] := by simpa using read_at [] [t] ps 0 1 rfl rfl
  have h2 : pkcsScan ([t] ++ ps) (bits / 8) (bits / 8) 1 = bits / 8 := pkcsScan_none [t] ps (bits / 8) (bits / 8) hne (by omega) (by simp; omega)
  have h3 : read ([t] ++ ps) (bits / 8) 0 = .ok [] := by
    have := read_at ([t] ++ ps) [] [] (bits / 8) 0 (by simp; omega) rfl
    simpa using this
  rw [h0]
  simp only [bind, Except.bind, hd, h1, h2, Nat.sub_self]
  rw [if_neg (by omega), lead_eq]
  by_cases c : z = List.replicate (off bits) 0 ∧ t = 2
  · rw [if_pos c, if_neg (by simp [c.1, c.2]), h3]
  · rw [if_neg c, if_pos]
    simp only [Bool.or_eq_true, decide_eq_true_eq]
    by_cases c1 : z = List.replicate (off bits) 0
    · exact .inr (.inl (by simpa using fun h => c ⟨c1, h⟩))
    · exact .inr (.inr c1)

section
variable {σ : Type} {O : Obj σ} {H : List Byte → List Byte} {lim : Nat} {Rep : σ → List Byte → Prop}

theorem pkcs1Compute_eq (C : O.Computes H lim Rep) (s : σ) (msg : List Byte) (hs : Rep s msg) (fresh hashId : List Byte) (bits : Nat) (hf : fresh.length = bitsToBytes bits)
    (hl : hashId.length + O.digestSize + 2 ≤ bits / 8) : ∃ s', pkcs1Compute O s fresh hashId bits = .ok (s', Spec.pkcs1 bits (hashId ++ H msg)) ∧ Rep s' [] := by
  obtain ⟨s', hfin, hrep⟩ := C.final s msg O.digestSize hs (Nat.le_refl _)
  rw [List.take_of_length_le (by rw [C.length]; omega)] at hfin
  refine ⟨s', ?_, hrep⟩
  rw [bytes_eq] at hf
  obtain ⟨z, r, rfl, hz, hr⟩ := split_at fresh _ _ hf
  obtain ⟨a, r, rfl, ha, hr⟩ := split_at r 1 (bits / 8 - 1) (by omega)
  obtain ⟨b, r, rfl, hb, hr⟩ := split_at r (bits / 8 - (hashId.length + O.digestSize) - 2) (hashId.length + O.digestSize + 1) (by omega)
  obtain ⟨c, r, rfl, hc, hr⟩ := split_at r 1 (hashId.length + O.digestSize) (by omega)
  obtain ⟨i, g, rfl, hi, hg⟩ := split_at r hashId.length O.digestSize (by omega)
  unfold pkcs1Compute
  rw [leadZero_eq _ _ _ hz]
  simp only [bind, Except.bind]
  rw [write_at _ a _ [1] (off bits) (lead_length bits) (by simp [ha])]
  simp only
  rw [if_neg (by omega), ← List.append_assoc, show bits / 8 - O.digestSize - hashId.length - 1 - 1 = bits / 8 - (hashId.length + O.digestSize) - 2 by omega,
    write_at _ b _ _ _ (by simp [lead_length]) (by simp [hb])]
  simp only
  rw [← List.append_assoc, write_at _ c _ [0] _ (by simp [lead_length]; omega) (by simp [hc])]
  simp only
  rw [← List.append_assoc, write_at _ i _ hashId _ (by simp [lead_length]; omega) (by simp [hi])]
  simp only [hfin]
  rw [← List.append_assoc]
  have := write_at (Spec.lead bits ++ [1] ++ List.replicate (bits / 8 - (hashId.length + O.digestSize) - 2) 0xff ++ [0] ++ hashId) g [] (H msg) (off bits + (bits / 8 - O.digestSize))
    (by simp [lead_length]; omega) (by rw [C.length, hg])
  simp only [List.append_nil] at this
  rw [this]
  simp only [Spec.pkcs1, List.length_append, C.length, List.append_assoc]

theorem emsa2Compute_eq (C : O.Computes H lim Rep) (s : σ) (msg : List Byte) (hs : Rep s msg) (fresh : List Byte) (hashId : Byte) (empty : Bool) (bits : Nat)
    (hf : fresh.length = bitsToBytes bits) (hl : emsa2MinBits O.digestSize ≤ bits) (h7 : bits % 8 = 7) :
    ∃ s', emsa2Compute O s fresh hashId empty bits = .ok (s', Spec.emsa2 (bitsToBytes bits) empty (H msg) hashId) ∧ Rep s' [] := by
  obtain ⟨s', hfin, hrep⟩ := C.final s msg O.digestSize hs (Nat.le_refl _)
  rw [List.take_of_length_le (by rw [C.length]; omega)] at hfin
  refine ⟨s', ?_, hrep⟩
  unfold emsa2MinBits at hl
  have hL : O.digestSize + 4 ≤ bitsToBytes bits := by unfold bitsToBytes; omega
  unfold emsa2Compute
  rw [if_neg (by omega)]
  generalize bitsToBytes bits = L at hf hL ⊢
  obtain ⟨a, r, rfl, ha, hr⟩ := split_at fresh 1 (L - 1) (by omega)
  obtain ⟨b, r, rfl, hb, hr⟩ := split_at r (L - O.digestSize - 4) (O.digestSize + 3) (by omega)
  obtain ⟨c, r, rfl, hc, hr⟩ := split_at r 1 (O.digestSize + 2) (by omega)
  obtain ⟨g, r, rfl, hg, hr⟩ := split_at r O.digestSize 2 (by omega)
  obtain ⟨i, t, rfl, hi, ht⟩ := split_at r 1 1 (by omega)
  simp only [bind, Except.bind]
  have h0 := write_at [] a (b ++ (c ++ (g ++ (i ++ t)))) [if empty then 0x4b else 0x6b] 0 rfl (by simp [ha])
  simp only [List.nil_append] at h0
  rw [h0]
  simp only
  rw [if_neg (by omega), write_at _ b _ _ _ (by simp) (by simp [hb])]
  simp only
  rw [← List.append_assoc, write_at _ c _ [0xba] _ (by simp; omega) (by simp [hc])]
  simp only [hfin]
  rw [← List.append_assoc, write_at _ g _ (H msg) _ (by simp; omega) (by rw [C.length, hg])]
  simp only
  rw [← List.append_assoc, write_at _ i _ [hashId] _ (by simp [C.length]; omega) (by simp [hi])]
  simp only
  rw [← List.append_assoc]
  have := write_at ([if empty then (0x4b : Byte) else 0x6b] ++ List.replicate (L - O.digestSize - 4) 0xbb ++ [0xba] ++ H msg ++ [hashId]) t [] [0xcc] (L - 1)
    (by simp [C.length]; omega) (by simp [ht])
  simp only [List.append_nil] at this
  rw [this]
  simp [Spec.emsa2, C.length]

end
end Verif.PkPad
