import Verif.Drbg.Carry
import Verif.Kdf.Proofs

/-! # The generators compute SP 800-90A -/
namespace Verif.Drbg
open Verif.Hash

variable {σ : Type} {O : Obj σ} {H : List Byte → List Byte} {lim : Nat} {Rep : σ → List Byte → Prop}

theorem bind_ok {α β : Type} (a : α) (f : α → Except Err β) : (Except.ok a >>= f) = f a := rfl

theorem feed_spec (C : O.Computes H lim Rep) : ∀ (xs : List (List Byte)) (s : σ) (m : List Byte), Rep s m → m.length + xs.flatten.length < lim →
    ∃ s', feed O s xs = .ok s' ∧ Rep s' (m ++ xs.flatten) := by
  intro xs
  induction xs with
  | nil => intro s m h _; exact ⟨s, rfl, by simpa using h⟩
  | cons x xs ih =>
    intro s m h hl
    simp only [List.flatten_cons, List.length_append] at hl
    unfold feed
    by_cases hx : x.length ≠ 0
    · rw [if_pos hx]
      obtain ⟨s1, e, r⟩ := C.update s m x h (by simp [-List.length_flatten]; omega)
      obtain ⟨s2, e2, r2⟩ := ih s1 (m ++ x) r (by simp [-List.length_flatten]; omega)
      rw [e]
      refine ⟨s2, e2, ?_⟩
      simpa using r2
    · rw [if_neg hx]
      have : x = [] := List.eq_nil_of_length_eq_zero (not_not.1 hx)
      subst this
      exact ih s m h (by simpa using hl)

theorem updates_spec (C : O.Computes H lim Rep) : ∀ (xs : List (List Byte)) (s : σ) (m : List Byte), Rep s m → m.length + xs.flatten.length < lim →
    ∃ s', updates O s xs = .ok s' ∧ Rep s' (m ++ xs.flatten) := by
  intro xs
  induction xs with
  | nil => intro s m h _; exact ⟨s, rfl, by simpa using h⟩
  | cons x xs ih =>
    intro s m h hl
    simp only [List.flatten_cons, List.length_append] at hl
    unfold updates
    obtain ⟨s1, e, r⟩ := C.update s m x h (by simp [-List.length_flatten]; omega)
    obtain ⟨s2, e2, r2⟩ := ih s1 (m ++ x) r (by simp [-List.length_flatten]; omega)
    rw [e]
    refine ⟨s2, e2, ?_⟩
    simpa using r2

theorem ceil_step (n D : Nat) (hD : 0 < D) (hn : n ≠ 0) : (n + D - 1) / D = (n - min n D + D - 1) / D + 1 := by
  by_cases h : n ≤ D
  · have e : n + D - 1 = (n - 1) + D := by omega
    have e2 : (D - 1) / D = 0 := Nat.div_eq_of_lt (by omega)
    rw [Nat.min_eq_left h, Nat.sub_self, Nat.zero_add, e2, e, Nat.add_div_right _ hD, Nat.div_eq_of_lt (by omega)]
  · rw [Nat.min_eq_right (by omega)]
    have : n + D - 1 = (n - D + D - 1) + D := by omega
    rw [this, Nat.add_div_right _ hD]

theorem ceil_zero (D : Nat) (hD : 0 < D) : (0 + D - 1) / D = 0 := Nat.div_eq_of_lt (by omega)

theorem take_block (x rest : List Byte) (n D : Nat) (hx : x.length = D) : (x ++ rest).take n = x.take (min n D) ++ rest.take (n - min n D) := by
  rw [List.take_append, hx]
  congr 1
  · by_cases h : n ≤ D
    · rw [Nat.min_eq_left h]
    · rw [Nat.min_eq_right (by omega), List.take_of_length_le (by omega), List.take_of_length_le (by omega)]
  · congr 1; omega

section hash
variable (C : O.Computes H lim Rep) (hD : 0 < O.digestSize)
include C hD

theorem hashUpdateLoop_spec (bits : Nat) (inputs : List (List Byte)) (hl : 5 + inputs.flatten.length < lim) : ∀ (fuel : Nat) (s : σ) (i n : Nat), Rep s [] → n ≤ fuel →
    ∃ s', hashUpdateLoop O (beBytes 4 bits) inputs fuel s (BitVec.ofNat 8 i) n =
      .ok (s', (Spec.dfBlocks H bits inputs.flatten ((n + O.digestSize - 1) / O.digestSize) i).take n) ∧ Rep s' [] := by
  intro fuel
  induction fuel with
  | zero =>
    intro s i n hr hn
    have : n = 0 := by omega
    subst this
    exact ⟨s, by simp [hashUpdateLoop], hr⟩
  | succ fuel ih =>
    intro s i n hr hn
    unfold hashUpdateLoop
    by_cases h0 : n = 0
    · rw [if_pos h0]; subst h0; exact ⟨s, by simp, hr⟩
    rw [if_neg h0]
    obtain ⟨s1, e1, r1⟩ := C.update s [] [BitVec.ofNat 8 i] hr (by simp [-List.length_flatten]; omega)
    obtain ⟨s2, e2, r2⟩ := C.update s1 _ (beBytes 4 bits) r1 (by simp [-List.length_flatten]; omega)
    obtain ⟨s3, e3, r3⟩ := feed_spec C inputs s2 _ r2 (by simp [-List.length_flatten]; omega)
    obtain ⟨s4, e4, r4⟩ := C.final s3 _ (min n O.digestSize) r3 (Nat.min_le_right _ _)
    obtain ⟨s5, e5, r5⟩ := ih s4 (i + 1) (n - min n O.digestSize) r4 (by omega)
    have hi : BitVec.ofNat 8 i + 1 = BitVec.ofNat 8 (i + 1) := by apply BitVec.eq_of_toNat_eq; simp
    refine ⟨s5, ?_, r5⟩
    simp only [e1, e2, e3, e4, bind_ok, hi, e5]
    rw [ceil_step n O.digestSize hD h0, Spec.dfBlocks, take_block _ _ _ _ (C.length _)]
    simp

theorem hashUpdate_spec (s : σ) (inputs : List (List Byte)) (n : Nat) (hr : Rep s []) (hl : 5 + inputs.flatten.length < lim) :
    ∃ s', hashUpdate O s inputs n = .ok (s', Spec.hashDf H O.digestSize inputs.flatten n) ∧ Rep s' [] := by
  unfold hashUpdate Spec.hashDf
  rw [Nat.mul_comm 8 n]
  exact hashUpdateLoop_spec C hD (n * 8) inputs hl n s 1 n hr (Nat.le_refl _)

theorem dfBlocks_length (bits : Nat) (input : List Byte) : ∀ (n i : Nat), (Spec.dfBlocks H bits input n i).length = n * O.digestSize := by
  intro n
  induction n with
  | zero => intro i; simp [Spec.dfBlocks]
  | succ n ih => intro i; rw [Spec.dfBlocks, List.length_append, C.length, ih, Nat.succ_mul, Nat.add_comm]

theorem ceil_mul (n D : Nat) (h : 0 < D) : n ≤ (n + D - 1) / D * D := by
  have := Nat.div_add_mod (n + D - 1) D
  have h2 := Nat.mod_lt (n + D - 1) h
  rw [Nat.mul_comm]
  omega

theorem hashDf_length (input : List Byte) (n : Nat) : (Spec.hashDf H O.digestSize input n).length = n := by
  unfold Spec.hashDf
  rw [List.length_take, dfBlocks_length C hD]
  exact Nat.min_eq_left (ceil_mul C hD n O.digestSize hD)

theorem hashgen_spec : ∀ (fuel : Nat) (s : σ) (temp : List Byte) (n : Nat), Rep s [] → temp.length < lim → n ≤ fuel →
    ∃ s', hashgen O fuel s temp n = .ok (s', (Spec.hashgen H ((n + O.digestSize - 1) / O.digestSize) temp).take n) ∧ Rep s' [] := by
  intro fuel
  induction fuel with
  | zero =>
    intro s temp n hr _ hn
    have : n = 0 := by omega
    subst this
    exact ⟨s, by simp [hashgen], hr⟩
  | succ fuel ih =>
    intro s temp n hr hl hn
    unfold hashgen
    by_cases h0 : n = 0
    · rw [if_pos h0]; subst h0; exact ⟨s, by simp, hr⟩
    rw [if_neg h0]
    obtain ⟨s1, e1, r1⟩ := C.update s [] temp hr (by simpa using hl)
    obtain ⟨s2, e2, r2⟩ := C.final s1 _ (min n O.digestSize) r1 (Nat.min_le_right _ _)
    have hinc : Modes.incrementCounterByOne temp.length temp = beBytes temp.length (beVal temp + 1) := by
      have := Modes.incrementCounterByOne_spec temp.length temp [] rfl
      simpa using this
    obtain ⟨s3, e3, r3⟩ := ih s2 (beBytes temp.length (beVal temp + 1)) (n - min n O.digestSize) r2 (by simpa using hl) (by omega)
    refine ⟨s3, ?_, r3⟩
    simp only [e1, e2, bind_ok, hinc, e3]
    rw [ceil_step n O.digestSize hD h0, Spec.hashgen, take_block _ _ _ _ (C.length _)]
    simp

theorem mixAdditional_spec (s : σ) (v additional : List Byte) (hr : Rep s []) (hv : O.digestSize ≤ v.length) (hl : 1 + v.length + additional.length < lim) :
    ∃ s', mixAdditional O s v additional = .ok (s', if additional = [] then v else beBytes v.length (beVal v + beVal (H ([2] ++ v ++ additional)))) ∧ Rep s' [] := by
  unfold mixAdditional
  by_cases h0 : additional = []
  · subst h0; exact ⟨s, by simp, hr⟩
  rw [if_pos (fun h => h0 (List.eq_nil_of_length_eq_zero h)), if_neg h0]
  obtain ⟨s1, e1, r1⟩ := updates_spec C [[2], v, additional] s [] hr (by simp [-List.length_flatten]; omega)
  obtain ⟨s2, e2, r2⟩ := C.final s1 _ O.digestSize r1 (Nat.le_refl _)
  rw [List.take_of_length_le (by rw [C.length])] at e2
  have ef : ([] : List Byte) ++ [[2], v, additional].flatten = [2] ++ v ++ additional := by simp
  rw [ef] at e2
  have hlen := C.length ([2] ++ v ++ additional)
  obtain ⟨q1, q2, c1, c2, c3⟩ := mix_carry v (H ([2] ++ v ++ additional)) (by omega)
  rw [hlen] at c1 c2
  refine ⟨s2, ?_, r2⟩
  simp only [e1, e2, bind_ok, c1, c2, c3]

theorem hashNext_spec (s : σ) (v c : List Byte) (w : Nat) (hr : Rep s []) (hv : O.digestSize ≤ v.length) (h8 : 8 ≤ O.digestSize) (hc : c.length = v.length) (hl : 1 + v.length < lim) (hw : w < 2 ^ 64) :
    ∃ s', hashNext O s v c w = .ok (s', beBytes v.length (beVal v + beVal (H ([3] ++ v)) + beVal c + w)) ∧ Rep s' [] := by
  unfold hashNext
  obtain ⟨s1, e1, r1⟩ := updates_spec C [[3], v] s [] hr (by simp [-List.length_flatten]; omega)
  obtain ⟨s2, e2, r2⟩ := C.final s1 _ O.digestSize r1 (Nat.le_refl _)
  rw [List.take_of_length_le (by rw [C.length])] at e2
  have ef : ([] : List Byte) ++ [[3], v].flatten = [3] ++ v := by simp
  rw [ef] at e2
  have hlen := C.length ([3] ++ v)
  obtain ⟨q1, q2, q3, c1, c2, c3, c4⟩ := next_carry v c (H ([3] ++ v)) w hc (by omega) (by omega)
  rw [hlen] at c2 c3
  rw [Nat.mod_eq_of_lt (by exact hw)] at c4
  refine ⟨s2, ?_, r2⟩
  simp only [e1, e2, bind_ok, c1, c2, c3, c4]

end hash

/-- The object `g` holds the state `s` of the standard. -/
structure HashGood (Rep : σ → List Byte → Prop) (seedLength : Nat) (g : HashGen σ) (s : Spec.HashState × Nat) : Prop where
  rep : Rep g.hash []
  v : g.v = s.1.V
  c : g.c = s.1.C
  count : g.reseed = s.2
  vlen : g.v.length = seedLength
  clen : g.c.length = seedLength
  bound : g.reseed ≤ maxRequests

/-- The inputs of a call fit the hash function, with `extra` bytes. -/
def Fits (lim extra : Nat) : Op → Prop
  | .reseed entropy additional => extra + entropy.length + additional.length < lim
  | .generate additional _ => extra + additional.length < lim

section hashgen
variable (C : O.Computes H lim Rep) (h8 : 8 ≤ O.digestSize) {strength seedLength : Nat} (hs : O.digestSize ≤ seedLength) (hl0 : 6 + seedLength < lim)
include C h8 hs hl0

theorem hashSeed_good (s : σ) (inputs : List (List Byte)) (hr : Rep s []) (hl : 5 + inputs.flatten.length < lim) : ∃ h t2 h', hashUpdate O s inputs seedLength = .ok (h, (Spec.hashSeed H O.digestSize seedLength inputs.flatten).V) ∧
    hashUpdate O h [[0], (Spec.hashSeed H O.digestSize seedLength inputs.flatten).V, [], []] seedLength = .ok (h', t2) ∧
    HashGood Rep seedLength ⟨h', t2, (Spec.hashSeed H O.digestSize seedLength inputs.flatten).V, 1⟩ (Spec.hashSeed H O.digestSize seedLength inputs.flatten, 1) := by
  have hD : 0 < O.digestSize := by omega
  obtain ⟨s1, e1, r1⟩ := hashUpdate_spec C hD s inputs seedLength hr hl
  have hlen := hashDf_length C hD inputs.flatten seedLength
  obtain ⟨s2, e2, r2⟩ := hashUpdate_spec C hD s1 [[0], Spec.hashDf H O.digestSize inputs.flatten seedLength, [], []] seedLength r1 (by simp [hlen]; omega)
  refine ⟨s1, _, s2, e1, e2, ⟨r2, rfl, ?_, rfl, hlen, ?_, show 1 ≤ maxRequests by decide⟩⟩
  · simp [Spec.hashSeed]
  · exact hashDf_length C hD _ _

theorem hashStep_good (g : HashGen σ) (s : Spec.HashState × Nat) (op : Op) (hg : HashGood Rep seedLength g s) (hf : Fits lim (6 + seedLength) op) :
    (hashStep O strength seedLength g op).2 = (Spec.step (Spec.hashMech H O.digestSize seedLength) strength (maxRequests - 1) maxBytes s op).2 ∧
      HashGood Rep seedLength (hashStep O strength seedLength g op).1 (Spec.step (Spec.hashMech H O.digestSize seedLength) strength (maxRequests - 1) maxBytes s op).1 := by
  have hD : 0 < O.digestSize := by omega
  have hmr : 0 < maxRequests := by decide
  have hmr2 : maxRequests < 2 ^ 64 := by decide
  obtain ⟨⟨V, Cc⟩, n⟩ := s
  obtain ⟨gh, gc, gv, gr⟩ := g
  obtain ⟨q1, q2, q3, q4, q5, q6, q7⟩ := hg
  dsimp only at q1 q2 q3 q4 q5 q6 q7
  subst q2 q3 q4
  cases op with
  | reseed entropy additional =>
    unfold hashStep Spec.step
    dsimp only
    simp only [Fits] at hf
    by_cases h : entropy.length < strength
    · rw [if_pos h, if_pos h]; exact ⟨rfl, q1, rfl, rfl, rfl, q5, q6, q7⟩
    rw [if_neg h, if_neg h]
    obtain ⟨h1, t2, h2, e1, e2, good⟩ := hashSeed_good C h8 hs hl0 gh [[1], gv, entropy, additional] q1 (by simp [-List.length_flatten]; omega)
    have ef : [[1], gv, entropy, additional].flatten = [1] ++ gv ++ entropy ++ additional := by simp
    have e : hashReseed O seedLength ⟨gh, gc, gv, gr⟩ entropy additional = .ok ⟨h2, t2, (Spec.hashSeed H O.digestSize seedLength [[1], gv, entropy, additional].flatten).V, 1⟩ := by
      unfold hashReseed
      simp only [e1, e2, bind_ok]
    rw [e]
    refine ⟨rfl, ?_⟩
    show HashGood Rep seedLength _ (Spec.hashSeed H O.digestSize seedLength ([1] ++ gv ++ entropy ++ additional), 1)
    rw [← ef]
    exact good
  | generate additional size =>
    unfold hashStep Spec.step
    dsimp only
    simp only [Fits] at hf
    by_cases h : gr ≥ maxRequests
    · rw [if_pos h, if_pos (Or.inl (by omega))]; exact ⟨rfl, q1, rfl, rfl, rfl, q5, q6, q7⟩
    rw [if_neg h]
    by_cases h' : size > maxBytes
    · rw [if_pos h', if_pos (Or.inr h')]; exact ⟨rfl, q1, rfl, rfl, rfl, q5, q6, q7⟩
    rw [if_neg h', if_neg (by rintro (h1 | h1) <;> omega)]
    obtain ⟨s1, e1, r1⟩ := mixAdditional_spec C hD gh gv additional q1 (by omega) (by omega)
    rw [q5] at e1
    generalize hv : (if additional = [] then gv else beBytes seedLength (beVal gv + beVal (H ([2] ++ gv ++ additional)))) = v at e1
    have hvl : v.length = seedLength := by
      rw [← hv]; split
      · exact q5
      · simp
    obtain ⟨s2, e2, r2⟩ := hashgen_spec C hD size s1 v size r1 (by omega) (Nat.le_refl _)
    obtain ⟨s3, e3, r3⟩ := hashNext_spec C hD s2 v gc gr r2 (by omega) h8 (by omega) (by omega) (by omega)
    rw [hvl] at e3
    have e : hashGenerate O ⟨gh, gc, gv, gr⟩ additional size = .ok (⟨s3, gc, beBytes seedLength (beVal v + beVal (H ([3] ++ v)) + beVal gc + gr), gr + 1⟩,
        (Spec.hashgen H ((size + O.digestSize - 1) / O.digestSize) v).take size) := by
      unfold hashGenerate
      simp only [e1, e2, e3, bind_ok]
      rw [Nat.mod_eq_of_lt (by omega)]
    rw [e]
    simp only [Spec.hashMech, hv]
    exact ⟨trivial, r3, rfl, rfl, rfl, by simp, q6, by show gr + 1 ≤ maxRequests; omega⟩

theorem hashRun_good : ∀ (ops : List Op) (g : HashGen σ) (s : Spec.HashState × Nat), HashGood Rep seedLength g s → (∀ op ∈ ops, Fits lim (6 + seedLength) op) →
    hashRun O strength seedLength g ops = Spec.run (Spec.hashMech H O.digestSize seedLength) strength (maxRequests - 1) maxBytes s ops := by
  intro ops
  induction ops with
  | nil => intro g s _ _; rfl
  | cons op ops ih =>
    intro g s hg hf
    obtain ⟨e, hg'⟩ := hashStep_good (strength := strength) C h8 hs hl0 g s op hg (hf op List.mem_cons_self)
    rw [hashRun, Spec.run, e, ih _ _ hg' (fun o ho => hf o (List.mem_cons_of_mem _ ho))]

end hashgen

/-! ## `HMAC_DRBG` -/

/-- The object `g` holds the state `s` of the standard. -/
structure HmacGood (O : Obj σ) (Rep : σ → List Byte → Prop) (g : HmacGen σ) (s : Spec.HmacState × Nat) : Prop where
  pre : Hmac.Pre Rep g.hmac
  k : g.k = s.1.K
  v : g.v = s.1.V
  count : g.reseed = s.2
  klen : g.k.length = O.digestSize
  vlen : g.v.length = O.digestSize
  fresh : 2 * O.blockSize + O.digestSize ≤ g.fresh.length
  bound : g.reseed ≤ maxRequests

section hmac
variable (C : O.Computes H lim Rep) (hdB : O.digestSize ≤ O.blockSize) (hB : O.blockSize ≠ 0) (hlim : O.blockSize + O.digestSize < lim)
include C hdB hB hlim

/-- The HMAC of the standard, over `H`. -/
abbrev M (O : Obj σ) (H : List Byte → List Byte) : List Byte → List Byte → List Byte := Hmac.hmac H O.blockSize

theorem hmacHalf_spec (g : HmacGen σ) (K V : List Byte) (n : Nat) (b : Byte) (inputs : List (List Byte)) (hg : HmacGood O Rep g (⟨K, V⟩, n))
    (hl : O.blockSize + O.digestSize + 1 + inputs.flatten.length < lim) :
    ∃ g', hmacHalf O g b inputs = .ok g' ∧ HmacGood O Rep g' (⟨M O H K (V ++ [b] ++ inputs.flatten), M O H (M O H K (V ++ [b] ++ inputs.flatten)) V⟩, n) := by
  obtain ⟨gh, gk, gv, gr, gf⟩ := g
  obtain ⟨q1, q2, q3, q4, q5, q6, q7, q8⟩ := hg
  dsimp only at q1 q2 q3 q4 q5 q6 q7 q8
  subst q2 q3 q4
  have hml : ∀ k m, (M O H k m).length = O.digestSize := fun k m => C.length _
  obtain ⟨s1, e1, i1⟩ := Hmac.setKey_spec C hdB hB gh gk gf q1 (by omega) q7
  have C1 := Kdf.hmacObj_computes C hdB hB hlim gk
  obtain ⟨s2, e2, i2⟩ := updates_spec C1 [gv, [b]] s1 [] i1 (by simp [-List.length_flatten]; omega)
  obtain ⟨s3, e3, i3⟩ := feed_spec C1 inputs s2 _ i2 (by simp [-List.length_flatten]; omega)
  obtain ⟨s4, e4, i4⟩ := C1.final s3 _ gk.length i3 (by rw [q5]; exact Nat.le_refl _)
  have em : ([] : List Byte) ++ [gv, [b]].flatten ++ inputs.flatten = gv ++ [b] ++ inputs.flatten := by simp
  rw [em, List.take_of_length_le (by rw [hml, q5])] at e4
  generalize hk : M O H gk (gv ++ [b] ++ inputs.flatten) = k'
  have hk' : Hmac.hmac H O.blockSize gk (gv ++ [b] ++ inputs.flatten) = k' := hk
  rw [hk'] at e4
  have hkl : k'.length = O.digestSize := by rw [← hk]; exact hml _ _
  obtain ⟨s5, e5, i5⟩ := Hmac.setKey_spec C hdB hB s4 k' gf (Hmac.Inv.pre i4) (by omega) q7
  have C2 := Kdf.hmacObj_computes C hdB hB hlim k'
  obtain ⟨s6, e6, i6⟩ := updates_spec C2 [gv] s5 [] i5 (by simp [-List.length_flatten]; omega)
  obtain ⟨s7, e7, i7⟩ := C2.final s6 _ gv.length i6 (by rw [q6]; exact Nat.le_refl _)
  have em2 : ([] : List Byte) ++ [gv].flatten = gv := by simp
  rw [em2, List.take_of_length_le (by rw [hml, q6])] at e7
  refine ⟨⟨s7, k', M O H k' gv, gr, gf⟩, ?_, ⟨Hmac.Inv.pre i7, rfl, rfl, rfl, hkl, hml _ _, q7, q8⟩⟩
  unfold hmacHalf
  simp only [e1, e2, e3, e4, e5, e6, e7, bind_ok]

theorem hmacUpdate_spec (g : HmacGen σ) (s : Spec.HmacState) (n : Nat) (inputs : List (List Byte)) (hg : HmacGood O Rep g (s, n))
    (hl : O.blockSize + O.digestSize + 1 + inputs.flatten.length < lim) :
    ∃ g', hmacUpdate O g inputs = .ok g' ∧ HmacGood O Rep g' (Spec.hmacUpdate (M O H) inputs.flatten s, n) := by
  obtain ⟨g1, e1, h1⟩ := hmacHalf_spec C hdB hB hlim g s.K s.V n 0 inputs hg hl
  unfold hmacUpdate Spec.hmacUpdate
  rw [e1, bind_ok]
  have hiff : inputs.all (fun x => decide (x.length = 0)) = true ↔ inputs.flatten = [] := by
    rw [List.all_eq_true, List.flatten_eq_nil_iff]
    constructor
    · intro h x hx; exact List.eq_nil_of_length_eq_zero (of_decide_eq_true (h x hx))
    · intro h x hx; rw [h x hx]; rfl
  by_cases h0 : inputs.flatten = []
  · rw [if_pos (hiff.2 h0), if_pos h0]; exact ⟨g1, rfl, h1⟩
  · rw [if_neg (fun h => h0 (hiff.1 h)), if_neg h0]
    exact hmacHalf_spec C hdB hB hlim g1 _ _ n 1 inputs h1 hl

theorem hmacLoop_spec (hD : 0 < O.digestSize) (K : List Byte) : ∀ (fuel : Nat) (h : Hmac.State σ) (v : List Byte) (n : Nat), Hmac.Inv O H Rep h K [] → v.length = O.digestSize → n ≤ fuel →
    ∃ h', hmacLoop O fuel h v n = .ok (h', (Spec.hmacBlocks (M O H) K ((n + O.digestSize - 1) / O.digestSize) v).2,
        (Spec.hmacBlocks (M O H) K ((n + O.digestSize - 1) / O.digestSize) v).1.take n) ∧ Hmac.Inv O H Rep h' K [] ∧
      (Spec.hmacBlocks (M O H) K ((n + O.digestSize - 1) / O.digestSize) v).2.length = O.digestSize := by
  have hml : ∀ k m, (M O H k m).length = O.digestSize := fun k m => C.length _
  intro fuel
  induction fuel with
  | zero =>
    intro h v n hi hv hn
    have : n = 0 := by omega
    subst this
    rw [ceil_zero _ hD]
    exact ⟨h, by simp [hmacLoop, Spec.hmacBlocks], hi, hv⟩
  | succ fuel ih =>
    intro h v n hi hv hn
    unfold hmacLoop
    by_cases h0 : n = 0
    · subst h0
      rw [if_pos rfl, ceil_zero _ hD]; exact ⟨h, by simp [Spec.hmacBlocks], hi, hv⟩
    rw [if_neg h0]
    have C1 := Kdf.hmacObj_computes C hdB hB hlim K
    obtain ⟨s1, e1, i1⟩ := updates_spec C1 [v] h [] hi (by simp [-List.length_flatten]; omega)
    obtain ⟨s2, e2, i2⟩ := C1.final s1 _ v.length i1 (by rw [hv]; exact Nat.le_refl _)
    have em : ([] : List Byte) ++ [v].flatten = v := by simp
    rw [em, List.take_of_length_le (by rw [hml, hv])] at e2
    obtain ⟨s3, e3, i3, l3⟩ := ih s2 (M O H K v) (n - min n O.digestSize) i2 (hml _ _) (by omega)
    rw [ceil_step n O.digestSize hD h0, Spec.hmacBlocks]
    refine ⟨s3, ?_, i3, l3⟩
    simp only [e1, e2, bind_ok, e3]
    rw [take_block _ _ _ _ (hml K v)]

theorem hmacStep_good (hD : 0 < O.digestSize) {strength : Nat} (g : HmacGen σ) (s : Spec.HmacState × Nat) (op : Op) (hg : HmacGood O Rep g s) (hf : Fits lim (O.blockSize + O.digestSize + 1) op) :
    (hmacStep O strength g op).2 = (Spec.step (Spec.hmacMech (M O H) O.digestSize) strength (maxRequests - 1) maxBytes s op).2 ∧
      HmacGood O Rep (hmacStep O strength g op).1 (Spec.step (Spec.hmacMech (M O H) O.digestSize) strength (maxRequests - 1) maxBytes s op).1 := by
  have hmr : 0 < maxRequests := by decide
  have hmr2 : maxRequests < 2 ^ 64 := by decide
  obtain ⟨s, n⟩ := s
  cases op with
  | reseed entropy additional =>
    unfold hmacStep Spec.step
    dsimp only
    simp only [Fits] at hf
    by_cases h : entropy.length < strength
    · rw [if_pos h, if_pos h]; exact ⟨rfl, hg⟩
    rw [if_neg h, if_neg h]
    obtain ⟨g1, e1, h1⟩ := hmacUpdate_spec C hdB hB hlim g s n [entropy, additional, []] hg (by simp [-List.length_flatten]; omega)
    have ef : [entropy, additional, []].flatten = entropy ++ additional := by simp
    rw [ef] at h1
    have e : hmacReseed O g entropy additional = .ok { g1 with reseed := 1 } := by
      unfold hmacReseed
      rw [e1, bind_ok]
    rw [e]
    exact ⟨rfl, h1.pre, h1.k, h1.v, rfl, h1.klen, h1.vlen, h1.fresh, show 1 ≤ maxRequests by decide⟩
  | generate additional size =>
    unfold hmacStep Spec.step
    dsimp only
    simp only [Fits] at hf
    have hc : g.reseed = n := hg.count
    by_cases h : g.reseed ≥ maxRequests
    · rw [if_pos h, if_pos (Or.inl (by omega))]; exact ⟨rfl, hg⟩
    rw [if_neg h]
    by_cases h' : size > maxBytes
    · rw [if_pos h', if_pos (Or.inr h')]; exact ⟨rfl, hg⟩
    rw [if_neg h', if_neg (by rintro (h1 | h1) <;> omega)]
    have hfl : [additional, [], []].flatten = additional := by simp
    obtain ⟨g1, e1, h1⟩ : ∃ g1, (if additional.length ≠ 0 then hmacUpdate O g [additional, [], []] else .ok g) = .ok g1 ∧
        HmacGood O Rep g1 (if additional = [] then s else Spec.hmacUpdate (M O H) additional s, n) := by
      by_cases h0 : additional = []
      · subst h0; exact ⟨g, rfl, hg⟩
      · rw [if_pos (fun h => h0 (List.eq_nil_of_length_eq_zero h)), if_neg h0]
        have := hmacUpdate_spec C hdB hB hlim g s n [additional, [], []] hg (by rw [hfl]; omega)
        rwa [hfl] at this
    generalize hs1 : (if additional = [] then s else Spec.hmacUpdate (M O H) additional s) = s1 at h1
    obtain ⟨s2, e2, i2⟩ := Hmac.setKey_spec C hdB hB g1.hmac g1.k g1.fresh h1.pre (by rw [h1.klen]; omega) h1.fresh
    obtain ⟨s3, e3, i3, l3⟩ := hmacLoop_spec C hdB hB hlim hD g1.k size s2 g1.v size i2 h1.vlen (Nat.le_refl _)
    have hk := h1.k
    have hv := h1.v
    dsimp only at hk hv
    rw [hk, hv] at e3 l3
    rw [hk] at i3
    generalize hr : Spec.hmacBlocks (M O H) s1.K ((size + O.digestSize - 1) / O.digestSize) s1.V = r at e3 l3
    have h2 : HmacGood O Rep { g1 with hmac := s3, v := r.2 } (⟨s1.K, r.2⟩, n) :=
      ⟨Hmac.Inv.pre i3, h1.k, rfl, h1.count, h1.klen, l3, h1.fresh, h1.bound⟩
    obtain ⟨g4, e4, h4⟩ := hmacUpdate_spec C hdB hB hlim _ _ n [additional, [], []] h2 (by rw [hfl]; omega)
    rw [hfl] at h4
    have hn4 : g4.reseed = n := h4.count
    have e : hmacGenerate O g additional size = .ok ({ g4 with reseed := n + 1 }, r.1.take size) := by
      unfold hmacGenerate
      simp only [e1, bind_ok, e2, hv, e3, e4, hn4]
      rw [Nat.mod_eq_of_lt (by omega)]
    rw [e]
    simp only [Spec.hmacMech, hs1, hr]
    exact ⟨trivial, h4.pre, h4.k, h4.v, rfl, h4.klen, h4.vlen, h4.fresh, by show n + 1 ≤ maxRequests; omega⟩

theorem hmacRun_good (hD : 0 < O.digestSize) {strength : Nat} : ∀ (ops : List Op) (g : HmacGen σ) (s : Spec.HmacState × Nat), HmacGood O Rep g s → (∀ op ∈ ops, Fits lim (O.blockSize + O.digestSize + 1) op) →
    hmacRun O strength g ops = Spec.run (Spec.hmacMech (M O H) O.digestSize) strength (maxRequests - 1) maxBytes s ops := by
  intro ops
  induction ops with
  | nil => intro g s _ _; rfl
  | cons op ops ih =>
    intro g s hg hf
    obtain ⟨e, hg'⟩ := hmacStep_good C hdB hB hlim hD (strength := strength) g s op hg (hf op List.mem_cons_self)
    rw [hmacRun, Spec.run, e, ih _ _ hg' (fun o ho => hf o (List.mem_cons_of_mem _ ho))]

end hmac

end Verif.Drbg
