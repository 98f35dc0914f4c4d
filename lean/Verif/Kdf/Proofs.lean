import Verif.Kdf.Spec
import Verif.Hmac.Proofs

namespace Verif.Kdf
open Verif.Hash

theorem blocks_zero (d : Nat) (hd : 0 < d) (T : Nat → List Byte) (i : Nat) : blocks d T i 0 = [] := by
  simp [blocks]

theorem blocks_step (d : Nat) (hd : 0 < d) (T : Nat → List Byte) (i len : Nat) (hl : len ≠ 0) (hT : (T i).length = d) :
    blocks d T i len = (T i).take (min len d) ++ blocks d T (i + 1) (len - min len d) := by
  have hk : (len + d - 1) / d = (len - min len d + d - 1) / d + 1 := by
    by_cases h : d ≤ len
    · rw [Nat.min_eq_right h, show len + d - 1 = (len - d + d - 1) + d by omega, Nat.add_div_right _ hd]
    · rw [Nat.min_eq_left (by omega), Nat.sub_self, Nat.div_eq_of_lt (a := 0 + d - 1) (by omega), show len + d - 1 = (len - 1) + d by omega,
        Nat.add_div_right _ hd, Nat.div_eq_of_lt (by omega)]
  unfold blocks
  rw [hk, List.range_succ_eq_map, List.flatMap_cons, List.flatMap_map, List.take_append, show i + 0 = i from rfl, hT]
  congr 1
  · by_cases h : d ≤ len
    · rw [Nat.min_eq_right h, List.take_of_length_le (by omega), List.take_of_length_le (by omega)]
    · rw [Nat.min_eq_left (by omega)]
  · rw [show len - min len d = len - d by omega]
    congr 1
    simp only [show ∀ j, i + 1 + j = i + (j + 1) by omega]

theorem iterate_spec {τ : Type} (body : τ → Except Err τ) (iterations : Nat) (more : Nat → Bool) (P : Nat → τ → Prop)
    (hb : ∀ i t, P i t → ∃ t', body t = .ok t' ∧ P (i + 1) t') : ∀ (f i : Nat) (t : τ), P i t →
      (∃ n t', iterate body iterations more f i t = .ok (t', n) ∧ P n t' ∧ i ≤ n ∧ iterations ≤ n ∧ more n = false ∧
        ∀ j, i ≤ j → j < n → j < iterations ∨ more j = true) ∨
      (iterate body iterations more f i t = .error .diverges ∧ ∀ j, i ≤ j → j ≤ i + f → j < iterations ∨ more j = true) := by
  intro f
  induction f with
  | zero =>
    intro i t h
    unfold iterate
    split
    · rename_i hc
      right
      refine ⟨rfl, fun j h1 h2 => ?_⟩
      have : j = i := by omega
      subst this
      simpa using hc
    · rename_i hc
      simp only [Bool.or_eq_true, decide_eq_true_eq, not_or, Bool.not_eq_true] at hc
      left
      exact ⟨i, t, rfl, h, Nat.le_refl _, by omega, hc.2, fun j h1 h2 => by omega⟩
  | succ f ih =>
    intro i t h
    unfold iterate
    split
    · rename_i hc
      simp only [Bool.or_eq_true, decide_eq_true_eq] at hc
      obtain ⟨t1, e1, h1⟩ := hb i t h
      rw [e1]
      simp only
      rcases ih (i + 1) t1 h1 with ⟨n, t', e, hp, hi, hn, hm, hall⟩ | ⟨e, hall⟩
      · left
        refine ⟨n, t', e, hp, by omega, hn, hm, fun j h1 h2 => ?_⟩
        by_cases hj : j = i
        · subst hj; exact hc
        · exact hall j (by omega) h2
      · right
        refine ⟨e, fun j h1 h2 => ?_⟩
        by_cases hj : j = i
        · subst hj; exact hc
        · exact hall j (by omega) (by omega)
    · rename_i hc
      simp only [Bool.or_eq_true, decide_eq_true_eq, not_or, Bool.not_eq_true] at hc
      left
      exact ⟨i, t, rfl, h, Nat.le_refl _, by omega, hc.2, fun j h1 h2 => by omega⟩

variable {σ : Type} {O : Obj σ} {H : List Byte → List Byte} {lim : Nat} {Rep : σ → List Byte → Prop}

/-- HMAC computes RFC 2104. -/
theorem hmacObj_computes (C : O.Computes H lim Rep) (hdB : O.digestSize ≤ O.blockSize) (hB : O.blockSize ≠ 0) (hlim : O.blockSize + O.digestSize < lim) (key : List Byte) :
    (hmacObj O).Computes (Verif.Hmac.hmac H O.blockSize key) (lim - O.blockSize) (fun s m => Verif.Hmac.Inv O H Rep s key m) where
  update s m x hr hl := Verif.Hmac.update_spec C hdB hB hlim s key m x hr (by omega)
  restart s m hr := Verif.Hmac.restart_spec C hdB hB s key m hr
  final s m n hr hn := Verif.Hmac.final_spec C hdB hB hlim s key m n hr hn
  reject s n hn := by
    show Verif.Hmac.truncatedFinal O s n = _
    unfold Verif.Hmac.truncatedFinal
    exact if_pos hn
  length m := C.length _

/-- Digest of a digest, again and again. -/
theorem digest_iter (C : O.Computes H lim Rep) (hd : O.digestSize < lim) (x : List Byte) (i : Nat) (p : σ × List Byte)
    (h : Rep p.1 [] ∧ p.2 = times H (i - 1) (H x)) (hi : 1 ≤ i) :
    ∃ p', O.calculateDigest p.1 p.2 = .ok p' ∧ Rep p'.1 [] ∧ p'.2 = times H (i + 1 - 1) (H x) := by
  have hlen : p.2.length = O.digestSize := by
    rw [h.2]
    cases hk : i - 1 with
    | zero => exact C.length _
    | succ k => exact C.length _
  obtain ⟨s', e, r⟩ := C.calculateDigest p.1 [] p.2 h.1 (by simpa [hlen] using hd)
  refine ⟨_, e, r, ?_⟩
  simp only [List.nil_append]
  obtain ⟨k, rfl⟩ : ∃ k, i = k + 1 := ⟨i - 1, by omega⟩
  rw [h.2]
  rfl

theorem pbkdf1_spec (C : O.Computes H lim Rep) (hd : O.digestSize < lim) (s : σ) (hs : Rep s []) (more : Nat → Bool) (fuel len : Nat) (P S : List Byte) (c : Nat)
    (hl : (P ++ S).length < lim) (hlen : len ≤ O.digestSize) :
    (∃ n, pbkdf1 O s more fuel len P S c = .ok (PBKDF1 H P S n len, n) ∧ 1 ≤ n ∧ c ≤ n ∧ more n = false ∧ ∀ j, 1 ≤ j → j < n → j < c ∨ more j = true) ∨
    (pbkdf1 O s more fuel len P S c = .error .diverges ∧ ∀ j, 1 ≤ j → j ≤ 1 + fuel → j < c ∨ more j = true) := by
  obtain ⟨s1, e1, r1⟩ := C.update s [] P hs (by simp only [List.nil_append, List.length_append] at *; omega)
  obtain ⟨s2, e2, r2⟩ := C.update s1 _ S r1 (by simpa using hl)
  obtain ⟨s3, e3, r3⟩ := C.final s2 _ O.digestSize r2 (Nat.le_refl _)
  unfold pbkdf1
  simp only [if_neg (Nat.not_lt.mpr hlen), e1, e2, e3]
  rw [List.take_of_length_le (by rw [C.length]; omega)]
  rcases iterate_spec (fun p : σ × List Byte => O.calculateDigest p.1 p.2) (if c = 0 then 1 else c) more
    (fun i p => 1 ≤ i ∧ Rep p.1 [] ∧ p.2 = times H (i - 1) (H (P ++ S))) (by
      intro i p h
      obtain ⟨p', e, h1, h2⟩ := digest_iter C hd (P ++ S) i p h.2 h.1
      exact ⟨p', e, by omega, h1, h2⟩) fuel 1 (s3, H ([] ++ P ++ S)) ⟨Nat.le_refl _, r3, by simp [times]⟩ with ⟨n, t', e, hp, hi, hn, hm, hall⟩ | ⟨e, hall⟩
  · left
    rw [e]
    refine ⟨n, ?_, hi, by split at hn <;> omega, hm, fun j h1 h2 => ?_⟩
    · simp only [PBKDF1, hp.2.2]
    · rcases hall j h1 h2 with h | h
      · left; split at h <;> omega
      · right; exact h
  · right
    rw [e]
    refine ⟨rfl, fun j h1 h2 => ?_⟩
    rcases hall j h1 h2 with h | h
    · left; split at h <;> omega
    · right; exact h

theorem updateCounter_spec (C : O.Computes H lim Rep) (s : σ) (m : List Byte) (hs : Rep s m) (i : Nat) (hl : m.length + 4 < lim) :
    ∃ s', updateCounter O s i = .ok s' ∧ Rep s' (m ++ beBytes 4 i) := by
  have hb : beBytes 4 i = [BitVec.ofNat 8 (i >>> 24), BitVec.ofNat 8 (i >>> 16), BitVec.ofNat 8 (i >>> 8), BitVec.ofNat 8 i] := by
    have e : ∀ k, i >>> k = i / 2 ^ k := fun k => Nat.shiftRight_eq_div_pow i k
    simp only [e]
    simp [beBytes, leBytes, Nat.div_div_eq_div_mul]
  rw [hb]
  unfold updateCounter
  have : ∀ (bs : List Byte) (s : σ) (m : List Byte), Rep s m → m.length + bs.length < lim → ∃ s', updateCounter.go O bs s = .ok s' ∧ Rep s' (m ++ bs) := by
    intro bs
    induction bs with
    | nil => intro s m h _; exact ⟨s, rfl, by simpa using h⟩
    | cons b bs ih =>
      intro s m h hl
      obtain ⟨s1, e1, r1⟩ := C.update s m [b] h (by simp at *; omega)
      obtain ⟨s2, e2, r2⟩ := ih s1 _ r1 (by simp at *; omega)
      refine ⟨s2, by simp only [updateCounter.go, e1]; exact e2, by simpa using r2⟩
  exact this _ s m hs (by simpa using hl)

theorem times_length (C : O.Computes H lim Rep) (x : List Byte) (n : Nat) : (times H n (H x)).length = O.digestSize := by
  cases n with
  | zero => exact C.length _
  | succ n => exact C.length _

theorem xorChain_length (C : O.Computes H lim Rep) (x : List Byte) (n : Nat) : (xorChain H x n).length = O.digestSize := by
  induction n with
  | zero => exact C.length _
  | succ n ih => simp only [xorChain, xorBytes, List.length_zipWith, ih, times_length C]; omega

theorem xorBytes_take (a b : List Byte) (n : Nat) : xorBytes (a.take n) (b.take n) = (xorBytes a b).take n := by
  simp [xorBytes, List.take_zipWith]

theorem pbkdf2Loop_spec (C : O.Computes H lim Rep) (hd0 : 0 < O.digestSize) (hd : O.digestSize < lim) (S : List Byte) (hS : S.length + 4 < lim) (fi : Nat) :
    ∀ (f : Nat) (s : σ) (len i c : Nat) (more : Option (Nat → Bool)), Rep s [] → len ≤ f → 1 ≤ c → i + len ≤ 2 ^ 32 →
      (∃ n, pbkdf2Loop O S fi f s len i c more = .ok (blocks O.digestSize (fun i => xorChain H (S ++ beBytes 4 i) (n - 1)) i len, n) ∧ 1 ≤ n ∧ c ≤ n ∧ (more = none → n = c)) ∨
      (pbkdf2Loop O S fi f s len i c more = .error .diverges ∧ (fi + 1 < c ∨ ∃ m, more = some m ∧ ∀ j, c ≤ j → j ≤ fi + 1 → m j = true)) := by
  intro f
  induction f with
  | zero =>
    intro s len i c more hs hl hc _
    have : len = 0 := by omega
    subst this
    left
    exact ⟨c, by simp [pbkdf2Loop, blocks_zero _ hd0], hc, Nat.le_refl _, fun _ => rfl⟩
  | succ f ih =>
    intro s len i c more hs hl hc hi
    by_cases h0 : len = 0
    · subst h0
      left
      exact ⟨c, by simp [pbkdf2Loop, blocks_zero _ hd0], hc, Nat.le_refl _, fun _ => rfl⟩
    · obtain ⟨s1, e1, r1⟩ := C.update s [] S hs (by simp; omega)
      obtain ⟨s2, e2, r2⟩ := updateCounter_spec C s1 _ r1 i (by simpa using hS)
      obtain ⟨s3, e3, r3⟩ := C.final s2 _ O.digestSize r2 (Nat.le_refl _)
      rw [List.nil_append] at r2 e3
      rw [List.take_of_length_le (by rw [C.length]; omega)] at e3
      simp only [pbkdf2Loop, if_neg h0, e1, e2, e3, C.length]
      obtain ⟨x, hx⟩ : ∃ x, x = S ++ beBytes 4 i := ⟨_, rfl⟩
      rw [← hx]
      rcases iterate_spec (xorRound O (min len O.digestSize)) c (more.getD fun _ => false)
          (fun i p => 1 ≤ i ∧ (Rep p.1 [] ∧ p.2.1 = times H (i - 1) (H x)) ∧ p.2.2 = (xorChain H x (i - 1)).take (min len O.digestSize)) (by
            intro i p h
            obtain ⟨p', e, h1, h2⟩ := digest_iter C hd x i (p.1, p.2.1) h.2.1 h.1
            simp only at e
            unfold xorRound
            rw [e]
            refine ⟨_, rfl, by omega, ⟨h1, h2⟩, ?_⟩
            simp only
            rw [h.2.2, xorBytes_take, h2]
            obtain ⟨k, rfl⟩ : ∃ k, i = k + 1 := ⟨i - 1, by omega⟩
            rfl) fi 1 (s3, H x, (H x).take (min len O.digestSize)) ⟨Nat.le_refl _, ⟨r3, rfl⟩, rfl⟩ with ⟨n, t', e, hp, hi1, hn, hm, hall⟩ | ⟨e, hall⟩
      · rw [e]
        subst hx
        obtain ⟨t1, t2, t3⟩ := t'
        simp only
        have hnext : (i + 1) % 2 ^ 32 = i + 1 ∨ len - min len O.digestSize = 0 := by
          by_cases hh : len ≤ O.digestSize
          · right; omega
          · left; exact Nat.mod_eq_of_lt (by omega)
        have hcn : (if more.isSome then n else c) = n := by
          cases more with
          | some m => rfl
          | none =>
            simp only [Option.isSome_none, Bool.false_eq_true, if_false]
            by_cases hcn : c = n
            · exact hcn
            · have := hall (n - 1) (by omega) (by omega)
              simp at this; omega
        rw [hcn]
        have hstep := blocks_step O.digestSize hd0 (fun i => xorChain H (S ++ beBytes 4 i) (n - 1)) i len h0 (xorChain_length C _ _)
        have hrest : (∃ m, pbkdf2Loop O S fi f t1 (len - min len O.digestSize) ((i + 1) % 2 ^ 32) n none =
            .ok (blocks O.digestSize (fun i => xorChain H (S ++ beBytes 4 i) (n - 1)) (i + 1) (len - min len O.digestSize), m) ∧ m = n) ∨
            (pbkdf2Loop O S fi f t1 (len - min len O.digestSize) ((i + 1) % 2 ^ 32) n none = .error .diverges ∧ fi + 1 < n) := by
          rcases hnext with h1 | h1
          · rw [h1]
            rcases ih t1 (len - min len O.digestSize) (i + 1) n none hp.2.1.1 (by omega) hi1 (by omega) with ⟨m, e', _, _, h3⟩ | ⟨e', h3⟩
            · left
              have := h3 rfl
              subst this
              exact ⟨m, e', rfl⟩
            · right
              refine ⟨e', ?_⟩
              rcases h3 with h3 | ⟨m, hm, _⟩
              · exact h3
              · cases hm
          · left
            rw [h1, blocks_zero _ hd0]
            refine ⟨n, ?_, rfl⟩
            cases f <;> simp [pbkdf2Loop]
        rcases hrest with ⟨m, e', rfl⟩ | ⟨e', h3⟩
        · left
          rw [e']
          refine ⟨m, ?_, hi1, hn, ?_⟩
          · simp only
            rw [hstep, show t3 = _ from hp.2.2]
          · intro hm
            subst hm
            simp only [Option.isSome_none, Bool.false_eq_true, if_false] at hcn
            exact hcn.symm
        · right
          rw [e']
          refine ⟨rfl, ?_⟩
          by_cases hfc : fi + 1 < c
          · exact Or.inl hfc
          · right
            cases more with
            | none =>
              simp only [Option.isSome_none, Bool.false_eq_true, if_false] at hcn
              omega
            | some m =>
              refine ⟨m, rfl, fun j h1 h2 => ?_⟩
              rcases hall j (by omega) (by omega) with h | h
              · omega
              · exact h
      · right
        rw [e]
        refine ⟨rfl, ?_⟩
        by_cases hfc : fi + 1 < c
        · exact Or.inl hfc
        · right
          cases more with
          | none =>
            have := hall (fi + 1) (by omega) (by omega)
            simp at this; omega
          | some m =>
            refine ⟨m, rfl, fun j h1 h2 => ?_⟩
            rcases hall j (by omega) (by omega) with h | h
            · omega
            · exact h

theorem hkdfT_length (C : O.Computes H lim Rep) (info : List Byte) (i : Nat) : (hkdfT H info (i + 1)).length = O.digestSize := C.length _

theorem hkdfLoop_spec (C : O.Computes H lim Rep) (hd0 : 0 < O.digestSize) (info : List Byte) (hl : O.digestSize + info.length + 1 < lim) :
    ∀ (f : Nat) (s : σ) (i : Nat) (len : Nat), Rep s [] → len ≤ f → i * O.digestSize + len ≤ 255 * O.digestSize →
      hkdfLoop O info f s (BitVec.ofNat 8 i) (hkdfT H info i) len = .ok (blocks O.digestSize (hkdfT H info) (i + 1) len) := by
  intro f
  induction f with
  | zero =>
    intro s i len _ hl _
    have : len = 0 := by omega
    subst this
    simp [hkdfLoop, blocks_zero _ hd0]
  | succ f ih =>
    intro s i len hs hf hi
    by_cases h0 : len = 0
    · subst h0; simp [hkdfLoop, blocks_zero _ hd0]
    · have hi255 : i < 255 := by
        apply Nat.lt_of_not_le
        intro hc
        have : 255 * O.digestSize ≤ i * O.digestSize := Nat.mul_le_mul_right _ (by omega)
        omega
      have hbz : (BitVec.ofNat 8 i ≠ 0) ↔ i ≠ 0 := by
        constructor
        · intro h h'; subst h'; exact h rfl
        · intro h h'
          have := congrArg BitVec.toNat h'
          rw [BitVec.toNat_ofNat, Nat.mod_eq_of_lt (by omega)] at this
          exact h this
      have h1 : ∃ s1, (if BitVec.ofNat 8 i ≠ 0 then O.update s (hkdfT H info i) else .ok s) = .ok s1 ∧ Rep s1 (hkdfT H info i) := by
        by_cases hz : i = 0
        · subst hz
          rw [if_neg (by simp)]
          exact ⟨s, rfl, hs⟩
        · rw [if_pos (hbz.mpr hz)]
          have hlen : (hkdfT H info i).length = O.digestSize := by
            obtain ⟨k, rfl⟩ := Nat.exists_eq_succ_of_ne_zero hz
            exact hkdfT_length C info k
          obtain ⟨s1, e, r⟩ := C.update s [] (hkdfT H info i) hs (by simp [hlen]; omega)
          exact ⟨s1, e, by simpa using r⟩
      obtain ⟨s1, e1, r1⟩ := h1
      have hTl : (hkdfT H info i).length ≤ O.digestSize := by
        cases i with
        | zero => simp [hkdfT]
        | succ k => rw [hkdfT_length C info k]; omega
      have h2 : ∃ s2, (if info.length ≠ 0 then O.update s1 info else .ok s1) = .ok s2 ∧ Rep s2 (hkdfT H info i ++ info) := by
        by_cases hz : info.length = 0
        · rw [if_neg (by omega)]
          exact ⟨s1, rfl, by rw [List.eq_nil_of_length_eq_zero hz, List.append_nil, ← List.eq_nil_of_length_eq_zero hz]; exact r1⟩
        · rw [if_pos hz]
          exact C.update s1 _ info r1 (by rw [List.length_append]; omega)
      obtain ⟨s2, e2, r2⟩ := h2
      have hb1 : BitVec.ofNat 8 i + 1 = BitVec.ofNat 8 (i + 1) := by
        rw [BitVec.ofNat_add]
        rfl
      obtain ⟨s3, e3, r3⟩ := C.calculateDigest s2 _ [BitVec.ofNat 8 (i + 1)] r2 (by simp only [List.length_append, List.length_singleton]; omega)
      simp only [hkdfLoop, if_neg h0, e1, e2, hb1, e3]
      have hbuf : H (hkdfT H info i ++ info ++ [BitVec.ofNat 8 (i + 1)]) = hkdfT H info (i + 1) := rfl
      rw [hbuf, ih s3 (i + 1) (len - min len O.digestSize) r3 (by omega) (by
        rw [Nat.add_mul]
        by_cases hh : len ≤ O.digestSize
        · have : (i + 1) * O.digestSize ≤ 255 * O.digestSize := Nat.mul_le_mul_right _ (by omega)
          rw [Nat.add_mul] at this
          omega
        · omega)]
      simp only
      rw [blocks_step O.digestSize hd0 (hkdfT H info) (i + 1) len h0 (hkdfT_length C info i)]

theorem mgfLoop_spec (C : O.Computes H lim Rep) (hd0 : 0 < O.digestSize) (Z P : List Byte) (hl : Z.length + 4 + P.length < lim) (mask : Bool) :
    ∀ (f : Nat) (s : σ) (i : Nat) (out : List Byte), Rep s [] → out.length ≤ f →
      mgfLoop O Z P mask f s (i % 2 ^ 32) out =
        .ok (if mask then xorBytes out (MGF H O.digestSize Z P i out.length) else MGF H O.digestSize Z P i out.length) := by
  intro f
  induction f with
  | zero =>
    intro s i out _ hf
    have : out = [] := List.eq_nil_of_length_eq_zero (by omega)
    subst this
    simp [mgfLoop, MGF, blocks_zero _ hd0, xorBytes]
  | succ f ih =>
    intro s i out hs hf
    by_cases h0 : out.length = 0
    · have : out = [] := List.eq_nil_of_length_eq_zero h0
      subst this
      simp [mgfLoop, MGF, blocks_zero _ hd0, xorBytes]
    · obtain ⟨s1, e1, r1⟩ := C.update s [] Z hs (by simp; omega)
      obtain ⟨s2, e2, r2⟩ := C.update s1 _ (beBytes 4 (i % 2 ^ 32)) r1 (by simp only [List.nil_append, List.length_append, beBytes_length]; omega)
      obtain ⟨s3, e3, r3⟩ := C.update s2 _ P r2 (by simp only [List.nil_append, List.length_append, beBytes_length]; omega)
      obtain ⟨s4, e4, r4⟩ := C.final s3 _ O.digestSize r3 (Nat.le_refl _)
      rw [List.take_of_length_le (by rw [C.length]; omega), List.nil_append] at e4
      have hb : beBytes 4 (i % 2 ^ 32) = beBytes 4 i := beBytes_mod 4 i
      rw [hb] at e4 e2
      have hm : (i % 2 ^ 32 + 1) % 2 ^ 32 = (i + 1) % 2 ^ 32 := Nat.mod_add_mod ..
      simp only [mgfLoop, if_neg h0, hb, e1, e2, e3, e4, C.length, hm]
      have ih' := ih s4 (i + 1) (out.drop (min O.digestSize out.length)) r4 (by rw [List.length_drop]; omega)
      rw [ih']
      have hstep : MGF H O.digestSize Z P i out.length = (H (Z ++ beBytes 4 i ++ P)).take (min O.digestSize out.length) ++
          MGF H O.digestSize Z P (i + 1) (out.drop (min O.digestSize out.length)).length := by
        unfold MGF
        rw [blocks_step O.digestSize hd0 _ i out.length h0 (C.length _), List.length_drop, Nat.min_comm]
      cases mask with
      | false => simp only [Bool.false_eq_true, if_false]; rw [hstep]
      | true =>
        simp only [if_true]
        rw [hstep]
        congr 1
        unfold xorBytes
        generalize MGF H O.digestSize Z P (i + 1) (out.drop (min O.digestSize out.length)).length = R
        generalize hn : min O.digestSize out.length = n at *
        conv => rhs; rw [← List.take_append_drop n out]
        rw [List.zipWith_append (by rw [List.length_take, List.length_take, C.length]; omega)]

theorem flatten_replicate_getElem? (x : List Byte) (k i : Nat) (hi : i < k * x.length) : (List.replicate k x).flatten[i]? = some (x.getD (i % x.length) 0) := by
  induction k generalizing i with
  | zero => omega
  | succ k ih =>
    rw [List.replicate_succ, List.flatten_cons]
    by_cases h : i < x.length
    · rw [List.getElem?_append_left h, Nat.mod_eq_of_lt h, List.getD_eq_getElem?_getD, List.getElem?_eq_getElem h]
      rfl
    · have hh : i - x.length < k * x.length := by rw [Nat.succ_mul] at hi; omega
      rw [List.getElem?_append_right (by omega), ih _ hh]
      congr 2
      rw [Nat.mod_eq_sub_mod (a := i) (by omega)]

theorem repeatTo_eq (x : List Byte) (n : Nat) (hx : x ≠ [] ∨ n = 0) : repeatTo x n = ((List.replicate n x).flatten).take n := by
  rcases hx with hx | rfl
  · have hpos : 0 < x.length := List.length_pos_iff.mpr hx
    apply List.ext_getElem?
    intro i
    unfold repeatTo
    rw [List.getElem?_map, List.getElem?_take]
    by_cases h : i < n
    · rw [List.getElem?_range h, if_pos h, flatten_replicate_getElem? x n i (Nat.lt_of_lt_of_le h (Nat.le_mul_of_pos_right n hpos))]
      rfl
    · rw [if_neg h, List.getElem?_eq_none (by simp; omega)]
      rfl
  · rfl

theorem repeatTo_fill (x : List Byte) (v : Nat) (hv : 0 < v) : repeatTo x (roundUp x.length v) = fillUp v x := by
  unfold fillUp
  rw [repeatTo_eq]
  · rfl
  · by_cases h : x = []
    · right; subst h
      simp [roundUp, Nat.div_eq_of_lt (show v - 1 < v by omega)]
    · exact Or.inl h

theorem repeatTo_length (x : List Byte) (n : Nat) : (repeatTo x n).length = n := by simp [repeatTo]

theorem addAll_spec (v b : Nat) (hv : 0 < v) : ∀ (f : Nat) (I : List Byte), I.length ≤ f → addAll v b f I = (chunks v I).flatMap fun Ij => beBytes v (beVal Ij + b) := by
  intro f
  induction f with
  | zero =>
    intro I h
    have : I = [] := List.eq_nil_of_length_eq_zero (by omega)
    subst this
    rw [chunks_nil]
    rfl
  | succ f ih =>
    intro I h
    unfold addAll
    by_cases h0 : I.length = 0
    · have : I = [] := List.eq_nil_of_length_eq_zero h0
      subst this
      rw [chunks_nil]
      rfl
    · rw [if_neg h0, ih _ (by rw [List.length_drop]; omega)]
      conv => rhs; rw [chunks_of_ne_nil v hv I (by intro h; subst h; exact h0 rfl)]
      rfl

theorem addAll_length (v b : Nat) (hv : 0 < v) : ∀ (f : Nat) (I : List Byte), I.length ≤ f → I.length % v = 0 → (addAll v b f I).length = I.length := by
  intro f
  induction f with
  | zero => intro I h _; rfl
  | succ f ih =>
    intro I h hm
    unfold addAll
    by_cases h0 : I.length = 0
    · rw [if_pos h0, h0]; rfl
    · have hle : v ≤ I.length := Nat.le_of_dvd (by omega) (Nat.dvd_of_mod_eq_zero hm)
      rw [if_neg h0, List.length_append, beBytes_length, ih _ (by rw [List.length_drop]; omega) (by rw [List.length_drop, ← Nat.mod_eq_sub_mod hle]; exact hm), List.length_drop]
      omega

theorem pkcs12A_length (C : O.Computes H lim Rep) (v c : Nat) (D : List Byte) (i : Nat) (I : List Byte) : (pkcs12A H v c D i I).length = O.digestSize := by
  induction i generalizing I with
  | zero => exact times_length C _ _
  | succ i ih => exact ih _

theorem blocks_shift (d : Nat) (T : Nat → List Byte) (i len : Nat) : blocks d T (i + 1) len = blocks d (fun j => T (j + 1)) i len := by
  simp only [blocks, show ∀ j, i + 1 + j = i + j + 1 by omega]

theorem pkcs12Loop_spec (C : O.Computes H lim Rep) (hv : 0 < O.blockSize) (hd0 : 0 < O.digestSize) (hd : O.digestSize < lim) (D : List Byte) (fi : Nat) :
    ∀ (f : Nat) (s : σ) (I : List Byte) (len c : Nat) (more : Option (Nat → Bool)), Rep s [] → len ≤ f → 1 ≤ c → I.length % O.blockSize = 0 → (D ++ I).length < lim →
      (∃ n, pkcs12Loop O D fi f s I len c more = .ok (blocks O.digestSize (fun i => pkcs12A H O.blockSize n D i I) 0 len, n) ∧ 1 ≤ n ∧ c ≤ n ∧ (more = none → n = c)) ∨
      (pkcs12Loop O D fi f s I len c more = .error .diverges ∧ (fi + 1 < c ∨ ∃ m, more = some m ∧ ∀ j, c ≤ j → j ≤ fi + 1 → m j = true)) := by
  intro f
  induction f with
  | zero =>
    intro s I len c more hs hl hc _ _
    have : len = 0 := by omega
    subst this
    left
    exact ⟨c, by simp [pkcs12Loop, blocks_zero _ hd0], hc, Nat.le_refl _, fun _ => rfl⟩
  | succ f ih =>
    intro s I len c more hs hl hc hI hDI
    by_cases h0 : len = 0
    · subst h0
      left
      exact ⟨c, by simp [pkcs12Loop, blocks_zero _ hd0], hc, Nat.le_refl _, fun _ => rfl⟩
    · obtain ⟨s3, e3, r3⟩ := C.calculateDigest s [] (D ++ I) hs (by simpa using hDI)
      rw [List.nil_append] at e3
      simp only [pkcs12Loop, if_neg h0, e3]
      rcases iterate_spec (fun p : σ × List Byte => O.calculateDigest p.1 p.2) c (more.getD fun _ => false)
          (fun i p => 1 ≤ i ∧ Rep p.1 [] ∧ p.2 = times H (i - 1) (H (D ++ I))) (by
            intro i p h
            obtain ⟨p', e, h1, h2⟩ := digest_iter C hd (D ++ I) i p h.2 h.1
            exact ⟨p', e, by omega, h1, h2⟩) fi 1 (s3, H (D ++ I)) ⟨Nat.le_refl _, r3, rfl⟩ with ⟨n, ⟨t1, t2⟩, e, hp, hi1, hn, hm, hall⟩ | ⟨e, hall⟩
      · rw [e]
        simp only
        have ht2 : t2 = times H (n - 1) (H (D ++ I)) := hp.2.2
        have hcn : (if more.isSome then n else c) = n := by
          cases more with
          | some m => rfl
          | none =>
            simp only [Option.isSome_none, Bool.false_eq_true, if_false]
            by_cases hcn : c = n
            · exact hcn
            · have := hall (n - 1) (by omega) (by omega)
              simp at this; omega
        have ht2l : t2.length = O.digestSize := by rw [ht2]; exact times_length C _ _
        rw [hcn, ht2l]
        have hI' : addAll O.blockSize (beVal (repeatTo t2 O.blockSize) + 1) I.length I = pkcs12Next O.blockSize t2 I := by
          rw [addAll_spec _ _ hv _ _ (Nat.le_refl _), repeatTo_eq t2 _ (Or.inl (by intro h; rw [h] at ht2l; simp at ht2l; omega))]
          rfl
        have hIl : (pkcs12Next O.blockSize t2 I).length = I.length := by
          rw [← hI', addAll_length _ _ hv _ _ (Nat.le_refl _) hI]
        rw [hI']
        have hstep : blocks O.digestSize (fun i => pkcs12A H O.blockSize n D i I) 0 len = t2.take (min len O.digestSize) ++
            blocks O.digestSize (fun i => pkcs12A H O.blockSize n D i (pkcs12Next O.blockSize t2 I)) 0 (len - min len O.digestSize) := by
          rw [blocks_step O.digestSize hd0 _ 0 len h0 (pkcs12A_length C _ _ _ _ _), blocks_shift, ht2]
          rfl
        rcases ih t1 (pkcs12Next O.blockSize t2 I) (len - min len O.digestSize) n none hp.2.1 (by omega) hi1 (by rw [hIl]; exact hI)
            (by rw [List.length_append, hIl, ← List.length_append]; exact hDI) with ⟨m, e', _, _, h3⟩ | ⟨e', h3⟩
        · have := h3 rfl
          subst this
          left
          rw [e']
          refine ⟨m, by rw [hstep], hi1, hn, ?_⟩
          intro hm
          subst hm
          simp only [Option.isSome_none, Bool.false_eq_true, if_false] at hcn
          exact hcn.symm
        · right
          rw [e']
          refine ⟨rfl, ?_⟩
          have h3 : fi + 1 < n := by
            rcases h3 with h3 | ⟨m, hm, _⟩
            · exact h3
            · cases hm
          by_cases hfc : fi + 1 < c
          · exact Or.inl hfc
          · right
            cases more with
            | none =>
              simp only [Option.isSome_none, Bool.false_eq_true, if_false] at hcn
              omega
            | some m =>
              refine ⟨m, rfl, fun j h1 h2 => ?_⟩
              rcases hall j (by omega) (by omega) with h | h
              · omega
              · exact h
      · right
        rw [e]
        refine ⟨rfl, ?_⟩
        by_cases hfc : fi + 1 < c
        · exact Or.inl hfc
        · right
          cases more with
          | none =>
            have := hall (fi + 1) (by omega) (by omega)
            simp at this; omega
          | some m =>
            refine ⟨m, rfl, fun j h1 h2 => ?_⟩
            rcases hall j (by omega) (by omega) with h | h
            · omega
            · exact h

end Verif.Kdf
