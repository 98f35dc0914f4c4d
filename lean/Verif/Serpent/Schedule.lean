import Verif.Serpent.Proofs
import Mathlib.Data.List.GetD

/-!
# Serpent: the key schedule and the whole cipher
-/
namespace Verif.Serpent

open Verif.Cipher
open Spec (Four)

/-! ## Words -/

theorem words_map : ∀ (n : Nat) (b : List Byte), b.length = n * 4 → words .little 4 b = (List.range n).map (Spec.wordAt b)
  | 0, b, h => by
    have : b = [] := List.eq_nil_of_length_eq_zero (by omega)
    subst this; rfl
  | n + 1, b, h => by
    have h1 : (b.take 4).length = 4 := by rw [List.length_take]; omega
    have h2 : words .little 4 b = words .little 4 (b.take 4 ++ b.drop 4) := by rw [List.take_append_drop]
    rw [h2, words_append (by decide) _ _ h1, words_map n (b.drop 4) (by rw [List.length_drop]; omega), List.range_succ_eq_map, List.map_cons, List.map_map]
    congr 1
    apply List.map_congr_left
    intro i _
    show Spec.wordAt (b.drop 4) i = Spec.wordAt b (i + 1)
    unfold Spec.wordAt
    rw [List.drop_drop, show 4 + 4 * i = 4 * (i + 1) by omega]

theorem words_append' : ∀ (n : Nat) (a b : List Byte), a.length = n * 4 → words .little 4 (a ++ b) = words .little 4 a ++ words .little 4 b
  | 0, a, b, h => by
    have : a = [] := List.eq_nil_of_length_eq_zero (by omega)
    subst this; rfl
  | n + 1, a, b, h => by
    have h1 : (a.take 4).length = 4 := by rw [List.length_take]; omega
    have h2 : words .little 4 a = words .little 4 (a.take 4 ++ a.drop 4) := by rw [List.take_append_drop]
    have h3 : words .little 4 (a ++ b) = words .little 4 (a.take 4 ++ (a.drop 4 ++ b)) := by rw [← List.append_assoc, List.take_append_drop]
    rw [h2, h3, words_append (by decide) _ _ h1, words_append (by decide) _ _ h1, words_append' n (a.drop 4) b (by rw [List.length_drop]; omega)]
    rfl

/-! ## Prekeys -/

/-- The words of the user key (serpent.cpp:16-19). -/
def userWords (key : List Byte) : List W32 :=
  let k0 := getUserKey .little 4 8 key
  if key.length < 32 then k0.set (key.length / 4) (wd k0 (key.length / 4) ||| (1 <<< (key.length % 4 * 8))) else k0

theorem userWords_spec (key : List Byte) (h : key.length = 16 ∨ key.length = 24 ∨ key.length = 32) : userWords key = Spec.prekeys key 0 := by
  have hp : (Spec.pad key).length = 8 * 4 := by
    unfold Spec.pad
    rcases h with h | h | h <;> simp [h]
  show _ = (List.range 8).map (Spec.wordAt (Spec.pad key))
  rw [← words_map 8 _ hp]
  unfold userWords getUserKey Spec.pad wd
  rcases h with h | h | h
  · have hw := (words_spec .little (by decide : 0 < 4) 4 key h).1
    rw [h, if_pos (by decide), if_pos (by decide), words_append' 4 key _ h, List.append_assoc, words_append' 4 key _ h, List.set_append_right _ _ (by rw [hw]; decide), List.getD_append_right _ _ _ _ (by rw [hw]; decide), hw]
    congr 1
  · have hw := (words_spec .little (by decide : 0 < 4) 6 key h).1
    rw [h, if_pos (by decide), if_pos (by decide), words_append' 6 key _ h, List.append_assoc, words_append' 6 key _ h, List.set_append_right _ _ (by rw [hw]; decide), List.getD_append_right _ _ _ _ (by rw [hw]; decide), hw]
    congr 1
  · rw [h, if_neg (by decide), if_neg (by decide), show 8 * 4 - 32 = 0 from rfl, List.replicate_zero, List.append_nil]

theorem prekeys_length (key : List Byte) : ∀ n, (Spec.prekeys key n).length = n + 8
  | 0 => by simp [Spec.prekeys]
  | n + 1 => by
    unfold Spec.prekeys
    simp only [List.length_append, prekeys_length key n, List.length_cons, List.length_nil]

/-- The prekey that follows `n` prekeys. -/
def nextKey (key : List Byte) (n : Nat) : W32 :=
  let w := Spec.prekeys key n
  rotl (w.getD n 0 ^^^ w.getD (n + 3) 0 ^^^ w.getD (n + 5) 0 ^^^ w.getD (n + 7) 0 ^^^ 0x9e3779b9 ^^^ BitVec.ofNat 32 n) 11

theorem prekeys_succ (key : List Byte) (n : Nat) : Spec.prekeys key (n + 1) = Spec.prekeys key n ++ [nextKey key n] := by
  unfold nextKey
  rw [rotl_eq]
  rfl

theorem prekeys_get_succ (key : List Byte) (n i : Nat) (h : i < n + 8) : (Spec.prekeys key (n + 1)).getD i 0 = (Spec.prekeys key n).getD i 0 := by
  rw [prekeys_succ, List.getD_append _ _ _ _ (by rw [prekeys_length]; exact h)]

theorem prekeys_last (key : List Byte) (n : Nat) : (Spec.prekeys key (n + 1)).getD (n + 8) 0 = nextKey key n := by
  rw [prekeys_succ, List.getD_append_right _ _ _ _ (Nat.le_of_eq (prekeys_length key n)), prekeys_length, Nat.sub_self]
  rfl

theorem prekeys_drop (key : List Byte) (n : Nat) : (Spec.prekeys key (n + 1)).drop 8 = (Spec.prekeys key n).drop 8 ++ [nextKey key n] := by
  rw [prekeys_succ, List.drop_append_of_le_length (by rw [prekeys_length]; omega)]

theorem first8_spec (key : List Byte) : ∀ (n i : Nat) (k0 : List W32), i + n = 8 → k0.length = 8 →
    (∀ j, j < 8 → wd k0 j = (Spec.prekeys key i).getD (if j < i then j + 8 else j) 0) →
    first8 n i k0 ((Spec.prekeys key i).getD (i + 7) 0) ((Spec.prekeys key i).drop 8) = (Spec.prekeys key 8).drop 8
  | 0, i, k0, hi, _, _ => by
    have : i = 8 := by omega
    subst this; rfl
  | n + 1, i, k0, hi, hl, h => by
    have e : ∀ d, d < 8 → wd k0 ((i + d) % 8) = (Spec.prekeys key i).getD (i + d) 0 := by
      intro d hd
      rw [h _ (Nat.mod_lt _ (by decide))]
      congr 1
      by_cases hc : i + d < 8
      · rw [Nat.mod_eq_of_lt hc, if_neg (by omega)]
      · rw [show (i + d) % 8 = i + d - 8 by omega, if_pos (by omega)]
        omega
    unfold first8
    have e0 := e 0 (by decide)
    rw [Nat.add_zero, Nat.mod_eq_of_lt (by omega : i < 8)] at e0
    have ht : rotl (wd k0 i ^^^ wd k0 ((i + 3) % 8) ^^^ wd k0 ((i + 5) % 8) ^^^ (Spec.prekeys key i).getD (i + 7) 0 ^^^ 0x9e3779b9 ^^^ BitVec.ofNat 32 i) 11 = nextKey key i := by
      rw [e0, e 3 (by decide), e 5 (by decide)]
      rfl
    dsimp only
    rw [ht, ← prekeys_drop]
    have := first8_spec key n (i + 1) (k0.set i (nextKey key i)) (by omega) (by rw [List.length_set]; exact hl) (by
      intro j hj
      by_cases hji : j = i
      · subst hji
        rw [if_pos (by omega), prekeys_last]
        unfold wd
        rw [List.getD_eq_getElem?_getD, List.getElem?_set_self (by omega)]
        rfl
      · have : wd (k0.set i (nextKey key i)) j = wd k0 j := by
          unfold wd
          rw [List.getD_eq_getElem?_getD, List.getElem?_set_ne (by omega), ← List.getD_eq_getElem?_getD]
        rw [this, h j hj]
        by_cases hc : j < i
        · rw [if_pos hc, if_pos (by omega), prekeys_get_succ _ _ _ (by omega)]
        · rw [if_neg hc, if_neg (by omega), prekeys_get_succ _ _ _ (by omega)])
    rw [show i + 1 + 7 = i + 8 by omega, prekeys_last] at this
    exact this

theorem wd_drop (l : List W32) (i : Nat) : wd (l.drop 8) i = l.getD (i + 8) 0 := by
  unfold wd
  rw [List.getD_eq_getElem?_getD, List.getElem?_drop, Nat.add_comm 8 i, ← List.getD_eq_getElem?_getD]

theorem more_spec (key : List Byte) : ∀ (n i : Nat), 8 ≤ i →
    more n i ((Spec.prekeys key i).getD (i + 7) 0) ((Spec.prekeys key i).drop 8) = (Spec.prekeys key (i + n)).drop 8
  | 0, i, _ => rfl
  | n + 1, i, hi => by
    unfold more
    have ht : rotl (wd ((Spec.prekeys key i).drop 8) (i - 8) ^^^ wd ((Spec.prekeys key i).drop 8) (i - 5) ^^^ wd ((Spec.prekeys key i).drop 8) (i - 3) ^^^ (Spec.prekeys key i).getD (i + 7) 0 ^^^ 0x9e3779b9 ^^^
        BitVec.ofNat 32 i) 11 = nextKey key i := by
      rw [wd_drop, wd_drop, wd_drop, show i - 8 + 8 = i by omega, show i - 5 + 8 = i + 3 by omega, show i - 3 + 8 = i + 5 by omega]
      rfl
    dsimp only
    rw [ht, ← prekeys_drop]
    have := more_spec key n (i + 1) (by omega)
    rw [show i + 1 + 7 = i + 8 by omega, prekeys_last, show i + 1 + n = i + (n + 1) by omega] at this
    exact this

/-! ## S-boxes -/

/-- Four words of the key. -/
def blk (k : List W32) (r : Nat) : R4 32 := (wd k (4 * r), wd k (4 * r + 1), wd k (4 * r + 2), wd k (4 * r + 3))
def setBlk (k : List W32) (r : Nat) (x : R4 32) : List W32 := (((k.set (4 * r) x.1).set (4 * r + 1) x.2.1).set (4 * r + 2) x.2.2.1).set (4 * r + 3) x.2.2.2

theorem setBlk_length (k : List W32) (r : Nat) (x : R4 32) : (setBlk k r x).length = k.length := by simp [setBlk]

theorem wd_set (k : List W32) (i j : Nat) (x : W32) (h : i < k.length) : wd (k.set i x) j = if i = j then x else wd k j := by
  unfold wd
  rw [List.getD_eq_getElem?_getD, List.getElem?_set]
  split
  · rfl
  · rw [← List.getD_eq_getElem?_getD]

theorem wd_setBlk (k : List W32) (r : Nat) (x : R4 32) (i : Nat) (h : 4 * r + 4 ≤ k.length) :
    wd (setBlk k r x) i = if 4 * r + 3 = i then x.2.2.2 else if 4 * r + 2 = i then x.2.2.1 else if 4 * r + 1 = i then x.2.1 else if 4 * r = i then x.1 else wd k i := by
  unfold setBlk
  rw [wd_set _ _ _ _ (by simp only [List.length_set]; omega), wd_set _ _ _ _ (by simp only [List.length_set]; omega), wd_set _ _ _ _ (by simp only [List.length_set]; omega), wd_set _ _ _ _ (by omega)]

theorem blk_setBlk (k : List W32) (r r' : Nat) (x : R4 32) (h : 4 * r + 4 ≤ k.length) : blk (setBlk k r x) r' = if r' = r then x else blk k r' := by
  unfold blk
  rw [wd_setBlk _ _ _ _ h, wd_setBlk _ _ _ _ h, wd_setBlk _ _ _ _ h, wd_setBlk _ _ _ _ h]
  by_cases hr : r' = r
  · subst hr
    rw [if_pos rfl]
    simp
  · rw [if_neg hr]
    repeat rw [if_neg (by omega)]

/-- One box applied to a block of the key. -/
def step (j r : Nat) (k : List W32) : List W32 := setBlk k r (sl j (blk k r))

theorem boxKey_eq (o o' : Order 32) (S : R5 32 → R5 32) (f : R4 32 → R4 32) (base : Int) (r : Nat) (k : List W32) (hf : ∀ s, view o' (on' o S s) = f (view o s)) (ho : o.Good)
    (h1 : base + (8 - o.n) * 4 = 4 * r) (h2 : base + ((8 - o'.n) * 4 + 4) = 4 * r) : boxKey o o' S base k = setBlk k r (f (blk k r)) := by
  have a : ∀ j : Nat, (base + ((8 - (o.n : Int)) * 4 + j)).toNat = 4 * r + j := by intro j; omega
  have b : ∀ j : Nat, (base + ((8 - (o'.n : Int)) * 4 + 4 + j)).toNat = 4 * r + j := by intro j; omega
  have hv : ∀ w0 w1 w2 w3 : W32, f (w0, w1, w2, w3) = view o' (on' o S (o.put (w0, w1, w2, w3, 0))) := by
    intro w0 w1 w2 w3
    rw [hf]
    unfold view
    rw [ho]
  unfold boxKey
  dsimp only
  rw [a, a, a, a, b, b, b, b, blk, hv, setBlk]
  rfl

/-- S-box `3 - r` applied to block `r`. -/
def keyStep (r : Nat) (k : List W32) : List W32 := setBlk k r (sl (35 - r) (blk k r))

theorem sl_of {j m : Nat} (h : j % 8 = m) (hm : m < 8) : sl j = sl m := by
  unfold sl
  rw [h, Nat.mod_eq_of_lt hm]

theorem boxKeys_eq (g : Nat) (hg : g < 4) (k : List W32) : boxKeys (32 * g - 20) k = upto 8 (fun i => keyStep (8 * g + i)) k := by
  have h : ∀ i m, i < 8 → (35 - (8 * g + i)) % 8 = m → m < 8 → keyStep (8 * g + i) = fun k => setBlk k (8 * g + i) (sl m (blk k (8 * g + i))) := by
    intro i m _ hm hm'
    unfold keyStep
    rw [sl_of hm hm']
  unfold boxKeys
  dsimp only
  rw [boxKey_eq afterS2 afterS3 s3 sl3 _ (8 * g + 0) k view_s3 afterS2_good (by simp [afterS2]; omega) (by simp [afterS3]; omega)]
  rw [boxKey_eq afterS1 afterS2 s2 sl2 _ (8 * g + 1) _ view_s2 afterS1_good (by simp [afterS1]; omega) (by simp [afterS2]; omega)]
  rw [boxKey_eq afterS0 afterS1 s1 sl1 _ (8 * g + 2) _ view_s1 afterS0_good (by simp [afterS0]; omega) (by simp [afterS1]; omega)]
  rw [boxKey_eq beforeS0 afterS0 s0 sl0 _ (8 * g + 3) _ view_s0 beforeS0_good (by simp [beforeS0]; omega) (by simp [afterS0]; omega)]
  rw [boxKey_eq afterS6 afterS7 s7 sl7 _ (8 * g + 4) _ view_s7 afterS6_good (by simp [afterS6]; omega) (by simp [afterS7]; omega)]
  rw [boxKey_eq afterS5 afterS6 s6 sl6 _ (8 * g + 5) _ view_s6 afterS5_good (by simp [afterS5]; omega) (by simp [afterS6]; omega)]
  rw [boxKey_eq afterS4 afterS5 s5 sl5 _ (8 * g + 6) _ view_s5 afterS4_good (by simp [afterS4]; omega) (by simp [afterS5]; omega)]
  rw [boxKey_eq afterS3 afterS4 s4 sl4 _ (8 * g + 7) _ view_s4 afterS3_good (by simp [afterS3]; omega) (by simp [afterS4]; omega)]
  simp only [upto_succ]
  rw [h 0 3 (by decide) (by omega) (by decide), h 1 2 (by decide) (by omega) (by decide), h 2 1 (by decide) (by omega) (by decide), h 3 0 (by decide) (by omega) (by decide), h 4 7 (by decide) (by omega) (by decide),
    h 5 6 (by decide) (by omega) (by decide), h 6 5 (by decide) (by omega) (by decide), h 7 4 (by decide) (by omega) (by decide)]
  rfl

theorem boxLoop_eq : ∀ (n g : Nat) (k K : List W32), g + n = 4 → k = upto (8 * g) keyStep K → boxLoop n (32 * g - 20) k = upto 33 keyStep K
  | 0, g, k, K, hg, h => by
    have : g = 4 := by omega
    subst this
    unfold boxLoop
    rw [boxKey_eq afterS2 afterS3 s3 sl3 _ 32 k view_s3 afterS2_good (by simp [afterS2]) (by simp [afterS3]), h, upto_succ 32]
    rfl
  | n + 1, g, k, K, hg, h => by
    unfold boxLoop
    rw [boxKeys_eq g (by omega), show (32 * (g : Int) - 20 + 32) = 32 * ((g + 1 : Nat) : Int) - 20 by push_cast; omega]
    apply boxLoop_eq n (g + 1) _ K (by omega)
    rw [h, ← upto_add]
    rfl

theorem steps_blk (K : List W32) (hK : K.length = 132) : ∀ n, n ≤ 33 → (upto n keyStep K).length = 132 ∧ ∀ r, r < 33 → blk (upto n keyStep K) r = if r < n then sl (35 - r) (blk K r) else blk K r
  | 0, _ => ⟨hK, fun r _ => by rw [if_neg (by omega)]; rfl⟩
  | n + 1, hn => by
    obtain ⟨h1, h2⟩ := steps_blk K hK n (by omega)
    rw [upto_succ]
    unfold keyStep
    refine ⟨by rw [setBlk_length]; exact h1, fun r hr => ?_⟩
    rw [blk_setBlk _ _ _ _ (by have : (upto n keyStep K).length = 132 := h1; unfold keyStep at this; omega)]
    by_cases hrn : r = n
    · subst hrn
      rw [if_pos rfl, if_pos (by omega)]
      have := h2 r hr
      unfold keyStep at this
      rw [this, if_neg (by omega)]
    · rw [if_neg hrn]
      have := h2 r hr
      unfold keyStep at this
      rw [this]
      by_cases hc : r < n
      · rw [if_pos hc, if_pos (by omega)]
      · rw [if_neg hc, if_neg (by omega)]

theorem schedule_spec (key : List Byte) (h : key.length = 16 ∨ key.length = 24 ∨ key.length = 32) (r : Nat) (hr : r < 33) : four (blk (schedule key) r) = Spec.roundKey key r := by
  have e : schedule key = upto 33 keyStep ((Spec.prekeys key 132).drop 8) := by
    have h0 := userWords_spec key h
    have h7 : ∀ l : List W32, l = Spec.prekeys key 0 → first8 8 0 l (wd l 7) [] = (Spec.prekeys key 8).drop 8 := by
      rintro l rfl
      refine first8_spec key 8 0 _ rfl (prekeys_length key 0) fun j _ => ?_
      rw [if_neg (by omega)]
      rfl
    show boxLoop 4 (-20) (more 124 8 (wd (first8 8 0 (userWords key) (wd (userWords key) 7) []) 7) (first8 8 0 (userWords key) (wd (userWords key) 7) [])) = _
    rw [h7 _ h0, wd_drop, more_spec key 124 8 (by decide)]
    generalize (Spec.prekeys key (8 + 124)).drop 8 = K
    exact boxLoop_eq 4 0 K K rfl rfl
  rw [e, (steps_blk _ (by rw [List.length_drop, prekeys_length]) 33 (by decide)).2 r hr, if_pos hr, sl_spec]
  unfold Spec.roundKey blk four Spec.prekey
  simp only [wd_drop]

/-! ## The cipher -/

theorem kx4_spec (k : List W32) (r : Nat) (x : R4 32) : four (kx4 k (4 * r) x) = Spec.xor (four x) (four (blk k r)) := rfl

theorem upto_spec (key : List Byte) (h : key.length = 16 ∨ key.length = 24 ∨ key.length = 32) (x : R4 32) :
    ∀ n, n ≤ 31 → four (upto n (full (schedule key)) x) = Spec.rounds (Spec.roundKey key) (four x) n
  | 0, _ => rfl
  | n + 1, hn => by
    rw [upto_succ, full, half, lt4_spec, sl_spec, kx4_spec, upto_spec key h x n (by omega), schedule_spec key h n (by omega)]
    rfl

theorem whole_spec (key : List Byte) (h : key.length = 16 ∨ key.length = 24 ∨ key.length = 32) (x : R4 32) : four (whole (schedule key) x) = Spec.encryptWords (Spec.roundKey key) (four x) := by
  unfold whole half
  rw [show kx4 (schedule key) 128 = kx4 (schedule key) (4 * 32) from rfl, kx4_spec, sl_spec, kx4_spec, upto_spec key h x 31 (by decide), schedule_spec key h 31 (by decide), schedule_spec key h 32 (by decide)]
  rfl

theorem enc_spec (e : W32) (key : List Byte) (h : key.length = 16 ∨ key.length = 24 ∨ key.length = 32) (b : List Byte) (hb : b.length = 16) :
    unwords .little 4 (encWords (schedule key) e (words .little 4 b)) = Spec.encrypt key b := by
  have hw : words .little 4 b = [Spec.wordAt b 0, Spec.wordAt b 1, Spec.wordAt b 2, Spec.wordAt b 3] := words_map 4 b hb
  have hs := whole_spec key h (Spec.wordAt b 0, Spec.wordAt b 1, Spec.wordAt b 2, Spec.wordAt b 3)
  rw [hw, encWords_eq]
  generalize whole (schedule key) (Spec.wordAt b 0, Spec.wordAt b 1, Spec.wordAt b 2, Spec.wordAt b 3) = y at hs ⊢
  unfold Spec.encrypt
  rw [← show four (Spec.wordAt b 0, Spec.wordAt b 1, Spec.wordAt b 2, Spec.wordAt b 3) = ⟨Spec.wordAt b 0, Spec.wordAt b 1, Spec.wordAt b 2, Spec.wordAt b 3⟩ from rfl, ← hs]
  simp only [unwords, List.flatMap_cons, List.flatMap_nil, List.append_nil, List.append_assoc, ByteOrder.bytes, four]

end Verif.Serpent
