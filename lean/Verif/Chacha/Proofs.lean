import Verif.Chacha.Model
import Verif.Chacha.Spec
import Verif.Modes.CtrProofs

namespace Verif.Chacha

open Verif.Modes (blocksOf blocksOf_succ blocksOf_snoc blocksOf_congr load_byBlocks)

theorem quarter_eq (a b c d : W) : quarter a b c d = Spec.quarterRound a b c d := by
  simp only [quarter, Spec.quarterRound, Cipher.rotl_eq]

/-- Sixteen words. -/
theorem sixteen {P : List W → Prop} (h : ∀ x0 x1 x2 x3 x4 x5 x6 x7 x8 x9 x10 x11 x12 x13 x14 x15, P [x0, x1, x2, x3, x4, x5, x6, x7, x8, x9, x10, x11, x12, x13, x14, x15])
    (s : List W) (hs : s.length = 16) : P s := by
  rcases s with _ | ⟨x0, s⟩
  · cases hs
  rcases s with _ | ⟨x1, s⟩
  · cases hs
  rcases s with _ | ⟨x2, s⟩
  · cases hs
  rcases s with _ | ⟨x3, s⟩
  · cases hs
  rcases s with _ | ⟨x4, s⟩
  · cases hs
  rcases s with _ | ⟨x5, s⟩
  · cases hs
  rcases s with _ | ⟨x6, s⟩
  · cases hs
  rcases s with _ | ⟨x7, s⟩
  · cases hs
  rcases s with _ | ⟨x8, s⟩
  · cases hs
  rcases s with _ | ⟨x9, s⟩
  · cases hs
  rcases s with _ | ⟨x10, s⟩
  · cases hs
  rcases s with _ | ⟨x11, s⟩
  · cases hs
  rcases s with _ | ⟨x12, s⟩
  · cases hs
  rcases s with _ | ⟨x13, s⟩
  · cases hs
  rcases s with _ | ⟨x14, s⟩
  · cases hs
  rcases s with _ | ⟨x15, s⟩
  · cases hs
  rcases s with _ | ⟨x16, s⟩
  · exact h ..
  · simp only [List.length_cons] at hs; omega

theorem doubleRound_eq (s : List W) (hs : s.length = 16) : doubleRound s = Spec.innerBlock s := by
  revert s
  refine sixteen ?_
  intro x0 x1 x2 x3 x4 x5 x6 x7 x8 x9 x10 x11 x12 x13 x14 x15
  simp only [doubleRound, quarter_eq, Spec.innerBlock, Spec.quarterAt, List.set, List.getD_cons_zero, List.getD_cons_succ]

theorem innerBlock_length (s : List W) : (Spec.innerBlock s).length = s.length := by
  simp [Spec.innerBlock, Spec.quarterAt]

theorem repeat_succ {α : Type} (f : α → α) : ∀ (n : Nat) (x : α), Nat.repeat f (n + 1) x = Nat.repeat f n (f x) := by
  intro n
  induction n with
  | zero => intro x; rfl
  | succ n ih => intro x; show f (Nat.repeat f (n + 1) x) = f (Nat.repeat f n (f x)); rw [ih]

theorem roundLoop_eq : ∀ (n : Nat) (s : List W), s.length = 16 → roundLoop (2 * n) s = Spec.rounds (2 * n) s := by
  intro n
  induction n with
  | zero => intro s _; rfl
  | succ n ih =>
    intro s hs
    rw [show 2 * (n + 1) = 2 * n + 2 by omega, roundLoop, ih _ (by rw [doubleRound_eq s hs, innerBlock_length, hs]), doubleRound_eq s hs]
    unfold Spec.rounds
    rw [show 2 * n / 2 = n by omega, show (2 * n + 2) / 2 = n + 1 by omega, repeat_succ]

theorem rounds_length (n : Nat) (s : List W) : (Spec.rounds n s).length = s.length := by
  unfold Spec.rounds
  generalize n / 2 = m
  induction m generalizing s with
  | zero => rfl
  | succ m ih => rw [repeat_succ, ih, innerBlock_length]

theorem block_eq (r : Nat) (hr : r % 2 = 0) (s : List W) (hs : s.length = 16) : block r s = Spec.core r s := by
  obtain ⟨n, rfl⟩ : ∃ n, r = 2 * n := ⟨r / 2, by omega⟩
  rw [block, roundLoop_eq n s hs]; rfl

theorem serialize_length (ws : List W) : (Spec.serialize ws).length = 4 * ws.length := by
  unfold Spec.serialize
  induction ws with
  | nil => rfl
  | cons w ws ih => rw [List.flatMap_cons, List.length_append, ih, leBytes_length, List.length_cons]; omega

theorem core_length (r : Nat) (s : List W) (hs : s.length = 16) : (Spec.core r s).length = 64 := by
  rw [Spec.core, serialize_length, List.length_zipWith, rounds_length, hs]; rfl

/-- The state at block `c`: twelve words, the counter, and the rest. -/
def mk (carry : Bool) (pre : List W) (hi : W) (post : List W) (c : Nat) : List W :=
  pre ++ BitVec.ofNat 32 c :: (if carry then BitVec.ofNat 32 (c / 4294967296) else hi) :: post

theorem safe_iff (c w : Nat) (h : multiBlockSafe (BitVec.ofNat 32 c) w = true) : c % 4294967296 + w < 4294967296 := by
  unfold multiBlockSafe at h
  have h := of_decide_eq_true h
  rw [BitVec.toNat_sub, BitVec.toNat_ofNat] at h
  have : (0xffffffff : W).toNat = 4294967295 := rfl
  rw [this] at h
  omega

theorem blocksOf_add (f : Nat → List Byte) (m n : Nat) : blocksOf (m + n) f = blocksOf m f ++ blocksOf n (fun k => f (m + k)) := by
  induction n with
  | zero => simp [blocksOf]
  | succ n ih => rw [← Nat.add_assoc, blocksOf_snoc, blocksOf_snoc, ih, List.append_assoc]

section
variable (carry : Bool) (pre : List W) (hi : W) (post : List W) (hpre : pre.length = 12) (hpost : post.length = 2)
include hpre

theorem mk_length (hpost : post.length = 2) (c : Nat) : (mk carry pre hi post c).length = 16 := by simp [mk, hpre, hpost]

theorem mk_12 (c : Nat) : (mk carry pre hi post c).getD 12 0 = BitVec.ofNat 32 c := by
  simp [mk, List.getD_eq_getElem?_getD, hpre]

theorem mk_set (c : Nat) (w : W) : (mk carry pre hi post c).set 12 w = pre ++ w :: (if carry then BitVec.ofNat 32 (c / 4294967296) else hi) :: post := by
  rw [mk, List.set_append, if_neg (by omega), hpre]; rfl

/-- Adding to word 12 is right as long as it does not overflow, or if there is no carry. -/
theorem mk_add (c j : Nat) (h : carry = true → c % 4294967296 + j < 4294967296) :
    (mk carry pre hi post c).set 12 ((mk carry pre hi post c).getD 12 0 + BitVec.ofNat 32 j) = mk carry pre hi post (c + j) := by
  rw [mk_12 carry pre hi post hpre, mk_set carry pre hi post hpre, mk, ← BitVec.ofNat_add]
  cases carry with
  | false => rfl
  | true =>
    have := h rfl
    rw [show (c + j) / 4294967296 = c / 4294967296 by omega]

theorem mk_bump (c : Nat) : bump carry (mk carry pre hi post c) = mk carry pre hi post (c + 1) := by
  unfold bump
  dsimp only
  rw [mk_12 carry pre hi post hpre, mk_set carry pre hi post hpre]
  have e : BitVec.ofNat 32 c + 1 = BitVec.ofNat 32 (c + 1) := by rw [BitVec.ofNat_add]; rfl
  rw [e]
  have hz : BitVec.ofNat 32 (c + 1) = 0 ↔ (c + 1) % 4294967296 = 0 := by
    rw [← BitVec.toNat_inj, BitVec.toNat_ofNat]; rfl
  cases carry with
  | false => simp [mk]
  | true =>
    by_cases h : (c + 1) % 4294967296 = 0
    · rw [if_pos ⟨hz.2 h, rfl⟩, List.set_append, if_neg (by omega), hpre, mk]
      simp only [List.getD_eq_getElem?_getD, List.getElem?_append_right (show pre.length ≤ 13 by omega), hpre]
      show pre ++ BitVec.ofNat 32 (c + 1) :: (BitVec.ofNat 32 (c / 4294967296) + 1) :: post = _
      rw [show BitVec.ofNat 32 (c / 4294967296) + 1 = BitVec.ofNat 32 (c / 4294967296 + 1) by rw [BitVec.ofNat_add]; rfl]
      rw [show (c + 1) / 4294967296 = c / 4294967296 + 1 by omega]; rfl
    · rw [if_neg (by rw [hz]; exact fun x => h x.1), mk]
      rw [show (c + 1) / 4294967296 = c / 4294967296 by omega]

variable (r : Nat)

theorem simdBlocks_eq (c w : Nat) (h : c % 4294967296 + w < 4294967296) : simdBlocks r w (mk carry pre hi post c) = blocksOf w (fun k => block r (mk carry pre hi post (c + k))) := by
  unfold simdBlocks blocksOf
  have : ∀ (l : List Nat), (∀ j ∈ l, j < w) → l.flatMap (fun j => block r ((mk carry pre hi post c).set 12 ((mk carry pre hi post c).getD 12 0 + BitVec.ofNat 32 j))) =
      l.flatMap (fun k => block r (mk carry pre hi post (c + k))) := by
    intro l hl
    induction l with
    | nil => rfl
    | cons j l ih =>
      have := hl j (by simp)
      rw [List.flatMap_cons, List.flatMap_cons, ih (fun k hk => hl k (by simp [hk])), mk_add carry pre hi post hpre c j (fun _ => by omega)]
  exact this _ (fun j hj => List.mem_range.1 hj)

/-- A SIMD loop writes blocks and moves the counter. -/
theorem simdLoop_spec (w : Nat) (fuel : Nat) : ∀ (c n : Nat), ∃ m, m ≤ n ∧
    simdLoop r w fuel (mk carry pre hi post c) n = (mk carry pre hi post (c + m), blocksOf m (fun k => block r (mk carry pre hi post (c + k))), n - m) := by
  induction fuel with
  | zero => intro c n; exact ⟨0, Nat.zero_le _, rfl⟩
  | succ fuel ih =>
    intro c n
    unfold simdLoop
    by_cases h : n ≥ w ∧ multiBlockSafe ((mk carry pre hi post c).getD 12 0) w
    · rw [if_pos h]
      rw [mk_12 carry pre hi post hpre] at h
      have hs := safe_iff c w h.2
      rw [mk_add carry pre hi post hpre c w (fun _ => hs)]
      obtain ⟨m, hm, e⟩ := ih (c + w) (n - w)
      rw [e, simdBlocks_eq carry pre hi post hpre r c w hs]
      refine ⟨w + m, by omega, ?_⟩
      rw [blocksOf_add, Nat.add_assoc, Nat.sub_sub]
      simp only [Nat.add_assoc]
    · rw [if_neg h]
      exact ⟨0, Nat.zero_le _, rfl⟩

theorem simdAll_spec (ws : List Nat) : ∀ (c n : Nat), ∃ m, m ≤ n ∧
    simdAll r ws (mk carry pre hi post c) n = (mk carry pre hi post (c + m), blocksOf m (fun k => block r (mk carry pre hi post (c + k))), n - m) := by
  induction ws with
  | nil => intro c n; exact ⟨0, Nat.zero_le _, rfl⟩
  | cons w ws ih =>
    intro c n
    obtain ⟨m1, h1, e1⟩ := simdLoop_spec carry pre hi post hpre r w n c n
    obtain ⟨m2, h2, e2⟩ := ih (c + m1) (n - m1)
    unfold simdAll
    rw [e1]
    dsimp only
    rw [e2]
    refine ⟨m1 + m2, by omega, ?_⟩
    rw [blocksOf_add, Nat.add_assoc, Nat.sub_sub]
    simp only [Nat.add_assoc]

/-- `ChaCha_OperateKeystream`: exactly the blocks asked for. -/
theorem operateLoop_spec (ws : List Nat) (fuel : Nat) : ∀ (c n : Nat), n < fuel →
    operateLoop ws carry r fuel (mk carry pre hi post c) n = (mk carry pre hi post (c + n), blocksOf n (fun k => block r (mk carry pre hi post (c + k)))) := by
  induction fuel with
  | zero => intro c n h; omega
  | succ fuel ih =>
    intro c n h
    obtain ⟨m, hm, e⟩ := simdAll_spec carry pre hi post hpre r ws c n
    unfold operateLoop
    rw [e]
    dsimp only
    by_cases h0 : n - m = 0
    · rw [if_pos h0, show m = n by omega]
    · rw [if_neg h0, mk_bump carry pre hi post hpre, ih (c + m + 1) (n - m - 1) (by omega)]
      dsimp only
      have hn : n = m + (1 + (n - m - 1)) := by omega
      generalize n - m - 1 = t at hn
      subst hn
      rw [blocksOf_add, blocksOf_add]
      simp only [Nat.add_assoc, List.append_assoc]
      rw [show blocksOf 1 (fun k => block r (mk carry pre hi post (c + (m + k)))) = block r (mk carry pre hi post (c + m)) by simp [blocksOf]]

end

/-- The keystream from block `c0` on. -/
def ks (r : Nat) (carry : Bool) (pre : List W) (hi : W) (post : List W) (c0 : Nat) : Mem := fun q => (block r (mk carry pre hi post (c0 + q / 64))).getD (q % 64) 0

theorem block_length (r : Nat) (hr : r % 2 = 0) (s : List W) (hs : s.length = 16) : (block r s).length = 64 := by rw [block_eq r hr s hs, core_length r s hs]

theorem ks_load (r : Nat) (hr : r % 2 = 0) (carry : Bool) (pre : List W) (hi : W) (post : List W) (hpre : pre.length = 12) (hpost : post.length = 2) (c0 i n : Nat) :
    load (ks r carry pre hi post c0) (i * 64) (n * 64) = blocksOf n (fun k => block r (mk carry pre hi post (c0 + i + k))) := by
  have := load_byBlocks 64 (by omega) (fun k => block r (mk carry pre hi post (c0 + k))) (fun k => block_length r hr _ (mk_length carry pre hi post hpre hpost _)) i n
  unfold ks
  rw [this]
  simp only [Nat.add_assoc]

theorem getWords_length : ∀ (n : Nat) (b : List Byte), (getWords n b).length = n := by
  intro n
  induction n with
  | zero => intro b; rfl
  | succ n ih => intro b; rw [getWords, List.length_cons, ih]

theorem getWords_add (m : Nat) : ∀ (n : Nat) (b : List Byte), getWords (m + n) b = getWords m b ++ getWords n (b.drop (4 * m)) := by
  induction m with
  | zero => intro n b; rw [Nat.zero_add]; rfl
  | succ m ih =>
    intro n b
    rw [show m + 1 + n = (m + n) + 1 by omega, getWords, getWords, ih, List.drop_drop, List.cons_append, show 4 + 4 * m = 4 * (m + 1) by omega]

theorem getWords_eq : ∀ (n : Nat) (b : List Byte), b.length = 4 * n → getWords n b = Spec.words b := by
  intro n
  induction n with
  | zero => intro b hb; rw [List.eq_nil_of_length_eq_zero (by omega : b.length = 0)]; rfl
  | succ n ih =>
    intro b hb
    have hne : b ≠ [] := by intro h; rw [h] at hb; simp at hb
    rw [getWords, ih (b.drop 4) (by rw [List.length_drop]; omega), Spec.words, Spec.words, chunks_of_ne_nil 4 (by omega) b hne, List.map_cons]

theorem getWords_take (n m : Nat) : ∀ (b : List Byte), 4 * n ≤ m → getWords n (b.take m) = getWords n b := by
  induction n generalizing m with
  | zero => intro b _; rfl
  | succ n ih =>
    intro b h
    rw [getWords, getWords, List.take_take, Nat.min_eq_left (by omega), List.drop_take, ih _ _ (by omega)]

theorem words_append (a b : List Byte) (ha : a.length % 4 = 0) : Spec.words (a ++ b) = Spec.words a ++ Spec.words b := by
  rw [Spec.words, chunks_append 4 (by omega) a b ha, List.map_append]; rfl

theorem words_four (b : List Byte) (hb : b.length = 4) : Spec.words b = [BitVec.ofNat 32 (leVal b)] := by
  rw [← getWords_eq 1 b hb, getWords, getWords, List.take_of_length_le (by omega)]

theorem words_serialize (ws : List W) : Spec.words (Spec.serialize ws) = ws := by
  induction ws with
  | nil => rfl
  | cons w ws ih =>
    have : Spec.serialize (w :: ws) = leBytes 4 w.toNat ++ Spec.serialize ws := rfl
    rw [this, words_append _ _ (by simp), ih, words_four _ (by simp), leVal_leBytes]
    rw [Nat.mod_eq_of_lt (by have := w.isLt; omega), BitVec.ofNat_toNat, BitVec.setWidth_eq]
    rfl

theorem words_counter4 (c : Nat) : Spec.words (leBytes 4 c) = [BitVec.ofNat 32 c] := by
  rw [words_four _ (by simp), leVal_leBytes]
  congr 1
  apply BitVec.eq_of_toNat_eq
  simp

theorem words_counter8 (c : Nat) : Spec.words (leBytes 8 c) = [BitVec.ofNat 32 c, BitVec.ofNat 32 (c / 4294967296)] := by
  rw [show 8 = 4 + 4 from rfl, leBytes_append, words_append _ _ (by simp), words_counter4, words_counter4]; rfl

end Verif.Chacha
