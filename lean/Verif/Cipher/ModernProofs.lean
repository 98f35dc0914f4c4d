import Verif.Cipher.Modern

/-!
# SM4, SEED, Twofish, MARS, Camellia: proofs
-/
namespace Verif.Cipher

/-- Transformations that are undone by others seen through an involution, in the opposite order. -/
theorem Cancel.mirror {σ : Type} {R : σ → σ} (hR : ∀ s, R (R s) = s) {f g : Nat → σ → σ} {n : Nat} (h : ∀ i, i < n → Cancel (f i) (fun s => R (g (n - 1 - i) (R s)))) :
    Cancel (upto n f) (fun s => R (upto n g (R s))) := by
  have e : ∀ s, downto n (fun i s => R (g (n - 1 - i) (R s))) s = R (upto n g (R s)) := by
    intro s
    rw [← upto_rev]
    rw [upto_congr (g := fun i s => R (g i (R s))) fun i hi s => by rw [show n - 1 - (n - 1 - i) = i by omega]]
    clear h
    induction n with
    | zero => exact (hR s).symm
    | succ n ih => rw [upto_succ, upto_succ, ih, hR]
  have := Cancel.loop h
  exact ⟨fun s => by dsimp only; rw [← e]; exact this.1 s, fun s => by dsimp only; rw [← e]; exact this.2 s⟩

theorem Cancel.involution {σ : Type} {R : σ → σ} (hR : ∀ s, R (R s) = s) : Cancel R R := ⟨hR, hR⟩

theorem Cancel.congr {σ : Type} {f g g' : σ → σ} (h : Cancel f g) (e : ∀ s, g' s = g s) : Cancel f g' :=
  ⟨fun s => by rw [e]; exact h.1 s, fun s => by rw [e]; exact h.2 s⟩

/-! ## SM4 -/

namespace Sm4

theorem rev_rev (s : Q32) : rev (rev s) = s := rfl

theorem round_cancel (k : List W32) (R : Nat) : Cancel (roundF k R) (fun s => rev (roundB k (R + 3) (rev s))) := by
  have c3 : ∀ x y z : W32, x ^^^ y ^^^ z = z ^^^ y ^^^ x := by intro x y z; rw [BitVec.xor_comm _ z, BitVec.xor_comm x y, BitVec.xor_assoc]
  constructor
  · rintro ⟨a, b, c, d⟩
    simp only [roundF, roundB, rev, Nat.sub_zero, Nat.add_zero, show R + 3 - 1 = R + 2 by omega, show R + 3 - 2 = R + 1 by omega, show R + 3 - 3 = R by omega]
    generalize ha : a ^^^ f (b ^^^ c ^^^ d ^^^ nth k R) = a'
    generalize hb : b ^^^ f (a' ^^^ c ^^^ d ^^^ nth k (R + 1)) = b'
    generalize hc : c ^^^ f (a' ^^^ b' ^^^ d ^^^ nth k (R + 2)) = c'
    rw [c3 c' b' a', xor_xor_cancel]
    rw [show d ^^^ b' ^^^ a' = a' ^^^ b' ^^^ d from c3 _ _ _, ← hc, xor_xor_cancel]
    rw [show d ^^^ c ^^^ a' = a' ^^^ c ^^^ d from c3 _ _ _, ← hb, xor_xor_cancel]
    rw [show d ^^^ c ^^^ b = b ^^^ c ^^^ d from c3 _ _ _, ← ha, xor_xor_cancel]
  · rintro ⟨a, b, c, d⟩
    simp only [roundF, roundB, rev, Nat.sub_zero, Nat.add_zero, show R + 3 - 1 = R + 2 by omega, show R + 3 - 2 = R + 1 by omega, show R + 3 - 3 = R by omega]
    generalize hd : d ^^^ f (c ^^^ b ^^^ a ^^^ nth k (R + 3)) = d'
    generalize hc : c ^^^ f (d' ^^^ b ^^^ a ^^^ nth k (R + 2)) = c'
    generalize hb : b ^^^ f (d' ^^^ c' ^^^ a ^^^ nth k (R + 1)) = b'
    rw [c3 b' c' d', xor_xor_cancel]
    rw [show a ^^^ c' ^^^ d' = d' ^^^ c' ^^^ a from c3 _ _ _, ← hb, xor_xor_cancel]
    rw [show a ^^^ b ^^^ d' = d' ^^^ b ^^^ a from c3 _ _ _, ← hc, xor_xor_cancel]
    rw [show a ^^^ b ^^^ c = c ^^^ b ^^^ a from c3 _ _ _, ← hd, xor_xor_cancel]

theorem cancel (k : List W32) : Cancel (enc k) (dec k) := by
  have h : Cancel (upto 8 fun i => roundF k (4 * i)) (fun s => rev (upto 8 (fun i => roundB k (31 - 4 * i)) (rev s))) := by
    apply Cancel.mirror rev_rev
    intro i hi
    have := round_cancel k (4 * i)
    rwa [show 4 * i + 3 = 31 - 4 * (8 - 1 - i) by omega] at this
  exact (h.comp (Cancel.involution rev_rev)).congr fun s => by
    unfold dec
    rw [rev_rev]

end Sm4

/-! ## SEED -/

namespace Seed

theorem swap_swap (s : Q32) : swap (swap s) = s := rfl

theorem body_cancel (k k' : List (W32 × W32)) (i j : Nat) (h0 : k'.getD (2 * j) (0, 0) = k.getD (2 * i + 1) (0, 0)) (h1 : k'.getD (2 * j + 1) (0, 0) = k.getD (2 * i) (0, 0)) :
    Cancel (body k i) (fun s => swap (body k' j (swap s))) := by
  constructor
  · rintro ⟨a0, a1, b0, b1⟩
    simp only [body, swap, h0, h1, xor_xor_cancel]
  · rintro ⟨a0, a1, b0, b1⟩
    simp only [body, swap, h0, h1, xor_xor_cancel]

theorem keys_length : ∀ (n i : Nat) (a b : W64), (keys n i a b).length = n
  | 0, _, _, _ => rfl
  | n + 1, i, a, b => by
    unfold keys
    dsimp only
    split <;> rw [List.length_cons, keys_length]

theorem cancel (key : List Byte) : Cancel (process (schedule true key)) (process (schedule false key)) := by
  unfold schedule
  dsimp only
  rw [if_pos rfl, if_neg (by decide)]
  generalize hk : keys 16 0 (wd (words .big 8 key) 0) (wd (words .big 8 key) 1) = k
  have hl : k.length = 16 := by rw [← hk]; exact keys_length _ _ _ _
  have hr : ∀ r, r < 16 → k.reverse.getD r (0, 0) = k.getD (15 - r) (0, 0) := by
    intro r hr
    rw [List.getD_eq_getElem?_getD, List.getElem?_reverse (by omega), hl, ← List.getD_eq_getElem?_getD]
  have h : Cancel (upto 8 (body k)) (fun s => swap (upto 8 (body k.reverse) (swap s))) := by
    apply Cancel.mirror swap_swap
    intro i hi
    apply body_cancel
    · rw [hr _ (by omega)]; congr 1; omega
    · rw [hr _ (by omega)]; congr 1; omega
  exact (h.comp (Cancel.involution swap_swap)).congr fun s => by
    unfold process
    rw [swap_swap]

end Seed

/-! ## Twofish -/

namespace Twofish

theorem swap_swap (s : Q32) : swap (swap s) = s := rfl

theorem round_cancel (S : Nat → Nat → W32) (k : List W32) (n : Nat) : Cancel (encRound S k n) (decRound S k n) := by
  have e : ∀ x y z : W32, y + (x + z) = y + x + z := fun x y z => (BitVec.add_assoc y x z).symm
  constructor <;> rintro ⟨a, b, c, d⟩ <;> simp only [encRound, decRound, e, xor_xor_cancel, rotl_rotr, rotr_rotl]

theorem cycle_cancel (S : Nat → Nat → W32) (k : List W32) (n : Nat) : Cancel (encCycle S k n) (decCycle S k n) :=
  (((round_cancel S k (2 * n)).comp (Cancel.involution swap_swap)).comp (round_cancel S k (2 * n + 1))).comp (Cancel.involution swap_swap)

theorem cancel (S : Nat → Nat → W32) (k : List W32) : Cancel (enc S k) (dec S k) := by
  have h := Cancel.loop (n := 8) fun i _ => cycle_cancel S k i
  constructor
  · rintro ⟨a, b, c, d⟩
    simp only [enc, dec, xor_xor_cancel, h.1]
  · rintro ⟨a, b, c, d⟩
    simp only [enc, dec, xor_xor_cancel, h.2]

end Twofish

/-! ## MARS -/

namespace Mars

def rev (s : Q32) : Q32 := let (a, b, c, d) := s; (d, c, b, a)
theorem rev_rev (s : Q32) : rev (rev s) = s := rfl

theorem byteAt_rotl24 (a : W32) (i : Nat) (h : i < 3) : byteAt (rotl a 24) i = byteAt a (i + 1) := by
  have e : ∀ (x : W32) (j : Nat), byteAt x j = (x.extractLsb' (8 * j) 8).toNat := by
    intro x j
    unfold byteAt
    rw [BitVec.extractLsb'_toNat, BitVec.toNat_ushiftRight]
  rw [e, e, rotl_eq]
  congr 1
  apply BitVec.eq_of_getLsbD_eq
  intro j hj
  rw [BitVec.getLsbD_extractLsb', BitVec.getLsbD_extractLsb', BitVec.getLsbD_rotateLeft]
  rw [show 24 % (8 * 4) = 24 from rfl, cond_eq_ite, if_pos (by simp; omega)]
  congr 2
  omega

theorem bwd_cancel (i : Nat) (hi : i < 8) : Cancel (bwd i) (fun s => rev (fwd (7 - i) (rev s))) := by
  have e0 : (7 - i) % 4 = 0 ↔ i % 4 = 3 := by omega
  have e1 : (7 - i) % 4 = 1 ↔ i % 4 = 2 := by omega
  have t : ∀ a : W32, s1 (rotl a 24) 1 = s1 a 2 ∧ s0 (rotl a 24) 2 = s0 a 3 := by
    intro a
    unfold s1 s0
    rw [byteAt_rotl24 a 1 (by decide), byteAt_rotl24 a 2 (by decide)]
    exact ⟨rfl, rfl⟩
  have t' : ∀ a : W32, s1 (rotr a 24) 2 = s1 a 1 ∧ s0 (rotr a 24) 3 = s0 a 2 := by
    intro a
    have := t (rotr a 24)
    rw [rotl_rotr] at this
    exact ⟨this.1.symm, this.2.symm⟩
  constructor
  · rintro ⟨a, b, c, d⟩
    simp only [bwd, fwd, rev, (t _).1, (t _).2, rotr_rotl, xor_xor_cancel, sub_add_cancel', e0, e1]
  · rintro ⟨a, b, c, d⟩
    simp only [bwd, fwd, rev, e0, e1]
    by_cases h2 : i % 4 = 2
    · simp [h2, (t' _).1, (t' _).2, rotl_rotr, xor_xor_cancel]
    · by_cases h3 : i % 4 = 3
      · simp [h3, (t' _).1, (t' _).2, rotl_rotr, xor_xor_cancel]
      · simp [h2, h3, (t' _).1, (t' _).2, rotl_rotr, xor_xor_cancel]

theorem core_cancel (k : List W32) (i : Nat) (hi : i < 16) : Cancel (coreE k i) (fun s => rev (coreD k (15 - i) (rev s))) := by
  have e0 : 35 - 2 * (15 - i) = 2 * i + 5 := by omega
  have e1 : 34 - 2 * (15 - i) = 2 * i + 4 := by omega
  by_cases h : i < 8
  · have h' : ¬ 15 - i < 8 := by omega
    constructor <;> rintro ⟨a, b, c, d⟩ <;> simp only [coreE, coreD, rev, e0, e1, if_pos h, if_neg h', rotr_rotl, rotl_rotr, xor_xor_cancel, add_sub_cancel', sub_add_cancel']
  · have h' : 15 - i < 8 := by omega
    constructor <;> rintro ⟨a, b, c, d⟩ <;> simp only [coreE, coreD, rev, e0, e1, if_neg h, if_pos h', rotr_rotl, rotl_rotr, xor_xor_cancel, add_sub_cancel', sub_add_cancel']

theorem cancel (k : List W32) : Cancel (enc k) (dec k) := by
  have hb : Cancel (upto 8 bwd) (fun s => rev (upto 8 fwd (rev s))) := Cancel.mirror rev_rev fun i hi => bwd_cancel i hi
  have hc : Cancel (upto 16 (coreE k)) (fun s => rev (upto 16 (coreD k) (rev s))) := Cancel.mirror rev_rev fun i hi => core_cancel k i hi
  have hf : Cancel (upto 8 fwd) (fun s => rev (upto 8 bwd (rev s))) :=
    ⟨fun s => congrArg rev (hb.2 (rev s)), fun s => congrArg rev (hb.1 (rev s))⟩
  have ha : Cancel (add k) (fun s => subD k (rev s)) := by constructor <;> rintro ⟨a, b, c, d⟩ <;> simp only [add, subD, rev, add_sub_cancel', sub_add_cancel']
  have hs : Cancel (sub k) (fun s => rev (addD k s)) := by constructor <;> rintro ⟨a, b, c, d⟩ <;> simp only [sub, addD, rev, add_sub_cancel', sub_add_cancel']
  exact ((((ha.comp hf).comp hc).comp hb).comp hs).congr fun s => by
    unfold dec
    simp only [rev_rev]

end Mars

/-! ## Camellia -/

namespace Camellia

/-! ### The two kinds of rounds -/

theorem rotl_xor (x y : W32) (n : Nat) : rotl (x ^^^ y) n = rotl x n ^^^ rotl y n := by
  rw [rotl_eq, rotl_eq, rotl_eq]
  apply BitVec.eq_of_getLsbD_eq
  intro i hi
  simp only [BitVec.getLsbD_rotateLeft, BitVec.getLsbD_xor]
  by_cases h : i < n % 32
  · simp [h]
  · have hi' : i < 32 := hi
    simp [h, hi']

theorem rotr_xor (x y : W32) (n : Nat) : rotr (x ^^^ y) n = rotr x n ^^^ rotr y n := by
  rw [rotr_eq, rotr_eq, rotr_eq]
  apply BitVec.eq_of_getLsbD_eq
  intro i hi
  simp only [BitVec.getLsbD_rotateRight, BitVec.getLsbD_xor]
  by_cases h : i < 32 - n % 32
  · simp [h]
  · have hi' : i < 32 := hi
    simp [h, hi']

/-- Bytes at different places. -/
theorem or_xor (a b c d : BitVec 8) : (w a <<< 24) ||| (w b <<< 16) ||| (w c <<< 8) ||| w d = (w a <<< 24) ^^^ (w b <<< 16) ^^^ (w c <<< 8) ^^^ w d := by
  unfold w
  apply BitVec.eq_of_getLsbD_eq
  intro i hi
  have hi' : i < 32 := hi
  simp only [BitVec.getLsbD_or, BitVec.getLsbD_xor, BitVec.getLsbD_shiftLeft, BitVec.getLsbD_setWidth]
  by_cases h1 : i < 8
  · simp [h1, show i < 16 by omega, show i < 24 by omega]
  · rw [BitVec.getLsbD_of_ge d i (by omega)]
    by_cases h2 : i < 16
    · simp [h1, h2, show i < 24 by omega]
    · rw [BitVec.getLsbD_of_ge c (i - 8) (by omega)]
      by_cases h3 : i < 24
      · simp [h1, h2, h3]
      · rw [BitVec.getLsbD_of_ge b (i - 16) (by omega)]
        simp

/-- The linear part of `SLOW_ROUND`. -/
def lin (zl zr : W32) : W32 × W32 :=
  let zl := zl ^^^ zr
  let zr := zl ^^^ rotl zr 8
  let zl := zr ^^^ rotr zl 8
  (rotl zr 16 ^^^ zl, rotl zl 8)

def add2 (x y : W32 × W32) : W32 × W32 := (x.1 ^^^ y.1, x.2 ^^^ y.2)

theorem lin_xor (a b c d : W32) : lin (a ^^^ b) (c ^^^ d) = add2 (lin a c) (lin b d) := by
  simp only [lin, add2, rotl_xor, rotr_xor]
  refine Prod.ext ?_ ?_
  · dsimp only; ac_rfl
  · dsimp only; ac_rfl

theorem lin_split (a b c d a' b' c' d' : W32) :
    lin (a ^^^ b ^^^ c ^^^ d) (a' ^^^ b' ^^^ c' ^^^ d') =
      add2 (add2 (add2 (add2 (lin a 0) (lin b 0)) (lin c 0)) (lin d 0)) (add2 (add2 (add2 (lin 0 a') (lin 0 b')) (lin 0 c')) (lin 0 d')) := by
  have h : ∀ x y : W32, lin x y = add2 (lin x 0) (lin 0 y) := by
    intro x y
    rw [← lin_xor]; simp
  have h1 : ∀ x y : W32, lin (x ^^^ y) 0 = add2 (lin x 0) (lin y 0) := by
    intro x y
    rw [← lin_xor]; simp
  have h2 : ∀ x y : W32, lin 0 (x ^^^ y) = add2 (lin 0 x) (lin 0 y) := by
    intro x y
    rw [← lin_xor]; simp
  rw [h, h1, h1, h1, h2, h2, h2]

/-- The tables of `ROUND` and the small table. -/
theorem tables_r : ∀ v, v < 256 →
    lin 0 (w (rotl (s v) 1)) = (tab camelliaSP1 v, tab camelliaSP1 v) ∧ lin 0 (w (rotr (s v) 1) <<< 24) = (tab camelliaSP2 v, tab camelliaSP2 v) ∧
    lin 0 (w (s (rotl (BitVec.ofNat 8 v) 1).toNat) <<< 16) = (tab camelliaSP3 v, tab camelliaSP3 v) ∧ lin 0 (w (s v) <<< 8) = (tab camelliaSP0 v, tab camelliaSP0 v) := by
  decide +kernel

theorem tables_l : ∀ v, v < 256 →
    lin (w (s v) <<< 24) 0 = (tab camelliaSP0 v, tab camelliaSP0 v ^^^ rotr (tab camelliaSP0 v) 8) ∧
    lin (w (rotl (s v) 1) <<< 16) 0 = (tab camelliaSP1 v, tab camelliaSP1 v ^^^ rotr (tab camelliaSP1 v) 8) ∧
    lin (w (rotr (s v) 1) <<< 8) 0 = (tab camelliaSP2 v, tab camelliaSP2 v ^^^ rotr (tab camelliaSP2 v) 8) ∧
    lin (w (s (rotl (BitVec.ofNat 8 v) 1).toNat)) 0 = (tab camelliaSP3 v, tab camelliaSP3 v ^^^ rotr (tab camelliaSP3 v) 8) := by
  decide +kernel

theorem byteAt_lt (x : W32) (i : Nat) : byteAt x i < 256 := Nat.mod_lt _ (by decide)

theorem slow_eq : slow = fast := by
  funext lh ll kh kl
  have h : slow lh ll kh kl = lin
      ((w (s (byteAt (lh ^^^ kh) 3)) <<< 24) ||| (w (rotl (s (byteAt (lh ^^^ kh) 2)) 1) <<< 16) ||| (w (rotr (s (byteAt (lh ^^^ kh) 1)) 1) <<< 8) ||| w (s (rotl (BitVec.ofNat 8 (byteAt (lh ^^^ kh) 0)) 1).toNat))
      (w (rotl (s (byteAt (ll ^^^ kl) 3)) 1) ||| (w (rotr (s (byteAt (ll ^^^ kl) 2)) 1) <<< 24) ||| (w (s (rotl (BitVec.ofNat 8 (byteAt (ll ^^^ kl) 1)) 1).toNat) <<< 16) ||| (w (s (byteAt (ll ^^^ kl) 0)) <<< 8)) := rfl
  have c : ∀ a b c d : W32, a ||| b ||| c ||| d = b ||| c ||| d ||| a := by
    intro a b c d
    rw [BitVec.or_assoc, BitVec.or_assoc, BitVec.or_comm a, BitVec.or_assoc b c d]
  rw [h, c (w (rotl _ 1)), or_xor, or_xor, lin_split]
  unfold fast
  have r := fun i => tables_r (byteAt (ll ^^^ kl) i) (byteAt_lt _ _)
  have l := fun i => tables_l (byteAt (lh ^^^ kh) i) (byteAt_lt _ _)
  rw [(l 3).1, (l 2).2.1, (l 1).2.2.1, (l 0).2.2.2, (r 3).1, (r 2).2.1, (r 1).2.2.1, (r 0).2.2.2]
  simp only [add2, rotr_xor]
  refine Prod.ext ?_ ?_
  · dsimp only; ac_rfl
  · dsimp only; ac_rfl

/-! ### The two directions of the schedule -/

theorem ksRound0_fst (k : Q32) (i : Nat) : (ksRound0 k i).map Prod.fst = [i + 1, i] := rfl

theorem ksRound_fst (k : Q32) (i r which : Nat) : (ksRound k i r which).map Prod.fst =
    (if which &&& (1 <<< (if r < 64 then 1 else 0)) ≠ 0 then [i + (if r < 64 then 0 else 1)] else []) ++
    (if which &&& (1 <<< (if r > 64 then 1 else 0)) ≠ 0 then [i + (if r > 64 then 0 else 1)] else []) := by
  unfold ksRound
  dsimp only
  rw [List.map_append]
  congr 1
  · split <;> split <;> rfl
  · split <;> split <;> rfl

theorem stores_fst (key : List Byte) : (stores key).map Prod.fst =
    if key.length = 16 then [1, 0, 4, 5, 10, 11, 12, 17, 16, 19, 18, 23, 22, 3, 2, 6, 7, 8, 9, 13, 14, 15, 21, 20, 24, 25]
    else [1, 0, 12, 13, 16, 17, 23, 22, 31, 30, 4, 5, 8, 9, 18, 19, 27, 26, 6, 7, 14, 15, 25, 24, 29, 28, 3, 2, 10, 11, 20, 21, 32, 33] := by
  unfold stores
  dsimp only
  by_cases h : key.length = 16
  · rw [if_pos h, if_pos h]
    simp only [List.map_append, ksRound0_fst, ksRound_fst]
    rfl
  · rw [if_neg h, if_neg h]
    simp only [List.map_append, ksRound0_fst, ksRound_fst]
    rfl

/-- Every word of the schedule is written once, and nothing outside. -/
theorem stores_all (key : List Byte) (h : key.length = 16 ∨ key.length = 24 ∨ key.length = 32) :
    (∀ i, i < 8 * rounds key + 2 ↔ i ∈ (stores key).map Prod.fst) ∧ ((stores key).map Prod.fst).Nodup := by
  rw [stores_fst]
  have e1 : ∀ i, i < 26 ↔ i ∈ [1, 0, 4, 5, 10, 11, 12, 17, 16, 19, 18, 23, 22, 3, 2, 6, 7, 8, 9, 13, 14, 15, 21, 20, 24, 25] := by
    intro i
    refine ⟨?_, fun hi => (by decide : ∀ i ∈ [1, 0, 4, 5, 10, 11, 12, 17, 16, 19, 18, 23, 22, 3, 2, 6, 7, 8, 9, 13, 14, 15, 21, 20, 24, 25], i < 26) i hi⟩
    revert i
    decide
  have e2 : ∀ i, i < 34 ↔ i ∈ [1, 0, 12, 13, 16, 17, 23, 22, 31, 30, 4, 5, 8, 9, 18, 19, 27, 26, 6, 7, 14, 15, 25, 24, 29, 28, 3, 2, 10, 11, 20, 21, 32, 33] := by
    intro i
    refine ⟨?_, fun hi => (by decide : ∀ i ∈ [1, 0, 12, 13, 16, 17, 23, 22, 31, 30, 4, 5, 8, 9, 18, 19, 27, 26, 6, 7, 14, 15, 25, 24, 29, 28, 3, 2, 10, 11, 20, 21, 32, 33], i < 34) i hi⟩
    revert i
    decide
  rcases h with h | h | h
  · rw [if_pos h]; unfold rounds; rw [h]; exact ⟨e1, by decide⟩
  · rw [if_neg (by omega)]; unfold rounds; rw [h]; exact ⟨e2, by decide⟩
  · rw [if_neg (by omega)]; unfold rounds; rw [h]; exact ⟨e2, by decide⟩

theorem reverse_set {α : Type} (l : List α) (i : Nat) (x : α) (h : i < l.length) : (l.set i x).reverse = l.reverse.set (l.length - 1 - i) x := by
  apply List.ext_getElem?
  intro j
  by_cases hj : j < l.length
  · rw [List.getElem?_reverse (by rw [List.length_set]; exact hj), List.length_set, List.getElem?_set, List.getElem?_set, List.length_reverse, List.getElem?_reverse hj]
    by_cases e : l.length - 1 - i = j
    · rw [if_pos (by omega : i = l.length - 1 - j), if_pos e, if_pos h, if_pos (by omega)]
    · rw [if_neg (by omega), if_neg e]
  · rw [List.getElem?_eq_none (by simp; omega), List.getElem?_eq_none (by simp; omega)]

theorem fold_reverse {α : Type} (n : Nat) : ∀ (st : List (Nat × α)) (l : List α), l.length = n → (∀ x ∈ st, x.1 < n) →
    (st.foldl (fun m x => m.set x.1 x.2) l).reverse = st.foldl (fun m x => m.set (n - 1 - x.1) x.2) l.reverse ∧ (st.foldl (fun m x => m.set x.1 x.2) l).length = n
  | [], _, h, _ => ⟨rfl, h⟩
  | x :: st, l, h, hs => by
    have hx := hs x (List.mem_cons_self ..)
    have := fold_reverse n st (l.set x.1 x.2) (by rw [List.length_set]; exact h) fun y hy => hs y (List.mem_cons_of_mem _ hy)
    rw [List.foldl_cons, List.foldl_cons]
    rw [reverse_set l x.1 x.2 (by omega), h] at this
    exact this

theorem schedule_reverse (key : List Byte) (h : key.length = 16 ∨ key.length = 24 ∨ key.length = 32) :
    schedule false key = (schedule true key).reverse ∧ (schedule true key).length = 8 * rounds key + 2 := by
  have := fold_reverse (8 * rounds key + 2) (stores key) (List.replicate (8 * rounds key + 2) 0) (List.length_replicate ..) fun x hx =>
    ((stores_all key h).1 x.1).mpr (List.mem_map_of_mem hx)
  rw [List.reverse_replicate] at this
  exact ⟨this.1.symm, this.2⟩

/-! ### The rounds -/

def swap (x : Q32) : Q32 := let (a, b, c, d) := x; (c, d, a, b)
theorem swap_swap (x : Q32) : swap (swap x) = x := rfl

/-- What happens with the subkeys at position `p`. -/
def stepAt (m : List W64) (p : Nat) (x : Q32) : Q32 :=
  if p % 4 = 0 then fl (ks m 0 p 0) (ks m 0 p 1) (ks m 0 p 2) (ks m 0 p 3) x else doubleKs m 0 p x

theorem ks_at (m : List W64) (t i j : Nat) : ks m t i j = ks m 0 (4 * t + i) j := by
  unfold ks
  rw [show 8 * t + i * 2 + (1 - j / 2) = 8 * 0 + (4 * t + i) * 2 + (1 - j / 2) by omega]

theorem doubleKs_at (m : List W64) (t i : Nat) (x : Q32) (h : (4 * t + i) % 4 ≠ 0) : doubleKs m t i x = stepAt m (4 * t + i) x := by
  unfold stepAt
  rw [if_neg h]
  unfold doubleKs
  rw [ks_at m t i 0, ks_at m t i 1, ks_at m t i 2, ks_at m t i 3]

theorem body_at (m : List W64) (t : Nat) (x : Q32) : body m t x = stepAt m (4 * t + 5) (stepAt m (4 * t + 4) (stepAt m (4 * t + 3) (stepAt m (4 * t + 2) x))) := by
  unfold body
  rw [doubleKs_at m t 5 _ (by omega), doubleKs_at m t 3 _ (by omega), doubleKs_at m t 2 _ (by omega), ks_at m t 4 0, ks_at m t 4 1, ks_at m t 4 2, ks_at m t 4 3]
  have e : ∀ y, stepAt m (4 * t + 4) y = fl (ks m 0 (4 * t + 4) 0) (ks m 0 (4 * t + 4) 1) (ks m 0 (4 * t + 4) 2) (ks m 0 (4 * t + 4) 3) y := by
    intro y
    unfold stepAt
    rw [if_pos (by omega)]
  rw [e]

theorem loop_at (m : List W64) (x : Q32) : ∀ r, upto r (body m) (stepAt m 1 x) = upto (4 * r + 1) (fun i => stepAt m (i + 1)) x
  | 0 => rfl
  | r + 1 => by
    rw [upto_succ, loop_at m x r, body_at, show 4 * (r + 1) + 1 = 4 * r + 4 + 1 by omega, upto_succ (4 * r + 4), upto_succ (4 * r + 3), upto_succ (4 * r + 2), upto_succ (4 * r + 1)]

theorem process_at (m : List W64) (r : Nat) (x : Q32) :
    process m r x = swap (whiten m 0 (4 * r + 4) (upto (4 * r + 3) (fun i => stepAt m (i + 1)) (whiten m 0 0 x))) := by
  unfold process
  rw [slow_eq]
  dsimp only
  have e1 : ∀ y, left fast (ks m 0 1 2) (ks m 0 1 3) (right fast (ks m 0 1 0) (ks m 0 1 1) y) = stepAt m 1 y := fun y => rfl
  have e2 : ∀ y, left fast (ks m r 3 2) (ks m r 3 3) (right fast (ks m r 3 0) (ks m r 3 1) y) = stepAt m (4 * r + 3) y := fun y => doubleKs_at m r 3 y (by omega)
  have e3 : ∀ y, whiten m r 4 y = whiten m 0 (4 * r + 4) y := by
    intro y
    unfold whiten
    rw [ks_at m r 4 0, ks_at m r 4 1, ks_at m r 4 2, ks_at m r 4 3]
  rw [e1, loop_at, doubleKs_at m r 2 _ (by omega), e2, e3, upto_succ (4 * r + 2), upto_succ (4 * r + 1)]
  rfl

/-- The subkeys of decryption. -/
theorem ks_reverse (m : List W64) (r : Nat) (hm : m.length = 8 * r + 10) (p : Nat) (hp : p ≤ 4 * r + 4) :
    ks m.reverse 0 (4 * r + 4 - p) 0 = ks m 0 p 2 ∧ ks m.reverse 0 (4 * r + 4 - p) 1 = ks m 0 p 3 ∧
    ks m.reverse 0 (4 * r + 4 - p) 2 = ks m 0 p 0 ∧ ks m.reverse 0 (4 * r + 4 - p) 3 = ks m 0 p 1 := by
  have h : ∀ i, i < 8 * r + 10 → nth m.reverse i = nth m (8 * r + 9 - i) := by
    intro i hi
    unfold nth
    rw [List.getD_eq_getElem?_getD, List.getElem?_reverse (by omega), hm, ← List.getD_eq_getElem?_getD]
    rfl
  unfold ks
  simp only [show (0 : Nat) / 2 = 0 from rfl, show 2 / 2 = 1 from rfl]
  rw [h _ (by omega), h _ (by omega)]
  rw [show 8 * r + 9 - (8 * 0 + (4 * r + 4 - p) * 2 + (1 - 0)) = 8 * 0 + p * 2 + (1 - 1) by omega, show 8 * r + 9 - (8 * 0 + (4 * r + 4 - p) * 2 + (1 - 1)) = 8 * 0 + p * 2 + (1 - 0) by omega]
  exact ⟨rfl, rfl, rfl, rfl⟩

theorem step_cancel (m : List W64) (r : Nat) (hm : m.length = 8 * r + 10) (p : Nat) (hp : p ≤ 4 * r + 4) :
    Cancel (stepAt m p) (fun x => swap (stepAt m.reverse (4 * r + 4 - p) (swap x))) := by
  obtain ⟨h0, h1, h2, h3⟩ := ks_reverse m r hm p hp
  unfold stepAt doubleKs
  rw [h0, h1, h2, h3]
  by_cases hc : p % 4 = 0
  · simp only [if_pos hc, if_pos (show (4 * r + 4 - p) % 4 = 0 by omega)]
    constructor <;> rintro ⟨a, b, c, d⟩ <;> simp only [fl, swap, xor_xor_cancel]
  · simp only [if_neg hc, if_neg (show ¬ (4 * r + 4 - p) % 4 = 0 by omega)]
    constructor <;> rintro ⟨a, b, c, d⟩ <;> simp only [double, left, right, swap, xor_xor_cancel]

theorem whiten_cancel (m : List W64) (r : Nat) (hm : m.length = 8 * r + 10) (p : Nat) (hp : p ≤ 4 * r + 4) :
    Cancel (whiten m 0 p) (fun x => swap (whiten m.reverse 0 (4 * r + 4 - p) (swap x))) := by
  obtain ⟨h0, h1, h2, h3⟩ := ks_reverse m r hm p hp
  unfold whiten
  rw [h0, h1, h2, h3]
  constructor <;> rintro ⟨a, b, c, d⟩ <;> simp only [xor4, swap, xor_xor_cancel]

theorem cancel (m : List W64) (r : Nat) (hm : m.length = 8 * r + 10) : Cancel (process m r) (process m.reverse r) := by
  have e : ∀ m : List W64, process m r = fun x => swap (whiten m 0 (4 * r + 4) (upto (4 * r + 3) (fun i => stepAt m (i + 1)) (whiten m 0 0 x))) := fun m => funext (process_at m r)
  rw [e, e]
  have hs : Cancel (upto (4 * r + 3) fun i => stepAt m (i + 1)) (fun x => swap (upto (4 * r + 3) (fun i => stepAt m.reverse (i + 1)) (swap x))) := by
    apply Cancel.mirror swap_swap
    intro i hi
    have := step_cancel m r hm (i + 1) (by omega)
    rwa [show 4 * r + 4 - (i + 1) = 4 * r + 3 - 1 - i + 1 by omega] at this
  have h0 := whiten_cancel m r hm 0 (by omega)
  have h4 := whiten_cancel m r hm (4 * r + 4) (by omega)
  rw [Nat.sub_self] at h4
  rw [Nat.sub_zero] at h0
  exact (((h0.comp hs).comp h4).comp (Cancel.involution swap_swap)).congr fun x => by simp only [swap_swap]

end Camellia

end Verif.Cipher
