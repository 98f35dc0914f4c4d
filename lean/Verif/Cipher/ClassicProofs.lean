import Verif.Cipher.Classic
import Verif.Cipher.FeistelProofs

namespace Verif.Cipher

theorem xor_and {w : Nat} (a b c : BitVec w) : (a ^^^ b) &&& c = (a &&& c) ^^^ (b &&& c) := by
  apply BitVec.eq_of_getLsbD_eq
  intro i _
  simp only [BitVec.getLsbD_and, BitVec.getLsbD_xor]
  cases a.getLsbD i <;> cases b.getLsbD i <;> cases c.getLsbD i <;> rfl

theorem wd_set_ne {w : Nat} (l : List (BitVec w)) {i j : Nat} (h : i ≠ j) (x : BitVec w) : wd (l.set i x) j = wd l j := by
  unfold wd; rw [List.getD_eq_getElem?_getD, List.getElem?_set_ne h, ← List.getD_eq_getElem?_getD]

theorem wd_set_self {w : Nat} (l : List (BitVec w)) {i : Nat} (h : i < l.length) (x : BitVec w) : wd (l.set i x) i = x := by
  unfold wd; rw [List.getD_eq_getElem?_getD, List.getElem?_set_self h]; rfl

theorem set_wd {w : Nat} (l : List (BitVec w)) {i : Nat} (h : i < l.length) : l.set i (wd l i) = l := by
  unfold wd
  rw [List.getD_eq_getElem?_getD, List.getElem?_eq_getElem h, Option.getD_some]
  exact List.set_getElem_self h

/-! ## Skipjack -/

namespace Skipjack

theorem hi_stable (w x : W16) (hx : x.toNat < 256) : (w ^^^ x) >>> 8 = w >>> 8 := by
  have : x >>> 8 = 0 := by
    apply BitVec.eq_of_toNat_eq
    rw [BitVec.toNat_ushiftRight, Nat.shiftRight_eq_div_pow]
    exact Nat.div_eq_of_lt hx
  rw [BitVec.ushiftRight_xor_distrib, this]
  exact BitVec.xor_zero

theorem lo_stable (w x : W16) : (w ^^^ (x <<< 8)) &&& 0xff = w &&& 0xff := by
  have : (x <<< 8) &&& 0xff = 0 := by
    apply BitVec.eq_of_getLsbD_eq
    intro i hi
    rw [BitVec.getLsbD_and, BitVec.getLsbD_shiftLeft]
    by_cases h : i < 8
    · simp [h]
    · have : (0xff : W16).getLsbD i = false := by
        have hi' : i < 16 := hi
        have := (by decide : ∀ i, i < 16 → ¬ i < 8 → (0xff : W16).getLsbD i = false) i hi' h
        exact this
      rw [this, Bool.and_false]; simp
  rw [xor_and, this]
  exact BitVec.xor_zero

theorem entry_lt (i : Nat) : entry skipjackF i < 256 := by
  unfold entry
  have hrows : ∀ r ∈ skipjackF, ∀ x ∈ r, x < 256 := by decide +kernel
  have hr : skipjackF.getD (i / 16) [] = [] ∨ skipjackF.getD (i / 16) [] ∈ skipjackF := by
    rw [List.getD_eq_getElem?_getD]
    cases h : skipjackF[i / 16]? with
    | none => exact .inl rfl
    | some r => exact .inr (List.mem_of_getElem? h)
  generalize skipjackF.getD (i / 16) [] = r at hr
  rcases hr with rfl | hr
  · simp
  · rw [List.getD_eq_getElem?_getD]
    cases h : r[i % 16]? with
    | none => simp
    | some x => exact hrows r hr x (List.mem_of_getElem? h)

/-- The entries of the table are bytes. -/
def Bytes (t : Nat → Nat → W16) : Prop := ∀ i c, (t i c).toNat < 256

theorem tab_bytes (key : List Byte) : Bytes (tab key) := by
  intro i c
  unfold tab
  rw [BitVec.toNat_ofNat, Nat.mod_eq_of_lt (Nat.lt_trans (entry_lt _) (by decide))]
  exact entry_lt _

theorem h_g {t : Nat → Nat → W16} (ht : Bytes t) (i j k l : Nat) (w : W16) : h t i j k l (g t i j k l w) = w := by
  unfold h g
  simp only [hi_stable _ _ (ht _ _), lo_stable, xor_xor_cancel]

theorem g_h {t : Nat → Nat → W16} (ht : Bytes t) (i j k l : Nat) (w : W16) : g t i j k l (h t i j k l w) = w := by
  unfold h g
  simp only [hi_stable _ _ (ht _ _), lo_stable, xor_xor_cancel]

theorem lineB_lineA {G H : W16 → W16} (hg : ∀ w, H (G w) = w) {a b c : Nat} {l : List W16} (ha : at4 a < l.length) (hb : at4 b < l.length) (hne : at4 a ≠ at4 b) :
    lineB H a b c (lineA G a b c l) = l := by
  unfold lineA lineB
  simp only []
  have l1 : at4 b < (l.set (at4 a) (G (wd l (at4 a)))).length := by rw [List.length_set]; exact hb
  rw [wd_set_self _ l1, wd_set_ne _ hne.symm, wd_set_self _ ha, xor_xor_cancel, List.set_set, wd_set_ne _ hne.symm, wd_set_self _ ha, hg,
    wd_set_ne _ hne, List.set_comm _ _ hne.symm, List.set_set, set_wd l ha, set_wd l hb]

theorem lineA_lineB {G H : W16 → W16} (hg : ∀ w, H (G w) = w) {a b c : Nat} {l : List W16} (ha : at4 a < l.length) (hb : at4 b < l.length) (hne : at4 a ≠ at4 b) :
    lineA H a b c (lineB G a b c l) = l := by
  unfold lineA lineB
  simp only []
  have l1 : at4 a < (l.set (at4 b) (wd l (at4 b) ^^^ (wd l (at4 a) ^^^ BitVec.ofNat 16 c))).length := by rw [List.length_set]; exact ha
  rw [wd_set_self _ l1, wd_set_ne _ hne.symm, hg, List.set_set, wd_set_ne _ hne, wd_set_self _ hb, wd_set_self _ l1, xor_xor_cancel, List.set_comm _ _ hne.symm, List.set_set,
    set_wd l ha, set_wd l hb]

theorem line_length (G : Nat → W16 → W16) (l : List W16) (s : Bool × Nat × Nat × Nat × Nat) : (line G l s).length = l.length := by
  unfold line lineA lineB
  by_cases h : s.1 = true
  · rw [if_pos h]; simp only [List.length_set]
  · rw [if_neg h]; simp only [List.length_set]

/-- The line that undoes a line. -/
def undo (s : Bool × Nat × Nat × Nat × Nat) : Bool × Nat × Nat × Nat × Nat := (!s.1, s.2)

/-- The words of a line are different words of the block. -/
def GoodLine (s : Bool × Nat × Nat × Nat × Nat) : Prop := at4 s.2.2.1 < 4 ∧ at4 s.2.2.2.1 < 4 ∧ at4 s.2.2.1 ≠ at4 s.2.2.2.1

instance (s : Bool × Nat × Nat × Nat × Nat) : Decidable (GoodLine s) := by unfold GoodLine; infer_instance

theorem line_undo {G H : Nat → W16 → W16} (hg : ∀ n w, H n (G n w) = w) (s : Bool × Nat × Nat × Nat × Nat) (hs : GoodLine s) (l : List W16) (hl : l.length = 4) :
    line H (line G l s) (undo s) = l := by
  obtain ⟨b, n, a, c, d⟩ := s
  obtain ⟨h1, h2, h3⟩ := hs
  unfold line undo
  cases b with
  | true => exact lineB_lineA (hg n) (by rw [hl]; exact h1) (by rw [hl]; exact h2) h3
  | false => exact lineA_lineB (hg n) (by rw [hl]; exact h1) (by rw [hl]; exact h2) h3

theorem lines_undo {G H : Nat → W16 → W16} (hg : ∀ n w, H n (G n w) = w) (ls : List (Bool × Nat × Nat × Nat × Nat)) (hs : ∀ s ∈ ls, GoodLine s) :
    ∀ l : List W16, l.length = 4 → (ls.foldl (line G) l).length = 4 ∧ (ls.reverse.map undo).foldl (line H) (ls.foldl (line G) l) = l := by
  induction ls with
  | nil => intro l hl; exact ⟨hl, rfl⟩
  | cons s ls ih =>
    intro l hl
    obtain ⟨i1, i2⟩ := ih (fun t ht => hs t (List.mem_cons_of_mem _ ht)) (line G l s) (by rw [line_length, hl])
    refine ⟨i1, ?_⟩
    rw [List.reverse_cons, List.map_append, List.foldl_append, List.foldl_cons, i2]
    exact line_undo hg s (hs s List.mem_cons_self) l hl

theorem skipjack_pair (key : List Byte) :
    Pair 4 (fun l => encLines.foldl (line (gn (tab key))) l) (fun l => decLines.foldl (line (hn (tab key))) l) := by
  have e1 : decLines = encLines.reverse.map undo := by decide
  have e2 : encLines = decLines.reverse.map undo := by decide
  intro l hl
  obtain ⟨a1, a2⟩ := lines_undo (G := gn (tab key)) (H := hn (tab key)) (fun n w => h_g (tab_bytes key) _ _ _ _ w) encLines (by decide) l hl
  obtain ⟨b1, b2⟩ := lines_undo (G := hn (tab key)) (H := gn (tab key)) (fun n w => g_h (tab_bytes key) _ _ _ _ w) decLines (by decide) l hl
  rw [← e1] at a2
  rw [← e2] at b2
  exact ⟨a1, a2, b1, b2⟩

end Skipjack

/-! ## SHACAL-2 -/

namespace Shacal2

theorem r_pair {j : Nat} (hj : j < 8) (k : W32) : Pair 8 (r j k) (p j k) := by
  intro l hl
  match l, hl with
  | [x0, x1, x2, x3, x4, x5, x6, x7], _ =>
    have : j = 0 ∨ j = 1 ∨ j = 2 ∨ j = 3 ∨ j = 4 ∨ j = 5 ∨ j = 6 ∨ j = 7 := by omega
    rcases this with rfl | rfl | rfl | rfl | rfl | rfl | rfl | rfl <;>
      simp [r, p, wd]

/-- Eight rounds. -/
theorem octet_pair (k : Nat → W32) : Pair 8 (fun l => [0, 1, 2, 3, 4, 5, 6, 7].foldl (fun l i => r i (k i) l) l) (fun l => [7, 6, 5, 4, 3, 2, 1, 0].foldl (fun l i => p i (k i) l) l) := by
  have hp := Pair.foldl (n := 8) (f := fun (x : Fin 8) l => r x.val (k x.val) l) (g := fun (x : Fin 8) l => p x.val (k x.val) l)
    (fun x => r_pair x.isLt _)
    [⟨0, by decide⟩, ⟨1, by decide⟩, ⟨2, by decide⟩, ⟨3, by decide⟩, ⟨4, by decide⟩, ⟨5, by decide⟩, ⟨6, by decide⟩, ⟨7, by decide⟩]
  simpa only [List.foldl_cons, List.foldl_nil, List.reverse_cons, List.reverse_nil, List.nil_append, List.cons_append] using hp

theorem enc_pair (rk : List W32) : Pair 8 (enc rk) (dec rk) := by
  have hp := Pair.foldl (fun j : Nat => octet_pair fun i => wd rk (8 * j + i)) (List.range 8)
  have he : dec rk = fun l => (List.range 8).reverse.foldl (fun l j => [7, 6, 5, 4, 3, 2, 1, 0].foldl (fun l i => p i (wd rk (8 * j + i)) l) l) l := by
    funext l
    have h1 : List.range 8 = [0, 1, 2, 3, 4, 5, 6, 7] := by decide
    unfold dec
    rw [h1]
    simp only [List.foldl_cons, List.foldl_nil, List.reverse_cons, List.reverse_nil, List.nil_append, List.cons_append, Nat.reduceMul, Nat.reduceSub, Nat.reduceAdd]
  rw [he]
  exact hp

end Shacal2

/-! ## 3-Way -/

theorem low_succ {w : Nat} (x : BitVec w) (i : Nat) (hi : i < w) :
    (x.setWidth (i + 1)).setWidth w = (x.setWidth i).setWidth w ^^^ (if x.getLsbD i then BitVec.twoPow w i else 0) := by
  apply BitVec.eq_of_getLsbD_eq
  intro j hj
  rw [BitVec.getLsbD_xor, BitVec.getLsbD_setWidth, BitVec.getLsbD_setWidth, BitVec.getLsbD_setWidth, BitVec.getLsbD_setWidth]
  rcases Nat.lt_trichotomy j i with h | h | h
  · have : (if x.getLsbD i = true then BitVec.twoPow w i else 0).getLsbD j = false := by
      by_cases hx : x.getLsbD i = true
      · rw [if_pos hx, BitVec.getLsbD_twoPow]; simp; omega
      · rw [if_neg hx]; simp
    rw [this]
    simp [h, Nat.lt_succ_of_lt h]
  · subst h
    by_cases hx : x.getLsbD j = true
    · rw [if_pos hx, BitVec.getLsbD_twoPow]; simp [hj, hx]
    · rw [if_neg hx]; simp [hx]
  · have : (if x.getLsbD i = true then BitVec.twoPow w i else 0).getLsbD j = false := by
      by_cases hx : x.getLsbD i = true
      · rw [if_pos hx, BitVec.getLsbD_twoPow]; simp; omega
      · rw [if_neg hx]; simp
    rw [this]
    have h1 : ¬ j < i := by omega
    have h2 : ¬ j < i + 1 := by omega
    simp [h1, h2]

/-- Two additive maps that agree on zero and on the powers of two are equal. -/
theorem additive_ext {w : Nat} {α : Type} {add : α → α → α} {f g : BitVec w → α} (hf : ∀ a b, f (a ^^^ b) = add (f a) (f b)) (hg : ∀ a b, g (a ^^^ b) = add (g a) (g b))
    (h0 : f 0 = g 0) (h : ∀ i, i < w → f (BitVec.twoPow w i) = g (BitVec.twoPow w i)) (x : BitVec w) : f x = g x := by
  have key : ∀ i, i ≤ w → f ((x.setWidth i).setWidth w) = g ((x.setWidth i).setWidth w) := by
    intro i
    induction i with
    | zero =>
      intro _
      have : (x.setWidth 0).setWidth w = (0 : BitVec w) := by
        apply BitVec.eq_of_getLsbD_eq; intro j _; simp
      rw [this, h0]
    | succ i ih =>
      intro hi
      rw [low_succ x i (by omega), hf, hg, ih (by omega)]
      congr 1
      by_cases hx : x.getLsbD i = true
      · rw [if_pos hx]; exact h i (by omega)
      · rw [if_neg hx]; exact h0
  have := key w (Nat.le_refl w)
  rwa [BitVec.setWidth_eq, BitVec.setWidth_eq] at this

namespace ThreeWay

/-- Addition of states. -/
def sx (s t : St) : St := (s.1 ^^^ t.1, s.2.1 ^^^ t.2.1, s.2.2 ^^^ t.2.2)

theorem sx_cancel (s t : St) : sx (sx s t) t = s := by
  unfold sx; simp only [xor_xor_cancel]

/-- All 96 bits in reverse. -/
def M (s : St) : St := (s.2.2.reverse, s.2.1.reverse, s.1.reverse)

theorem reverse_reverse (x : W32) : x.reverse.reverse = x := by
  apply BitVec.eq_of_getLsbD_eq
  intro i hi
  rw [BitVec.getLsbD_reverse, BitVec.getMsbD_reverse]

theorem M_M (s : St) : M (M s) = s := by
  unfold M; simp only [reverse_reverse]

theorem reverse_xor (x y : W32) : (x ^^^ y).reverse = x.reverse ^^^ y.reverse := by
  apply BitVec.eq_of_getLsbD_eq
  intro i hi
  simp [BitVec.getLsbD_reverse, BitVec.getMsbD_xor]

theorem reverse_or (x y : W32) : (x ||| y).reverse = x.reverse ||| y.reverse := by
  apply BitVec.eq_of_getLsbD_eq
  intro i hi
  simp [BitVec.getLsbD_reverse, BitVec.getMsbD_or]

theorem reverse_not (x : W32) : (~~~x).reverse = ~~~x.reverse := by
  apply BitVec.eq_of_getLsbD_eq
  intro i hi
  have hi' : i < 32 := hi
  rw [BitVec.getLsbD_reverse, BitVec.getLsbD_not, BitVec.getLsbD_reverse, BitVec.getMsbD_not]

theorem M_sx (s t : St) : M (sx s t) = sx (M s) (M t) := by
  unfold M sx; simp only [reverse_xor]

theorem rotl_xor (x y : W32) (n : Nat) : rotl (x ^^^ y) n = rotl x n ^^^ rotl y n := by
  rw [rotl_eq, rotl_eq, rotl_eq]
  apply BitVec.eq_of_getLsbD_eq
  intro i hi
  simp only [BitVec.getLsbD_rotateLeft, BitVec.getLsbD_xor]
  by_cases h : i < n % 32
  · simp [h]
  · have hi' : i < 32 := hi
    simp [h, hi']

/-- A word that depends on the state additively. -/
def Additive (f : St → W32) : Prop := ∀ s t, f (sx s t) = f s ^^^ f t

theorem Additive.xor {f g : St → W32} (hf : Additive f) (hg : Additive g) : Additive fun s => f s ^^^ g s := by
  intro s t
  simp only []
  rw [hf, hg]
  ac_rfl

theorem Additive.shl {f : St → W32} (hf : Additive f) (n : Nat) : Additive fun s => f s <<< n := by
  intro s t; simp only []; rw [hf, BitVec.shiftLeft_xor_distrib]

theorem Additive.shr {f : St → W32} (hf : Additive f) (n : Nat) : Additive fun s => f s >>> n := by
  intro s t; simp only []; rw [hf, BitVec.ushiftRight_xor_distrib]

theorem Additive.rot {f : St → W32} (hf : Additive f) (n : Nat) : Additive fun s => rotl (f s) n := by
  intro s t; simp only []; rw [hf, rotl_xor]

theorem theta_sx (s t : St) : theta (sx s t) = sx (theta s) (theta t) := by
  have a0 : Additive fun s => s.1 := fun _ _ => rfl
  have a1 : Additive fun s => s.2.1 := fun _ _ => rfl
  have a2 : Additive fun s => s.2.2 := fun _ _ => rfl
  have c0 := (a0.xor a1).xor a2
  have c := (c0.rot 16).xor (c0.rot 8)
  have b0 := (((a0.shl 24).xor (a2.shr 8)).xor (a1.shl 8)).xor (a0.shr 24)
  have b1 := (((a1.shl 24).xor (a0.shr 8)).xor (a2.shl 8)).xor (a1.shr 24)
  have r0 := a0.xor (c.xor b0)
  have r1 := a1.xor (c.xor b1)
  have r2 := a2.xor ((c.xor (b0.shr 16)).xor (b1.shl 16))
  exact Prod.ext (r0 s t) (Prod.ext (r1 s t) (r2 s t))

theorem sx_split (a b c : W32) : ((a, b, c) : St) = sx (sx (a, 0, 0) (0, b, 0)) (0, 0, c) := by
  simp [sx]

/-- Two additive maps of states that agree on the 96 single bits and zero are equal. -/
theorem st_ext {f g : St → St} (hf : ∀ s t, f (sx s t) = sx (f s) (f t)) (hg : ∀ s t, g (sx s t) = sx (g s) (g t)) (h0 : f (0, 0, 0) = g (0, 0, 0))
    (h : ∀ i, i < 32 → f (BitVec.twoPow 32 i, 0, 0) = g (BitVec.twoPow 32 i, 0, 0) ∧ f (0, BitVec.twoPow 32 i, 0) = g (0, BitVec.twoPow 32 i, 0) ∧
      f (0, 0, BitVec.twoPow 32 i) = g (0, 0, BitVec.twoPow 32 i)) (s : St) : f s = g s := by
  obtain ⟨a, b, c⟩ := s
  have z : ∀ a b : W32, ((a ^^^ b, 0, 0) : St) = sx (a, 0, 0) (b, 0, 0) ∧ ((0, a ^^^ b, 0) : St) = sx (0, a, 0) (0, b, 0) ∧ ((0, 0, a ^^^ b) : St) = sx (0, 0, a) (0, 0, b) := by
    intro a b; simp [sx]
  rw [sx_split, hf, hf, hg, hg,
    additive_ext (f := fun a => f (a, 0, 0)) (g := fun a => g (a, 0, 0)) (add := sx) (fun a b => by rw [(z a b).1, hf]) (fun a b => by rw [(z a b).1, hg]) h0 (fun i hi => (h i hi).1) a,
    additive_ext (f := fun a => f (0, a, 0)) (g := fun a => g (0, a, 0)) (add := sx) (fun a b => by rw [(z a b).2.1, hf]) (fun a b => by rw [(z a b).2.1, hg]) h0 (fun i hi => (h i hi).2.1) b,
    additive_ext (f := fun a => f (0, 0, a)) (g := fun a => g (0, 0, a)) (add := sx) (fun a b => by rw [(z a b).2.2, hf]) (fun a b => by rw [(z a b).2.2, hg]) h0 (fun i hi => (h i hi).2.2) c]

theorem theta_M_theta (s : St) : theta (M (theta s)) = M s :=
  st_ext (f := fun s => theta (M (theta s))) (g := M) (fun s t => by rw [theta_sx, M_sx, theta_sx]) M_sx (by decide +kernel) (by decide +kernel) s

theorem rotl_rev (x : W32) (n : Nat) (hn : n < 32) : rotl (rotl x n).reverse n = x.reverse := by
  rw [rotl_eq, rotl_eq]
  apply BitVec.eq_of_getLsbD_eq
  intro i hi
  have hi' : i < 32 := hi
  rw [BitVec.getLsbD_rotateLeft, Nat.mod_eq_of_lt hn, BitVec.getLsbD_reverse, BitVec.getLsbD_reverse, BitVec.getLsbD_reverse]
  simp only [BitVec.getMsbD_eq_getLsbD, BitVec.getLsbD_rotateLeft, Nat.mod_eq_of_lt hn]
  by_cases h : i < n
  · have h1 : 32 - 1 - (32 - n + i) < n := by omega
    have h2 : 32 - n + i < 32 := by omega
    have h3 : 32 - n + (32 - 1 - (32 - n + i)) = 32 - 1 - i := by omega
    simp [h, h1, h2, h3, hi']
  · have h1 : ¬ 32 - 1 - (i - n) < n := by omega
    have h2 : i - n < 32 := by omega
    have h3 : 32 - 1 - (i - n) - n = 32 - 1 - i := by omega
    have h4 : 32 - 1 - (i - n) < 32 := by omega
    simp [h, h1, h2, h3, h4, hi']

/-- The nonlinear layer. -/
def gamma (s : St) : St := (s.1 ^^^ (s.2.1 ||| ~~~s.2.2), s.2.1 ^^^ (s.2.2 ||| ~~~s.1), s.2.2 ^^^ (s.1 ||| ~~~s.2.1))
/-- The rotations before it. -/
def pi1 (s : St) : St := (rotl s.1 22, s.2.1, rotl s.2.2 1)
/-- The rotations after it. -/
def pi2 (s : St) : St := (rotl s.1 1, s.2.1, rotl s.2.2 22)

theorem piGammaPi_eq (s : St) : piGammaPi s = pi2 (gamma (pi1 s)) := rfl

theorem pi1_M_pi2 (s : St) : pi1 (M (pi2 s)) = M s := by
  unfold pi1 M pi2
  rw [rotl_rev _ 22 (by decide), rotl_rev _ 1 (by decide)]

theorem pi2_M_pi1 (s : St) : pi2 (M (pi1 s)) = M s := by
  unfold pi1 M pi2
  rw [rotl_rev _ 22 (by decide), rotl_rev _ 1 (by decide)]

theorem gamma_M_gamma (s : St) : gamma (M (gamma s)) = M s := by
  obtain ⟨a, b, c⟩ := s
  unfold gamma M
  simp only [reverse_xor, reverse_or, reverse_not, Prod.mk.injEq]
  generalize a.reverse = a, b.reverse = b, c.reverse = c
  refine ⟨?_, ?_, ?_⟩ <;>
  · apply BitVec.eq_of_getLsbD_eq
    intro i hi
    have hi' : i < 32 := hi
    simp only [BitVec.getLsbD_xor, BitVec.getLsbD_or, BitVec.getLsbD_not, hi', decide_true, Bool.true_and]
    cases a.getLsbD i <;> cases b.getLsbD i <;> cases c.getLsbD i <;> rfl

theorem pgp_M_pgp (s : St) : piGammaPi (M (piGammaPi s)) = M s := by
  rw [piGammaPi_eq, piGammaPi_eq, pi1_M_pi2, gamma_M_gamma, pi2_M_pi1]

/-- Rounds with given keys. -/
def run (ks : List St) (last : St) (s : St) : St := theta (sx (ks.foldl (fun s k => rho (sx s k)) s) last)

/-- The key of decryption for one of encryption. -/
def dk (k : St) : St := M (theta k)

theorem dk_dk (k : St) : dk (dk k) = k := by
  unfold dk; rw [theta_M_theta, M_M]

theorem step_dk (s k k' : St) : rho (sx (M (theta (sx (rho (sx s k)) k'))) (dk k')) = M (theta (sx s k)) := by
  unfold dk
  rw [← M_sx, ← theta_sx, sx_cancel]
  unfold rho
  rw [theta_M_theta, pgp_M_pgp]

theorem fold_dk (ks : List St) : ∀ (s k0 last : St),
    (last :: ks.reverse).foldl (fun s k => rho (sx s (dk k))) (M (theta (sx ((k0 :: ks).foldl (fun s k => rho (sx s k)) s) last))) = M (theta (sx s k0)) := by
  induction ks with
  | nil => intro s k0 last; exact step_dk s k0 last
  | cons k ks ih =>
    intro s k0 last
    have := ih (rho (sx s k0)) k last
    rw [← List.foldl_cons (l := k :: ks) (f := fun s k => rho (sx s k)) (b := s) (a := k0)] at this
    rw [List.reverse_cons, ← List.cons_append, List.foldl_append, List.foldl_cons, this, List.foldl_nil]
    exact step_dk s k0 k

theorem run_run (ks : List St) (k0 last s : St) :
    M (run ((last :: ks.reverse).map dk) (dk k0) (M (run (k0 :: ks) last s))) = s := by
  unfold run
  rw [List.foldl_map, fold_dk]
  unfold dk
  rw [← M_sx, ← theta_sx, sx_cancel, theta_M_theta, M_M]

/-- The state that holds a round constant. -/
def cv (rc : W32) : St := (rc <<< 16, 0, rc)

theorem addKey_eq (k : St) (rc : W32) (s : St) : addKey k rc s = sx s (sx k (cv rc)) := by
  simp [addKey, sx, cv]

theorem rounds_eq (k : St) (s : St) (c : W32) : rounds k 11 c s =
    run ([c, Nat.repeat nextRc 1 c, Nat.repeat nextRc 2 c, Nat.repeat nextRc 3 c, Nat.repeat nextRc 4 c, Nat.repeat nextRc 5 c, Nat.repeat nextRc 6 c, Nat.repeat nextRc 7 c,
      Nat.repeat nextRc 8 c, Nat.repeat nextRc 9 c, Nat.repeat nextRc 10 c].map fun c => sx k (cv c)) (sx k (cv (Nat.repeat nextRc 11 c))) s := by
  simp only [rounds, run, List.map_cons, List.map_nil, List.foldl_cons, List.foldl_nil, addKey_eq, Nat.repeat]

theorem dk_sx (k : St) {c d : W32} (h : dk (cv c) = cv d) : dk (sx k (cv c)) = sx (dk k) (cv d) := by
  rw [← h]; unfold dk; rw [theta_sx, M_sx]

/-- The constants of the two directions match. -/
def Match (c d : W32) : Prop := ∀ i, i < 12 → dk (cv (Nat.repeat nextRc i c)) = cv (Nat.repeat nextRc (11 - i) d)

theorem rounds_rounds {c d : W32} (h : Match c d) (k s : St) : M (rounds (dk k) 11 d (M (rounds k 11 c s))) = s := by
  rw [rounds_eq, rounds_eq]
  have := run_run ([Nat.repeat nextRc 1 c, Nat.repeat nextRc 2 c, Nat.repeat nextRc 3 c, Nat.repeat nextRc 4 c, Nat.repeat nextRc 5 c, Nat.repeat nextRc 6 c, Nat.repeat nextRc 7 c, Nat.repeat nextRc 8 c, Nat.repeat nextRc 9 c, Nat.repeat nextRc 10 c].map fun c => sx k (cv c)) (sx k (cv c)) (sx k (cv (Nat.repeat nextRc 11 c))) s
  simp only [List.map_cons, List.map_nil, List.reverse_cons, List.reverse_nil, List.nil_append, List.cons_append] at this
  rw [dk_sx (c := c) (d := Nat.repeat nextRc 11 d) k (h 0 (by decide)),
    dk_sx (c := Nat.repeat nextRc 1 c) (d := Nat.repeat nextRc 10 d) k (h 1 (by decide)),
    dk_sx (c := Nat.repeat nextRc 2 c) (d := Nat.repeat nextRc 9 d) k (h 2 (by decide)),
    dk_sx (c := Nat.repeat nextRc 3 c) (d := Nat.repeat nextRc 8 d) k (h 3 (by decide)),
    dk_sx (c := Nat.repeat nextRc 4 c) (d := Nat.repeat nextRc 7 d) k (h 4 (by decide)),
    dk_sx (c := Nat.repeat nextRc 5 c) (d := Nat.repeat nextRc 6 d) k (h 5 (by decide)),
    dk_sx (c := Nat.repeat nextRc 6 c) (d := Nat.repeat nextRc 5 d) k (h 6 (by decide)),
    dk_sx (c := Nat.repeat nextRc 7 c) (d := Nat.repeat nextRc 4 d) k (h 7 (by decide)),
    dk_sx (c := Nat.repeat nextRc 8 c) (d := Nat.repeat nextRc 3 d) k (h 8 (by decide)),
    dk_sx (c := Nat.repeat nextRc 9 c) (d := Nat.repeat nextRc 2 d) k (h 9 (by decide)),
    dk_sx (c := Nat.repeat nextRc 10 c) (d := Nat.repeat nextRc 1 d) k (h 10 (by decide)),
    dk_sx (c := Nat.repeat nextRc 11 c) (d := d) k (h 11 (by decide))] at this
  simpa only [List.map_cons, List.map_nil] using this

/-- Decryption of states with 11 rounds. -/
theorem dec_rounds (k s : St) : M (rounds (dk k) 11 0xb1b1 (M (rounds k 11 0x0b0b s))) = s :=
  rounds_rounds (by unfold Match; decide +kernel) k s

/-- And encryption of what was decrypted. -/
theorem enc_rounds (k s : St) : rounds k 11 0x0b0b (M (rounds (dk k) 11 0xb1b1 (M s))) = s := by
  have := rounds_rounds (c := 0xb1b1) (d := 0x0b0b) (by unfold Match; decide +kernel) (dk k) (M s)
  rw [dk_dk] at this
  have h2 := congrArg M this
  rwa [M_M, M_M] at h2

theorem append_toNat (a b c d : Byte) : (a ++ b ++ c ++ d : BitVec 32).toNat = ((a.toNat * 256 + b.toNat) * 256 + c.toNat) * 256 + d.toNat := by
  rw [BitVec.toNat_append, BitVec.toNat_append, BitVec.toNat_append]
  rw [← Nat.shiftLeft_add_eq_or_of_lt b.isLt, ← Nat.shiftLeft_add_eq_or_of_lt c.isLt, ← Nat.shiftLeft_add_eq_or_of_lt d.isLt]
  simp only [Nat.shiftLeft_eq]

theorem byteReverse_append (a b c d : Byte) : byteReverse (a ++ b ++ c ++ d : BitVec 32) = (d ++ c ++ b ++ a : BitVec 32) := by
  apply BitVec.eq_of_getLsbD_eq
  intro i hi
  have hi' : i < 32 := hi
  clear hi
  unfold byteReverse
  simp only [BitVec.getLsbD_or, BitVec.getLsbD_and, BitVec.getLsbD_shiftLeft, BitVec.getLsbD_ushiftRight, BitVec.getLsbD_append]
  iterate 32 (rcases i with _ | i; · simp)
  omega

theorem byteReverse_reverseBits (x : W32) : byteReverse (reverseBits x) = x.reverse := by
  apply BitVec.eq_of_getLsbD_eq
  intro i hi
  have hi' : i < 32 := hi
  clear hi
  rw [BitVec.getLsbD_reverse, BitVec.getMsbD_eq_getLsbD]
  unfold byteReverse reverseBits
  simp only [BitVec.getLsbD_or, BitVec.getLsbD_and, BitVec.getLsbD_shiftLeft, BitVec.getLsbD_ushiftRight]
  iterate 32 (rcases i with _ | i; · simp)
  omega

theorem reverseBits_byteReverse (x : W32) : reverseBits (byteReverse x) = x.reverse := by
  apply BitVec.eq_of_getLsbD_eq
  intro i hi
  have hi' : i < 32 := hi
  clear hi
  rw [BitVec.getLsbD_reverse, BitVec.getMsbD_eq_getLsbD]
  unfold byteReverse reverseBits
  simp only [BitVec.getLsbD_or, BitVec.getLsbD_and, BitVec.getLsbD_shiftLeft, BitVec.getLsbD_ushiftRight]
  iterate 32 (rcases i with _ | i; · simp)
  omega

theorem byteReverse_byteReverse (x : W32) : byteReverse (byteReverse x) = x := by
  apply BitVec.eq_of_getLsbD_eq
  intro i hi
  have hi' : i < 32 := hi
  clear hi
  unfold byteReverse
  simp only [BitVec.getLsbD_or, BitVec.getLsbD_and, BitVec.getLsbD_shiftLeft, BitVec.getLsbD_ushiftRight]
  iterate 32 (rcases i with _ | i; · simp)
  omega

theorem byteReverse_val (c : List Byte) (h : c.length = 4) : BitVec.ofNat 32 (leVal c) = byteReverse (BitVec.ofNat 32 (beVal c)) := by
  match c, h with
  | [a, b, c, d], _ =>
    have h1 : BitVec.ofNat 32 (leVal [a, b, c, d]) = (d ++ c ++ b ++ a : BitVec 32) := by
      apply BitVec.eq_of_toNat_eq
      rw [append_toNat, BitVec.toNat_ofNat, Nat.mod_eq_of_lt (by have := leVal_lt [a, b, c, d]; simpa using this)]
      simp only [leVal]; omega
    have h2 : BitVec.ofNat 32 (beVal [a, b, c, d]) = (a ++ b ++ c ++ d : BitVec 32) := by
      apply BitVec.eq_of_toNat_eq
      rw [append_toNat, BitVec.toNat_ofNat, Nat.mod_eq_of_lt (by have := beVal_lt [a, b, c, d]; simpa using this)]
      simp [beVal, leVal]; omega
    rw [h1, h2, byteReverse_append]

theorem words_little (n : Nat) : ∀ (b : List Byte), b.length = n * 4 → words .little 4 b = (words .big 4 b).map byteReverse := by
  induction n with
  | zero =>
    intro b h
    have : b = [] := List.eq_nil_of_length_eq_zero (by omega)
    subst this; rfl
  | succ n ih =>
    intro b h
    have h1 : (b.take 4).length = 4 := by rw [List.length_take]; omega
    rw [← List.take_append_drop 4 b, words_append (by decide) _ _ h1, words_append (by decide) _ _ h1, ih (b.drop 4) (by rw [List.length_drop]; omega), List.map_cons]
    congr 1
    exact byteReverse_val _ h1

theorem unwords_little (l : List W32) : unwords .little 4 (l.map byteReverse) = unwords .big 4 l := by
  have hl : (unwords .big 4 l).length = l.length * 4 := unwords_length _ _ _
  have := words_little l.length (unwords .big 4 l) hl
  rw [words_unwords .big (by decide)] at this
  rw [← this]
  exact (words_spec .little (by decide) l.length _ hl).2

theorem decKey_eq (k : St) : decKey k = dk k := by
  unfold decKey dk M mu
  simp only [byteReverse_reverseBits]

/-- Decryption in terms of big-endian words. -/
theorem dec_eq (k : St) (n : Nat) (b : List Byte) (h : b.length = 12) :
    dec k n b = unwords .big 4 (toList (M (rounds (dk k) n 0xb1b1 (M (ofList (words .big 4 b)))))) := by
  have hl : (words .big 4 b).length = 3 := (words_spec .big (by decide) 3 b h).1
  unfold dec
  rw [words_little 3 b h, decKey_eq, ← unwords_little]
  match words .big 4 b, hl with
  | [x, y, z], _ =>
    have : mu (ofList ([x, y, z].map byteReverse)) = M (ofList [x, y, z]) := by
      simp only [mu, M, ofList, wd, List.map_cons, List.map_nil, List.getD_cons_zero, List.getD_cons_succ, reverseBits_byteReverse]
    rw [this]
    generalize rounds _ _ _ _ = t
    simp only [toList, List.map_cons, List.map_nil, M, mu]
    rw [← byteReverse_reverseBits, ← byteReverse_reverseBits, ← byteReverse_reverseBits]
    rw [byteReverse_byteReverse, byteReverse_byteReverse, byteReverse_byteReverse]

theorem of_to (s : St) : ofList (toList s) = s := rfl

theorem inverse (k : St) : (⟨12, enc k 11, dec k 11⟩ : Keyed).Inverse := by
  intro b hb
  have hb : b.length = 12 := hb
  have hw := words_spec .big (by decide : 0 < 4) 3 b hb
  have ht : toList (ofList (words .big 4 b)) = words .big 4 b := by
    match words .big 4 b, hw.1 with
    | [x, y, z], _ => rfl
  have h1 : (enc k 11 b).length = 12 := by unfold enc; rw [unwords_length]; rfl
  have h2 : (dec k 11 b).length = 12 := by unfold dec; rw [unwords_length]; rfl
  refine ⟨h1, ?_, h2, ?_⟩
  · show dec k 11 (enc k 11 b) = b
    rw [dec_eq _ _ _ h1]
    unfold enc
    rw [words_unwords .big (by decide), of_to, dec_rounds, ht, hw.2]
  · show enc k 11 (dec k 11 b) = b
    rw [dec_eq _ _ _ hb]
    unfold enc
    rw [words_unwords .big (by decide), of_to, enc_rounds, ht, hw.2]

end ThreeWay

end Verif.Cipher
