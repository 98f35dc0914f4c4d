import Verif.Cipher.Arx
import Verif.Cipher.Lea

namespace Verif.Cipher

/-- An assignment to entry `i` that reads other entries, and its inverse. -/
theorem Pair.setAt {w n i : Nat} {F G : List (BitVec w) → BitVec w → BitVec w} (hi : i < n)
    (hF : ∀ l y, F (l.set i y) = F l) (hG : ∀ l y, G (l.set i y) = G l) (h1 : ∀ l x, G l (F l x) = x) (h2 : ∀ l x, F l (G l x) = x) :
    Pair n (fun l => l.set i (F l (nth l i))) (fun l => l.set i (G l (nth l i))) := by
  have e : ∀ (l : List (BitVec w)) (y : BitVec w), l.length = n → nth (l.set i y) i = y := by
    intro l y hl; unfold nth; rw [List.getD_eq_getElem?_getD, List.getElem?_set_self (by omega)]; rfl
  have e2 : ∀ l : List (BitVec w), l.length = n → l.set i (nth l i) = l := by
    intro l hl
    unfold nth
    rw [List.getD_eq_getElem?_getD, List.getElem?_eq_getElem (by omega)]
    exact List.set_getElem_self (by omega)
  intro l hl
  refine ⟨by simp [hl], ?_, by simp [hl], ?_⟩
  · simp only [hG, e _ _ hl, h1, List.set_set]; exact e2 l hl
  · simp only [hF, e _ _ hl, h2, List.set_set]; exact e2 l hl

theorem nth_set_ne {w : Nat} (l : List (BitVec w)) {i j : Nat} (h : i ≠ j) (y : BitVec w) : nth (l.set i y) j = nth l j := by
  unfold nth; rw [List.getD_eq_getElem?_getD, List.getElem?_set_ne h, ← List.getD_eq_getElem?_getD]

theorem nth_set_self {w : Nat} (l : List (BitVec w)) {i : Nat} (h : i < l.length) (y : BitVec w) : nth (l.set i y) i = y := by
  unfold nth; rw [List.getD_eq_getElem?_getD, List.getElem?_set_self h]; rfl

theorem Pair.ite {α : Type} {n : Nat} {p : Prop} [Decidable p] {f g f' g' : List α → List α} (h : Pair n f g) (h' : Pair n f' g') :
    Pair n (fun s => if p then f s else f' s) (fun s => if p then g s else g' s) := by
  by_cases hp : p
  · simp only [if_pos hp]; exact h
  · simp only [if_neg hp]; exact h'

/-- Rounds from a list, and their inverses from the reversed list. -/
theorem Pair.rows {α κ : Type} {n : Nat} {f g : κ → List α → List α} : ∀ (ks : List κ), (∀ k ∈ ks, Pair n (f k) (g k)) →
    Pair n (fun l => ks.foldl (fun l k => f k l) l) (fun l => ks.reverse.foldl (fun l k => g k l) l)
  | [], _ => Pair.id n
  | k :: ks, h => by
    have := (h k (by simp)).comp (Pair.rows ks fun k hk => h k (by simp [hk]))
    simpa [List.foldl_append] using this

theorem Pair.loop {α : Type} {m : Nat} {f g : Nat → List α → List α} {n : Nat} (h : ∀ i, i < n → Pair m (f i) (g i)) :
    Pair m (upto n f) (downto n g) := by
  have := Pair.rows (f := f) (g := g) (n := m) (List.range n) (fun i hi => h i (List.mem_range.mp hi))
  exact this

/-- An assignment to one entry that reads another. -/
def opAt {w : Nat} (t u : Nat) (F : BitVec w → BitVec w → BitVec w) (x : List (BitVec w)) : List (BitVec w) := x.set t (F (nth x u) (nth x t))

theorem opAt_pair {w n t u : Nat} {F G : BitVec w → BitVec w → BitVec w} (ht : t < n) (hu : t ≠ u) (h1 : ∀ a x, G a (F a x) = x) (h2 : ∀ a x, F a (G a x) = x) :
    Pair n (opAt t u F) (opAt t u G) := by
  apply Pair.setAt (F := fun l x => F (nth l u) x) (G := fun l x => G (nth l u) x) ht
  · intro l y; funext x; rw [nth_set_ne l hu]
  · intro l y; funext x; rw [nth_set_ne l hu]
  · intro l x; exact h1 _ x
  · intro l x; exact h2 _ x

theorem opAt_comm {w t u t' u' : Nat} (F F' : BitVec w → BitVec w → BitVec w) (h : t ≠ t') (h1 : t' ≠ u) (h2 : t ≠ u') (x : List (BitVec w)) :
    opAt t u F (opAt t' u' F' x) = opAt t' u' F' (opAt t u F x) := by
  unfold opAt
  rw [nth_set_ne x h1, nth_set_ne x (Ne.symm h), nth_set_ne x h2, nth_set_ne x h, List.set_comm _ _ h]

/-! ## LEA -/
namespace Lea

def Dir.flip : Dir → Dir
  | .left => .right
  | .right => .left

def Op.flip (o : Op) : Op := { o with d := o.d.flip }

theorem rot_flip (d : Dir) (c : Nat) (x : W32) : rot d.flip c (rot d c x) = x := by
  cases d <;> simp only [rot, Dir.flip, rotr_rotl, rotl_rotr]

theorem rot_flip' (d : Dir) (c : Nat) (x : W32) : rot d c (rot d.flip c x) = x := by
  cases d <;> simp only [rot, Dir.flip, rotr_rotl, rotl_rotr]

theorem op_pair (rkey : List W32) (o : Op) (h : o.i < 4 ∧ o.i ≠ o.a) : Pair 4 (o.enc rkey) (o.flip.dec rkey) := by
  apply Pair.setAt (F := fun l x => rot o.d o.c ((nth l o.a ^^^ nth rkey o.k1) + (x ^^^ nth rkey o.k2)))
    (G := fun l x => (rot o.flip.d o.flip.c x - (nth l o.a ^^^ nth rkey o.k1)) ^^^ nth rkey o.k2) h.1
  · intro l y; funext x; simp only [nth_set_ne l h.2]
  · intro l y; funext x; simp only [nth_set_ne l h.2]
  · intro l x
    simp only [Op.flip, rot_flip, BitVec.add_comm (nth l o.a ^^^ _), add_sub_cancel', xor_xor_cancel]
  · intro l x
    simp only [Op.flip, BitVec.add_comm (nth l o.a ^^^ _), xor_xor_cancel, sub_add_cancel', rot_flip']

theorem ops_pair (rkey : List W32) (ops ops' : List Op) (h : ops' = ops.reverse.map Op.flip) (hi : ∀ o ∈ ops, o.i < 4 ∧ o.i ≠ o.a) :
    Pair 4 (fun t => ops.foldl (fun t o => o.enc rkey t) t) (fun t => ops'.foldl (fun t o => o.dec rkey t) t) := by
  have := Pair.rows (f := fun o => Op.enc rkey o) (g := fun o => Op.dec rkey o.flip) (n := 4) ops (fun o ho => op_pair rkey o (hi o ho))
  rw [h]
  simpa only [List.foldl_map] using this

theorem lea_pair (rkey : List W32) (rounds : Nat) : Pair 4 (enc rkey rounds) (dec rkey rounds) :=
  ((ops_pair rkey enc24 dec24 (by decide +kernel) (by decide +kernel)).comp
    (Pair.ite (p := rounds > 24) (ops_pair rkey enc28 dec28 (by decide +kernel) (by decide +kernel)) (Pair.id 4))).comp
    (Pair.ite (p := rounds > 28) (ops_pair rkey enc32 dec32 (by decide +kernel) (by decide +kernel)) (Pair.id 4))

end Lea

/-! ## SPECK, SIMON, SIMECK -/

theorem speck_round {w : Nat} (k : BitVec w) : Cancel (Speck.TF83 k) (Speck.TR83 k) := by
  constructor <;> rintro ⟨x, y⟩ <;>
    simp only [Speck.TF83, Speck.TR83, xor_xor_cancel, xor_xor_cancel_mid, add_sub_cancel', sub_add_cancel', rotr_rotl, rotl_rotr]

theorem speck_cancel {w : Nat} (R : Nat) (k : List (BitVec w)) : Cancel (Speck.encrypt R k) (Speck.decrypt R k) :=
  Cancel.loop fun i _ => speck_round (nth k i)

theorem process_cancel {w : Nat} {f g : BitVec w × BitVec w → BitVec w × BitVec w} (h : Cancel f g) : Cancel (Speck.process f) (Speck.process g) := by
  constructor <;> rintro ⟨x, y⟩ <;> simp only [Speck.process, h.1, h.2]

theorem xor_left_comm' {w : Nat} (x y z : BitVec w) : x ^^^ (y ^^^ z) = y ^^^ (x ^^^ z) := by
  rw [← BitVec.xor_assoc, BitVec.xor_comm x y, BitVec.xor_assoc]

theorem xor_cancel4 {w : Nat} (a b c : BitVec w) : ((a ^^^ b ^^^ c) ^^^ b) ^^^ c = a := by
  simp only [BitVec.xor_assoc, xor_left_comm' c b, xor_xor_cancel_left, BitVec.xor_self, BitVec.xor_zero]

theorem xor_cancel4' {w : Nat} (a b c : BitVec w) : ((a ^^^ b ^^^ c) ^^^ c) ^^^ b = a := by
  simp only [xor_xor_cancel]

theorem simon_round {w : Nat} (k : List (BitVec w)) (j : Nat) : Cancel (Simon.R2 (nth k (2 * j)) (nth k (2 * j + 1))) (Simon.undo k j) := by
  constructor <;> rintro ⟨x, y⟩ <;> simp only [Simon.R2, Simon.undo, xor_cancel4]

theorem simon_cancel {w : Nat} (R : Nat) (k : List (BitVec w)) : Cancel (Simon.encrypt R k) (Simon.decrypt R k) := by
  have hl := Cancel.loop (n := R / 2) fun i _ => simon_round k i
  have he : Cancel (fun c : BitVec w × BitVec w => if R % 2 = 1 then ((c.2 ^^^ Simon.f c.1) ^^^ nth k (R - 1), c.1) else c)
      (fun p => if R % 2 = 1 then (p.2, (p.1 ^^^ nth k (R - 1)) ^^^ Simon.f p.2) else p) := by
    apply Cancel.ite
    · constructor <;> rintro ⟨x, y⟩ <;> simp only [xor_xor_cancel]
    · exact Cancel.id
  exact hl.comp he

theorem simeck_round {w : Nat} (k : BitVec w) : Cancel (Simeck.round k) (fun x => ((Simeck.round k (x.2, x.1)).2, (Simeck.round k (x.2, x.1)).1)) := by
  have e : ∀ a b c d : BitVec w, a ^^^ b ^^^ (a ^^^ b ^^^ c ^^^ d) ^^^ d = c := by
    intro a b c d
    rw [BitVec.xor_assoc (a ^^^ b) c d, xor_xor_cancel_left, xor_xor_cancel]
  constructor <;> rintro ⟨x, y⟩ <;> simp only [Simeck.round, e]

theorem simeck_cancel {w : Nat} (R : Nat) (rk : List (BitVec w)) : Cancel (Simeck.enc R rk) (Simeck.dec R rk) := by
  have hd : ∀ R x, Simeck.dec R rk x = downto R (fun i (x : BitVec w × BitVec w) => ((Simeck.round (nth rk i) (x.2, x.1)).2, (Simeck.round (nth rk i) (x.2, x.1)).1)) x := by
    intro R
    induction R with
    | zero => intro x; rfl
    | succ R ih =>
      intro x
      rw [downto_succ, ← ih]
      simp only [Simeck.dec, downto_succ]
  rw [funext (hd R)]
  exact Cancel.loop fun i _ => simeck_round (nth rk i)

/-! ## CHAM -/

theorem cham_round {w : Nat} (RR KW : Nat) (k : List (BitVec w)) (i : Nat) : Pair 4 (Cham.encRound RR KW k i) (Cham.decRound RR KW k i) := by
  have e : (RR + 3 + 1) % 4 = (RR + 0) % 4 := by omega
  unfold Cham.encRound Cham.decRound
  rw [e]
  have hne : (RR + 0) % 4 ≠ (RR + 1) % 4 := by omega
  apply Pair.setAt (i := (RR + 0) % 4)
    (F := fun l x => rotl ((x ^^^ BitVec.ofNat w i) + (rotl (nth l ((RR + 1) % 4)) (if RR % 2 = 0 then 1 else 8) ^^^ nth k (i % KW))) (if RR % 2 = 0 then 8 else 1))
    (G := fun l x => (rotr x (if RR % 2 = 0 then 8 else 1) - (rotl (nth l ((RR + 1) % 4)) (if RR % 2 = 0 then 1 else 8) ^^^ nth k (i % KW))) ^^^ BitVec.ofNat w i)
  · omega
  · intro l y; funext x; simp only [nth_set_ne l hne]
  · intro l y; funext x; simp only [nth_set_ne l hne]
  · intro l x; simp only [rotr_rotl, add_sub_cancel', xor_xor_cancel]
  · intro l x; simp only [rotl_rotr, sub_add_cancel', xor_xor_cancel]

theorem cham_pair {w : Nat} (blocks KW : Nat) (k : List (BitVec w)) : Pair 4 (Cham.enc blocks KW k) (Cham.dec blocks KW k) :=
  Pair.loop fun b _ => Pair.loop fun rr _ => cham_round rr KW k (KW * b + rr)

/-! ## HIGHT -/
namespace Hight

theorem ends_pair (rkey : List B8) : Pair 8 (encFirst rkey) (decLast rkey) := by
  intro l hl
  match l, hl with
  | [a, b, c, d, e, f, g, h], _ =>
    simp [encFirst, decLast, nth]

theorem ends_pair' (rkey : List B8) : Pair 8 (encLast rkey) (decFirst rkey) := by
  intro l hl
  match l, hl with
  | [a, b, c, d, e, f, g, h], _ =>
    simp [encLast, decFirst, nth]

/-- The rotations of `7, 6, ..., 0`. -/
def rots : List (List Nat) :=
  [[7, 6, 5, 4, 3, 2, 1, 0], [6, 5, 4, 3, 2, 1, 0, 7], [5, 4, 3, 2, 1, 0, 7, 6], [4, 3, 2, 1, 0, 7, 6, 5],
   [3, 2, 1, 0, 7, 6, 5, 4], [2, 1, 0, 7, 6, 5, 4, 3], [1, 0, 7, 6, 5, 4, 3, 2], [0, 7, 6, 5, 4, 3, 2, 1]]

/-- The two kinds of statements of a row. -/
def fx (k : B8) (a x : B8) : B8 := x ^^^ (nth F0 a.toNat + k)
def fa (k : B8) (a x : B8) : B8 := x + (nth F1 a.toNat ^^^ k)
def fs (k : B8) (a x : B8) : B8 := x - (nth F1 a.toNat ^^^ k)

theorem row_pair_of (k0 k1 k2 k3 : B8) (i0 i1 i2 i3 i4 i5 i6 i7 : Nat) (hlt : i0 < 8 ∧ i2 < 8 ∧ i4 < 8 ∧ i6 < 8)
    (h0 : i0 ≠ i1 ∧ i2 ≠ i3 ∧ i4 ≠ i5 ∧ i6 ≠ i7) (h24 : i2 ≠ i4 ∧ i4 ≠ i3 ∧ i2 ≠ i5) (h26 : i2 ≠ i6 ∧ i6 ≠ i3 ∧ i2 ≠ i7)
    (h46 : i4 ≠ i6 ∧ i6 ≠ i5 ∧ i4 ≠ i7) :
    Pair 8 (fun x => opAt i6 i7 (fa k0) (opAt i4 i5 (fx k1) (opAt i2 i3 (fa k2) (opAt i0 i1 (fx k3) x))))
      (fun x => opAt i0 i1 (fx k3) (opAt i6 i7 (fs k0) (opAt i4 i5 (fx k1) (opAt i2 i3 (fs k2) x)))) := by
  have e : ∀ x, opAt i6 i7 (fs k0) (opAt i4 i5 (fx k1) (opAt i2 i3 (fs k2) x)) = opAt i2 i3 (fs k2) (opAt i4 i5 (fx k1) (opAt i6 i7 (fs k0) x)) := by
    intro x
    rw [opAt_comm (fx k1) (fs k2) h24.1.symm h24.2.2 h24.2.1, opAt_comm (fs k0) (fs k2) h26.1.symm h26.2.2 h26.2.1,
      opAt_comm (fs k0) (fx k1) h46.1.symm h46.2.2 h46.2.1]
  simp only [e]
  have hx : ∀ k a x, fx k a (fx k a x) = x := fun k a x => by unfold fx; exact xor_xor_cancel _ _
  have ha : ∀ k a x, fs k a (fa k a x) = x := fun k a x => by unfold fs fa; exact add_sub_cancel' _ _
  have hs : ∀ k a x, fa k a (fs k a x) = x := fun k a x => by unfold fs fa; exact sub_add_cancel' _ _
  exact (((opAt_pair hlt.1 h0.1 (hx k3) (hx k3)).comp (opAt_pair hlt.2.1 h0.2.1 (ha k2) (hs k2))).comp
    (opAt_pair hlt.2.2.1 h0.2.2.1 (hx k1) (hx k1))).comp (opAt_pair hlt.2.2.2 h0.2.2.2 (ha k0) (hs k0))

theorem row_pair (rkey : List B8) (k : Nat) (i : List Nat) (hi : i ∈ rots) : Pair 8 (encRow rkey k i) (decRow rkey k (i.rotateLeft 1)) := by
  have h := row_pair_of (nth rkey (4 * k + 0)) (nth rkey (4 * k + 1)) (nth rkey (4 * k + 2)) (nth rkey (4 * k + 3))
  simp only [rots, List.mem_cons, List.not_mem_nil, or_false] at hi
  rcases hi with rfl | rfl | rfl | rfl | rfl | rfl | rfl | rfl
  · exact h 7 6 5 4 3 2 1 0 (by decide) (by decide) (by decide) (by decide) (by decide)
  · exact h 6 5 4 3 2 1 0 7 (by decide) (by decide) (by decide) (by decide) (by decide)
  · exact h 5 4 3 2 1 0 7 6 (by decide) (by decide) (by decide) (by decide) (by decide)
  · exact h 4 3 2 1 0 7 6 5 (by decide) (by decide) (by decide) (by decide) (by decide)
  · exact h 3 2 1 0 7 6 5 4 (by decide) (by decide) (by decide) (by decide) (by decide)
  · exact h 2 1 0 7 6 5 4 3 (by decide) (by decide) (by decide) (by decide) (by decide)
  · exact h 1 0 7 6 5 4 3 2 (by decide) (by decide) (by decide) (by decide) (by decide)
  · exact h 0 7 6 5 4 3 2 1 (by decide) (by decide) (by decide) (by decide) (by decide)

theorem hight_pair (rkey : List B8) : Pair 8 (enc rkey) (dec rkey) := by
  have h := Pair.rows (f := fun (r : Nat × List Nat) => encRow rkey r.1 r.2) (g := fun r => decRow rkey r.1 (r.2.rotateLeft 1)) (n := 8) encRows
    (fun r hr => row_pair rkey r.1 r.2 ((by decide +kernel : ∀ r ∈ encRows, r.2 ∈ rots) r hr))
  have hd : ∀ x, decRows.foldl (fun x r => decRow rkey r.1 r.2 x) x =
      encRows.reverse.foldl (fun x r => decRow rkey r.1 (r.2.rotateLeft 1) x) x := by
    intro x
    rw [show decRows = encRows.reverse.map (fun r => (r.1, r.2.rotateLeft 1)) by decide +kernel, List.foldl_map]
  have := ((ends_pair rkey).comp h).comp (ends_pair' rkey)
  unfold enc dec
  simp only [hd]
  exact this

end Hight
end Verif.Cipher
