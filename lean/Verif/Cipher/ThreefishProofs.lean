import Verif.Cipher.Threefish
import Verif.Cipher.ArxProofs

namespace Verif.Cipher
namespace Threefish

theorem mix_pair {n : Nat} (m : Nat × Nat × Nat) (ha : m.2.1 < n) (hb : m.2.2 < n) (h : m.2.1 ≠ m.2.2) : Pair n (mix m) (unmix m) := by
  obtain ⟨c, a, b⟩ := m
  have h1 : Pair n (fun g : List W64 => g.set a (nth g a + nth g b)) (fun g => g.set a (nth g a - nth g b)) := by
    apply Pair.setAt (F := fun g x => x + nth g b) (G := fun g x => x - nth g b) ha
    · intro l y; funext x; rw [nth_set_ne l h]
    · intro l y; funext x; rw [nth_set_ne l h]
    · intro l x; exact add_sub_cancel' _ _
    · intro l x; exact sub_add_cancel' _ _
  have h2 : Pair n (fun g : List W64 => g.set b (rotl (nth g b) c ^^^ nth g a)) (fun g => g.set b (rotr (nth g b ^^^ nth g a) c)) := by
    apply Pair.setAt (F := fun g x => rotl x c ^^^ nth g a) (G := fun g x => rotr (x ^^^ nth g a) c) hb
    · intro l y; funext x; rw [nth_set_ne l (Ne.symm h)]
    · intro l y; funext x; rw [nth_set_ne l (Ne.symm h)]
    · intro l x; simp only [xor_xor_cancel, rotr_rotl]
    · intro l x; simp only [xor_xor_cancel, rotl_rotr]
  exact h1.comp h2

/-- Statements on different words can be exchanged. -/
theorem unmix_comm (m m' : Nat × Nat × Nat) (h : m.2.1 ≠ m'.2.1 ∧ m.2.1 ≠ m'.2.2 ∧ m.2.2 ≠ m'.2.1 ∧ m.2.2 ≠ m'.2.2) (g : List W64) :
    unmix m (unmix m' g) = unmix m' (unmix m g) := by
  obtain ⟨c, a, b⟩ := m
  obtain ⟨c', a', b'⟩ := m'
  obtain ⟨h1, h2, h3, h4⟩ := h
  have e : ∀ c a b (g : List W64), unmix (c, a, b) g = opAt a b (fun y x => x - y) (opAt b a (fun y x => rotr (x ^^^ y) c) g) := fun _ _ _ _ => rfl
  simp only at h1 h2 h3 h4
  rw [e, e, e, e]
  generalize (fun y x : W64 => x - y) = S
  generalize (fun y x : W64 => rotr (x ^^^ y) c) = R
  generalize (fun y x : W64 => rotr (x ^^^ y) c') = R'
  rw [opAt_comm R S h3 (Ne.symm h1) h4, opAt_comm R R' h4 (Ne.symm h2) h3, opAt_comm S S h1 (Ne.symm h3) h2, opAt_comm S R' h2 (Ne.symm h4) h1]

def Disjoint2 (m m' : Nat × Nat × Nat) : Prop := m.2.1 ≠ m'.2.1 ∧ m.2.1 ≠ m'.2.2 ∧ m.2.2 ≠ m'.2.1 ∧ m.2.2 ≠ m'.2.2

instance (m m' : Nat × Nat × Nat) : Decidable (Disjoint2 m m') := by unfold Disjoint2; infer_instance

/-- A row of `x8` and the row of `Ix8` that undoes it. -/
def RowOk (n : Nat) (r r' : List (Nat × Nat × Nat)) : Prop :=
  r'.Perm r ∧ (∀ m ∈ r, m.2.1 < n ∧ m.2.2 < n ∧ m.2.1 ≠ m.2.2) ∧ ∀ m ∈ r, ∀ m' ∈ r, m = m' ∨ Disjoint2 m m'

instance (n : Nat) (r r' : List (Nat × Nat × Nat)) : Decidable (RowOk n r r') := by unfold RowOk; infer_instance

theorem row_pair {n : Nat} {r r' : List (Nat × Nat × Nat)} (h : RowOk n r r') :
    Pair n (fun g => r.foldl (fun g m => mix m g) g) (fun g => r'.foldl (fun g m => unmix m g) g) := by
  obtain ⟨hp, hi, hd⟩ := h
  have := Pair.rows (f := mix) (g := unmix) (n := n) r (fun m hm => mix_pair m (hi m hm).1 (hi m hm).2.1 (hi m hm).2.2)
  have e : ∀ g : List W64, r'.foldl (fun g m => unmix m g) g = r.reverse.foldl (fun g m => unmix m g) g := by
    intro g
    refine List.Perm.foldl_eq' (hp.trans (List.reverse_perm r).symm) ?_ g
    intro x hx y hy z
    rcases hd y (hp.mem_iff.mp hy) x (hp.mem_iff.mp hx) with rfl | h
    · rfl
    · exact unmix_comm y x h z
  rw [show (fun g => r'.foldl (fun g m => unmix m g) g) = (fun g => r.reverse.foldl (fun g m => unmix m g) g) from funext e]
  exact this

def RowsOk (n : Nat) : List (List (Nat × Nat × Nat)) → List (List (Nat × Nat × Nat)) → Prop
  | [], [] => True
  | r :: rs, u :: us => RowOk n r u ∧ RowsOk n rs us
  | _, _ => False

theorem rows_pair' {n : Nat} : ∀ (rows un : List (List (Nat × Nat × Nat))), RowsOk n rows un → Pair n (mixRows rows) (unmixRows un.reverse)
  | [], [], _ => Pair.id n
  | r :: rs, u :: us, h => by
    have := (row_pair h.1).comp (rows_pair' rs us h.2)
    have e : unmixRows (u :: us).reverse = fun l => u.foldl (fun g m => unmix m g) (unmixRows us.reverse l) := by
      funext l; unfold unmixRows; rw [List.reverse_cons, List.foldl_append]; rfl
    rw [e]; exact this
  | [], _ :: _, h => h.elim
  | _ :: _, [], h => h.elim

theorem rows_pair {n : Nat} (rows un : List (List (Nat × Nat × Nat))) (h : RowsOk n rows un.reverse) : Pair n (mixRows rows) (unmixRows un) := by
  simpa using rows_pair' rows un.reverse h

theorem add_pair {n : Nat} (k : List W64) (hk : k.length = n) : Pair n (add k) (sub k) := by
  intro l hl
  have e : ∀ (l k : List W64), l.length = k.length → sub k (add k l) = l ∧ add k (sub k l) = l := by
    intro l
    induction l with
    | nil => intro k h; cases k <;> simp [add, sub] at *
    | cons x l ih =>
      intro k h
      cases k with
      | nil => simp at h
      | cons y k =>
        have := ih k (by simpa using h)
        simp only [add, sub, List.zipWith_cons_cons] at this ⊢
        simp only [add_sub_cancel', sub_add_cancel', this, and_self]
  have := e l k (by omega)
  exact ⟨by simp [add, hl, hk], this.1, by simp [sub, hl, hk], this.2⟩

/-- What makes the data of a cipher consistent. -/
structure Good (d : Data) : Prop where
  three : 3 ≤ d.n
  rowsA : RowsOk d.n d.rowsA d.unA.reverse
  rowsB : RowsOk d.n d.rowsB d.unB.reverse
  last : d.lastKey = (List.range d.n).map fun j => (2 * d.blocks + j) % (d.n + 1)
  tweak : d.lastTweak = (2 * d.blocks % 3, (2 * d.blocks + 1) % 3)
  round : d.lastRound = 2 * d.blocks

theorem subkey_length (n : Nat) (rkey tweak : List W64) (r : Nat) : (subkey n rkey tweak r).length = n := by simp [subkey]

variable {d : Data} (rkey tweak : List W64)

theorem loop_pair (hd : Good d) : ∀ N, Pair d.n (fun g => upto N (x8 d rkey tweak) (add (subkey d.n rkey tweak 0) g))
    (fun g => downto N (ix8 d rkey tweak) (sub (subkey d.n rkey tweak (2 * N)) g))
  | 0 => add_pair _ (subkey_length _ _ _ _)
  | N + 1 => by
    have h := (((((loop_pair hd N).comp (rows_pair _ _ hd.rowsA)).comp (add_pair (subkey d.n rkey tweak (2 * N + 1)) (subkey_length _ _ _ _))).comp
      (rows_pair _ _ hd.rowsB)).comp (add_pair (subkey d.n rkey tweak (2 * N + 1 + 1)) (subkey_length _ _ _ _)))
    rw [show 2 * (N + 1) = 2 * N + 1 + 1 by omega]
    simpa only [upto_succ, downto_succ, x8, ix8] using h

theorem range_ext {n : Nat} {l : List W64} (hl : l.length = n) {F : Nat → W64} (h : ∀ i, i < n → nth l i = F i) : l = (List.range n).map F := by
  apply List.ext_getElem
  · simp [hl]
  · intro i h1 h2
    have := h i (by omega)
    simp only [List.getElem_map, List.getElem_range]
    rw [← this]
    simp [nth, h1]

theorem zip_range (op : W64 → W64 → W64) {n : Nat} (F G : Nat → W64) :
    List.zipWith op ((List.range n).map F) ((List.range n).map G) = (List.range n).map fun i => op (F i) (G i) := by
  apply List.ext_getElem
  · simp
  · intro i h1 h2; simp

theorem start_eq (hn : 3 ≤ d.n) (hk : rkey.length = d.n + 1) (g : List W64) (hg : g.length = d.n) :
    add (tail d.n (nth tweak 0) (nth tweak 1) 0) (add (rkey.take d.n) g) = add (subkey d.n rkey tweak 0) g := by
  have hgr : g = (List.range d.n).map (nth g) := range_ext hg (fun i _ => rfl)
  have hkr : rkey.take d.n = (List.range d.n).map (nth rkey) := by
    apply range_ext (by simp [hk])
    intro i hi
    simp [nth, hi]
  rw [hgr, hkr]
  unfold add tail subkey
  rw [zip_range, zip_range, zip_range]
  apply List.map_congr_left
  intro i hi
  have hi := List.mem_range.mp hi
  simp only [Nat.zero_add, Nat.mod_eq_of_lt (by omega : i < d.n + 1), Nat.zero_mod, show 1 % 3 = 1 from rfl]
  rw [BitVec.add_assoc]
  congr 1

theorem end_eq (hd : Good d) (g : List W64) (hg : g.length = d.n) :
    sub (tail d.n (nth tweak d.lastTweak.1) (nth tweak d.lastTweak.2) (BitVec.ofNat _ d.lastRound)) (sub (d.lastKey.map (nth rkey)) g) =
      sub (subkey d.n rkey tweak (2 * d.blocks)) g := by
  have hgr : g = (List.range d.n).map (nth g) := range_ext hg (fun i _ => rfl)
  rw [hgr, hd.last, hd.tweak, hd.round, List.map_map]
  unfold sub tail subkey
  rw [zip_range, zip_range, zip_range]
  apply List.map_congr_left
  intro i hi
  simp only [Function.comp]
  rw [BitVec.sub_sub]

theorem threefish_pair (hd : Good d) (hk : rkey.length = d.n + 1) : Pair d.n (enc d rkey tweak) (dec d rkey tweak) := by
  have h := loop_pair rkey tweak hd d.blocks
  intro g hg
  obtain ⟨a1, a2, a3, a4⟩ := h g hg
  have e1 : enc d rkey tweak g = upto d.blocks (x8 d rkey tweak) (add (subkey d.n rkey tweak 0) g) := by
    unfold enc; rw [start_eq rkey tweak hd.three hk g hg]
  have e2 : dec d rkey tweak g = downto d.blocks (ix8 d rkey tweak) (sub (subkey d.n rkey tweak (2 * d.blocks)) g) := by
    unfold dec; rw [end_eq rkey tweak hd g hg]
  simp only at a1 a2 a3 a4
  rw [← e1] at a1
  rw [← e2] at a3
  refine ⟨a1, ?_, a3, ?_⟩
  · unfold dec; rw [end_eq rkey tweak hd _ a1, e1]; exact a2
  · unfold enc; rw [start_eq rkey tweak hd.three hk _ a3, e2]; exact a4

theorem good256 : Good d256 := ⟨by decide, ⟨by decide +kernel, by decide +kernel, by decide +kernel, by decide +kernel, trivial⟩, ⟨by decide +kernel, by decide +kernel, by decide +kernel, by decide +kernel, trivial⟩, by decide +kernel, by decide +kernel, by decide +kernel⟩
theorem good512 : Good d512 := ⟨by decide, ⟨by decide +kernel, by decide +kernel, by decide +kernel, by decide +kernel, trivial⟩, ⟨by decide +kernel, by decide +kernel, by decide +kernel, by decide +kernel, trivial⟩, by decide +kernel, by decide +kernel, by decide +kernel⟩
theorem good1024 : Good d1024 := ⟨by decide, ⟨by decide +kernel, by decide +kernel, by decide +kernel, by decide +kernel, trivial⟩, ⟨by decide +kernel, by decide +kernel, by decide +kernel, by decide +kernel, trivial⟩, by decide +kernel, by decide +kernel, by decide +kernel⟩

end Threefish

namespace Gost

theorem two_swap (k : List W32) (a b : Nat) (x : W32 × W32) : two k (b, a) (two k (a, b) x).swap = x.swap := by
  obtain ⟨n1, n2⟩ := x
  simp only [two, Prod.swap, xor_xor_cancel]

theorem fold_swap (k : List W32) : ∀ (l : List (Nat × Nat)) (x : W32 × W32),
    (l.reverse.map Prod.swap).foldl (fun x ab => two k ab x) (l.foldl (fun x ab => two k ab x) x).swap = x.swap
  | [], x => rfl
  | (a, b) :: l, x => by
    rw [List.reverse_cons, List.map_append, List.foldl_append, List.foldl_cons, fold_swap k l]
    exact two_swap k a b x

theorem gost_cancel (k : List W32) : Cancel (enc k) (dec k) := by
  constructor
  · intro x
    have h := fold_swap k (up ++ up ++ up ++ down) x
    rw [show ((up ++ up ++ up ++ down).reverse.map Prod.swap) = up ++ down ++ down ++ down by decide] at h
    unfold dec enc
    simp only at h ⊢
    simp only [Prod.swap] at h
    rw [h]
  · intro x
    have h := fold_swap k (up ++ down ++ down ++ down) x
    rw [show ((up ++ down ++ down ++ down).reverse.map Prod.swap) = up ++ up ++ up ++ down by decide] at h
    unfold dec enc
    simp only [Prod.swap] at h ⊢
    rw [h]

end Gost
end Verif.Cipher
