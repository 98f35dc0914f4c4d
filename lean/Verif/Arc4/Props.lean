import Verif.Arc4.Model
import Verif.Arc4.Spec
import Verif.Mem

/-!
# C73: ARC4 and MARC4
-/
namespace Verif.Arc4

/-- The object holds the generator: `x` is already advanced. -/
structure Holds (g : Spec.Gen) (st : State) : Prop where
  x : st.x = g.i + 1
  y : st.y = g.j
  len : st.s.length = 256
  s : ∀ k, at' st.s k = g.S k

theorem set_swap (s : List Byte) (S : Byte → Byte) (hl : s.length = 256) (h : ∀ k, at' s k = S k) (a b : Byte) :
    ∀ k, at' ((s.set a.toNat (S b)).set b.toNat (S a)) k = Spec.swap S a b k := by
  intro k
  have hk : k.toNat < 256 := k.isLt
  have := h k
  unfold at' at this ⊢
  unfold Spec.swap
  rw [List.getD_eq_getElem?_getD] at this ⊢
  rw [List.getElem?_set, List.getElem?_set]
  simp only [List.length_set, hl]
  by_cases hb : k = b
  · subst hb; simp [hk]
  · have hb' : b.toNat ≠ k.toNat := fun e => hb (BitVec.eq_of_toNat_eq e.symm)
    by_cases ha : k = a
    · subst ha; simp [hb, hb', hk]
    · have ha' : a.toNat ≠ k.toNat := fun e => ha (BitVec.eq_of_toNat_eq e.symm)
      simp only [hb, hb', ha, ha', if_false]
      exact this

theorem makeByte_holds (g : Spec.Gen) (st : State) (h : Holds g st) :
    Holds (Spec.step g) (makeByte st).1 ∧ (makeByte st).2 = Spec.out (Spec.step g) := by
  have hy : st.y + at' st.s st.x = g.j + g.S (g.i + 1) := by rw [h.y, h.s, h.x]
  have hsw : ∀ k, at' (makeByte st).1.s k = (Spec.step g).S k := by
    intro k
    show at' ((st.s.set st.x.toNat (at' st.s (st.y + at' st.s st.x))).set (st.y + at' st.s st.x).toNat (at' st.s st.x)) k = _
    rw [hy, h.s, h.s, h.x]
    exact set_swap st.s g.S h.len h.s _ _ k
  refine ⟨⟨?_, hy, ?_, hsw⟩, ?_⟩
  · show st.x + 1 = g.i + 1 + 1
    rw [h.x]
  · simp [makeByte, h.len]
  · show at' (makeByte st).1.s (at' st.s st.x + at' st.s (st.y + at' st.s st.x)) = _
    rw [hsw, hy, h.s, h.s, h.x]
    show _ = (Spec.step g).S ((Spec.step g).S (g.i + 1) + (Spec.step g).S (g.j + g.S (g.i + 1)))
    congr 1
    show g.S (g.i + 1) + g.S (g.j + g.S (g.i + 1)) = Spec.swap g.S (g.i + 1) (g.j + g.S (g.i + 1)) (g.i + 1) + Spec.swap g.S (g.i + 1) (g.j + g.S (g.i + 1)) (g.j + g.S (g.i + 1))
    generalize g.j + g.S (g.i + 1) = b
    generalize g.i + 1 = a
    unfold Spec.swap
    by_cases hab : a = b
    · subst hab; simp
    · simp [hab]; exact BitVec.add_comm _ _

theorem segment_succ (key : List Byte) (pos n : Nat) : Spec.segment key pos (n + 1) = Spec.keystream key pos :: Spec.segment key (pos + 1) n := by
  unfold Spec.segment
  rw [List.range_succ_eq_map]
  simp only [List.map_cons, List.map_map, Nat.add_zero]
  congr 1
  apply List.map_congr_left
  intro k _
  show Spec.keystream key (pos + (k + 1)) = _
  congr 1; omega

theorem generate_spec (key : List Byte) (n : Nat) : ∀ pos st, Holds (Spec.after key pos) st →
    Holds (Spec.after key (pos + n)) (generateBlock st n).1 ∧ (generateBlock st n).2 = Spec.segment key pos n := by
  induction n with
  | zero => intro pos st h; exact ⟨h, rfl⟩
  | succ n ih =>
    intro pos st h
    obtain ⟨h1, h2⟩ := makeByte_holds _ st h
    obtain ⟨h3, h4⟩ := ih (pos + 1) _ h1
    refine ⟨?_, ?_⟩
    · rw [show pos + (n + 1) = pos + 1 + n by omega]; exact h3
    · rw [segment_succ]
      show (makeByte st).2 :: (generateBlock (makeByte st).1 n).2 = _
      rw [h2, h4]; rfl

theorem process_spec (key : List Byte) (x : List Byte) : ∀ pos st, Holds (Spec.after key pos) st →
    Holds (Spec.after key (pos + x.length)) (processData st x).1 ∧ (processData st x).2 = xorBytes x (Spec.segment key pos x.length) := by
  induction x with
  | nil => intro pos st h; exact ⟨h, rfl⟩
  | cons c x ih =>
    intro pos st h
    obtain ⟨h1, h2⟩ := makeByte_holds _ st h
    obtain ⟨h3, h4⟩ := ih (pos + 1) _ h1
    refine ⟨?_, ?_⟩
    · rw [List.length_cons, show pos + (x.length + 1) = pos + 1 + x.length by omega]; exact h3
    · rw [List.length_cons, segment_succ]
      show (c ^^^ (makeByte st).2) :: (processData (makeByte st).1 x).2 = _
      rw [h2, h4]; rfl

theorem discard_spec (key : List Byte) (n : Nat) : ∀ pos st, Holds (Spec.after key pos) st →
    Holds (Spec.after key (pos + n)) (discardBytes st n) := by
  induction n with
  | zero => intro pos st h; exact h
  | succ n ih =>
    intro pos st h
    rw [show pos + (n + 1) = pos + 1 + n by omega]
    exact ih (pos + 1) _ (makeByte_holds _ st h).1

theorem keyLoop_spec (key : List Byte) (hk : 1 ≤ key.length) (n : Nat) : ∀ i s, i + n = 256 → s.length = 256 → (∀ k, at' s k = (Spec.schedule key i).1 k) →
    (keyLoop key n i (i % key.length) (Spec.schedule key i).2 s).length = 256 ∧
    ∀ k, at' (keyLoop key n i (i % key.length) (Spec.schedule key i).2 s) k = (Spec.schedule key 256).1 k := by
  induction n with
  | zero => intro i s hi hl hs; rw [show i = 256 by omega] at hs; exact ⟨hl, hs⟩
  | succ n ih =>
    intro i s hi hl hs
    have hi' : (BitVec.ofNat 8 i : Byte).toNat = i := by rw [BitVec.toNat_ofNat]; omega
    have ha : s.getD i 0 = (Spec.schedule key i).1 (BitVec.ofNat 8 i) := by
      have := hs (BitVec.ofNat 8 i)
      unfold at' at this
      rwa [hi'] at this
    have hj : (Spec.schedule key i).2 + (key.getD (i % key.length) 0 + s.getD i 0) = (Spec.schedule key (i + 1)).2 := by
      rw [ha]
      show _ = (Spec.schedule key i).2 + (Spec.schedule key i).1 (BitVec.ofNat 8 i) + key.getD (i % key.length) 0
      rw [BitVec.add_comm (key.getD (i % key.length) 0), BitVec.add_assoc]
    have hidx : (if i % key.length + 1 ≥ key.length then 0 else i % key.length + 1) = (i + 1) % key.length := by
      rw [Nat.add_mod i 1]
      have := Nat.mod_lt i hk
      by_cases h1 : key.length = 1
      · rw [h1]; simp [Nat.mod_one]
      · rw [Nat.mod_eq_of_lt (by omega : 1 < key.length)]
        by_cases h : i % key.length + 1 ≥ key.length
        · rw [if_pos h, show i % key.length + 1 = key.length by omega, Nat.mod_self]
        · rw [if_neg h, Nat.mod_eq_of_lt (a := i % key.length + 1) (by omega)]
    have := ih (i + 1) ((s.set i (at' s (Spec.schedule key (i + 1)).2)).set (Spec.schedule key (i + 1)).2.toNat (s.getD i 0)) (by omega) (by simp [hl]) (by
      intro k
      have := set_swap s (Spec.schedule key i).1 hl hs (BitVec.ofNat 8 i) (Spec.schedule key (i + 1)).2 k
      rw [hi', ← hs (Spec.schedule key (i + 1)).2, ← ha] at this
      exact this)
    unfold keyLoop
    dsimp only
    rw [hj, hidx]
    exact this

/-- The calls answer what the keystream at the current position says. -/
def Spec.answers (key : List Byte) : Nat → List Op → List (List Byte)
  | _, [] => []
  | pos, .process x :: ops => xorBytes x (Spec.segment key pos x.length) :: Spec.answers key (pos + x.length) ops
  | pos, .generate n :: ops => Spec.segment key pos n :: Spec.answers key (pos + n) ops
  | pos, .discard n :: ops => [] :: Spec.answers key (pos + n) ops

theorem run_spec (key : List Byte) (ops : List Op) : ∀ pos st, Holds (Spec.after key pos) st → run st ops = Spec.answers key pos ops := by
  induction ops with
  | nil => intro _ _ _; rfl
  | cons o ops ih =>
    intro pos st h
    cases o with
    | process x =>
      obtain ⟨h1, h2⟩ := process_spec key x pos st h
      show _ :: _ = _ :: _
      rw [h2, ih _ _ h1]
    | generate n =>
      obtain ⟨h1, h2⟩ := generate_spec key n pos st h
      show _ :: _ = _ :: _
      rw [h2, ih _ _ h1]
    | discard n =>
      show _ :: _ = _ :: _
      rw [ih _ _ (discard_spec key n pos st h)]

theorem setKey_holds (dflt : Int) (key : List Byte) (discard : Option Int) (st : State) (h : setKey dflt key discard = .ok st) :
    (1 ≤ key.length ∧ key.length ≤ 256) ∧ Holds (Spec.after key ((discard.getD dflt) % 2 ^ 64).toNat) st := by
  unfold setKey at h
  by_cases hk : ¬ (1 ≤ key.length ∧ key.length ≤ 256)
  · rw [if_pos hk] at h; cases h
  rw [if_neg hk] at h
  have hk : 1 ≤ key.length ∧ key.length ≤ 256 := Classical.byContradiction hk
  refine ⟨hk, ?_⟩
  injection h with h
  rw [← h]
  have hl := keyLoop_spec key hk.1 256 0 ((List.range 256).map (BitVec.ofNat 8)) rfl (by simp) (by
    intro k
    unfold at'
    rw [List.getD_eq_getElem?_getD, List.getElem?_map, List.getElem?_range k.isLt]
    simp [Spec.schedule])
  rw [Nat.zero_mod, show (Spec.schedule key 0).2 = 0 by simp only [Spec.schedule]] at hl
  have h0 : Holds (Spec.after key 0) ⟨1, 0, keyLoop key 256 0 0 0 ((List.range 256).map (BitVec.ofNat 8))⟩ := by
    constructor
    · show (1 : Byte) = 0 + 1; rfl
    · show (0 : Byte) = 0; rfl
    · dsimp only; exact hl.1
    · simp only [Spec.after]; exact hl.2
  have := discard_spec key ((discard.getD dflt) % 2 ^ 64).toNat 0 _ h0
  rwa [Nat.zero_add] at this

/-- C73: after `SetKey`, every sequence of `ProcessData`, `GenerateBlock` and `DiscardBytes` calls returns what RC4's keystream says, from the first byte that was not discarded. -/
theorem arc4_history (dflt : Int) (key : List Byte) (discard : Option Int) (st : State) (h : setKey dflt key discard = .ok st)
    (hd : 0 ≤ discard.getD dflt ∧ discard.getD dflt < 2 ^ 31) (ops : List Op) :
    run st ops = Spec.answers key (discard.getD dflt).toNat ops := by
  have := (setKey_holds dflt key discard st h).2
  rw [Int.emod_eq_of_lt hd.1 (by omega)] at this
  exact run_spec key ops _ st this

/-- A negative `DiscardBytes` is not refused: `SetKey` steps the generator nearly 2^64 times. -/
theorem negative_discard (dflt : Int) (key : List Byte) (hk : 1 ≤ key.length ∧ key.length ≤ 256) (d : Nat) (hd : 0 < d ∧ d ≤ 2 ^ 31) (ops : List Op) :
    ∃ st, setKey dflt key (some (-d)) = .ok st ∧ run st ops = Spec.answers key (2 ^ 64 - d) ops := by
  have : ∃ st, setKey dflt key (some (-d)) = .ok st := by
    unfold setKey; rw [if_neg (by simpa using hk)]; exact ⟨_, rfl⟩
  obtain ⟨st, h⟩ := this
  refine ⟨st, h, ?_⟩
  have h2 := (setKey_holds dflt key _ st h).2
  have e : ((Option.getD (some (-(d : Int))) dflt) % 2 ^ 64).toNat = 2 ^ 64 - d := by
    dsimp only [Option.getD]; omega
  rw [e] at h2
  exact run_spec key ops _ st h2

/-- Exactly the keys of 1 to 256 bytes are accepted. -/
theorem setKey_ok_iff (dflt : Int) (key : List Byte) (discard : Option Int) :
    (∃ st, setKey dflt key discard = .ok st) ↔ 1 ≤ key.length ∧ key.length ≤ 256 := by
  constructor
  · rintro ⟨st, h⟩; exact (setKey_holds dflt key discard st h).1
  · intro hk; unfold setKey; rw [if_neg (by simpa using hk)]; exact ⟨_, rfl⟩

theorem segment_append (key : List Byte) (pos m n : Nat) : Spec.segment key pos (m + n) = Spec.segment key pos m ++ Spec.segment key (pos + m) n := by
  unfold Spec.segment
  rw [List.range_add, List.map_append, List.map_map]
  congr 1
  apply List.map_congr_left
  intro k _
  show Spec.keystream key (pos + (m + k)) = _
  congr 1; omega

theorem processes (key : List Byte) (xs : List (List Byte)) : ∀ pos,
    (Spec.answers key pos (xs.map .process)).flatten = xorBytes xs.flatten (Spec.segment key pos xs.flatten.length) := by
  induction xs with
  | nil => intro pos; rfl
  | cons x xs ih =>
    intro pos
    show (_ :: Spec.answers key (pos + x.length) (xs.map .process)).flatten = _
    rw [List.flatten_cons, ih, List.flatten_cons, List.length_append, segment_append]
    unfold xorBytes
    rw [List.zipWith_append (by simp [Spec.segment])]

theorem xor_twice (x k : List Byte) (h : k.length = x.length) : xorBytes (xorBytes x k) k = x := by
  induction x generalizing k with
  | nil => rfl
  | cons a x ih =>
    cases k with
    | nil => cases h
    | cons b k =>
      show (a ^^^ b ^^^ b) :: xorBytes (xorBytes x k) k = _
      rw [ih k (by simpa using h), BitVec.xor_assoc, BitVec.xor_self, BitVec.xor_zero]

/-- Decryption inverts encryption, however the two are split into calls. -/
theorem decrypt_encrypt (dflt : Int) (key : List Byte) (discard : Option Int) (st : State) (h : setKey dflt key discard = .ok st)
    (xs ys : List (List Byte)) (hy : ys.flatten = (run st (xs.map .process)).flatten) :
    (run st (ys.map .process)).flatten = xs.flatten := by
  have hh := (setKey_holds dflt key discard st h).2
  rw [run_spec key _ _ st hh, processes] at hy ⊢
  have hl : ys.flatten.length = xs.flatten.length := by rw [hy]; simp [xorBytes, Spec.segment]
  rw [hl, hy]
  exact xor_twice _ _ (by simp [Spec.segment])

/-- In every state the table is a permutation of the 256 bytes. -/
theorem table_injective (key : List Byte) (pos : Nat) (st : State) (h : Holds (Spec.after key pos) st) (a b : Byte) (hab : at' st.s a = at' st.s b) : a = b := by
  have hswap : ∀ (S : Byte → Byte) u v, (∀ a b, S a = S b → a = b) → ∀ a b, Spec.swap S u v a = Spec.swap S u v b → a = b := by
    intro S u v hS a b
    unfold Spec.swap
    intro e
    split at e <;> split at e <;> (try split at e) <;> (try split at e) <;> first | (subst_vars; rfl) | (have := hS _ _ e; subst_vars; first | rfl | contradiction | (exfalso; simp_all))
  have hsch : ∀ n a b, (Spec.schedule key n).1 a = (Spec.schedule key n).1 b → a = b := by
    intro n
    induction n with
    | zero => intro a b e; exact e
    | succ n ih => exact hswap _ _ _ ih
  have hafter : ∀ n a b, (Spec.after key n).S a = (Spec.after key n).S b → a = b := by
    intro n
    induction n with
    | zero => simp only [Spec.after]; exact hsch 256
    | succ n ih => exact hswap _ _ _ ih
  rw [h.s, h.s] at hab
  exact hafter pos a b hab

/-- Non-vacuity: the keystream of the key "Key" begins EB 9F 77 81 B7. -/
example : ((setKey 0 [0x4b, 0x65, 0x79] none).map fun st => run st [.process [0x50, 0x6c], .generate 2, .discard 1, .generate 1]) =
    .ok [[0xBB, 0xF3], [0x77, 0x81], [], [0x34]] := by decide +kernel

end Verif.Arc4
