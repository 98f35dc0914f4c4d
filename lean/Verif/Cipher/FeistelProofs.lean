import Verif.Cipher.Feistel

namespace Verif.Cipher

theorem xorStep_length {w : Nat} {σ : Type} (F : σ → BitVec w → BitVec w) (l : List (BitVec w)) (s : Nat × Nat × σ) : (xorStep F l s).length = l.length := by
  unfold xorStep; rw [List.length_set]

theorem xorStep_twice {w : Nat} {σ : Type} (F : σ → BitVec w → BitVec w) (l : List (BitVec w)) (s : Nat × Nat × σ) (hp : s.1 < l.length) (hne : s.1 ≠ s.2.1) :
    xorStep F (xorStep F l s) s = l := by
  unfold xorStep wd
  rw [List.set_set]
  have h1 : (l.set s.1 (l.getD s.1 0 ^^^ F s.2.2 (l.getD s.2.1 0))).getD s.2.1 0 = l.getD s.2.1 0 := by
    rw [List.getD_eq_getElem?_getD, List.getElem?_set_ne hne, ← List.getD_eq_getElem?_getD]
  have h2 : (l.set s.1 (l.getD s.1 0 ^^^ F s.2.2 (l.getD s.2.1 0))).getD s.1 0 = l.getD s.1 0 ^^^ F s.2.2 (l.getD s.2.1 0) := by
    rw [List.getD_eq_getElem?_getD, List.getElem?_set_self hp]; rfl
  rw [h1, h2, xor_xor_cancel]
  rw [List.getD_eq_getElem?_getD, List.getElem?_eq_getElem hp, Option.getD_some]
  exact List.set_getElem_self hp

/-- The places of the steps are different words of a block of `n`. -/
def Good {σ : Type} (n : Nat) (steps : List (Nat × Nat × σ)) : Prop := ∀ s ∈ steps, s.1 < n ∧ s.1 ≠ s.2.1

instance {σ : Type} (n : Nat) (steps : List (Nat × Nat × σ)) : Decidable (Good n steps) := by unfold Good; infer_instance

theorem network_length {w : Nat} {σ : Type} (F : σ → BitVec w → BitVec w) (steps : List (Nat × Nat × σ)) : ∀ l : List (BitVec w), (network F steps l).length = l.length := by
  induction steps with
  | nil => intro l; rfl
  | cons s steps ih => intro l; exact (ih _).trans (xorStep_length F l s)

theorem network_append {w : Nat} {σ : Type} (F : σ → BitVec w → BitVec w) (a b : List (Nat × Nat × σ)) (l : List (BitVec w)) :
    network F (a ++ b) l = network F b (network F a l) := List.foldl_append

theorem network_reverse {w : Nat} {σ : Type} (F : σ → BitVec w → BitVec w) {n : Nat} (steps : List (Nat × Nat × σ)) (h : Good n steps) :
    ∀ l : List (BitVec w), l.length = n → network F steps.reverse (network F steps l) = l := by
  induction steps with
  | nil => intro l _; rfl
  | cons s steps ih =>
    intro l hl
    rw [List.reverse_cons, network_append]
    have := ih (fun t ht => h t (List.mem_cons_of_mem _ ht)) (xorStep F l s) (by rw [xorStep_length, hl])
    show network F [s] (network F steps.reverse (network F steps (xorStep F l s))) = l
    rw [this]
    have hs := h s List.mem_cons_self
    exact xorStep_twice F l s (by rw [hl]; exact hs.1) hs.2

theorem Good.reverse {σ : Type} {n : Nat} {steps : List (Nat × Nat × σ)} (h : Good n steps) : Good n steps.reverse :=
  fun s hs => h s (List.mem_reverse.1 hs)

/-- A list of steps and the list the other way round. -/
theorem network_pair {w : Nat} {σ : Type} (F : σ → BitVec w → BitVec w) {n : Nat} {steps : List (Nat × Nat × σ)} (h : Good n steps) :
    Pair n (network F steps) (network F steps.reverse) := by
  intro l hl
  refine ⟨by rw [network_length, hl], network_reverse F steps h l hl, by rw [network_length, hl], ?_⟩
  have := network_reverse F steps.reverse h.reverse l hl
  rwa [List.reverse_reverse] at this

/-- Functions that depend on the place. -/
theorem network_map {w : Nat} {σ τ : Type} (F : σ → BitVec w → BitVec w) (g : τ → σ) (steps : List (Nat × Nat × τ)) : ∀ l : List (BitVec w),
    network F (steps.map fun s => (s.1, s.2.1, g s.2.2)) l = network (fun t => F (g t)) steps l := by
  induction steps with
  | nil => intro l; rfl
  | cons s steps ih => intro l; exact ih _

theorem network_congr {w : Nat} {σ : Type} {F G : σ → BitVec w → BitVec w} {steps : List (Nat × Nat × σ)} (h : ∀ s ∈ steps, F s.2.2 = G s.2.2) :
    ∀ l : List (BitVec w), network F steps l = network G steps l := by
  induction steps with
  | nil => intro l; rfl
  | cons s steps ih =>
    intro l
    show network F steps (xorStep F l s) = network G steps (xorStep G l s)
    rw [ih fun t ht => h t (List.mem_cons_of_mem _ ht)]
    unfold xorStep
    rw [h s List.mem_cons_self]

/-- Two words: the other way round, the steps on the other words. -/
theorem network_flip {w : Nat} {σ : Type} (F : σ → BitVec w → BitVec w) (steps : List (Nat × Nat × σ)) (h : ∀ s ∈ steps, s.1 < 2 ∧ s.2.1 < 2) :
    ∀ l : List (BitVec w), l.length = 2 → network F (steps.map fun s => (1 - s.1, 1 - s.2.1, s.2.2)) l.reverse = (network F steps l).reverse := by
  induction steps with
  | nil => intro l _; rfl
  | cons s steps ih =>
    intro l hl
    have hs := h s List.mem_cons_self
    have : xorStep F l.reverse (1 - s.1, 1 - s.2.1, s.2.2) = (xorStep F l s).reverse := by
      obtain ⟨p, q, t⟩ := s
      match l, hl with
      | [a, b], _ =>
        match p, q, hs with
        | 0, 0, _ => rfl
        | 0, 1, _ => rfl
        | 1, 0, _ => rfl
        | 1, 1, _ => rfl
    show network F (steps.map fun s => (1 - s.1, 1 - s.2.1, s.2.2)) (xorStep F l.reverse (1 - s.1, 1 - s.2.1, s.2.2)) = (network F steps (xorStep F l s)).reverse
    rw [this]
    exact ih (fun t ht => h t (List.mem_cons_of_mem _ ht)) _ (by rw [xorStep_length, hl])

/-! ## Exchanging elements -/

theorem swapAt_map {α β : Type} (f : α → β) (i j : Nat) (l : List α) : swapAt i j (l.map f) = (swapAt i j l).map f := by
  unfold swapAt
  rw [List.getElem?_map, List.getElem?_map]
  cases h1 : l[i]? with
  | none => rfl
  | some a =>
    cases h2 : l[j]? with
    | none => rfl
    | some b => simp [List.map_set]

theorem foldl_map_comm {α β γ : Type} (f : List α → γ → List α) (g : List β → γ → List β) (h : α → β) (hc : ∀ l c, g (l.map h) c = (f l c).map h) (cs : List γ) :
    ∀ l, cs.foldl g (l.map h) = (cs.foldl f l).map h := by
  induction cs with
  | nil => intro l; rfl
  | cons c cs ih => intro l; rw [List.foldl_cons, List.foldl_cons, hc, ih]

/-- A list is what its positions are mapped to. -/
theorem eq_range_map {w : Nat} {k : List (BitVec w)} {n : Nat} (h : k.length = n) : k = (List.range n).map (wd k) := by
  apply List.ext_getElem
  · simp [h]
  · intro i h1 h2
    simp [wd, List.getD_eq_getElem?_getD, List.getElem?_eq_getElem h1]

theorem wd_map {w : Nat} (k : List (BitVec w)) (idx : List Nat) {i : Nat} (hi : i < idx.length) : wd (idx.map (wd k)) i = wd k (idx.getD i 0) := by
  unfold wd
  simp [List.getElem?_eq_getElem hi]

/-! ## DES -/

namespace Des

theorem revKeys_map {α β : Type} (f : α → β) (k : List α) : revKeys (k.map f) = (revKeys k).map f := by
  unfold revKeys
  exact foldl_map_comm _ _ f (fun l c => by rw [swapAt_map, swapAt_map]) _ k

/-- The keys of half round `i` become those of half round `15 - i`. -/
theorem wd_revKeys {k : List W32} (h : k.length = 32) {i : Nat} (hi : i < 16) :
    wd (revKeys k) (2 * i) = wd k (2 * (15 - i)) ∧ wd (revKeys k) (2 * i + 1) = wd k (2 * (15 - i) + 1) := by
  have e : revKeys k = (revKeys (List.range 32)).map (wd k) := by
    have := revKeys_map (wd k) (List.range 32)
    rwa [← eq_range_map h] at this
  have hl : (revKeys (List.range 32)).length = 32 := by decide
  have key : ∀ i, i < 16 → (revKeys (List.range 32)).getD (2 * i) 0 = 2 * (15 - i) ∧ (revKeys (List.range 32)).getD (2 * i + 1) 0 = 2 * (15 - i) + 1 := by decide
  rw [e, wd_map _ _ (by omega), wd_map _ _ (by omega), (key i hi).1, (key i hi).2]
  exact ⟨rfl, rfl⟩

theorem f_revKeys {k : List W32} (h : k.length = 32) {i : Nat} (hi : i < 16) : f (revKeys k) i = f k (15 - i) := by
  obtain ⟨h1, h2⟩ := wd_revKeys h hi
  funext r
  unfold f
  rw [h1, h2]

theorem steps_flip : (steps.map fun s => (1 - s.1, 1 - s.2.1, 15 - s.2.2)) = steps.reverse := by decide

theorem rawProcess_flip {k : List W32} (h : k.length = 32) (l : List W32) (hl : l.length = 2) :
    rawProcess (revKeys k) l.reverse = (network (f k) steps.reverse l).reverse := by
  unfold rawProcess
  rw [network_congr (G := fun i => f k (15 - i)) (fun s hs => f_revKeys h ((by decide : ∀ s ∈ steps, s.2.2 < 16) s hs))]
  rw [← network_map (f k) (fun i => 15 - i), ← network_flip (f k) steps.reverse (by decide) l hl, ← steps_flip, List.map_map]
  congr 1

/-- The sixteen rounds and the exchange of the halves: the keys the other way round undo them. -/
theorem core_pair {k : List W32} (h : k.length = 32) : Pair 2 (fun l => (rawProcess k l).reverse) (fun l => (rawProcess (revKeys k) l).reverse) := by
  have hp := network_pair (n := 2) (f k) (by decide : Good 2 steps)
  intro l hl
  obtain ⟨h1, h2, -, -⟩ := hp l hl
  obtain ⟨-, -, h3, h4⟩ := hp l.reverse (by simp [hl])
  have e : rawProcess (revKeys k) l = (network (f k) steps.reverse l.reverse).reverse := by
    have := rawProcess_flip h l.reverse (by simp [hl])
    rwa [List.reverse_reverse] at this
  refine ⟨by simp [rawProcess, h1], ?_, by simp [e, h3], ?_⟩
  · show (rawProcess (revKeys k) (rawProcess k l).reverse).reverse = l
    rw [rawProcess_flip h _ (show (rawProcess k l).length = 2 from h1)]
    simpa [rawProcess] using h2
  · show (rawProcess k (rawProcess (revKeys k) l).reverse).reverse = l
    rw [e, List.reverse_reverse]
    simp [rawProcess, h4]

theorem exchange_twice (m : W32) (s : W32 × W32) : exchange m (exchange m s) = s := by
  obtain ⟨a, b⟩ := s
  unfold exchange
  have : (a ^^^ (a ^^^ b) &&& m) ^^^ (b ^^^ (a ^^^ b) &&& m) = a ^^^ b := by
    generalize (a ^^^ b) &&& m = x
    rw [BitVec.xor_assoc, BitVec.xor_comm b x, xor_xor_cancel_left]
  simp only [this, xor_xor_cancel]

theorem exchange_flip (m a b : W32) : exchange m ((exchange m (a, b)).2, (exchange m (a, b)).1) = (b, a) := by
  have : exchange m (b, a) = ((exchange m (a, b)).2, (exchange m (a, b)).1) := by unfold exchange; rw [BitVec.xor_comm b a]
  rw [← this, exchange_twice]

theorem fperm_iperm (a b : W32) : fperm (iperm a b).2 (iperm a b).1 = (b, a) := by
  unfold fperm iperm
  simp only [rotr_rotl, rotl_rotr, exchange_flip]

theorem iperm_fperm (a b : W32) : iperm (fperm a b).2 (fperm a b).1 = (b, a) := by
  unfold fperm iperm
  simp only [rotr_rotl, rotl_rotr, exchange_flip]

/-- `fp` exchanges the halves and undoes `ip`. -/
theorem perm_pair : Pair 2 ip (fun l => fp l.reverse) := by
  intro l hl
  match l, hl with
  | [a, b], _ =>
    refine ⟨rfl, ?_, rfl, ?_⟩
    · show [(fperm (iperm a b).2 (iperm a b).1).2, (fperm (iperm a b).2 (iperm a b).1).1] = [a, b]
      rw [fperm_iperm]
    · show [(iperm (fperm b a).2 (fperm b a).1).1, (iperm (fperm b a).2 (fperm b a).1).2] = [a, b]
      rw [iperm_fperm]

/-- Between the two permutations. -/
theorem sandwich {f g : List W32 → List W32} (h : Pair 2 f g) : Pair 2 (fun l => fp (f (ip l)).reverse) (fun l => fp (g (ip l)).reverse) :=
  fun l hl => (perm_pair.comp (h.comp perm_pair.symm)) l hl

theorem rawSetKey_length (key : List Byte) : (rawSetKey true key).length = 32 := by
  show ((List.range 16).flatMap fun i => roundKeys (ksBytes (pcr (pc1m key) i))).length = 32
  have : ∀ ks, (roundKeys ks).length = 2 := fun _ => rfl
  simp [List.length_flatMap, this]
  rfl

theorem rawSetKey_false (key : List Byte) : rawSetKey false key = revKeys (rawSetKey true key) := rfl

theorem revKeys_revKeys {k : List W32} (h : k.length = 32) : revKeys (revKeys k) = k := by
  rw [eq_range_map h, revKeys_map, revKeys_map]
  rw [show revKeys (revKeys (List.range 32)) = List.range 32 by decide]

theorem process_pair (key : List Byte) : Pair 2 (process (rawSetKey true key)) (process (rawSetKey false key)) := by
  have := sandwich (core_pair (rawSetKey_length key))
  simp only [List.reverse_reverse] at this
  exact this

theorem core_pair' (key : List Byte) (dir : Bool) : Pair 2 (fun l => (rawProcess (rawSetKey dir key) l).reverse) (fun l => (rawProcess (rawSetKey (!dir) key) l).reverse) := by
  cases dir
  · exact (core_pair (rawSetKey_length key)).symm
  · exact core_pair (rawSetKey_length key)

theorem process3_pair (a b c : List Byte) (dir : Bool) :
    Pair 2 (process3 (rawSetKey dir a) (rawSetKey (!dir) b) (rawSetKey dir c)) (process3 (rawSetKey (!dir) c) (rawSetKey dir b) (rawSetKey (!dir) a)) := by
  have hb := core_pair' b (!dir)
  rw [Bool.not_not] at hb
  have := sandwich (((core_pair' a dir).comp hb).comp (core_pair' c dir))
  simp only [List.reverse_reverse] at this
  exact this

end Des

/-! ## Blowfish -/

namespace Blowfish

theorem revKeys_map {α β : Type} (f : α → β) (k : List α) : revKeys (k.map f) = (revKeys k).map f := by
  unfold revKeys
  exact foldl_map_comm _ _ f (fun l c => by rw [swapAt_map]) _ k

theorem wd_revKeys {k : List W32} (h : k.length = 18) {i : Nat} (hi : i < 18) : wd (revKeys k) i = wd k (17 - i) := by
  have e : revKeys k = (revKeys (List.range 18)).map (wd k) := by
    have := revKeys_map (wd k) (List.range 18)
    rwa [← eq_range_map h] at this
  have hl : (revKeys (List.range 18)).length = 18 := by decide
  have key : ∀ i, i < 18 → (revKeys (List.range 18)).getD i 0 = 17 - i := by decide
  rw [e, wd_map _ _ (by omega), key i hi]

theorem steps_flip : (steps.map fun s => (1 - s.1, 1 - s.2.1, 17 - s.2.2)) = steps.reverse := by decide

theorem round_revKeys {p s : List W32} (h : p.length = 18) {i : Nat} (hi : i < 18) : round (revKeys p) s i = round p s (17 - i) := by
  funext x
  unfold round
  rw [wd_revKeys h hi]
  by_cases c : i = 0 ∨ i = 17
  · rw [if_pos c, if_pos (by omega)]
  · rw [if_neg c, if_neg (by omega)]

theorem cryptBlock_pair {p s : List W32} (h : p.length = 18) : Pair 2 (cryptBlock p s) (cryptBlock (revKeys p) s) := by
  have hp := network_pair (n := 2) (round p s) (by decide : Good 2 steps)
  have flip : ∀ l : List W32, l.length = 2 → network (round (revKeys p) s) steps l.reverse = (network (round p s) steps.reverse l).reverse := by
    intro l hl
    rw [network_congr (G := fun i => round p s (17 - i)) (fun t ht => round_revKeys h ((by decide : ∀ s ∈ steps, s.2.2 < 18) t ht))]
    rw [← network_map (round p s) (fun i => 17 - i), ← network_flip (round p s) steps.reverse (by decide) l hl, ← steps_flip, List.map_map]
    congr 1
  intro l hl
  obtain ⟨h1, h2, -, -⟩ := hp l hl
  obtain ⟨-, -, h3, h4⟩ := hp l.reverse (by simp [hl])
  have e := flip l.reverse (by simp [hl])
  rw [List.reverse_reverse] at e
  unfold cryptBlock
  refine ⟨by simp [h1], ?_, by simp [e, h3], ?_⟩
  · rw [flip _ h1, h2, List.reverse_reverse]
  · rw [e, List.reverse_reverse, h4, List.reverse_reverse]

theorem put2_length (l : List W32) (i : Nat) (v : List W32) : (put2 l i v).length = l.length := by
  unfold put2; rw [List.length_set, List.length_set]

theorem makeP_length (s p : List W32) : (makeP s p).length = p.length := by
  unfold makeP
  have : ∀ (ns : List Nat) (q : List W32), (ns.foldl (fun p n => put2 p (2 * n + 2) (cryptBlock p s [wd p (2 * n), wd p (2 * n + 1)])) q).length = q.length := by
    intro ns
    induction ns with
    | nil => intro q; rfl
    | cons n ns ih => intro q; rw [List.foldl_cons, ih, put2_length]
  rw [this, put2_length]

end Blowfish

/-! ## CAST -/

namespace Cast

theorem enc128_pair (k : List W32) (reduced : Bool) : Pair 2 (enc128 k reduced) (dec128 k reduced) := by
  have e12 : dec12 = enc12.reverse := by decide
  have e4 : dec4 = enc4.reverse := by decide
  have p12 := network_pair (n := 2) (fk k) (by decide : Good 2 enc12)
  have p4 := network_pair (n := 2) (fk k) (by decide : Good 2 enc4)
  have rev : Pair (α := W32) 2 List.reverse List.reverse := fun l hl => ⟨by simp [hl], by simp, by simp [hl], by simp⟩
  unfold enc128 dec128
  rw [e12, e4]
  cases reduced
  · exact fun l hl => (p12.comp (p4.comp rev)) l hl
  · exact fun l hl => (p12.comp rev) l hl

theorem rev256_map {α β : Type} (f : α → β) (k : List α) : rev256 (k.map f) = (rev256 k).map f := by
  unfold rev256
  refine foldl_map_comm _ _ f (fun l c => ?_) _ k
  exact foldl_map_comm _ _ f (fun l c => by rw [swapAt_map, swapAt_map]) _ l

/-- Where the words go. -/
def mirror (i : Nat) : Nat := 8 * (11 - i / 8) + i % 8

theorem wd_rev256 {k : List W32} (h : k.length = 96) {i : Nat} (hi : i < 96) : wd (rev256 k) i = wd k (mirror i) := by
  have e : rev256 k = (rev256 (List.range 96)).map (wd k) := by
    have := rev256_map (wd k) (List.range 96)
    rwa [← eq_range_map h] at this
  have hl : (rev256 (List.range 96)).length = 96 := by decide +kernel
  have key : ∀ i, i < 96 → (rev256 (List.range 96)).getD i 0 = mirror i := by decide +kernel
  rw [e, wd_map _ _ (by omega), key i hi]

theorem steps256_mirror : (steps256.map fun s => (s.1, s.2.1, s.2.2.1, mirror s.2.2.2.1, mirror s.2.2.2.2)) = steps256.reverse := by decide

theorem process256_pair {k : List W32} (h : k.length = 96) : Pair 4 (process256 k) (process256 (rev256 k)) := by
  have hp := network_pair (n := 4) (fk k) (by decide : Good 4 steps256)
  have e : process256 (rev256 k) = network (fk k) steps256.reverse := by
    funext l
    unfold process256
    rw [network_congr (G := fun a => fk k (a.1, mirror a.2.1, mirror a.2.2)) (fun s hs => ?_), ← network_map (fk k) (fun a : Nat × Nat × Nat => (a.1, mirror a.2.1, mirror a.2.2)), ← steps256_mirror]
    have hb := (by decide : ∀ s ∈ steps256, s.2.2.2.1 < 96 ∧ s.2.2.2.2 < 96) s hs
    funext r
    unfold fk
    rw [wd_rev256 h hb.1, wd_rev256 h hb.2]
  rw [e]
  exact hp

theorem schedule256_length (n : Nat) : ∀ (i : Nat) (kappa : List W32), (schedule256 n i kappa).length = 8 * n := by
  induction n with
  | zero => intro i kappa; rfl
  | succ n ih => intro i kappa; rw [schedule256, List.length_append, ih]; simp only [List.length_cons, List.length_nil]; omega

end Cast

end Verif.Cipher
