import Verif.Salsa.Model
import Verif.Salsa.Spec
import Verif.Chacha.Streams

namespace Verif.Salsa
open Verif.Chacha (getWords Iv sixteen getWords_eq getWords_take getWords_length getWords_add words_append words_counter8 words_serialize consts consts_short consts_long)
open Verif.Modes (blocksOf blocksOf_succ blocksOf_congr load_byBlocks)

/-- The words of the state in the order of the specification. -/
def std (s : List W) : List W := order.map fun k => s.getD k 0

theorem std_length (s : List W) : (std s).length = 16 := by simp [std, order]

theorem std_doubleRound (s : List W) (hs : s.length = 16) : std (doubleRound s) = Spec.doubleround (std s) := by
  revert s
  refine sixteen ?_
  intro x0 x1 x2 x3 x4 x5 x6 x7 x8 x9 x10 x11 x12 x13 x14 x15
  simp only [std, order, List.map, doubleRound, quarter, Cipher.rotl_eq, Spec.doubleround, Scrypt.Spec.rowround, Scrypt.Spec.columnround, Scrypt.Spec.quarterround, List.getD_cons_zero, List.getD_cons_succ]

theorem doubleRound_length (s : List W) (hs : s.length = 16) : (doubleRound s).length = 16 := by
  revert s
  refine sixteen ?_
  intro x0 x1 x2 x3 x4 x5 x6 x7 x8 x9 x10 x11 x12 x13 x14 x15
  rfl

theorem repeat_spec (n : Nat) (s : List W) (hs : s.length = 16) :
    (Nat.repeat doubleRound n s).length = 16 ∧ std (Nat.repeat doubleRound n s) = Nat.repeat Spec.doubleround n (std s) := by
  induction n with
  | zero => exact ⟨by simp only [Nat.repeat]; exact hs, by simp only [Nat.repeat]⟩
  | succ n ih =>
    simp only [Nat.repeat]
    exact ⟨doubleRound_length _ ih.1, by rw [std_doubleRound _ ih.1, ih.2]⟩

theorem roundLoop_spec (r : Nat) (hr : r % 2 = 0) (s : List W) (hs : s.length = 16) :
    (roundLoop r s).length = 16 ∧ std (roundLoop r s) = Nat.repeat Spec.doubleround (r / 2) (std s) := by
  unfold roundLoop
  rw [show ((r : Int).toNat + 1) / 2 = r / 2 by omega]
  exact repeat_spec _ s hs

theorem block_eq (r : Nat) (hr : r % 2 = 0) (s : List W) (hs : s.length = 16) : block r s = Spec.core r (std s) := by
  unfold block Spec.core
  rw [← (roundLoop_spec r hr s hs).2]
  simp only [std, order, List.map, List.zipWith, Chacha.Spec.serialize, List.flatMap_cons, List.flatMap_nil, BitVec.add_comm]

theorem core_length (r : Nat) (hr : r % 2 = 0) (s : List W) (hs : s.length = 16) : (Spec.core r (std s)).length = 64 := by
  rw [← block_eq r hr s hs]
  simp [block, order]

/-- The state of the program: constants, the two halves of the key, nonce and counter. -/
def lay (C K L N : List W) (c : Nat) : List W :=
  [C.getD 0 0, C.getD 1 0, C.getD 2 0, C.getD 3 0, K.getD 3 0, BitVec.ofNat 32 (c / 4294967296), L.getD 3 0, K.getD 2 0, BitVec.ofNat 32 c, L.getD 2 0, K.getD 1 0, N.getD 1 0,
    L.getD 1 0, K.getD 0 0, N.getD 0 0, L.getD 0 0]

theorem lay_bump (C K L N : List W) (c : Nat) : bump (lay C K L N c) = lay C K L N (c + 1) := by
  have e : ∀ c, BitVec.ofNat 32 c + 1 = BitVec.ofNat 32 (c + 1) := fun c => by rw [BitVec.ofNat_add]; rfl
  have hz : BitVec.ofNat 32 (c + 1) = 0 ↔ (c + 1) % 4294967296 = 0 := by
    rw [← BitVec.toNat_inj, BitVec.toNat_ofNat]; rfl
  unfold bump lay
  simp only [List.set, List.getD_cons_zero, List.getD_cons_succ, e]
  by_cases h : (c + 1) % 4294967296 = 0
  · rw [if_pos (hz.2 h), show (c + 1) / 4294967296 = c / 4294967296 + 1 by omega]
  · rw [if_neg (fun x => h (hz.1 x)), show (c + 1) / 4294967296 = c / 4294967296 by omega]

theorem operateLoop_spec (r : Int) (C K L N : List W) (n : Nat) : ∀ c, operateLoop r n (lay C K L N c) = (lay C K L N (c + n), blocksOf n fun k => block r (lay C K L N (c + k))) := by
  induction n with
  | zero => intro c; rfl
  | succ n ih =>
    intro c
    simp only [operateLoop]
    rw [lay_bump, ih, blocksOf_succ]
    simp only [Nat.add_assoc, Nat.add_comm 1]
    rfl

theorem lay_length (C K L N : List W) (c : Nat) : (lay C K L N c).length = 16 := rfl

theorem four (l : List W) (h : l.length = 4) : l = [l.getD 0 0, l.getD 1 0, l.getD 2 0, l.getD 3 0] := by
  match l, h with
  | [a, b, c, d], _ => rfl

theorem two (l : List W) (h : l.length = 2) : l = [l.getD 0 0, l.getD 1 0] := by
  match l, h with
  | [a, b], _ => rfl

/-- The second half of the key. -/
def half2 (key : List Byte) : List W := getWords 4 (key.drop (key.length - 16))

theorem expand_lay (key nonce : List Byte) (hk : key.length = 16 ∨ key.length = 32) (hn : nonce.length = 8) (c : Nat) :
    Spec.expand key (nonce ++ leBytes 8 c) = std (lay (consts (key.length == 16)) (getWords 4 key) (half2 key) (getWords 2 nonce) c) := by
  have hc : Chacha.Spec.words (Chacha.Spec.ascii (if key.length = 16 then "expand 16-byte k" else "expand 32-byte k")) = consts (key.length == 16) := by
    rcases hk with h | h
    · rw [if_pos h, ← consts_short, h]; rfl
    · rw [if_neg (by omega), ← consts_long, h]; rfl
  have h1 : Chacha.Spec.words (key.take 16) = getWords 4 key := by
    rw [← getWords_eq 4 _ (by rw [List.length_take]; omega), getWords_take 4 16 _ (by omega)]
  have h2 : Chacha.Spec.words (if key.length = 16 then key else key.drop 16) = half2 key := by
    unfold half2
    rcases hk with h | h
    · rw [if_pos h, h, ← getWords_eq 4 _ (by omega)]; rfl
    · rw [if_neg (by omega), h, ← getWords_eq 4 _ (by rw [List.length_drop]; omega)]
  unfold Spec.expand
  dsimp only
  rw [hc, h1, h2, words_append _ _ (by omega), words_counter8, ← getWords_eq 2 nonce (by omega)]
  have e1 := four (getWords 4 key) (getWords_length _ _)
  have e2 := four (half2 key) (getWords_length _ _)
  have e3 := two (getWords 2 nonce) (getWords_length _ _)
  generalize getWords 4 key = K at *
  generalize half2 key = L at *
  generalize getWords 2 nonce = N at *
  generalize consts _ = C
  rw [e1, e2, e3]
  rfl

theorem salsaBlock_lay (r : Nat) (key nonce : List Byte) (hk : key.length = 16 ∨ key.length = 32) (hn : nonce.length = 8) (c : Nat) :
    Spec.salsaBlock r key nonce c = Spec.core r (std (lay (consts (key.length == 16)) (getWords 4 key) (half2 key) (getWords 2 nonce) c)) := by
  rw [Spec.salsaBlock, expand_lay key nonce hk hn]

/-- The keystream of a state. -/
theorem operate_blocks (r : Nat) (hr : r % 2 = 0) (C K L N : List W) (f : Nat → List Byte) (hf : ∀ k, f k = Spec.core r (std (lay C K L N k))) (i n : Nat) :
    operateLoop r n (lay C K L N i) = (lay C K L N (i + n), load (Chacha.Spec.ofBlocks f) (i * 64) (n * 64)) := by
  rw [operateLoop_spec]
  have := load_byBlocks 64 (by omega) f (fun k => by rw [hf, core_length r hr _ (lay_length _ _ _ _ _)]) i n
  rw [show load (Chacha.Spec.ofBlocks f) (i * 64) (n * 64) = _ from this]
  congr 1
  apply blocksOf_congr
  intro k _
  rw [hf, block_eq r hr _ (lay_length _ _ _ _ _)]

def salsaRep (r : Nat) (key : List Byte) (v : Iv 8) (i : Nat) (p : Pol) : Prop :=
  p.state = lay (consts (key.length == 16)) (getWords 4 key) (half2 key) (getWords 2 v.1) i ∧ p.rounds = r

theorem salsa_ok (r : Nat) (hr : r % 2 = 0) (key : List Byte) (hk : key.length = 16 ∨ key.length = 32) (lim : Nat) :
    salsa.Ok (fun v => Chacha.Spec.ofBlocks (Spec.salsaBlock r key v.1)) (salsaRep r key) lim where
  bpi_pos := show 0 < 64 by decide
  iters_pos := show 0 < 1 by decide
  write := by
    intro v i p n ⟨h1, h2⟩ _
    simp only [salsa]
    rw [h1, h2, operate_blocks r hr _ _ _ _ (Spec.salsaBlock r key v.1) (fun k => salsaBlock_lay r key v.1 hk v.2 k)]
    exact ⟨⟨rfl, rfl⟩, rfl⟩
  operate := by
    intro v i p n x _ ⟨h1, h2⟩ _ _
    simp only [salsa]
    rw [h1, h2, operate_blocks r hr _ _ _ _ (Spec.salsaBlock r key v.1) (fun k => salsaBlock_lay r key v.1 hk v.2 k)]
    exact ⟨⟨rfl, rfl⟩, rfl⟩
  seek := by
    intro v i p j ⟨h1, h2⟩ _
    refine ⟨_, rfl, ?_, h2⟩
    simp only [h1]
    rfl
  resync := by
    intro v i p w ⟨h1, h2⟩
    refine ⟨?_, h2⟩
    simp only [salsa, h1]
    rfl

theorem setKey_spec (p : Pol) (hp : p.state.length = 16) (rounds : Option Int) (key : List Byte) (p' : Pol) (h : setKey p rounds key = .ok p') (v : Iv 8) :
    (p'.rounds = 20 ∨ p'.rounds = 12 ∨ p'.rounds = 8) ∧ p'.rounds = rounds.getD p.rounds ∧
    (salsa.resync p' v).state = lay (consts (key.length == 16)) (getWords 4 key) (half2 key) (getWords 2 v.1) 0 := by
  unfold setKey at h
  dsimp only at h
  by_cases hc : rounds.getD (p.rounds : Int) ≠ 20 ∧ rounds.getD (p.rounds : Int) ≠ 12 ∧ rounds.getD (p.rounds : Int) ≠ 8
  · rw [if_pos hc] at h; cases h
  · rw [if_neg hc] at h
    injection h with h
    subst h
    refine ⟨by dsimp only; omega, rfl, ?_⟩
    simp only [salsa]
    generalize p.state = s at hp ⊢
    revert s
    refine sixteen ?_
    intro x0 x1 x2 x3 x4 x5 x6 x7 x8 x9 x10 x11 x12 x13 x14 x15
    simp only [List.set, half2, lay, consts, List.getD_cons_zero, List.getD_cons_succ, beq_iff_eq]
    rfl

/-! ## XSalsa20 -/

theorem hsalsa_length (r : Nat) (key n : List Byte) : (Spec.hsalsa r key n).length = 32 := by simp [Spec.hsalsa, Chacha.serialize_length]

def xRep (r : Nat) (key : List Byte) (v : Iv 24) (i : Nat) (p : Pol) : Prop :=
  p.state = lay (consts false) (getWords 4 (Spec.hsalsa r key (v.1.take 16))) (half2 (Spec.hsalsa r key (v.1.take 16))) (getWords 2 (v.1.drop 16)) i ∧ p.rounds = r ∧ p.key = getWords 8 key

theorem expand_x (key n : List Byte) (hk : key.length = 32) (hn : n.length = 16) :
    Spec.expand key n = std [(consts false).getD 0 0, (consts false).getD 1 0, (consts false).getD 2 0, (consts false).getD 3 0,
      (getWords 8 key).getD 3 0, (getWords 4 n).getD 3 0, (getWords 8 key).getD 7 0, (getWords 8 key).getD 2 0, (getWords 4 n).getD 2 0, (getWords 8 key).getD 6 0, (getWords 8 key).getD 1 0,
      (getWords 4 n).getD 1 0, (getWords 8 key).getD 5 0, (getWords 8 key).getD 0 0, (getWords 4 n).getD 0 0, (getWords 8 key).getD 4 0] := by
  have h1 : Chacha.Spec.words (key.take 16) = getWords 4 key := by
    rw [← getWords_eq 4 _ (by rw [List.length_take]; omega), getWords_take 4 16 _ (by omega)]
  have h2 : Chacha.Spec.words (key.drop 16) = getWords 4 (key.drop 16) := by rw [← getWords_eq 4 _ (by rw [List.length_drop]; omega)]
  unfold Spec.expand
  dsimp only
  rw [if_neg (by omega), if_neg (by omega), ← consts_long, h1, h2, ← getWords_eq 4 n (by omega)]
  have e0 : getWords 8 key = getWords 4 key ++ getWords 4 (key.drop 16) := getWords_add 4 4 key
  rw [e0]
  have e1 := four (getWords 4 key) (getWords_length _ _)
  have e2 := four (getWords 4 (key.drop 16)) (getWords_length _ _)
  have e3 := four (getWords 4 n) (getWords_length _ _)
  generalize getWords 4 key = K at *
  generalize getWords 4 (key.drop 16) = L at *
  generalize getWords 4 n = N at *
  generalize consts _ = C
  rw [e1, e2, e3]
  rfl

theorem x_resync (p : Pol) (r : Nat) (hr : r % 2 = 0) (hrd : p.rounds = r) (key : List Byte) (hk : key.length = 32) (hkey : p.key = getWords 8 key) (hl : p.state.length = 16)
    (hc : p.state.take 4 = consts false) (w : Iv 24) : xRep r key w 0 (xsalsa.resync p w) := by
  refine ⟨?_, hrd, hkey⟩
  have hw := w.2
  have ht : (w.1.take 16).length = 16 := by rw [List.length_take, hw]; rfl
  have hn4 : getWords 4 (w.1.take 16) = getWords 4 w.1 := getWords_take 4 16 _ (by omega)
  have hn6 : getWords 6 w.1 = getWords 4 w.1 ++ getWords 2 (w.1.drop 16) := getWords_add 4 2 w.1
  have ex := expand_x key (w.1.take 16) hk ht
  rw [hn4] at ex
  show (xResync p w).state = _
  unfold xResync
  dsimp only
  rw [hrd, hkey, hn6]
  have e1 := four (getWords 4 w.1) (getWords_length _ _)
  have e2 := two (getWords 2 (w.1.drop 16)) (getWords_length _ _)
  generalize getWords 4 w.1 = N at *
  generalize getWords 2 (w.1.drop 16) = M at *
  generalize getWords 8 key = K at *
  have hh : ∀ (X : List W), std X = Nat.repeat Spec.doubleround (r / 2) (Spec.expand key (w.1.take 16)) →
      getWords 4 (Spec.hsalsa r key (w.1.take 16)) = [X.getD 0 0, X.getD 1 0, X.getD 2 0, X.getD 3 0] ∧
      half2 (Spec.hsalsa r key (w.1.take 16)) = [X.getD 14 0, X.getD 11 0, X.getD 8 0, X.getD 5 0] := by
    intro X hX
    have hlen := hsalsa_length r key (w.1.take 16)
    have e8 : getWords 4 (Spec.hsalsa r key (w.1.take 16)) ++ half2 (Spec.hsalsa r key (w.1.take 16)) =
        [X.getD 0 0, X.getD 1 0, X.getD 2 0, X.getD 3 0] ++ [X.getD 14 0, X.getD 11 0, X.getD 8 0, X.getD 5 0] := by
      unfold half2
      rw [hlen, ← show getWords 8 _ = getWords 4 (Spec.hsalsa r key (w.1.take 16)) ++ getWords 4 (List.drop (32 - 16) _) from getWords_add 4 4 _, getWords_eq 8 _ (by rw [hlen])]
      unfold Spec.hsalsa
      dsimp only
      rw [words_serialize, ← hX]
      rfl
    exact List.append_inj e8 (by rw [getWords_length]; rfl)
  generalize p.state = s at *
  clear hkey
  revert hc
  revert s
  refine sixteen ?_
  intro x0 x1 x2 x3 x4 x5 x6 x7 x8 x9 x10 x11 x12 x13 x14 x15 hc
  have hc' : consts false = [x0, x1, x2, x3] := hc.symm
  rw [hc'] at ex ⊢
  rw [e1, e2]
  rw [e1] at ex
  simp only [List.set, List.getD_cons_zero, List.getD_cons_succ, List.cons_append, List.nil_append] at ex ⊢
  obtain ⟨hl1, hl2⟩ := hh _ (by rw [ex]; exact (roundLoop_spec r hr _ rfl).2)
  rw [hl1, hl2]
  simp only [lay, List.getD_cons_zero, List.getD_cons_succ]
  rfl

theorem x_ok (r : Nat) (hr : r % 2 = 0) (key : List Byte) (hk : key.length = 32) (lim : Nat) :
    xsalsa.Ok (fun v => Chacha.Spec.ofBlocks (Spec.xsalsaBlock r key v.1)) (xRep r key) lim where
  bpi_pos := show 0 < 64 by decide
  iters_pos := show 0 < 1 by decide
  write := by
    intro v i p n ⟨h1, h2, h3⟩ _
    simp only [xsalsa, salsa]
    rw [h1, h2, operate_blocks r hr _ _ _ _ (Spec.xsalsaBlock r key v.1) (fun k => by
      rw [Spec.xsalsaBlock, salsaBlock_lay r _ _ (.inr (hsalsa_length _ _ _)) (by rw [List.length_drop, v.2]), hsalsa_length]; rfl)]
    exact ⟨⟨rfl, rfl, h3⟩, rfl⟩
  operate := by
    intro v i p n x _ ⟨h1, h2, h3⟩ _ _
    simp only [xsalsa, salsa]
    rw [h1, h2, operate_blocks r hr _ _ _ _ (Spec.xsalsaBlock r key v.1) (fun k => by
      rw [Spec.xsalsaBlock, salsaBlock_lay r _ _ (.inr (hsalsa_length _ _ _)) (by rw [List.length_drop, v.2]), hsalsa_length]; rfl)]
    exact ⟨⟨rfl, rfl, h3⟩, rfl⟩
  seek := by
    intro v i p j ⟨h1, h2, h3⟩ _
    refine ⟨_, rfl, ?_, h2, h3⟩
    simp only [h1]
    rfl
  resync := by
    intro v i p w ⟨h1, h2, h3⟩
    exact x_resync p r hr h2 key hk h3 (by rw [h1]; rfl) (by rw [h1]; rfl) w

end Verif.Salsa
