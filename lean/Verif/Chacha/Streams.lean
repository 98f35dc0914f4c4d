import Verif.Chacha.Proofs

/-! The keystreams of the three policies. -/
namespace Verif.Chacha

open Verif.Modes (blocksOf blocksOf_congr load_byBlocks)

/-- Blocks of a state are blocks of a function. -/
theorem operate_blocks (ws : List Nat) (r : Nat) (hr : r % 2 = 0) (carry : Bool) (pre : List W) (hi : W) (post : List W) (hpre : pre.length = 12) (hpost : post.length = 2) (c0 : Nat)
    (f : Nat → List Byte) (hf : ∀ k, f k = Spec.core r (mk carry pre hi post (c0 + k))) (i n : Nat) :
    operateLoop ws carry r (n + 1) (mk carry pre hi post (c0 + i)) n = (mk carry pre hi post (c0 + (i + n)), load (Spec.ofBlocks f) (i * 64) (n * 64)) := by
  rw [operateLoop_spec carry pre hi post hpre r ws (n + 1) (c0 + i) n (by omega), Nat.add_assoc]
  have := load_byBlocks 64 (by omega) f (fun k => by rw [hf, core_length _ _ (mk_length carry pre hi post hpre hpost _)]) i n
  rw [show load (Spec.ofBlocks f) (i * 64) (n * 64) = _ from this]
  congr 1
  apply blocksOf_congr
  intro k _
  rw [hf, block_eq r hr _ (mk_length carry pre hi post hpre hpost _), Nat.add_assoc]

def consts (short : Bool) : List W := [0x61707865, if short then 0x3120646e else 0x3320646e, if short then 0x79622d36 else 0x79622d32, 0x6b206574]

theorem consts_short : consts true = Spec.words (Spec.ascii "expand 16-byte k") := by decide +kernel
theorem consts_long : consts false = Spec.words (Spec.ascii "expand 32-byte k") := by decide +kernel

theorem words_length (b : List Byte) (n : Nat) (h : b.length = 4 * n) : (Spec.words b).length = n := by rw [← getWords_eq n b h, getWords_length]

theorem keyPart_length (key : List Byte) (h : key.length = 16 ∨ key.length = 32) : (Spec.keyPart key).length = 12 := by
  unfold Spec.keyPart
  rcases h with h | h
  · rw [if_pos h, ← consts_short]; simp [consts, words_length key 4 (by omega)]
  · rw [if_neg (by omega), ← consts_long]; simp [consts, words_length key 8 (by omega)]

theorem keyPart_long (key : List Byte) (h : key.length = 32) : Spec.keyPart key = consts false ++ getWords 8 key := by
  rw [Spec.keyPart, if_neg (by omega), ← consts_long, getWords_eq 8 key (by omega)]

/-! ## ChaCha -/

def chachaRep (r : Nat) (key : List Byte) (v : Iv 8) (i : Nat) (p : Pol) : Prop :=
  p.state = mk true (Spec.keyPart key) 0 (getWords 2 v.1) (0 + i) ∧ p.rounds = r

theorem bernstein_mk (r : Nat) (key nonce : List Byte) (hn : nonce.length = 8) (c : Nat) :
    Spec.bernsteinBlock r key nonce c = Spec.core r (mk true (Spec.keyPart key) 0 (getWords 2 nonce) c) := by
  rw [Spec.bernsteinBlock, words_counter8, mk, getWords_eq 2 nonce (by omega), List.append_assoc]; rfl

theorem chacha_ok (ws : List Nat) (r : Nat) (hr : r % 2 = 0) (key : List Byte) (hk : key.length = 16 ∨ key.length = 32) (lim : Nat) :
    (chacha ws).Ok (fun v => Spec.ofBlocks (Spec.bernsteinBlock r key v.1)) (chachaRep r key) lim where
  bpi_pos := show 0 < 64 by decide
  iters_pos := show 0 < 1 by decide
  write := by
    intro v i p n ⟨h1, h2⟩ _
    simp only [chacha]
    rw [h1, h2, operate_blocks ws r hr true _ 0 _ (keyPart_length key hk) (getWords_length 2 v.1) 0 (Spec.bernsteinBlock r key v.1)
      (fun k => by rw [bernstein_mk r key v.1 v.2, Nat.zero_add])]
    exact ⟨⟨rfl, rfl⟩, rfl⟩
  operate := by
    intro v i p n x _ ⟨h1, h2⟩ _ _
    simp only [chacha]
    rw [h1, h2, operate_blocks ws r hr true _ 0 _ (keyPart_length key hk) (getWords_length 2 v.1) 0 (Spec.bernsteinBlock r key v.1)
      (fun k => by rw [bernstein_mk r key v.1 v.2, Nat.zero_add])]
    exact ⟨⟨rfl, rfl⟩, rfl⟩
  seek := by
    intro v i p j ⟨h1, h2⟩ _
    refine ⟨_, rfl, ?_, h2⟩
    simp only [h1]
    rw [mk_set _ _ _ _ (keyPart_length key hk), List.set_append, if_neg (by rw [keyPart_length key hk]; omega), keyPart_length key hk, mk, Nat.zero_add j]
    rfl
  resync := by
    intro v i p w ⟨h1, h2⟩
    refine ⟨?_, h2⟩
    show p.state.take 12 ++ [0, 0] ++ getWords 2 w.1 = _
    rw [h1, mk, List.take_left' (keyPart_length key hk), List.append_assoc]
    rfl

/-- After `CipherSetKey` the object is as after a resynchronisation. -/
theorem chacha_key (p : Pol) (rounds : Option Int) (key : List Byte) (hk : key.length = 16 ∨ key.length = 32) (p' : Pol) (h : chachaSetKey p rounds key = .ok p') :
    (p'.rounds = 20 ∨ p'.rounds = 12 ∨ p'.rounds = 8) ∧ p'.state.take 12 = Spec.keyPart key ∧ (p'.rounds : Int) = rounds.getD p.rounds := by
  unfold chachaSetKey at h
  dsimp only at h
  by_cases hc : rounds.getD (p.rounds : Int) ≠ 20 ∧ rounds.getD (p.rounds : Int) ≠ 12 ∧ rounds.getD (p.rounds : Int) ≠ 8
  · rw [if_pos hc] at h; cases h
  · rw [if_neg hc] at h
    injection h with h
    subst h
    refine ⟨by dsimp only; omega, ?_, by dsimp only; omega⟩
    dsimp only
    rcases hk with hk | hk
    · have e : Spec.keyPart key = consts true ++ getWords 4 key ++ getWords 4 key := by
        rw [Spec.keyPart, if_pos hk, ← consts_short, getWords_eq 4 key (by omega)]
      rw [if_pos hk, if_pos hk, if_neg (by omega), List.drop_zero, e]
      exact List.take_left' (by simp [getWords_length])
    · rw [if_neg (by omega), if_neg (by omega), if_pos hk, keyPart_long key hk, show getWords 8 key = getWords 4 key ++ getWords 4 (key.drop 16) from getWords_add 4 4 key,
        ← List.append_assoc]
      exact List.take_left' (by simp [getWords_length])

/-! ## ChaChaTLS -/

def tlsRep (key : List Byte) (first : W) (v : Iv 12) (i : Nat) (p : Pol) : Prop :=
  p.state = mk false (Spec.keyPart key) (BitVec.ofNat 32 (leVal (v.1.take 4))) (getWords 2 (v.1.drop 4)) (first.toNat + i) ∧ p.key = getWords 8 key ∧ p.counter = first

theorem tls_mk (key nonce : List Byte) (hn : nonce.length = 12) (c : Nat) :
    Spec.chacha20Block key nonce c = Spec.core 20 (mk false (Spec.keyPart key) (BitVec.ofNat 32 (leVal (nonce.take 4))) (getWords 2 (nonce.drop 4)) c) := by
  rw [Spec.chacha20Block, words_counter4, mk, ← getWords_eq 3 nonce (by omega), List.append_assoc]; rfl

theorem tls_resync (p : Pol) (key : List Byte) (hk : key.length = 32) (ws : List Nat) (w : Iv 12) (h : p.key = getWords 8 key) : tlsRep key p.counter w 0 ((tls ws).resync p w) := by
  refine ⟨?_, h, rfl⟩
  show consts false ++ p.key ++ [p.counter] ++ getWords 3 w.1 = _
  rw [h, ← keyPart_long key hk, mk, Nat.add_zero, BitVec.ofNat_toNat, BitVec.setWidth_eq, List.append_assoc]
  rfl

theorem tls_ok (ws : List Nat) (key : List Byte) (hk : key.length = 32) (first : W) (lim : Nat) (hl : lim = 0 ∨ first = 0) :
    (tls ws).Ok (fun v => Spec.ofBlocks fun i => Spec.chacha20Block key v.1 (first.toNat + i)) (tlsRep key first) lim where
  bpi_pos := show 0 < 64 by decide
  iters_pos := show 0 < 1 by decide
  write := by
    intro v i p n ⟨h1, h2⟩ _
    simp only [tls]
    rw [h1, operate_blocks ws 20 rfl false _ _ _ (keyPart_length key (.inr hk)) (getWords_length 2 _) first.toNat (fun i => Spec.chacha20Block key v.1 (first.toNat + i))
      (fun k => tls_mk key v.1 v.2 _)]
    exact ⟨⟨rfl, h2⟩, rfl⟩
  operate := by
    intro v i p n x _ ⟨h1, h2⟩ _ _
    simp only [tls]
    rw [h1, operate_blocks ws 20 rfl false _ _ _ (keyPart_length key (.inr hk)) (getWords_length 2 _) first.toNat (fun i => Spec.chacha20Block key v.1 (first.toNat + i))
      (fun k => tls_mk key v.1 v.2 _)]
    exact ⟨⟨rfl, h2⟩, rfl⟩
  seek := by
    intro v i p j ⟨h1, h2⟩ hj
    refine ⟨_, rfl, ?_, h2⟩
    simp only [h1]
    have : first = 0 := hl.resolve_left (by omega)
    rw [mk_set _ _ _ _ (keyPart_length key (.inr hk)), mk, this]
    show _ = Spec.keyPart key ++ BitVec.ofNat 32 (0 + j) :: _
    rw [Nat.zero_add]; rfl
  resync := by
    intro v i p w ⟨_, h2, h3⟩
    rw [← h3]
    exact tls_resync p key hk ws w h2

/-! ## XChaCha20 -/

/-- Bernstein's ChaCha with the derived key. -/
def xBlock (r : Nat) (key nonce : List Byte) (c : Nat) : List Byte := Spec.bernsteinBlock r (Spec.hchacha20 key (nonce.take 16)) (nonce.drop 16) c

theorem hchacha20_length (key nonce : List Byte) (hk : key.length = 32) (hn : nonce.length = 16) : (Spec.hchacha20 key nonce).length = 32 := by
  simp [Spec.hchacha20, serialize_length, rounds_length, keyPart_length key (.inr hk), words_length nonce 4 (by omega)]

def xRep (r : Nat) (key : List Byte) (first : W) (v : Iv 24) (i : Nat) (p : Pol) : Prop :=
  p.state = mk true (Spec.keyPart (Spec.hchacha20 key (v.1.take 16))) 0 (getWords 2 (v.1.drop 16)) (first.toNat + i) ∧ p.key = getWords 8 key ∧ p.counter = first ∧ p.rounds = r

theorem x_mk (r : Nat) (key nonce : List Byte) (hn : nonce.length = 24) (c : Nat) :
    xBlock r key nonce c = Spec.core r (mk true (Spec.keyPart (Spec.hchacha20 key (nonce.take 16))) 0 (getWords 2 (nonce.drop 16)) c) := by
  rw [xBlock, bernstein_mk _ _ _ (by simp [hn])]

theorem x_resync (p : Pol) (key : List Byte) (hk : key.length = 32) (ws : List Nat) (w : Iv 24) (h : p.key = getWords 8 key) : xRep p.rounds key p.counter w 0 ((xchacha ws).resync p w) := by
  refine ⟨?_, h, rfl, rfl⟩
  have hw := w.2
  have hl : (w.1.take 16).length = 16 := by rw [List.length_take, hw]; rfl
  have hs : (Spec.keyPart key ++ Spec.words (w.1.take 16)).length = 16 := by
    rw [List.length_append, keyPart_length key (.inr hk), words_length _ 4 hl]
  have hh : Spec.keyPart (Spec.hchacha20 key (w.1.take 16)) = consts false ++ hchacha (consts false ++ p.key ++ getWords 4 w.1) := by
    rw [keyPart_long _ (hchacha20_length key _ hk hl), getWords_eq 8 _ (hchacha20_length key _ hk hl)]
    have e : roundLoop 20 (Spec.keyPart key ++ Spec.words (w.1.take 16)) = Spec.rounds 20 (Spec.keyPart key ++ Spec.words (w.1.take 16)) := roundLoop_eq 10 _ hs
    rw [Spec.hchacha20, words_serialize, hchacha, h, ← keyPart_long key hk, ← getWords_take 4 16 w.1 (by omega), getWords_eq 4 _ hl]
    rw [e]
  show consts false ++ hchacha (consts false ++ p.key ++ getWords 4 w.1) ++ [p.counter, 0] ++ getWords 1 (w.1.drop 16) ++ getWords 1 (w.1.drop 20) = _
  rw [hh, mk, Nat.add_zero, BitVec.ofNat_toNat, BitVec.setWidth_eq, if_pos rfl, Nat.div_eq_of_lt p.counter.isLt,
    show getWords 2 (w.1.drop 16) = getWords 1 (w.1.drop 16) ++ getWords 1 ((w.1.drop 16).drop 4) from getWords_add 1 1 _, List.drop_drop]
  simp only [List.append_assoc]
  rfl

theorem x_ok (ws : List Nat) (r : Nat) (hr : r % 2 = 0) (key : List Byte) (hk : key.length = 32) (first : W) :
    (xchacha ws).Ok (fun v => Spec.ofBlocks fun i => xBlock r key v.1 (first.toNat + i)) (xRep r key first) 0 where
  bpi_pos := show 0 < 64 by decide
  iters_pos := show 0 < 1 by decide
  write := by
    intro v i p n ⟨h1, h2, h3, h4⟩ _
    have hl : (v.1.take 16).length = 16 := by rw [List.length_take, v.2]; rfl
    simp only [xchacha]
    rw [h1, h4, operate_blocks ws r hr true _ _ _ (keyPart_length _ (.inr (hchacha20_length key _ hk hl))) (getWords_length 2 _) first.toNat (fun i => xBlock r key v.1 (first.toNat + i))
      (fun k => x_mk r key v.1 v.2 _)]
    exact ⟨⟨rfl, h2, h3, rfl⟩, rfl⟩
  operate := by
    intro v i p n x _ ⟨h1, h2, h3, h4⟩ _ _
    have hl : (v.1.take 16).length = 16 := by rw [List.length_take, v.2]; rfl
    simp only [xchacha]
    rw [h1, h4, operate_blocks ws r hr true _ _ _ (keyPart_length _ (.inr (hchacha20_length key _ hk hl))) (getWords_length 2 _) first.toNat (fun i => xBlock r key v.1 (first.toNat + i))
      (fun k => x_mk r key v.1 v.2 _)]
    exact ⟨⟨rfl, h2, h3, rfl⟩, rfl⟩
  seek := by intro v i p j _ h; omega
  resync := by
    intro v i p w ⟨_, h2, h3, h4⟩
    rw [← h3, ← h4]
    exact x_resync p key hk ws w h2

/-- Below block 2^32 XChaCha20 is that of the draft. -/
theorem xBlock_eq (key nonce : List Byte) (c : Nat) (hc : c < 4294967296) : xBlock 20 key nonce c = Spec.xchacha20Block key nonce c := by
  unfold xBlock Spec.xchacha20Block Spec.bernsteinBlock Spec.chacha20Block
  rw [words_counter8, words_counter4, words_append _ _ rfl, Nat.div_eq_of_lt hc, show Spec.words [0, 0, 0, 0] = [0] from by decide +kernel]
  simp only [List.append_assoc]
  rfl

end Verif.Chacha
