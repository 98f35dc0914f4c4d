import Verif.Gcm.Ctr
import Verif.Auth.Proofs
import Verif.Ghash.Props

namespace Verif.Gcm

open Verif.Modes Verif.Auth
open Verif.Ghash (mulTable reductionTable authenticateBlocks ghash_exact ghash_append beVal_lt128 mul_lt)

/-- GHASH with the subkey of `k`, from the intermediate value `a`. -/
def G (k : Cipher) (a : Nat) (d : List Byte) : Nat := Ghash.Spec.ghash (beVal (Spec.subkey k.1)) a (chunks 16 d)

theorem subkey_length (k : Cipher) : (Spec.subkey k.1).length = 16 := k.2 _ (by simp)

theorem G_lt (k : Cipher) (a : Nat) (ha : a < 2 ^ 128) (d : List Byte) : G k a d < 2 ^ 128 := by
  unfold G
  generalize chunks 16 d = l
  induction l generalizing a with
  | nil => exact ha
  | cons x l ih => exact ih _ (mul_lt _ (beVal_lt128 _ (subkey_length k)) _)

theorem G_append (k : Cipher) (a : Nat) (d e : List Byte) (hd : d.length % 16 = 0) : G k (G k a d) e = G k a (d ++ e) := by
  unfold G
  rw [chunks_append 16 (by omega) d e hd, ghash_append]

theorem G_nil (k : Cipher) (a : Nat) : G k a [] = a := rfl

/-- The last block of a string is padded. -/
def fin (k : Cipher) (a : Nat) (p : List Byte) : Nat := if p.length > 0 then G k a (p ++ List.replicate (16 - p.length) 0) else a

theorem fin_lt (k : Cipher) (a : Nat) (ha : a < 2 ^ 128) (p : List Byte) : fin k a p < 2 ^ 128 := by
  unfold fin; split
  · exact G_lt k a ha _
  · exact ha

theorem fin_pad (k : Cipher) (a : Nat) (X : List Byte) : fin k (G k a (whole 16 X)) (rest 16 X) = G k a (Spec.pad X) := by
  unfold fin Spec.pad
  have hr := rest_length 16 X
  by_cases h : (rest 16 X).length > 0
  · rw [if_pos h, G_append _ _ _ _ (whole_mod 16 X), ← List.append_assoc, whole_rest, hr]
    congr 3; omega
  · rw [if_neg h]
    have h0 : X.length % 16 = 0 := by omega
    have hn : rest 16 X = [] := List.eq_nil_of_length_eq_zero (by omega)
    have := whole_rest 16 X
    rw [hn, List.append_nil] at this
    rw [this, h0]; simp

theorem pad_mod (X : List Byte) : (Spec.pad X).length % 16 = 0 := by
  unfold Spec.pad; rw [List.length_append, List.length_replicate]; omega

theorem zeros_beBytes : ∀ n, beBytes n 0 = List.replicate n 0 := by
  intro n
  unfold beBytes
  have : ∀ n, leBytes n 0 = List.replicate n 0 := by
    intro n
    induction n with
    | zero => rfl
    | succ n ih => simp only [leBytes, Nat.zero_div, ih, List.replicate_succ]; rfl
  rw [this, List.reverse_replicate]

theorem J0_length (k : Cipher) (iv : List Byte) : (Spec.J0 k.1 iv).length = 16 := by
  unfold Spec.J0
  split
  · rename_i h; simp [h]
  · simp [Spec.ghash]

section
variable (order : ByteOrder) (large : Bool) (par : Nat)

/-- The key of the object. -/
def Key (k : Cipher) (o : Obj) : Prop := o.E = k.1 ∧ (∃ t, o.table = mulTable large (Spec.subkey k.1) t) ∧ (∃ t, o.red = reductionTable t)

theorem authBlocks_spec (k : Cipher) (o : Obj) (a : Nat) (d : List Byte) (hk : Key large k o) (hh : o.hash = beBytes 16 a) (ha : a < 2 ^ 128) (hd : 16 ≤ d.length) :
    o.authBlocks order large d = .ok ({ o with hash := beBytes 16 (G k a (whole 16 d)) }, d.length % 16) := by
  obtain ⟨h1, ⟨t, h2⟩, t', h3⟩ := hk
  unfold Obj.authBlocks
  rw [h2, h3, ghash_exact order large _ o.hash d t t' (subkey_length k) (by rw [hh]; simp) hd, hh, beVal_beBytes,
    Nat.mod_eq_of_lt (by rw [show (256 : Nat) ^ 16 = 2 ^ 128 by decide]; exact ha)]
  rfl

/-- One block. -/
theorem authBlock_spec (k : Cipher) (o : Obj) (a : Nat) (d : List Byte) (hk : Key large k o) (hh : o.hash = beBytes 16 a) (ha : a < 2 ^ 128) (hd : d.length = 16) :
    o.authBlocks order large d = .ok ({ o with hash := beBytes 16 (G k a d) }, 0) := by
  rw [authBlocks_spec order large k o a d hk hh ha (by omega), hd]
  rw [show whole 16 d = d by unfold whole; rw [hd]; exact List.take_of_length_le (by omega)]

theorem lastHeader_spec (k : Cipher) (o : Obj) (a : Nat) (p : List Byte) (hk : Key large k o) (hh : o.hash = beBytes 16 a) (ha : a < 2 ^ 128) (hp : p.length < 16) :
    o.lastHeader order large p = .ok { o with hash := beBytes 16 (fin k a p) } := by
  unfold Obj.lastHeader fin
  by_cases h : p.length > 0
  · rw [if_pos h, if_pos h, authBlock_spec order large k o a _ hk hh ha (by simp; omega)]
    rfl
  · rw [if_neg h, if_neg h, ← hh]

theorem lastConfidential_spec (k : Cipher) (o : Obj) (a : Nat) (p : List Byte) (h m : Nat) (hk : Key large k o) (hh : o.hash = beBytes 16 a) (ha : a < 2 ^ 128) (hp : p.length < 16) :
    o.lastConfidential order large p h m = .ok { o with hash := beBytes 16 (G k (fin k a p) (beBytes 8 (h * 8) ++ beBytes 8 (m * 8))) } := by
  unfold Obj.lastConfidential
  rw [lastHeader_spec order large k o a p hk hh ha hp]
  simp only [bind, Except.bind]
  rw [authBlock_spec order large k { o with hash := beBytes 16 (fin k a p) } (fin k a p) _ hk rfl (fin_lt k a ha p) (by simp)]

theorem counter0_spec (k : Cipher) (o : Obj) (iv : List Byte) (hk : Key large k o) : o.counter0 order large iv = .ok { o with hash := Spec.J0 k.1 iv } := by
  unfold Obj.counter0 Spec.J0
  by_cases h12 : iv.length = 12
  · rw [if_pos h12, if_pos h12]
    simp only [List.append_assoc]; rfl
  rw [if_neg h12, if_neg h12]
  have hz : (0 : Nat) < 2 ^ 128 := by decide
  -- whole blocks
  have h1 : (if iv.length ≥ 16 then Obj.authBlocks order large { o with hash := List.replicate 16 0 } iv else .ok ({ o with hash := List.replicate 16 0 }, iv.length)) =
      .ok ({ o with hash := beBytes 16 (G k 0 (whole 16 iv)) }, iv.length % 16) := by
    by_cases h : iv.length ≥ 16
    · rw [if_pos h, authBlocks_spec order large k { o with hash := List.replicate 16 0 } 0 iv hk (zeros_beBytes 16).symm hz h]
    · rw [if_neg h, Nat.mod_eq_of_lt (by omega)]
      have : whole 16 iv = [] := by unfold whole; rw [Nat.div_eq_of_lt (by omega)]; rfl
      rw [this, G_nil, zeros_beBytes]
  simp only [bind, Except.bind]
  rw [h1]
  simp only []
  have hleft : iv.drop (iv.length - iv.length % 16) = rest 16 iv := by
    unfold rest; congr 1; have := Nat.div_add_mod iv.length 16; omega
  have hrl : iv.length % 16 = (rest 16 iv).length := (rest_length 16 iv).symm
  have hGlt := G_lt k 0 hz (whole 16 iv)
  -- the partial block
  have h2 := lastHeader_spec order large k { o with hash := beBytes 16 (G k 0 (whole 16 iv)) } (G k 0 (whole 16 iv)) (rest 16 iv) hk rfl hGlt (rest_lt 16 (by omega) iv)
  rw [Obj.lastHeader] at h2
  simp only [bind, Except.bind] at h2
  rw [hleft, hrl, h2]
  simp only []
  rw [authBlock_spec order large k { o with hash := beBytes 16 (fin k (G k 0 (whole 16 iv)) (rest 16 iv)) } (fin k (G k 0 (whole 16 iv)) (rest 16 iv)) _ hk rfl (fin_lt k _ hGlt _) (by simp)]
  simp only []
  rw [fin_pad, G_append _ _ _ _ (pad_mod iv), zeros_beBytes, ← List.append_assoc, Nat.mul_comm iv.length 8]
  rfl

/-- Where the keystream for the text begins: the counter is the first one plus 1, as a number of 16 bytes. -/
def textStart (k : Cipher) (iv : List Byte) : Start := ⟨⟨Spec.J0 k.1 iv, beBytes 16 (beVal (Spec.J0 k.1 iv) + 1)⟩, J0_length k iv, by simp⟩

def tagStart (k : Cipher) (iv : List Byte) : Start := ⟨⟨Spec.J0 k.1 iv, Spec.J0 k.1 iv⟩, J0_length k iv, J0_length k iv⟩

/-- The object has authenticated `a` and is at byte `q` of the keystream. -/
def GRep (k : Cipher) (iv : List Byte) (a q : Nat) (o : Obj) : Prop :=
  Key large k o ∧ o.hash = beBytes 16 a ∧ a < 2 ^ 128 ∧ Stream.Inv (gctrPolicy k.1 par) (fun v => keystream k.1 v.1.counter) Rep (textStart k iv) q o.ctr

/-- GCM as the code computes it. -/
def alg (forward : Bool) : Auth.Spec.Alg Cipher where
  maxHeader := 2 ^ 61 - 1
  maxMessage := (2 ^ 39 - 256) / 8
  maxFooter := 0
  digestSize := 16
  ivOk := fun n => decide (1 ≤ n ∧ n < 2 ^ 31)
  authInput := !forward
  keystream := fun k iv => keystream k.1 (beBytes 16 (beVal (Spec.J0 k.1 iv) + 1))
  tag := fun k iv H C _ n => Spec.tag k.1 iv H C n

def impl : Impl Cipher Nat where
  init := fun _ _ => 0
  absorb := G
  endHeader := fun k a p _ => fin k a p
  endMessage := fun k a p h m => G k (fin k a p) (beBytes 8 (h * 8) ++ beBytes 8 (m * 8))
  mac := fun k iv a _ n => xorBytes ((beBytes 16 a).take n) ((k.1 (Spec.J0 k.1 iv)).take n)

theorem stream_start (hp : 0 < par) (k : Cipher) (iv : List Byte) (s : Stream.State Ctr) (junk : Mem) :
    Stream.Inv (gctrPolicy k.1 par) (fun v => keystream k.1 v.1.counter) Rep (tagStart k iv) 0 (Stream.resynchronize (gctrPolicy k.1 par) s (tagStart k iv) junk) := by
  have ok := gctr_ok k.1 k.2 par hp
  -- any policy state will do
  have := ok.resync (tagStart k iv) 0 ⟨(tagStart k iv).1.register, counterBlock (tagStart k iv).1.counter 0⟩ (tagStart k iv) ⟨rfl, rfl⟩
  refine ⟨⟨0, this, by simp [Stream.resynchronize]⟩, ?_, ?_, by simp [Stream.resynchronize], by simp [Stream.resynchronize]⟩
  · simp [Stream.resynchronize, Stream.bufferByteSize]
  · simpa [Stream.resynchronize, Stream.bufferByteSize] using Nat.mul_pos ok.bpi_pos ok.iters_pos

theorem keystream_first (E : List Byte → List Byte) (hE : ∀ b, b.length = 16 → (E b).length = 16) (c : List Byte) (hc : c.length = 16) (n : Nat) (hn : n ≤ 16) :
    load (keystream E c) 0 n = (E c).take n := by
  have h := load_byBlocks 16 (by omega) (fun k => E (counterBlock c k)) (fun k => hE _ (counterBlock_length c hc k)) 0 1
  have e : counterBlock c 0 = c := by
    have := beBytes_beVal (c.drop 12)
    rw [List.length_drop, hc] at this
    rw [counterBlock, Nat.add_zero, this, List.take_append_drop]
  have h' : load (keystream E c) 0 16 = E c := by
    have : blocksOf 1 (fun k => E (counterBlock c (0 + k))) = E c := by
      simp [blocksOf, e]
    rw [this] at h
    exact h
  rw [← h', load_take _ _ _ _ hn]

theorem tag_eq (k : Cipher) (iv H C F : List Byte) (n : Nat) (hF : F.length ≤ 0) (hn : n ≤ 16) :
    Spec.tag k.1 iv H C n = impl.tag 16 k iv H C F n := by
  have hF' : F = [] := List.eq_nil_of_length_eq_zero (by omega)
  subst hF'
  unfold Impl.tag Impl.message Impl.header
  simp only [impl, whole_nil, G_nil]
  rw [fin_pad, fin_pad]
  have hpp : (Spec.pad H ++ Spec.pad C).length % 16 = 0 := by rw [List.length_append, Nat.add_mod, pad_mod, pad_mod]
  rw [G_append _ _ _ _ (pad_mod H), G_append _ _ _ _ hpp, ← List.append_assoc, Nat.mul_comm H.length, Nat.mul_comm C.length]
  unfold Spec.tag Spec.gctr
  show List.take n (Spec.gctrBlocks k.1 (Spec.J0 k.1 iv) (chunks 16 (Spec.S k.1 H C))) = xorBytes (List.take n (Spec.S k.1 H C)) _
  have hS : (Spec.S k.1 H C).length = 16 := by simp [Spec.S, Spec.ghash]
  generalize Spec.S k.1 H C = S at hS ⊢
  have hne : S ≠ [] := by intro h; rw [h] at hS; cases hS
  have hch : chunks 16 S = [S] := by
    rw [chunks_of_ne_nil 16 (by omega) S hne, List.take_of_length_le (by omega), List.drop_eq_nil_of_le (by omega), chunks_nil]
  rw [hch]
  simp only [Spec.gctrBlocks, List.append_nil]
  rw [xorBytes_take, hS, List.take_take, Nat.min_eq_left hn]

theorem gcm_ok (hp : 0 < par) (forward : Bool) : (gcm order large par forward).Ok (alg forward) impl (Key large) (GRep large par) where
  pos := show 0 < 16 by decide
  maxHeader := rfl
  maxMessage := rfl
  maxFooter := rfl
  digestSize := rfl
  ivOk := rfl
  authInput := by cases forward <;> rfl
  small := show (2 ^ 39 - 256) / 8 < 2 ^ 64 by decide
  tag := by intro k iv H C F n _ _ _ hF hn; exact tag_eq k iv H C F n hF hn
  absorb_nil := by intro k a; rfl
  absorb_append := by intro k a d e hd; exact G_append k a d e hd
  rep_key := by intro k iv a q o h; exact h.1
  setKey := by intro o k; exact ⟨rfl, ⟨_, rfl⟩, _, rfl⟩
  resync := by
    intro k o iv hk _
    show ∃ o', Obj.resync order large par o iv = .ok o' ∧ _
    unfold Obj.resync
    rw [counter0_spec order large k o iv hk]
    simp only [bind, Except.bind, dif_pos (J0_length k iv), hk.1]
    obtain ⟨s', e, hi⟩ := seek_spec k.1 par (tagStart k iv) 0 _ 1 (stream_start par hp k iv o.ctr o.junk)
    rw [Nat.mul_one] at e
    have e' : Stream.seek (gctrPolicy k.1 par) (Stream.resynchronize (gctrPolicy k.1 par) o.ctr ⟨⟨Spec.J0 k.1 iv, Spec.J0 k.1 iv⟩, J0_length k iv, J0_length k iv⟩ o.junk) 16 = .ok s' := e
    rw [e']
    refine ⟨_, rfl, ⟨rfl, hk.2⟩, (zeros_beBytes 16).symm, by show (0 : Nat) < 2 ^ 128; decide, hi (textStart k iv) rfl rfl⟩
  authBlocks := by
    intro k iv a q o d hr hd
    obtain ⟨h1, h2, h3, h4⟩ := hr
    exact ⟨_, authBlocks_spec order large k o a d h1 h2 h3 hd, h1, rfl, G_lt k a h3 _, h4⟩
  lastHeader := by
    intro k iv a q o p h hr hpl
    obtain ⟨h1, h2, h3, h4⟩ := hr
    exact ⟨_, lastHeader_spec order large k o a p h1 h2 h3 hpl, h1, rfl, fin_lt k a h3 _, h4⟩
  lastConfidential := by
    intro k iv a q o p h m hr hpl
    obtain ⟨h1, h2, h3, h4⟩ := hr
    exact ⟨_, lastConfidential_spec order large k o a p h m h1 h2 h3 hpl, h1, rfl, G_lt k _ (fin_lt k a h3 _) _, h4⟩
  lastFooter := by
    intro k iv a q o p n hr hpl hn
    obtain ⟨h1, h2, h3, h4⟩ := hr
    show ∃ o', Obj.lastFooter par o n = .ok (o', _) ∧ _
    obtain ⟨s', e, hi⟩ := seek_spec k.1 par _ q o.ctr 0 h4
    have ht := hi (tagStart k iv) rfl (by
      have := beBytes_beVal (Spec.J0 k.1 iv)
      rw [J0_length] at this
      rw [Nat.add_zero]; exact this.symm)
    obtain ⟨s2, e2, _⟩ := Stream.process_spec (gctr_ok k.1 k.2 par hp) _ 0 s' (o.hash.take n) ht
    unfold Obj.lastFooter
    rw [Nat.mul_zero] at e
    rw [h1.1, e]
    simp only [bind, Except.bind]
    rw [e2]
    refine ⟨{ o with E := k.1, ctr := s2 }, ?_, ⟨rfl, h1.2⟩⟩
    have hl : (o.hash.take n).length = n := by rw [h2, List.length_take, beBytes_length]; exact Nat.min_eq_left hn
    simp only [impl]
    rw [hl, ← h2]
    have hks := keystream_first k.1 k.2 (Spec.J0 k.1 iv) (J0_length k iv) n hn
    simp only [tagStart]
    rw [hks]
  process := by
    intro k iv a q o x hr
    obtain ⟨h1, h2, h3, h4⟩ := hr
    obtain ⟨s2, e2, hi2⟩ := Stream.process_spec (gctr_ok k.1 k.2 par hp) _ q o.ctr x h4
    show ∃ o', Obj.process par o x = .ok (o', _) ∧ _
    unfold Obj.process
    rw [h1.1, e2]
    exact ⟨_, rfl, ⟨rfl, h1.2⟩, h2, h3, hi2⟩

end

end Verif.Gcm
