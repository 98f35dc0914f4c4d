import Verif.Ccm.Model
import Verif.Ccm.Spec
import Verif.Cmac.Proofs
import Verif.Auth.Absorb
import Verif.Auth.Props
import Verif.Modes.CtrProofs

/-! # CCM: proofs -/
namespace Verif.Ccm

open Verif.Auth (whole rest whole_rest whole_mod rest_lt whole_length rest_length split_unique Op Out pieces)
open Verif.Cmac.Spec (chain)
open Verif.Modes (Ctr ctrPolicy ctrKeystream)

/-! ## Blocks -/

theorem padded_mod (x : List Byte) : (Spec.padded x).length % 16 = 0 := by
  unfold Spec.padded; rw [List.length_append, List.length_replicate]; omega

theorem padded_split (w p : List Byte) (hw : w.length % 16 = 0) (hp : p.length < 16) :
    Spec.padded (w ++ p) = if p.length > 0 then w ++ (p ++ List.replicate (16 - p.length) 0) else w := by
  unfold Spec.padded
  rw [List.length_append]
  split
  · rw [show (16 - (w.length + p.length) % 16) % 16 = 16 - p.length by omega, List.append_assoc]
  · have : p = [] := List.eq_nil_of_length_eq_zero (by omega)
    subst this
    rw [show (16 - (w.length + [].length) % 16) % 16 = 0 by rw [List.length_nil]; omega]; simp

theorem chain_append (E : List Byte → List Byte) (c w v : List Byte) (hw : w.length % 16 = 0) : chain E c (chunks 16 (w ++ v)) = chain E (chain E c (chunks 16 w)) (chunks 16 v) := by
  rw [chunks_append 16 (by decide) w v hw, chain, chain, chain, List.foldl_append]

theorem xor_pad (c p : List Byte) (hc : c.length = 16) (hp : p.length < 16) : xorBytes c (p ++ List.replicate (16 - p.length) 0) = xorBytes (c.take p.length) p ++ c.drop p.length := by
  have h : xorBytes (c.take p.length ++ c.drop p.length) (p ++ List.replicate (16 - p.length) 0) = _ := xorBytes_append _ _ _ _ (by rw [List.length_take]; omega)
  rw [List.take_append_drop] at h
  rw [h]
  congr 1
  apply List.ext_getElem
  · simp; omega
  · intro i h1 h2
    simp [xorBytes]

theorem xor_zeros (n : Nat) (x : List Byte) (hx : x.length = n) : xorBytes (List.replicate n 0) x = x := by
  apply List.ext_getElem
  · simp; omega
  · intro i h1 h2
    simp [xorBytes]

/-! ## Counter blocks -/

theorem counter_block (f : Byte) (iv : List Byte) (L i : Nat) (hl : iv.length + L = 15) (hi : i < 256 ^ L) :
    beBytes 16 (beVal (f :: (iv ++ List.replicate L 0)) + i) = f :: (iv ++ beBytes L i) := by
  have hz : beVal (List.replicate L (0 : Byte)) = 0 := by
    clear hl hi
    induction L with
    | zero => rfl
    | succ n ih => rw [List.replicate_succ, beVal_cons, ih]; simp
  have : beVal (f :: (iv ++ List.replicate L 0)) + i = beVal (f :: (iv ++ beBytes L i)) := by
    rw [beVal_cons, beVal_cons, beVal_append, beVal_append, hz, beVal_beBytes, Nat.mod_eq_of_lt hi]
    simp only [List.length_append, List.length_replicate, beBytes_length]
    omega
  rw [this]
  have h16 : (f :: (iv ++ beBytes L i)).length = 16 := by simp; omega
  have := beBytes_beVal (f :: (iv ++ beBytes L i))
  rwa [h16] at this

/-- The key stream of the text. -/
def ks (E : List Byte → List Byte) (iv : List Byte) : Mem := fun q => (Spec.S E iv (1 + q / 16)).getD (q % 16) 0

/-- `m_buffer` after `Resync`. -/
def a0 (iv : List Byte) : List Byte := BitVec.ofNat 8 (Spec.L iv - 1) :: (iv ++ List.replicate (15 - iv.length) 0)

theorem a0_length (iv : List Byte) (h : iv.length ≤ 13) : (a0 iv).length = 16 := by simp [a0]; omega

theorem keystream_text (E : List Byte → List Byte) (iv : List Byte) (h1 : 7 ≤ iv.length) (h2 : iv.length ≤ 13) (q n : Nat) (hq : q + n < 256 ^ Spec.L iv) :
    load (ctrKeystream E 16 (a0 iv)) (16 + q) n = load (ks E iv) q n := by
  apply List.ext_getElem
  · simp
  · intro i hi1 hi2
    simp only [load_length] at hi1
    have hp : 256 ≤ 256 ^ Spec.L iv := by
      have : Spec.L iv = (Spec.L iv - 1) + 1 := by unfold Spec.L; omega
      rw [this, Nat.pow_succ]
      exact Nat.le_mul_of_pos_left _ (Nat.pow_pos (by decide))
    simp only [load, List.getElem_map, List.getElem_range, ctrKeystream, ks, Spec.S]
    rw [a0, counter_block _ iv (15 - iv.length) _ (by omega) (by unfold Spec.L at hq hp; omega), show (16 + q + i) / 16 = 1 + (q + i) / 16 by omega, show (16 + q + i) % 16 = (q + i) % 16 by omega]
    rfl

theorem keystream_zero (k : Key) (iv : List Byte) (h1 : 7 ≤ iv.length) (h2 : iv.length ≤ 13) (n : Nat) (hn : n ≤ 16) :
    load (ctrKeystream k.E 16 (a0 iv)) 0 n = (Spec.S k.E iv 0).take n := by
  have hl : (Spec.S k.E iv 0).length = 16 := by unfold Spec.S; exact k.length _ (by simp [Spec.L]; omega)
  apply List.ext_getElem
  · simp [hl]; omega
  · intro i hi1 hi2
    simp only [load_length] at hi1
    simp only [load, List.getElem_map, List.getElem_range, ctrKeystream, List.getElem_take]
    rw [a0, counter_block _ iv (15 - iv.length) _ (by omega) (by rw [show (0 + i) / 16 = 0 by omega]; exact Nat.pow_pos (by decide)), show (0 + i) / 16 = 0 by omega, show (0 + i) % 16 = i by omega]
    rw [List.getD_eq_getElem?_getD]
    show (Spec.S k.E iv 0)[i]?.getD 0 = _
    rw [List.getElem?_eq_getElem (by omega)]
    rfl

/-! ## The object -/

section
variable (par : Nat) (fwd : Bool)

def IvRep (v : Modes.IV 16) (i : Nat) (p : Ctr) : Prop := p.register = v.bytes ∧ p.counter = beBytes 16 (beVal v.bytes + i)

/-- The stream is at byte `q`. -/
def CtrAt (k : Key) (v : List Byte) (q : Nat) (c : Stream.State Ctr) : Prop :=
  ∃ h : v.length = 16, Stream.Inv (ctrPolicy k.E 16 par) (fun v => ctrKeystream k.E 16 v.bytes) IvRep (some ⟨v, h⟩) q c

/-- The object has the key. -/
def Keyed (k : Key) (o : Obj) : Prop := o.E = k.E ∧ o.dig = k.M ∧ o.cbc.length = 16

/-- In a message with nonce `iv` and the lengths `h`, `m`: since `c0`, the whole blocks `D` have been chained; the stream is at byte `q`. -/
def R (k : Key) (iv : List Byte) (h m : Nat) (c0 : List Byte) (q : Nat) (D : List Byte) (o : Obj) : Prop :=
  o.E = k.E ∧ o.dig = k.M ∧ o.L = Spec.L iv ∧ o.aad = h ∧ o.mlen = m ∧ c0.length = 16 ∧ o.cbc = chain k.E c0 (chunks 16 D) ∧ D.length % 16 = 0 ∧ CtrAt par k (a0 iv) q o.ctr

variable {par fwd}

theorem R.cbcLength {k : Key} {iv : List Byte} {h m : Nat} {c0 : List Byte} {q : Nat} {D : List Byte} {o : Obj} (r : R par k iv h m c0 q D o) : o.cbc.length = 16 := by
  obtain ⟨_, _, _, _, _, h6, h7, h8, _⟩ := r
  rw [h7]; exact Cmac.chain_length k.length _ _ h6 (chunks_block_length 16 (by decide) _ h8)

theorem R.keyed {k : Key} {iv : List Byte} {h m : Nat} {c0 : List Byte} {q : Nat} {D : List Byte} {o : Obj} (r : R par k iv h m c0 q D o) : Keyed k o := ⟨r.1, r.2.1, r.cbcLength⟩

theorem authBlocks_rep (k : Key) (iv : List Byte) (h m : Nat) (c0 : List Byte) (q L dig : Nat) (D : List Byte) (o : Obj) (d : List Byte) (r : R par k iv h m c0 q D o) :
    ∃ o', (hooks par L dig fwd).authBlocks o d = .ok (o', d.length % 16) ∧ R par k iv h m c0 q (D ++ whole 16 d) o' := by
  have hl := r.cbcLength
  obtain ⟨h1, h2, h3, h4, h5, h6, h7, h8, h9⟩ := r
  have e := Cmac.chainBlocks_spec (b := 16) (by decide) k.length o.cbc d d.length hl (Nat.le_refl _)
  refine ⟨{ o with cbc := chain k.E o.cbc (chunks 16 (d.take (d.length / 16 * 16))) }, ?_, h1, h2, h3, h4, h5, h6, ?_, ?_, h9⟩
  · show o.authBlocks d = _
    unfold Obj.authBlocks
    rw [h1, e]; rfl
  · show chain k.E o.cbc _ = _
    rw [h7, chain_append k.E c0 D _ h8, whole, Nat.mul_comm]
  · rw [List.length_append, Nat.add_mod, h8, whole_mod]

theorem authData_at (k : Key) (iv : List Byte) (h m : Nat) (c0 : List Byte) (q L dig : Nat) (s : Auth.State Obj) (D x : List Byte) (hp : s.pending = rest 16 D) (r : R par k iv h m c0 q (whole 16 D) s.o) :
    ∃ o', Auth.authData (hooks par L dig fwd) s x = .ok { s with o := o', pending := rest 16 (D ++ x) } ∧ R par k iv h m c0 q (whole 16 (D ++ x)) o' :=
  Auth.authData_rep (Hk := hooks par L dig fwd) (R := R par k iv h m c0 q) (show 0 < 16 by decide) (fun D o d hr _ _ => authBlocks_rep k iv h m c0 q L dig D o d hr) s D x hp r

theorem last_rep (k : Key) (iv : List Byte) (h m : Nat) (c0 : List Byte) (q : Nat) (o : Obj) (D : List Byte) (r : R par k iv h m c0 q (whole 16 D) o) :
    R par k iv h m (chain k.E c0 (chunks 16 (Spec.padded D))) q [] (o.last (rest 16 D)) := by
  have hl := r.cbcLength
  obtain ⟨h1, h2, h3, h4, h5, h6, h7, h8, h9⟩ := r
  have hp := padded_split (whole 16 D) (rest 16 D) (whole_mod _ _) (rest_lt _ (by decide) _)
  rw [whole_rest] at hp
  have hlen : (chain k.E c0 (chunks 16 (Spec.padded D))).length = 16 := Cmac.chain_length k.length _ _ h6 (chunks_block_length 16 (by decide) _ (padded_mod _))
  unfold Obj.last
  split
  · rename_i hz
    refine ⟨h1, h2, h3, h4, h5, hlen, ?_, rfl, h9⟩
    show o.E _ = chain k.E (chain k.E c0 (chunks 16 (Spec.padded D))) []
    rw [hp, if_pos hz, chain_append k.E c0 _ _ h8, ← h7, h1, ← xor_pad _ _ hl (rest_lt _ (by decide) _)]
    have hr := rest_lt 16 (by decide) D
    rw [Cmac.chain_one (b := 16) (by decide) _ _ (by simp; omega)]
    rfl
  · rename_i hz
    refine ⟨h1, h2, h3, h4, h5, hlen, ?_, rfl, h9⟩
    show o.cbc = _
    rw [h7, hp, if_neg hz]; rfl

theorem ivOk_eq (L dig : Nat) (n : Nat) : (hooks par L dig fwd).ivOk n = decide (7 ≤ n ∧ n ≤ 13) := rfl

theorem maxHeader_eq (L dig : Nat) : (hooks par L dig fwd).maxHeader = 2 ^ 64 - 1 := rfl
theorem maxFooter_eq (L dig : Nat) : (hooks par L dig fwd).maxFooter = 0 := rfl
theorem digestSize_eq (L dig : Nat) : (hooks par L dig fwd).digestSize = dig := rfl

theorem stream_start (hp : 0 < par) (k : Key) (s : Stream.State Ctr) (v : Modes.IV 16) (junk : Mem) :
    Stream.Inv (ctrPolicy k.E 16 par) (fun v => ctrKeystream k.E 16 v.bytes) IvRep v 0 (Stream.resynchronize (ctrPolicy k.E 16 par) s v junk) := by
  have ok := Modes.ctr_ok (s := 16) k.E (by decide) k.length par hp 0
  have := ok.resync v 0 ⟨v.bytes, beBytes 16 (beVal v.bytes + 0)⟩ v ⟨rfl, rfl⟩
  refine ⟨⟨0, this, by simp [Stream.resynchronize]⟩, ?_, ?_, by simp [Stream.resynchronize], by simp [Stream.resynchronize]⟩
  · simp [Stream.resynchronize, Stream.bufferByteSize]
  · simpa [Stream.resynchronize, Stream.bufferByteSize] using Nat.mul_pos ok.bpi_pos ok.iters_pos

/-- After `Resynchronize`. -/
structure Fresh (par : Nat) (k : Key) (iv : List Byte) (s : Auth.State Obj) : Prop where
  phase : s.phase = .ivSet
  pending : s.pending = []
  hdr : s.hdr = 0
  msg : s.msg = 0
  ftr : s.ftr = 0
  keyed : Keyed k s.o
  L : s.o.L = Spec.L iv
  buf : s.o.buf = a0 iv
  ctr : CtrAt par k (a0 iv) 16 s.o.ctr

theorem resync_at (hp : 0 < par) (k : Key) (iv : List Byte) (h1 : 7 ≤ iv.length) (h2 : iv.length ≤ 13) (L dig : Nat) (s : Auth.State Obj) (hs : s.phase ≠ .start) (hk : Keyed k s.o) :
    ∃ s', Auth.resynchronize (hooks par L dig fwd) s iv = (s', .ok ()) ∧ Fresh par k iv s' := by
  have hL : (if 15 - iv.length > 8 then 8 else 15 - iv.length) = Spec.L iv := by unfold Spec.L; rw [if_neg (by omega)]
  have hi := stream_start hp k s.o.ctr (some ⟨a0 iv, a0_length iv h2⟩) s.o.junk
  obtain ⟨c, e, hc⟩ := Stream.seek_spec (Modes.ctr_ok (s := 16) k.E (by decide) k.length par hp 2) _ 0 _ 16 hi (show 16 / 16 < 2 by decide)
  have er : s.o.resync par iv = .ok { s.o with L := Spec.L iv, buf := a0 iv, ctr := c, aad := 0, mlen := 0 } := by
    unfold Obj.resync
    rw [← hk.1] at e
    rw [hL]
    rw [dif_pos (show (BitVec.ofNat 8 (Spec.L iv - 1) :: (iv ++ List.replicate (15 - iv.length) 0)).length = 16 from a0_length iv h2)]
    show (Stream.seek _ (Stream.resynchronize (ctrPolicy s.o.E 16 par) s.o.ctr (some ⟨a0 iv, a0_length iv h2⟩) s.o.junk) 16 >>= _) = _
    rw [e]; rfl
  refine ⟨{ s with pending := [], hdr := 0, msg := 0, ftr := 0, phase := .ivSet, o := { s.o with L := Spec.L iv, buf := a0 iv, ctr := c, aad := 0, mlen := 0 } }, ?_,
    rfl, rfl, rfl, rfl, rfl, hk, rfl, rfl, ⟨a0_length iv h2, hc⟩⟩
  unfold Auth.resynchronize
  rw [if_neg hs]
  dsimp only
  rw [ivOk_eq, if_pos (decide_eq_true ⟨h1, h2⟩)]
  have er' : (hooks par L dig fwd).resync s.o iv = _ := er
  rw [er']

/-- The header has been entered up to `H`. -/
structure InHeader (par : Nat) (k : Key) (iv : List Byte) (h m : Nat) (H : List Byte) (s : Auth.State Obj) : Prop where
  phase : s.phase = .ivSet
  pending : s.pending = rest 16 (Spec.aadLength h ++ H)
  hdr : s.hdr = H.length
  msg : s.msg = 0
  ftr : s.ftr = 0
  rep : R par k iv h m (k.E (Spec.B0 k.M iv h m)) 16 (whole 16 (Spec.aadLength h ++ H)) s.o

/-- After the header. -/
def c1 (k : Key) (iv : List Byte) (m : Nat) (H : List Byte) : List Byte := chain k.E (k.E (Spec.B0 k.M iv H.length m)) (chunks 16 (Spec.padded (Spec.aadLength H.length ++ H)))

/-- The text has been entered; `P` is the plain text of it. -/
structure InText (par : Nat) (fwd : Bool) (k : Key) (iv : List Byte) (m : Nat) (H P : List Byte) (s : Auth.State Obj) : Prop where
  phase : s.phase = (if fwd then .untransformed else .transformed)
  pending : s.pending = rest 16 P
  hdr : s.hdr = H.length
  msg : s.msg = P.length
  ftr : s.ftr = 0
  rep : R par k iv H.length m (c1 k iv m H) (16 + P.length) (whole 16 P) s.o

theorem lengthBytes_eq (h : Nat) : lengthBytes h = Spec.aadLength h := by
  unfold lengthBytes Spec.aadLength
  by_cases h0 : h = 0
  · rw [if_pos h0, if_neg (by omega)]
  · rw [if_neg h0, if_pos (by omega)]

theorem aadLength_length (h : Nat) : (Spec.aadLength h).length < 16 := by
  unfold Spec.aadLength
  split
  · decide
  split
  · simp
  split <;> simp

theorem pow_L (iv : List Byte) : 2 ^ (8 * Spec.L iv) = 256 ^ Spec.L iv := by rw [Nat.pow_mul]

theorem beBytes_high (m j : Nat) : ∀ i, m < 256 ^ j → (beBytes (i + j) m).drop i = beBytes j m := by
  intro i hm
  rw [beBytes_append, List.drop_left' (by simp)]

theorem firstBlock_eq (cbc iv : List Byte) (M h m : Nat) (hc : cbc.length = 16) (h1 : 7 ≤ iv.length) (h2 : iv.length ≤ 13) (hm : m < 256 ^ Spec.L iv) :
    firstBlock cbc (a0 iv) M (Spec.L iv) h m = Spec.B0 M iv h m := by
  have hL : Spec.L iv = 15 - iv.length := rfl
  unfold firstBlock
  dsimp only
  have e1 : ((cbc.set 0 (BitVec.ofNat 8 (64 * (if h > 0 then 1 else 0) + 8 * ((M - 2) / 2) + (Spec.L iv - 1)))).take 8 ++ beBytes 8 m).take 1 =
      [BitVec.ofNat 8 ((if h > 0 then 64 else 0) + 8 * ((M - 2) / 2) + (Spec.L iv - 1))] := by
    match cbc, hc with
    | c :: cs, _ =>
      have : 64 * (if h > 0 then 1 else 0) = if h > 0 then 64 else 0 := by split <;> rfl
      rw [this]; rfl
  have e2 : ((a0 iv).drop 1).take (15 - Spec.L iv) = iv := by
    rw [hL, a0, show 15 - (15 - iv.length) = iv.length by omega]
    simp
  have e3 : ((cbc.set 0 (BitVec.ofNat 8 (64 * (if h > 0 then 1 else 0) + 8 * ((M - 2) / 2) + (Spec.L iv - 1)))).take 8 ++ beBytes 8 m).drop (16 - Spec.L iv) = beBytes (Spec.L iv) m := by
    rw [List.drop_append, List.drop_eq_nil_of_le (by simp; omega), List.nil_append]
    have := beBytes_high m (Spec.L iv) (8 - Spec.L iv) hm
    rw [show 8 - Spec.L iv + Spec.L iv = 8 by omega] at this
    rw [← this]
    congr 1
    simp; omega
  rw [e1, e2, e3]
  simp [Spec.B0]

theorem maxMessage_eq (iv : List Byte) (h1 : 7 ≤ iv.length) (h2 : iv.length ≤ 13) (dig : Nat) : (hooks par (Spec.L iv) dig fwd).maxMessage = 256 ^ Spec.L iv - 1 := by
  show (if Spec.L iv < 8 then 2 ^ (8 * Spec.L iv) - 1 else 2 ^ 64 - 1) = _
  split
  · rw [pow_L]
  · have : Spec.L iv = 8 := by unfold Spec.L at *; omega
    rw [this]

theorem pow_le (iv : List Byte) (h1 : 7 ≤ iv.length) : 256 ^ Spec.L iv ≤ 2 ^ 64 := by
  rw [← pow_L]
  exact Nat.pow_le_pow_right (by decide) (by unfold Spec.L; omega)

theorem specify_at (k : Key) (iv : List Byte) (h m : Nat) (h1 : 7 ≤ iv.length) (h2 : iv.length ≤ 13) (hh : h < 2 ^ 64) (hm : m < 256 ^ Spec.L iv) (s : Auth.State Obj) (hs : Fresh par k iv s) :
    ∃ s', specify par fwd s h m = (s', .ok ()) ∧ InHeader par k iv h m [] s' := by
  have hpl := aadLength_length h
  have hw : whole 16 (Spec.aadLength h ++ []) = [] ∧ rest 16 (Spec.aadLength h ++ []) = Spec.aadLength h := by
    have := split_unique 16 (by decide) [] (Spec.aadLength h) rfl hpl
    rw [List.append_nil]; exact this
  have hB : s.o.E (firstBlock s.o.cbc (s.pending ++ s.o.buf.drop s.pending.length) s.o.dig s.o.L h m) = k.E (Spec.B0 k.M iv h m) := by
    rw [hs.pending, List.nil_append, List.length_nil, List.drop_zero, hs.buf, hs.L, hs.keyed.1, hs.keyed.2.1, firstBlock_eq _ iv _ _ _ hs.keyed.2.2 h1 h2 hm]
  have hpend : (if h > 0 then lengthBytes h else s.pending) = Spec.aadLength h := by
    rw [lengthBytes_eq, hs.pending]
    split
    · rfl
    · rw [show h = 0 by omega]; rfl
  refine ⟨{ s with o := { s.o with aad := h, mlen := m, cbc := k.E (Spec.B0 k.M iv h m) }, pending := Spec.aadLength h }, ?_, hs.phase, hw.2.symm, hs.hdr, hs.msg, hs.ftr, ?_⟩
  · unfold specify
    rw [hs.L, maxMessage_eq iv h1 h2, maxHeader_eq, if_neg (show ¬ h > 2 ^ 64 - 1 by omega), if_neg (by omega), if_neg (by rw [hs.phase]; decide), if_neg (by rw [hs.hdr]; decide)]
    dsimp only
    rw [← hs.L, hB, hpend]
  · have hlen : (k.E (Spec.B0 k.M iv h m)).length = 16 := k.length _ (by simp [Spec.B0, Spec.L]; omega)
    rw [hw.1]
    exact ⟨hs.keyed.1, hs.keyed.2.1, hs.L, rfl, rfl, hlen, rfl, rfl, hs.ctr⟩

theorem update_at (k : Key) (iv : List Byte) (h m L dig : Nat) (H x : List Byte) (s : Auth.State Obj) (hs : InHeader par k iv h m H s) (hl : H.length + x.length < 2 ^ 64) :
    ∃ s', Auth.update (hooks par L dig fwd) s x = (s', .ok ()) ∧ InHeader par k iv h m (H ++ x) s' := by
  unfold Auth.update
  by_cases hx : x.length = 0
  · rw [if_pos hx, List.eq_nil_of_length_eq_zero hx, List.append_nil]; exact ⟨s, rfl, hs⟩
  rw [if_neg hx, hs.phase]
  obtain ⟨o', e, r⟩ := authData_at (fwd := fwd) k iv h m _ 16 L dig s _ x hs.pending hs.rep
  dsimp only
  rw [e]
  dsimp only
  rw [List.append_assoc] at r ⊢
  refine ⟨_, rfl, hs.phase, rfl, ?_, hs.msg, hs.ftr, r⟩
  show (s.hdr + x.length) % 2 ^ 64 = _
  rw [hs.hdr, List.length_append, Nat.mod_eq_of_lt hl]

/-- What a piece of text at position `q` becomes, and its plain text. -/
def outAt (k : Key) (iv : List Byte) (q : Nat) (x : List Byte) : List Byte := xorBytes x (load (ks k.E iv) q x.length)
def plainAt (fwd : Bool) (k : Key) (iv : List Byte) (q : Nat) (x : List Byte) : List Byte := if fwd then x else outAt k iv q x

theorem plainAt_length (k : Key) (iv : List Byte) (q : Nat) (x : List Byte) : (plainAt fwd k iv q x).length = x.length := by
  unfold plainAt outAt; split <;> simp

theorem process_obj (hp : 0 < par) (k : Key) (iv : List Byte) (h m : Nat) (c0 D x : List Byte) (q L dig : Nat) (o : Obj) (r : R par k iv h m c0 (16 + q) D o) (h1 : 7 ≤ iv.length) (h2 : iv.length ≤ 13)
    (hq : q + x.length < 256 ^ Spec.L iv) : ∃ o', (hooks par L dig fwd).process o x = .ok (o', outAt k iv q x) ∧ R par k iv h m c0 (16 + (q + x.length)) D o' := by
  obtain ⟨g1, g2, g3, g4, g5, g6, g7, g8, ⟨hv, g9⟩⟩ := r
  obtain ⟨c, e, hc⟩ := Stream.process_spec (Modes.ctr_ok (s := 16) k.E (by decide) k.length par hp 0) _ _ o.ctr x g9
  refine ⟨{ o with ctr := c }, ?_, g1, g2, g3, g4, g5, g6, g7, g8, hv, ?_⟩
  · show o.process par x = _
    unfold Obj.process
    rw [g1, e, outAt, ← keystream_text k.E iv h1 h2 q x.length hq]; rfl
  · rw [Nat.add_assoc] at hc; exact hc

/-- The text goes on. -/
theorem text_at (hp : 0 < par) (k : Key) (iv : List Byte) (m L dig : Nat) (H P x : List Byte) (s : Auth.State Obj) (hs : InText par fwd k iv m H P { s with msg := P.length }) (h1 : 7 ≤ iv.length) (h2 : iv.length ≤ 13)
    (hq : P.length + x.length < 256 ^ Spec.L iv) (hmsg : s.msg = P.length + x.length) :
    ∃ s', (if fwd then Auth.processUntransformed (hooks par L dig fwd) s x else Auth.processTransformed (hooks par L dig fwd) s x) = (s', .ok (outAt k iv P.length x)) ∧
      InText par fwd k iv m H (P ++ plainAt fwd k iv P.length x) s' := by
  obtain ⟨a1, a2, a3, a4, a5, a6⟩ := hs
  cases hf : fwd with
  | true =>
    subst hf
    rw [if_pos rfl]
    obtain ⟨o1, e1, r1⟩ := authData_at (fwd := true) k iv H.length m _ _ L dig s P x a2 a6
    obtain ⟨o2, e2, r2⟩ := process_obj (fwd := true) hp k iv H.length m _ _ x P.length L dig o1 r1 h1 h2 hq
    unfold Auth.processUntransformed
    rw [e1]
    dsimp only
    rw [e2]
    refine ⟨_, rfl, a1, ?_, a3, ?_, a5, ?_⟩
    · rfl
    · rw [List.length_append, plainAt_length]; exact hmsg
    · rw [List.length_append, plainAt_length]; exact r2
  | false =>
    subst hf
    rw [if_neg (by decide)]
    obtain ⟨o1, e1, r1⟩ := process_obj (fwd := false) hp k iv H.length m _ _ x P.length L dig s.o a6 h1 h2 hq
    obtain ⟨o2, e2, r2⟩ := authData_at (fwd := false) k iv H.length m _ _ L dig { s with o := o1 } P (outAt k iv P.length x) a2 r1
    unfold Auth.processTransformed
    rw [e1]
    dsimp only
    rw [e2]
    refine ⟨_, rfl, a1, ?_, a3, ?_, a5, ?_⟩
    · rfl
    · rw [List.length_append, plainAt_length]; exact hmsg
    · rw [List.length_append, plainAt_length]; exact r2

theorem lastHeader_at (k : Key) (iv : List Byte) (m : Nat) (H : List Byte) (L dig : Nat) (s : Auth.State Obj) (hs : InHeader par k iv H.length m H s) :
    ∃ o', (hooks par L dig fwd).lastHeader s.o s.pending s.hdr = .ok o' ∧ R par k iv H.length m (c1 k iv m H) 16 [] o' := by
  refine ⟨s.o.last s.pending, ?_, ?_⟩
  · show s.o.lastHeader _ _ = _
    unfold Obj.lastHeader
    rw [if_neg (by rw [hs.rep.2.2.2.1, hs.hdr]; simp)]
  · rw [hs.pending]; exact last_rep k iv H.length m _ 16 s.o _ hs.rep

theorem process_at (hp : 0 < par) (k : Key) (iv : List Byte) (m dig : Nat) (H P x : List Byte) (s : Auth.State Obj) (h1 : 7 ≤ iv.length) (h2 : iv.length ≤ 13)
    (hs : InText par fwd k iv m H P s ∨ (P = [] ∧ InHeader par k iv H.length m H s)) (hq : P.length + x.length < 256 ^ Spec.L iv) :
    ∃ s', Auth.processData (hooks par (Spec.L iv) dig fwd) s x = (s', .ok (outAt k iv P.length x)) ∧ InText par fwd k iv m H (P ++ plainAt fwd k iv P.length x) s' := by
  have h64 := pow_le iv h1
  have hmsg : s.msg = P.length := by
    rcases hs with h | ⟨hP, h⟩
    · exact h.msg
    · rw [hP]; exact h.msg
  have hmod : (s.msg + x.length) % 2 ^ 64 = P.length + x.length := by rw [hmsg]; exact Nat.mod_eq_of_lt (by omega)
  have hlim : (256 ^ Spec.L iv - 1 + 2 ^ 64 - s.msg) % 2 ^ 64 = 256 ^ Spec.L iv - 1 - P.length := by
    rw [hmsg, show 256 ^ Spec.L iv - 1 + 2 ^ 64 - P.length = (256 ^ Spec.L iv - 1 - P.length) + 2 ^ 64 by omega, Nat.add_mod_right]; exact Nat.mod_eq_of_lt (by omega)
  unfold Auth.processData
  rw [maxMessage_eq iv h1 h2, hlim, if_neg (fun hc => by have := hc.2; omega)]
  dsimp only
  rw [hmod]
  have hpl : (hooks par (Spec.L iv) dig fwd).onPlaintext = true := rfl
  have hfw : (hooks par (Spec.L iv) dig fwd).forward = fwd := rfl
  rcases hs with h | ⟨hP, h⟩
  · rw [h.phase]
    have := text_at (fwd := fwd) hp k iv m (Spec.L iv) dig H P x { s with msg := P.length + x.length } ⟨h.phase, h.pending, h.hdr, rfl, h.ftr, h.rep⟩ h1 h2 hq rfl
    rw [h.phase] at this
    cases fwd with
    | true => exact this
    | false => exact this
  · rw [h.phase]
    dsimp only
    obtain ⟨o', e, r⟩ := lastHeader_at (fwd := fwd) k iv m H (Spec.L iv) dig s h
    rw [e]
    dsimp only
    rw [hpl, hfw]
    subst hP
    have hr0 : rest 16 ([] : List Byte) = [] := Auth.rest_nil 16
    have hw0 : whole 16 ([] : List Byte) = [] := Auth.whole_nil 16
    cases fwd with
    | true =>
      rw [if_pos rfl]
      exact text_at (fwd := true) hp k iv m (Spec.L iv) dig H [] x { s with msg := 0 + x.length, o := o', pending := [], phase := .untransformed }
        ⟨rfl, hr0.symm, h.hdr, rfl, h.ftr, by rw [hw0]; exact r⟩ h1 h2 hq rfl
    | false =>
      rw [if_neg (by decide)]
      exact text_at (fwd := false) hp k iv m (Spec.L iv) dig H [] x { s with msg := 0 + x.length, o := o', pending := [], phase := .transformed }
        ⟨rfl, hr0.symm, h.hdr, rfl, h.ftr, by rw [hw0]; exact r⟩ h1 h2 hq rfl

theorem T_eq (k : Key) (iv H P : List Byte) (h2 : iv.length ≤ 13) : chain k.E (c1 k iv P.length H) (chunks 16 (Spec.padded P)) = Spec.T k.E k.M iv H P := by
  have hb : (Spec.B0 k.M iv H.length P.length).length = 16 := by simp [Spec.B0, Spec.L]; omega
  unfold Spec.T c1
  rw [chain_append _ _ _ _ (by rw [List.length_append, hb, Nat.add_mod, padded_mod]), chain_append _ _ _ _ (by rw [hb]), Cmac.chain_one (b := 16) (by decide) _ _ hb, xor_zeros 16 _ hb]

theorem finalMessage_at (hp : 0 < par) (k : Key) (iv : List Byte) (H P : List Byte) (L dig q n : Nat) (s : Auth.State Obj) (h1 : 7 ≤ iv.length) (h2 : iv.length ≤ 13) (hn : n ≤ k.M)
    (hpend : s.pending = rest 16 P) (hmsg : s.msg = P.length) (r : R par k iv H.length P.length (c1 k iv P.length H) q (whole 16 P) s.o) :
    ∃ s', Auth.finalMessage (hooks par L dig fwd) s n = (s', .ok (Spec.tag k.E k.M iv H P n)) ∧ s'.phase ≠ .start ∧ Keyed k s'.o := by
  have hr := last_rep k iv H.length P.length _ q s.o P r
  have hl := hr.cbcLength
  have hM := k.max
  obtain ⟨g1, g2, g3, g4, g5, g6, g7, g8, ⟨hv, g9⟩⟩ := hr
  obtain ⟨c, e, hc⟩ := Stream.seek_spec (Modes.ctr_ok (s := 16) k.E (by decide) k.length par hp 1) _ _ (s.o.last (rest 16 P)).ctr 0 g9 (show 0 / 16 < 1 by decide)
  obtain ⟨c2, e2, hc2⟩ := Stream.process_spec (Modes.ctr_ok (s := 16) k.E (by decide) k.length par hp 0) _ 0 c ((s.o.last (rest 16 P)).cbc.take n) hc
  have hlast : (hooks par L dig fwd).lastConfidential s.o s.pending s.hdr s.msg = .ok (s.o.last (rest 16 P)) := by
    show s.o.lastConfidential _ _ = _
    unfold Obj.lastConfidential
    rw [if_neg (by rw [r.2.2.2.2.1, hmsg]; simp), hpend]
  have hfoot : (hooks par L dig fwd).lastFooter (s.o.last (rest 16 P)) [] n = .ok ({ s.o.last (rest 16 P) with ctr := c2 }, Spec.tag k.E k.M iv H P n) := by
    show (s.o.last (rest 16 P)).lastFooter par n = _
    unfold Obj.lastFooter
    rw [g1, e]
    simp only [bind, Except.bind]
    rw [e2]
    have hT : (s.o.last (rest 16 P)).cbc = Spec.T k.E k.M iv H P := by rw [g7, ← T_eq k iv H P h2]; rfl
    refine congrArg Except.ok (Prod.ext (by simp only [g1]) ?_)
    show xorBytes _ (load (ctrKeystream k.E 16 (a0 iv)) 0 _) = _
    rw [List.length_take, hl, show min n 16 = n from Nat.min_eq_left (by omega), keystream_zero k iv h1 h2 n (by omega), hT, Spec.tag, xorBytes_take]
  refine ⟨{ s with o := { s.o.last (rest 16 P) with ctr := c2 }, pending := [], phase := .keySet }, ?_, by simp, g1, g2, hl⟩
  unfold Auth.finalMessage
  rw [hlast]
  dsimp only
  unfold Auth.finalFooter
  dsimp only
  rw [hfoot]

theorem final_at (hp : 0 < par) (k : Key) (iv : List Byte) (H P : List Byte) (L n : Nat) (s : Auth.State Obj) (h1 : 7 ≤ iv.length) (h2 : iv.length ≤ 13) (hh : H.length < 2 ^ 64) (hn : n ≤ k.M)
    (hs : InText par fwd k iv P.length H P s ∨ (P = [] ∧ InHeader par k iv H.length P.length H s)) :
    ∃ s', Auth.truncatedFinal (hooks par L k.M fwd) s n = (s', .ok (Spec.tag k.E k.M iv H P n)) ∧ s'.phase ≠ .start ∧ Keyed k s'.o := by
  unfold Auth.truncatedFinal
  rw [digestSize_eq, maxHeader_eq, maxFooter_eq, if_neg (show ¬ n > k.M by omega)]
  rcases hs with h | ⟨hP, h⟩
  · rw [h.hdr, if_neg (show ¬ H.length > 2 ^ 64 - 1 by omega), h.ftr, if_neg (show ¬ 0 > 0 by decide), h.phase]
    have := finalMessage_at (fwd := fwd) hp k iv H P L k.M _ n s h1 h2 hn h.pending h.msg h.rep
    cases fwd with
    | true => exact this
    | false => exact this
  · rw [h.hdr, if_neg (show ¬ H.length > 2 ^ 64 - 1 by omega), h.ftr, if_neg (show ¬ 0 > 0 by decide), h.phase]
    dsimp only
    rw [← h.hdr]
    obtain ⟨o', e, r⟩ := lastHeader_at (fwd := fwd) k iv P.length H L k.M s h
    rw [e]
    subst hP
    exact finalMessage_at (fwd := fwd) hp k iv H [] L k.M 16 n ⟨.ivSet, [], s.hdr, s.msg, 0, o'⟩ h1 h2 hn (Auth.rest_nil 16).symm h.msg (by rw [Auth.whole_nil]; exact r)

end

end Verif.Ccm
