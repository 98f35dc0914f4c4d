import Verif.Eax.Model
import Verif.Eax.Spec
import Verif.Cmac.Proofs
import Verif.Auth.Props
import Verif.Modes.CtrProofs

/-!
# EAX: proofs

`Resync` relies on the MAC object being between messages. `mended` is the code with a restart of the MAC in `Resync`; it meets the contract of `Verif.Auth`. As long as no message is given up, both do the same.
-/
namespace Verif.Eax

open Verif.Auth (Impl whole rest)
open Verif.Modes (Ctr ctrPolicy ctrKeystream)

section
variable (b par : Nat)

/-- The MAC object between messages. -/
def clean (s : Cmac.St) : Cmac.St := { s with acc := List.replicate b 0, counter := 0 }

def mended (forward : Bool) : Auth.Hooks Obj (Cipher b) := { eax b par forward with resync := fun s iv => ({ s with mac := clean b s.mac }).resync b par iv }

def alg (forward : Bool) : Auth.Spec.Alg (Cipher b) where
  maxHeader := 2 ^ 64 - 1
  maxMessage := 2 ^ 64 - 1
  maxFooter := 0
  digestSize := b
  ivOk := fun n => decide (n < 2 ^ 31)
  authInput := !forward
  keystream := fun k iv q => (k.1 (beBytes b (beVal (Spec.omac k.1 b 0 iv) + q / b))).getD (q % b) 0
  tag := fun k iv H C _ n => Spec.tag k.1 b iv H C n

/-- What the MAC has been given, and the second half of the buffer. -/
def impl : Impl (Cipher b) (List Byte × List Byte) where
  init := fun k iv => (beBytes b 1, Spec.omac k.1 b 0 iv)
  absorb := fun _ a d => (a.1 ++ d, a.2)
  endHeader := fun k a _ _ => (beBytes b 2, xorBytes a.2 (Cmac.Spec.cmac k.1 b a.1))
  endMessage := fun _ a _ _ _ => a
  mac := fun k _ a _ n => xorBytes ((Cmac.Spec.cmac k.1 b a.1).take n) (a.2.take n)

def Key (k : Cipher b) (o : Obj) : Prop := Cmac.Rep b k.1 (clean b o.mac) []

def IvRep (v : Modes.IV b) (i : Nat) (p : Ctr) : Prop := p.register = v.bytes ∧ p.counter = beBytes b (beVal v.bytes + i)

variable (hw : Cmac.Width b)

theorem omac_length (k : Cipher b) (hb : 0 < b) (t : Nat) (M : List Byte) : (Spec.omac k.1 b t M).length = b := Cmac.cmac_length hb k.2 _

def GRep (hb : 0 < b) (k : Cipher b) (iv : List Byte) (a : List Byte × List Byte) (q : Nat) (o : Obj) : Prop :=
  Cmac.Rep b k.1 o.mac a.1 ∧ o.half = a.2 ∧
    Stream.Inv (ctrPolicy k.1 b par) (fun v => ctrKeystream k.1 b v.bytes) (IvRep b) (some ⟨Spec.omac k.1 b 0 iv, omac_length b k hb 0 iv⟩) q o.ctr

variable {b par}

theorem marked_eq (hb : 0 < b) (t : Nat) (ht : t < 256) : marked b (BitVec.ofNat 8 t) = beBytes b t := by
  obtain ⟨n, rfl⟩ : ∃ n, b = n + 1 := ⟨b - 1, by omega⟩
  rw [marked, Modes.beBytes_snoc, Nat.div_eq_of_lt ht]
  congr 1
  show List.replicate n 0 = beBytes n 0
  clear hb
  induction n with
  | zero => rfl
  | succ n ih => rw [Modes.beBytes_snoc, Nat.zero_div, ← ih, List.replicate_succ']; rfl

theorem rep_clean {k : Cipher b} {s : Cmac.St} {m : List Byte} (h : Cmac.Rep b k.1 s m) : Cmac.Rep b k.1 (clean b s) [] := by
  obtain ⟨w, r, _, _, h1, h2, h3, _⟩ := h
  exact ⟨[], [], rfl, fun _ => rfl, h1, h2, h3, by simp, by simp, rfl, (Cmac.mix_nil _).symm⟩

theorem stream_start (hb : 0 < b) (hp : 0 < par) (k : Cipher b) (s : Stream.State Ctr) (v : Modes.IV b) (junk : Mem) :
    Stream.Inv (ctrPolicy k.1 b par) (fun v => ctrKeystream k.1 b v.bytes) (IvRep b) v 0 (Stream.resynchronize (ctrPolicy k.1 b par) s v junk) := by
  have ok := Modes.ctr_ok k.1 b hb k.2 par hp 0
  have := ok.resync v 0 ⟨v.bytes, beBytes b (beVal v.bytes + 0)⟩ v ⟨rfl, rfl⟩
  refine ⟨⟨0, this, by simp [Stream.resynchronize]⟩, ?_, ?_, by simp [Stream.resynchronize], by simp [Stream.resynchronize]⟩
  · simp [Stream.resynchronize, Stream.bufferByteSize]
  · simpa [Stream.resynchronize, Stream.bufferByteSize] using Nat.mul_pos ok.bpi_pos ok.iters_pos

theorem resync_spec (hb : 0 < b) (hp : 0 < par) (k : Cipher b) (o : Obj) (iv : List Byte) (hk : Cmac.Rep b k.1 o.mac []) :
    ∃ o', o.resync b par iv = .ok o' ∧ GRep b par hb k iv ((impl b).init k iv) 0 o' := by
  obtain ⟨s1, e1, r1⟩ := Cmac.update_spec hb k.2 o.mac [] (marked b 0) hk
  obtain ⟨s2, e2, r2⟩ := (Cmac.cmac_computes hb k.2 (([] ++ marked b 0 ++ iv).length + 1)).calculateDigest s1 _ iv r1 (Nat.lt_succ_self _)
  obtain ⟨s3, e3, r3⟩ := Cmac.update_spec hb k.2 s2 [] (marked b 1) r2
  have hN : Cmac.Spec.cmac k.1 b ([] ++ marked b 0 ++ iv) = Spec.omac k.1 b 0 iv := by
    rw [List.nil_append, show (0 : Byte) = BitVec.ofNat 8 0 from rfl, marked_eq hb 0 (by decide)]; rfl
  have hE : s3.E = k.1 := by obtain ⟨w, r, _, _, h, _⟩ := r3; exact h
  unfold Obj.resync
  simp only [e1, bind, Except.bind, e2, e3]
  rw [dif_pos (by rw [hN, omac_length b k hb]), hE]
  refine ⟨_, rfl, ?_, hN, ?_⟩
  · rw [List.nil_append, show (1 : Byte) = BitVec.ofNat 8 1 from rfl, marked_eq hb 1 (by decide)] at r3
    exact r3
  · have := stream_start hb hp k o.ctr (some ⟨Spec.omac k.1 b 0 iv, omac_length b k hb 0 iv⟩) o.junk
    simp only [hN]
    exact this

theorem whole_one (d : List Byte) : whole 1 d = d := by simp [whole]

theorem mended_ok (hw : Cmac.Width b) (hb : 0 < b) (hp : 0 < par) (forward : Bool) : (mended b par forward).Ok (alg b forward) (impl b) (Key b) (GRep b par hb) where
  pos := Nat.one_pos
  maxHeader := rfl
  maxMessage := rfl
  maxFooter := rfl
  digestSize := rfl
  ivOk := rfl
  authInput := by cases forward <;> rfl
  small := show 2 ^ 64 - 1 < 2 ^ 64 by decide
  tag := by
    intro k iv H C F n _ _ _ hF hn
    have hF' : F = [] := List.eq_nil_of_length_eq_zero (Nat.le_zero.1 hF)
    subst hF'
    unfold Impl.tag Impl.message Impl.header
    show Spec.tag k.1 b iv H C n = _
    simp only [impl, mended, eax, whole_one, Auth.whole_nil, List.append_nil]
    unfold Spec.tag
    rw [xorBytes_comm, xorBytes_take]
    rfl
  absorb_nil := by intro k a; simp [impl]
  absorb_append := by intro k a d e _; simp [impl]
  rep_key := by intro k iv a q o h; exact rep_clean h.1
  setKey := by intro o k; exact rep_clean (Cmac.setKey_rep b hw k.1 k.2)
  resync := by
    intro k o iv hk _
    exact resync_spec hb hp k { o with mac := clean b o.mac } iv hk
  authBlocks := by
    intro k iv a q o d hr hd
    obtain ⟨h1, h2, h3⟩ := hr
    obtain ⟨s', e, r⟩ := Cmac.update_spec hb k.2 o.mac a.1 d h1
    refine ⟨{ o with mac := s' }, ?_, ?_, h2, h3⟩
    · show Obj.authBlocks b o d = .ok (_, d.length % 1)
      unfold Obj.authBlocks
      rw [e, Nat.mod_one]; rfl
    · show Cmac.Rep b k.1 s' (a.1 ++ whole 1 d)
      rw [whole_one]; exact r
  lastHeader := by
    intro k iv a q o p h hr _
    obtain ⟨h1, h2, h3⟩ := hr
    obtain ⟨s1, e1, r1, _⟩ := Cmac.final_spec hb k.2 o.mac a.1 b h1 (Nat.le_refl _)
    obtain ⟨s2, e2, r2⟩ := Cmac.update_spec hb k.2 s1 [] (marked b 2) r1
    refine ⟨{ o with mac := s2, half := xorBytes o.half ((Cmac.Spec.cmac k.1 b a.1).take b) }, ?_, ?_, ?_, h3⟩
    · show Obj.lastHeader b o = _
      unfold Obj.lastHeader
      simp only [e1, bind, Except.bind, e2]
    · rw [List.nil_append, show (2 : Byte) = BitVec.ofNat 8 2 from rfl, marked_eq hb 2 (by decide)] at r2
      exact r2
    · show xorBytes o.half _ = xorBytes a.2 _
      rw [h2, List.take_of_length_le (by rw [Cmac.cmac_length hb k.2]; omega)]
  lastConfidential := by intro k iv a q o p h m hr _; exact ⟨o, rfl, hr⟩
  lastFooter := by
    intro k iv a q o p n hr _ hn
    obtain ⟨h1, h2, h3⟩ := hr
    obtain ⟨s1, e1, r1, _⟩ := Cmac.final_spec hb k.2 o.mac a.1 n h1 hn
    refine ⟨{ o with mac := s1 }, ?_, rep_clean r1⟩
    show Obj.lastFooter b o n = _
    unfold Obj.lastFooter
    simp only [e1, bind, Except.bind, h2]
    rfl
  process := by
    intro k iv a q o x hr
    obtain ⟨h1, h2, h3⟩ := hr
    obtain ⟨s2, e2, hi2⟩ := Stream.process_spec (Modes.ctr_ok k.1 b hb k.2 par hp 0) _ q o.ctr x h3
    have hE : o.mac.E = k.1 := by obtain ⟨w, r, _, _, h, _⟩ := h1; exact h
    refine ⟨{ o with ctr := s2 }, ?_, h1, h2, hi2⟩
    show Obj.process b par o x = _
    unfold Obj.process
    rw [hE, e2]; rfl

end

end Verif.Eax
