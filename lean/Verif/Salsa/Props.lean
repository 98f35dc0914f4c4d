import Verif.Salsa.Proofs

/-!
# C72: Salsa20 and XSalsa20

`salsa20_history`, `xsalsa20_history`: after `SetKey`, every sequence of `ProcessData`, `GenerateBlock`, `Seek` and `Resynchronize` calls returns what Bernstein's keystream says.
`xsalsa20_failed_setKey`, `xsalsa20_spoilt`: a `SetKey` of XSalsa20 that throws spoils the object.
-/
namespace Verif.Salsa
open Verif.Chacha (Iv)

/-- C72, Salsa20 with 8, 12 or 20 rounds and keys of 16 or 32 bytes; positions are below 2^64. -/
theorem salsa20_history (p p' : Pol) (hp : p.state.length = 16) (rounds : Option Int) (key : List Byte) (hk : key.length = 16 ∨ key.length = 32) (hset : setKey p rounds key = .ok p')
    (iv : Iv 8) (junk : Mem) (ops : List (Stream.Op (Iv 8))) (hs : Stream.SeeksOk salsa (2 ^ 58) ops) :
    Stream.run salsa (Stream.setKey salsa p' iv junk) ops = .ok (Stream.specRun (fun v => Chacha.Spec.ofBlocks (Spec.salsaBlock (rounds.getD p.rounds).toNat key v.1)) iv 0 ops) := by
  obtain ⟨h1, h2, h3⟩ := setKey_spec p hp rounds key p' hset iv
  have hr : p'.rounds = ((rounds.getD p.rounds).toNat : Int) := by omega
  have hrep : salsaRep (rounds.getD p.rounds).toNat key iv 0 (salsa.resync p' iv) := ⟨h3, hr⟩
  have hsame : salsa.resync (salsa.resync p' iv) iv = salsa.resync p' iv := by
    have e : (salsa.resync (salsa.resync p' iv) iv).state = (salsa.resync p' iv).state := by
      show (salsa.resync ⟨(salsa.resync p' iv).state, _, _⟩ iv).state = _
      rw [h3]; rfl
    show Pol.mk _ _ _ = Pol.mk _ _ _
    exact congrArg (fun s => Pol.mk s p'.key p'.rounds) e
  have := Stream.history_outputs (salsa_ok _ (by omega) key hk (2 ^ 58)) iv 0 _ hrep iv junk ops hs
  have e : Stream.setKey salsa (salsa.resync p' iv) iv junk = Stream.setKey salsa p' iv junk := by
    unfold Stream.setKey; rw [hsame]
  rwa [e] at this

/-- Other numbers of rounds are refused. -/
theorem salsa20_rounds (p : Pol) (r : Int) (key : List Byte) : (∃ p', setKey p (some r) key = .ok p') ↔ r = 20 ∨ r = 12 ∨ r = 8 := by
  unfold setKey
  dsimp only [Option.getD]
  by_cases h : r ≠ 20 ∧ r ≠ 12 ∧ r ≠ 8
  · rw [if_pos h]; exact ⟨fun ⟨_, e⟩ => (by cases e), fun e => by omega⟩
  · rw [if_neg h]; exact ⟨fun _ => by omega, fun _ => ⟨_, rfl⟩⟩

/-- C72, XSalsa20 with 8, 12 or 20 rounds: the key is derived with the same number of rounds. Positions are below 2^64. -/
theorem xsalsa20_history (p p' : Pol) (hp : p.state.length = 16) (rounds : Option Int) (key : List Byte) (hk : key.length = 32) (hset : xSetKey p rounds key = (p', .ok ()))
    (iv : Iv 24) (junk : Mem) (ops : List (Stream.Op (Iv 24))) (hs : Stream.SeeksOk xsalsa (2 ^ 58) ops) :
    Stream.run xsalsa (Stream.setKey xsalsa p' iv junk) ops = .ok (Stream.specRun (fun v => Chacha.Spec.ofBlocks (Spec.xsalsaBlock (rounds.getD p.rounds).toNat key v.1)) iv 0 ops) := by
  unfold xSetKey at hset
  dsimp only at hset
  by_cases hc : ¬ (rounds.getD p.rounds = 8 ∨ rounds.getD p.rounds = 12 ∨ rounds.getD p.rounds = 20)
  · rw [if_pos hc] at hset
    exact absurd (congrArg Prod.snd hset) (by intro h; cases h)
  rw [if_neg hc] at hset
  have hp' := congrArg Prod.fst hset
  dsimp only at hp'
  have hr : p'.rounds = ((rounds.getD p.rounds).toNat : Int) := by rw [← hp']; dsimp only; omega
  have hkey : p'.key = Chacha.getWords 8 key := by rw [← hp']
  have hl : p'.state.length = 16 := by rw [← hp']; simp [hp]
  have hcs : p'.state.take 4 = Chacha.consts false := by
    rw [← hp']
    dsimp only
    generalize p.state = s at hp ⊢
    match s, hp with
    | a :: b :: c :: d :: t, _ => rfl
  have hrep := x_resync p' _ (by omega) hr key hk hkey hl hcs iv
  have hsame : xsalsa.resync (xsalsa.resync p' iv) iv = xsalsa.resync p' iv := by
    have h2 := x_resync (xsalsa.resync p' iv) _ (by omega) hrep.2.1 key hk hrep.2.2 (by rw [hrep.1]; rfl) (by rw [hrep.1]; rfl) iv
    have e : (xsalsa.resync (xsalsa.resync p' iv) iv).state = (xsalsa.resync p' iv).state := by rw [h2.1, hrep.1]
    exact Pol.ext e (h2.2.2.trans hrep.2.2.symm) (h2.2.1.trans hrep.2.1.symm)
  have := Stream.history_outputs (x_ok _ (by omega) key hk (2 ^ 58)) iv 0 _ hrep iv junk ops hs
  have e : Stream.setKey xsalsa (xsalsa.resync p' iv) iv junk = Stream.setKey xsalsa p' iv junk := by
    unfold Stream.setKey; rw [hsame]
  rwa [e] at this

/-- Other numbers of rounds are refused. -/
theorem xsalsa20_rounds (p : Pol) (r : Int) (key : List Byte) : (xSetKey p (some r) key).2 = .ok () ↔ r = 20 ∨ r = 12 ∨ r = 8 := by
  unfold xSetKey
  dsimp only [Option.getD]
  by_cases h : ¬ (r = 8 ∨ r = 12 ∨ r = 20)
  · rw [if_pos h]; exact ⟨fun e => (by cases e), fun e => by omega⟩
  · rw [if_neg h]; exact ⟨fun _ => by omega, fun _ => rfl⟩

/-- Fault: after a `SetKey` of XSalsa20 that throws for its number of rounds, every `SetKey` that does not give a number of rounds throws too. (Salsa20 keeps its number, `salsa20_keeps`.) -/
theorem xsalsa20_spoilt (p : Pol) (r : Int) (key : List Byte) (h : (xSetKey p (some r) key).2 ≠ .ok ()) (key' : List Byte) :
    (xSetKey (xSetKey p (some r) key).1 none key').2 = .error .invalidArgument := by
  have hr : ¬ (r = 8 ∨ r = 12 ∨ r = 20) := fun e => h ((xsalsa20_rounds p r key).mpr (by omega))
  have e : (xSetKey p (some r) key).1.rounds = r := by
    unfold xSetKey
    dsimp only [Option.getD]
    rw [if_pos hr]
  show (xSetKey _ none key').2 = _
  unfold xSetKey
  dsimp only [Option.getD]
  rw [if_pos]
  · exact fun x => hr (e ▸ x)

/-- Salsa20 has one of its numbers of rounds after every `SetKey` that returns, and one that throws changes nothing. -/
theorem salsa20_keeps (p : Pol) (h : p.rounds = 20 ∨ p.rounds = 12 ∨ p.rounds = 8) (key : List Byte) : ∃ p', setKey p none key = .ok p' ∧ p'.rounds = p.rounds := by
  unfold setKey
  dsimp only [Option.getD]
  rw [if_neg (by omega)]
  exact ⟨_, rfl, rfl⟩

/-- A new object (salsa.h:41). -/
def fresh : Pol := ⟨List.replicate 16 0, List.replicate 8 0, 20⟩

def keyN : List Byte := beBytes 32 0x1b27556473e985d462cd51197a9a46c76009549eac6474f206c4ee0844f68389
def ivN : Iv 24 := ⟨beBytes 24 0x69696ee955b62b73cd62bda875fc73d68219e0036b7a0b37, rfl⟩

/-- The object after a `SetKey` that throws for its number of rounds: `CipherSetKey` is what throws, and it comes first (strciphr.cpp:15-23). -/
def failedSetKey (s : Stream.State Pol) (rounds : Int) (key : List Byte) : Stream.State Pol := { s with pol := (xSetKey s.pol (some rounds) key).1 }

/-- Fault: and with the key it had before it makes another keystream: with 0 rounds, twice the words of the state, so that the derived key can be read in it. -/
theorem xsalsa20_failed_setKey : ∃ (p' : Pol) (out : List Byte), xSetKey fresh none keyN = (p', .ok ()) ∧
    (∀ junk, Stream.run xsalsa (Stream.setKey xsalsa p' ivN junk) [.generate 64] = .ok [Spec.xsalsaBlock 20 keyN ivN.1 0]) ∧
    Stream.run xsalsa (failedSetKey (Stream.setKey xsalsa p' ivN fun _ => 0) 0 keyN) [.generate 64] = .ok [out] ∧ out ≠ Spec.xsalsaBlock 20 keyN ivN.1 0 ∧
    (out.drop 4).take 4 = leBytes 4 (2 * leVal ((Spec.hsalsa 20 keyN (ivN.1.take 16)).take 4)) := by
  refine ⟨(xSetKey fresh none keyN).1, (Spec.expand (Spec.hsalsa 20 keyN (ivN.1.take 16)) (ivN.1.drop 16 ++ leBytes 8 0)).flatMap fun w => leBytes 4 (2 * w.toNat),
    rfl, fun junk => ?_, by decide +kernel, by decide +kernel, by decide +kernel⟩
  rw [xsalsa20_history fresh (xSetKey fresh none keyN).1 rfl none keyN rfl rfl ivN junk [.generate 64] trivial]
  have : load (Chacha.Spec.ofBlocks (Spec.xsalsaBlock 20 keyN ivN.1)) 0 64 = Spec.xsalsaBlock 20 keyN ivN.1 0 := by decide +kernel
  simp only [Stream.specRun]
  exact congrArg (fun x => Except.ok [x]) this

/-! ## Examples -/

/-- ECRYPT test vector: set 1, vector 0. -/
example : Spec.salsaBlock 20 (0x80 :: List.replicate 31 0) (List.replicate 8 0) 0 =
    beBytes 64 0xe3be8fdd8beca2e3ea8ef9475b29a6e7003951e1097a5c38d23b7a5fad9f6844b22c97559e2723c7cbbd3fe4fc8d9a0744652a83e72a9c461876af4d7ef1a117 := by decide +kernel

/-- A key of 16 bytes, 12 rounds, a block number that needs both words. -/
example : Spec.salsaBlock 12 (0x80 :: List.replicate 15 0) (List.replicate 8 0) (2 ^ 32 + 1) =
    beBytes 64 0x0b8109620dca4b92f727ce539c59ed59f722add2fed04ce87e5dc1a36378ecbf4552d09f2d23900b368ca4e4140954ecadede4ccdb4c88af564566bbed580f46 := by decide +kernel

/-- TestVectors/salsa.txt:202. -/
example : Spec.xsalsaBlock 20 keyN ivN.1 0 =
    beBytes 64 0xeea6a7251c1e72916d11c2cb214d3c252539121d8e234e652d651fa4c8cff880309e645a74e9e0a60d8243acd9177ab51a1beb8d5a2f5d700c093c5e55855796 := by decide +kernel

/-- A seek across the 32-bit boundary of the block number. -/
example (junk : Mem) (x : List Byte) (iv : Iv 8) : ∃ p', setKey fresh (some 12) keyN = .ok p' ∧
    Stream.run salsa (Stream.setKey salsa p' iv junk) [.seek (2 ^ 38 - 130), .process x] =
      .ok [xorBytes x (load (Chacha.Spec.ofBlocks (Spec.salsaBlock 12 keyN iv.1)) (2 ^ 38 - 130) x.length)] :=
  ⟨_, rfl, salsa20_history fresh _ rfl (some 12) keyN (.inr rfl) rfl iv junk _ (by simp [Stream.SeeksOk, salsa])⟩

example : (xSetKey fresh (some 7) keyN).2 ≠ .ok () := by decide

end Verif.Salsa
