import Verif.Gcm.Model
import Verif.Gcm.Spec
import Verif.Modes.CtrProofs

namespace Verif.Gcm

open Verif.Modes

/-- Block `i` of the keystream: the last four bytes of the counter are incremented. -/
def counterBlock (c : List Byte) (i : Nat) : List Byte := c.take 12 ++ beBytes 4 (beVal (c.drop 12) + i)

def keystream (E : List Byte → List Byte) (c : List Byte) : Mem := fun q => (E (counterBlock c (q / 16))).getD (q % 16) 0

theorem counterBlock_length (c : List Byte) (hc : c.length = 16) (i : Nat) : (counterBlock c i).length = 16 := by
  simp [counterBlock]; omega

/-- The counter increment leaves the first twelve bytes alone. -/
theorem inc_spec (pre : List Byte) (hpre : pre.length = 12) (m : Mem) (X : Nat) (h : load m 0 16 = (pre ++ beBytes (4 - 1) X) ++ [0]) :
    load (incrementCounterBy256 m 0) 0 16 = (pre ++ beBytes (4 - 1) (X + 1)) ++ [0] ∧ ∀ z, (z < 0 ∨ 0 + 16 ≤ z) → incrementCounterBy256 m 0 z = m z := by
  have hsplit : load m 0 16 = load m 0 12 ++ (load m 12 3 ++ load m 15 1) := by
    rw [show 16 = 12 + (3 + 1) from rfl, load_add, load_add]
  rw [hsplit, List.append_assoc] at h
  obtain ⟨h1, h2⟩ := List.append_inj h (by simp [hpre])
  obtain ⟨h3, h4⟩ := List.append_inj h2 (by simp)
  have hinc : incrementCounterBy256 m 0 = store m 12 (beBytes 3 (X + 1)) := by
    unfold incrementCounterBy256
    rw [show 0 + 16 - 4 = 12 from rfl, h3]
    have := incrementCounterByOne_spec 3 (beBytes 3 X) [] (by simp)
    rw [List.append_nil, List.append_nil] at this
    rw [show 4 - 1 = 3 from rfl, this, beVal_beBytes, ← beBytes_mod, Nat.mod_add_mod, beBytes_mod]
  rw [hinc]
  refine ⟨?_, fun z hz => store_out _ _ _ _ (by simp; omega)⟩
  rw [show 16 = 12 + (3 + 1) from rfl, load_add, load_add, load_store_disj _ _ _ _ _ (by simp), h1,
    load_store' _ _ _ _ (by simp), load_store_disj _ _ _ _ _ (by simp), h4, List.append_assoc]

section
variable (E : List Byte → List Byte)

def Rep (v : Start) (i : Nat) (p : Ctr) : Prop := p.register = v.1.register ∧ p.counter = counterBlock v.1.counter i

theorem gctr_ok (hE : ∀ b, b.length = 16 → (E b).length = 16) (par : Nat) (hp : 0 < par) : (gctrPolicy E par).Ok (fun v => keystream E v.1.counter) Rep 0 where
  bpi_pos := show 0 < 16 by decide
  iters_pos := hp
  write := by
    intro v i p n hr hn
    have hpre : (v.1.counter.take 12).length = 12 := by rw [List.length_take, v.2.2]; rfl
    obtain ⟨m', h1, h2, h3, _⟩ := ctrOperate_gen E 16 (by omega) hE 0 incrementCounterBy256 (v.1.counter.take 12) 4 (by omega) (by omega) (inc_spec _ hpre) n n
      (store (fun _ => 0) 0 p.counter) none 16 (beVal (v.1.counter.drop 12) + i) (Nat.le_refl _)
      (by rw [load_store' _ _ _ _ (by rw [hr.2]; exact counterBlock_length _ v.2.2 _), hr.2]; rfl) (by omega) (by intro x hx; cases hx)
    simp only [gctrPolicy, h1]
    refine ⟨⟨hr.1, by rw [h2, Nat.add_assoc]; rfl⟩, ?_⟩
    rw [h3]
    unfold keystream
    rw [load_byBlocks 16 (by omega) (fun k => E (counterBlock v.1.counter k)) (fun k => hE _ (counterBlock_length _ v.2.2 _))]
    simp only [xorIn, Nat.add_assoc]
    rfl
  operate := by
    intro v i p n x _ hr hn hx
    simp only [gctrPolicy] at hx
    have hpre : (v.1.counter.take 12).length = 12 := by rw [List.length_take, v.2.2]; rfl
    have hcl : p.counter.length = 16 := by rw [hr.2]; exact counterBlock_length _ v.2.2 _
    obtain ⟨m', h1, h2, h3, _⟩ := ctrOperate_gen E 16 (by omega) hE 0 incrementCounterBy256 (v.1.counter.take 12) 4 (by omega) (by omega) (inc_spec _ hpre) n n
      (store (store (fun _ => 0) 0 p.counter) 16 x) (some 16) 16 (beVal (v.1.counter.drop 12) + i) (Nat.le_refl _)
      (by rw [load_store_disj _ _ _ _ _ (by omega), load_store' _ _ _ _ hcl, hr.2]; rfl) (by omega)
      (by intro y hy; injection hy with hy; omega)
    simp only [gctrPolicy, h1]
    refine ⟨⟨hr.1, by rw [h2, Nat.add_assoc]; rfl⟩, ?_⟩
    rw [h3]
    unfold keystream
    have hbl : ∀ k, (E (counterBlock v.1.counter k)).length = 16 := fun k => hE _ (counterBlock_length _ v.2.2 _)
    rw [load_byBlocks 16 (by omega) (fun k => E (counterBlock v.1.counter k)) hbl]
    simp only [xorIn, Nat.add_assoc]
    rw [blocksOf_xor 16 n (fun k => E (v.1.counter.take 12 ++ beBytes 4 (beVal (v.1.counter.drop 12) + (i + k)))) _ (fun k _ => hbl (i + k)) (fun k _ => by simp), xorBytes_comm]
    congr 1
    rw [← load_blocks 16, load_store' _ _ _ _ hx]
  seek := by intro v i p j _ h; omega
  resync := by
    intro v i p w _
    refine ⟨rfl, ?_⟩
    show w.1.counter = w.1.counter.take 12 ++ beBytes 4 (beVal (w.1.counter.drop 12) + 0)
    have := beBytes_beVal (w.1.counter.drop 12)
    rw [List.length_drop, w.2.2] at this
    rw [Nat.add_zero, this, List.take_append_drop]

/-- A block boundary can be sought, and the counter is then the register plus the number of the block, as a number of 16 bytes. -/
theorem seek_spec (par : Nat) (v : Start) (q : Nat) (s : Stream.State Ctr) (j : Nat)
    (hi : Stream.Inv (gctrPolicy E par) (fun v => keystream E v.1.counter) Rep v q s) :
    ∃ s', Stream.seek (gctrPolicy E par) s (16 * j) = .ok s' ∧ ∀ w : Start, w.1.register = v.1.register → w.1.counter = beBytes 16 (beVal v.1.register + j) →
      Stream.Inv (gctrPolicy E par) (fun v => keystream E v.1.counter) Rep w 0 s' := by
  obtain ⟨i, hr, _⟩ := hi.rep
  have hreg : s.pol.register.length = 16 := by rw [hr.1]; exact v.2.1
  have hcl : s.pol.counter.length = 16 := by rw [hr.2]; exact counterBlock_length _ v.2.2 _
  have hb : (gctrPolicy E par).bpi = 16 := rfl
  unfold Stream.seek
  rw [hb, Nat.mul_div_cancel_left _ (by omega), Nat.mul_mod_right]
  refine ⟨_, rfl, ?_⟩
  intro w hw1 hw2
  refine ⟨⟨0, ⟨by rw [hw1]; exact hr.1, ?_⟩, by simp⟩, hi.size, hi.pos, Nat.zero_le _, by simp⟩
  show seekLoop s.pol.register 16 j 0 s.pol.counter = counterBlock w.1.counter 0
  rw [seekLoop_spec _ 16 j 0 _ (by omega) (by omega), List.take_of_length_le (by omega), List.drop_eq_nil_of_le (by omega), List.append_nil, hr.1, Nat.add_zero, ← hw2]
  have := beBytes_beVal (w.1.counter.drop 12)
  rw [List.length_drop, w.2.2] at this
  rw [counterBlock, Nat.add_zero, this, List.take_append_drop]

end

end Verif.Gcm
