import Verif.Cipher.Rc

namespace Verif.Cipher

theorem rc5_cancel (s : List W32) (r : Nat) : Cancel (Rc5.enc s r) (Rc5.dec s r (2 * (r + 1))) := by
  have hd : ∀ x, upto r (Rc5.decRound s (2 * (r + 1))) x = downto r (fun j (x : W32 × W32) =>
      let b := rotr (x.2 - nth s (2 + 2 * j + 1)) x.1.toNat ^^^ x.1
      let a := rotr (x.1 - nth s (2 + 2 * j + 0)) b.toNat ^^^ b
      (a, b)) x := by
    intro x
    rw [← upto_rev]
    apply upto_congr
    intro i hi s
    simp only [Rc5.decRound, show 2 * (r + 1) - 2 * (i + 1) = 2 + 2 * (r - 1 - i) by omega]
  have hl : Cancel (upto r (Rc5.encRound s)) (upto r (Rc5.decRound s (2 * (r + 1)))) := by
    have := Cancel.loop (f := Rc5.encRound s) (g := fun j (x : W32 × W32) =>
      let b := rotr (x.2 - nth s (2 + 2 * j + 1)) x.1.toNat ^^^ x.1
      let a := rotr (x.1 - nth s (2 + 2 * j + 0)) b.toNat ^^^ b
      (a, b)) (n := r) (fun i hi => by
        constructor <;> rintro ⟨a, b⟩ <;> simp only [Rc5.encRound, add_sub_cancel', sub_add_cancel', rotr_rotl, rotl_rotr, xor_xor_cancel, xor_xor_cancel_mid, xor_xor_cancel_right])
    rw [funext hd]; exact this
  constructor
  · rintro ⟨a, b⟩
    simp only [Rc5.enc, Rc5.dec, hl.1, add_sub_cancel']
  · rintro x
    simp only [Rc5.enc, Rc5.dec, sub_add_cancel']
    exact hl.2 x

theorem rc6_cancel (s : List W32) (r : Nat) : Cancel (Rc6.enc s r) (Rc6.dec s r (2 * (r + 2))) := by
  have hd : ∀ x, upto r (Rc6.decRound s (2 * (r + 2))) x = downto r (fun j (x : Rc6.St) =>
      let (a, b, c, d) := x
      let (a, b, c, d) := (d, a, b, c)
      let u := rotl (d * (2 * d + 1)) 5
      let t := rotl (b * (2 * b + 1)) 5
      let c := rotr (c - nth s (2 + 2 * j + 1)) t.toNat ^^^ u
      let a := rotr (a - nth s (2 + 2 * j + 0)) u.toNat ^^^ t
      (a, b, c, d)) x := by
    intro x
    rw [← upto_rev]
    apply upto_congr
    intro i hi s
    simp only [Rc6.decRound, show 2 * (r + 2) - 2 * (i + 2) = 2 + 2 * (r - 1 - i) by omega]
  have hl : Cancel (upto r (Rc6.encRound s)) (upto r (Rc6.decRound s (2 * (r + 2)))) := by
    rw [funext hd]
    apply Cancel.loop
    intro i hi
    constructor <;> rintro ⟨a, b, c, d⟩ <;> simp only [Rc6.encRound, add_sub_cancel', sub_add_cancel', rotr_rotl, rotl_rotr, xor_xor_cancel, xor_xor_cancel_mid, xor_xor_cancel_right]
  have e : 2 * (r + 2) - 2 = 2 + 2 * r := by omega
  constructor
  · rintro ⟨a, b, c, d⟩
    simp only [Rc6.enc, Rc6.dec, e, add_sub_cancel', hl.1]
  · rintro ⟨a, b, c, d⟩
    simp only [Rc6.enc, Rc6.dec, e, sub_add_cancel', hl.2]

theorem rc2_mix (K : List Rc2.W16) (i : Nat) : Cancel (Rc2.mixUp K i) (Rc2.mixDown K i) := by
  constructor <;> rintro ⟨a, b, c, d⟩ <;>
    simp only [Rc2.mixUp, Rc2.mixDown, add_sub_cancel', sub_add_cancel', rotr_rotl, rotl_rotr]

theorem rc2_mash (K : List Rc2.W16) : Cancel (Rc2.mash K) (Rc2.unmash K) := by
  constructor <;> rintro ⟨a, b, c, d⟩ <;> simp only [Rc2.mash, Rc2.unmash, add_sub_cancel', sub_add_cancel']

theorem rc2_cancel (K : List Rc2.W16) : Cancel (upto 16 (Rc2.encRound K)) (downto 16 (Rc2.decRound K)) := by
  apply Cancel.loop
  intro i _
  exact Cancel.ite ((rc2_mix K i).comp (rc2_mash K)) (rc2_mix K i)

end Verif.Cipher
