import Verif.Ghash.Steps

/-!
# C39: GHASH by tables is the GHASH of SP 800-38D

`AuthenticateBlocks` on the tables that `SetKeyWithoutResync` makes gives, for both table sizes, both byte orders of the machine and whatever the memory of the tables held before, the number that
algorithms 1 and 2 of the standard define, one bit at a time, on the whole blocks of the input; and it returns how many bytes it left.
-/
namespace Verif.Ghash

open Spec

theorem blockLoop_spec (o : ByteOrder) (H : Nat) (hH : H < 2 ^ 128) (step : Nat × Nat → Nat × Nat) (hstep : ∀ bs : List Byte, bs.length = 16 → step (getWords o bs) = W o (mul (beVal bs) H)) :
    ∀ (n : Nat) (Y : Nat) (data : List Byte), Y < 2 ^ 128 → 16 * n ≤ data.length → blockLoop o step n (W o Y) data = W o (ghash H Y (chunks 16 (data.take (16 * n)))) := by
  intro n
  induction n with
  | zero => intro Y data _ _; rfl
  | succ n ih =>
    intro Y data hY hl
    have hlen : (data.take 16).length = 16 := by simp; omega
    have hsplit : data.take (16 * (n + 1)) = data.take 16 ++ (data.drop 16).take (16 * n) := by
      rw [show 16 * (n + 1) = 16 + 16 * n by omega, List.take_add]
    have hne : data.take (16 * (n + 1)) ≠ [] := by
      intro h; have := congrArg List.length h; rw [List.length_take, List.length_nil] at this; omega
    rw [chunks_of_ne_nil 16 (by omega) _ hne, hsplit, List.take_left' hlen, List.drop_left' hlen]
    show blockLoop o step n (step (xor2 (W o Y) (getWords o data))) (data.drop 16) = W o (ghash H (mul (Y ^^^ beVal (data.take 16)) H) _)
    have hg : getWords o data = getWords o (data.take 16) := by
      unfold getWords
      rw [List.take_take, List.drop_take, List.take_take]; rfl
    have hx : Y ^^^ beVal (data.take 16) < 2 ^ 128 := Nat.xor_lt_two_pow hY (beVal_lt128 _ hlen)
    rw [hg, getWords_beVal o _ hlen, W_xor o _ _ hY (beVal_lt128 _ hlen)]
    have hs := hstep (beBytes 16 (Y ^^^ beVal (data.take 16))) (by simp)
    rw [beVal_beBytes, Nat.mod_eq_of_lt (by rw [show (256 : Nat) ^ 16 = 2 ^ 128 by decide]; exact hx)] at hs
    show blockLoop o step n (step (getWords o (beBytes 16 (Y ^^^ beVal (data.take 16))))) (data.drop 16) = _
    rw [hs]
    exact ih _ _ (mul_lt H hH _) (by simp; omega)

/-- C39. `t` and `t'` are what the memory of the tables held before the key was set. -/
theorem ghash_exact (o : ByteOrder) (large : Bool) (hashKey hash data : List Byte) (t : Nat → List Byte) (t' : Nat → Nat) (hk : hashKey.length = 16) (hh : hash.length = 16) (hd : 16 ≤ data.length) :
    authenticateBlocks o large (mulTable large hashKey t) (reductionTable t') hash data =
      .ok (beBytes 16 (ghash (beVal hashKey) (beVal hash) (chunks 16 (data.take (16 * (data.length / 16))))), data.length % 16) := by
  unfold authenticateBlocks
  rw [if_neg (by omega)]
  have hl := beVal_lt128 hash hh
  have hstep : ∀ bs : List Byte, bs.length = 16 → (if large then step64 o (mulTable large hashKey t) else step2 o (mulTable large hashKey t) (reductionTable t')) (getWords o bs) = W o (mul (beVal bs) (beVal hashKey)) := by
    intro bs hb
    cases large
    · exact step2_eq o hashKey hk t t' bs hb
    · exact step64_eq o hashKey hk t bs hb
  rw [getWords_beVal o hash hh, blockLoop_spec o (beVal hashKey) (beVal_lt128 _ hk) _ hstep _ _ _ hl (by omega)]
  rw [W, putWords_getWords o _ (by simp)]

/-- The tables and the byte order do not matter. -/
theorem ghash_tables_agree (o o' : ByteOrder) (large large' : Bool) (hashKey hash data : List Byte) (t u : Nat → List Byte) (t' u' : Nat → Nat) (hk : hashKey.length = 16) (hh : hash.length = 16) :
    authenticateBlocks o large (mulTable large hashKey t) (reductionTable t') hash data = authenticateBlocks o' large' (mulTable large' hashKey u) (reductionTable u') hash data := by
  by_cases hd : 16 ≤ data.length
  · rw [ghash_exact o large hashKey hash data t t' hk hh hd, ghash_exact o' large' hashKey hash data u u' hk hh hd]
  · unfold authenticateBlocks
    rw [if_pos (by omega), if_pos (by omega)]

theorem ghash_append (H : Nat) : ∀ (a : List (List Byte)) (Y : Nat) (b : List (List Byte)), ghash H Y (a ++ b) = ghash H (ghash H Y a) b := by
  intro a
  induction a with
  | nil => intro Y b; rfl
  | cons x a ih => intro Y b; exact ih _ b

/-- Whole blocks given in one call, or in two, make no difference. -/
theorem ghash_split (o : ByteOrder) (large : Bool) (hashKey hash d1 d2 : List Byte) (t : Nat → List Byte) (t' : Nat → Nat) (hk : hashKey.length = 16) (hh : hash.length = 16)
    (h1 : 16 ≤ d1.length) (h1' : d1.length % 16 = 0) (h2 : 16 ≤ d2.length) :
    ∃ mid, authenticateBlocks o large (mulTable large hashKey t) (reductionTable t') hash d1 = .ok (mid, 0) ∧
      authenticateBlocks o large (mulTable large hashKey t) (reductionTable t') mid d2 = authenticateBlocks o large (mulTable large hashKey t) (reductionTable t') hash (d1 ++ d2) := by
  have hlt : ∀ (a : List (List Byte)) (Y : Nat), Y < 2 ^ 128 → ghash (beVal hashKey) Y a < 2 ^ 128 := by
    intro a
    induction a with
    | nil => intro Y h; exact h
    | cons x a ih => intro Y h; exact ih _ (mul_lt _ (beVal_lt128 _ hk) _)
  refine ⟨_, by rw [ghash_exact o large hashKey hash d1 t t' hk hh h1, h1'], ?_⟩
  rw [ghash_exact o large hashKey _ d2 t t' hk (by simp) h2, ghash_exact o large hashKey hash (d1 ++ d2) t t' hk hh (by simp; omega)]
  rw [beVal_beBytes, Nat.mod_eq_of_lt (by rw [show (256 : Nat) ^ 16 = 2 ^ 128 by decide]; exact hlt _ _ (beVal_lt128 _ hh)), ← ghash_append]
  have e1 : d1.take (16 * (d1.length / 16)) = d1 := List.take_of_length_le (by omega)
  have e2 : (d1 ++ d2).take (16 * ((d1 ++ d2).length / 16)) = d1 ++ d2.take (16 * (d2.length / 16)) := by
    rw [List.length_append, List.take_append, List.take_of_length_le (by omega)]
    congr 2; omega
  have e3 : (d1 ++ d2).length % 16 = d2.length % 16 := by rw [List.length_append]; omega
  rw [e1, e2, e3, ← chunks_append 16 (by omega) d1 _ (by omega)]

/-- Test case 2 of the GCM specification: one block of ciphertext and the block of lengths. -/
example : authenticateBlocks .little false
    (mulTable false (beBytes 16 0x66e94bd4ef8a2c3b884cfa59ca342b2e) (fun _ => List.replicate 16 0xaa)) (reductionTable (fun _ => 7)) (List.replicate 16 0)
    (beBytes 16 0x0388dace60b6a392f328c2b971b2fe78 ++ beBytes 16 0x80 ++ [1, 2, 3]) = .ok (beBytes 16 0xf38cbb1ad69223dcc3457ae5b6b0f885, 3) := by
  rw [ghash_exact _ _ _ _ _ _ _ (by simp) (by simp) (by simp)]
  decide +kernel

end Verif.Ghash
