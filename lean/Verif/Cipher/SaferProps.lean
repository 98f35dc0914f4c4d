import Verif.Cipher.Safer
import Verif.Cipher.Props

/-!
# C29, continued: SAFER-K and SAFER-SK
-/
namespace Verif.Cipher.Safer

/-- `exp_tab` holds the powers of 45 modulo 257, with 256 written as 0. -/
theorem exp_power (x : Byte) : EXP x = BitVec.ofNat 8 (45 ^ x.toNat % 257) := by
  have : ∀ v < 256, expTab.getD v 0 = BitVec.ofNat 8 (45 ^ v % 257) := by decide +kernel
  exact this _ x.isLt

theorem LOG_EXP (x : Byte) : LOG (EXP x) = x := by
  have : ∀ v < 256, LOG (expTab.getD v 0) = BitVec.ofNat 8 v := by decide +kernel
  unfold EXP
  rw [this _ x.isLt, BitVec.ofNat_toNat, BitVec.setWidth_eq]

theorem EXP_LOG (x : Byte) : EXP (LOG x) = x := by
  have : ∀ v < 256, EXP (logTab.getD v 0) = BitVec.ofNat 8 v := by decide +kernel
  unfold LOG
  rw [this _ x.isLt, BitVec.ofNat_toNat, BitVec.setWidth_eq]

theorem pht (x y : Byte) : IPHT (PHT x y).1 (PHT x y).2 = (x, y) := by
  unfold IPHT PHT
  dsimp only
  rw [BitVec.add_sub_cancel, BitVec.add_sub_cancel]

theorem ipht (x y : Byte) : PHT (IPHT x y).1 (IPHT x y).2 = (x, y) := by
  unfold IPHT PHT
  dsimp only
  rw [BitVec.sub_add_cancel, BitVec.sub_add_cancel]

theorem xor2 (x k : Byte) : x ^^^ k ^^^ k = x := by rw [BitVec.xor_assoc, BitVec.xor_self, BitVec.xor_zero]

theorem key_cancel (k : List Byte) (p : Nat) : Cancel (addKey k p) (subKey k p) := by
  constructor <;> intro s <;> cases s <;> simp only [addKey, subKey, xor2, BitVec.add_sub_cancel, BitVec.sub_add_cancel]

theorem sub_cancel (k : List Byte) (p : Nat) : Cancel (fun s => substitute k p (addKey k p s)) (fun s => desubstitute k p (takeOff k p s)) := by
  constructor <;> intro s <;> cases s <;> simp only [addKey, substitute, desubstitute, takeOff, xor2, BitVec.add_sub_cancel, BitVec.sub_add_cancel, LOG_EXP, EXP_LOG]

theorem layers_cancel : Cancel (layer1 PHT) (layer1 IPHT) ∧ Cancel (layer2 PHT) (layer2 IPHT) ∧ Cancel (layer3 PHT) (layer3 IPHT) := by
  refine ⟨⟨?_, ?_⟩, ⟨?_, ?_⟩, ⟨?_, ?_⟩⟩ <;> intro s <;> cases s <;> simp only [layer1, layer2, layer3, pht, ipht]

theorem shuffle_cancel : Cancel shuffle unshuffle := by
  constructor <;> intro s <;> cases s <;> rfl

theorem round_cancel (k : List Byte) (i : Nat) : Cancel (encRound k i) (decRound k i) :=
  ((((sub_cancel k (16 * i)).comp layers_cancel.1).comp layers_cancel.2.1).comp layers_cancel.2.2).comp shuffle_cancel

theorem cancel (k : List Byte) (rounds : Nat) : Cancel (enc k rounds) (dec k rounds) :=
  (Cancel.loop fun i _ => round_cancel k i).comp (key_cancel k (16 * rounds))

theorem pair8 {f g : Oct → Oct} (h : Cancel f g) : Pair 8 (on8 f) (on8 g) := by
  intro l hl
  match l, hl with
  | [a, b, c, d, e, f', g', h'], _ =>
    refine ⟨rfl, ?_, rfl, ?_⟩
    · show [(g (f _)).a, (g (f _)).b, (g (f _)).c, (g (f _)).d, (g (f _)).e, (g (f _)).f, (g (f _)).g, (g (f _)).h] = _
      rw [h.1]
    · show [(f (g _)).a, (f (g _)).b, (f (g _)).c, (f (g _)).d, (f (g _)).e, (f (g _)).f, (f (g _)).g, (f (g _)).h] = _
      rw [h.2]

theorem expand_length (str : Bool) (n : Nat) : ∀ i ka kb, (expand str n i ka kb).length = 16 * n := by
  induction n with
  | zero => intros; rfl
  | succ n ih => intro i ka kb; unfold expand; dsimp only; rw [List.length_append, ih]; simp; omega

theorem schedule_length (str : Bool) (key : List Byte) (hk : key.length = 8 ∨ key.length = 16) (n : Nat) : (schedule str key n).length = 8 + 16 * n := by
  unfold schedule
  dsimp only
  rw [List.length_append, expand_length]
  congr 1
  split
  · assumption
  · simp; omega

/-- C29, SAFER-K and SAFER-SK. -/
theorem _root_.Verif.Cipher.safer_inverse {str : Bool} {key : List Byte} {rounds : Option Int} {c : Keyed} (h : setKey str key rounds = .ok c) : c.Inverse := by
  unfold setKey at h
  by_cases hk : key.length ≠ 8 ∧ key.length ≠ 16
  · rw [if_pos hk] at h; cases h
  rw [if_neg hk] at h
  generalize ((rounds.getD (if key.length = 8 then (if str then 8 else 6) else 10)) % 2 ^ 32).toNat = r at h
  dsimp only at h
  generalize (if 13 < r then 13 else r) = n at h
  by_cases hb : 1 + (schedule str key n).length > (1 + 8 * (1 + 2 * r)) % 2 ^ 32
  · rw [if_pos hb] at h; cases h
  · rw [if_neg hb] at h
    cases h; exact pair8 (cancel _ _)

/-- The keys and round numbers of the documentation are accepted. -/
theorem _root_.Verif.Cipher.safer_accepts (str : Bool) (key : List Byte) (hk : key.length = 8 ∨ key.length = 16) (rounds : Option Int) (hr : ∀ r, rounds = some r → 1 ≤ r ∧ r ≤ 13) :
    ∃ c, setKey str key rounds = .ok c := by
  have hd : 0 ≤ rounds.getD (if key.length = 8 then (if str then 8 else 6) else 10) ∧ rounds.getD (if key.length = 8 then (if str then 8 else 6) else 10) ≤ 13 := by
    cases rounds with
    | none => dsimp only [Option.getD]; repeat' split
              all_goals omega
    | some r => have := hr r rfl; dsimp only [Option.getD]; omega
  unfold setKey
  rw [if_neg (by omega)]
  dsimp only
  generalize rounds.getD (if key.length = 8 then (if str then 8 else 6) else 10) = r at hd ⊢
  rw [schedule_length str key hk, if_neg (by split <;> omega), if_neg (by omega)]
  exact ⟨_, rfl⟩

/-- A number of rounds of 2^28 is not refused: the buffer has 9 bytes and 217 are written. -/
theorem _root_.Verif.Cipher.safer_rounds_overflow (str : Bool) (key : List Byte) (hk : key.length = 8 ∨ key.length = 16) : setKey str key (some (2 ^ 28)) = .error .undefinedBehaviour := by
  unfold setKey
  rw [if_neg (by omega)]
  have e : (((some (2 ^ 28) : Option Int).getD (if key.length = 8 then (if str then 8 else 6) else 10)) % 2 ^ 32).toNat = 2 ^ 28 := by
    dsimp only [Option.getD]; decide
  rw [e]
  dsimp only
  rw [schedule_length str key hk]
  exact if_pos (by decide)

theorem setKey_some (str : Bool) (key : List Byte) (hk : key.length = 8 ∨ key.length = 16) (r : Nat) (hr : r < 2 ^ 27) :
    setKey str key (some r) = .ok ⟨8, on8 (enc (schedule str key (if 13 < r then 13 else r)) (if 13 < r then 13 else r)), on8 (dec (schedule str key (if 13 < r then 13 else r)) (if 13 < r then 13 else r))⟩ := by
  have e : (((some (r : Int)).getD (if key.length = 8 then (if str then 8 else 6) else 10)) % 2 ^ 32).toNat = r := by
    dsimp only [Option.getD]; omega
  unfold setKey
  rw [if_neg (by omega)]
  simp only [e]
  rw [schedule_length str key hk]
  exact if_neg (by split <;> omega)

/-- 14 or more rounds are not refused either: 13 are done. -/
theorem _root_.Verif.Cipher.safer_rounds_clamped (str : Bool) (key : List Byte) (hk : key.length = 8 ∨ key.length = 16) (r : Nat) (hr : 13 ≤ r ∧ r < 2 ^ 27) :
    setKey str key (some r) = setKey str key (some 13) := by
  rw [setKey_some str key hk r (by omega), show (13 : Int) = ((13 : Nat) : Int) from rfl, setKey_some str key hk 13 (by omega)]
  have e3 : (if 13 < r then 13 else r) = 13 := by split <;> omega
  rw [e3, if_neg (show ¬ (13 < 13) by omega)]

/-- Without rounds, which the documentation excludes, the cipher only adds the key. -/
theorem _root_.Verif.Cipher.safer_no_rounds : encrypts (setKey false (hex 8 0) (some 0)) (hex 8 0x0102030405060708) (hex 8 0x0102030405060708) = true := by decide +kernel

example : encrypts (setKey false (hex 8 0x0102030405060708) (some 6)) (hex 8 0x1011121314151617) (hex 8 0x71E5CF7F083A59C5) = true := by decide +kernel
example : encrypts (setKey false (hex 16 0x01020304050607080807060504030201) (some 12)) (hex 8 0x6061626364656667) (hex 8 0x113511C22E7936DF) = true := by decide +kernel
example : encrypts (setKey true (hex 8 0x0102030405060708) (some 6)) (hex 8 0x8081828384858687) (hex 8 0x54E72BA2D744C566) = true := by decide +kernel
example : encrypts (setKey true (hex 16 0x00000000000000000102030405060708) (some 10)) (hex 8 0xA0A1A2A3A4A5A6A7) (hex 8 0x5CBD77B03626FE3B) = true := by decide +kernel

end Verif.Cipher.Safer
