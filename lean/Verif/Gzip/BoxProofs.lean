import Verif.Gzip.UnProofs
import Verif.Gzip.Spec
import Verif.Checksum.Props

/-! # `Gunzip` and `ZlibDecompressor` -/
namespace Verif.Gzip

open Verif.Flate
open Verif.Gzip.Spec (IsTail IsMember IsZHeader IsZlib zeroEnded extraField)
open Verif.Checksum (IsCrc crc32Poly adlerDigest adlerRep isCrc_unique Computes)

theorem getBytes_app {n : Nat} {a : List Byte} (q : List Byte) (h : a.length = n) : getBytes n (a ++ q) = .ok (a, q) := by
  subst h
  rw [getBytes, if_neg (by simp), List.take_left, List.drop_left]

theorem getString_app (n q : List Byte) (h : 0 ∉ n) : getString (n ++ ([0] ++ q)) = .ok (n, q) := by
  induction n with
  | nil => rfl
  | cons b n ih =>
    have hb : b ≠ 0 := fun e => h (by rw [e]; exact List.mem_cons_self)
    rw [List.cons_append, getString, if_neg hb, ih fun e => h (List.mem_cons_of_mem _ e)]

/-- What `Gunzip` keeps of a header. -/
def infoOf (h : Spec.Header) : Info := ⟨h.time, h.name.getD [], h.comment.getD []⟩

theorem flag_facts : ∀ t e n c : Bool, let F : Byte := BitVec.ofNat 8 ((if t then 1 else 0) + (if false then 2 else 0) + (if e then 4 else 0) + (if n then 8 else 0) + (if c then 16 else 0))
    flag F (32 ||| 2) = false ∧ flag F 4 = e ∧ flag F 8 = n ∧ flag F 16 = c := by decide

theorem getExtra (e : Option (List Byte)) (he : ∀ x, e = some x → x.length < 2 ^ 16) (q : List Byte) :
    (if e.isSome = true then do
        let (n, q) ← getBytes 2 (extraField e ++ q)
        getBytes (leVal n) q
      else Except.ok ([], extraField e ++ q)) = .ok (e.getD [], q) := by
  cases e with
  | none => rfl
  | some e =>
    simp only [Option.isSome_some, if_true, extraField, List.append_assoc]
    rw [getBytes_app _ (leBytes_length _ _)]
    simp only [bind, Except.bind]
    rw [getBytes_app]
    · rfl
    · rw [leVal_leBytes, Nat.mod_eq_of_lt (by have := he e rfl; omega)]

theorem getZero (n : Option (List Byte)) (hn : ∀ x, n = some x → 0 ∉ x) (q : List Byte) :
    (if n.isSome = true then getString (zeroEnded n ++ q) else Except.ok ([], zeroEnded n ++ q)) = .ok (n.getD [], q) := by
  cases n with
  | none => rfl
  | some n =>
    simp only [Option.isSome_some, if_true, zeroEnded, List.append_assoc]
    exact getString_app n q (hn n rfl)

theorem gunHeader_spec (h : Spec.Header) (hv : h.Valid) (hc : h.headerCrc = none) (q : List Byte) : gunHeader (h.bytes ++ q) = .ok ({ info := infoOf h }, q) := by
  have ht : leVal (leBytes 4 h.time) = h.time := by rw [leVal_leBytes, Nat.mod_eq_of_lt (by have := hv.time; omega)]
  have hg : ∀ a b : Byte, ∀ r, getBytes 2 (a :: b :: r) = .ok ([a, b], r) := fun a b r => getBytes_app (a := [a, b]) r rfl
  obtain ⟨f1, f2, f3, f4⟩ := flag_facts h.text h.extra.isSome h.name.isSome h.comment.isSome
  have hf : h.flags = (if h.text then 1 else 0) + (if false then 2 else 0) + (if h.extra.isSome then 4 else 0) + (if h.name.isSome then 8 else 0) + (if h.comment.isSome then 16 else 0) := by
    rw [Spec.Header.flags, hc]; rfl
  rw [← hf] at f1 f2 f3 f4
  have hb : h.bytes ++ q = 0x1f :: 0x8b :: 8 :: BitVec.ofNat 8 h.flags :: (leBytes 4 h.time ++ (h.extraFlags :: h.os ::
      (extraField h.extra ++ (zeroEnded h.name ++ (zeroEnded h.comment ++ q))))) := by
    rw [Spec.Header.bytes, hc, Spec.Header.plain]
    simp only [Option.getD_none, List.append_nil, List.append_assoc, List.cons_append, List.nil_append]
  rw [hb]
  unfold gunHeader
  rw [hg]
  simp only [bind, Except.bind, getByte, ne_eq, not_true_eq_false, if_false, f1, Bool.false_eq_true]
  rw [getBytes_app _ (leBytes_length 4 h.time)]
  simp only []
  rw [hg]
  simp only [f2, f3, f4]
  have e1 := getExtra h.extra hv.extra (zeroEnded h.name ++ (zeroEnded h.comment ++ q))
  simp only [bind, Except.bind] at e1
  rw [e1]
  simp only []
  rw [getZero h.name hv.name]
  simp only []
  rw [getZero h.comment hv.comment]
  simp only [ht]
  rfl

/-- The headers `Gunzip` reads, and what it keeps. -/
def GHdr (b : List Byte) (i : Info) : Prop := ∃ h : Spec.Header, h.Valid ∧ h.headerCrc = none ∧ b = h.bytes ∧ i = infoOf h

theorem crc32_ok (o : ByteOrder) : ∃ H Rep, Computes (Checksum.crc32 o) H Rep ∧ ∀ m, IsCrc crc32Poly m (H m) :=
  Checksum.crc_computes Checksum.crc32_table Checksum.crc32_swap crc32Poly Checksum.crc32_poly o

theorem isCrc_uniq {m d e : List Byte} (h1 : IsCrc crc32Poly m d) (h2 : IsCrc crc32Poly m e) : d = e := isCrc_unique crc32Poly (by decide) m d e h1 h2

theorem gunzip_ok (o : ByteOrder) : ∃ Rep, BoxOk (gunzip o) Gun.info Rep GHdr IsTail := by
  obtain ⟨H, Rep, hC, hH⟩ := crc32_ok o
  refine ⟨fun g m => Rep g.crc m ∧ g.length = m.length % 2 ^ 32, ⟨(by decide : 1 ≤ 1024), (by decide : 3 ≤ 8), ?_, ?_, fun _ _ => rfl, ?_, ?_⟩⟩
  · rintro b i q ⟨h, h1, h2, rfl, rfl⟩
    exact ⟨_, gunHeader_spec h h1 h2 q, rfl, hC.init, rfl⟩
  · rintro x m d ⟨h1, h2⟩
    refine ⟨hC.update _ _ _ _ h1, ?_⟩
    show (x.length + d.length) % 2 ^ 32 = _
    rw [h2, List.length_append, Nat.mod_add_mod]
  · rintro x m t q ⟨h1, h2⟩ ht ⟨c, k1, rfl⟩
    obtain ⟨r, e1, e2⟩ := hC.final x.crc m 4 h1 (Nat.le_refl _)
    have hc : c = H m := isCrc_uniq k1 (hH m)
    have hl : c.length = 4 := k1.1
    rw [← hc, List.take_of_length_le (by omega)] at e1
    refine ⟨{ x with crc := r }, ?_, rfl⟩
    show gunTail o x _ = _
    rw [List.append_assoc, gunTail, getBytes_app _ hl]
    simp only [bind, Except.bind]
    rw [e1]
    simp only [ne_eq, not_true_eq_false, if_false]
    rw [getBytes_app _ (leBytes_length _ _)]
    simp only []
    rw [leVal_leBytes, if_neg (by rw [h2]; omega)]
  · rintro x m t q ⟨h1, h2⟩ ht hn
    obtain ⟨r, e1, e2⟩ := hC.final x.crc m 4 h1 (Nat.le_refl _)
    rw [List.take_of_length_le (by have := (hH m).1; omega)] at e1
    have ht8 : t.length = 8 := ht
    show gunTail o x _ = _
    have e : t ++ q = t.take 4 ++ (t.drop 4 ++ q) := by rw [← List.append_assoc, List.take_append_drop]
    rw [e, gunTail, getBytes_app _ (by rw [List.length_take]; omega)]
    simp only [bind, Except.bind]
    rw [e1]
    simp only []
    by_cases hc : t.take 4 = H m
    · rw [if_neg (fun h => h hc), getBytes_app _ (by rw [List.length_drop]; omega)]
      simp only []
      rw [if_pos]
      intro hl
      refine hn ⟨H m, hH m, ?_⟩
      rw [← hc, ← h2, ← hl]
      have := leBytes_leVal (t.drop 4)
      rw [show (t.drop 4).length = 4 by rw [List.length_drop]; omega] at this
      rw [this, List.take_append_drop]
    · rw [if_pos hc]

/-! ## zlib -/

theorem zbytes : (∀ b : Byte, (b &&& 0xf) = BitVec.ofNat 8 (b.toNat % 16)) ∧ ∀ b : Byte, (b >>> 4).toNat = b.toNat / 16 := by
  refine ⟨fun b => BitVec.eq_of_toNat_eq ?_, fun b => ?_⟩
  · rw [BitVec.toNat_and, BitVec.toNat_ofNat]
    have : (0xf : Byte).toNat = 2 ^ 4 - 1 := rfl
    rw [this, Nat.and_two_pow_sub_one_eq_mod]
    omega
  · rw [BitVec.toNat_ushiftRight, Nat.shiftRight_eq_div_pow]

theorem zflag (b : Byte) : flag b 32 = decide (b.toNat / 32 % 2 = 1) := by
  have : ∀ n : Fin 256, flag (BitVec.ofFin n) 32 = decide (n.val / 32 % 2 = 1) := by decide +kernel
  exact this b.toFin

theorem zunlib_ok (W : Nat) (hW : 32 ≤ W) : BoxOk (zunlib W) (fun _ => ()) adlerRep (fun b _ => IsZHeader 15 b) (fun m t => t = adlerDigest m) := by
  have hC := Checksum.adler_computes W hW
  have hlen : ∀ m, (adlerDigest m).length = 4 := fun m => by simp [adlerDigest]
  refine ⟨(by decide : 1 ≤ 2), (by decide : 3 ≤ 4), ?_, fun x m d h => hC.update x m 0 d h, fun _ _ => rfl, ?_, ?_⟩
  · rintro b i q ⟨cmf, flg, rfl, h1, h2, h3, h4⟩
    refine ⟨(1, 0), ?_, rfl, hC.init⟩
    show zunHeader _ = _
    rw [zunHeader]
    simp only [List.cons_append, List.nil_append, getByte, bind, Except.bind]
    rw [if_neg (by omega), if_neg (by rw [zbytes.1, h1]; decide), if_neg (by rw [zflag]; simp; omega), if_neg (by rw [zbytes.2]; omega)]
  · rintro x m t q h ht rfl
    obtain ⟨r, e1, e2⟩ := hC.final x m 4 h (Nat.le_refl _)
    rw [List.take_of_length_le (by have := hlen m; omega)] at e1
    refine ⟨r, ?_, rfl⟩
    have h4 := hlen m
    rw [show (zunlib W).tail = zunTail W from rfl, zunTail, if_neg (by rw [List.length_append]; omega), List.take_left' h4, List.drop_left' h4, e1]
    simp only [bind, Except.bind, ne_eq, not_true_eq_false, if_false]
  · rintro x m t q h ht hn
    obtain ⟨r, e1, e2⟩ := hC.final x m 4 h (Nat.le_refl _)
    rw [List.take_of_length_le (by have := hlen m; omega)] at e1
    have h4 : t.length = 4 := ht
    rw [show (zunlib W).tail = zunTail W from rfl, zunTail, if_neg (by rw [List.length_append]; omega), List.take_left' h4, e1]
    simp only [bind, Except.bind]
    rw [if_pos hn]

end Verif.Gzip
