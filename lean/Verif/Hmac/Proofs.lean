import Verif.Hmac.Spec

namespace Verif.Hmac
open Verif.Hash

variable {σ : Type} {O : Obj σ} {H : List Byte → List Byte} {lim : Nat} {Rep : σ → List Byte → Prop}

theorem bind_ok {α β : Type} (a : α) (f : α → Except Err β) : (Except.ok a >>= f) = f a := rfl

theorem write_mid (a x y b : List Byte) (h : x.length = y.length) : write (a ++ y ++ b) a.length x = .ok (a ++ x ++ b) := by
  unfold write
  rw [if_pos (by simp only [List.length_append]; omega)]
  rw [List.append_assoc a y b, List.take_left', List.drop_append, List.drop_append, List.drop_eq_nil_of_le (as := a) (by omega),
    List.drop_eq_nil_of_le (as := y) (by omega)]
  · rw [List.nil_append, List.nil_append, show a.length + x.length - a.length - y.length = 0 by omega, List.drop_zero]
  · rfl

theorem read_mid (a x b : List Byte) : read (a ++ x ++ b) a.length x.length = .ok x := by
  unfold read
  rw [if_pos (by simp only [List.length_append]; omega), List.append_assoc, List.drop_left', List.take_left']
  · rfl
  · rfl

theorem padLoop_spec (x : List Byte) (O : Obj σ) : ∀ (rest a c tail : List Byte), a.length + rest.length = O.blockSize → c.length = rest.length →
    padLoop O rest.length a.length (a.map (· ^^^ 0x36) ++ rest ++ (a.map (· ^^^ 0x5c) ++ c ++ tail)) =
      .ok ((a ++ rest).map (· ^^^ 0x36) ++ ((a ++ rest).map (· ^^^ 0x5c) ++ tail)) := by
  intro rest
  induction rest with
  | nil =>
    intro a c tail h1 h2
    have : c = [] := List.eq_nil_of_length_eq_zero h2
    subst this
    simp [padLoop]
  | cons r rest ih =>
    intro a c tail h1 h2
    cases c with
    | nil => simp at h2
    | cons c0 c =>
      simp only [List.length_cons] at h1 h2
      simp only [List.length_cons, padLoop]
      have e1 : read (a.map (· ^^^ 0x36) ++ r :: rest ++ (a.map (· ^^^ 0x5c) ++ c0 :: c ++ tail)) a.length 1 = .ok [r] := by
        have := read_mid (a.map (· ^^^ 0x36)) [r] (rest ++ (a.map (· ^^^ 0x5c) ++ c0 :: c ++ tail))
        simpa using this
      rw [e1, bind_ok]
      have e2 : write (a.map (· ^^^ 0x36) ++ r :: rest ++ (a.map (· ^^^ 0x5c) ++ c0 :: c ++ tail)) (O.blockSize + a.length) ([r].map (· ^^^ 0x5c)) =
          .ok (a.map (· ^^^ 0x36) ++ r :: rest ++ (a.map (· ^^^ 0x5c)) ++ [r ^^^ 0x5c] ++ (c ++ tail)) := by
        have := write_mid (a.map (· ^^^ 0x36) ++ r :: rest ++ a.map (· ^^^ 0x5c)) [r ^^^ 0x5c] [c0] (c ++ tail) rfl
        have hl : (a.map (· ^^^ 0x36) ++ r :: rest ++ a.map (· ^^^ 0x5c)).length = O.blockSize + a.length := by
          simp only [List.length_append, List.length_map, List.length_cons]; omega
        rw [hl] at this
        simpa using this
      rw [e2, bind_ok]
      have e3 : write (a.map (· ^^^ 0x36) ++ r :: rest ++ (a.map (· ^^^ 0x5c)) ++ [r ^^^ 0x5c] ++ (c ++ tail)) a.length ([r].map (· ^^^ 0x36)) =
          .ok (a.map (· ^^^ 0x36) ++ [r ^^^ 0x36] ++ (rest ++ (a.map (· ^^^ 0x5c)) ++ [r ^^^ 0x5c] ++ (c ++ tail))) := by
        have := write_mid (a.map (· ^^^ 0x36)) [r ^^^ 0x36] [r] (rest ++ (a.map (· ^^^ 0x5c)) ++ [r ^^^ 0x5c] ++ (c ++ tail)) rfl
        simpa using this
      rw [e3, bind_ok]
      have := ih (a ++ [r]) c tail (by simp only [List.length_append, List.length_singleton]; omega) (by omega)
      simp only [List.length_append, List.length_singleton] at this
      simpa using this

/-- The object holds `key` and has been given the message `m`. -/
structure Inv (O : Obj σ) (H : List Byte → List Byte) (Rep : σ → List Byte → Prop) (s : State σ) (key m : List Byte) : Prop where
  buf : ∃ inner, inner.length = O.digestSize ∧
    s.buf = (blockKey H O.blockSize key).map (· ^^^ 0x36) ++ ((blockKey H O.blockSize key).map (· ^^^ 0x5c) ++ inner)
  unkeyed : s.keyed = false → m = [] ∧ Rep s.hash []
  keyed : s.keyed = true → Rep s.hash ((blockKey H O.blockSize key).map (· ^^^ 0x36) ++ m)

/-- The object may not have a key yet; in any case its hash object is in a known state. -/
def Pre (Rep : σ → List Byte → Prop) (s : State σ) : Prop := (s.keyed = false → Rep s.hash []) ∧ (s.keyed = true → ∃ m, Rep s.hash m)

theorem Inv.pre {s : State σ} {key m : List Byte} (h : Inv O H Rep s key m) : Pre Rep s :=
  ⟨fun e => (h.unkeyed e).2, fun e => ⟨_, h.keyed e⟩⟩

section
variable (C : O.Computes H lim Rep) (hdB : O.digestSize ≤ O.blockSize) (hB : O.blockSize ≠ 0) (hlim : O.blockSize + O.digestSize < lim)
include C hdB

theorem blockKey_length (key : List Byte) : (blockKey H O.blockSize key).length = O.blockSize := by
  unfold blockKey
  dsimp only
  split
  · rw [List.length_append, List.length_replicate, C.length]; omega
  · rw [List.length_append, List.length_replicate]; omega

include hB

theorem setKey_spec (s : State σ) (key fresh : List Byte) (hp : Pre Rep s) (hk : key.length < lim)
    (hf : 2 * O.blockSize + O.digestSize ≤ fresh.length) : ∃ s', setKey O s fresh key = .ok s' ∧ Inv O H Rep s' key [] := by
  have hr : (restart O s).keyed = false ∧ Rep (restart O s).hash [] := by
    unfold restart
    cases hkd : s.keyed with
    | false => simp only [Bool.false_eq_true, if_false]; exact ⟨hkd, hp.1 hkd⟩
    | true => simp only [if_true]; obtain ⟨m, hm⟩ := hp.2 hkd; exact ⟨trivial, C.restart _ _ hm⟩
  unfold setKey
  rw [if_neg hB]
  generalize restart O s = s1 at *
  have hfl : (fresh.take (2 * O.blockSize + O.digestSize)).length = 2 * O.blockSize + O.digestSize := by rw [List.length_take]; omega
  generalize fresh.take (2 * O.blockSize + O.digestSize) = f at *
  have hcopy : ∃ h k, copyKey O s1.hash f key = .ok (h, k ++ f.drop k.length, k.length) ∧ Rep h [] ∧
      k = (if key.length > O.blockSize then H key else key) ∧ k.length ≤ O.blockSize := by
    unfold copyKey
    by_cases hc : key.length ≤ O.blockSize
    · rw [if_pos hc, write, if_pos (by omega)]
      refine ⟨s1.hash, key, ?_, hr.2, by rw [if_neg (by omega)], hc⟩
      simp [bind_ok]
    · rw [if_neg hc]
      obtain ⟨h', e, r⟩ := C.calculateDigest s1.hash [] key hr.2 (by simpa using hk)
      rw [e, bind_ok]
      dsimp only
      have hl := C.length key
      rw [List.nil_append, write, if_pos (by omega)]
      refine ⟨h', H key, ?_, r, by rw [if_pos (by omega)], by omega⟩
      simp [bind_ok, hl]
  obtain ⟨h', k, e, r, hk1, hk2⟩ := hcopy
  rw [e, bind_ok]
  dsimp only
  rw [if_neg (by omega)]
  have e2 : write (k ++ f.drop k.length) k.length (List.replicate (O.blockSize - k.length) 0) =
      .ok (k ++ List.replicate (O.blockSize - k.length) 0 ++ f.drop O.blockSize) := by
    have := write_mid k (List.replicate (O.blockSize - k.length) 0) ((f.drop k.length).take (O.blockSize - k.length)) ((f.drop k.length).drop (O.blockSize - k.length))
      (by simp; omega)
    rw [List.append_assoc k, List.take_append_drop, List.drop_drop, show k.length + (O.blockSize - k.length) = O.blockSize by omega] at this
    exact this
  rw [e2, bind_ok]
  have hbk : k ++ List.replicate (O.blockSize - k.length) 0 = blockKey H O.blockSize key := by
    unfold blockKey
    rw [← hk1]
  rw [hbk]
  have hbl := blockKey_length C hdB key
  have e3 := padLoop_spec [] O (blockKey H O.blockSize key) [] ((f.drop O.blockSize).take O.blockSize) (f.drop (O.blockSize + O.blockSize))
    (by simpa using hbl) (by simp; omega)
  rw [hbl] at e3
  simp only [List.map_nil, List.nil_append, List.length_nil] at e3
  rw [← List.drop_drop, List.take_append_drop] at e3
  rw [e3, bind_ok]
  refine ⟨_, rfl, ⟨_, ?_, rfl⟩, ?_, ?_⟩
  · simp; omega
  · intro _; exact ⟨rfl, r⟩
  · intro he; rw [hr.1] at he; cases he

theorem restart_spec (s : State σ) (key m : List Byte) (hi : Inv O H Rep s key m) : Inv O H Rep (restart O s) key [] := by
  unfold restart
  cases hk : s.keyed with
  | false =>
    simp only [Bool.false_eq_true, if_false]
    exact ⟨hi.buf, fun e => ⟨rfl, (hi.unkeyed e).2⟩, fun e => by rw [hk] at e; cases e⟩
  | true =>
    simp only [if_true]
    exact ⟨hi.buf, fun _ => ⟨rfl, C.restart _ _ (hi.keyed hk)⟩, fun e => by cases e⟩

include hlim

theorem ensure_spec (s : State σ) (key m : List Byte) (hi : Inv O H Rep s key m) :
    ∃ s', ensureKeyed O s = .ok s' ∧ Inv O H Rep s' key m ∧ s'.keyed = true ∧ s'.buf = s.buf := by
  unfold ensureKeyed
  cases hk : s.keyed with
  | true => simp only [if_true]; exact ⟨s, rfl, hi, hk, rfl⟩
  | false =>
    simp only [Bool.false_eq_true, if_false]
    unfold keyInnerHash
    obtain ⟨inner, hin, hbuf⟩ := hi.buf
    obtain ⟨hm, hr⟩ := hi.unkeyed hk
    have hbl := blockKey_length C hdB key
    have e1 := read_mid [] ((blockKey H O.blockSize key).map (· ^^^ 0x36)) ((blockKey H O.blockSize key).map (· ^^^ 0x5c) ++ inner)
    rw [List.length_nil, List.nil_append, ← hbuf, List.length_map, hbl] at e1
    rw [e1, bind_ok]
    obtain ⟨h', e2, r⟩ := C.update s.hash [] ((blockKey H O.blockSize key).map (· ^^^ 0x36)) hr (by simp; omega)
    rw [e2, bind_ok]
    refine ⟨_, rfl, ⟨⟨inner, hin, hbuf⟩, fun e => (by cases e), fun _ => ?_⟩, rfl, rfl⟩
    rw [hm, List.append_nil]
    simpa using r

theorem update_spec (s : State σ) (key m x : List Byte) (hi : Inv O H Rep s key m) (hl : O.blockSize + (m ++ x).length < lim) :
    ∃ s', update O s x = .ok s' ∧ Inv O H Rep s' key (m ++ x) := by
  obtain ⟨s1, e1, i1, k1, b1⟩ := ensure_spec C hdB hB hlim s key m hi
  have hbl := blockKey_length C hdB key
  obtain ⟨h', e2, r⟩ := C.update s1.hash _ x (i1.keyed k1) (by
    rw [List.append_assoc, List.length_append, List.length_map, hbl]; exact hl)
  unfold update
  rw [e1, bind_ok, e2, bind_ok]
  refine ⟨_, rfl, i1.buf, fun e => ?_, fun _ => ?_⟩
  · simp only at e; rw [k1] at e; cases e
  · rw [← List.append_assoc]; exact r

theorem final_spec (s : State σ) (key m : List Byte) (n : Nat) (hi : Inv O H Rep s key m) (hn : n ≤ O.digestSize) :
    ∃ s', truncatedFinal O s n = .ok (s', (hmac H O.blockSize key m).take n) ∧ Inv O H Rep s' key [] := by
  obtain ⟨s1, e1, i1, k1, b1⟩ := ensure_spec C hdB hB hlim s key m hi
  have hbl := blockKey_length C hdB key
  unfold truncatedFinal
  rw [if_neg (by omega), e1, bind_ok]
  obtain ⟨h2, e2, r2⟩ := C.final s1.hash _ O.digestSize (i1.keyed k1) (Nat.le_refl _)
  rw [e2, bind_ok]
  dsimp only
  rw [List.take_of_length_le (by rw [C.length]; omega)]
  obtain ⟨inner, hin, hbuf⟩ := i1.buf
  have hil := C.length ((blockKey H O.blockSize key).map (· ^^^ 0x36) ++ m)
  unfold hmac
  generalize H ((blockKey H O.blockSize key).map (· ^^^ 0x36) ++ m) = ih at *
  generalize hK : blockKey H O.blockSize key = K at *
  have e3 : write s1.buf (2 * O.blockSize) ih = .ok (K.map (· ^^^ 0x36) ++ (K.map (· ^^^ 0x5c) ++ ih)) := by
    have := write_mid (K.map (· ^^^ 0x36) ++ K.map (· ^^^ 0x5c)) ih inner [] (by omega)
    rw [List.append_nil, List.append_nil, List.append_assoc, ← hbuf, List.length_append, List.length_map, List.length_map, hbl, List.append_assoc] at this
    rw [Nat.two_mul]; exact this
  rw [e3, bind_ok]
  have e4 : read (K.map (· ^^^ 0x36) ++ (K.map (· ^^^ 0x5c) ++ ih)) O.blockSize O.blockSize = .ok (K.map (· ^^^ 0x5c)) := by
    have := read_mid (K.map (· ^^^ 0x36)) (K.map (· ^^^ 0x5c)) ih
    rw [List.length_map, List.length_map, hbl, List.append_assoc] at this
    exact this
  rw [e4, bind_ok]
  obtain ⟨h5, e5, r5⟩ := C.update h2 [] (K.map (· ^^^ 0x5c)) r2 (by simp; omega)
  rw [e5, bind_ok]
  have e6 : read (K.map (· ^^^ 0x36) ++ (K.map (· ^^^ 0x5c) ++ ih)) (2 * O.blockSize) O.digestSize = .ok ih := by
    have := read_mid (K.map (· ^^^ 0x36) ++ K.map (· ^^^ 0x5c)) ih []
    rw [List.append_nil, List.append_assoc, List.length_append, List.length_map, List.length_map, hbl, hil] at this
    rw [Nat.two_mul]; exact this
  rw [e6, bind_ok]
  obtain ⟨h7, e7, r7⟩ := C.update h5 _ ih r5 (by simp; omega)
  rw [e7, bind_ok]
  obtain ⟨h8, e8, r8⟩ := C.final h7 _ n r7 hn
  rw [e8, bind_ok]
  refine ⟨⟨h8, _, false⟩, by rw [List.nil_append], ⟨ih, hil, by rw [hK]⟩, fun _ => ⟨rfl, r8⟩, fun e => by cases e⟩

theorem run_inv (ops : List Op) : ∀ (s : State σ) (key m : List Byte), Inv O H Rep s key m → Within O lim m ops →
    run O s ops = .ok (specRun O H key m ops) := by
  induction ops with
  | nil => intro s key m _ _; rfl
  | cons op ops ih =>
    intro s key m hi hw
    cases op with
    | setKey key' fresh =>
      obtain ⟨s', e, i⟩ := setKey_spec C hdB hB s key' fresh hi.pre hw.1 hw.2.1
      simp only [run, specRun, e, bind_ok]
      exact ih _ _ _ i hw.2.2
    | update x =>
      obtain ⟨s', e, i⟩ := update_spec C hdB hB hlim s key m x hi hw.1
      simp only [run, specRun, e, bind_ok]
      exact ih _ _ _ i hw.2
    | restart =>
      simp only [run, specRun]
      exact ih _ _ _ (restart_spec C hdB hB s key m hi) hw
    | final n =>
      simp only [run, specRun]
      by_cases hn : n > O.digestSize
      · simp only [Within, if_pos hn] at hw
        have e : truncatedFinal O s n = .error .invalidArgument := by simp [truncatedFinal, hn]
        rw [e, if_pos hn]
        simp only [ih _ _ _ hi hw, bind_ok]
      · simp only [Within, if_neg hn] at hw
        obtain ⟨s', e, i⟩ := final_spec C hdB hB hlim s key m n hi (by omega)
        rw [e, if_neg hn]
        simp only [ih _ _ _ i hw, bind_ok]
    | verify d =>
      simp only [run, specRun]
      by_cases hn : d.length > O.digestSize
      · simp only [Within, if_pos hn] at hw
        have e : truncatedVerify O s d = .error .invalidArgument := by simp [truncatedVerify, truncatedFinal, hn]; rfl
        rw [e, if_pos hn]
        simp only [ih _ _ _ hi hw, bind_ok]
      · simp only [Within, if_neg hn] at hw
        obtain ⟨s', e, i⟩ := final_spec C hdB hB hlim s key m d.length hi (by omega)
        have e' : truncatedVerify O s d = .ok (s', decide (d = (hmac H O.blockSize key m).take d.length)) := by
          unfold truncatedVerify
          rw [e, bind_ok]
          dsimp only
          congr 2
          exact decide_eq_decide.mpr eq_comm
        rw [e', if_neg hn]
        simp only [ih _ _ _ i hw, bind_ok]

end

end Verif.Hmac
