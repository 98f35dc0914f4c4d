import Verif.AuthFilter.PutProofs
import Verif.Gcm.Props
import Verif.Chacha.Props

/-!
# C66: the authenticated encryption and decryption filters

`enc_session`, `dec_session_partial`, `dec_session_begin_partial`: whatever pieces the additional data and the text come in, and whatever messages came before, the filters deliver what `encSpec`, `decSpecEnd` and `decSpecBegin` say.
`round_trip`: the decryption filter takes back what the encryption filter delivers. `gcm_round_trip` and `chacha_round_trip` are for the modes in the models of GCM and ChaCha20Poly1305.

The decryption filter does not always do so: `put_rejects` (data given with `Put` after additional data), `force_order` (a compiler that evaluates arguments from right to left), `begin_short` and `begin_after_throw`
(`MAC_AT_BEGIN`) are the exceptions that the conditions of the theorems leave out.
-/
namespace Verif.AuthFilter

open Verif.BufFilter Verif.BufFilter.Filt
open Verif.HashFilter (bind_ok')

section
variable {σ : Type}

/-- A message and the cipher it is processed with keep the lengths. -/
def Fits (O : Aead σ) (extra : Nat) (m : Msg σ) (C : Cipher) : Prop :=
  m.aads.flatten.length ≤ C.maxHeader ∧ m.datas.flatten.length ≤ C.maxMessage + extra ∧ ∃ Hd Tx, O.Serves C Hd Tx ∧ Hd m.c []

/-- C66, encryption: every message of a session on one filter. -/
theorem enc_session (O : Aead σ) (cut : Nat → Nat) (hcut : ∀ r, 0 < r → 1 ≤ cut r ∧ cut r ≤ r) (putAAD : Bool) (n : Nat) (hn : n ≤ O.digestSize) (junk : Nat → Byte) (c : σ)
    (ms : List (Msg σ × Cipher)) (hms : ∀ p ∈ ms, Fits O 0 p.1 p.2) :
    Enc.run O junk c cut putAAD n (ms.map (·.1)) = .ok (ms.map fun p => encSpec p.2 putAAD n p.1.aads.flatten p.1.datas.flatten) := by
  obtain ⟨f, e, r⟩ := init_ready junk 0
  unfold Enc.run Enc.init
  rw [e, bind_ok']
  have main : ∀ (ms : List (Msg σ × Cipher)) (s : Enc σ), (∀ p ∈ ms, Fits O 0 p.1 p.2) → Ready s.base 0 [] →
      Enc.session O cut putAAD n s (ms.map (·.1)) = .ok (ms.map fun p => encSpec p.2 putAAD n p.1.aads.flatten p.1.datas.flatten) := by
    intro ms
    induction ms with
    | nil => intro s _ _; rfl
    | cons p ms ih =>
      intro s h hr
      obtain ⟨m, C⟩ := p
      obtain ⟨ha, hl, Hd, Tx, S, h0⟩ := h _ List.mem_cons_self
      obtain ⟨c1, e1, h1⟩ := enc_aadAll S putAAD m.aads { s with c := m.c } [] h0 (by simpa using ha)
      rw [List.nil_append] at h1
      obtain ⟨s2, e2, r2⟩ := enc_dataAll S hcut n hn m.datas { s with c := c1 } m.aads.flatten [] hr (S.weaken _ _ h1) ha (by simpa using hl)
      rw [List.map_cons, Enc.session]
      dsimp only
      rw [e1, bind_ok']
      dsimp only
      rw [e2, bind_ok']
      dsimp only
      rw [ih s2 (fun q hq => h q (List.mem_cons_of_mem _ hq)) r2, bind_ok']
      show Except.ok (_ :: _) = _
      rw [List.map_cons]
      unfold encSpec Cipher.crypt
      simp only [List.append_assoc, List.nil_append, List.length_nil]
  exact main ms ⟨f, c⟩ hms r

/-- C66, decryption with the code at the end: every message of a session on one filter, also after messages that were rejected with an exception. -/
theorem dec_session_partial (O : Aead σ) (cut : Nat → Nat) (hcut : ∀ r, 0 < r → 1 ≤ cut r ∧ cut r ≤ r) (throwException : Bool) (n : Nat) (hn : n ≤ O.digestSize) (junk : Nat → Byte) (c : σ)
    (ms : List (Msg σ × Cipher)) (hms : ∀ p ∈ ms, Fits O n p.1 p.2) :
    Dec.run O junk c .leftToRight cut throwException n (ms.map (·.1)) =
      .ok (ms.map fun p => decSpecEnd p.2 ⟨false, throwException⟩ n p.1.aads.flatten p.1.datas.flatten) := by
  obtain ⟨f0, e0, r0⟩ := init_ready junk 0
  obtain ⟨f1, e1, r1⟩ := init_ready junk n
  have ei : Dec.init junk ⟨false, throwException⟩ n c = .ok ⟨f1, f1, f0, [], false, c⟩ := by
    unfold Dec.init
    simp only [Bool.false_eq_true, if_false]
    rw [e1, bind_ok', e0, bind_ok', r1.first, r1.last, e1]
    rfl
  unfold Dec.run
  rw [ei, bind_ok']
  have main : ∀ (ms : List (Msg σ × Cipher)) (s : Dec σ), (∀ p ∈ ms, Fits O n p.1 p.2) → Idle n s →
      Dec.session O .leftToRight cut ⟨false, throwException⟩ n s (ms.map (·.1)) = .ok (ms.map fun p => decSpecEnd p.2 ⟨false, throwException⟩ n p.1.aads.flatten p.1.datas.flatten) := by
    intro ms
    induction ms with
    | nil => intro s _ _; rfl
    | cons p ms ih =>
      intro s h hi
      obtain ⟨m, C⟩ := p
      obtain ⟨ha, hl, Hd, Tx, S, h0⟩ := h _ List.mem_cons_self
      obtain ⟨s1, s2, e1, e2, i2, v2⟩ := message_end S hcut ⟨false, throwException⟩ rfl n hn s hi m h0 ha hl
      rw [List.map_cons, Dec.session]
      dsimp only
      rw [e1, bind_ok', e2, bind_ok']
      dsimp only
      rw [ih s2 (fun q hq => h q (List.mem_cons_of_mem _ hq)) i2, bind_ok', v2]
      rfl
  exact main ms _ hms ⟨r1, r1, r0⟩

/-- C66, decryption with the code at the beginning: the whole code comes before the additional data, no message is shorter than the code, and no message but the last is rejected with an exception. -/
theorem dec_session_begin_partial (O : Aead σ) (cut : Nat → Nat) (hcut : ∀ r, 0 < r → 1 ≤ cut r ∧ cut r ≤ r) (throwException : Bool) (n : Nat) (hn0 : 0 < n) (hn : n ≤ O.digestSize) (junk : Nat → Byte) (c : σ)
    (ms : List (BMsg σ × Cipher))
    (hms : ∀ p ∈ ms, (p.1.macs.flatten.length = n ∨ p.1.aads.flatten = []) ∧ n ≤ (p.1.macs.flatten ++ p.1.datas.flatten).length ∧
      p.1.aads.flatten.length ≤ p.2.maxHeader ∧ (p.1.macs.flatten ++ p.1.datas.flatten).length ≤ p.2.maxMessage + n ∧ ∃ Hd Tx, O.Serves p.2 Hd Tx ∧ Hd p.1.c [])
    (hth : ∀ p ∈ ms.dropLast, (decSpecBegin p.2 ⟨true, throwException⟩ n p.1.aads.flatten (p.1.macs.flatten ++ p.1.datas.flatten)).thrown = false) :
    Dec.runB O junk c .leftToRight cut throwException n (ms.map (·.1)) =
      .ok (ms.map fun p => decSpecBegin p.2 ⟨true, throwException⟩ n p.1.aads.flatten (p.1.macs.flatten ++ p.1.datas.flatten)) := by
  obtain ⟨f0, e0, r0⟩ := init_ready junk 0
  obtain ⟨f1, e1, r1⟩ := init_pre junk n 1 0 (Nat.le_refl _)
  have ei : Dec.init junk ⟨true, throwException⟩ n c = .ok ⟨f1, f1, f0, [], false, c⟩ := by
    unfold Dec.init
    simp only [if_true]
    rw [e1, bind_ok', e0, bind_ok', r1.fs, r1.ls, e1]
    rfl
  unfold Dec.runB
  rw [ei, bind_ok']
  have main : ∀ (ms : List (BMsg σ × Cipher)) (s : Dec σ), (∀ p ∈ ms, (p.1.macs.flatten.length = n ∨ p.1.aads.flatten = []) ∧ n ≤ (p.1.macs.flatten ++ p.1.datas.flatten).length ∧
      p.1.aads.flatten.length ≤ p.2.maxHeader ∧ (p.1.macs.flatten ++ p.1.datas.flatten).length ≤ p.2.maxMessage + n ∧ ∃ Hd Tx, O.Serves p.2 Hd Tx ∧ Hd p.1.c []) →
      (∀ p ∈ ms.dropLast, (decSpecBegin p.2 ⟨true, throwException⟩ n p.1.aads.flatten (p.1.macs.flatten ++ p.1.datas.flatten)).thrown = false) → (ms ≠ [] → Fresh n s) →
      Dec.sessionB O .leftToRight cut ⟨true, throwException⟩ n s (ms.map (·.1)) = .ok (ms.map fun p => decSpecBegin p.2 ⟨true, throwException⟩ n p.1.aads.flatten (p.1.macs.flatten ++ p.1.datas.flatten)) := by
    intro ms
    induction ms with
    | nil => intro s _ _ _; rfl
    | cons p ms ih =>
      intro s h ht hi
      obtain ⟨m, C⟩ := p
      obtain ⟨hm, hlen, ha, hl, Hd, Tx, S, h0⟩ := h _ List.mem_cons_self
      obtain ⟨s1, s2, s3, o, o', e1, e2, e3, ho, v3, f3⟩ := message_begin S hcut ⟨true, throwException⟩ rfl n hn0 hn s (hi (by simp)) m h0 hm hlen ha hl
      have hi3 : ms ≠ [] → Fresh n s3 := by
        intro hne
        apply f3
        exact ht (m, C) (by cases ms with | nil => exact absurd rfl hne | cons q qs => simp [List.dropLast])
      have ht3 : ∀ p ∈ ms.dropLast, (decSpecBegin p.2 ⟨true, throwException⟩ n p.1.aads.flatten (p.1.macs.flatten ++ p.1.datas.flatten)).thrown = false := by
        intro q hq
        apply ht
        cases ms with
        | nil => simp at hq
        | cons r rs => rw [List.dropLast_cons_cons]; exact List.mem_cons_of_mem _ hq
      rw [List.map_cons, Dec.sessionB]
      dsimp only
      rw [e1, bind_ok']
      dsimp only
      rw [e2, bind_ok', e3, bind_ok']
      dsimp only
      rw [ih s3 (fun q hq => h q (List.mem_cons_of_mem _ hq)) ht3 hi3, bind_ok', v3, ho]
      rfl
  exact main ms _ hms hth (fun _ => ⟨r1, r1, r0⟩)

end

/-! ## From one filter into the other -/

/-- The bytes on the default channel. -/
def payload : List Item → List Byte
  | [] => []
  | .text b :: is => b :: payload is
  | .mac b :: is => b :: payload is
  | _ :: is => payload is

theorem payload_append (a b : List Item) : payload (a ++ b) = payload a ++ payload b := by
  induction a with
  | nil => rfl
  | cons i is ih => cases i <;> simp [payload, ih]

theorem payload_text (x : List Byte) : payload (x.map .text) = x := by
  induction x with
  | nil => rfl
  | cons b x ih => rw [List.map_cons, payload, ih]

theorem payload_mac (x : List Byte) : payload (x.map .mac) = x := by
  induction x with
  | nil => rfl
  | cons b x ih => rw [List.map_cons, payload, ih]

theorem payload_aad (x : List Byte) : payload (x.map .aad) = [] := by
  induction x with
  | nil => rfl
  | cons b x ih => exact ih

theorem payload_enc (C : Cipher) (putAAD : Bool) (n : Nat) (a x : List Byte) : payload (encSpec C putAAD n a x) = C.crypt x ++ C.tag a x n := by
  unfold encSpec
  rw [payload_append, payload_append, payload_append, payload_text, payload_mac]
  cases putAAD
  · simp [payload]
  · simp [payload, payload_aad]

/-- `Cd` undoes what `Ce` does. -/
structure Inverse (Ce Cd : Cipher) (n : Nat) : Prop where
  ks : Cd.ks = Ce.ks
  tag : ∀ a x, a.length ≤ Ce.maxHeader → x.length ≤ Ce.maxMessage → Cd.tag a (Ce.crypt x) n = Ce.tag a x n ∧ (Ce.tag a x n).length = n

theorem crypt_length (C : Cipher) (x : List Byte) : (C.crypt x).length = x.length := by
  unfold Cipher.crypt; simp

theorem crypt_crypt {Ce Cd : Cipher} {n : Nat} (h : Inverse Ce Cd n) (x : List Byte) : Cd.crypt (Ce.crypt x) = x := by
  have hl := crypt_length Ce x
  unfold Cipher.crypt at hl ⊢
  rw [h.ks, hl]
  exact xorBytes_cancel _ _ (by simp)

/-- C66: what `enc_session` says the encryption filter delivers is accepted, whatever the pieces, and the text comes out again. -/
theorem spec_round_trip {Ce Cd : Cipher} {n : Nat} (h : Inverse Ce Cd n) (putAAD throwException : Bool) (a x : List Byte) (ha : a.length ≤ Ce.maxHeader) (hx : x.length ≤ Ce.maxMessage) :
    decSpecEnd Cd ⟨false, throwException⟩ n a (payload (encSpec Ce putAAD n a x)) = ⟨x.map .text ++ [.messageEnd], false, true⟩ := by
  obtain ⟨h1, h2⟩ := h.tag a x ha hx
  rw [payload_enc]
  have hl : (Ce.crypt x ++ Ce.tag a x n).length - n = (Ce.crypt x).length := by rw [List.length_append, h2, Nat.add_sub_cancel]
  have hn : n ≤ (Ce.crypt x ++ Ce.tag a x n).length := by rw [List.length_append, h2]; omega
  unfold decSpecEnd Result.make
  dsimp only
  rw [hl, List.take_left' rfl, List.drop_left' rfl, h1, decide_eq_true ⟨hn, rfl⟩, crypt_crypt h]
  simp

/-- C66: encryption and decryption filter in a row, for any division of the additional data, the text and the encrypted text into pieces. -/
theorem round_trip {σ τ : Type} (Oe : Aead σ) (Od : Aead τ) (cut cut' : Nat → Nat) (hcut : ∀ r, 0 < r → 1 ≤ cut r ∧ cut r ≤ r) (hcut' : ∀ r, 0 < r → 1 ≤ cut' r ∧ cut' r ≤ r)
    (putAAD throwException : Bool) (n : Nat) (hn : n ≤ Oe.digestSize) (hn' : n ≤ Od.digestSize) (junk junk' : Nat → Byte) (c : σ) (c' : τ)
    (m : Msg σ) (m' : Msg τ) {Ce Cd : Cipher} (hi : Inverse Ce Cd n) (hm : Fits Oe 0 m Ce) (hm' : ∃ Hd Tx, Od.Serves Cd Hd Tx ∧ Hd m'.c [])
    (hlim : Cd.maxHeader = Ce.maxHeader ∧ Cd.maxMessage = Ce.maxMessage) (haad : m'.aads.flatten = m.aads.flatten) :
    ∃ out, Enc.run Oe junk c cut putAAD n [m] = .ok [out] ∧
      (m'.datas.flatten = payload out → Dec.run Od junk' c' .leftToRight cut' throwException n [m'] =
        .ok [⟨m.datas.flatten.map .text ++ [.messageEnd], false, true⟩]) := by
  refine ⟨_, enc_session Oe cut hcut putAAD n hn junk c [(m, Ce)] (by intro p hp; rw [List.mem_singleton.1 hp]; exact hm), ?_⟩
  intro hd
  have hx : m.datas.flatten.length ≤ Ce.maxMessage := by have := hm.2.1; omega
  have hpl : (payload (encSpec Ce putAAD n m.aads.flatten m.datas.flatten)).length ≤ Cd.maxMessage + n := by
    rw [payload_enc, List.length_append, crypt_length, (hi.tag _ _ hm.1 hx).2, hlim.2]; omega
  have := dec_session_partial Od cut' hcut' throwException n hn' junk' c' [(m', Cd)] (by
    intro p hp
    rw [List.mem_singleton.1 hp]
    refine ⟨?_, ?_, hm'⟩
    · show m'.aads.flatten.length ≤ Cd.maxHeader
      rw [haad, hlim.1]; exact hm.1
    · show m'.datas.flatten.length ≤ _
      rw [hd]; exact hpl)
  simp only [List.map_cons, List.map_nil] at this
  rw [this, hd, haad, spec_round_trip hi putAAD throwException _ _ hm.1 hx]

/-! ## GCM and ChaCha20Poly1305 -/

section
open Verif.Auth
variable {σ κ α : Type} {Hk : Hooks σ κ} {A : Auth.Spec.Alg κ} {I : Impl κ α} {Key : κ → σ → Prop} {Rep : κ → List Byte → α → Nat → σ → Prop}

/-- A mode of `AuthenticatedSymmetricCipherBase` may be used with the filters: after `SetKey` and `Resynchronize` a message that keeps the limits of the mode `Fits`. -/
theorem auth_fits (ok : Hk.Ok A I Key Rep) (s : State σ) (k : κ) (iv : List Byte) (hiv : A.ivOk iv.length = true) (n : Nat) (aads datas : List (List Byte)) (ha : aads.flatten.length ≤ A.maxHeader)
    (ha' : aads.flatten.length < 2 ^ 64) (hx : datas.flatten.length ≤ A.maxMessage + n) :
    ∃ s', resynchronize Hk (setKey Hk s k none).1 iv = (s', .ok ()) ∧ Fits (ofAuth Hk) n ⟨s', aads, datas⟩ (cipherOf A k iv) := by
  obtain ⟨s', e, h⟩ := prepared ok s k iv hiv
  refine ⟨s', e, ?_, hx, _, _, auth_serves ok k iv, h⟩
  show aads.flatten.length ≤ min A.maxHeader (2 ^ 64 - 1)
  omega

/-- C66 fails with `Put`: the filter for a mode that takes no additional data after the text, as GCM and ChaCha20Poly1305, throws `InvalidArgument` whether or not the message is genuine. -/
theorem put_rejects (ok : Hk.Ok A I Key Rep) (hf : A.maxFooter = 0) (s : State σ) (k : κ) (iv : List Byte) (hiv : A.ivOk iv.length = true) (cut : Nat → Nat) (hcut : ∀ r, 0 < r → 1 ≤ cut r ∧ cut r ≤ r)
    (throwException : Bool) (n : Nat) (junk : Nat → Byte) (b x : List Byte) (hb : 0 < b.length) (hbn : b.length ≤ n) (hbs : b.length < 2 ^ 32) (hx : n < x.length) (hl : x.length ≤ A.maxMessage + n) :
    Dec.putOnce (ofAuth Hk) junk (resynchronize Hk (setKey Hk s k none).1 iv).1 cut throwException n b x = .error .invalidArgument := by
  obtain ⟨s', e, h⟩ := prepared ok s k iv hiv
  rw [e]
  obtain ⟨f0, e0, r0⟩ := init_ready junk 0
  obtain ⟨f1, e1, r1⟩ := init_ready junk n
  have ei : Dec.init junk ⟨false, throwException⟩ n s' = .ok ⟨f1, f1, f0, [], false, s'⟩ := by
    unfold Dec.init
    simp only [Bool.false_eq_true, if_false]
    rw [e1, bind_ok', e0, bind_ok', r1.first, r1.last, e1]
    rfl
  unfold Dec.putOnce
  rw [ei, bind_ok']
  exact put_late (auth_serves ok k iv) (auth_late ok hf k iv) hcut ⟨false, throwException⟩ rfl n _ ⟨r1, r1, r0⟩ h b x hb hbn hbs hx hl

end

theorem gcm_inverse (k : Gcm.Cipher) (iv : List Byte) (n : Nat) (hn : n ≤ 16) : Inverse (cipherOf (Gcm.alg true) k iv) (cipherOf (Gcm.alg false) k iv) n where
  ks := rfl
  tag := by
    intro a x _ _
    refine ⟨rfl, ?_⟩
    show (Gcm.Spec.tag k.1 iv a _ n).length = n
    have hSl : ∀ c, (Gcm.Spec.S k.1 a c).length = 16 := by intro c; simp [Gcm.Spec.S, Gcm.Spec.ghash]
    rw [Gcm.Spec.tag, List.length_take, Gcm.gctr_load k _ _ (Gcm.J0_length k iv), xorBytes_length, load_length, hSl]
    omega

theorem chacha_inverse (x : Bool) (k : Chacha.Key) (iv : List Byte) (n : Nat) (hn : n ≤ 16) : Inverse (cipherOf (Chacha.alg x true) k iv) (cipherOf (Chacha.alg x false) k iv) n where
  ks := rfl
  tag := by
    intro a t _ _
    refine ⟨rfl, ?_⟩
    show ((Chacha.Spec.tag (Chacha.ablk x k.1 iv) a _).take n).length = n
    rw [List.length_take, Chacha.tag_length]
    omega

/-- C66 for GCM with any block cipher of 16 bytes, any key and any initialisation vector, on objects that may have been used before. -/
theorem gcm_round_trip (order order' : ByteOrder) (large large' : Bool) (par par' : Nat) (hp : 0 < par) (hp' : 0 < par') (o o' : Auth.State Gcm.Obj) (k : Gcm.Cipher) (iv : List Byte)
    (hiv : 1 ≤ iv.length ∧ iv.length < 2 ^ 31) (cut cut' : Nat → Nat) (hcut : ∀ r, 0 < r → 1 ≤ cut r ∧ cut r ≤ r) (hcut' : ∀ r, 0 < r → 1 ≤ cut' r ∧ cut' r ≤ r)
    (putAAD throwException : Bool) (n : Nat) (hn : n ≤ 16) (junk junk' : Nat → Byte) (aads datas aads' datas' : List (List Byte)) (ha : aads.flatten.length ≤ 2 ^ 61 - 1)
    (hx : datas.flatten.length ≤ (2 ^ 39 - 256) / 8) (haad : aads'.flatten = aads.flatten) :
    ∃ c c' out, Auth.resynchronize (Gcm.gcm order large par true) (Auth.setKey (Gcm.gcm order large par true) o k none).1 iv = (c, .ok ()) ∧
      Auth.resynchronize (Gcm.gcm order' large' par' false) (Auth.setKey (Gcm.gcm order' large' par' false) o' k none).1 iv = (c', .ok ()) ∧
      Enc.run (ofAuth (Gcm.gcm order large par true)) junk c cut putAAD n [⟨c, aads, datas⟩] = .ok [out] ∧
      (datas'.flatten = payload out → Dec.run (ofAuth (Gcm.gcm order' large' par' false)) junk' c' .leftToRight cut' throwException n [⟨c', aads', datas'⟩] =
        .ok [⟨datas.flatten.map .text ++ [.messageEnd], false, true⟩]) := by
  have ok := Gcm.gcm_ok order large par hp true
  have ok' := Gcm.gcm_ok order' large' par' hp' false
  obtain ⟨c, e, hf⟩ := auth_fits ok o k iv (decide_eq_true hiv) 0 aads datas ha (Nat.lt_of_le_of_lt ha (by decide)) hx
  obtain ⟨c', e', h'⟩ := prepared ok' o' k iv (decide_eq_true hiv)
  obtain ⟨out, h1, h2⟩ := round_trip _ (ofAuth (Gcm.gcm order' large' par' false)) cut cut' hcut hcut' putAAD throwException n hn hn junk junk' c c' ⟨c, aads, datas⟩ ⟨c', aads', datas'⟩ (gcm_inverse k iv n hn) hf
    ⟨_, _, auth_serves ok' k iv, h'⟩ ⟨rfl, rfl⟩ haad
  exact ⟨c, c', out, e, e', h1, h2⟩

/-- C66 for ChaCha20Poly1305 and XChaCha20Poly1305. -/
theorem chacha_round_trip (ws ws' : List Nat) (x : Bool) (o o' : Auth.State Chacha.Obj) (k : Chacha.Key) (iv : List Byte)
    (hiv : iv.length = Chacha.ivLen x) (cut cut' : Nat → Nat) (hcut : ∀ r, 0 < r → 1 ≤ cut r ∧ cut r ≤ r) (hcut' : ∀ r, 0 < r → 1 ≤ cut' r ∧ cut' r ≤ r)
    (putAAD throwException : Bool) (n : Nat) (hn : n ≤ 16) (junk junk' : Nat → Byte) (aads datas aads' datas' : List (List Byte)) (ha : aads.flatten.length < 2 ^ 64)
    (hx : datas.flatten.length ≤ 2 ^ 38 - 64) (haad : aads'.flatten = aads.flatten) :
    ∃ c c' out, Auth.resynchronize (Chacha.aead ws x true) (Auth.setKey (Chacha.aead ws x true) o k none).1 iv = (c, .ok ()) ∧
      Auth.resynchronize (Chacha.aead ws' x false) (Auth.setKey (Chacha.aead ws' x false) o' k none).1 iv = (c', .ok ()) ∧
      Enc.run (ofAuth (Chacha.aead ws x true)) junk c cut putAAD n [⟨c, aads, datas⟩] = .ok [out] ∧
      (datas'.flatten = payload out → Dec.run (ofAuth (Chacha.aead ws' x false)) junk' c' .leftToRight cut' throwException n [⟨c', aads', datas'⟩] =
        .ok [⟨datas.flatten.map .text ++ [.messageEnd], false, true⟩]) := by
  have ok := Chacha.aead_ok ws x true
  have ok' := Chacha.aead_ok ws' x false
  have hi : (iv.length == Chacha.ivLen x) = true := by rw [hiv]; exact beq_self_eq_true _
  obtain ⟨c, e, hf⟩ := auth_fits ok o k iv hi 0 aads datas (show _ ≤ 2 ^ 64 - 1 by omega) ha hx
  obtain ⟨c', e', h'⟩ := prepared ok' o' k iv hi
  obtain ⟨out, h1, h2⟩ := round_trip _ (ofAuth (Chacha.aead ws' x false)) cut cut' hcut hcut' putAAD throwException n hn hn junk junk' c c' ⟨c, aads, datas⟩ ⟨c', aads', datas'⟩ (chacha_inverse x k iv n hn) hf
    ⟨_, _, auth_serves ok' k iv, h'⟩ ⟨rfl, rfl⟩ haad
  exact ⟨c, c', out, e, e', h1, h2⟩

/-- C66 fails for GCM when `Put` is used after additional data of at most `n` bytes: `InvalidArgument`, whatever the message. -/
theorem gcm_put_rejects (order : ByteOrder) (large : Bool) (par : Nat) (hp : 0 < par) (o : Auth.State Gcm.Obj) (k : Gcm.Cipher) (iv : List Byte) (hiv : 1 ≤ iv.length ∧ iv.length < 2 ^ 31)
    (cut : Nat → Nat) (hcut : ∀ r, 0 < r → 1 ≤ cut r ∧ cut r ≤ r) (throwException : Bool) (n : Nat) (hn : n ≤ 16) (junk : Nat → Byte) (b x : List Byte) (hb : 0 < b.length) (hbn : b.length ≤ n)
    (hx : n < x.length) (hl : x.length ≤ (2 ^ 39 - 256) / 8 + n) :
    Dec.putOnce (ofAuth (Gcm.gcm order large par false)) junk (Auth.resynchronize (Gcm.gcm order large par false) (Auth.setKey (Gcm.gcm order large par false) o k none).1 iv).1 cut throwException n b x =
      .error .invalidArgument :=
  put_rejects (Gcm.gcm_ok order large par hp false) rfl o k iv (decide_eq_true hiv) cut hcut throwException n junk b x hb hbn (by omega) hx hl

/-! ## The other faults, and hypotheses that hold -/

/-- A cipher for examples: it xors nothing, and its code is the sum of all bytes. -/
def toy : Aead (Nat × Bool) where
  digestSize := 16
  update := fun s x => if s.2 then .error .badState else .ok (s.1 + (x.map BitVec.toNat).sum, false)
  process := fun s x => .ok ((s.1 + (x.map BitVec.toNat).sum, true), xorBytes x (load (fun _ => 0) 0 x.length))
  final := fun s n => .ok (s, List.replicate n (BitVec.ofNat 8 s.1))

def toyCipher : Cipher where
  maxHeader := 2 ^ 64
  maxMessage := 2 ^ 64
  ks := fun _ => 0
  tag := fun a x n => List.replicate n (BitVec.ofNat 8 ((a.map BitVec.toNat).sum + (x.map BitVec.toNat).sum))

theorem toy_serves : toy.Serves toyCipher (fun s a => s = ((a.map BitVec.toNat).sum, false)) (fun s a x => s.1 = (a.map BitVec.toNat).sum + (x.map BitVec.toNat).sum) where
  weaken := by intro s a h; subst h; simp
  update := by intro s a x h _ _; subst h; exact ⟨_, rfl, by simp⟩
  process := by
    intro s a x y h _
    refine ⟨_, rfl, ?_⟩
    dsimp only
    rw [h, List.map_append, List.sum_append, Nat.add_assoc]
  final := by intro s a x n h _ _ _; exact ⟨s, by show Except.ok (s, List.replicate n (BitVec.ofNat 8 s.1)) = _; rw [h]; rfl⟩

/-- Two messages: the first is not genuine. -/
example : Dec.run toy (fun _ => 0) (0, false) .leftToRight (fun r => min r 3) true 2 [⟨(0, false), [[1, 2], [3]], [[4], [5, 6, 7], [21]]⟩, ⟨(0, false), [[1, 2, 3]], [[5, 5, 5, 5], [], [26], [26]]⟩] =
    .ok [⟨[.text 4, .text 5, .text 6], true, false⟩, ⟨[.text 5, .text 5, .text 5, .text 5, .messageEnd], false, true⟩] := by
  have := dec_session_partial toy (fun r => min r 3) (by intro r h; omega) true 2 (by decide) (fun _ => 0) (0, false)
    [(⟨(0, false), [[1, 2], [3]], [[4], [5, 6, 7], [21]]⟩, toyCipher), (⟨(0, false), [[1, 2, 3]], [[5, 5, 5, 5], [], [26], [26]]⟩, toyCipher)]
    (by
      intro p hp
      simp only [List.mem_cons, List.not_mem_nil, or_false] at hp
      rcases hp with hp | hp <;> subst hp <;> exact ⟨by decide, by decide, _, _, toy_serves, rfl⟩)
  simp only [List.map_cons, List.map_nil] at this
  rw [this]
  decide +kernel

example : Enc.run toy (fun _ => 0) (0, false) (fun r => min r 3) true 2 [⟨(0, false), [[1, 2], [3]], [[5, 5, 5], [5]]⟩] =
    .ok [[.aad 1, .aad 2, .aad 3, .text 5, .text 5, .text 5, .text 5, .mac 26, .mac 26, .messageEnd]] := by
  have := enc_session toy (fun r => min r 3) (by intro r h; omega) true 2 (by decide) (fun _ => 0) (0, false)
    [(⟨(0, false), [[1, 2], [3]], [[5, 5, 5], [5]]⟩, toyCipher)]
    (by
      intro p hp
      rw [List.mem_singleton.1 hp]
      exact ⟨by decide, by decide, _, _, toy_serves, rfl⟩)
  simp only [List.map_cons, List.map_nil] at this
  rw [this]
  decide +kernel

example : Dec.runB toy (fun _ => 0) (0, false) .leftToRight (fun r => min r 3) true 2 [⟨⟨(0, false), [[1, 2], [3]], [[5, 5, 5], [5]]⟩, [[26], [26]]⟩, ⟨⟨(0, false), [], [[6, 6], [5]]⟩, []⟩] =
    .ok [⟨[.text 5, .text 5, .text 5, .text 5, .messageEnd], false, true⟩, ⟨[.text 5], true, false⟩] := by
  have := dec_session_begin_partial toy (fun r => min r 3) (by intro r h; omega) true 2 (by decide) (by decide) (fun _ => 0) (0, false)
    [(⟨⟨(0, false), [[1, 2], [3]], [[5, 5, 5], [5]]⟩, [[26], [26]]⟩, toyCipher), (⟨⟨(0, false), [], [[6, 6], [5]]⟩, []⟩, toyCipher)]
    (by
      intro p hp
      simp only [List.mem_cons, List.not_mem_nil, or_false] at hp
      rcases hp with hp | hp <;> subst hp <;> exact ⟨by decide, by decide, by decide, by decide, _, _, toy_serves, rfl⟩)
    (by
      intro p hp
      simp only [List.dropLast] at hp
      rw [List.mem_singleton.1 hp]
      decide +kernel)
  simp only [List.map_cons, List.map_nil] at this
  rw [this]
  decide +kernel

/-- A result of `Dec.run` in short: the error, or what `GetLastResult()` says after each message. -/
def verdict : Except Err (List Result) → Err ⊕ List Bool
  | .error e => .inl e
  | .ok rs => .inr (rs.map (·.lastResult))

/-- C66 fails when arguments are evaluated from right to left: `ForceNextPut` reads past the end of the buffer once the additional data, in two pieces, has gone round it. With the other order the message is accepted. -/
theorem force_order : ∃ (C : Cipher) (m : Msg (Nat × Bool)), Fits toy 4 m C ∧ verdict (Dec.run toy (fun _ => 0) (0, false) .leftToRight id false 4 [m]) = .inr [true] ∧
    verdict (Dec.run toy (fun _ => 0) (0, false) .rightToLeft id false 4 [m]) = .inl .undefinedBehaviour :=
  ⟨toyCipher, ⟨(0, false), [[1, 2, 3, 4, 5], [6, 7]], [[9], [37, 37, 37, 37]]⟩, ⟨by decide, by decide, _, _, toy_serves, rfl⟩, by decide +kernel, by decide +kernel⟩

/-- C66 fails with `MAC_AT_BEGIN` when the first message is shorter than the code: the code is read at a null pointer. -/
theorem begin_short : verdict (Dec.runB toy (fun _ => 0) (0, false) .leftToRight id true 4 [⟨⟨(0, false), [], [[1, 2, 3]]⟩, []⟩]) = .inl .undefinedBehaviour := by decide +kernel

/-- C66 fails with `MAC_AT_BEGIN` after a message that was rejected with an exception: a genuine message is rejected, too. On a new filter it is accepted. -/
theorem begin_after_throw : ∃ m m' : BMsg (Nat × Bool), verdict (Dec.runB toy (fun _ => 0) (0, false) .leftToRight id true 2 [m, m']) = .inr [false, false] ∧
    verdict (Dec.runB toy (fun _ => 0) (0, false) .leftToRight id true 2 [m']) = .inr [true] :=
  ⟨⟨⟨(0, false), [], [[1, 2, 3]]⟩, []⟩, ⟨⟨(0, false), [], [[3, 3, 3]]⟩, []⟩, by decide +kernel, by decide +kernel⟩

/-- GCM meets the hypotheses, with additional data in two pieces and the text in two. -/
example (o o' : Auth.State Gcm.Obj) := gcm_round_trip .little .big false true 1 4 (by decide) (by decide) o o' Gcm.flip [1, 2, 3, 4, 5, 6, 7, 8, 9, 10, 11, 12] (by decide) id id (by intro r h; exact ⟨h, Nat.le_refl _⟩)
  (by intro r h; exact ⟨h, Nat.le_refl _⟩) true true 12 (by decide) (fun _ => 0) (fun _ => 1) [[1], [2, 3]] [[4, 5], [6]] [[1, 2, 3]] [] (by decide) (by decide) rfl

example (o : Auth.State Gcm.Obj) := gcm_put_rejects .little false 1 (by decide) o Gcm.flip [1, 2, 3, 4, 5, 6, 7, 8, 9, 10, 11, 12] (by decide) id (by intro r h; exact ⟨h, Nat.le_refl _⟩) true 4 (by decide) (fun _ => 0)
  [0xaa] [1, 2, 3, 4, 5, 6] (by decide) (by decide) (by decide) (by decide)

end Verif.AuthFilter
