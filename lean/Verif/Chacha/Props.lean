import Verif.Chacha.Aead

/-!
# C61: ChaCha and its authenticated encryption

`chacha_history`, `chachaTLS_history`, `xchacha20_history`: after `SetKey`, every sequence of `ProcessData`, `GenerateBlock`, `Seek` and `Resynchronize` calls returns what the keystream of the standard says, whatever
SIMD functions the machine has and wherever the counter is. `chacha20Poly1305_encrypt`, `..._decrypt` and the two of XChaCha20: the one-call functions are the AEAD of RFC 8439 and of the draft. `aead_history`
and `aead_round_trip`: any calls in any order, and any pieces. `chachaTLS_seek_defect`: `Seek` of `ChaChaTLS` ignores `InitialBlock`.
-/
namespace Verif.Chacha

open Verif.Auth (pieces_flatten authText)

/-! ## The stream ciphers -/

/-- C61, Bernstein's ChaCha with 8, 12 or 20 rounds and keys of 16 or 32 bytes; positions are below 2^64. -/
theorem chacha_history (ws : List Nat) (p p' : Pol) (rounds : Option Int) (key : List Byte) (hk : key.length = 16 ∨ key.length = 32) (hset : chachaSetKey p rounds key = .ok p') (iv : Iv 8) (junk : Mem)
    (ops : List (Stream.Op (Iv 8))) (hs : Stream.SeeksOk (chacha ws) (2 ^ 58) ops) :
    Stream.run (chacha ws) (Stream.setKey (chacha ws) p' iv junk) ops = .ok (Stream.specRun (fun v => Spec.ofBlocks (Spec.bernsteinBlock (rounds.getD p.rounds).toNat key v.1)) iv 0 ops) := by
  obtain ⟨h1, h2, h3⟩ := chacha_key p rounds key hk p' hset
  have hr : (rounds.getD (p.rounds : Int)).toNat = p'.rounds := by omega
  rw [hr]
  have hrep : chachaRep p'.rounds key iv 0 ((chacha ws).resync p' iv) := by
    refine ⟨?_, rfl⟩
    show p'.state.take 12 ++ [0, 0] ++ getWords 2 iv.1 = _
    rw [h2, mk, List.append_assoc]; rfl
  have hsame : (chacha ws).resync ((chacha ws).resync p' iv) iv = (chacha ws).resync p' iv := by
    simp only [chacha]
    rw [h2, List.append_assoc, List.append_assoc, List.take_left' (keyPart_length key hk)]
  have := Stream.history_outputs (chacha_ok ws p'.rounds (by omega) key hk (2 ^ 58)) iv 0 _ hrep iv junk ops hs
  have e : Stream.setKey (chacha ws) ((chacha ws).resync p' iv) iv junk = Stream.setKey (chacha ws) p' iv junk := by
    unfold Stream.setKey; rw [hsame]
  rwa [e] at this

/-- Other numbers of rounds are refused. -/
theorem chacha_rounds (p : Pol) (r : Int) (key : List Byte) : (∃ p', chachaSetKey p (some r) key = .ok p') ↔ r = 20 ∨ r = 12 ∨ r = 8 := by
  unfold chachaSetKey
  dsimp only [Option.getD]
  by_cases h : r ≠ 20 ∧ r ≠ 12 ∧ r ≠ 8
  · rw [if_pos h]; exact ⟨fun ⟨_, e⟩ => (by cases e), fun e => by omega⟩
  · rw [if_neg h]; exact ⟨fun _ => by omega, fun _ => ⟨_, rfl⟩⟩

theorem tls_setKey_same (ws : List Nat) (p : Pol) (iv : Iv 12) (junk : Mem) : Stream.setKey (tls ws) ((tls ws).resync p iv) iv junk = Stream.setKey (tls ws) p iv junk := rfl

/-- C61, ChaCha20 of RFC 8439, from the block the user wants; the block number is taken modulo 2^32. `Seek` is right only without `InitialBlock`. -/
theorem chachaTLS_history (ws : List Nat) (p p' : Pol) (rounds : Option Int) (first : Option Nat) (key : List Byte) (hk : key.length = 32) (hset : tlsSetKey p rounds first key = .ok p') (iv : Iv 12) (junk : Mem)
    (ops : List (Stream.Op (Iv 12))) (hs : Stream.SeeksOk (tls ws) (if first.getD 0 % 2 ^ 32 = 0 then 2 ^ 58 else 0) ops) :
    Stream.run (tls ws) (Stream.setKey (tls ws) p' iv junk) ops = .ok (Stream.specRun (fun v => Spec.ofBlocks fun i => Spec.chacha20Block key v.1 (first.getD 0 % 2 ^ 32 + i)) iv 0 ops) := by
  unfold tlsSetKey at hset
  by_cases h : rounds.getD 20 ≠ 20
  · rw [if_pos h] at hset; cases hset
  rw [if_neg h] at hset
  injection hset with hset
  have hkey : p'.key = getWords 8 key := by rw [← hset]
  have hc : p'.counter = BitVec.ofNat 32 (first.getD 0) := by rw [← hset]
  have hn : p'.counter.toNat = first.getD 0 % 2 ^ 32 := by rw [hc, BitVec.toNat_ofNat]
  rw [← hn] at hs ⊢
  have hl : (if p'.counter.toNat = 0 then 2 ^ 58 else 0) = 0 ∨ p'.counter = 0 := by
    by_cases h0 : p'.counter.toNat = 0
    · exact .inr (BitVec.eq_of_toNat_eq h0)
    · rw [if_neg h0]; exact .inl rfl
  have := Stream.history_outputs (tls_ok ws key hk p'.counter _ hl) iv 0 _ (tls_resync p' key hk ws iv hkey) iv junk ops hs
  rwa [tls_setKey_same] at this

/-- C61, XChaCha20, from block 1 if the user says nothing. The code always derives the key with 20 rounds, and goes on counting where the draft's block number ends. It is not random access. -/
theorem xchacha20_history (ws : List Nat) (p p' : Pol) (rounds : Option Int) (first : Option Nat) (key : List Byte) (hk : key.length = 32) (hset : xSetKey p rounds first key = .ok p') (iv : Iv 24) (junk : Mem)
    (ops : List (Stream.Op (Iv 24))) (hs : Stream.SeeksOk (xchacha ws) 0 ops) :
    Stream.run (xchacha ws) (Stream.setKey (xchacha ws) p' iv junk) ops =
      .ok (Stream.specRun (fun v => Spec.ofBlocks fun i =>
        Spec.bernsteinBlock (rounds.getD p.rounds).toNat (Spec.hchacha20 key (v.1.take 16)) (v.1.drop 16) (first.getD 1 % 2 ^ 32 + i)) iv 0 ops) := by
  unfold xSetKey at hset
  dsimp only at hset
  by_cases h : rounds.getD (p.rounds : Int) ≠ 20 ∧ rounds.getD (p.rounds : Int) ≠ 12
  · rw [if_pos h] at hset; cases hset
  rw [if_neg h] at hset
  injection hset with hset
  have hkey : p'.key = getWords 8 key := by rw [← hset]
  have hc : p'.counter = BitVec.ofNat 32 (first.getD 1) := by rw [← hset]
  have hrd : (rounds.getD (p.rounds : Int)).toNat = p'.rounds := by rw [← hset]
  have hn : p'.counter.toNat = first.getD 1 % 2 ^ 32 := by rw [hc, BitVec.toNat_ofNat]
  rw [← hn, hrd]
  have := Stream.history_outputs (x_ok ws p'.rounds (by omega) key hk p'.counter) iv 0 _ (x_resync p' key hk ws iv hkey) iv junk ops hs
  exact this

/-- Below block 2^32 that is XChaCha20 of the draft. -/
theorem xchacha20_draft (key nonce : List Byte) (c : Nat) (hc : c < 2 ^ 32) :
    Spec.bernsteinBlock 20 (Spec.hchacha20 key (nonce.take 16)) (nonce.drop 16) c = Spec.xchacha20Block key nonce c := xBlock_eq key nonce c hc

/-! ## Authenticated encryption -/

/-- C61, every history of calls. -/
theorem aead_history (ws : List Nat) (x forward : Bool) (o : Obj) (ops : List (Auth.Op Key)) (hb : Auth.updated ops < 2 ^ 64) :
    Auth.run (aead ws x forward) (Auth.fresh o) ops = Auth.Spec.run (alg x forward) Auth.Spec.init ops :=
  Auth.history_exact (aead_ok ws x forward) o ops hb

/-- The block function of the standard. -/
def stdBlock : Bool → List Byte → List Byte → Nat → List Byte
  | true => Spec.xchacha20Block
  | false => Spec.chacha20Block

theorem ablk_std (x : Bool) (key iv : List Byte) (c : Nat) (hc : c < 2 ^ 32) : ablk x key iv c = stdBlock x key iv c := by
  cases x with
  | true => exact xBlock_eq key iv c hc
  | false => rfl

theorem stdBlock_length (x : Bool) (key : List Byte) (hk : key.length = 32) (iv : List Byte) (hiv : iv.length = ivLen x) (c : Nat) : (stdBlock x key iv c).length = 64 := by
  cases x with
  | true =>
    have hl : (iv.take 16).length = 16 := by rw [List.length_take, hiv]; rfl
    exact ablk_length false _ (hchacha20_length key _ hk hl) ([0, 0, 0, 0] ++ iv.drop 16) (by rw [List.length_append, List.length_drop, hiv]; rfl) c
  | false => exact ablk_length false key hk iv hiv c

/-- Within the limit on the length, the keystream is that of the standard from block 1 on. -/
theorem keystream_std (x : Bool) (k : Key) (iv text : List Byte) (hiv : iv.length = ivLen x) (hx : text.length ≤ 274877906880) :
    xorBytes text (load (Spec.ofBlocks fun i => ablk x k.1 iv (1 + i)) 0 text.length) = Spec.encrypt (stdBlock x k.1 iv) 1 text := by
  rw [Spec.encrypt, Spec.keystream, ← ofBlocks_load (fun i => stdBlock x k.1 iv (1 + i)) (fun i => stdBlock_length x k.1 k.2 iv hiv _)]
  rw [load_congr (Spec.ofBlocks fun i => ablk x k.1 iv (1 + i)) (Spec.ofBlocks fun i => stdBlock x k.1 iv (1 + i)) 0 text.length]
  intro q hq
  unfold Spec.ofBlocks
  dsimp only
  rw [ablk_std x _ _ _ (by omega)]

theorem tag_std (x : Bool) (k : Key) (iv H C : List Byte) : Spec.tag (ablk x k.1 iv) H C = Spec.tag (stdBlock x k.1 iv) H C := by
  unfold Spec.tag
  rw [ablk_std x _ _ 0 (by decide)]

theorem encrypt_same (ws : List Nat) (x : Bool) (s : Auth.State Obj) (iv aad text : List Byte) (n : Nat) (hh : aad.length ≤ 2 ^ 64 - 1) (hx : text.length ≤ 274877906880) :
    encryptAndAuthenticate ws x s iv aad text n = Auth.encryptAndAuthenticate (aead ws x true) s iv aad text n := by
  unfold encryptAndAuthenticate Auth.encryptAndAuthenticate Auth.specifyDataLengths
  rw [if_neg (show ¬ aad.length > (aead ws x true).maxHeader from Nat.not_lt.2 hh), if_neg (show ¬ text.length > (aead ws x true).maxMessage from Nat.not_lt.2 hx)]
  rcases Auth.resynchronize (aead ws x true) s iv with ⟨s, _ | _⟩ <;> try rfl
  dsimp only
  rcases Auth.update (aead ws x true) s aad with ⟨s, _ | _⟩ <;> try rfl
  dsimp only
  rcases Auth.processData (aead ws x true) s text with ⟨s, _ | _⟩ <;> try rfl
  dsimp only
  rcases Auth.truncatedFinal (aead ws x true) s n with ⟨s, _ | _⟩ <;> rfl

theorem decrypt_same (ws : List Nat) (x : Bool) (s : Auth.State Obj) (iv aad text mac : List Byte) (hh : aad.length ≤ 2 ^ 64 - 1) (hx : text.length ≤ 274877906880) :
    decryptAndVerify ws x s iv aad text mac = Auth.decryptAndVerify (aead ws x false) s iv aad text mac := by
  unfold decryptAndVerify Auth.decryptAndVerify Auth.specifyDataLengths
  rw [if_neg (show ¬ aad.length > (aead ws x false).maxHeader from Nat.not_lt.2 hh), if_neg (show ¬ text.length > (aead ws x false).maxMessage from Nat.not_lt.2 hx)]
  rcases Auth.resynchronize (aead ws x false) s iv with ⟨s, _ | _⟩ <;> try rfl
  dsimp only
  rcases Auth.update (aead ws x false) s aad with ⟨s, _ | _⟩ <;> try rfl
  dsimp only
  rcases Auth.processData (aead ws x false) s text with ⟨s, _ | _⟩ <;> try rfl
  dsimp only
  rcases Auth.truncatedVerify (aead ws x false) s mac with ⟨s, _ | _⟩ <;> rfl

theorem aead_encrypt (ws : List Nat) (x : Bool) (s : Auth.State Obj) (k : Key) (iv aad text : List Byte) (n : Nat) (hiv : iv.length = ivLen x) (hh : aad.length < 2 ^ 64)
    (hx : text.length ≤ 274877906880) (hn : n ≤ 16) :
    (encryptAndAuthenticate ws x (Auth.setKey (aead ws x true) s k none).1 iv aad text n).2 = .ok (Spec.aeadEncrypt (stdBlock x k.1 iv) aad text n) := by
  rw [encrypt_same ws x _ iv aad text n (by omega) hx,
    Auth.encrypt_exact (aead_ok ws x true) s k iv aad text n (by simp [alg, hiv]) (show aad.length ≤ 2 ^ 64 - 1 by omega) hh hx hn]
  unfold Spec.aeadEncrypt authText
  simp only [alg, Bool.not_true, Bool.false_eq_true, if_false]
  rw [keystream_std x k iv text hiv hx, tag_std]

theorem aead_decrypt (ws : List Nat) (x : Bool) (s : Auth.State Obj) (k : Key) (iv aad text mac : List Byte) (hiv : iv.length = ivLen x) (hh : aad.length < 2 ^ 64)
    (hx : text.length ≤ 274877906880) (hn : mac.length ≤ 16) :
    (decryptAndVerify ws x (Auth.setKey (aead ws x false) s k none).1 iv aad text mac).2 = .ok (Spec.aeadDecrypt (stdBlock x k.1 iv) aad text mac) := by
  rw [decrypt_same ws x _ iv aad text mac (by omega) hx,
    Auth.decrypt_exact (aead_ok ws x false) s k iv aad text mac (by simp [alg, hiv]) (show aad.length ≤ 2 ^ 64 - 1 by omega) hh hx hn]
  unfold Spec.aeadDecrypt authText
  simp only [alg, Bool.not_false, if_true]
  rw [keystream_std x k iv text hiv hx, tag_std]

/-- C61: `ChaCha20Poly1305::EncryptAndAuthenticate` is `chacha20_aead_encrypt` of RFC 8439, for texts of up to 2^38 - 64 bytes. The object may have been used before. -/
theorem chacha20Poly1305_encrypt (ws : List Nat) (s : Auth.State Obj) (k : Key) (iv aad text : List Byte) (n : Nat) (hiv : iv.length = 12) (hh : aad.length < 2 ^ 64) (hx : text.length ≤ 2 ^ 38 - 64) (hn : n ≤ 16) :
    (encryptAndAuthenticate ws false (Auth.setKey (aead ws false true) s k none).1 iv aad text n).2 = .ok (Spec.aeadEncrypt (Spec.chacha20Block k.1 iv) aad text n) :=
  aead_encrypt ws false s k iv aad text n hiv hh hx hn

theorem chacha20Poly1305_decrypt (ws : List Nat) (s : Auth.State Obj) (k : Key) (iv aad text mac : List Byte) (hiv : iv.length = 12) (hh : aad.length < 2 ^ 64) (hx : text.length ≤ 2 ^ 38 - 64) (hn : mac.length ≤ 16) :
    (decryptAndVerify ws false (Auth.setKey (aead ws false false) s k none).1 iv aad text mac).2 = .ok (Spec.aeadDecrypt (Spec.chacha20Block k.1 iv) aad text mac) :=
  aead_decrypt ws false s k iv aad text mac hiv hh hx hn

/-- C61: `XChaCha20Poly1305` is `AEAD_XChaCha20_Poly1305` of the draft. -/
theorem xchacha20Poly1305_encrypt (ws : List Nat) (s : Auth.State Obj) (k : Key) (iv aad text : List Byte) (n : Nat) (hiv : iv.length = 24) (hh : aad.length < 2 ^ 64) (hx : text.length ≤ 2 ^ 38 - 64) (hn : n ≤ 16) :
    (encryptAndAuthenticate ws true (Auth.setKey (aead ws true true) s k none).1 iv aad text n).2 = .ok (Spec.aeadEncrypt (Spec.xchacha20Block k.1 iv) aad text n) :=
  aead_encrypt ws true s k iv aad text n hiv hh hx hn

theorem xchacha20Poly1305_decrypt (ws : List Nat) (s : Auth.State Obj) (k : Key) (iv aad text mac : List Byte) (hiv : iv.length = 24) (hh : aad.length < 2 ^ 64) (hx : text.length ≤ 2 ^ 38 - 64) (hn : mac.length ≤ 16) :
    (decryptAndVerify ws true (Auth.setKey (aead ws true false) s k none).1 iv aad text mac).2 = .ok (Spec.aeadDecrypt (Spec.xchacha20Block k.1 iv) aad text mac) :=
  aead_decrypt ws true s k iv aad text mac hiv hh hx hn

theorem tag_length (block : Nat → List Byte) (H C : List Byte) : (Spec.tag block H C).length = 16 := by
  simp [Spec.tag, Poly1305.Spec.poly1305, Poly1305.Spec.mac]

/-- C61: what one object encrypts, in any pieces, another decrypts, in any other pieces and with other SIMD functions, and finds authentic. -/
theorem aead_round_trip (ws ws' : List Nat) (x : Bool) (o o' : Obj) (k : Key) (iv : List Byte) (hs xs hs' xs' : List (List Byte)) (n : Nat) (hiv : iv.length = ivLen x)
    (hh : hs.flatten.length < 2 ^ 64) (hx : xs.flatten.length ≤ 2 ^ 38 - 64) (hn : n ≤ 16) (hhs : hs'.flatten = hs.flatten) :
    ∃ (cs : List (List Byte)) (mac : List Byte), Auth.run (aead ws x true) (Auth.fresh o) (Auth.session k iv hs xs (.final n)) =
        [.ok .nothing, .ok .nothing] ++ hs.map (fun _ => .ok .nothing) ++ cs.map (fun c => .ok (.bytes c)) ++ [.ok (.bytes mac)] ∧ mac.length = n ∧
      (xs'.flatten = cs.flatten → ∃ ms : List (List Byte), Auth.run (aead ws' x false) (Auth.fresh o') (Auth.session k iv hs' xs' (.verify mac)) =
        [.ok .nothing, .ok .nothing] ++ hs'.map (fun _ => .ok .nothing) ++ ms.map (fun m => .ok (.bytes m)) ++ [.ok (.bool true)] ∧ ms.flatten = xs.flatten) := by
  have hh2 : hs.flatten.length ≤ 2 ^ 64 - 1 := by omega
  have hivb : (ivLen x == ivLen x) = true := beq_self_eq_true _
  let ks := (alg x true).keystream k iv
  let c := xorBytes xs.flatten (load ks 0 xs.flatten.length)
  let T := (Spec.tag (ablk x k.1 iv) hs.flatten c).take n
  have hcl : c.length = xs.flatten.length := by simp [c]
  have hmac : T.length = n := by simp only [T, List.length_take, tag_length]; omega
  refine ⟨Auth.pieces ks 0 xs, T, ?_, hmac, ?_⟩
  · exact Auth.session_exact (aead_ok ws x true) o k iv hs xs (by simp [alg, hiv]) hh2 hh hx (.final n) _ rfl _ (Or.inl ⟨n, hn, rfl, rfl⟩)
  · intro he
    rw [pieces_flatten] at he
    refine ⟨Auth.pieces ks 0 xs', ?_, ?_⟩
    · have hlen : xs'.flatten.length ≤ 274877906880 := by rw [he]; exact Nat.le_trans (Nat.le_of_eq hcl) hx
      rw [Auth.session_exact (aead_ok ws' x false) o' k iv hs' xs' (by simp [alg, hiv]) (by rw [hhs]; exact hh2) (by rw [hhs]; exact hh) hlen
        (.verify T) _ rfl _ (Or.inr ⟨_, by rw [hmac]; exact hn, rfl, rfl⟩)]
      have ht : (alg x false).tag k iv hs'.flatten (authText (alg x false) k iv 0 xs'.flatten) [] T.length = T := by
        rw [hmac, hhs, authText]
        simp only [alg, Bool.not_false, if_true]
        rw [he]
      rw [ht]
      simp only [beq_self_eq_true]
      rfl
    · rw [pieces_flatten, he]
      have : (xorBytes xs.flatten (load ks 0 xs.flatten.length)).length = xs.flatten.length := hcl
      rw [this]
      exact Verif.xorBytes_cancel _ _ (by simp)

/-! ## Test vectors, and hypotheses that hold -/

/-- RFC 8439 2.3.2 -/
example : Spec.chacha20Block ((List.range 32).map (BitVec.ofNat 8)) [0, 0, 0, 9, 0, 0, 0, 0x4a, 0, 0, 0, 0] 1 = 
    [0x10, 0xf1, 0xe7, 0xe4, 0xd1, 0x3b, 0x59, 0x15, 0x50, 0x0f, 0xdd, 0x1f, 0xa3, 0x20, 0x71, 0xc4, 0xc7, 0xd1, 0xf4, 0xc7, 0x33, 0xc0, 0x68, 0x03, 0x04, 0x22, 0xaa, 0x9a, 0xc3, 0xd4, 0x6c, 0x4e,
     0xd2, 0x82, 0x64, 0x46, 0x07, 0x9f, 0xaa, 0x09, 0x14, 0xc2, 0xd7, 0x05, 0xd9, 0x8b, 0x02, 0xa2, 0xb5, 0x12, 0x9c, 0xd1, 0xde, 0x16, 0x4e, 0xb9, 0xcb, 0xd0, 0x83, 0xe8, 0xa2, 0x50, 0x3c, 0x4e] := by
  decide +kernel

/-- Draft 2.2.1 -/
example : Spec.hchacha20 ((List.range 32).map (BitVec.ofNat 8)) [0, 0, 0, 9, 0, 0, 0, 0x4a, 0, 0, 0, 0, 0x31, 0x41, 0x59, 0x27] =
    [0x82, 0x41, 0x3b, 0x42, 0x27, 0xb2, 0x7b, 0xfe, 0xd3, 0x0e, 0x42, 0x50, 0x8a, 0x87, 0x7d, 0x73, 0xa0, 0xf9, 0xe4, 0xd5, 0x8a, 0x74, 0xa8, 0x53, 0xc1, 0x2e, 0xc4, 0x13, 0x26, 0xd3, 0xec, 0xdc] := by
  decide +kernel

def key8439 : Key := ⟨(List.range 32).map fun i => BitVec.ofNat 8 (0x80 + i), rfl⟩
def nonce8439 : List Byte := [7, 0, 0, 0, 0x40, 0x41, 0x42, 0x43, 0x44, 0x45, 0x46, 0x47]
def aad8439 : List Byte := [0x50, 0x51, 0x52, 0x53, 0xc0, 0xc1, 0xc2, 0xc3, 0xc4, 0xc5, 0xc6, 0xc7]
def text8439 : List Byte := Spec.ascii "Ladies and Gentlemen of the class of '99: If I could offer you only one tip for the future, sunscreen would be it."

/-- RFC 8439 2.8.2 -/
example : (Spec.aeadEncrypt (Spec.chacha20Block key8439.1 nonce8439) aad8439 text8439 16).2 =
    [0x1a, 0xe1, 0x0b, 0x59, 0x4f, 0x09, 0xe2, 0x6a, 0x7e, 0x90, 0x2e, 0xcb, 0xd0, 0x60, 0x06, 0x91] := by decide +kernel

example (s : Auth.State Obj) : (encryptAndAuthenticate [8, 4] false (Auth.setKey (aead [8, 4] false true) s key8439 none).1 nonce8439 aad8439 text8439 16).2 =
    .ok (Spec.aeadEncrypt (Spec.chacha20Block key8439.1 nonce8439) aad8439 text8439 16) :=
  chacha20Poly1305_encrypt [8, 4] s key8439 nonce8439 aad8439 text8439 16 rfl (by decide +kernel) (by decide +kernel) (by decide)

def fresh20 : Pol := ⟨List.replicate 16 0, [], 0, 20⟩

/-- A seek across the 32-bit boundary of the block number, with SIMD functions. -/
example (junk : Mem) (x : List Byte) (iv : Iv 8) : ∃ p', chachaSetKey fresh20 (some 12) key8439.1 = .ok p' ∧
    Stream.run (chacha [8, 4]) (Stream.setKey (chacha [8, 4]) p' iv junk) [.seek (2 ^ 38 - 130), .process x] =
      .ok [xorBytes x (load (Spec.ofBlocks (Spec.bernsteinBlock 12 key8439.1 iv.1)) (2 ^ 38 - 130) x.length)] :=
  ⟨_, rfl, chacha_history [8, 4] fresh20 _ (some 12) key8439.1 (.inr rfl) rfl iv junk _ (by simp [Stream.SeeksOk, chacha])⟩

/-- `Seek` of `ChaChaTLS` ignores `InitialBlock`: back at position 0, the keystream is not the one the object began with. -/
theorem chachaTLS_seek_defect : ∃ (p p' : Pol) (key : List Byte) (iv : Iv 12) (out0 out1 : List Byte), tlsSetKey p none (some 1) key = .ok p' ∧ key.length = 32 ∧ out0 ≠ out1 ∧ 
    Stream.run (tls []) (Stream.setKey (tls []) p' iv fun _ => 0) [.generate 64, .seek 0, .generate 64] = .ok [out0, out1] := by
  exact ⟨fresh20, _, key8439.1, ⟨nonce8439, rfl⟩, Spec.chacha20Block key8439.1 nonce8439 1, Spec.chacha20Block key8439.1 nonce8439 0, rfl, rfl, by decide +kernel, by decide +kernel⟩

end Verif.Chacha
