import Verif.Chacha.Streams
import Verif.Stream.Props
import Verif.Auth.Props
import Verif.Poly1305.Props

/-! ChaCha20Poly1305 and XChaCha20Poly1305 meet the contract of the authenticated ciphers. -/
namespace Verif.Chacha

open Verif.Modes (blocksOf load_byBlocks)
open Verif.Auth (whole rest Impl)

/-- The block function: for `XChaCha20` as the code computes it. -/
def ablk : Bool → List Byte → List Byte → Nat → List Byte
  | true => xBlock 20
  | false => Spec.chacha20Block

def aRep (key : List Byte) (first : W) : (x : Bool) → Iv (ivLen x) → Nat → Pol → Prop
  | true => xRep 20 key first
  | false => tlsRep key first

theorem cipher_ok (ws : List Nat) (key : List Byte) (hk : key.length = 32) (first : W) (x : Bool) :
    (cipher ws x).Ok (fun v => Spec.ofBlocks fun i => ablk x key v.1 (first.toNat + i)) (aRep key first x) 0 := by
  cases x with
  | true => exact x_ok ws 20 rfl key hk first
  | false => exact tls_ok ws key hk first 0 (.inl rfl)

/-- `CipherSetKey` does not fail here. -/
theorem cipherSetKey_spec (x : Bool) (p : Pol) (first : Nat) (key : List Byte) :
    ∃ p', cipherSetKey x p first key = .ok p' ∧ p'.key = getWords 8 key ∧ p'.counter = BitVec.ofNat 32 first ∧ (x = true → p'.rounds = 20) := by
  cases x with
  | true => exact ⟨_, rfl, rfl, rfl, fun _ => rfl⟩
  | false => exact ⟨_, rfl, rfl, rfl, fun h => by cases h⟩

theorem setKey_inv (ws : List Nat) (key : List Byte) (hk : key.length = 32) (x : Bool) (p : Pol) (w : Iv (ivLen x)) (junk : Mem) (h1 : p.key = getWords 8 key) (h2 : x = true → p.rounds = 20) :
    Stream.Inv (cipher ws x) (fun v => Spec.ofBlocks fun i => ablk x key v.1 (p.counter.toNat + i)) (aRep key p.counter x) w 0 (Stream.setKey (cipher ws x) p w junk) := by
  have hr : aRep key p.counter x w 0 ((cipher ws x).resync p w) := by
    cases x with
    | true =>
      have := x_resync p key hk ws w h1
      rw [h2 rfl] at this
      exact this
    | false => exact tls_resync p key hk ws w h1
  have hsame : (cipher ws x).resync ((cipher ws x).resync p w) w = (cipher ws x).resync p w := by cases x <;> rfl
  have := Stream.setKey_spec (cipher_ok ws key hk p.counter x) w 0 _ w junk hr
  have e : Stream.setKey (cipher ws x) ((cipher ws x).resync p w) w junk = Stream.setKey (cipher ws x) p w junk := by
    unfold Stream.setKey; rw [hsame]
  rwa [e] at this

theorem ablk_length (x : Bool) (key : List Byte) (hk : key.length = 32) (iv : List Byte) (hiv : iv.length = ivLen x) (c : Nat) : (ablk x key iv c).length = 64 := by
  cases x with
  | true =>
    have hl : (iv.take 16).length = 16 := by rw [List.length_take, hiv]; rfl
    show (xBlock 20 key iv c).length = 64
    rw [x_mk 20 key iv hiv, core_length _ _ (mk_length _ _ _ _ (keyPart_length _ (.inr (hchacha20_length key _ hk hl))) (getWords_length 2 _) _)]
  | false =>
    show (Spec.chacha20Block key iv c).length = 64
    rw [tls_mk key iv hiv, core_length _ _ (mk_length _ _ _ _ (keyPart_length _ (.inr hk)) (getWords_length 2 _) _)]

theorem ofBlocks_load (f : Nat → List Byte) (hf : ∀ k, (f k).length = 64) (n : Nat) : load (Spec.ofBlocks f) 0 n = ((List.range (n / 64 + 1)).flatMap f).take n := by
  have h := load_byBlocks 64 (by omega) f hf 0 (n / 64 + 1)
  rw [Nat.zero_mul] at h
  have h2 : load (Spec.ofBlocks f) 0 ((n / 64 + 1) * 64) = (List.range (n / 64 + 1)).flatMap f := by
    rw [show load (Spec.ofBlocks f) 0 ((n / 64 + 1) * 64) = _ from h]
    simp only [blocksOf, Nat.zero_add]
  rw [← h2, load_take _ _ _ _ (by omega)]

theorem xor_zeros (n : Nat) (y : List Byte) (h : y.length = n) : xorBytes (List.replicate n 0) y = y := by
  apply List.ext_getElem (by simp [h])
  intro i h1 h2
  simp [xorBytes]

/-- The key of the MAC. -/
def otk (x : Bool) (k : Key) (iv : List Byte) : List Byte := (ablk x k.1 iv 0).take 32

/-- Authenticated so far, and the lengths at the end. -/
def impl (x : Bool) : Impl Key (List Byte × Nat × Nat) where
  init := fun _ _ => ([], 0, 0)
  absorb := fun _ a d => (a.1 ++ d, a.2)
  endHeader := fun _ a _ h => (a.1 ++ padTo16 h, a.2)
  endMessage := fun _ a _ h m => (a.1 ++ padTo16 m, h, m)
  mac := fun k iv a _ n => (Poly1305.Spec.poly1305 (otk x k iv) (a.1 ++ (leBytes 8 a.2.1 ++ leBytes 8 a.2.2))).take n

def alg (x : Bool) (forward : Bool) : Auth.Spec.Alg Key where
  maxHeader := 2 ^ 64 - 1
  maxMessage := 274877906880
  maxFooter := 0
  digestSize := 16
  ivOk := fun n => n == ivLen x
  authInput := !forward
  keystream := fun k iv => Spec.ofBlocks fun i => ablk x k.1 iv (1 + i)
  tag := fun k iv H C _ n => (Spec.tag (ablk x k.1 iv) H C).take n

/-- The object has authenticated `a` and is at byte `q` of the keystream. -/
def GRep (ws : List Nat) (x : Bool) (k : Key) (iv : List Byte) (a : List Byte × Nat × Nat) (q : Nat) (o : Obj) : Prop :=
  o.userKey = k.1 ∧ Poly1305.Rep (Poly1305.clampedKey (otk x k iv)) (Poly1305.quad ((otk x k iv).drop 16)) o.mac a.1 ∧ a.2 = o.lens ∧
    ∃ h : iv.length = ivLen x, Stream.Inv (cipher ws x) (fun v => Spec.ofBlocks fun i => ablk x k.1 v.1 (1 + i)) (aRep k.1 1 x) ⟨iv, h⟩ q o.cipher

theorem poly_update (r n : Poly1305.Quad) (s : Poly1305.St) (m d : List Byte) (h : Poly1305.Rep r n s m) : Poly1305.Rep r n (Poly1305.update s d) (m ++ d) := by
  obtain ⟨h1, h2, h3⟩ := h
  obtain ⟨u1, u2, u3⟩ := Poly1305.update_spec s m d h1
  exact ⟨u1, u2.trans h2, u3.trans h3⟩

theorem whole_one (d : List Byte) : whole 1 d = d := by unfold whole; rw [Nat.div_one, Nat.one_mul, List.take_length]

theorem otk_length (x : Bool) (k : Key) (iv : List Byte) (h : iv.length = ivLen x) : (otk x k iv).length = 32 := by
  rw [otk, List.length_take, ablk_length x k.1 k.2 iv h]; rfl

theorem rekey_spec (ws : List Nat) (x : Bool) (k : Key) (o : Obj) (iv : List Byte) (h : iv.length = ivLen x) (hk : o.userKey = k.1) :
    ∃ o', rekey ws x o ⟨iv, h⟩ = .ok o' ∧ GRep ws x k iv ([], 0, 0) 0 o' := by
  obtain ⟨p0, e0, k0, c0, r0⟩ := cipherSetKey_spec x o.cipher.pol 0 k.1
  have i0 := setKey_inv ws k.1 k.2 x p0 ⟨iv, h⟩ o.junk k0 r0
  obtain ⟨s1, e1, _⟩ := Stream.process_spec (cipher_ok ws k.1 k.2 p0.counter x) _ 0 _ (List.replicate 32 0) i0
  obtain ⟨p1, e2, k1, c1, r1⟩ := cipherSetKey_spec x s1.pol 1 k.1
  have i1 := setKey_inv ws k.1 k.2 x p1 ⟨iv, h⟩ o.junk k1 r1
  have hd : xorBytes (List.replicate 32 0) (load (Spec.ofBlocks fun i => ablk x k.1 iv (p0.counter.toNat + i)) 0 (List.replicate 32 (0 : Byte)).length) = otk x k iv := by
    rw [List.length_replicate, xor_zeros 32 _ (by simp), ofBlocks_load _ (fun k' => ablk_length x k.1 k.2 iv h _), c0]
    show List.take 32 ([0].flatMap fun i => ablk x k.1 iv (0 + i)) = _
    rw [List.flatMap_cons, List.flatMap_nil, List.append_nil]
    rfl
  unfold rekey
  rw [hk, e0]
  simp only [bind, Except.bind]
  rw [e1]
  simp only []
  rw [e2]
  refine ⟨_, rfl, rfl, ?_, rfl, h, ?_⟩
  · dsimp only
    rw [hd]
    exact ⟨⟨Poly1305.clampedKey_clamped _, by simp [Poly1305.setKeyTLS, Poly1305.restart, acc16], Poly1305.zero_ok, [], [], rfl, rfl, by decide, rfl, rfl, rfl⟩, rfl, rfl⟩
  · rw [c1] at i1
    exact i1

theorem aead_ok (ws : List Nat) (x forward : Bool) : (aead ws x forward).Ok (alg x forward) (impl x) (fun k o => o.userKey = k.1) (GRep ws x) where
  pos := show 0 < 1 by decide
  maxHeader := rfl
  maxMessage := rfl
  maxFooter := rfl
  digestSize := rfl
  ivOk := rfl
  authInput := by cases forward <;> rfl
  small := show 274877906880 < 2 ^ 64 by decide
  tag := by
    intro k iv H C F n _ _ _ hF _
    have hF' : F = [] := List.eq_nil_of_length_eq_zero (Nat.le_zero.1 hF)
    subst hF'
    unfold Impl.tag Impl.message Impl.header
    simp only [impl, alg, show (aead ws x forward).blockSize = 1 from rfl, whole_one, Spec.tag, List.nil_append, List.append_nil, List.append_assoc]
    rfl
  absorb_nil := by intro k a; simp [impl]
  absorb_append := by intro k a d e _; simp [impl]
  rep_key := fun k iv a q o h => h.1
  setKey := fun o k => rfl
  resync := by
    intro k o iv hk hiv
    have h : iv.length = ivLen x := by simpa [aead] using hiv
    obtain ⟨o', e, r⟩ := rekey_spec ws x k o iv h hk
    exact ⟨o', by simp only [aead, dif_pos h, e], r⟩
  authBlocks := by
    intro k iv a q o d ⟨h1, h2, h3⟩ _
    refine ⟨{ o with mac := Poly1305.update o.mac d }, by simp only [aead, Nat.mod_one], h1, ?_, h3⟩
    rw [show (aead ws x forward).blockSize = 1 from rfl, whole_one]
    exact poly_update _ _ _ _ _ h2
  lastHeader := fun k iv a q o p h ⟨h1, h2, h3⟩ _ => ⟨_, rfl, h1, poly_update _ _ _ _ _ h2, h3⟩
  lastConfidential := fun k iv a q o p h m ⟨h1, h2, _, h4⟩ _ => ⟨_, rfl, h1, poly_update _ _ _ _ _ h2, rfl, h4⟩
  lastFooter := by
    intro k iv a q o p n ⟨h1, h2, h3, h4, _⟩ _ hn
    have hl := otk_length x k iv h4
    obtain ⟨s', e, _⟩ := (Poly1305.poly1305_computes _ _ (Poly1305.quad_words ((otk x k iv).drop 16)) 0).final _ _ n (poly_update _ _ _ _ (leBytes 8 o.lens.1 ++ leBytes 8 o.lens.2) h2) hn
    rw [show Poly1305.obj.final = Poly1305.truncatedFinal from rfl] at e
    refine ⟨{ o with mac := s' }, ?_, h1⟩
    show (Poly1305.truncatedFinal _ n >>= fun r => _) = _
    rw [e]
    simp only [bind, Except.bind, impl, h3]
    rw [Poly1305.clampedKey_val _ (by omega), Poly1305.quad_val _ (by simp; omega)]
    rfl
  process := by
    intro k iv a q o d ⟨h1, h2, h3, h4, h5⟩
    obtain ⟨s', e, i⟩ := Stream.process_spec (cipher_ok ws k.1 k.2 1 x) _ q o.cipher d h5
    refine ⟨{ o with cipher := s' }, ?_, h1, h2, h3, h4, i⟩
    show (Stream.processData _ _ _ >>= fun r => _) = _
    rw [e]
    rfl

end Verif.Chacha
