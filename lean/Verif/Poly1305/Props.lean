import Verif.Poly1305.Proofs

/-! # C41: Poly1305 -/
namespace Verif.Poly1305

/-- What an object holds: its key `(r, n)` and the message so far. -/
def Rep (r n : Quad) (s : St) (msg : List Byte) : Prop := Inv s msg ∧ s.r = r ∧ s.n = n

/-- Words of `s`. -/
def Quad.Words (n : Quad) : Prop := n.w0 < 4294967296 ∧ n.w1 < 4294967296 ∧ n.w2 < 4294967296 ∧ n.w3 < 4294967296

/-- The words of a byte string are words. -/
theorem quad_words (b : List Byte) : (quad b).Words := ⟨word_lt _ _, word_lt _ _, word_lt _ _, word_lt _ _⟩

/-- For a clamped `r` and any `s` the object computes the MAC of RFC 8439 of all the bytes given since it was set up or finished, however they were split, and any prefix of it;
more than 16 bytes are refused. There is no limit on the length. -/
theorem poly1305_computes (r n : Quad) (hn : n.Words) (lim : Nat) : obj.Computes (Spec.mac r.val n.val) lim (Rep r n) where
  update := by
    intro s m x ⟨h, hr, hn'⟩ _
    obtain ⟨h1, h2, h3⟩ := update_spec s m x h
    exact ⟨_, rfl, h1, h2.trans hr, h3.trans hn'⟩
  restart := fun s m ⟨h, hr, hn'⟩ => ⟨restart_spec s m h, hr, hn'⟩
  final := by
    intro s m k ⟨h, hr, hn'⟩ hk
    obtain ⟨b0, b1, b2, b3⟩ := hn
    obtain ⟨s', h1, h2, h3, h4⟩ := final_spec s m h k hk (by rw [hn']; exact b0) (by rw [hn']; exact b1) (by rw [hn']; exact b2) (by rw [hn']; exact b3)
    rw [hr, hn'] at h1
    exact ⟨s', h1, h2, h3.trans hr, h4.trans hn'⟩
  reject := by
    intro s k hk
    show truncatedFinal s k = _
    unfold truncatedFinal
    rw [if_pos (show k > 16 from hk)]
  length := by intro m; simp [Spec.mac, obj]

/-- `Update` calls one after another. -/
def updates : St → List (List Byte) → St
  | s, [] => s
  | s, x :: xs => updates (update s x) xs

theorem updates_rep (r n : Quad) (xs : List (List Byte)) : ∀ (s : St) (m : List Byte), Rep r n s m → Rep r n (updates s xs) (m ++ xs.flatten) := by
  induction xs with
  | nil => intro s m h; simpa [updates] using h
  | cons x xs ih =>
    intro s m ⟨h, hr, hn⟩
    obtain ⟨h1, h2, h3⟩ := update_spec s m x h
    have := ih (update s x) (m ++ x) ⟨h1, h2.trans hr, h3.trans hn⟩
    rw [List.append_assoc] at this
    exact this

/-- `Poly1305TLS`: after `SetKey`, in whatever state the object was, the tag is that of RFC 8439 for the key and the concatenation of the updates. -/
theorem tls_tag (s : St) (hacc : s.acc.length = 16) (key : List Byte) (hk : key.length = 32) (xs : List (List Byte)) (size : Nat) (hs : size ≤ 16) :
    ∃ s', truncatedFinal (updates (setKeyTLS s key) xs) size = .ok (s', (Spec.poly1305 key xs.flatten).take size) ∧ Rep (clampedKey key) (quad (key.drop 16)) s' [] := by
  have hrep : Rep (clampedKey key) (quad (key.drop 16)) (setKeyTLS s key) [] :=
    ⟨⟨clampedKey_clamped key, hacc, zero_ok, [], [], rfl, rfl, by decide, rfl, rfl, rfl⟩, rfl, rfl⟩
  have h := updates_rep _ _ xs _ _ hrep
  obtain ⟨s', h1, h2⟩ := (poly1305_computes _ _ (quad_words (key.drop 16)) 0).final _ _ size h hs
  refine ⟨s', ?_, h2⟩
  rw [show obj.final = truncatedFinal from rfl] at h1
  rw [h1, clampedKey_val key (by omega), quad_val _ (by simp; omega)]
  rfl

/-- `Poly1305<T>`: the key is the cipher's key followed by `r`; `s` is the encrypted nonce. The nonce can be given with the key or by `Resynchronize`, which is also how the next message gets its nonce. -/
theorem cipher_tag (cipher : List Byte → List Byte → List Byte) (hE : ∀ k b, (cipher k b).length = 16) (b : Base) (hacc : b.st.acc.length = 16) (k r : List Byte) (hk : k.length = 16) (hr : r.length = 16)
    (nonce : List Byte) (given : Bool) (xs : List (List Byte)) (size : Nat) (hs : size ≤ 16) :
    let b1 := if given then setKey cipher b (k ++ r) (some nonce) else resynchronize (setKey cipher b (k ++ r) none) nonce
    ∃ s', truncatedFinal (updates b1.st xs) size = .ok (s', (Spec.mac (Spec.clamp r) (leVal (cipher k nonce)) xs.flatten).take size) ∧
      ∀ nonce' xs', ∃ s'', truncatedFinal (updates (resynchronize ⟨b1.E, s'⟩ nonce').st xs') size = .ok (s'', (Spec.mac (Spec.clamp r) (leVal (cipher k nonce')) xs'.flatten).take size) := by
  intro b1
  have hlen : (k ++ r).length - 16 = 16 := by rw [List.length_append]; omega
  have hb1 : b1.E = cipher k ∧ Rep (clampedKey r) (quad (cipher k nonce)) b1.st [] := by
    have ht : (k ++ r).take 16 = k := List.take_left' hk
    have hd : (k ++ r).drop 16 = r := List.drop_left' hk
    cases given
    · refine ⟨?_, ⟨?_, ?_, ?_⟩⟩
      · show cipher ((k ++ r).take _) = _; rw [hlen, ht]
      · refine ⟨?_, hacc, zero_ok, [], [], rfl, rfl, by decide, rfl, rfl, rfl⟩
        exact clampedKey_clamped _
      · show clampedKey ((k ++ r).drop _) = _; rw [hlen, hd]
      · show quad (cipher ((k ++ r).take _) nonce) = _; rw [hlen, ht]
    · refine ⟨?_, ⟨?_, ?_, ?_⟩⟩
      · show cipher ((k ++ r).take _) = _; rw [hlen, ht]
      · refine ⟨?_, hacc, zero_ok, [], [], rfl, rfl, by decide, rfl, rfl, rfl⟩
        exact clampedKey_clamped _
      · show clampedKey ((k ++ r).drop _) = _; rw [hlen, hd]
      · show quad (cipher ((k ++ r).take _) nonce) = _; rw [hlen, ht]
  obtain ⟨hE1, hrep⟩ := hb1
  have key : ∀ (st : St) (nonce : List Byte) (xs : List (List Byte)), Rep (clampedKey r) (quad (cipher k nonce)) st [] →
      ∃ s', truncatedFinal (updates st xs) size = .ok (s', (Spec.mac (Spec.clamp r) (leVal (cipher k nonce)) xs.flatten).take size) ∧ Rep (clampedKey r) (quad (cipher k nonce)) s' [] := by
    intro st nonce xs hrep
    have h := updates_rep _ _ xs _ _ hrep
    obtain ⟨s', h1, h2⟩ := (poly1305_computes _ _ (quad_words (cipher k nonce)) 0).final _ _ size h hs
    refine ⟨s', ?_, h2⟩
    rw [show obj.final = truncatedFinal from rfl] at h1
    rw [h1, clampedKey_val r (by omega), quad_val _ (by rw [hE]), List.take_of_length_le (l := cipher k nonce) (by rw [hE])]
    rfl
  obtain ⟨s', h1, h2⟩ := key b1.st nonce xs hrep
  refine ⟨s', h1, ?_⟩
  intro nonce' xs'
  have hr' : Rep (clampedKey r) (quad (cipher k nonce')) (resynchronize ⟨b1.E, s'⟩ nonce').st [] := by
    rw [hE1]
    obtain ⟨⟨c1, c2, c3, c4⟩, c5, c6⟩ := h2
    exact ⟨⟨c1, c2, c3, c4⟩, c5, rfl⟩
  obtain ⟨s'', h3, _⟩ := key _ nonce' xs' hr'
  exact ⟨s'', h3⟩

/-! ## An instance: the example of RFC 8439 2.5.2, in two updates -/

private def st0 : St := ⟨⟨0, 0, 0, 0, 0⟩, ⟨0, 0, 0, 0⟩, ⟨0, 0, 0, 0⟩, List.replicate 16 0, 0⟩
private def key : List Byte := [0x85, 0xd6, 0xbe, 0x78, 0x57, 0x55, 0x6d, 0x33, 0x7f, 0x44, 0x52, 0xfe, 0x42, 0xd5, 0x06, 0xa8,
  0x01, 0x03, 0x80, 0x8a, 0xfb, 0x0d, 0xb2, 0xfd, 0x4a, 0xbf, 0xf6, 0xaf, 0x41, 0x49, 0xf5, 0x1b]
private def msg : List Byte := ("Cryptographic Forum Research Group".toList.map (fun c => BitVec.ofNat 8 c.toNat))
private def tag : List Byte := [0xa8, 0x06, 0x1d, 0xc1, 0x30, 0x51, 0x36, 0xc6, 0xc2, 0x2b, 0x8b, 0xaf, 0x0c, 0x01, 0x27, 0xa9]

example : Spec.poly1305 key msg = tag := by decide +kernel
example : (truncatedFinal (updates (setKeyTLS st0 key) [msg.take 5, msg.drop 5]) 16).map Prod.snd = .ok tag := by decide +kernel
example : ∃ s', truncatedFinal (updates (setKeyTLS st0 key) [msg.take 20, [], msg.drop 20]) 12 = .ok (s', tag.take 12) := by
  obtain ⟨s', h, _⟩ := tls_tag st0 (by decide) key (by decide) [msg.take 20, [], msg.drop 20] 12 (by decide)
  rw [show (Spec.poly1305 key [msg.take 20, [], msg.drop 20].flatten) = tag by decide +kernel] at h
  exact ⟨s', h⟩

end Verif.Poly1305
