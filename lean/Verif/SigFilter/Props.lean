import Verif.SigFilter.Proofs
import Verif.HashFilter.Props
import Verif.Dl.Props

/-!
# C68: signature filters sign what they are given, and verification accepts exactly the validly signed messages
-/
namespace Verif.SigFilter
open Verif.BufFilter Verif.BufFilter.Filt
open Verif.HashFilter (out out_append bind_ok')
variable {σ ρ τ : Type} {V : Ver σ} {valid : List Byte → List Byte → Bool} {lim : Nat} {Rep : σ → List Byte → Prop}

/-- `SIGNATURE_AT_END`: for every flag combination, every sequence of messages not shorter than a signature and every way of cutting them into `Put` calls, the
filter delivers what the specification says, for each message on its own, whatever came before and even when earlier messages failed with an exception. -/
theorem at_end_exact (C : V.Decides valid lim Rep) (junk : Nat → Byte) (fl : Flags) (hfl : fl.signatureAtBegin = false) (acc : σ) (hr : Rep acc [])
    (ms : List (List (List Byte))) (hl : ∀ m ∈ ms, m.flatten.length < lim ∧ V.sigLen ≤ m.flatten.length) :
    verifyAll V junk fl acc ms = .ok (ms.map fun m => specEnd valid fl V.sigLen m.flatten) := by
  obtain ⟨b, e, p⟩ := init_pre junk 0 1 V.sigLen (Nat.le_refl _)
  unfold verifyAll init
  rw [hfl]
  simp only [Bool.false_eq_true, if_false]
  rw [e]
  exact run_end C fl hfl _ rfl ms ⟨b, acc, false, []⟩ ⟨hr, Nat.zero_le _, fun h => absurd rfl h, .inr ⟨rfl, rfl, p⟩⟩ hl

/-- `SIGNATURE_AT_BEGIN`: the same, as long as no message but the last throws. -/
theorem at_begin_exact (C : V.Decides valid lim Rep) (hu : V.upfront = false) (junk : Nat → Byte) (fl : Flags) (hfl : fl.signatureAtBegin = true) (acc : σ) (hr : Rep acc [])
    (ms : List (List (List Byte))) (hl : ∀ m ∈ ms, m.flatten.length < lim ∧ V.sigLen ≤ m.flatten.length)
    (hth : ∀ m ∈ ms.dropLast, (specBegin valid fl V.sigLen m.flatten).thrown = false) :
    verifyAll V junk fl acc ms = .ok (ms.map fun m => specBegin valid fl V.sigLen m.flatten) := by
  obtain ⟨b, e, p⟩ := init_pre junk V.sigLen 1 0 (Nat.le_refl _)
  unfold verifyAll init
  rw [hfl]
  simp only [if_true]
  rw [e]
  refine run_begin C fl hfl hu _ rfl ms ⟨b, acc, false, []⟩ (.inl ⟨p, ?_, hr⟩) hl hth
  by_cases h0 : V.sigLen = 0
  · exact .inr ⟨h0, rfl⟩
  · exact .inl (by simp; omega)

/-- Without `THROW_EXCEPTION` no condition on earlier messages is left. -/
theorem at_begin_no_throw_exact (C : V.Decides valid lim Rep) (hu : V.upfront = false) (junk : Nat → Byte) (fl : Flags) (hfl : fl.signatureAtBegin = true) (hex : fl.throwException = false)
    (acc : σ) (hr : Rep acc []) (ms : List (List (List Byte))) (hl : ∀ m ∈ ms, m.flatten.length < lim ∧ V.sigLen ≤ m.flatten.length) :
    verifyAll V junk fl acc ms = .ok (ms.map fun m => specBegin valid fl V.sigLen m.flatten) :=
  at_begin_exact C hu junk fl hfl acc hr ms hl fun m _ => by simp [specBegin, Result.make, hex]

/-! ## `SignerFilter` -/

variable {S : Sgn τ ρ} {good : List Byte → List Byte → Prop} {Rep' : τ → List Byte → Prop}

/-- What `SignerFilter` must put out for a message. -/
def Signed (good : List Byte → List Byte → Prop) (putMessage : Bool) (m : List (List Byte)) (o : List (Option Byte)) : Prop :=
  ∃ sig, good m.flatten sig ∧ o = ((if putMessage then m.flatten else []) ++ sig).map some ++ [none]

theorem signFeed_exact (C : S.Signs good lim Rep') (pm : Bool) (pieces : List (List Byte)) (s : SF τ ρ) (m : List Byte)
    (h : Rep' s.acc m) (hl : (m ++ pieces.flatten).length < lim) :
    ∃ s' sig, signFeed S pm s pieces = .ok (s', (if pm then out pieces.flatten else []) ++ out sig ++ [none]) ∧ good (m ++ pieces.flatten) sig ∧ Rep' s'.acc [] := by
  have single : ∀ p, (m ++ p).length < lim → ∃ s' sig, signPut S pm s p true = .ok (s', (if pm then out p else []) ++ out sig ++ [none]) ∧ good (m ++ p) sig ∧ Rep' s'.acc [] := by
    intro p hl
    obtain ⟨a, e1, r1⟩ := C.update s.acc m p h hl
    obtain ⟨sig, r', e2, hg⟩ := C.sign s.rng a _ r1
    obtain ⟨b, r'', e3, r3⟩ := C.fresh r'
    refine ⟨⟨r'', b⟩, sig, ?_, hg, r3⟩
    unfold signPut
    rw [e1]
    simp only [bind_ok', if_true]
    rw [e2]
    simp only [bind_ok']
    rw [e3]
    rfl
  match pieces with
  | [] => simpa [signFeed] using single [] (by simpa using hl)
  | [p] => simpa [signFeed] using single p (by simpa using hl)
  | p :: p' :: ps =>
    rw [List.flatten_cons] at hl ⊢
    obtain ⟨a, e1, r1⟩ := C.update s.acc m p h (by simp at hl ⊢; omega)
    obtain ⟨s2, sig, e2, hg, r2⟩ := signFeed_exact C pm (p' :: ps) ⟨s.rng, a⟩ (m ++ p) r1 (by simpa [-List.length_flatten] using hl)
    refine ⟨s2, sig, ?_, by simpa using hg, r2⟩
    have e3 : signPut S pm s p false = .ok (⟨s.rng, a⟩, if pm then out p else []) := by
      unfold signPut
      rw [e1]
      rfl
    rw [signFeed, e3]
    · simp only [bind_ok']
      rw [e2]
      cases pm <;> simp [bind_ok', pure, Except.pure, out_append]
    · simp

/-- `SignerFilter`: every message, cut up in any way, is followed by a signature of it and a message end; with `putMessage` the message itself comes first. -/
theorem signer_filter_exact (C : S.Signs good lim Rep') (pm : Bool) (rng : ρ) (ms : List (List (List Byte))) (hl : ∀ m ∈ ms, m.flatten.length < lim) :
    ∃ os, signAll S pm rng ms = .ok os ∧ List.Forall₂ (Signed good pm) ms os := by
  obtain ⟨a, r, e, h⟩ := C.fresh rng
  unfold signAll signInit
  rw [e]
  suffices ∀ (s : SF τ ρ), Rep' s.acc [] → ∃ os, signRun S pm s ms = .ok os ∧ List.Forall₂ (Signed good pm) ms os from this ⟨r, a⟩ h
  clear e h a r
  induction ms with
  | nil => exact fun s _ => ⟨[], rfl, .nil⟩
  | cons m ms ih =>
    intro s h
    obtain ⟨s', sig, e, hg, r⟩ := signFeed_exact C pm m s [] h (by simpa using hl m (by simp))
    obtain ⟨os, e2, f⟩ := ih (fun k hk => hl k (by simp [hk])) s' r
    refine ⟨_ :: os, ?_, .cons ⟨sig, hg, rfl⟩ f⟩
    rw [signRun, e]
    simp only [bind_ok']
    rw [e2]
    cases pm <;> simp [out, bind_ok', pure, Except.pure]

/-- What `SignerFilter` produced is accepted and comes back unchanged, however both ends cut it up, if signatures that are `proper` are valid and these are. -/
theorem round_trip (C : S.Signs good lim Rep') (D : V.Decides valid lim Rep) (proper : List Byte → Prop) (hgood : ∀ m sig, good m sig → sig.length = V.sigLen ∧ (proper sig → valid m sig = true)) (junk : Nat → Byte) (rng : ρ) (acc : σ)
    (hacc : Rep acc []) (ms : List (List (List Byte))) (hl : ∀ m ∈ ms, m.flatten.length + V.sigLen < lim) (throwException : Bool) :
    ∃ os, signAll S true rng ms = .ok os ∧ ∀ received : List (List (List Byte)), received.map (fun r => r.flatten.map some ++ [none]) = os →
      (∀ r ∈ received, proper (r.flatten.drop (r.flatten.length - V.sigLen))) →
      verifyAll V junk ⟨false, true, false, false, throwException⟩ acc received = .ok (ms.map fun m => ⟨m.flatten.map some ++ [none], false, true⟩) := by
  obtain ⟨os, e, f⟩ := signer_filter_exact C true rng ms fun m hm => by have := hl m hm; omega
  refine ⟨os, e, fun received hrec hprop => ?_⟩
  have key : List.Forall₂ (fun m r => ∃ sig : List Byte, good m.flatten sig ∧ r.flatten = m.flatten ++ sig) ms received := by
    clear e hprop
    subst hrec
    induction received generalizing ms with
    | nil => cases f; exact .nil
    | cons r rs ih =>
      cases f with
      | cons hm f =>
        obtain ⟨sig, hg, ho⟩ := hm
        refine .cons ⟨sig, hg, ?_⟩ (ih _ (fun k hk => hl k (by simp [hk])) f)
        have := List.append_cancel_right ho
        exact (List.map_inj_right fun _ _ h => Option.some.inj h).mp this
  have hrl : ∀ r ∈ received, r.flatten.length < lim ∧ V.sigLen ≤ r.flatten.length := by
    clear e hrec f hprop
    induction key with
    | nil => simp
    | @cons m r ms rs hm key ih =>
      obtain ⟨sig, hg, hr⟩ := hm
      intro k hk
      rcases List.mem_cons.mp hk with rfl | hk
      · have := hl m (by simp)
        have := (hgood _ _ hg).1
        rw [hr, List.length_append]
        constructor <;> omega
      · exact ih (fun k hk => hl k (by simp [hk])) k hk
  rw [at_end_exact D junk _ rfl acc hacc received hrl]
  congr 1
  clear e hrec f hrl
  induction key with
  | nil => rfl
  | @cons m r ms rs hm key ih =>
    obtain ⟨sig, hg, hr⟩ := hm
    rw [List.map_cons, List.map_cons, ih (fun k hk => hl k (by simp [hk])) (fun k hk => hprop k (by simp [hk]))]
    congr 1
    obtain ⟨h1, h2⟩ := hgood _ _ hg
    have hp := hprop r (by simp)
    have hlen : (m.flatten ++ sig).length - V.sigLen = m.flatten.length := by rw [List.length_append]; omega
    rw [hr] at hp ⊢
    rw [hlen, List.drop_left' rfl] at hp
    unfold specEnd Result.make
    dsimp only
    rw [hlen, List.take_left' rfl, List.drop_left' rfl, h2 hp]
    simp

/-! ## The schemes -/

/-- The accumulator of ed25519: 64 bytes of some signature, then the message. -/
theorem ed25519_decides (opens : List Byte → List Byte → Bool) (lim : Nat) : (ed25519 opens).Decides opens lim (fun a m => ∃ old : List Byte, old.length = 64 ∧ a = old ++ m) where
  update := by
    rintro s m x ⟨old, ho, rfl⟩ -
    exact ⟨_, rfl, old, ho, by simp⟩
  check := by
    rintro s m sig ⟨old, ho, rfl⟩ hs
    have hs' : sig.length = 64 := hs
    refine ⟨sig, ?_, sig, hs', by simp⟩
    have e : (ed25519 opens).input (old ++ m) sig = .ok (sig ++ m) := by
      show Except.ok (if sig.length ≠ 0 then _ else _) = _
      rw [if_pos (by omega), hs', List.take_of_length_le (by omega), show min 64 64 = old.length by rw [ho]; rfl, List.drop_left' rfl]
    unfold check
    rw [e]
    show Except.ok ((sig ++ m).take 64, opens ((sig ++ m).drop 64) ((sig ++ m).take 64)) = _
    rw [List.take_left' hs', List.drop_left' hs']

/-- Discrete logarithm schemes: valid is what `VerifyMessage` says of message and signature. -/
theorem dl_decides {E τ : Type} {O : Hash.Obj τ} {H : List Byte → List Byte} {R : τ → List Byte → Prop} (C : O.Computes H lim R) (P : Dl.Params E) (alg : Dl.Alg) (y : E) :
    (dl O P alg y).Decides (fun m sig => decide (Dl.verifyDigest P alg y (H m) sig = .ok true)) lim (fun a m => R a.1 m) where
  update := by
    intro s m x h hl
    obtain ⟨s', e, r⟩ := C.update s.1 m x h hl
    exact ⟨(s', s.2), by show (do let h ← O.update s.1 x; return (h, s.2)) = _; rw [e]; rfl, r⟩
  check := by
    intro s m sig h hs
    have hs' : sig.length = Dl.byteCount P.order + Dl.byteCount P.order := hs
    obtain ⟨s', e, r⟩ := C.final s.1 m O.digestSize h (Nat.le_refl _)
    rw [List.take_of_length_le (by rw [C.length])] at e
    refine ⟨(s', sig), ?_, r⟩
    have e1 : (dl O P alg y).input s sig = .ok (s.1, sig) := by
      show (if _ then _ else _) = _
      rw [if_neg (by omega), List.take_of_length_le (by omega)]
    obtain ⟨v, hv⟩ : ∃ v, Dl.verifyDigest P alg y (H m) sig = .ok v := by
      unfold Dl.verifyDigest
      dsimp only
      rw [if_neg (by omega)]
      exact ⟨_, rfl⟩
    unfold check
    rw [e1]
    show (do let (h, d) ← O.final s.1 O.digestSize; let v ← Dl.verifyDigest P alg y d sig; return ((h, sig), v)) = _
    rw [e]
    simp only [bind_ok']
    rw [hv]
    cases v <;> simp [bind_ok', pure, Except.pure]

/-- With a discrete logarithm scheme and `SIGNATURE_AT_END`, a message shorter than a signature is refused with `InvalidDataFormat`, whatever came before. -/
theorem dl_short_refused {E τ : Type} {O : Hash.Obj τ} {H : List Byte → List Byte} {R : τ → List Byte → Prop} (C : O.Computes H lim R) (P : Dl.Params E) (alg : Dl.Alg) (y : E) (junk : Nat → Byte)
    (fl : Flags) (hfl : fl.signatureAtBegin = false) (acc : τ × List Byte) (hr : R acc.1 []) (ms : List (List (List Byte)))
    (hl : ∀ m ∈ ms, m.flatten.length < lim ∧ 2 * Dl.byteCount P.order ≤ m.flatten.length) (short : List (List Byte)) (hs : short.flatten.length < 2 * Dl.byteCount P.order)
    (hsl : short.flatten.length < lim) (rest : List (List (List Byte))) :
    verifyAll (dl O P alg y) junk fl acc (ms ++ short :: rest) = .error .invalidDataFormat := by
  have hn : 2 * Dl.byteCount P.order = (dl O P alg y).sigLen := Nat.two_mul _
  obtain ⟨b, e, p⟩ := init_pre junk 0 1 (dl O P alg y).sigLen (Nat.le_refl _)
  unfold verifyAll init
  rw [hfl]
  simp only [Bool.false_eq_true, if_false]
  rw [e]
  refine run_end_short (dl_decides C P alg y) fl hfl _ rfl ms ⟨b, acc, false, []⟩ ⟨hr, Nat.zero_le _, fun h => absurd rfl h, .inr ⟨rfl, rfl, p⟩⟩ (by rw [← hn]; exact hl) short rest (by rw [← hn]; exact hs) hsl _ ?_
  intro a _
  unfold check
  have e1 : (dl O P alg y).input a short.flatten = .error .invalidDataFormat := by
    show (if _ then _ else _) = _
    rw [if_pos (by omega)]
  rw [e1]
  rfl

theorem dlSigner_signs {E τ : Type} {O : Hash.Obj τ} {H : List Byte → List Byte} {R : τ → List Byte → Prop} (C : O.Computes H lim R) (P : Dl.Params E) (alg : Dl.Alg) (x : Int) (start : τ)
    (h0 : R start []) (nonce : ρ → Int × ρ) (hn : ∀ r, 0 < (nonce r).1 ∧ (nonce r).1 < P.order) :
    (dlSigner O P alg x start nonce).Signs (fun m sig => ∃ k, (0 < k ∧ k < P.order) ∧ sig = Dl.signDigest P alg x k (H m)) lim R where
  fresh := fun r => ⟨start, r, rfl, h0⟩
  update := C.update
  sign := by
    intro r s m h
    obtain ⟨s', e, -⟩ := C.final s m O.digestSize h (Nat.le_refl _)
    rw [List.take_of_length_le (by rw [C.length])] at e
    refine ⟨Dl.signDigest P alg x (nonce r).1 (H m), (nonce r).2, ?_, (nonce r).1, hn r, rfl⟩
    · show (do let (_, d) ← O.final s O.digestSize; return (Dl.signDigest P alg x (nonce r).1 d, (nonce r).2)) = _
      rw [e]
      rfl

/-- No component of a signature is zero (a nonce can make one zero, but for NR's second that does no harm). -/
def NonZero {E : Type} (P : Dl.Params E) (alg : Dl.Alg) (sig : List Byte) : Prop :=
  Dl.decodeInt (sig.take (Dl.byteCount P.order)) ≠ 0 ∧ (alg = .nr ∨ Dl.decodeInt (sig.drop (Dl.byteCount P.order)) ≠ 0)

/-- DSA, ECDSA, ECGDSA and NR end to end: what a `SignerFilter` puts out, a `SignatureVerificationFilter` with the public key accepts, if no component of a signature is zero. -/
theorem dl_round_trip {E τ : Type} {P : Dl.Params E} {W : E → Prop} {one : E} (L : P.Laws W one) {O : Hash.Obj τ} {H : List Byte → List Byte} {R : τ → List Byte → Prop} (C : O.Computes H lim R)
    (alg : Dl.Alg) (x : Int) (hx : 0 < x ∧ x < P.order) (start : τ) (h0 : R start []) (nonce : ρ → Int × ρ) (hn : ∀ r, 0 < (nonce r).1 ∧ (nonce r).1 < P.order)
    (junk : Nat → Byte) (rng : ρ) (ms : List (List (List Byte))) (hl : ∀ m ∈ ms, m.flatten.length + 2 * Dl.byteCount P.order < lim) (throwException : Bool) :
    ∃ os, signAll (dlSigner O P alg x start nonce) true rng ms = .ok os ∧ ∀ received : List (List (List Byte)), received.map (fun r => r.flatten.map some ++ [none]) = os →
      (∀ r ∈ received, NonZero P alg (r.flatten.drop (r.flatten.length - 2 * Dl.byteCount P.order))) →
      verifyAll (dl O P alg (Dl.publicElement P alg x)) junk ⟨false, true, false, false, throwException⟩ (start, []) received =
        .ok (ms.map fun m => ⟨m.flatten.map some ++ [none], false, true⟩) := by
  rw [show 2 * Dl.byteCount P.order = (dl O P alg (Dl.publicElement P alg x)).sigLen from Nat.two_mul _]
  refine round_trip (dlSigner_signs C P alg x start h0 nonce hn) (dl_decides C P alg _) (NonZero P alg) ?_ junk rng (start, []) h0 ms (fun m hm => by
    have := hl m hm
    show _ + (Dl.byteCount P.order + Dl.byteCount P.order) < _
    omega) throwException
  rintro m sig ⟨k, hk, rfl⟩
  refine ⟨?_, fun z => by simpa using Dl.signatures_verify L alg x k hx.1 hx.2 hk.1 hk.2 (H m) z.1 z.2⟩
  rw [(Dl.signature_components L alg x k hk.1 hk.2 (H m) _ _ _ _ rfl rfl rfl rfl).1, Nat.two_mul]
  rfl

/-! ## The hypotheses can be met, and where they fail -/

/-- A toy verifier whose signature of a message is its sum and length. -/
def toy (upfront : Bool) : Ver (List Byte × List Byte) where
  sigLen := 2
  upfront := upfront
  update := fun a x => .ok (a.1 ++ x, a.2)
  input := fun a sig => .ok (a.1, sig)
  verify := fun a => .ok (([], []), decide (HashFilter.toyHash a.1 = a.2))

theorem toy_decides (u : Bool) : (toy u).Decides (fun m sig => decide (HashFilter.toyHash m = sig)) 1000 (fun a m => a.1 = m) where
  update := fun s m x h _ => ⟨(s.1 ++ x, s.2), rfl, by rw [h]⟩
  check := fun s m sig h _ => ⟨([], []), by subst h; rfl, rfl⟩

/-- Everything on, signature at the end: a good message, a forged one (exception), a good one again. -/
example : verifyAll (toy false) (fun _ => 0xcc) ⟨false, true, true, true, true⟩ ([], []) [[[1, 2], [3], [6, 3]], [[1], [2, 9, 9]], [[5, 5, 1]]] =
      .ok [⟨[some 1, some 2, some 3, some 6, some 3, some 1, none], false, true⟩, ⟨[some 1, some 2, some 9, some 9, some 0], true, false⟩, ⟨[some 5, some 5, some 1, some 1, none], false, true⟩] := by
  rw [at_end_exact (toy_decides false) _ _ rfl _ rfl _ (by decide)]
  decide

/-- The default flags, signature at the beginning. -/
example : verifyAll (toy false) (fun _ => 0xcc) ⟨true, false, false, true, false⟩ ([], []) [[[6], [3, 1, 2], [3]], [[6, 3, 1, 2], [4]], [[0, 0]]] =
      .ok [⟨[some 1, none], false, true⟩, ⟨[some 0, none], false, false⟩, ⟨[some 1, none], false, true⟩] := by
  rw [at_begin_no_throw_exact (toy_decides false) rfl _ _ rfl rfl _ rfl _ (by decide)]
  decide

/-- ed25519 behind the filter. -/
example (opens : List Byte → List Byte → Bool) (junk : Nat → Byte) (m sig : List Byte) (hs : sig.length = 64) (hv : opens m sig = true) :
    verifyAll (ed25519 opens) junk ⟨false, true, false, false, true⟩ ed25519Fresh [[m, sig]] = .ok [⟨m.map some ++ [none], false, true⟩] := by
  rw [at_end_exact (ed25519_decides opens (m.length + 65)) junk _ rfl _ ⟨ed25519Fresh, rfl, by simp⟩ [[m, sig]] (by simp [hs, ed25519])]
  have : (m ++ sig).length - (ed25519 opens).sigLen = m.length := by simp [hs, ed25519]
  simp [specEnd, Result.make, ed25519, hs, hv]

/-- DSA in a small group, with nonces 2 and 3 in turn: two messages through both filters. -/
example : ∃ os, signAll (dlSigner HashFilter.toy (Dl.gfp 7879 101 170) .gdsa 75 [] fun b : Bool => (if b then 2 else 3, !b)) true true [[[1], [2]], [[3]]] = .ok os ∧
    verifyAll (dl HashFilter.toy (Dl.gfp 7879 101 170) .gdsa (Dl.publicElement (Dl.gfp 7879 101 170) .gdsa 75)) (fun _ => 0) ⟨false, true, false, false, true⟩ ([], [])
      (os.map fun o => [o.dropLast.map fun b => b.getD 0]) = .ok [⟨[some 1, some 2, none], false, true⟩, ⟨[some 3, none], false, true⟩] := by
  obtain ⟨os, e, h⟩ := dl_round_trip (Dl.gfp_parameters 7879 101 (by norm_num) (by norm_num) (by norm_num) 170 (by norm_num) (by norm_num) (by norm_num)) HashFilter.toy_computes .gdsa 75 (by decide) []
    rfl (fun b : Bool => (if b then 2 else 3, !b)) (by decide) (fun _ => 0) true [[[1], [2]], [[3]]] (by decide +kernel) true
  refine ⟨os, e, ?_⟩
  have e' : signAll (dlSigner HashFilter.toy (Dl.gfp 7879 101 170) .gdsa 75 [] fun b : Bool => (if b then 2 else 3, !b)) true true [[[1], [2]], [[3]]] =
    .ok [[some 1, some 2, some 11, some 9, none], [some 3, some 40, some 24, none]] := by decide +kernel
  have := Except.ok.inj (e.symm.trans e')
  subst this
  exact h _ (by decide) (by unfold NonZero; decide +kernel)

example : verifyAll (dl HashFilter.toy (Dl.gfp 7879 101 170) .gdsa 4567) (fun _ => 0) ⟨false, true, false, false, false⟩ ([], []) [[[1, 2, 3], [4]], [[5]]] = .error .invalidDataFormat :=
  dl_short_refused HashFilter.toy_computes _ .gdsa 4567 _ _ rfl _ rfl [[[1, 2, 3], [4]]] (by decide +kernel) [[5]] (by decide +kernel) (by decide) []

/-- ed25519, `SIGNATURE_AT_END`: after a validly signed empty message, a message of nothing at all, with no signature, is accepted: the accumulator still has the old one. -/
theorem ed25519_missing_signature_accepted (opens : List Byte → List Byte → Bool) (sig : List Byte) (hs : sig.length = 64) (hv : opens [] sig = true) (junk : Nat → Byte) :
    verifyAll (ed25519 opens) junk ⟨false, true, false, true, true⟩ ed25519Fresh [[sig], []] = .ok [⟨[some 1, none], false, true⟩, ⟨[some 1, none], false, true⟩] := by
  have C := ed25519_decides opens 1000
  obtain ⟨b, e, p⟩ := init_pre junk 0 1 (ed25519 opens).sigLen (Nat.le_refl _)
  unfold verifyAll init
  simp only [Bool.false_eq_true, if_false]
  rw [e]
  simp only [bind_ok', pure, Except.pure]
  have h0 : AtEnd (fun a m => ∃ old : List Byte, old.length = 64 ∧ a = old ++ m) 64 ⟨b, ed25519Fresh, false, []⟩ [] [] :=
    ⟨⟨ed25519Fresh, rfl, by simp⟩, Nat.zero_le _, fun h => absurd rfl h, .inr ⟨rfl, rfl, p⟩⟩
  obtain ⟨s1, x, c1, e1, h1, hx⟩ := putFalse_end C ⟨false, true, false, true, true⟩ rfl 64 _ [] [] sig h0 (by simp [hs])
  rw [List.nil_append, List.nil_append, List.nil_append] at hx
  have hc1 : c1.length = 64 := by
    by_cases hm : x = []
    · rw [← hs, ← hx, hm, List.nil_append]
    · exact h1.full (by simpa using hm)
  have hx0 : x = [] := by
    have := congrArg List.length hx
    rw [List.length_append] at this
    exact List.length_eq_zero_iff.mp (by omega)
  subst hx0
  rw [List.nil_append] at hx h1
  subst hx
  obtain ⟨s2, v, e2, hv1, hv2, h2, hck⟩ := finish_end C ⟨false, true, false, true, true⟩ rfl 64 rfl s1 [] c1 h1 hc1
  rw [hv] at hv2
  subst hv2
  have hacc : s2.acc = c1 := by
    obtain ⟨old, ho, ha⟩ := h1.acc
    have e3 : check (ed25519 opens) s1.acc c1 = .ok (c1, opens [] c1) := by
      rw [ha, List.append_nil]
      show Except.ok ((if c1.length ≠ 0 then c1.take 64 ++ old.drop (min 64 c1.length) else old).take 64, _) = _
      rw [if_pos (by omega), hc1, List.take_of_length_le (l := c1) (by omega), show min 64 64 = old.length by rw [ho]; rfl, List.drop_length, List.append_nil, List.take_of_length_le (by omega),
        List.drop_eq_nil_of_le (by omega)]
    rw [e3] at hck
    exact (congrArg Prod.fst (Except.ok.inj hck)).symm
  have hqs : s2.base.q.Inv ∧ s2.base.q.content = [] := by
    rcases h2.base with hb | ⟨-, -, hb⟩ <;> exact ⟨hb.qinv, hb.con⟩
  obtain ⟨q', e4, -⟩ := Ring.getAll_state s2.base.q hqs.1
  rw [hqs.2] at e4
  have hck2 : check (ed25519 opens) s2.acc [] = .ok (c1, true) := by
    rw [hacc]
    show Except.ok ((if ([] : List Byte).length ≠ 0 then _ else c1).take 64, opens ((if ([] : List Byte).length ≠ 0 then _ else c1).drop 64) ((if ([] : List Byte).length ≠ 0 then _ else c1).take 64)) = _
    simp only [List.length_nil, ne_eq, not_true_eq_false, if_false]
    rw [List.take_of_length_le (by omega), List.drop_eq_nil_of_le (by omega), hv]
  have hfirst : (if !s2.base.firstDone ∧ s2.base.firstSize = 0 then firstPut (ed25519 opens) ⟨false, true, false, true, true⟩ s2 [] else .ok (s2, []) : Except Err (SV _ × List (Option Byte))) = .ok (s2, []) := by
    unfold firstPut; simp [pure, Except.pure]
  have hfin : ∃ s3, finish (ed25519 opens) ⟨false, true, false, true, true⟩ s2 = .ok (s3, [some 1, none], false) ∧ s3.verified = true := by
    refine ⟨{ s2 with base := { s2.base with q := Ring.reset s2.base.junk 1 s2.base.firstSize, firstDone := false }, acc := c1, verified := true }, ?_, ?_⟩
    · unfold finish
      rw [hfirst]
      simp only [bind_ok']
      rw [e4]
      simp only [bind_ok', lastPut, Bool.false_eq_true, if_false]
      rw [hck2]
      rfl
    · rfl
  obtain ⟨s3, e5, e6⟩ := hfin
  have f1 : feed (ed25519 opens) ⟨false, true, false, true, true⟩ ⟨b, ed25519Fresh, false, []⟩ [c1] = .ok (s2, [some 1, none], false) := by
    rw [feed, put_true _ _ _ _ _ _ e1, e2]
    rfl
  have f2 : feed (ed25519 opens) ⟨false, true, false, true, true⟩ s2 [] = .ok (s3, [some 1, none], false) := by
    rw [feed]
    unfold put
    simp only [List.length_nil, ne_eq, not_true_eq_false, if_false, bind_ok', if_true]
    rw [e5]
    rfl
  rw [run, f1]
  simp only [bind_ok']
  rw [run, f2]
  simp only [bind_ok', run, pure, Except.pure, hv1, e6]

/-- With `SignatureUpfront()` the signature is not passed on, and the verifier is given an empty signature after the message. -/
theorem upfront_signature_lost : verifyAll (toy true) (fun _ => 0xcc) ⟨true, true, true, true, false⟩ ([], []) [[[6, 3, 1, 2, 3]]] = .ok [⟨[some 1, some 2, some 3, some 0, none], false, false⟩] ∧
    verifyAll (toy false) (fun _ => 0xcc) ⟨true, true, true, true, false⟩ ([], []) [[[6, 3, 1, 2, 3]]] = .ok [⟨[some 6, some 3, some 1, some 2, some 3, some 1, none], false, true⟩] := by decide

/-- `SIGNATURE_AT_BEGIN`, a later message shorter than the signature: it is checked with the signature of the message before it, and the single byte 7 is reported as verified. -/
theorem short_message_accepted : verifyAll (toy false) (fun _ => 0xcc) ⟨true, true, false, true, true⟩ ([], []) [[[0, 0]], [[7]]] =
    .ok [⟨[some 1, none], false, true⟩, ⟨[some 1, none], false, true⟩] := by decide

/-- `SIGNATURE_AT_BEGIN` with `THROW_EXCEPTION`: after a forged message and its exception, a valid message is rejected. -/
theorem valid_message_rejected_after_exception :
    verifyAll (toy false) (fun _ => 0xcc) ⟨true, true, false, true, true⟩ ([], []) [[[9, 9, 1]], [[6, 3, 1, 2, 3]]] =
      .ok [⟨[some 1, some 0], true, false⟩, ⟨[some 6, some 3, some 1, some 2, some 3, some 0], true, false⟩] ∧
    verifyAll (toy false) (fun _ => 0xcc) ⟨true, true, false, true, true⟩ ([], []) [[[6, 3, 1, 2, 3]]] = .ok [⟨[some 1, some 2, some 3, some 1, none], false, true⟩] := by decide

end Verif.SigFilter
