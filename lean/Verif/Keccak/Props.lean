import Verif.Keccak.Proofs

/-! # C49: Keccak, SHA-3 and SHAKE equal FIPS 202 for every message, split, history and output size -/
namespace Verif.Keccak
open Spec (bits Op)

/-- Run a history on an object of the class and list what its `TruncatedFinal` calls deliver; an object that fails to take input ends the
history with the error. -/
def run (V : Variant) : List Op → State → List (Except Err (List Byte))
  | [], _ => []
  | .update x :: ops, s => match update V s x with
    | .ok s => run V ops s
    | .error e => [.error e]
  | .restart :: ops, s => run V ops (restart s)
  | .final size :: ops, s => match final V s size with
    | .ok (s, h) => .ok h :: run V ops s
    | .error e => .error e :: run V ops s

/-- What a history must deliver when the answer to `TruncatedFinal(size)` after the message `m` is `H m size`: the message is what was given
since the last `Restart` or successful `TruncatedFinal`. -/
def specRun (H : List Byte → Nat → Except Err (List Bool)) : List Op → List Byte → List (Except Err (List Bool))
  | [], _ => []
  | .update x :: ops, m => specRun H ops (m ++ x)
  | .restart :: ops, _ => specRun H ops []
  | .final size :: ops, m => match H m size with
    | .ok h => .ok h :: specRun H ops []
    | .error e => .error e :: specRun H ops m

/-- What the three families must answer. -/
def answer (limit : Nat) (F : Nat → List Bool → List Bool) (m : List Byte) (size : Nat) : Except Err (List Bool) :=
  if size > limit then .error .invalidArgument else .ok (F (8 * size) (bits m))

theorem final_reject (V : Variant) (s : State) (size : Nat) (h : size > if V.xof then uintMax else V.digestSize) : final V s size = .error .invalidArgument := by
  unfold final
  by_cases hx : V.xof = true
  · rw [if_pos hx] at h ⊢; rw [if_pos h]
  · rw [if_neg hx] at h ⊢; rw [if_pos h]

theorem run_exact (V : Variant) (hr : 0 < V.rate) (hr2 : V.rate ≤ 200) (hd : V.xof = false → V.digestSize ≤ V.rate) (suf : List Bool) (hs : suf.length ≤ 6)
    (hdom : bits [V.domain] = suf ++ [true] ++ List.replicate (7 - suf.length) false) (ops : List Op) (s : State) (m : List Byte) (h : Rep V s m) :
    (run V ops s).map (Except.map bits)
      = specRun (answer (if V.xof then uintMax else V.digestSize) fun d M => Spec.sponge (8 * V.rate) (M ++ suf) d) ops m := by
  induction ops generalizing s m with
  | nil => rfl
  | cons op ops ih => cases op with
    | update x =>
      obtain ⟨s', e, h'⟩ := update_spec V hr hr2 s m x h
      rw [run, e]
      exact ih s' _ h'
    | restart => exact ih _ _ (init_rep V hr s)
    | final size =>
      rw [run, specRun]
      by_cases hsz : size > if V.xof then uintMax else V.digestSize
      · rw [final_reject V s size hsz]
        unfold answer
        rw [if_pos hsz]
        exact congrArg _ (ih s m h)
      · obtain ⟨bs, p, rfl, hb⟩ := h
        obtain ⟨s', e⟩ := final_spec V hr hr2 hd s bs p size hb (by omega)
        rw [e]
        conv => rhs; unfold answer
        rw [if_neg hsz]
        show Except.ok _ :: _ = _
        rw [bits_outBytes V hr hr2 suf hs hdom bs hb.blocks p hb.rest size]
        exact congrArg _ (ih _ _ (init_rep V hr s'))

theorem toString_length (A : Spec.Array) : (Spec.toString A).length = 1600 := by
  have h5 : List.finRange 5 = [0, 1, 2, 3, 4] := by decide
  simp [Spec.toString, h5]

theorem sha3_domain (d : Nat) : bits [(sha3 d).domain] = [false, true] ++ [true] ++ List.replicate (7 - [false, true].length) false :=
  show bits [0x06] = [false, true] ++ [true] ++ List.replicate (7 - 2) false by decide
theorem keccak_domain (d : Nat) : bits [(keccak d).domain] = [] ++ [true] ++ List.replicate (7 - ([] : List Bool).length) false :=
  show bits [0x01] = [] ++ [true] ++ List.replicate (7 - 0) false by decide
theorem shake_domain (a b : Nat) : bits [(shake a b).domain] = [true, true, true, true] ++ [true] ++ List.replicate (7 - [true, true, true, true].length) false :=
  show bits [0x1F] = [true, true, true, true] ++ [true] ++ List.replicate (7 - 4) false by decide

/-- The prefix of the sponge's output does not depend on how much output is asked for. -/
theorem sponge_prefix (V : Variant) (hr : 0 < V.rate) (hr2 : V.rate ≤ 200) (N : List Bool) (d e : Nat) (h : d ≤ e) (he : e ≤ 8 * V.rate) :
    Spec.sponge (8 * V.rate) N d = (Spec.sponge (8 * V.rate) N e).take d := by
  unfold Spec.sponge
  dsimp only
  rw [List.take_take, Nat.min_eq_left h]
  have key : ∀ (S : List Bool), S.length = 1600 → ∀ n, ((List.range (n + 1)).flatMap fun i => (i.repeat Spec.keccakF S).take (8 * V.rate)).take d
      = S.take d := by
    intro S hS n
    rw [List.range_succ_eq_map, List.flatMap_cons, List.take_append_of_le_length (by simp [Nat.repeat, hS]; omega)]
    show (S.take (8 * V.rate)).take d = _
    rw [List.take_take, Nat.min_eq_left (by omega)]
  have hlen : ∀ (bl : List (List Bool)) (S : List Bool), S.length = 1600 →
      (bl.foldl (fun S Pi => Spec.keccakF (Spec.xor S (Pi ++ List.replicate (1600 - 8 * V.rate) false))) S).length = 1600 := by
    intro bl
    induction bl with
    | nil => intro S h; exact h
    | cons b bl ih =>
      intro S _
      refine ih _ ?_
      unfold Spec.keccakF
      exact toString_length _
  rw [key _ (hlen _ _ List.length_replicate), key _ (hlen _ _ List.length_replicate)]

/-- **C49 (SHA-3).** For every digest size the library defines (28, 32, 48, 64, and any other up to 66 bytes), every history of `Update`
(any split, any length), `Restart` and `TruncatedFinal` delivers exactly the first `size` bytes of SHA3-`8d` of the message since the last
`Restart` or `TruncatedFinal`; sizes above `d` are refused and change nothing. -/
theorem sha3_exact (d : Nat) (hd : d ≤ 66) (ops : List Op) :
    (run (sha3 d) ops init).map (Except.map bits) = specRun (answer d fun n M => (Spec.sha3 (8 * d) M).take n) ops [] := by
  have h0 : 0 < (sha3 d).rate := by show 0 < 200 - 2 * d; omega
  have h1 : (sha3 d).rate ≤ 200 := by show 200 - 2 * d ≤ 200; omega
  have hr : (sha3 d).rate = 200 - 2 * d := rfl
  rw [run_exact (sha3 d) h0 h1 (fun _ => by show d ≤ 200 - 2 * d; omega) [false, true] (by decide) (sha3_domain d) ops init [] (init_rep _ h0 _)]
  congr 1
  funext m size
  show answer d _ m size = _
  unfold answer
  by_cases hsz : size > d
  · rw [if_pos hsz, if_pos hsz]
  · rw [if_neg hsz, if_neg hsz]
    unfold Spec.sha3
    dsimp only
    rw [show 1600 - 2 * (8 * d) = 8 * (sha3 d).rate by rw [hr]; omega]
    rw [sponge_prefix (sha3 d) h0 h1 _ (8 * size) (8 * d) (by omega) (by rw [hr]; omega)]

/-- **C49 (Keccak).** The same for the original Keccak. -/
theorem keccak_exact (d : Nat) (hd : d ≤ 66) (ops : List Op) :
    (run (keccak d) ops init).map (Except.map bits) = specRun (answer d fun n M => (Spec.keccak (8 * d) M).take n) ops [] := by
  have h0 : 0 < (keccak d).rate := by show 0 < 200 - 2 * d; omega
  have h1 : (keccak d).rate ≤ 200 := by show 200 - 2 * d ≤ 200; omega
  have hr : (keccak d).rate = 200 - 2 * d := rfl
  rw [run_exact (keccak d) h0 h1 (fun _ => by show d ≤ 200 - 2 * d; omega) [] (by decide) (keccak_domain d) ops init [] (init_rep _ h0 _)]
  congr 1
  funext m size
  show answer d _ m size = _
  unfold answer
  by_cases hsz : size > d
  · rw [if_pos hsz, if_pos hsz]
  · rw [if_neg hsz, if_neg hsz]
    unfold Spec.keccak
    dsimp only
    rw [show 1600 - 2 * (8 * d) = 8 * (keccak d).rate by rw [hr]; omega, List.append_nil]
    rw [sponge_prefix (keccak d) h0 h1 _ (8 * size) (8 * d) (by omega) (by rw [hr]; omega)]

/-- **C49 (SHAKE).** For SHAKE128 and SHAKE256 and every output size set at construction, `TruncatedFinal(size)` delivers SHAKE(M, 8 size) for
every `size` up to `UINT_MAX`, whatever the history; larger sizes are refused and change nothing. -/
theorem shake_exact (strength outputSize : Nat) (h : strength = 128 ∨ strength = 256) (ops : List Op) :
    (run (shake strength outputSize) ops init).map (Except.map bits) = specRun (answer (2 ^ 32 - 1) fun n M => Spec.shake strength n M) ops [] := by
  have hr : 8 * (shake strength outputSize).rate = 1600 - 2 * strength := by rcases h with rfl | rfl <;> rfl
  have h0 : 0 < (shake strength outputSize).rate := by rcases h with rfl | rfl <;> (show _ ; simp [shake])
  have h1 : (shake strength outputSize).rate ≤ 200 := by rcases h with rfl | rfl <;> (show _ ; simp [shake])
  rw [run_exact (shake strength outputSize) h0 h1 (fun hx => by cases hx) [true, true, true, true] (by decide) (shake_domain _ _) ops init [] (init_rep _ h0 _), hr]
  rfl

/-- **C49.** Objects of the fixed-size classes compute their digest in the sense used for `HMAC`, the key derivation functions, the
generators and the signature encodings. -/
theorem sha3_computes (d : Nat) (hd : d ≤ 66) (lim : Nat) : ∃ (H : List Byte → List Byte) (Rep : State → List Byte → Prop),
    (obj (sha3 d)).Computes H lim Rep ∧ Rep init [] ∧ ∀ m, bits (H m) = Spec.sha3 (8 * d) (bits m) := by
  have h0 : 0 < (sha3 d).rate := by show 0 < 200 - 2 * d; omega
  have h1 : (sha3 d).rate ≤ 200 := by show 200 - 2 * d ≤ 200; omega
  have hr : (sha3 d).rate = 200 - 2 * d := rfl
  have hex : ∀ m : List Byte, ∃ h : List Byte, bits h = Spec.sha3 (8 * d) (bits m) := by
    intro m
    obtain ⟨s, -, bs, p, hm, hb⟩ := update_spec (sha3 d) h0 h1 init [] m (init_rep _ h0 _)
    refine ⟨outBytes (sha3 d) bs p d, ?_⟩
    rw [bits_outBytes (sha3 d) h0 h1 [false, true] (by decide) (sha3_domain d) bs hb.blocks p hb.rest, ← hm, List.nil_append]
    unfold Spec.sha3
    rw [show 1600 - 2 * (8 * d) = 8 * (sha3 d).rate by rw [hr]; omega]
  refine ⟨fun m => (hex m).choose, Rep (sha3 d), ?_, init_rep _ h0 _, fun m => (hex m).choose_spec⟩
  have hout : ∀ bs p n, (∀ b ∈ bs, b.length = (sha3 d).rate) → p.length < (sha3 d).rate → n ≤ d →
      outBytes (sha3 d) bs p n = ((hex (bs.flatten ++ p)).choose).take n := by
    intro bs p n hb hp hn
    apply bits_inj
    rw [bits_take, (hex (bs.flatten ++ p)).choose_spec, bits_outBytes (sha3 d) h0 h1 [false, true] (by decide) (sha3_domain d) bs hb p hp]
    unfold Spec.sha3
    rw [show 1600 - 2 * (8 * d) = 8 * (sha3 d).rate by rw [hr]; omega, sponge_prefix (sha3 d) h0 h1 _ (8 * n) (8 * d) (by omega) (by rw [hr]; omega)]
  have hfull : ∀ m, (hex m).choose.length = d := by
    intro m
    have := congrArg List.length (hex m).choose_spec
    rw [bits_length] at this
    obtain ⟨s, -, bs, p, hm, hb⟩ := update_spec (sha3 d) h0 h1 init [] m (init_rep _ h0 _)
    have e := bits_outBytes (sha3 d) h0 h1 [false, true] (by decide) (sha3_domain d) bs hb.blocks p hb.rest d
    rw [← hm, List.nil_append] at e
    have e2 : Spec.sponge (8 * (sha3 d).rate) (bits m ++ [false, true]) (8 * d) = Spec.sha3 (8 * d) (bits m) := by
      unfold Spec.sha3
      rw [show 1600 - 2 * (8 * d) = 8 * (sha3 d).rate by rw [hr]; omega]
    rw [e2] at e
    have this := this.trans (congrArg List.length e.symm)
    rw [bits_length] at this
    have hl : (outBytes (sha3 d) bs p d).length = d := by
      unfold outBytes
      rw [stream_succ, List.length_take, List.length_append, List.length_take, absorbed_length, hr]
      omega
    omega
  exact {
    update := fun s m x h _ => update_spec (sha3 d) h0 h1 s m x h
    restart := fun s _ _ => init_rep _ h0 s
    final := by
      intro s m n ⟨bs, p, hm, hb⟩ hn
      obtain ⟨s', e⟩ := final_spec (sha3 d) h0 h1 (fun _ => by show d ≤ 200 - 2 * d; omega) s bs p n hb hn
      refine ⟨restart s', ?_, init_rep _ h0 _⟩
      show final (sha3 d) s n = _
      rw [e, hout bs p n hb.blocks hb.rest hn, hm]
    reject := fun s n h => final_reject (sha3 d) s n h
    length := hfull }

/-! ## Concrete cases -/

/-- SHA3-256("abc"), given in two pieces, after another message was hashed; then a size that is refused, and SHA3-256(""). -/
example : run (sha3 32) [.update [1, 2], .final 4, .update [0x61], .update [0x62, 0x63], .final 33, .final 8, .final 4] init =
    [.ok [0x76, 0xe8, 0xbb, 0x05], .error .invalidArgument, .ok [0x3a, 0x98, 0x5d, 0xa7, 0x4f, 0xe2, 0x25, 0xb2], .ok [0xa7, 0xff, 0xc6, 0xf8]] := by
  decide +kernel

/-- SHAKE128 of 200 bytes (more than a block), 340 bytes of output (more than two blocks): the last four. -/
example : (run (shake 128 32) [.update ((List.range 168).map (BitVec.ofNat 8)), .update ((List.range' 168 32).map (BitVec.ofNat 8)), .final 340] init).map
    (Except.map (List.drop 336)) = [.ok [0x62, 0xdf, 0xab, 0x35]] := by
  decide +kernel

/-- Keccak-256(""), and the hypotheses of the theorems. -/
example : run (keccak 32) [.update [], .final 4] init = [.ok [0xc5, 0xd2, 0x46, 0x01]] ∧ 28 ≤ 66 ∧ 64 ≤ 66 := by decide +kernel

end Verif.Keccak
