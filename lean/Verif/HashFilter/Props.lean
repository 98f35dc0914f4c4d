import Verif.HashFilter.Proofs
import Verif.Keccak.Props

/-!
# C48: hash filters deliver the digest, and verification accepts exactly the messages whose hash matches

`O` is any hash object that computes `H` on messages shorter than `lim` bytes (C05, C06, C49, C14 give such objects); `n` is the digest size the
filter was constructed with.
-/
namespace Verif.HashFilter
open Verif.BufFilter Verif.BufFilter.Filt
variable {σ : Type} {O : Hash.Obj σ} {H : List Byte → List Byte} {lim : Nat} {Rep : σ → List Byte → Prop}

/-- `HASH_AT_END`: for every flag combination, every sequence of messages and every way of cutting them into `Put` calls, the filter delivers the
message, the hash, the result byte and the exception of the specification, for each message on its own, whatever came before and even when earlier
messages failed with an exception. -/
theorem at_end_exact (C : O.Computes H lim Rep) (junk : Nat → Byte) (fl : Flags) (hfl : fl.hashAtBegin = false) (n : Nat) (hn : n ≤ O.digestSize) (hash : σ)
    (hr : Rep hash []) (ms : List (List (List Byte))) (hl : ∀ m ∈ ms, m.flatten.length < lim) :
    ∃ s, init junk fl n hash = .ok s ∧ run O fl n s ms = .ok (ms.map fun m => specEnd H fl n m.flatten) := by
  obtain ⟨b, e, p⟩ := init_pre junk 0 1 n (Nat.le_refl _)
  refine ⟨⟨b, hash, false, []⟩, ?_, run_end C fl hfl n hn ms _ ⟨hr, Nat.zero_le _, fun h => absurd rfl h, .inr ⟨rfl, rfl, p⟩⟩ hl⟩
  unfold init
  rw [hfl]
  simp only [Bool.false_eq_true, if_false]
  rw [e]; rfl

/-- `HASH_AT_BEGIN`: the same, for messages at least as long as the hash, as long as no message but the last throws. -/
theorem at_begin_exact (C : O.Computes H lim Rep) (junk : Nat → Byte) (fl : Flags) (hfl : fl.hashAtBegin = true) (n : Nat) (hn : n ≤ O.digestSize) (hash : σ)
    (hr : Rep hash []) (ms : List (List (List Byte))) (hl : ∀ m ∈ ms, m.flatten.length < lim ∧ n ≤ m.flatten.length)
    (hth : ∀ m ∈ ms.dropLast, (specBegin H fl n m.flatten).thrown = false) :
    ∃ s, init junk fl n hash = .ok s ∧ run O fl n s ms = .ok (ms.map fun m => specBegin H fl n m.flatten) := by
  obtain ⟨b, e, p⟩ := init_pre junk n 1 0 (Nat.le_refl _)
  refine ⟨⟨b, hash, false, []⟩, ?_, run_begin C fl hfl n hn ms _ (.inl ⟨p, ?_, hr⟩) hl hth⟩
  · unfold init
    rw [hfl]
    simp only [if_true]
    rw [e]; rfl
  · by_cases h0 : n = 0
    · exact .inr ⟨h0, rfl⟩
    · exact .inl (by simp; omega)

/-- Without `THROW_EXCEPTION` no condition on earlier messages is left. -/
theorem at_begin_no_throw_exact (C : O.Computes H lim Rep) (junk : Nat → Byte) (fl : Flags) (hfl : fl.hashAtBegin = true) (hex : fl.throwException = false) (n : Nat)
    (hn : n ≤ O.digestSize) (hash : σ) (hr : Rep hash []) (ms : List (List (List Byte))) (hl : ∀ m ∈ ms, m.flatten.length < lim ∧ n ≤ m.flatten.length) :
    ∃ s, init junk fl n hash = .ok s ∧ run O fl n s ms = .ok (ms.map fun m => specBegin H fl n m.flatten) :=
  at_begin_exact C junk fl hfl n hn hash hr ms hl fun m _ => by simp [specBegin, Result.make, hex]

/-! ## `HashFilter` -/

theorem hashPut_false (C : O.Computes H lim Rep) (pm : Bool) (n : Nat) (s : σ) (m x : List Byte) (h : Rep s m) (hl : (m ++ x).length < lim) :
    ∃ s', hashPut O pm n s x false = .ok (s', if pm then out x else []) ∧ Rep s' (m ++ x) := by
  unfold hashPut
  by_cases hx : x.length = 0
  · have := List.length_eq_zero_iff.mp hx
    subst this
    exact ⟨s, by simp [bind_ok', pure, Except.pure], by simpa using h⟩
  · obtain ⟨s', e, r⟩ := C.update s m x h hl
    refine ⟨s', ?_, r⟩
    simp only [ne_eq, hx, not_false_eq_true, if_true, e, bind_ok']
    rfl

theorem hashPut_true (C : O.Computes H lim Rep) (pm : Bool) (n : Nat) (hn : n ≤ O.digestSize) (s : σ) (m x : List Byte) (h : Rep s m) (hl : (m ++ x).length < lim) :
    ∃ s', hashPut O pm n s x true = .ok (s', (if pm then out x else []) ++ out ((H (m ++ x)).take n) ++ [none]) ∧ Rep s' [] := by
  unfold hashPut
  by_cases hx : x.length = 0
  · have := List.length_eq_zero_iff.mp hx
    subst this
    obtain ⟨s', e, r⟩ := C.final s m n h hn
    exact ⟨s', by simp [bind_ok', pure, Except.pure, e], r⟩
  · obtain ⟨s1, e1, r1⟩ := C.update s m x h hl
    obtain ⟨s', e, r⟩ := C.final s1 _ n r1 hn
    refine ⟨s', ?_, r⟩
    simp only [ne_eq, hx, not_false_eq_true, if_true, e1, bind_ok', e]
    rfl

theorem hashFeed_exact (C : O.Computes H lim Rep) (pm : Bool) (n : Nat) (hn : n ≤ O.digestSize) (pieces : List (List Byte)) (s : σ) (m : List Byte)
    (h : Rep s m) (hl : (m ++ pieces.flatten).length < lim) :
    ∃ s', hashFeed O pm n s pieces = .ok (s', (if pm then out pieces.flatten else []) ++ out ((H (m ++ pieces.flatten)).take n) ++ [none]) ∧ Rep s' [] := by
  match pieces with
  | [] => simpa [hashFeed] using hashPut_true C pm n hn s m [] h (by simpa using hl)
  | [p] => simpa [hashFeed] using hashPut_true C pm n hn s m p h (by simpa using hl)
  | p :: p' :: ps =>
    rw [List.flatten_cons] at hl ⊢
    obtain ⟨s1, e1, r1⟩ := hashPut_false C pm n s m p h (by simp at hl ⊢; omega)
    obtain ⟨s2, e2, r2⟩ := hashFeed_exact C pm n hn (p' :: ps) s1 (m ++ p) r1 (by simpa [-List.length_flatten] using hl)
    refine ⟨s2, ?_, r2⟩
    rw [hashFeed, e1]
    · simp only [bind_ok']
      rw [e2]
      cases pm <;> simp [bind_ok', pure, Except.pure, out_append]
    · simp

/-- `HashFilter`: every message, cut up in any way, is followed by the first `n` bytes of its digest and a message end; with `putMessage` the
message itself comes first. -/
theorem hash_filter_exact (C : O.Computes H lim Rep) (pm : Bool) (n : Nat) (hn : n ≤ O.digestSize) (s : σ) (h : Rep s []) (ms : List (List (List Byte)))
    (hl : ∀ m ∈ ms, m.flatten.length < lim) :
    hashRun O pm n s ms = .ok (ms.map fun m => ((if pm then m.flatten else []) ++ (H m.flatten).take n).map some ++ [none]) := by
  induction ms generalizing s with
  | nil => rfl
  | cons m ms ih =>
    obtain ⟨s', e, r⟩ := hashFeed_exact C pm n hn m s [] h (by simpa using hl m (by simp))
    rw [hashRun, e]
    simp only [bind_ok']
    rw [ih s' r fun k hk => hl k (by simp [hk])]
    cases pm <;> simp [out, bind_ok', pure, Except.pure]

/-- What `HashFilter` produced is accepted and comes back unchanged, however both ends cut it up. -/
theorem round_trip (C : O.Computes H lim Rep) (junk : Nat → Byte) (n : Nat) (hn : n ≤ O.digestSize) (s t : σ) (h : Rep s []) (ht : Rep t [])
    (pieces received : List (List Byte)) (hl : pieces.flatten.length + n < lim) (o : List (Option Byte)) (ho : hashRun O true n s [pieces] = .ok [o])
    (hrec : received.flatten.map some ++ [none] = o) (throwException : Bool) :
    ∃ v, init junk ⟨false, true, false, false, throwException⟩ n t = .ok v ∧
      run O ⟨false, true, false, false, throwException⟩ n v [received] = .ok [⟨pieces.flatten.map some ++ [none], false, true⟩] := by
  rw [hash_filter_exact C true n hn s h [pieces] (by intro m hm; simp only [List.mem_singleton] at hm; subst hm; omega)] at ho
  simp only [if_true, List.map_cons, List.map_nil, Except.ok.injEq, List.cons.injEq, and_true] at ho
  rw [← ho] at hrec
  have hrec' : received.flatten = pieces.flatten ++ (H pieces.flatten).take n := by
    have := List.append_cancel_right hrec
    exact (List.map_inj_right fun _ _ h => Option.some.inj h).mp this
  have hlen : ((H pieces.flatten).take n).length = n := by rw [List.length_take, C.length]; omega
  obtain ⟨v, e, hv⟩ := at_end_exact C junk ⟨false, true, false, false, throwException⟩ rfl n hn t ht [received] (by
    intro m hm; simp only [List.mem_singleton] at hm; subst hm; rw [hrec', List.length_append, hlen]; omega)
  refine ⟨v, e, ?_⟩
  rw [hv, List.map_cons, List.map_nil, hrec']
  have hk : (pieces.flatten ++ (H pieces.flatten).take n).length - n = pieces.flatten.length := by rw [List.length_append, hlen]; omega
  unfold specEnd Result.make
  dsimp only
  rw [hk]
  simp [hlen]

/-! ## The hypotheses can be met, and where they fail -/

/-- A toy hash: two bytes, the sum and the length. -/
def toyHash (m : List Byte) : List Byte := [m.foldl (· + ·) 0, BitVec.ofNat 8 m.length]
/-- An object computing it. -/
def toy : Hash.Obj (List Byte) where
  digestSize := 2
  blockSize := 4
  update := fun s x => .ok (s ++ x)
  restart := fun _ => []
  final := fun s n => if n ≤ 2 then .ok ([], (toyHash s).take n) else .error .invalidArgument

theorem toy_computes : toy.Computes toyHash 1000 (fun s m => s = m) where
  update := fun s m x h _ => ⟨s ++ x, rfl, by rw [h]⟩
  restart := fun _ _ _ => rfl
  final := fun s m n h hn => ⟨[], by subst h; show (if n ≤ 2 then _ else _) = _; rw [if_pos (show n ≤ 2 from hn)], rfl⟩
  reject := fun s n h => by show (if n ≤ 2 then _ else _) = _; rw [if_neg (show ¬ n ≤ 2 from Nat.not_le.mpr h)]
  length := fun _ => rfl

/-- Everything on, hash at the end: a good message, a forged one (exception), a short one (exception), a good one again. -/
example : ∃ s, init (fun _ => 0xcc) ⟨false, true, true, true, true⟩ 2 [] = .ok s ∧
    run toy ⟨false, true, true, true, true⟩ 2 s [[[1, 2], [3], [6, 3]], [[1], [2, 9, 9]], [[7]], [[5, 5, 1]]] =
      .ok [⟨[some 1, some 2, some 3, some 6, some 3, some 1, none], false, true⟩, ⟨[some 1, some 2, some 9, some 9, some 0], true, false⟩,
        ⟨[some 7, some 0], true, false⟩, ⟨[some 5, some 5, some 1, some 1, none], false, true⟩] := by
  obtain ⟨s, e, h⟩ := at_end_exact toy_computes (fun _ => 0xcc) ⟨false, true, true, true, true⟩ rfl 2 (by decide) [] rfl
    [[[1, 2], [3], [6, 3]], [[1], [2, 9, 9]], [[7]], [[5, 5, 1]]] (by decide)
  refine ⟨s, e, ?_⟩
  rw [h]
  decide

/-- The default flags, hash at the beginning. -/
example : ∃ s, init (fun _ => 0xcc) ⟨true, false, false, true, false⟩ 2 [] = .ok s ∧
    run toy ⟨true, false, false, true, false⟩ 2 s [[[6], [3, 1, 2], [3]], [[6, 3, 1, 2], [4]], [[0, 0]]] =
      .ok [⟨[some 1, none], false, true⟩, ⟨[some 0, none], false, false⟩, ⟨[some 1, none], false, true⟩] := by
  obtain ⟨s, e, h⟩ := at_begin_no_throw_exact toy_computes (fun _ => 0xcc) ⟨true, false, false, true, false⟩ rfl rfl 2 (by decide) [] rfl
    [[[6], [3, 1, 2], [3]], [[6, 3, 1, 2], [4]], [[0, 0]]] (by decide)
  refine ⟨s, e, ?_⟩
  rw [h]
  decide

/-- A truncated digest through both filters. -/
example : hashRun toy true 1 [] [[[1], [2, 3]]] = .ok [[some 1, some 2, some 3, some 6, none]] ∧
    ∃ v, init (fun _ => 0xcc) ⟨false, true, false, false, true⟩ 1 [] = .ok v ∧
      run toy ⟨false, true, false, false, true⟩ 1 v [[[1, 2], [], [3, 6]]] = .ok [⟨[some 1, some 2, some 3, none], false, true⟩] :=
  ⟨by decide, round_trip toy_computes (fun _ => 0xcc) 1 (by decide) [] [] rfl rfl [[1], [2, 3]] [[1, 2], [], [3, 6]] (by decide) [some 1, some 2, some 3, some 6, none]
    (by decide) (by decide) true⟩

/-- SHA3-256 behind the filters. -/
example (junk : Nat → Byte) (ms : List (List (List Byte))) (lim : Nat) (hl : ∀ m ∈ ms, m.flatten.length < lim) :
    ∃ H : List Byte → List Byte, (∀ m, Keccak.Spec.bits (H m) = Keccak.Spec.sha3 256 (Keccak.Spec.bits m)) ∧
      ∃ s, init junk ⟨false, true, false, false, true⟩ 32 Keccak.init = .ok s ∧
        run (Keccak.obj (Keccak.sha3 32)) ⟨false, true, false, false, true⟩ 32 s ms = .ok (ms.map fun m => specEnd H ⟨false, true, false, false, true⟩ 32 m.flatten) := by
  obtain ⟨H, Rep, C, h0, hH⟩ := Keccak.sha3_computes 32 (by decide) lim
  exact ⟨H, hH, at_end_exact C junk _ rfl 32 (Nat.le_refl _) _ h0 ms hl⟩

/-- Run messages with the default flags plus `THROW_EXCEPTION` as given, a two-byte hash at the beginning. -/
def runBegin (throwException : Bool) (ms : List (List (List Byte))) : Except Err (List Result) := do
  let s ← init (fun _ => 0xcc) ⟨true, true, false, true, throwException⟩ 2 []
  run toy ⟨true, true, false, true, throwException⟩ 2 s ms

/-- `HASH_AT_BEGIN`, a first message shorter than the hash: the expected hash is read out of a buffer that was never allocated. -/
theorem short_first_message_undefined : runBegin false [[[1]]] = .error .undefinedBehaviour := by decide

/-- `HASH_AT_BEGIN`, a later message shorter than the hash: it is compared with the hash of the message before it, and the single byte 7 is
reported as verified. -/
theorem short_message_accepted :
    runBegin false [[[0, 0]], [[7]]] = .ok [⟨[some 1, none], false, true⟩, ⟨[some 1, none], false, true⟩] := by decide

/-- `HASH_AT_BEGIN` with `THROW_EXCEPTION`: after a forged message and its exception, a valid message is rejected. -/
theorem valid_message_rejected_after_exception :
    runBegin true [[[9, 9, 1]], [[6, 3, 1, 2, 3]]] = .ok [⟨[some 1, some 0], true, false⟩, ⟨[some 6, some 3, some 1, some 2, some 3, some 0], true, false⟩] ∧
    runBegin true [[[6, 3, 1, 2, 3]]] = .ok [⟨[some 1, some 2, some 3, some 1, none], false, true⟩] := by decide

/-- `HASH_AT_END`: after a flush in the middle of a message, a later message that is valid is rejected. -/
theorem valid_message_rejected_after_flush :
    (do
      let fl : Flags := ⟨false, true, false, true, false⟩
      let s ← init (fun _ => 0xcc) fl 2 []
      let (s, _) ← put toy fl 2 s [1, 2, 3] false
      let (s, _) ← hardFlush toy fl s
      run toy fl 2 s [[], [[1, 2, 3, 6, 3]]] : Except Err (List Result)) =
      .ok [⟨[some 0, none], false, false⟩, ⟨[some 1, some 2, some 3, some 0, none], false, false⟩] := by decide

/-- A digest size above the hash's own is reported only when a message ends. -/
theorem long_digest_rejected (C : O.Computes H lim Rep) (pm : Bool) (n : Nat) (hn : O.digestSize < n) (s : σ) (m x : List Byte) (h : Rep s m) (hl : (m ++ x).length < lim) :
    hashPut O pm n s x true = .error .invalidArgument := by
  unfold hashPut
  by_cases hx : x.length = 0
  · simp [hx, C.reject s n hn, bind, Except.bind]
  · obtain ⟨s', e, -⟩ := C.update s m x h hl
    simp [hx, e, C.reject s' n hn, bind, Except.bind]

end Verif.HashFilter
