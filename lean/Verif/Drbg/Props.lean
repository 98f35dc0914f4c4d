import Verif.Drbg.Proofs

/-!
# C47

`hash_history` and `hmac_history`: a generator constructed with enough entropy returns, for every history of reseeds and requests, what SP 800-90A defines, over any hash object that computes a function `H`. The
reseed interval of the standard is then `INT_MAX - 1`, and the most bytes in a request 65536. `hash_limits` and `hmac_limits` need no hypotheses: no object, whatever state it is in, answers more than `INT_MAX`
requests without a reseed, or one of more than 65536 bytes. A generator constructed without entropy answers requests (`hash_uninstantiated`, `hmac_uninstantiated`); the standard demands an error.
-/
namespace Verif.Drbg
open Verif.Hash

variable {σ : Type} {O : Obj σ} {H : List Byte → List Byte} {lim : Nat} {Rep : σ → List Byte → Prop}

/-- C47, `Hash_DRBG`. -/
theorem hash_history (C : O.Computes H lim Rep) (h8 : 8 ≤ O.digestSize) {strength seedLength : Nat} (hs : O.digestSize ≤ seedLength) (hl0 : 6 + seedLength < lim) (h : σ) (hr : Rep h [])
    (entropy nonce personalization : List Byte) (he : strength ≤ entropy.length) (h0 : entropy ≠ []) (hl : 5 + entropy.length + nonce.length + personalization.length < lim)
    (ops : List Op) (hf : ∀ op ∈ ops, Fits lim (6 + seedLength) op) :
    ∃ g, hashConstruct O strength seedLength h entropy nonce personalization = .ok g ∧
      hashRun O strength seedLength g ops =
        Spec.run (Spec.hashMech H O.digestSize seedLength) strength (2 ^ 31 - 2) 65536 ((Spec.hashMech H O.digestSize seedLength).instantiate entropy nonce personalization, 1) ops := by
  obtain ⟨h1, t2, h2, e1, e2, good⟩ := hashSeed_good C h8 hs hl0 h [entropy, nonce, personalization, []] hr (by simp; omega)
  have ef : [entropy, nonce, personalization, []].flatten = entropy ++ nonce ++ personalization := by simp
  refine ⟨⟨h2, t2, (Spec.hashSeed H O.digestSize seedLength [entropy, nonce, personalization, []].flatten).V, 1⟩, ?_, ?_⟩
  · unfold hashConstruct
    rw [if_pos (fun h => h0 (List.eq_nil_of_length_eq_zero h))]
    unfold hashInstantiate
    rw [if_neg (by omega)]
    simp only [hashNew, e1, e2, bind_ok]
  · rw [ef] at good ⊢
    exact hashRun_good C h8 hs hl0 ops _ _ good hf

/-- C47, `HMAC_DRBG`; the HMAC is that of RFC 2104 over `H`. `h` is a new HMAC object. -/
theorem hmac_history (C : O.Computes H lim Rep) (hD : 0 < O.digestSize) (hdB : O.digestSize ≤ O.blockSize) {strength : Nat} (h : σ) (hr : Rep h []) (buf fresh : List Byte)
    (hfr : 2 * O.blockSize + O.digestSize ≤ fresh.length) (entropy nonce personalization : List Byte) (he : strength ≤ entropy.length) (h0 : entropy ≠ [])
    (hl : O.blockSize + O.digestSize + 1 + entropy.length + nonce.length + personalization.length < lim)
    (ops : List Op) (hf : ∀ op ∈ ops, Fits lim (O.blockSize + O.digestSize + 1) op) :
    ∃ g, hmacConstruct O strength ⟨h, buf, false⟩ fresh entropy nonce personalization = .ok g ∧
      hmacRun O strength g ops =
        Spec.run (Spec.hmacMech (Hmac.hmac H O.blockSize) O.digestSize) strength (2 ^ 31 - 2) 65536
          ((Spec.hmacMech (Hmac.hmac H O.blockSize) O.digestSize).instantiate entropy nonce personalization, 1) ops := by
  have hB : O.blockSize ≠ 0 := by omega
  have hlim : O.blockSize + O.digestSize < lim := by omega
  have g0 : HmacGood O Rep ⟨⟨h, buf, false⟩, List.replicate O.digestSize 0, List.replicate O.digestSize 1, 0, fresh⟩ (⟨List.replicate O.digestSize 0, List.replicate O.digestSize 1⟩, 0) :=
    ⟨⟨fun _ => hr, fun e => by cases e⟩, rfl, rfl, rfl, by simp, by simp, hfr, Nat.zero_le _⟩
  obtain ⟨g1, e1, h1⟩ := hmacUpdate_spec C hdB hB hlim _ _ 0 [entropy, nonce, personalization] g0 (by simp; omega)
  have ef : [entropy, nonce, personalization].flatten = entropy ++ nonce ++ personalization := by simp
  rw [ef] at h1
  refine ⟨{ g1 with reseed := 1 }, ?_, ?_⟩
  · unfold hmacConstruct
    rw [if_pos (fun h => h0 (List.eq_nil_of_length_eq_zero h))]
    unfold hmacInstantiate
    rw [if_neg (by omega)]
    simp only [hmacNew, List.length_replicate, e1, bind_ok]
  · exact hmacRun_good C hdB hB hlim hD ops _ (_, 1) ⟨h1.pre, h1.k, h1.v, rfl, h1.klen, h1.vlen, h1.fresh, show 1 ≤ maxRequests by decide⟩ hf

/-- The constructors refuse too little entropy. -/
theorem construct_refuses (O : Obj σ) (strength seedLength : Nat) (h : σ) (hm : Hmac.State σ) (fresh entropy nonce personalization : List Byte) (h0 : entropy ≠ []) (he : entropy.length < strength) :
    hashConstruct O strength seedLength h entropy nonce personalization = .error .other ∧ hmacConstruct O strength hm fresh entropy nonce personalization = .error .other := by
  unfold hashConstruct hmacConstruct hashInstantiate hmacInstantiate
  rw [if_pos (fun h => h0 (List.eq_nil_of_length_eq_zero h)), if_pos he, if_pos (fun h => h0 (List.eq_nil_of_length_eq_zero h)), if_pos he]
  exact ⟨rfl, rfl⟩

/-- A request, not a reseed. -/
def Op.isRequest : Op → Bool
  | .reseed _ _ => false
  | .generate _ _ => true

/-- How many calls succeeded. -/
def answered : List (Except Err (List Byte)) → Nat
  | [] => 0
  | .ok _ :: rs => 1 + answered rs
  | .error _ :: rs => answered rs

/-- C47, `Hash_DRBG`: an object in any state answers at most `INT_MAX` requests in a row, and none of more than 65536 bytes. -/
theorem hash_limits (O : Obj σ) (strength seedLength : Nat) (g : HashGen σ) (ops : List Op) (h : ∀ op ∈ ops, op.isRequest = true) :
    answered (hashRun O strength seedLength g ops) ≤ 2 ^ 31 - 1 ∧ ∀ additional size, 65536 < size → (hashStep O strength seedLength g (.generate additional size)).2 = .error .other := by
  constructor
  · have : ∀ (ops : List Op) (g : HashGen σ), (∀ op ∈ ops, op.isRequest = true) → answered (hashRun O strength seedLength g ops) ≤ maxRequests - g.reseed := by
      intro ops
      induction ops with
      | nil => intro g _; exact Nat.zero_le _
      | cons op ops ih =>
        intro g h
        have ht := fun o ho => h o (List.mem_cons_of_mem _ ho)
        cases op with
        | reseed e a => exact absurd (h _ List.mem_cons_self) (by simp [Op.isRequest])
        | generate additional size =>
          unfold hashRun hashStep
          dsimp only
          by_cases h1 : g.reseed ≥ maxRequests
          · rw [if_pos h1]; exact ih g ht
          rw [if_neg h1]
          by_cases h2 : size > maxBytes
          · rw [if_pos h2]; exact ih g ht
          rw [if_neg h2]
          cases e : hashGenerate O g additional size with
          | error e => exact ih g ht
          | ok r =>
            obtain ⟨g', out⟩ := r
            have hc : g'.reseed = g.reseed + 1 := by
              unfold hashGenerate at e
              have hm : maxRequests < 2 ^ 64 := by decide
              cases e1 : mixAdditional O g.hash g.v additional with
              | error _ => rw [e1] at e; cases e
              | ok r1 =>
                rw [e1, bind_ok] at e
                cases e2 : hashgen O size r1.1 r1.2 size with
                | error _ => simp only [e2] at e; cases e
                | ok r2 =>
                  simp only [e2, bind_ok] at e
                  cases e3 : hashNext O r2.1 r1.2 g.c g.reseed with
                  | error _ => rw [e3] at e; cases e
                  | ok r3 =>
                    rw [e3, bind_ok] at e
                    injection e with e
                    have e' := congrArg Prod.fst e
                    dsimp only at e'
                    rw [← e']
                    exact Nat.mod_eq_of_lt (by omega)
            have := ih g' ht
            show 1 + answered (hashRun O strength seedLength g' ops) ≤ _
            rw [hc] at this
            omega
    exact Nat.le_trans (this ops g h) (Nat.sub_le _ _)
  · intro additional size hs
    unfold hashStep
    dsimp only
    split
    · rfl
    · rw [if_pos (show size > maxBytes from hs)]

/-- C47, `HMAC_DRBG`: likewise. -/
theorem hmac_limits (O : Obj σ) (strength : Nat) (g : HmacGen σ) (ops : List Op) (h : ∀ op ∈ ops, op.isRequest = true) :
    answered (hmacRun O strength g ops) ≤ 2 ^ 31 - 1 ∧ ∀ additional size, 65536 < size → (hmacStep O strength g (.generate additional size)).2 = .error .other := by
  have keep : ∀ (g g' : HmacGen σ) (b : Byte) (xs : List (List Byte)), hmacHalf O g b xs = .ok g' → g'.reseed = g.reseed := by
    intro g g' b xs e
    unfold hmacHalf at e
    cases e1 : Hmac.setKey O g.hmac g.fresh g.k with
    | error _ => rw [e1] at e; cases e
    | ok s1 =>
      rw [e1, bind_ok] at e
      cases e2 : updates (Kdf.hmacObj O) s1 [g.v, [b]] with
      | error _ => rw [e2] at e; cases e
      | ok s2 =>
        rw [e2, bind_ok] at e
        cases e3 : feed (Kdf.hmacObj O) s2 xs with
        | error _ => rw [e3] at e; cases e
        | ok s3 =>
          rw [e3, bind_ok] at e
          cases e4 : (Kdf.hmacObj O).final s3 g.k.length with
          | error _ => rw [e4] at e; cases e
          | ok s4 =>
            simp only [e4, bind_ok] at e
            cases e5 : Hmac.setKey O s4.1 g.fresh s4.2 with
            | error _ => rw [e5] at e; cases e
            | ok s5 =>
              rw [e5, bind_ok] at e
              cases e6 : updates (Kdf.hmacObj O) s5 [g.v] with
              | error _ => rw [e6] at e; cases e
              | ok s6 =>
                rw [e6, bind_ok] at e
                cases e7 : (Kdf.hmacObj O).final s6 g.v.length with
                | error _ => rw [e7] at e; cases e
                | ok s7 =>
                  simp only [e7, bind_ok] at e
                  injection e with e
                  rw [← e]
  have keep2 : ∀ (g g' : HmacGen σ) (xs : List (List Byte)), hmacUpdate O g xs = .ok g' → g'.reseed = g.reseed := by
    intro g g' xs e
    unfold hmacUpdate at e
    cases e1 : hmacHalf O g 0 xs with
    | error _ => rw [e1] at e; cases e
    | ok g1 =>
      rw [e1, bind_ok] at e
      split at e
      · injection e with e; rw [← e]; exact keep _ _ _ _ e1
      · rw [keep _ _ _ _ e, keep _ _ _ _ e1]
  constructor
  · have : ∀ (ops : List Op) (g : HmacGen σ), (∀ op ∈ ops, op.isRequest = true) → answered (hmacRun O strength g ops) ≤ maxRequests - g.reseed := by
      intro ops
      induction ops with
      | nil => intro g _; exact Nat.zero_le _
      | cons op ops ih =>
        intro g h
        have ht := fun o ho => h o (List.mem_cons_of_mem _ ho)
        cases op with
        | reseed e a => exact absurd (h _ List.mem_cons_self) (by simp [Op.isRequest])
        | generate additional size =>
          unfold hmacRun hmacStep
          dsimp only
          by_cases h1 : g.reseed ≥ maxRequests
          · rw [if_pos h1]; exact ih g ht
          rw [if_neg h1]
          by_cases h2 : size > maxBytes
          · rw [if_pos h2]; exact ih g ht
          rw [if_neg h2]
          cases e : hmacGenerate O g additional size with
          | error e => exact ih g ht
          | ok r =>
            obtain ⟨g', out⟩ := r
            have hc : g'.reseed = g.reseed + 1 := by
              unfold hmacGenerate at e
              have hm : maxRequests < 2 ^ 64 := by decide
              cases e1 : (if additional.length ≠ 0 then hmacUpdate O g [additional, [], []] else .ok g) with
              | error _ => rw [e1] at e; cases e
              | ok g1 =>
                have hg1 : g1.reseed = g.reseed := by
                  split at e1
                  · exact keep2 _ _ _ e1
                  · injection e1 with e1; rw [e1]
                rw [e1, bind_ok] at e
                cases e2 : Hmac.setKey O g1.hmac g1.fresh g1.k with
                | error _ => rw [e2] at e; cases e
                | ok s2 =>
                  rw [e2, bind_ok] at e
                  cases e3 : hmacLoop O size s2 g1.v size with
                  | error _ => rw [e3] at e; cases e
                  | ok r3 =>
                    simp only [e3, bind_ok] at e
                    cases e4 : hmacUpdate O { g1 with hmac := r3.1, v := r3.2.1 } [additional, [], []] with
                    | error _ => simp only [e4] at e; cases e
                    | ok g4 =>
                      simp only [e4, bind_ok] at e
                      injection e with e
                      have e' := congrArg Prod.fst e
                      dsimp only at e'
                      rw [← e']
                      have := keep2 _ _ _ e4
                      dsimp only at this
                      show (g4.reseed + 1) % 2 ^ 64 = _
                      rw [this, hg1]
                      exact Nat.mod_eq_of_lt (by omega)
            have := ih g' ht
            show 1 + answered (hmacRun O strength g' ops) ≤ _
            rw [hc] at this
            omega
    exact Nat.le_trans (this ops g h) (Nat.sub_le _ _)
  · intro additional size hs
    unfold hmacStep
    dsimp only
    split
    · rfl
    · rw [if_pos (show size > maxBytes from hs)]

/-- What the standard forbids: without entropy the constructor does not instantiate the generator, and a request is answered all the same, with bytes anyone can compute. -/
theorem hash_uninstantiated (C : O.Computes H lim Rep) (h8 : 8 ≤ O.digestSize) {strength seedLength : Nat} (hs : O.digestSize ≤ seedLength) (hl0 : 6 + seedLength < lim) (h : σ) (hr : Rep h [])
    (n : Nat) (hn : n ≤ 65536) :
    ∃ g, hashConstruct O strength seedLength h [] [] [] = .ok g ∧ hashRun O strength seedLength g [.generate [] n] =
      [.ok ((Spec.hashgen H ((n + O.digestSize - 1) / O.digestSize) (List.replicate seedLength 0)).take n)] := by
  refine ⟨_, rfl, ?_⟩
  have hg : HashGood Rep seedLength (hashNew seedLength h) (⟨List.replicate seedLength 0, List.replicate seedLength 0⟩, 0) :=
    ⟨hr, rfl, rfl, rfl, by simp [hashNew], by simp [hashNew], Nat.zero_le _⟩
  rw [hashRun_good C h8 hs hl0 _ _ _ hg (by intro op ho; rw [List.mem_singleton.1 ho]; exact hl0)]
  unfold Spec.run Spec.step
  have : ¬ ((0 : Nat) > maxRequests - 1 ∨ n > maxBytes) := by
    rintro (h | h)
    · exact absurd h (Nat.not_lt_zero _)
    · exact absurd hn (Nat.not_le_of_gt h)
  dsimp only
  rw [if_neg this]
  rfl

/-- The same for `HMAC_DRBG`. -/
theorem hmac_uninstantiated (C : O.Computes H lim Rep) (hD : 0 < O.digestSize) (hdB : O.digestSize ≤ O.blockSize) (hlim : O.blockSize + O.digestSize + 1 < lim) {strength : Nat} (h : σ) (hr : Rep h [])
    (buf fresh : List Byte) (hfr : 2 * O.blockSize + O.digestSize ≤ fresh.length) (n : Nat) (hn : n ≤ 65536) :
    ∃ g, hmacConstruct O strength ⟨h, buf, false⟩ fresh [] [] [] = .ok g ∧ hmacRun O strength g [.generate [] n] =
      [.ok ((Spec.hmacBlocks (Hmac.hmac H O.blockSize) (List.replicate O.digestSize 0) ((n + O.digestSize - 1) / O.digestSize) (List.replicate O.digestSize 0)).1.take n)] := by
  refine ⟨_, rfl, ?_⟩
  have g0 : HmacGood O Rep (hmacNew O ⟨h, buf, false⟩ fresh) (⟨List.replicate O.digestSize 0, List.replicate O.digestSize 0⟩, 0) :=
    ⟨⟨fun _ => hr, fun e => by cases e⟩, rfl, rfl, rfl, by simp [hmacNew], by simp [hmacNew], hfr, Nat.zero_le _⟩
  rw [hmacRun_good C hdB (by omega) (by omega) hD _ _ _ g0 (by intro op ho; rw [List.mem_singleton.1 ho]; exact hlim)]
  unfold Spec.run Spec.step
  have : ¬ ((0 : Nat) > maxRequests - 1 ∨ n > maxBytes) := by
    rintro (h | h)
    · exact absurd h (Nat.not_lt_zero _)
    · exact absurd hn (Nat.not_le_of_gt h)
  dsimp only
  rw [if_neg this]
  rfl

/-! ## The hypotheses can be met -/

/-- A toy hash object: it keeps the message. -/
def toyHash (m : List Byte) : List Byte := beBytes 8 (beVal m * 0x9e3779b97f4a7c15 + 12345)

def toyObj : Obj (List Byte) where
  digestSize := 8
  blockSize := 16
  update := fun s x => .ok (s ++ x)
  restart := fun _ => []
  final := fun s n => if 8 < n then .error .invalidArgument else .ok ([], (toyHash s).take n)

theorem toy_computes : toyObj.Computes toyHash 1000 (fun s m => s = m) where
  update := fun s m x h _ => ⟨_, rfl, by rw [h]⟩
  restart := fun _ _ _ => rfl
  final := fun s m n h hn => ⟨[], by rw [h]; exact if_neg (Nat.not_lt.2 hn), rfl⟩
  reject := fun s n h => if_pos h
  length := fun m => by simp [toyHash, toyObj]

def toyOps : List Op := [.generate [] 20, .generate [7, 8] 9, .reseed [1] [], .reseed [5, 6, 7, 8] [9], .generate [] 70000, .generate [] 3]

example : ∃ g, hashConstruct toyObj 4 13 [] [1, 2, 3, 4] [9] [] = .ok g ∧ hashRun toyObj 4 13 g toyOps =
    Spec.run (Spec.hashMech toyHash 8 13) 4 (2 ^ 31 - 2) 65536 ((Spec.hashMech toyHash 8 13).instantiate [1, 2, 3, 4] [9] [], 1) toyOps :=
  hash_history toy_computes (by decide) (by decide) (by decide) [] rfl _ _ _ (by decide) (by decide) (by decide) toyOps (by
    intro op ho; simp only [toyOps, List.mem_cons, List.not_mem_nil, or_false] at ho
    rcases ho with rfl | rfl | rfl | rfl | rfl | rfl <;> simp [Fits])

example : ∃ g, hmacConstruct toyObj 4 ⟨[], [], false⟩ (List.replicate 40 0xcc) [1, 2, 3, 4] [9] [] = .ok g ∧ hmacRun toyObj 4 g toyOps =
    Spec.run (Spec.hmacMech (Hmac.hmac toyHash 16) 8) 4 (2 ^ 31 - 2) 65536 ((Spec.hmacMech (Hmac.hmac toyHash 16) 8).instantiate [1, 2, 3, 4] [9] [], 1) toyOps :=
  hmac_history toy_computes (by decide) (by decide) [] rfl [] (List.replicate 40 0xcc) (by decide) _ _ _ (by decide) (by decide) (by decide) toyOps (by
    intro op ho; simp only [toyOps, List.mem_cons, List.not_mem_nil, or_false] at ho
    rcases ho with rfl | rfl | rfl | rfl | rfl | rfl <;> simp [Fits, toyObj])

/-- The results differ from call to call. -/
example : (Spec.run (Spec.hashMech toyHash 8 13) 4 (2 ^ 31 - 2) 65536 ((Spec.hashMech toyHash 8 13).instantiate [1, 2, 3, 4] [9] [], 1) [.generate [] 3, .generate [] 3]).eraseDups.length = 2 := by decide +kernel

end Verif.Drbg
