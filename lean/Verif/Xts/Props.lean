import Verif.Xts.Proofs

/-! # C50: XTS -/
namespace Verif.Xts

section
variable {E D T : List Byte → List Byte} {w s P : Nat} (hsz : Sizes w s) (hP : Parallel P)

/-- A call: the data is put at `inP`, the result is read at `outP`. -/
structure Call where
  inP : Nat
  outP : Nat
  data : List Byte

/-- Input and output are the same buffer or do not overlap. -/
def Call.Fits (c : Call) : Prop := c.inP = c.outP ∨ c.inP + c.data.length ≤ c.outP ∨ c.outP + c.data.length ≤ c.inP

/-- Calls of `ProcessData`: the concatenated results. -/
def runData (E : List Byte → List Byte) (w s P : Nat) : Mem → (Nat → List Byte) → List Call → Except Err (List Byte × Mem × (Nat → List Byte))
  | m, r, [] => .ok ([], m, r)
  | m, r, c :: cs => do
    let (m, r) ← processData E w s P (store m c.inP c.data) r c.outP c.inP c.data.length
    let (out, m', r') ← runData E w s P m r cs
    .ok (load m c.outP c.data.length ++ out, m', r')

/-- A message: the IV is set, any number of calls of `ProcessData`, and `ProcessLastBlock` for the rest. -/
def run (forward : Bool) (E T : List Byte → List Byte) (w s P : Nat) (m : Mem) (r : Nat → List Byte) (iv : List Byte) (calls : List Call) (last : Call) : Except Err (List Byte) := do
  let r ← resynchronize s T r iv s
  let (out, m, r) ← runData E w s P m r calls
  let (m, _, n) ← processLast E w s P forward (store m last.inP last.data) r last.outP last.inP last.data.length
  .ok (out ++ load m last.outP n)

/-- What is required of the calls: whole blocks for `ProcessData`; for the last call whole blocks, or one block and a part. -/
def Good (s : Nat) (calls : List Call) (last : Call) : Prop :=
  (∀ c ∈ calls, c.Fits ∧ c.data.length % s = 0) ∧ last.Fits ∧ s ≤ last.data.length ∧ (last.data.length % s = 0 ∨ last.data.length < 2 * s)

/-- The whole message. -/
def message (calls : List Call) (last : Call) : List Byte := (calls.map Call.data).flatten ++ last.data

include hsz hP in
theorem runData_spec (hE : ∀ b, b.length = s → (E b).length = s) (t : List Byte) (ht : t.length = s) (calls : List Call) : ∀ (j : Nat) (m : Mem) (r : Nat → List Byte), r 0 = Spec.tweak s t j →
    (∀ c ∈ calls, c.Fits ∧ c.data.length % s = 0) → ∃ out m' r', runData E w s P m r calls = .ok (out, m', r') ∧ ∃ n, (calls.map Call.data).flatten.length = n * s ∧
      out = Spec.blocks E s t j (chunks s (calls.map Call.data).flatten) ∧ r' 0 = Spec.tweak s t (j + n) := by
  have hs := hsz.pos
  induction calls with
  | nil => intro j m r hr _; exact ⟨_, _, _, rfl, 0, by simp, by simp [Spec.blocks, chunks, chunksAux], hr⟩
  | cons c cs ih =>
    intro j m r hr hc
    obtain ⟨hf, h0⟩ := hc c (by simp)
    obtain ⟨n, hn⟩ : ∃ n, c.data.length = n * s := ⟨c.data.length / s, (Nat.div_mul_cancel (Nat.dvd_of_mod_eq_zero h0)).symm⟩
    unfold Call.Fits at hf
    obtain ⟨x, h1, h2⟩ := processData_ran hE hsz hP t ht j n c.outP c.inP (store m c.inP c.data) r hr (by unfold Apart; omega)
    obtain ⟨out, m', r', h3, n', h4, h5, h6⟩ := ih (j + n) x.1 x.2 h2.reg (fun c hc' => hc c (by simp [hc']))
    refine ⟨_, m', r', by simp only [runData]; rw [hn, h1]; simp only [bind, Except.bind]; rw [h3], n + n', ?_, ?_, ?_⟩
    · simp only [List.map_cons, List.flatten_cons, List.length_append]; rw [h4, hn, Nat.add_mul]
    · simp only [List.map_cons, List.flatten_cons]
      rw [h2.out, load_store' _ _ _ _ hn, h5, chunks_append s hs _ _ (by omega), blocks_append, chunks_length s hs _ (by omega), hn, Nat.mul_div_cancel _ hs]
    · rw [h6]; congr 1; omega

/-- The standard's encryption or decryption. -/
def standard (forward : Bool) (E : List Byte → List Byte) (s : Nat) (t msg : List Byte) : List Byte := if forward then Spec.encrypt E s t msg else Spec.decrypt E s t msg

include hsz hP in
/-- Encryption and decryption are those of IEEE P1619 on the whole message, in whatever calls and buffers (in place or not) it is processed, for every length of at least a block. -/
theorem xts_exact (forward : Bool) (hE : ∀ b, b.length = s → (E b).length = s) (hT : ∀ b, b.length = s → (T b).length = s) (m : Mem) (r : Nat → List Byte) (iv : List Byte) (hiv : iv.length = s)
    (calls : List Call) (last : Call) (hg : Good s calls last) : run forward E T w s P m r iv calls last = .ok (standard forward E s (T iv) (message calls last)) := by
  have hs := hsz.pos
  obtain ⟨hc, hf, hl, hlast⟩ := hg
  unfold run
  have hres : resynchronize s T r iv s = .ok (setReg r 0 (T iv)) := by
    unfold resynchronize
    rw [if_neg (by omega), if_neg (by omega), List.take_of_length_le (by omega)]
  have ht := hT iv hiv
  obtain ⟨out, m', r', h1, n, h2, h3, h4⟩ := runData_spec hsz hP hE (T iv) ht calls 0 m (setReg r 0 (T iv)) (by simp [setReg, Spec.tweak]) hc
  rw [hres]
  simp only [bind, Except.bind, h1]
  rw [Nat.zero_add] at h4
  unfold message
  generalize (calls.map Call.data).flatten = x at h2 h3 ⊢
  unfold Call.Fits at hf
  by_cases h0 : last.data.length % s = 0
  · obtain ⟨k, hk⟩ : ∃ k, last.data.length = k * s := ⟨last.data.length / s, (Nat.div_mul_cancel (Nat.dvd_of_mod_eq_zero h0)).symm⟩
    obtain ⟨y, h5, h6⟩ := processData_ran hE hsz hP (T iv) ht n k last.outP last.inP (store m' last.inP last.data) r' h4 (by unfold Apart; omega)
    have hpl : processLast E w s P forward (store m' last.inP last.data) r' last.outP last.inP last.data.length = .ok (y.1, y.2, last.data.length) := by
      unfold processLast
      rw [if_neg (by omega)]
      cases forward
      · simp only [processLastCipher, h0, if_true, Bool.false_eq_true, if_false]
        rw [hk, h5]; rfl
      · simp only [processLastPlain, h0, if_true]
        rw [hk, h5]; rfl
    have hdm : (x ++ last.data).length % s = 0 := by rw [List.length_append, h2, hk, ← Nat.add_mul]; simp
    have hst : standard forward E s (T iv) (x ++ last.data) = Spec.blocks E s (T iv) 0 (chunks s (x ++ last.data)) := by
      cases forward <;> simp only [standard, Spec.encrypt, Spec.decrypt, if_pos hdm, if_true, Bool.false_eq_true, if_false]
    rw [hpl, hst]
    simp only
    rw [hk, h6.out, load_store' _ _ _ _ hk, h3, chunks_append s hs _ _ (by rw [h2]; simp), blocks_append, chunks_length s hs _ (by rw [h2]; simp), h2, Nat.mul_div_cancel _ hs, Nat.zero_add]
  · obtain ⟨k, hk⟩ : ∃ k, last.data.length = s + k := ⟨last.data.length - s, by omega⟩
    have hks : k < s := by omega
    have hk0 : 0 < k := by
      rcases Nat.eq_zero_or_pos k with h | h
      · rw [hk, h] at h0; simp at h0
      · exact h
    have hdiv : (s + k) / s = 1 := by rw [Nat.add_div_left _ hs, Nat.div_eq_of_lt hks]
    have hmod : (s + k) % s = k := by rw [Nat.add_mod_left, Nat.mod_eq_of_lt hks]
    obtain ⟨p, q, hpq, hp, hq⟩ : ∃ p q, last.data = p ++ q ∧ p.length = s ∧ q.length = k :=
      ⟨last.data.take s, last.data.drop s, (List.take_append_drop _ _).symm, by simp; omega, by simp; omega⟩
    have hap : Apart last.outP last.inP (s + k) := by unfold Apart; omega
    have l1 : load (store m' last.inP last.data) last.inP s = p := by
      have := load_store' m' last.inP (s + k) last.data hk
      rw [load_add] at this
      exact (List.append_inj (this.trans hpq) (by simp [hp])).1
    have l2 : load (store m' last.inP last.data) (last.inP + s) k = q := by
      have := load_store' m' last.inP (s + k) last.data hk
      rw [load_add] at this
      exact (List.append_inj (this.trans hpq) (by simp [hp])).2
    have hm1 : (x ++ last.data).length / s = n + 1 := by
      rw [List.length_append, h2, hk, ← Nat.add_assoc, ← Nat.succ_mul, Nat.mul_comm, Nat.mul_add_div hs, Nat.div_eq_of_lt hks]
    have hm2 : (x ++ last.data).length % s ≠ 0 := by
      rw [List.length_append, h2, hk, ← Nat.add_assoc, ← Nat.succ_mul, Nat.mul_comm, Nat.mul_add_mod, Nat.mod_eq_of_lt hks]
      omega
    have e2 : (x ++ last.data).drop ((n + 1) * s) = q := by
      rw [hpq, ← List.append_assoc, List.drop_left' (by rw [List.length_append, h2, hp, Nat.succ_mul])]
    have e3 : ((x ++ last.data).drop (n * s)).take s = p := by rw [List.drop_left' h2, hpq, List.take_left' hp]
    cases forward
    · obtain ⟨g1, g2⟩ := lastCipherTail_spec hE hsz (T iv) ht n last.outP last.inP k (by omega) (store m' last.inP last.data) r' h4 hap
      have hpl : processLast E w s P false (store m' last.inP last.data) r' last.outP last.inP last.data.length =
          .ok ((lastCipherTail E w s (store m' last.inP last.data) r' last.outP last.inP (s + k)).1, (lastCipherTail E w s (store m' last.inP last.data) r' last.outP last.inP (s + k)).2, s + k) := by
        unfold processLast
        rw [if_neg (by omega), hk]
        simp only [processLastCipher, hdiv, hmod, Bool.false_eq_true, if_false]
        rw [if_neg (by omega), if_neg (by omega)]
      rw [hpl]
      simp only [standard, Spec.decrypt, Bool.false_eq_true, if_false, hm1]
      rw [if_neg hm2, show n + 1 - 1 = n from rfl, List.take_left' h2, e2, e3, ← h3, g1, l1, l2]
    · obtain ⟨g1, g2⟩ := lastPlainTail_spec hE hsz (T iv) ht n last.outP last.inP k (by omega) (store m' last.inP last.data) r' h4 hap
      have hpl : processLast E w s P true (store m' last.inP last.data) r' last.outP last.inP last.data.length =
          .ok ((lastPlainTail E w s (store m' last.inP last.data) r' last.outP last.inP (s + k)).1, (lastPlainTail E w s (store m' last.inP last.data) r' last.outP last.inP (s + k)).2, s + k) := by
        unfold processLast
        rw [if_neg (by omega), hk]
        simp only [processLastPlain, hdiv, hmod, if_true]
        rw [if_neg (by omega), if_neg (by omega)]
      rw [hpl]
      simp only [standard, Spec.encrypt, if_true, hm1]
      rw [if_neg hm2, show n + 1 - 1 = n from rfl, List.take_left' h2, e2, e3, ← h3, g1, l1, l2]

include hsz hP in
/-- Decryption gives back the message, however encryption and decryption were split into calls, on builds with different word sizes and numbers of parallel blocks too. -/
theorem xts_round_trip {w' P' : Nat} (hsz' : Sizes w' s) (hP' : Parallel P') (hE : ∀ b, b.length = s → (E b).length = s) (hD : ∀ b, b.length = s → (D b).length = s) (hDE : ∀ b, b.length = s → D (E b) = b)
    (hT : ∀ b, b.length = s → (T b).length = s) (m m' : Mem) (r r' : Nat → List Byte) (iv : List Byte) (hiv : iv.length = s) (calls calls' : List Call) (last last' : Call)
    (hg : Good s calls last) (hg' : Good s calls' last') (ct : List Byte) (henc : run true E T w s P m r iv calls last = .ok ct) (hct : message calls' last' = ct) :
    run false D T w' s P' m' r' iv calls' last' = .ok (message calls last) := by
  rw [xts_exact hsz hP true hE hT m r iv hiv calls last hg] at henc
  injection henc with henc
  rw [xts_exact hsz' hP' false hD hT m' r' iv hiv calls' last' hg', hct, ← henc]
  congr 1
  refine (decrypt_encrypt hsz.pos hE hDE (T iv) (hT iv hiv) (message calls last) ?_).2
  obtain ⟨_, _, h, _⟩ := hg
  unfold message
  rw [List.length_append]; omega

/-- Less than a block is refused. -/
theorem short_rejected (forward : Bool) (m : Mem) (r : Nat → List Byte) (outP inP n : Nat) (h : n < s) : processLast E w s P forward m r outP inP n = .error .invalidArgument := by
  unfold processLast; rw [if_pos h]

include hsz hP in
/-- `ProcessLastBlock` with more than one whole block and a part is undefined, in both directions: it hands the last block and the part to `ProcessData` instead of the blocks before. -/
theorem long_last_block_undefined (forward : Bool) (m : Mem) (r : Nat → List Byte) (outP inP n : Nat) (h : 2 * s ≤ n) (h0 : n % s ≠ 0) :
    processLast E w s P forward m r outP inP n = .error .undefinedBehaviour := by
  have hs := hsz.pos
  have hb : 2 ≤ n / s := (Nat.le_div_iff_mul_le hs).mpr (by omega)
  have hdm := Nat.div_add_mod n s
  have hlt := Nat.mod_lt n hs
  have hlen : n - (n / s - 1) * s = s + n % s := by
    obtain ⟨a, ha⟩ : ∃ a, n / s = a + 1 := ⟨n / s - 1, by omega⟩
    rw [ha] at hdm ⊢
    rw [Nat.mul_comm, Nat.succ_mul] at hdm
    rw [show a + 1 - 1 = a from rfl]; omega
  have hpd : processData E w s P m r outP inP (s + n % s) = .error .undefinedBehaviour := by
    simp only [processData]
    rw [if_pos]
    have hP4 : 4 ≤ P := by rcases hP with h | h | h <;> omega
    have h4 : 4 * s ≤ P * s := Nat.mul_le_mul_right s hP4
    have e1 : (s + n % s) % (P * s) = s + n % s := Nat.mod_eq_of_lt (by omega)
    rw [e1]
    have e2 : (s + n % s) / (4 * s) = 0 := Nat.div_eq_of_lt (by omega)
    have e3 : (s + n % s) / (2 * s) = 0 := Nat.div_eq_of_lt (by omega)
    rw [e2]
    have e4 : (if P = 12 then 0 else 0) = 0 := by split <;> rfl
    rw [e4, Nat.zero_mul, Nat.sub_zero, e3]
    have e5 : (if P = 8 then 0 else 0) = 0 := by split <;> rfl
    rw [e5, Nat.zero_mul, Nat.sub_zero, Nat.add_mod_left, Nat.mod_mod]
    exact h0
  unfold processLast
  rw [if_neg (by omega)]
  cases forward
  · simp only [processLastCipher, Bool.false_eq_true, if_false]
    rw [if_neg h0, if_pos (by omega), hlen, hpd]; rfl
  · simp only [processLastPlain, if_true]
    rw [if_neg h0, if_pos (by omega), hlen, hpd]; rfl

/-- `Resynchronize(iv)` with the default length is undefined. -/
theorem resynchronize_default_undefined (r : Nat → List Byte) (iv : List Byte) : resynchronize s T r iv (-1) = .error .undefinedBehaviour := rfl

/-- The tweak from a sector number, least significant byte first as in P1619, is that from its 16 bytes. -/
theorem sector_tweak (r : Nat → List Byte) (sector : Nat) (h : sector < 2 ^ 64) : resynchronizeSector 16 T r sector .little 0 = T (leBytes 16 sector) := by
  have e : leBytes 16 sector = leBytes 8 sector ++ leBytes 8 (sector / 256 ^ 8) := leBytes_append 8 8 sector
  have : sector / 256 ^ 8 = 0 := Nat.div_eq_of_lt h
  rw [this] at e
  rw [e]
  simp [resynchronizeSector, setReg, ByteOrder.bytes, leBytes, List.replicate]
end

/-! ## An instance -/

/-- A toy cipher on 16 bytes, its inverse, and a tweak cipher. -/
private def toyE (b : List Byte) : List Byte := (b.map (· + 3)).reverse
private def toyD (b : List Byte) : List Byte := b.reverse.map (· - 3)
private def toyT (b : List Byte) : List Byte := b.map (fun x => x ^^^ 0xb5)

private theorem toyDE (b : List Byte) : toyD (toyE b) = b := by
  unfold toyD toyE
  rw [List.reverse_reverse, List.map_map]
  have : ((fun x : Byte => x - 3) ∘ fun x => x + 3) = id := by funext x; exact BitVec.add_sub_cancel x 3
  rw [this, List.map_id]

private def msg : List Byte := (List.range 23).map (BitVec.ofNat 8)
private def iv : List Byte := List.replicate 16 7

/-- 23 bytes in place, and back. -/
example : ∃ ct, run true toyE toyT 8 16 4 (fun _ => 0) (fun _ => []) iv [] ⟨100, 100, msg⟩ = .ok ct ∧ ct.length = 23 ∧
    run false toyD toyT 16 16 12 (fun _ => 0) (fun _ => []) iv [] ⟨100, 200, ct⟩ = .ok msg := by
  have hsz : Sizes 8 16 := by unfold Sizes; omega
  have hsz' : Sizes 16 16 := by unfold Sizes; omega
  have hg : Good 16 [] ⟨100, 100, msg⟩ := ⟨by simp, .inl rfl, by decide, .inr (by decide)⟩
  have he := xts_exact hsz (.inl rfl) true (E := toyE) (T := toyT) (by simp [toyE]) (by simp [toyT]) (fun _ => 0) (fun _ => []) iv (by decide) [] ⟨100, 100, msg⟩ hg
  refine ⟨_, he, by decide +kernel, ?_⟩
  exact xts_round_trip hsz (.inl rfl) hsz' (.inr (.inr rfl)) (by simp [toyE]) (by simp [toyD]) (fun b _ => toyDE b) (by simp [toyT]) _ _ _ _ iv (by decide) [] [] ⟨100, 100, msg⟩ _
    hg ⟨by simp, .inr (.inl (by decide +kernel)), by decide +kernel, .inr (by decide +kernel)⟩ _ he rfl

/-- The doubling with a carry, and the code on 7 blocks in the three builds. -/
example : gfDouble 8 16 (List.replicate 15 0 ++ [0x80]) = 0x87 :: List.replicate 15 0 := by decide +kernel
example : ∀ P ∈ [4, 8, 12], (processData toyE 4 16 P (fun a => BitVec.ofNat 8 a) (fun _ => iv) 1000 0 112).map (fun x => load x.1 1000 112) =
    .ok (Spec.blocks toyE 16 iv 0 (chunks 16 (load (fun a => BitVec.ofNat 8 a) 0 112))) := by decide +kernel

end Verif.Xts
