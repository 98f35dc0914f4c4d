import Verif.Modes.CtrProofs
import Verif.Modes.CfbProofs

/-! Properties C15 to C19: the block cipher modes. `E` is the block transformation on `s`-byte blocks, `D` its inverse. -/
namespace Verif.Modes

variable {E D : List Byte → List Byte} {s : Nat}

/-! ## CTR (C15) -/

/-- C15. Keystream block `i` is `E (iv + i)`: block `i` of the keystream of `ctrKeystream`, by definition of the latter.
Every history of calls on a CTR object (processing, generating, seeking, resynchronizing, in any batching) returns what that
keystream demands. `parallel` is the cipher's preferred number of blocks. -/
theorem ctr_history (hs : 0 < s) (hE : ∀ b, b.length = s → (E b).length = s) (parallel : Nat) (hp : 0 < parallel)
    (old : Ctr) (v : IV s) (i : Nat) (hold : old.register = v.bytes ∧ old.counter = beBytes s (beVal v.bytes + i))
    (iv : IV s) (junk : Mem) (ops : List (Stream.Op (IV s))) :
    Stream.run (ctrPolicy E s parallel) (Stream.setKey (ctrPolicy E s parallel) old iv junk) ops =
      .ok (Stream.specRun (fun v => ctrKeystream E s v.bytes) iv 0 ops) := by
  -- every position is below some limit
  obtain ⟨lim, hlim⟩ : ∃ lim, Stream.SeeksOk (ctrPolicy E s parallel) lim ops := by
    induction ops with
    | nil => exact ⟨0, trivial⟩
    | cons op ops ih =>
      obtain ⟨lim, h⟩ := ih
      have mono : ∀ (l : List (Stream.Op (IV s))) (a b : Nat), a ≤ b → Stream.SeeksOk (ctrPolicy E s parallel) a l → Stream.SeeksOk (ctrPolicy E s parallel) b l := by
        intro l a b hab
        induction l with
        | nil => intro _; trivial
        | cons op l ih =>
          intro h
          cases op with
          | seek p => exact ⟨by have := h.1; omega, ih h.2⟩
          | process x => exact ih h
          | generate n => exact ih h
          | resync w j => exact ih h
      cases op with
      | seek p => exact ⟨lim + (p / (ctrPolicy E s parallel).bpi + 1), Nat.lt_of_lt_of_le (Nat.lt_succ_self _) (Nat.le_add_left _ _), mono _ _ _ (Nat.le_add_right _ _) h⟩
      | process x => exact ⟨lim, h⟩
      | generate n => exact ⟨lim, h⟩
      | resync w j => exact ⟨lim, h⟩
  exact Stream.history_outputs (ctr_ok E s hs hE parallel hp lim) v i old hold iv junk ops hlim

/-- C15. What `n` blocks of generated keystream from block `i` on are. -/
theorem ctr_blocks (hs : 0 < s) (hE : ∀ b, b.length = s → (E b).length = s) (iv : List Byte) (i n : Nat) :
    load (ctrKeystream E s iv) (i * s) (n * s) = ((List.range n).map fun k => E (beBytes s (beVal iv + (i + k)))).flatten := by
  unfold ctrKeystream
  rw [load_byBlocks s hs (fun k => E (beBytes s (beVal iv + k))) (fun k => hE _ (by simp)), blocksOf_range]

/-- C15. The counter wraps over the whole block. -/
theorem ctr_wraps (V : Nat) : beBytes s V = beBytes s (V % 256 ^ s) := (beBytes_mod s V).symm

/-! ## OFB (C19) -/

/-- C19. Keystream block `i` of OFB is `E` applied `i + 1` times to the IV; calls (without seeking, which OFB rejects)
return what that keystream demands, in any batching. -/
theorem ofb_history (hs : 0 < s) (hE : ∀ b, b.length = s → (E b).length = s) (parallel : Nat) (hp : 0 < parallel)
    (old : List Byte) (v : IV s) (i : Nat) (hold : old = Nat.repeat E i v.bytes) (iv : IV s) (junk : Mem)
    (ops : List (Stream.Op (IV s))) (hns : ∀ p, Stream.Op.seek p ∉ ops) :
    Stream.run (ofbPolicy E s parallel) (Stream.setKey (ofbPolicy E s parallel) old iv junk) ops =
      .ok (Stream.specRun (fun v => ofbKeystream E s v.bytes) iv 0 ops) := by
  apply Stream.history_outputs (ofb_ok E s hs hE parallel hp) v i old hold iv junk ops
  induction ops with
  | nil => trivial
  | cons op ops ih =>
    have hns' := fun p h => hns p (List.mem_cons_of_mem _ h)
    cases op with
    | seek p => exact absurd List.mem_cons_self (hns p)
    | process x => exact ih hns'
    | generate n => exact ih hns'
    | resync w j => exact ih hns'

/-- C19. The blocks of the keystream. -/
theorem ofb_blocks (hs : 0 < s) (hE : ∀ b, b.length = s → (E b).length = s) (iv : List Byte) (hiv : iv.length = s) (i n : Nat) :
    load (ofbKeystream E s iv) (i * s) (n * s) = ((List.range n).map fun k => Nat.repeat E (i + k + 1) iv).flatten := by
  unfold ofbKeystream
  rw [load_byBlocks s hs (fun k => Nat.repeat E (k + 1) iv) (fun k => repeat_length E s hE _ _ hiv), blocksOf_range]

/-- C19. Decryption is encryption: with the same key and IV, and any two splits. -/
theorem ofb_decrypt_encrypt (hs : 0 < s) (hE : ∀ b, b.length = s → (E b).length = s) (parallel : Nat) (hp : 0 < parallel)
    (old : List Byte) (v : IV s) (i : Nat) (hold : old = Nat.repeat E i v.bytes) (iv : IV s) (junk junk' : Mem) (pieces pieces' : List (List Byte)) (out : List (List Byte))
    (henc : Stream.run (ofbPolicy E s parallel) (Stream.setKey (ofbPolicy E s parallel) old iv junk) (pieces.map .process) = .ok out)
    (hsame : pieces'.flatten = out.flatten) :
    ∃ back, Stream.run (ofbPolicy E s parallel) (Stream.setKey (ofbPolicy E s parallel) old iv junk') (pieces'.map .process) = .ok back ∧ back.flatten = pieces.flatten :=
  Stream.decrypt_encrypt (ofb_ok E s hs hE parallel hp) v i old hold iv junk junk' pieces pieces' out henc hsame

/-! ## CBC (C16) -/

/-- C16. Any calls on a CBC encryption object, with whole blocks, in place or between separate buffers, together output the
CBC encryption of the concatenated data. The IV is what the register (at `r`) holds. -/
theorem cbc_encrypt_history (hs : 0 < s) (hE : ∀ b, b.length = s → (E b).length = s) (r : Nat) (m : Mem) (calls : List Call)
    (hc : ∀ c ∈ calls, c.Fits r (r + s) ∧ c.data.length % s = 0) :
    ∃ outs m', runEnc E s r m calls = .ok (outs, m') ∧ outs.flatten = (cbcEncrypt E (load m r s) (chunks s (calls.map Call.data).flatten)).flatten := by
  obtain ⟨outs, m', h1, h2, _⟩ := runEnc_spec E s hs hE r calls m hc
  exact ⟨outs, m', h1, h2⟩

/-- C16. The same for decryption; the object's blocks lie in `[lo, hi)`. -/
theorem cbc_decrypt_history (hs : 0 < s) (hD : ∀ b, b.length = s → (D b).length = s) (lo hi : Nat) (m : Mem) (o : DecObj) (calls : List Call)
    (hc : ∀ c ∈ calls, c.Fits lo hi ∧ c.data.length % s = 0)
    (hr : lo ≤ o.r ∧ o.r + s ≤ hi) (ht : lo ≤ o.t ∧ o.t + s ≤ hi) (hrt : o.r + s ≤ o.t ∨ o.t + s ≤ o.r) :
    ∃ outs m' o', runDec D s o m calls = .ok (outs, m', o') ∧ outs.flatten = (cbcDecrypt D (load m o.r s) (chunks s (calls.map Call.data).flatten)).flatten := by
  obtain ⟨outs, m', o', h1, h2, _⟩ := runDec_spec D s hs hD lo hi calls m o hc hr.1 hr.2 ht.1 ht.2 hrt
  exact ⟨outs, m', o', h1, h2⟩

theorem data_mod (lo hi : Nat) (calls : List Call) (hc : ∀ c ∈ calls, c.Fits lo hi ∧ c.data.length % s = 0) : (calls.map Call.data).flatten.length % s = 0 := by
  induction calls with
  | nil => simp
  | cons c cs ih =>
    have h1 := (hc c (by simp)).2
    have h2 := ih (fun d hd => hc d (by simp [hd]))
    rw [List.map_cons, List.flatten_cons, List.length_append, Nat.add_mod, h1, h2]; simp

/-- C16. Decryption undoes encryption, whatever the calls on either side. -/
theorem cbc_round_trip (hs : 0 < s) (hE : ∀ b, b.length = s → (E b).length = s) (hD : ∀ b, b.length = s → (D b).length = s) (hDE : ∀ b, b.length = s → D (E b) = b)
    (r : Nat) (m : Mem) (calls : List Call) (hc : ∀ c ∈ calls, c.Fits r (r + s) ∧ c.data.length % s = 0)
    (outs : List (List Byte)) (mEnd : Mem) (henc : runEnc E s r m calls = .ok (outs, mEnd))
    (lo hi : Nat) (m' : Mem) (o : DecObj) (calls' : List Call) (hc' : ∀ c ∈ calls', c.Fits lo hi ∧ c.data.length % s = 0)
    (hr : lo ≤ o.r ∧ o.r + s ≤ hi) (ht : lo ≤ o.t ∧ o.t + s ≤ hi) (hrt : o.r + s ≤ o.t ∨ o.t + s ≤ o.r)
    (hiv : load m' o.r s = load m r s) (hsame : (calls'.map Call.data).flatten = outs.flatten) :
    ∃ back m'' o', runDec D s o m' calls' = .ok (back, m'', o') ∧ back.flatten = (calls.map Call.data).flatten := by
  obtain ⟨outs1, m1, h1, h2, _⟩ := runEnc_spec E s hs hE r calls m hc
  rw [henc] at h1
  injection h1 with h1
  obtain ⟨rfl, rfl⟩ := Prod.mk.injEq .. ▸ h1
  obtain ⟨back, m'', o', g1, g2, _⟩ := runDec_spec D s hs hD lo hi calls' m' o hc' hr.1 hr.2 ht.1 ht.2 hrt
  refine ⟨back, m'', o', g1, ?_⟩
  have hmod : (calls.map Call.data).flatten.length % s = 0 := data_mod _ _ calls hc
  have hcl := chunks_block_length s hs _ hmod
  rw [g2, hsame, h2, hiv, chunks_flatten_blocks s hs _ (cbcEncrypt_block_length E s hE _ _ (by simp) hcl),
    cbcDecrypt_cbcEncrypt E D s hE hDE _ _ (by simp) hcl, chunks_flatten s hs]

/-- C16. Nothing but the output and the register is written. -/
theorem cbc_encrypt_frame (hs : 0 < s) (hE : ∀ b, b.length = s → (E b).length = s) (m : Mem) (r outP inP n : Nat)
    (h1 : inP = outP ∨ inP + n * s ≤ outP ∨ outP + n * s ≤ inP) (h2 : inP + n * s ≤ r ∨ r + s ≤ inP) (h3 : outP + n * s ≤ r ∨ r + s ≤ outP) :
    ∃ m', cbcEncData E s m r outP inP (n * s) = .ok m' ∧ ∀ a, (a < outP ∨ outP + n * s ≤ a) → (a < r ∨ r + s ≤ a) → m' a = m a := by
  obtain ⟨m', e1, _, _, e2⟩ := cbcEncData_spec E s hs hE m r outP inP n h1 h2 h3
  exact ⟨m', e1, e2⟩

/-- ECB: each block is transformed on its own, in place or between separate buffers. -/
theorem ecb_blocks (hs : 0 < s) (hE : ∀ b, b.length = s → (E b).length = s) (m : Mem) (outP inP n : Nat)
    (h : inP = outP ∨ inP + n * s ≤ outP ∨ outP + n * s ≤ inP) :
    ∃ m', ecbData E s m outP inP (n * s) = .ok m' ∧ load m' outP (n * s) = ((chunks s (load m inP (n * s))).map E).flatten := by
  obtain ⟨m', h1, h2, _⟩ := apb_forward E s hE hs inP outP n m (by omega)
  refine ⟨m', h1, ?_⟩
  rw [h2, load_chunks _ _ _ _ hs, blocksOf_range, List.map_map]
  rfl

/-! ## Ciphertext stealing (C17) -/

/-- C17. A message of more than a block, fed as whole blocks and then a last part of `s + k` bytes (`1 ≤ k ≤ s`), comes
back when the ciphertext, of the same length, is decrypted in the same way; the splits of the whole blocks may differ. -/
theorem cts_round_trip (hs : 0 < s) (hE : ∀ b, b.length = s → (E b).length = s) (hD : ∀ b, b.length = s → (D b).length = s) (hDE : ∀ b, b.length = s → D (E b) = b)
    -- encryption
    (r : Nat) (m : Mem) (calls : List Call) (hc : ∀ c ∈ calls, c.Fits r (r + s) ∧ c.data.length % s = 0)
    (outs : List (List Byte)) (m1 : Mem) (henc : runEnc E s r m calls = .ok (outs, m1))
    (last : Call) (k : Nat) (hk0 : 0 < k) (hk : k ≤ s) (hlast : last.data.length = s + k) (hfit : last.Fits r (r + s)) (hsep : last.inP ≠ last.outP) (stolen : Option Nat)
    -- decryption
    (lo hi : Nat) (m' : Mem) (o : DecObj) (calls' : List Call) (hc' : ∀ c ∈ calls', c.Fits lo hi ∧ c.data.length % s = 0)
    (hr : lo ≤ o.r ∧ o.r + s ≤ hi) (ht : lo ≤ o.t ∧ o.t + s ≤ hi) (hrt : o.r + s ≤ o.t ∨ o.t + s ≤ o.r)
    (hiv : load m' o.r s = load m r s) (hsame : (calls'.map Call.data).flatten = outs.flatten)
    (last' : Call) (hlast' : last'.data.length = s + k) (hfit' : last'.Fits lo hi) (hsep' : last'.inP ≠ last'.outP) :
    ∃ m2, ctsEncLast E s (store m1 last.inP last.data) r stolen last.outP last.inP (s + k) = .ok (m2, s + k) ∧
      (last'.data = load m2 last.outP (s + k) →
        ∃ back m3 o', runDec D s o m' calls' = .ok (back, m3, o') ∧
          ∃ m4, ctsDecLast D s (store m3 last'.inP last'.data) o' last'.outP last'.inP (s + k) = .ok (m4, s + k) ∧
            back.flatten ++ load m4 last'.outP (s + k) = (calls.map Call.data).flatten ++ last.data) := by
  obtain ⟨outs1, m1', h1, h2, h3⟩ := runEnc_spec E s hs hE r calls m hc
  rw [henc] at h1
  injection h1 with h1
  obtain ⟨rfl, rfl⟩ := Prod.mk.injEq .. ▸ h1
  obtain ⟨f1, f2, f3⟩ := hfit
  obtain ⟨f1', f2', f3'⟩ := hfit'
  rw [hlast] at f1 f2 f3
  rw [hlast'] at f1' f2' f3'
  obtain ⟨m2, e1, e2⟩ := ctsEncLast_long E s hs hE (store m1 last.inP last.data) r stolen last.outP last.inP k hk0 hk (by omega) f2 f3
  refine ⟨m2, e1, ?_⟩
  intro hct
  obtain ⟨back, m3, o', g1, g2, g3, g4, g5, g6, g7, g8⟩ := runDec_spec D s hs hD lo hi calls' m' o hc' hr.1 hr.2 ht.1 ht.2 hrt
  refine ⟨back, m3, o', g1, ?_⟩
  have hmod : (calls.map Call.data).flatten.length % s = 0 := data_mod _ _ calls hc
  have hcl := chunks_block_length s hs _ hmod
  have hbl := cbcEncrypt_block_length E s hE (load m r s) _ (by simp) hcl
  have hback : back.flatten = (calls.map Call.data).flatten := by
    rw [g2, hsame, h2, hiv, chunks_flatten_blocks s hs _ hbl, cbcDecrypt_cbcEncrypt E D s hE hDE _ _ (by simp) hcl, chunks_flatten s hs]
  -- the registers agree
  have hregs : load m3 o'.r s = load m1 r s := by
    rw [g3, h3, hsame, h2, hiv, chunks_flatten_blocks s hs _ hbl]
  have hsplit : load (store m1 last.inP last.data) last.inP (s + k) = last.data := load_store' _ _ _ _ hlast
  have hreg1 : load (store m1 last.inP last.data) r s = load m1 r s := load_store_disj _ _ _ _ _ (by omega)
  rw [hreg1] at e2
  obtain ⟨m4, d1, d2⟩ := ctsDecLast_long E D s hs hE hDE (store m3 last'.inP last'.data) o' last'.outP last'.inP k
    (load (store m1 last.inP last.data) last.inP s) (load (store m1 last.inP last.data) (last.inP + s) k) (by simp) (by simp) hk0 hk
    (by
      have hr3 : load (store m3 last'.inP last'.data) o'.r s = load m1 r s := by rw [load_store_disj _ _ _ _ _ (by omega), hregs]
      rw [hr3, load_store' _ _ _ _ hlast', hct, e2])
    (by omega) (by omega) (by omega) (by omega) (by omega) g8
  refine ⟨m4, d1, ?_⟩
  rw [d2, hback, ← load_add, hsplit]

/-- C17. A message of at most a block: with a stolen IV, decryption with the stolen IV in place of the IV returns it. -/
theorem cts_short_round_trip (hE : ∀ b, b.length = s → (E b).length = s) (hDE : ∀ b, b.length = s → D (E b) = b)
    (m : Mem) (r iv outP inP k : Nat) (hk : k ≤ s)
    (h1 : inP + k ≤ outP ∨ outP + k ≤ inP) (h2 : inP + k ≤ r ∨ r + s ≤ inP) (h3 : outP + k ≤ r ∨ r + s ≤ outP) (h4 : iv + s ≤ outP ∨ outP + k ≤ iv) :
    ∃ m1, ctsEncLast E s m r (some iv) outP inP k = .ok (m1, k) ∧
      ∀ (m' : Mem) (o : DecObj) (outP' inP' : Nat), load m' inP' k = load m1 outP k → load m' o.r s = load m1 iv s →
        (inP' + k ≤ o.t ∨ o.t + s ≤ inP') →
        ∃ m2, ctsDecLast D s m' o outP' inP' k = .ok (m2, k) ∧ load m2 outP' k = load m inP k := by
  obtain ⟨m1, e1, e2, e3⟩ := ctsEncLast_short E s hE m r iv outP inP k hk h1 h2 h3 h4
  refine ⟨m1, e1, ?_⟩
  intro m' o outP' inP' hin hreg ht
  rw [e2] at hin
  rw [e3] at hreg
  exact ctsDecLast_short E D s hE hDE m' o outP' inP' k (load m r s) (load m inP k) (by simp) (by simp) hk hin hreg ht

/-- C17. Without a stolen IV a message of at most a block is rejected. -/
theorem cts_short_rejected (m : Mem) (r outP inP k : Nat) (hk : k ≤ s) : ctsEncLast E s m r none outP inP k = .error .invalidArgument := by
  unfold ctsEncLast
  rw [if_pos hk]

/-- The last block cannot be processed in place, unlike `ProcessData`: here is a message for which the ciphertext is wrong. -/
theorem cts_in_place_wrong : ∃ (E : List Byte → List Byte) (m : Mem), (∀ b : List Byte, b.length = 2 → (E b).length = 2) ∧
    (ctsEncLast E 2 m 0 none 10 10 4).toOption.map (fun p => load p.1 10 4) ≠ some (ctsEncrypt E 2 (load m 0 2) (load m 10 2) (load m 12 2)) :=
  ⟨fun b => b, fun a => BitVec.ofNat 8 a, fun _ h => h, by decide +kernel⟩

/-! ## CFB (C18) -/

theorem runCfb_spec (f : Nat) (dir : Dir) (hf0 : 0 < f) (hfs : f ≤ s) (hE : ∀ b, b.length = s → (E b).length = s) (lo hi : Nat) (calls : List (Call × Bool)) :
    ∀ (m : Mem) (o : CfbObj) (st : CfbS), (∀ c ∈ calls, c.1.Fits lo hi) → o.f = f → CfbInv E s f m o.r st → o.leftOver = f - st.d.length →
    (lo ≤ o.r ∧ o.r + s ≤ hi) → (lo ≤ o.t ∧ o.t + s ≤ hi) → (o.r + s ≤ o.t ∨ o.t + s ≤ o.r) →
    ∃ outs, runCfb E s dir m o calls = .ok outs ∧ outs.flatten = (feed E f dir st (calls.map (fun c => c.1.data)).flatten).2 := by
  induction calls with
  | nil => intro m o st _ _ _ _ _ _ _; exact ⟨[], rfl, rfl⟩
  | cons c cs ih =>
    intro m o st hfit hof hi ho hr ht hrt
    obtain ⟨c, al⟩ := c
    obtain ⟨f1, f2, f3⟩ := hfit (c, al) (by simp)
    simp only at f1 f2 f3
    have hp : Place s o.r o.t c.outP c.inP c.data.length := ⟨f1, by omega, by omega, by omega, by omega, hrt⟩
    have hi' : CfbInv E s f (store m c.inP c.data) o.r st := by
      obtain ⟨a, b, d⟩ := hi
      exact ⟨a, b, by rw [load_store_disj _ _ _ _ _ (by omega), d]⟩
    obtain ⟨m1, o1, st1, e1, D1, e3⟩ := cfbData_done (dir := dir) hf0 hfs hE al (store m c.inP c.data) o hof c.outP c.inP c.data.length st hi' ho hp
    obtain ⟨d1, d2, _⟩ := D1
    rw [load_store] at d1
    subst e3
    obtain ⟨outs, i1, i2⟩ := ih m1 { o with leftOver := f - st1.d.length } st1 (fun x hx => hfit x (by simp [hx])) hof d2 rfl hr ht hrt
    refine ⟨load m1 c.outP c.data.length :: outs, ?_, ?_⟩
    · simp only [runCfb, e1, bind, Except.bind, i1]
    · rw [List.flatten_cons, i2, List.map_cons, List.flatten_cons, feed_append, d1]

/-- C18. After keying with an IV and a feedback size of 1 to `s` bytes, any calls together output the CFB encryption
(decryption) of the concatenated data, whatever their lengths, and the alignment and placement of the buffers. -/
theorem cfb_history (f : Nat) (dir : Dir) (hf0 : 0 < f) (hfs : f ≤ s) (hE : ∀ b, b.length = s → (E b).length = s) (lo hi : Nat)
    (m : Mem) (o : CfbObj) (iv : List Byte) (hiv : iv.length = s) (calls : List (Call × Bool)) (hfit : ∀ c ∈ calls, c.1.Fits lo hi) (hof : o.f = f)
    (hr : lo ≤ o.r ∧ o.r + s ≤ hi) (ht : lo ≤ o.t ∧ o.t + s ≤ hi) (hrt : o.r + s ≤ o.t ∨ o.t + s ≤ o.r) :
    ∃ outs, runCfb E s dir (cfbResynchronize E s m o iv).1 (cfbResynchronize E s m o iv).2 calls = .ok outs ∧
      outs.flatten = (cfb E f dir iv (chunks f (calls.map (fun c => c.1.data)).flatten)).flatten := by
  have hx : load (store m o.r iv) o.r s = iv := load_store' _ _ _ _ hiv
  obtain ⟨t1, _⟩ := transform_inv hf0 hfs hE (store m o.r iv) o hof hrt iv hx
  obtain ⟨outs, h1, h2⟩ := runCfb_spec f dir hf0 hfs hE lo hi calls (transformRegister E s (store m o.r iv) o) { o with leftOver := o.f } ⟨iv, []⟩ hfit hof t1
    (by show o.f = f - 0; omega) hr ht hrt
  refine ⟨outs, h1, ?_⟩
  rw [h2, feed_cfb E s f dir hf0 hfs hE _ _ _ (Nat.le_refl _) hiv]

theorem feed_inverse (f : Nat) (st : CfbS) (x : List Byte) : (feed E f .decryption st (feed E f .encryption st x).2).2 = x := by
  have : ∀ (x : List Byte) (st : CfbS), (feed E f .decryption st (feed E f .encryption st x).2).2 = x := by
    intro x
    induction x with
    | nil => intro st; rfl
    | cons p ps ih =>
      intro st
      simp only [feed, feedByte]
      rw [BitVec.xor_assoc, BitVec.xor_self, BitVec.xor_zero, ih]
  exact this x st

/-- C18. Decryption undoes encryption, the two sides splitting the data differently. -/
theorem cfb_round_trip (f : Nat) (hf0 : 0 < f) (hfs : f ≤ s) (hE : ∀ b, b.length = s → (E b).length = s) (lo hi : Nat) (iv : List Byte) (hiv : iv.length = s)
    (m : Mem) (o : CfbObj) (calls : List (Call × Bool)) (hfit : ∀ c ∈ calls, c.1.Fits lo hi) (hof : o.f = f)
    (hr : lo ≤ o.r ∧ o.r + s ≤ hi) (ht : lo ≤ o.t ∧ o.t + s ≤ hi) (hrt : o.r + s ≤ o.t ∨ o.t + s ≤ o.r)
    (m' : Mem) (o' : CfbObj) (calls' : List (Call × Bool)) (hfit' : ∀ c ∈ calls', c.1.Fits lo hi) (hof' : o'.f = f)
    (hr' : lo ≤ o'.r ∧ o'.r + s ≤ hi) (ht' : lo ≤ o'.t ∧ o'.t + s ≤ hi) (hrt' : o'.r + s ≤ o'.t ∨ o'.t + s ≤ o'.r)
    (outs : List (List Byte)) (henc : runCfb E s .encryption (cfbResynchronize E s m o iv).1 (cfbResynchronize E s m o iv).2 calls = .ok outs)
    (hsame : (calls'.map (fun c => c.1.data)).flatten = outs.flatten) :
    ∃ back, runCfb E s .decryption (cfbResynchronize E s m' o' iv).1 (cfbResynchronize E s m' o' iv).2 calls' = .ok back ∧
      back.flatten = (calls.map (fun c => c.1.data)).flatten := by
  obtain ⟨outs1, h1, h2⟩ := cfb_history f .encryption hf0 hfs hE lo hi m o iv hiv calls hfit hof hr ht hrt
  rw [henc] at h1
  injection h1 with h1
  subst h1
  obtain ⟨back, g1, g2⟩ := cfb_history f .decryption hf0 hfs hE lo hi m' o' iv hiv calls' hfit' hof' hr' ht' hrt'
  refine ⟨back, g1, ?_⟩
  rw [g2, hsame, h2]
  rw [← feed_cfb E s f .encryption hf0 hfs hE _ _ _ (Nat.le_refl _) hiv, ← feed_cfb E s f .decryption hf0 hfs hE _ _ _ (Nat.le_refl _) hiv]
  exact feed_inverse f _ _

/-- C18. The feedback size is accepted if it is at most the block size; 0 stands for the block size. -/
theorem cfb_feedback_size (n : Nat) : setFeedbackSize s n = if n ≤ s then .ok (if n = 0 then s else n) else .error .invalidArgument := by
  unfold setFeedbackSize
  by_cases h : n ≤ s
  · rw [if_neg (by omega), if_pos h]
    by_cases h0 : n = 0
    · simp [h0]
    · simp [h0]
  · rw [if_pos (by omega), if_neg h]

/-! ## The hypotheses can be met -/

/-- A toy invertible transformation of 2-byte blocks. -/
def toyE (b : List Byte) : List Byte := [b.getD 1 0 + 3, b.getD 0 0 ^^^ 0x5a]
def toyD (b : List Byte) : List Byte := [b.getD 1 0 ^^^ 0x5a, b.getD 0 0 - 3]

theorem toyDE : ∀ b : List Byte, b.length = 2 → toyD (toyE b) = b := by
  intro b h
  match b, h with
  | [x, y], _ =>
    simp only [toyD, toyE, List.getD_cons_succ, List.getD_cons_zero]
    rw [BitVec.xor_assoc, BitVec.xor_self, BitVec.xor_zero, BitVec.add_sub_cancel]

example : ∀ b : List Byte, b.length = 2 → (toyE b).length = 2 := fun _ _ => rfl

def toyCalls : List Call := [⟨100, 100, [1, 2, 3, 4]⟩, ⟨100, 200, [5, 6]⟩, ⟨7, 300, []⟩]

example : ∀ c ∈ toyCalls, c.Fits 10 14 ∧ c.data.length % 2 = 0 := by
  intro c hc
  simp only [toyCalls, List.mem_cons, List.not_mem_nil, or_false] at hc
  rcases hc with rfl | rfl | rfl <;> simp [Call.Fits]

example : (runEnc toyE 2 10 (fun _ => 7) toyCalls).toOption.map Prod.fst = some [[8, 0x5c, 0x5b, 0x51], [0x5a, 4], []] := by decide +kernel

example : (runCfb toyE 2 .encryption (cfbResynchronize toyE 2 (fun _ => 0) ⟨10, 12, 1, 0⟩ [9, 9]).1 (cfbResynchronize toyE 2 (fun _ => 0) ⟨10, 12, 1, 0⟩ [9, 9]).2
    [(⟨100, 100, [1, 2, 3]⟩, true), (⟨100, 200, [4]⟩, false)]).toOption =
    some (([(cfbEncrypt toyE 1 [9, 9] [[1], [2], [3], [4]]).flatten.take 3, (cfbEncrypt toyE 1 [9, 9] [[1], [2], [3], [4]]).flatten.drop 3])) := by decide +kernel

/-- A counter that carries. -/
example : load (ctrKeystream (fun b => b) 2 [0x12, 0xff]) 0 4 = [0x12, 0xff, 0x13, 0x00] := by decide +kernel

example : incrementCounterByOne 3 [0, 0xff, 0xff] = [1, 0, 0] := by decide +kernel

example : seekLoop [0, 0xff, 0xff] 3 0x10001 0 [0, 0, 0] = [2, 0, 0] := by decide +kernel

end Verif.Modes
