import Verif.Modes.CbcSpec
import Verif.Modes.Chain

namespace Verif.Modes

section
variable (E D : List Byte → List Byte) (s : Nat)

theorem cbcEncrypt_eq_chain (c : List Byte) (ps : List (List Byte)) : cbcEncrypt E c ps = chain (fun c x => E (xorBytes c x)) c ps := by
  induction ps generalizing c with
  | nil => rfl
  | cons p ps ih => simp only [cbcEncrypt, chain, ih]

theorem cbcEncrypt_append (c : List Byte) (a b : List (List Byte)) :
    cbcEncrypt E c (a ++ b) = cbcEncrypt E c a ++ cbcEncrypt E ((cbcEncrypt E c a).getLastD c) b := by
  induction a generalizing c with
  | nil => rfl
  | cons p ps ih =>
    simp only [List.cons_append, cbcEncrypt, ih, List.getLastD_cons]

theorem cbcDecrypt_append (c : List Byte) (a b : List (List Byte)) :
    cbcDecrypt D c (a ++ b) = cbcDecrypt D c a ++ cbcDecrypt D (a.getLastD c) b := by
  induction a generalizing c with
  | nil => rfl
  | cons p ps ih =>
    simp only [List.cons_append, cbcDecrypt, ih, List.getLastD_cons]

theorem cbcDecrypt_blocksOf (n : Nat) (g : Nat → List Byte) :
    (cbcDecrypt D (g 0) ((List.range n).map fun k => g (k + 1))).flatten = blocksOf n (fun k => xorBytes (D (g (k + 1))) (g k)) := by
  induction n generalizing g with
  | zero => simp [cbcDecrypt, blocksOf]
  | succ n ih =>
    rw [List.range_succ_eq_map, List.map_cons, List.map_map, blocksOf_succ]
    simp only [cbcDecrypt, List.flatten_cons]
    congr 1
    exact ih (fun k => g (k + 1))

theorem cbcEncrypt_block_length (hE : ∀ b, b.length = s → (E b).length = s) (c : List Byte) (ps : List (List Byte)) (hc : c.length = s) (hp : ∀ p ∈ ps, p.length = s) :
    ∀ x ∈ cbcEncrypt E c ps, x.length = s := by
  induction ps generalizing c with
  | nil => intro x hx; cases hx
  | cons p ps ih =>
    intro x hx
    have hl : (E (xorBytes c p)).length = s := hE _ (by rw [xorBytes_length, hc, hp p (by simp)]; omega)
    simp only [cbcEncrypt, List.mem_cons] at hx
    rcases hx with rfl | hx
    · exact hl
    · exact ih _ hl (fun q hq => hp q (by simp [hq])) x hx

/-- CBC decryption inverts CBC encryption (on blocks). -/
theorem cbcDecrypt_cbcEncrypt (hE : ∀ b, b.length = s → (E b).length = s) (hDE : ∀ b, b.length = s → D (E b) = b)
    (c : List Byte) (ps : List (List Byte)) (hc : c.length = s) (hp : ∀ p ∈ ps, p.length = s) : cbcDecrypt D c (cbcEncrypt E c ps) = ps := by
  induction ps generalizing c with
  | nil => rfl
  | cons p ps ih =>
    have hpl := hp p (by simp)
    have hx : (xorBytes c p).length = s := by rw [xorBytes_length, hc, hpl]; omega
    simp only [cbcEncrypt, cbcDecrypt]
    rw [ih _ (hE _ hx) (fun q hq => hp q (by simp [hq])), hDE _ hx, xorBytes_comm c p, xorBytes_cancel _ _ (by omega)]

theorem getLastD_flatten (s : Nat) (c : List Byte) (xs : List (List Byte)) (h : ∀ x ∈ xs, x.length = s) (hne : xs ≠ []) :
    xs.getLastD c = xs.flatten.drop (xs.flatten.length - s) := by
  obtain ⟨l, a, rfl⟩ : ∃ l a, xs = l ++ [a] := ⟨xs.dropLast, xs.getLast hne, (List.dropLast_concat_getLast hne).symm⟩
  have ha : a.length = s := h a (by simp)
  simp only [List.getLastD_concat, List.flatten_append, List.flatten_cons, List.flatten_nil, List.append_nil, List.length_append]
  rw [List.drop_left' (by omega)]

/-- The effect of one encryption call. -/
theorem cbcEncData_spec (hs : 0 < s) (hE : ∀ b, b.length = s → (E b).length = s) (m : Mem) (r outP inP n : Nat)
    (h1 : inP = outP ∨ inP + n * s ≤ outP ∨ outP + n * s ≤ inP) (h2 : inP + n * s ≤ r ∨ r + s ≤ inP) (h3 : outP + n * s ≤ r ∨ r + s ≤ outP) :
    ∃ m', cbcEncData E s m r outP inP (n * s) = .ok m' ∧
      load m' outP (n * s) = (cbcEncrypt E (load m r s) (chunks s (load m inP (n * s)))).flatten ∧
      load m' r s = (cbcEncrypt E (load m r s) (chunks s (load m inP (n * s)))).getLastD (load m r s) ∧
      ∀ a, (a < outP ∨ outP + n * s ≤ a) → (a < r ∨ r + s ≤ a) → m' a = m a := by
  cases n with
  | zero =>
    refine ⟨m, by simp [cbcEncData], ?_, ?_, fun _ _ _ => rfl⟩ <;> simp [cbcEncrypt]
  | succ n =>
    have hmul : (n + 1) * s = s + n * s := by rw [Nat.succ_mul]; omega
    have hne : (n + 1) * s ≠ 0 := by omega
    -- first block
    obtain ⟨B, hB⟩ : ∃ B, E (xorBytes (load m r s) (load m inP s)) = B := ⟨_, rfl⟩
    have hBl : B.length = s := by rw [← hB]; exact hE _ (by simp)
    have hf : apb E s m inP (some r) outP s { xorInput := true } = .ok (store m outP B) := by
      simp only [apb, Bool.false_eq_true, if_false, Nat.div_self hs, apbLoop, apbStep, if_true, hB]
    obtain ⟨c1, c2⟩ := chainLoop_spec (fun c x => E (xorBytes c x)) s (fun c x hc hx => hE _ (by rw [xorBytes_length, hc, hx]; omega))
      n (store m outP B) (inP + s) outP (by omega)
    have hsub : (n + 1) * s - s = n * s := by omega
    have hsec : (if (n + 1) * s > s then apb E s (store m outP B) (inP + s) (some outP) (outP + s) ((n + 1) * s - s) { xorInput := true }
        else .ok (store m outP B) : Except Err Mem) = .ok (chainLoop (fun c x => E (xorBytes c x)) s n (store m outP B) (inP + s) outP) := by
      by_cases hn : n = 0
      · subst hn; rw [if_neg (by omega)]; rfl
      · have : 0 < n * s := Nat.mul_pos (by omega) hs
        rw [if_pos (by omega), hsub, apb]
        simp only [Bool.false_eq_true, if_false]
        rw [Nat.mul_div_cancel _ hs, apbLoop_cbc]
    rw [load_store' _ _ _ _ hBl] at c1
    generalize hm2 : chainLoop (fun c x => E (xorBytes c x)) s n (store m outP B) (inP + s) outP = m2 at c1 c2 hsec
    have hdata : (List.range n).map (fun k => load (store m outP B) (inP + s + k * s) s) = chunks s (load m (inP + s) (n * s)) := by
      rw [load_chunks _ _ _ _ hs]
      apply List.map_congr_left
      intro k hk
      have hk := List.mem_range.mp hk
      have hk' : k * s + s ≤ n * s := by rw [← Nat.succ_mul]; exact Nat.mul_le_mul_right s hk
      exact load_store_disj _ _ _ _ _ (by omega)
    rw [hdata, ← cbcEncrypt_eq_chain] at c1
    have hchunks : chunks s (load m inP ((n + 1) * s)) = load m inP s :: chunks s (load m (inP + s) (n * s)) := by
      rw [hmul, load_add, chunks_append_block s hs _ _ (by simp)]
    have hout : load m2 outP ((n + 1) * s) = (cbcEncrypt E (load m r s) (chunks s (load m inP ((n + 1) * s)))).flatten := by
      rw [hchunks]
      simp only [cbcEncrypt, hB, List.flatten_cons]
      rw [hmul, load_add, c1]
      congr 1
      rw [show load m2 outP s = load (store m outP B) outP s from load_congr _ _ _ _ (fun i hi => c2 _ (by omega))]
      exact load_store' _ _ _ _ hBl
    refine ⟨store m2 r (load m2 (outP + ((n + 1) * s - s)) s), ?_, ?_, ?_, ?_⟩
    · unfold cbcEncData
      rw [if_neg hne, hf]
      simp only [bind, Except.bind, hsec]
    · rw [load_store_disj _ _ _ _ _ (by simp; omega), hout]
    · rw [load_store' _ _ _ _ (by simp)]
      rw [getLastD_flatten s _ _ (cbcEncrypt_block_length E s hE _ _ (by simp) (chunks_block_length s hs _ (by simp))) (by rw [hchunks]; simp [cbcEncrypt])]
      rw [← hout, load_length, load_drop _ _ _ _ (by omega)]
      congr 1
      omega
    · intro a ha1 ha2
      rw [store_out _ _ _ _ (by simp; omega), c2 a (by omega), store_out _ _ _ _ (by omega)]

/-- The effect of one decryption call. -/
theorem cbcDecData_spec (hs : 0 < s) (hD : ∀ b, b.length = s → (D b).length = s) (m : Mem) (o : DecObj) (outP inP n : Nat)
    (h1 : inP = outP ∨ inP + n * s ≤ outP ∨ outP + n * s ≤ inP) (h2 : inP + n * s ≤ o.r ∨ o.r + s ≤ inP) (h3 : outP + n * s ≤ o.r ∨ o.r + s ≤ outP)
    (h4 : inP + n * s ≤ o.t ∨ o.t + s ≤ inP) (h5 : outP + n * s ≤ o.t ∨ o.t + s ≤ outP) (h6 : o.r + s ≤ o.t ∨ o.t + s ≤ o.r) :
    ∃ m' o', cbcDecData D s m o outP inP (n * s) = .ok (m', o') ∧ (o' = o ∨ o' = ⟨o.t, o.r⟩) ∧
      load m' outP (n * s) = (cbcDecrypt D (load m o.r s) (chunks s (load m inP (n * s)))).flatten ∧
      load m' o'.r s = (chunks s (load m inP (n * s))).getLastD (load m o.r s) ∧
      ∀ a, (a < outP ∨ outP + n * s ≤ a) → (a < o.t ∨ o.t + s ≤ a) → m' a = m a := by
  cases n with
  | zero => exact ⟨m, o, by simp [cbcDecData], .inl rfl, by simp [cbcDecrypt], by simp, fun _ _ _ => rfl⟩
  | succ n =>
    have hmul : (n + 1) * s = s + n * s := by rw [Nat.succ_mul]; omega
    have hne : (n + 1) * s ≠ 0 := by omega
    have hsub : (n + 1) * s - s = n * s := by omega
    obtain ⟨m1, hm1⟩ : ∃ m1, store m o.t (load m (inP + n * s) s) = m1 := ⟨_, rfl⟩
    obtain ⟨m2, r1, r2, r3⟩ := apb_reverse D s hD (inP + s) inP (outP + s) n m1 (by omega) (by omega)
    have hsec : (if (n + 1) * s > s then apb D s m1 (inP + s) (some inP) (outP + s) ((n + 1) * s - s) { reverse := true }
        else .ok m1 : Except Err Mem) = .ok m2 := by
      by_cases hn : n = 0
      · subst hn
        rw [if_neg (by omega)]
        have : m2 = m1 := by funext a; exact r3 a (by omega)
        rw [this]
      · have : 0 < n * s := Nat.mul_pos (by omega) hs
        rw [if_pos (by omega), hsub, r1]
    have hin : ∀ k, k ≤ n → load m1 (inP + k * s) s = load m (inP + k * s) s := by
      intro k hk
      have hk' : k * s ≤ n * s := Nat.mul_le_mul_right s hk
      rw [← hm1]
      exact load_store_disj _ _ _ _ _ (by simp; omega)
    have hreg : load m2 o.r s = load m o.r s := by
      rw [show load m2 o.r s = load m1 o.r s from load_congr _ _ _ _ (fun i hi => r3 _ (by omega)), ← hm1]
      exact load_store_disj _ _ _ _ _ (by simp; omega)
    have hin0 : load m2 inP s = load m inP s := by
      rw [show load m2 inP s = load m1 inP s from load_congr _ _ _ _ (fun i hi => r3 _ (by omega))]
      simpa using hin 0 (by omega)
    obtain ⟨B, hB⟩ : ∃ B, xorBytes (D (load m inP s)) (load m o.r s) = B := ⟨_, rfl⟩
    have hBl : B.length = s := by rw [← hB, xorBytes_length, hD _ (by simp), load_length]; omega
    have hch : chunks s (load m inP ((n + 1) * s)) = (List.range (n + 1)).map fun k => load m (inP + k * s) s := load_chunks _ _ _ _ hs
    refine ⟨store m2 outP B, ⟨o.t, o.r⟩, ?_, .inr rfl, ?_, ?_, ?_⟩
    · unfold cbcDecData
      rw [if_neg hne]
      rw [← hsub] at hm1
      simp only [hm1, hsec, bind, Except.bind, hin0, hreg, hB]
    · rw [hch, List.range_succ_eq_map, List.map_cons, List.map_map]
      simp only [cbcDecrypt, Nat.zero_mul, Nat.add_zero, hB, List.flatten_cons]
      rw [hmul, load_add, load_store' _ _ _ _ hBl]
      congr 1
      rw [load_store_disj _ _ _ _ _ (by omega), r2]
      have := cbcDecrypt_blocksOf D n (fun k => load m (inP + k * s) s)
      simp only [Nat.zero_mul, Nat.add_zero] at this
      rw [show ((fun k => load m (inP + k * s) s) ∘ Nat.succ) = fun k => load m (inP + (k + 1) * s) s from rfl, this]
      apply blocksOf_congr
      intro k hk
      have e : inP + s + k * s = inP + (k + 1) * s := by rw [Nat.succ_mul]; omega
      rw [e, hin (k + 1) (by omega), hin k (by omega)]
    · have hl : load (store m2 outP B) o.t s = load m (inP + n * s) s := by
        rw [load_store_disj _ _ _ _ _ (by omega)]
        rw [show load m2 o.t s = load m1 o.t s from load_congr _ _ _ _ (fun i hi => r3 _ (by omega)), ← hm1]
        exact load_store' _ _ _ _ (by simp)
      rw [hl, hch, List.range_succ, List.map_append, List.map_cons, List.map_nil, List.getLastD_concat]
    · intro a ha1 ha2
      rw [store_out _ _ _ _ (by omega), r3 a (by omega), ← hm1, store_out _ _ _ _ (by simp; omega)]

/-- A history of encryption calls. -/
theorem runEnc_spec (hs : 0 < s) (hE : ∀ b, b.length = s → (E b).length = s) (r : Nat) (cs : List Call) :
    ∀ (m : Mem), (∀ c ∈ cs, c.Fits r (r + s) ∧ c.data.length % s = 0) →
    ∃ outs m', runEnc E s r m cs = .ok (outs, m') ∧
      outs.flatten = (cbcEncrypt E (load m r s) (chunks s (cs.map Call.data).flatten)).flatten ∧
      load m' r s = (cbcEncrypt E (load m r s) (chunks s (cs.map Call.data).flatten)).getLastD (load m r s) := by
  induction cs with
  | nil => intro m _; exact ⟨[], m, rfl, by simp [cbcEncrypt], by simp [cbcEncrypt]⟩
  | cons c cs ih =>
    intro m h
    obtain ⟨⟨f1, f2, f3⟩, hl⟩ := h c (by simp)
    obtain ⟨n, hn⟩ : ∃ n, c.data.length = n * s := ⟨c.data.length / s, by rw [Nat.div_mul_cancel (Nat.dvd_of_mod_eq_zero hl)]⟩
    rw [hn] at f1 f2 f3
    obtain ⟨m1, e1, e2, e3, _⟩ := cbcEncData_spec E s hs hE (store m c.inP c.data) r c.outP c.inP n f1 f2 f3
    have hr0 : load (store m c.inP c.data) r s = load m r s := load_store_disj _ _ _ _ _ (by omega)
    rw [hr0, load_store' _ _ _ _ hn] at e2 e3
    obtain ⟨outs, m', i1, i2, i3⟩ := ih m1 (fun d hd => h d (by simp [hd]))
    refine ⟨load m1 c.outP c.data.length :: outs, m', ?_, ?_, ?_⟩
    · simp only [runEnc, hn, e1, bind, Except.bind, i1]
    · rw [List.flatten_cons, hn, e2, i2, e3, List.map_cons, List.flatten_cons, chunks_append s hs _ _ hl, cbcEncrypt_append, List.flatten_append]
    · rw [i3, e3, List.map_cons, List.flatten_cons, chunks_append s hs _ _ hl, cbcEncrypt_append]
      generalize cbcEncrypt E (load m r s) (chunks s c.data) = a
      generalize cbcEncrypt E (a.getLastD (load m r s)) _ = b
      rcases b.eq_nil_or_concat with rfl | ⟨b', x, rfl⟩
      · simp
      · rw [List.concat_eq_append, List.getLastD_concat, ← List.append_assoc, List.getLastD_concat]

/-- A history of decryption calls. The object's two blocks are in `[lo, hi)`. -/
theorem runDec_spec (hs : 0 < s) (hD : ∀ b, b.length = s → (D b).length = s) (lo hi : Nat) (cs : List Call) :
    ∀ (m : Mem) (o : DecObj), (∀ c ∈ cs, c.Fits lo hi ∧ c.data.length % s = 0) →
    lo ≤ o.r → o.r + s ≤ hi → lo ≤ o.t → o.t + s ≤ hi → (o.r + s ≤ o.t ∨ o.t + s ≤ o.r) →
    ∃ outs m' o', runDec D s o m cs = .ok (outs, m', o') ∧
      outs.flatten = (cbcDecrypt D (load m o.r s) (chunks s (cs.map Call.data).flatten)).flatten ∧
      load m' o'.r s = (chunks s (cs.map Call.data).flatten).getLastD (load m o.r s) ∧
      lo ≤ o'.r ∧ o'.r + s ≤ hi ∧ lo ≤ o'.t ∧ o'.t + s ≤ hi ∧ (o'.r + s ≤ o'.t ∨ o'.t + s ≤ o'.r) := by
  induction cs with
  | nil => intro m o _ a b c d e; exact ⟨[], m, o, rfl, by simp [cbcDecrypt], by simp, a, b, c, d, e⟩
  | cons c cs ih =>
    intro m o h b1 b2 b3 b4 b5
    obtain ⟨⟨f1, f2, f3⟩, hl⟩ := h c (by simp)
    obtain ⟨n, hn⟩ : ∃ n, c.data.length = n * s := ⟨c.data.length / s, by rw [Nat.div_mul_cancel (Nat.dvd_of_mod_eq_zero hl)]⟩
    rw [hn] at f1 f2 f3
    obtain ⟨m1, o1, e1, eo, e2, e3, _⟩ := cbcDecData_spec D s hs hD (store m c.inP c.data) o c.outP c.inP n f1 (by omega) (by omega) (by omega) (by omega) b5
    have hr0 : load (store m c.inP c.data) o.r s = load m o.r s := load_store_disj _ _ _ _ _ (by omega)
    rw [hr0, load_store' _ _ _ _ hn] at e2 e3
    have ho1 : lo ≤ o1.r ∧ o1.r + s ≤ hi ∧ lo ≤ o1.t ∧ o1.t + s ≤ hi ∧ (o1.r + s ≤ o1.t ∨ o1.t + s ≤ o1.r) := by
      rcases eo with rfl | rfl
      · exact ⟨b1, b2, b3, b4, b5⟩
      · exact ⟨b3, b4, b1, b2, b5.symm⟩
    obtain ⟨outs, m', o', i1, i2, i3, i4⟩ := ih m1 o1 (fun d hd => h d (by simp [hd])) ho1.1 ho1.2.1 ho1.2.2.1 ho1.2.2.2.1 ho1.2.2.2.2
    refine ⟨load m1 c.outP c.data.length :: outs, m', o', ?_, ?_, ?_, i4⟩
    · simp only [runDec, hn, e1, bind, Except.bind, i1]
    · rw [List.flatten_cons, hn, e2, i2, e3, List.map_cons, List.flatten_cons, chunks_append s hs _ _ hl, cbcDecrypt_append, List.flatten_append]
    · rw [i3, e3, List.map_cons, List.flatten_cons, chunks_append s hs _ _ hl]
      generalize chunks s c.data = a
      generalize chunks s _ = b
      rcases b.eq_nil_or_concat with rfl | ⟨b', x, rfl⟩
      · simp
      · rw [List.concat_eq_append, List.getLastD_concat, ← List.append_assoc, List.getLastD_concat]

/-! ## Ciphertext stealing -/

theorem xorBytes_prefix (x q : List Byte) (h : q.length ≤ x.length) :
    xorBytes (x.take q.length) q ++ x.drop q.length = xorBytes x (q ++ List.replicate (x.length - q.length) 0) := by
  have e : x = x.take q.length ++ x.drop q.length := (List.take_append_drop _ _).symm
  generalize hk : x.length - q.length = k
  have hd : (x.drop q.length).length = k := by simp [hk]
  have ht : (x.take q.length).length = q.length := by simp; omega
  conv => rhs; rw [e]
  rw [xorBytes_append _ _ _ _ ht]
  congr 1
  generalize x.drop q.length = y at hd ⊢
  subst hd
  clear e ht hk h
  induction y with
  | nil => rfl
  | cons b y ih =>
    simp only [List.length_cons, List.replicate_succ, xorBytes, List.zipWith_cons_cons] at ih ⊢
    rw [← ih]
    congr 1
    exact (BitVec.xor_zero).symm

/-- `xorbuf` on the first `k` bytes of a block in memory. -/
theorem load_xorbuf (m : Mem) (buf mask k : Nat) (hk : k ≤ s) :
    load (xorbuf m buf mask k) buf s = xorBytes (load m buf s) (load m mask k ++ List.replicate (s - k) 0) := by
  have h := xorBytes_prefix (load m buf s) (load m mask k) (by simp; omega)
  simp only [load_length] at h
  rw [← h, load_take _ _ _ _ hk, load_drop _ _ _ _ hk]
  obtain ⟨j, rfl⟩ := Nat.exists_eq_add_of_le hk
  unfold xorbuf
  rw [load_add, load_store' _ _ _ _ (by simp), load_store_disj _ _ _ _ _ (by simp), Nat.add_sub_cancel_left]

theorem xorbuf_out (m : Mem) (buf mask k a : Nat) (h : a < buf ∨ buf + k ≤ a) : xorbuf m buf mask k a = m a :=
  store_out _ _ _ _ (by simp; omega)

theorem load_xorbuf_disj (m : Mem) (buf mask k c n : Nat) (h : buf + k ≤ c ∨ c + n ≤ buf) : load (xorbuf m buf mask k) c n = load m c n :=
  load_store_disj _ _ _ _ _ (by simp; omega)

theorem load_copy (m : Mem) (dst src n : Nat) : load (copy m dst src n) dst n = load m src n := load_store' _ _ _ _ (by simp)

theorem load_copy_disj (m : Mem) (dst src n c k : Nat) (h : dst + n ≤ c ∨ c + k ≤ dst) : load (copy m dst src n) c k = load m c k :=
  load_store_disj _ _ _ _ _ (by simp; omega)

theorem copy_out (m : Mem) (dst src n a : Nat) (h : a < dst ∨ dst + n ≤ a) : copy m dst src n a = m a :=
  store_out _ _ _ _ (by simp; omega)

/-- The last bytes, more than a block and at most two, when the buffers do not overlap. -/
theorem ctsEncLast_long (hs : 0 < s) (hE : ∀ b, b.length = s → (E b).length = s) (m : Mem) (r : Nat) (iv : Option Nat) (outP inP k : Nat) (hk0 : 0 < k) (hk : k ≤ s)
    (h1 : inP + (s + k) ≤ outP ∨ outP + (s + k) ≤ inP) (h2 : inP + (s + k) ≤ r ∨ r + s ≤ inP) (h3 : outP + (s + k) ≤ r ∨ r + s ≤ outP) :
    ∃ m', ctsEncLast E s m r iv outP inP (s + k) = .ok (m', s + k) ∧
      load m' outP (s + k) = ctsEncrypt E s (load m r s) (load m inP s) (load m (inP + s) k) := by
  unfold ctsEncLast
  rw [if_neg (by omega)]
  simp only [Nat.add_sub_cancel_left]
  rw [if_neg (by omega)]
  refine ⟨_, rfl, ?_⟩
  have hx : load (xorbuf m r inP s) r s = xorBytes (load m r s) (load m inP s) := by
    rw [load_xorbuf s m r inP s (Nat.le_refl _)]; simp
  rw [hx]
  obtain ⟨x, hxdef⟩ : ∃ x, E (xorBytes (load m r s) (load m inP s)) = x := ⟨_, rfl⟩
  have hxl : x.length = s := by rw [← hxdef]; exact hE _ (by simp)
  rw [hxdef]
  obtain ⟨m1, hm1⟩ : ∃ m1, store (xorbuf m r inP s) r x = m1 := ⟨_, rfl⟩
  rw [hm1]
  have a1 : load m1 r s = x := by rw [← hm1]; exact load_store' _ _ _ _ hxl
  have a2 : load m1 (inP + s) k = load m (inP + s) k := by
    rw [← hm1, load_store_disj _ _ _ _ _ (by omega), load_xorbuf_disj _ _ _ _ _ _ (by omega)]
  obtain ⟨m2, hm2⟩ : ∃ m2, copy m1 (outP + s) r k = m2 := ⟨_, rfl⟩
  rw [hm2]
  have b1 : load m2 (outP + s) k = x.take k := by rw [← hm2, load_copy, ← a1, load_take _ _ _ _ hk]
  have b2 : load m2 r s = x := by rw [← hm2, load_copy_disj _ _ _ _ _ _ (by omega), a1]
  have b3 : load m2 (inP + s) k = load m (inP + s) k := by rw [← hm2, load_copy_disj _ _ _ _ _ _ (by omega), a2]
  have hy : load (xorbuf m2 r (inP + s) k) r s = xorBytes x (load m (inP + s) k ++ List.replicate (s - k) 0) := by
    rw [load_xorbuf s _ _ _ _ hk, b2, b3]
  rw [hy]
  obtain ⟨y, hydef⟩ : ∃ y, E (xorBytes x (load m (inP + s) k ++ List.replicate (s - k) 0)) = y := ⟨_, rfl⟩
  have hyl : y.length = s := by rw [← hydef]; exact hE _ (by simp [hxl]; omega)
  rw [hydef]
  unfold ctsEncrypt
  simp only [load_length, hxdef, hydef]
  rw [load_add, load_copy, load_store' _ _ _ _ hyl]
  congr 1
  rw [load_copy_disj _ _ _ _ _ _ (by omega), load_store_disj _ _ _ _ _ (by omega), load_xorbuf_disj _ _ _ _ _ _ (by omega), b1]

/-- Decryption of the last bytes. -/
theorem ctsDecLast_long (hs : 0 < s) (hE : ∀ b, b.length = s → (E b).length = s) (hDE : ∀ b, b.length = s → D (E b) = b) (m : Mem) (o : DecObj) (outP inP k : Nat)
    (p q : List Byte) (hp : p.length = s) (hq : q.length = k) (hk0 : 0 < k) (hk : k ≤ s)
    (hin : load m inP (s + k) = ctsEncrypt E s (load m o.r s) p q)
    (h1 : inP + (s + k) ≤ outP ∨ outP + (s + k) ≤ inP) (h2 : inP + (s + k) ≤ o.r ∨ o.r + s ≤ inP) (h3 : outP + (s + k) ≤ o.r ∨ o.r + s ≤ outP)
    (h4 : inP + (s + k) ≤ o.t ∨ o.t + s ≤ inP) (h5 : outP + (s + k) ≤ o.t ∨ o.t + s ≤ outP) (h6 : o.r + s ≤ o.t ∨ o.t + s ≤ o.r) :
    ∃ m', ctsDecLast D s m o outP inP (s + k) = .ok (m', s + k) ∧ load m' outP (s + k) = p ++ q := by
  unfold ctsDecLast
  rw [if_neg (by omega)]
  simp only [Nat.add_sub_cancel_left]
  rw [if_neg (by omega)]
  refine ⟨_, rfl, ?_⟩
  obtain ⟨x, hxdef⟩ : ∃ x, E (xorBytes (load m o.r s) p) = x := ⟨_, rfl⟩
  have hx0 : (xorBytes (load m o.r s) p).length = s := by rw [xorBytes_length, load_length, hp]; omega
  have hxl : x.length = s := by rw [← hxdef]; exact hE _ hx0
  obtain ⟨z, hz⟩ : ∃ z, xorBytes x (q ++ List.replicate (s - k) 0) = z := ⟨_, rfl⟩
  have hzl : z.length = s := by rw [← hz, xorBytes_length, hxl]; simp [hq]; omega
  unfold ctsEncrypt at hin
  simp only [hxdef, hq, hz] at hin
  rw [load_add] at hin
  obtain ⟨i1, i2⟩ := List.append_inj hin (by rw [load_length, hE _ hzl])
  -- memory after the first block is decrypted
  have t1 : load (copy m o.t inP s) o.t s = E z := by rw [load_copy, i1]
  rw [t1, hDE _ hzl]
  obtain ⟨m1, hm1⟩ : ∃ m1, store (copy m o.t inP s) o.t z = m1 := ⟨_, rfl⟩
  rw [hm1]
  have a1 : load m1 o.t s = z := by rw [← hm1]; exact load_store' _ _ _ _ hzl
  have a2 : load m1 (inP + s) k = x.take k := by
    rw [← hm1, load_store_disj _ _ _ _ _ (by omega), load_copy_disj _ _ _ _ _ _ (by omega), i2]
  have a3 : load m1 o.r s = load m o.r s := by
    rw [← hm1, load_store_disj _ _ _ _ _ (by omega), load_copy_disj _ _ _ _ _ _ (by omega)]
  -- the partial plaintext, followed by the rest of `x`
  have hqx : xorBytes z (x.take k ++ List.replicate (s - k) 0) = q ++ x.drop k := by
    have e := xorBytes_prefix x q (by omega)
    rw [hq, hxl] at e
    rw [← hz, ← e]
    rw [xorBytes_append _ _ _ _ (by simp [hq])]
    congr 1
    · rw [xorBytes_comm (x.take k) q, xorBytes_cancel _ _ (by simp; omega)]
    · have e2 := xorBytes_prefix (x.drop k) [] (by simp)
      simp only [List.length_nil, List.take_zero, List.drop_zero, List.nil_append, Nat.sub_zero, List.length_drop, hxl] at e2
      rw [← e2]; simp [xorBytes]
  obtain ⟨m2, hm2⟩ : ∃ m2, xorbuf m1 o.t (inP + s) k = m2 := ⟨_, rfl⟩
  rw [hm2]
  have b1 : load m2 o.t s = q ++ x.drop k := by rw [← hm2, load_xorbuf s _ _ _ _ hk, a1, a2, hqx]
  have b2 : load m2 (inP + s) k = x.take k := by rw [← hm2, load_xorbuf_disj _ _ _ _ _ _ (by omega), a2]
  have b3 : load m2 o.r s = load m o.r s := by rw [← hm2, load_xorbuf_disj _ _ _ _ _ _ (by omega), a3]
  have b4 : load m2 o.t k = q := by
    have := congrArg (List.take k) b1
    rw [load_take _ _ _ _ hk, List.take_left' hq] at this
    exact this
  have b5 : load m2 (o.t + k) (s - k) = x.drop k := by
    have := congrArg (List.drop k) b1
    rw [load_drop _ _ _ _ hk, List.drop_left' hq] at this
    exact this
  obtain ⟨m3, hm3⟩ : ∃ m3, copy m2 (outP + s) o.t k = m3 := ⟨_, rfl⟩
  rw [hm3]
  have c1 : load m3 (outP + s) k = q := by rw [← hm3, load_copy, b4]
  have c2 : load m3 (inP + s) k = x.take k := by rw [← hm3, load_copy_disj _ _ _ _ _ _ (by omega), b2]
  have c3 : load m3 o.r s = load m o.r s := by rw [← hm3, load_copy_disj _ _ _ _ _ _ (by omega), b3]
  have c4 : load m3 (o.t + k) (s - k) = x.drop k := by rw [← hm3, load_copy_disj _ _ _ _ _ _ (by omega), b5]
  obtain ⟨m4, hm4⟩ : ∃ m4, copy m3 o.t (inP + s) k = m4 := ⟨_, rfl⟩
  rw [hm4]
  have d1 : load m4 o.t s = x := by
    have e : s = k + (s - k) := by omega
    rw [e, load_add, ← hm4, load_copy, c2, load_copy_disj _ _ _ _ _ _ (by omega), c4]
    exact List.take_append_drop _ _
  have d2 : load m4 (outP + s) k = q := by rw [← hm4, load_copy_disj _ _ _ _ _ _ (by omega), c1]
  have d3 : load m4 o.r s = load m o.r s := by rw [← hm4, load_copy_disj _ _ _ _ _ _ (by omega), c3]
  have d4 : D x = xorBytes (load m o.r s) p := by rw [← hxdef, hDE _ hx0]
  rw [d1, d4]
  obtain ⟨m5, hm5⟩ : ∃ m5, store m4 o.t (xorBytes (load m o.r s) p) = m5 := ⟨_, rfl⟩
  rw [hm5]
  have f1 : load m5 o.t s = xorBytes (load m o.r s) p := by rw [← hm5]; exact load_store' _ _ _ _ hx0
  have f2 : load m5 (outP + s) k = q := by rw [← hm5, load_store_disj _ _ _ _ _ (by omega), d2]
  have f3 : load m5 o.r s = load m o.r s := by rw [← hm5, load_store_disj _ _ _ _ _ (by omega), d3]
  have f4 : xorBytes (xorBytes (load m o.r s) p) (load m o.r s) = p := by
    rw [xorBytes_comm (load m o.r s) p, xorBytes_cancel _ _ (by simp; omega)]
  rw [f1, f3, f4, load_add, load_store' _ _ _ _ hp, load_store_disj _ _ _ _ _ (by omega), f2]

/-- A message of at most a block, stealing from the IV. -/
theorem ctsEncLast_short (hE : ∀ b, b.length = s → (E b).length = s) (m : Mem) (r iv outP inP k : Nat) (hk : k ≤ s)
    (h1 : inP + k ≤ outP ∨ outP + k ≤ inP) (h2 : inP + k ≤ r ∨ r + s ≤ inP) (h3 : outP + k ≤ r ∨ r + s ≤ outP)
    (h4 : iv + s ≤ outP ∨ outP + k ≤ iv) :
    ∃ m', ctsEncLast E s m r (some iv) outP inP k = .ok (m', k) ∧ load m' outP k = (load m r s).take k ∧
      load m' iv s = E (xorBytes (load m r s) (load m inP k ++ List.replicate (s - k) 0)) := by
  unfold ctsEncLast
  rw [if_pos hk]
  refine ⟨_, rfl, ?_, ?_⟩
  · rw [load_copy_disj _ _ _ _ _ _ (by omega), load_store_disj, load_xorbuf_disj _ _ _ _ _ _ (by omega), load_copy, load_take _ _ _ _ hk]
    have : (E (load (xorbuf (copy m outP r k) r inP k) r s)).length = s := hE _ (by simp)
    omega
  · have e : load (xorbuf (copy m outP r k) r inP k) r s = xorBytes (load m r s) (load m inP k ++ List.replicate (s - k) 0) := by
      rw [load_xorbuf s _ _ _ _ hk, load_copy_disj _ _ _ _ _ _ (by omega), load_copy_disj _ _ _ _ _ _ (by omega)]
    simp only [e]
    rw [load_copy, load_store' _ _ _ _ (hE _ (by simp; omega))]

theorem ctsDecLast_short (hE : ∀ b, b.length = s → (E b).length = s) (hDE : ∀ b, b.length = s → D (E b) = b) (m : Mem) (o : DecObj) (outP inP k : Nat)
    (iv q : List Byte) (hiv : iv.length = s) (hq : q.length = k) (hk : k ≤ s) (hin : load m inP k = iv.take k)
    (hreg : load m o.r s = E (xorBytes iv (q ++ List.replicate (s - k) 0)))
    (h4 : inP + k ≤ o.t ∨ o.t + s ≤ inP) :
    ∃ m', ctsDecLast D s m o outP inP k = .ok (m', k) ∧ load m' outP k = q := by
  unfold ctsDecLast
  rw [if_pos hk]
  refine ⟨_, rfl, ?_⟩
  have hl : (xorBytes iv (q ++ List.replicate (s - k) 0)).length = s := by rw [xorBytes_length, hiv]; simp [hq]; omega
  rw [load_copy]
  have e1 : load (copy m o.t o.r s) o.t s = E (xorBytes iv (q ++ List.replicate (s - k) 0)) := by rw [load_copy, hreg]
  rw [e1, hDE _ hl]
  obtain ⟨m1, hm1⟩ : ∃ m1, store (copy m o.t o.r s) o.t (xorBytes iv (q ++ List.replicate (s - k) 0)) = m1 := ⟨_, rfl⟩
  rw [hm1]
  have a1 : load m1 o.t s = xorBytes iv (q ++ List.replicate (s - k) 0) := by rw [← hm1]; exact load_store' _ _ _ _ hl
  have a2 : load m1 inP k = iv.take k := by
    rw [← hm1, load_store_disj _ _ _ _ _ (by omega), load_copy_disj _ _ _ _ _ _ (by omega), hin]
  have a3 : load m1 o.t k = xorBytes (iv.take k) q := by
    rw [← load_take m1 o.t s k hk, a1, xorBytes_take, List.take_left' hq]
  unfold xorbuf
  rw [load_store' _ _ _ _ (by simp), a3, a2, xorBytes_comm (iv.take k) q, xorBytes_cancel _ _ (by simp; omega)]

end

end Verif.Modes
