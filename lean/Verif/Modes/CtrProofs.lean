import Verif.Modes.CtrModel
import Verif.Modes.Chain
import Verif.Stream.Props

namespace Verif.Modes

/-- Keystream byte `q` of CTR mode: byte `q mod s` of the encryption of block `iv + q / s`. -/
def ctrKeystream (E : List Byte → List Byte) (s : Nat) (iv : List Byte) : Mem :=
  fun q => (E (beBytes s (beVal iv + q / s))).getD (q % s) 0

/-- Keystream byte `q` of OFB mode: byte `q mod s` of the IV encrypted `q / s + 1` times. -/
def ofbKeystream (E : List Byte → List Byte) (s : Nat) (iv : List Byte) : Mem :=
  fun q => (Nat.repeat E (q / s + 1) iv).getD (q % s) 0

section
variable (E : List Byte → List Byte) (s : Nat)

theorem load_byBlocks (hs : 0 < s) (f : Nat → List Byte) (hf : ∀ k, (f k).length = s) (i n : Nat) :
    load (fun q => (f (q / s)).getD (q % s) 0) (i * s) (n * s) = blocksOf n (fun k => f (i + k)) := by
  rw [load_blocks]
  apply blocksOf_congr
  intro k _
  apply List.ext_getElem (by simp [hf])
  intro j h1 h2
  have hj : j < s := by simpa using h1
  simp only [load, List.getElem_map, List.getElem_range]
  have e : i * s + k * s + j = j + (i + k) * s := by rw [Nat.add_mul]; omega
  rw [e, Nat.add_mul_div_right _ _ hs, Nat.add_mul_mod_self_right, Nat.div_eq_of_lt hj, Nat.mod_eq_of_lt hj, Nat.zero_add,
    List.getD_eq_getElem?_getD, List.getElem?_eq_getElem h2]; rfl

theorem counter_snoc (hs : 0 < s) (V : Nat) : beBytes s V = beBytes (s - 1) (V / 256) ++ [BitVec.ofNat 8 V] := by
  obtain ⟨t, rfl⟩ : ∃ t, s = t + 1 := ⟨s - 1, by omega⟩
  exact beBytes_snoc t V

theorem ofNat8_add (a b : Nat) : (BitVec.ofNat 8 a : Byte) + BitVec.ofNat 8 b = BitVec.ofNat 8 (a + b) := by
  apply BitVec.eq_of_toNat_eq; simp [BitVec.toNat_add]

theorem counter_pre (pre : List Byte) (w : Nat) (hw : 0 < w) (V : Nat) : pre ++ beBytes w V = (pre ++ beBytes (w - 1) (V / 256)) ++ [BitVec.ofNat 8 V] := by
  rw [counter_snoc w hw V, List.append_assoc]

/-- `OperateKeystream`: `n` blocks of keystream, combined with the input if there is one, and the counter advanced by `n`.
Input and output are the same buffer or do not overlap. -/
theorem ctrOperate_gen (hs : 0 < s) (hE : ∀ b, b.length = s → (E b).length = s) (c : Nat) (inc : Mem → Nat → Mem) (pre : List Byte) (w : Nat) (hw : 0 < w) (hpre : pre.length + w = s)
    (hinc : ∀ (m : Mem) (X : Nat), load m c s = (pre ++ beBytes (w - 1) X) ++ [0] → load (inc m c) c s = (pre ++ beBytes (w - 1) (X + 1)) ++ [0] ∧ ∀ z, (z < c ∨ c + s ≤ z) → inc m c z = m z) (fuel : Nat) :
    ∀ (n : Nat) (m : Mem) (inP : Option Nat) (outP V : Nat), n ≤ fuel → load m c s = pre ++ beBytes w V → (c + s ≤ outP ∨ outP + n * s ≤ c) →
    (∀ x, inP = some x → (x = outP ∨ x + n * s ≤ outP ∨ outP + n * s ≤ x) ∧ (c + s ≤ x ∨ x + n * s ≤ c)) →
    ∃ m', ctrOperate E s inc fuel m c inP outP n = .ok m' ∧ load m' c s = pre ++ beBytes w (V + n) ∧
      load m' outP (n * s) = blocksOf n (fun k => xorIn m inP s k (E (pre ++ beBytes w (V + k)))) ∧
      ∀ z, (z < outP ∨ outP + n * s ≤ z) → (z < c ∨ c + s ≤ z) → m' z = m z := by
  induction fuel with
  | zero =>
    intro n m inP outP V hn hc _ _
    have : n = 0 := by omega
    subst this
    exact ⟨m, rfl, hc, by simp [blocksOf], fun _ _ _ => rfl⟩
  | succ fuel ih =>
    intro n m inP outP V hn hc hco hx
    cases n with
    | zero => exact ⟨m, by cases fuel <;> rfl, hc, by simp [blocksOf], fun _ _ _ => rfl⟩
    | succ n =>
      simp only [ctrOperate]
      have hlsb : m (c + s - 1) = BitVec.ofNat 8 V := by
        have h1 : (load m c s).getD (s - 1) 0 = m (c + (s - 1)) := by
          simp only [load, List.getD_eq_getElem?_getD]
          rw [List.getElem?_map, List.getElem?_range (by omega)]; rfl
        have h2 : ((pre ++ beBytes (w - 1) (V / 256)) ++ [BitVec.ofNat 8 V]).getD (s - 1) 0 = BitVec.ofNat 8 V := by
          have := getD_mid (pre ++ beBytes (w - 1) (V / 256)) (BitVec.ofNat 8 V) []
          rw [show (pre ++ beBytes (w - 1) (V / 256)).length = s - 1 by simp; omega] at this
          exact this
        rw [hc, counter_pre pre w hw, h2] at h1
        rw [h1]
        congr 1
        omega
      rw [hlsb]
      generalize hblk : min (n + 1) (256 - (BitVec.ofNat 8 V : Byte).toNat) = blocks
      have hlt : (BitVec.ofNat 8 V : Byte).toNat = V % 256 := by simp
      rw [hlt] at hblk ⊢
      have hb1 : 0 < blocks := by omega
      have hb2 : blocks ≤ n + 1 := by omega
      have hb3 : V % 256 + blocks ≤ 256 := by omega
      have hmulb : blocks * s ≤ (n + 1) * s := Nat.mul_le_mul_right s hb2
      obtain ⟨rest, hrest⟩ : ∃ rest, n + 1 = blocks + rest := ⟨n + 1 - blocks, by omega⟩
      have hmul : (n + 1) * s = blocks * s + rest * s := by rw [hrest, Nat.add_mul]
      have hapb : apb E s m c inP outP (blocks * s) { inBlockIsCounter := true } = .ok (apbLoop E s { inBlockIsCounter := true } blocks m c inP outP) := by
        simp only [apb, Bool.false_eq_true, if_false, Nat.mul_div_cancel _ hs]
      obtain ⟨l1, l2, l3⟩ := apbLoop_counter E s hE c blocks m inP outP (pre ++ beBytes (w - 1) (V / 256)) (BitVec.ofNat 8 V) (by simp; omega)
        (by rw [hc, counter_pre pre w hw]) (by omega) (by intro x hx'; have := hx x hx'; omega)
      rw [hapb]
      generalize apbLoop E s { inBlockIsCounter := true } blocks m c inP outP = m1 at l1 l2 l3 ⊢
      simp only [bind, Except.bind]
      -- the counter after the batch
      generalize hm2 : (if BitVec.ofNat 8 (V % 256 + blocks) = 0 then inc (store m1 (c + s - 1) [BitVec.ofNat 8 (V % 256 + blocks)]) c
        else store m1 (c + s - 1) [BitVec.ofNat 8 (V % 256 + blocks)]) = m2
      have hlast : load (store m1 (c + s - 1) [BitVec.ofNat 8 (V % 256 + blocks)]) c s = (pre ++ beBytes (w - 1) (V / 256)) ++ [BitVec.ofNat 8 (V + blocks)] := by
        have h1 : s = (s - 1) + 1 := by omega
        rw [h1, load_add] at l1 ⊢
        obtain ⟨h3, _⟩ := List.append_inj l1 (by simp; omega)
        rw [load_store_disj _ _ _ _ _ (by omega), h3, ← h1]
        congr 1
        have h4 : c + s - 1 = c + (s - 1) := by omega
        rw [h4, load_store' _ _ 1 [BitVec.ofNat 8 (V % 256 + blocks)] rfl]
        congr 1
        apply BitVec.eq_of_toNat_eq
        simp only [BitVec.toNat_ofNat]; omega
      have hc2 : load m2 c s = pre ++ beBytes w (V + blocks) := by
        rw [← hm2]
        have hz : BitVec.ofNat 8 (V % 256 + blocks) = (0 : Byte) ↔ V % 256 + blocks = 256 := by
          constructor
          · intro h
            have := congrArg BitVec.toNat h
            simp only [BitVec.toNat_ofNat] at this
            have z : (0 : Byte).toNat = 0 := rfl
            omega
          · intro h; rw [h]; rfl
        by_cases hw' : V % 256 + blocks = 256
        · rw [if_pos (hz.2 hw')]
          have hl := hlast
          rw [show (BitVec.ofNat 8 (V + blocks) : Byte) = 0 by apply BitVec.eq_of_toNat_eq; simp only [BitVec.toNat_ofNat]; show _ = 0; omega] at hl
          rw [(hinc _ _ hl).1, counter_pre pre w hw (V + blocks)]
          rw [show (BitVec.ofNat 8 (V + blocks) : Byte) = 0 by apply BitVec.eq_of_toNat_eq; simp only [BitVec.toNat_ofNat]; show _ = 0; omega, show (V + blocks) / 256 = V / 256 + 1 by omega]
        · rw [if_neg (mt hz.1 hw'), hlast, counter_pre pre w hw (V + blocks), show (V + blocks) / 256 = V / 256 by omega]
      have hout2 : ∀ z, (z < c ∨ c + s ≤ z) → m2 z = m1 z := by
        intro z hz
        rw [← hm2]
        have h1 : store m1 (c + s - 1) [BitVec.ofNat 8 (V % 256 + blocks)] z = m1 z := store_out _ _ _ _ (by simp; omega)
        by_cases hw' : (BitVec.ofNat 8 (V % 256 + blocks) : Byte) = 0
        · rw [if_pos hw']
          have hz0 : V % 256 + blocks = 256 := by
            have := congrArg BitVec.toNat hw'
            simp only [BitVec.toNat_ofNat] at this
            have z : (0 : Byte).toNat = 0 := rfl
            omega
          have hl := hlast
          rw [show (BitVec.ofNat 8 (V + blocks) : Byte) = 0 by apply BitVec.eq_of_toNat_eq; simp only [BitVec.toNat_ofNat]; show _ = 0; omega] at hl
          rw [(hinc _ _ hl).2 z hz, h1]
        · rw [if_neg hw', h1]
      obtain ⟨m', r1, r2, r3, r4⟩ := ih (n + 1 - blocks) m2 (inP.map (· + blocks * s)) (outP + blocks * s) (V + blocks) (by omega) hc2
        (by have : n + 1 - blocks = rest := by omega
            rw [this]; omega)
        (by
          have : n + 1 - blocks = rest := by omega
          rw [this]
          intro x hx'
          cases inP with
          | none => cases hx'
          | some y =>
            simp only [Option.map, Option.some.injEq] at hx'
            have := hx y rfl
            omega)
      have hrest' : n + 1 - blocks = rest := by omega
      rw [hrest'] at r1 r2 r3 r4 ⊢
      refine ⟨m', r1, by rw [r2]; congr 2; omega, ?_, ?_⟩
      · rw [hmul, load_add, r3, hrest, blocksOf_add]
        congr 1
        · rw [show load m' outP (blocks * s) = load m1 outP (blocks * s) from
            load_congr _ _ _ _ (fun i hi => by rw [r4 _ (by omega) (by omega), hout2 _ (by omega)]), l2]
          apply blocksOf_congr
          intro k hk
          have : (pre ++ beBytes (w - 1) (V / 256)) ++ [BitVec.ofNat 8 V + BitVec.ofNat 8 k] = pre ++ beBytes w (V + k) := by
            rw [counter_pre pre w hw (V + k), ofNat8_add, show (V + k) / 256 = V / 256 by omega]
          rw [this]
        · apply blocksOf_congr
          intro k hk
          have hk' : k * s + s ≤ rest * s := by rw [← Nat.succ_mul]; exact Nat.mul_le_mul_right s hk
          rw [Nat.add_assoc]
          cases inP with
          | none => rfl
          | some y =>
            have hy := hx y rfl
            simp only [xorIn, Option.map]
            have e : load m2 (y + blocks * s + k * s) s = load m (y + (blocks + k) * s) s := by
              have : y + blocks * s + k * s = y + (blocks + k) * s := by rw [Nat.add_mul]; omega
              rw [← this]
              apply load_congr
              intro i hi
              rw [hout2 _ (by omega), l3 _ (by omega) (by omega)]
            rw [e]
      · intro z hz1 hz2
        rw [r4 z (by omega) hz2, hout2 z hz2, l3 z (by omega) hz2]

/-- The same for a counter that runs through the whole block. -/
theorem ctrOperate_spec (hs : 0 < s) (hE : ∀ b, b.length = s → (E b).length = s) (c : Nat) (fuel : Nat) :
    ∀ (n : Nat) (m : Mem) (inP : Option Nat) (outP V : Nat), n ≤ fuel → load m c s = beBytes s V → (c + s ≤ outP ∨ outP + n * s ≤ c) →
    (∀ x, inP = some x → (x = outP ∨ x + n * s ≤ outP ∨ outP + n * s ≤ x) ∧ (c + s ≤ x ∨ x + n * s ≤ c)) →
    ∃ m', ctrOperate E s (incrementCounterBy256 s) fuel m c inP outP n = .ok m' ∧ load m' c s = beBytes s (V + n) ∧
      load m' outP (n * s) = blocksOf n (fun k => xorIn m inP s k (E (beBytes s (V + k)))) ∧
      ∀ z, (z < outP ∨ outP + n * s ≤ z) → (z < c ∨ c + s ≤ z) → m' z = m z := by
  intro n m inP outP V hn hc hco hx
  refine ctrOperate_gen E s hs hE c (incrementCounterBy256 s) [] s hs (by simp) ?_ fuel n m inP outP V hn hc hco hx
  intro m X hm
  rw [List.nil_append] at hm ⊢
  unfold incrementCounterBy256
  rw [hm, incrementCounterByOne_spec (s - 1) _ _ (by simp), beVal_beBytes, ← beBytes_mod, Nat.mod_add_mod, beBytes_mod]
  exact ⟨load_store' _ _ _ _ (by simp; omega), fun z hz => store_out _ _ _ _ (by simp; omega)⟩

theorem seekLoop_spec (reg : List Byte) : ∀ (i iter carry : Nat) (ctr : List Byte), i ≤ reg.length → i ≤ ctr.length →
    seekLoop reg i iter carry ctr = beBytes i (beVal (reg.take i) + iter + carry) ++ ctr.drop i := by
  intro i
  induction i with
  | zero => intro _ _ ctr _ _; simp [seekLoop]; rfl
  | succ i ih =>
    intro iter carry ctr h1 h2
    simp only [seekLoop]
    generalize hsum : (reg.getD i 0).toNat + iter % 256 + carry = sum
    rw [ih _ _ _ (by omega) (by simp; omega), beBytes_snoc]
    have ht : reg.take (i + 1) = reg.take i ++ [reg.getD i 0] := by
      rw [List.take_add_one, List.getD_eq_getElem?_getD, List.getElem?_eq_getElem (by omega)]; simp
    rw [ht, beVal_snoc]
    have e1 : (beVal (reg.take i) * 256 + (reg.getD i 0).toNat + iter + carry) / 256 = beVal (reg.take i) + iter / 256 + sum / 256 := by omega
    rw [e1, List.append_assoc]
    congr 1
    have hd : (ctr.set i (BitVec.ofNat 8 sum)).drop i = BitVec.ofNat 8 sum :: ctr.drop (i + 1) := by
      rw [List.drop_eq_getElem_cons (by simp; omega)]
      simp [List.drop_set]
    rw [hd, List.singleton_append]
    congr 1
    apply BitVec.eq_of_toNat_eq
    simp only [BitVec.toNat_ofNat]
    omega

theorem ivBytes_length {s : Nat} (v : IV s) : v.bytes.length = s := by
  cases v with
  | none => simp [IV.bytes]
  | some v => exact v.2

/-- The CTR policy satisfies the contract of `Verif.Stream`. -/
theorem ctr_ok (hs : 0 < s) (hE : ∀ b, b.length = s → (E b).length = s) (parallel : Nat) (hp : 0 < parallel) (lim : Nat) :
    (ctrPolicy E s parallel).Ok (fun v => ctrKeystream E s v.bytes)
      (fun v i p => p.register = v.bytes ∧ p.counter = beBytes s (beVal v.bytes + i)) lim where
  bpi_pos := hs
  iters_pos := hp
  write := by
    intro v i p n hr hn
    obtain ⟨m', h1, h2, h3, _⟩ := ctrOperate_spec E s hs hE 0 n n (store (fun _ => 0) 0 p.counter) none s (beVal v.bytes + i) (Nat.le_refl _)
      (by rw [load_store' _ _ _ _ (by rw [hr.2]; simp), hr.2]) (by omega) (by intro x hx; cases hx)
    simp only [ctrPolicy, h1]
    refine ⟨⟨hr.1, by rw [h2, Nat.add_assoc]⟩, ?_⟩
    rw [h3]
    unfold ctrKeystream
    rw [load_byBlocks s hs (fun k => E (beBytes s (beVal v.bytes + k))) (fun k => hE _ (by simp))]
    simp only [xorIn, Nat.add_assoc]
  operate := by
    intro v i p n x _ hr hn hx
    simp only [ctrPolicy] at hx
    obtain ⟨m', h1, h2, h3, _⟩ := ctrOperate_spec E s hs hE 0 n n (store (store (fun _ => 0) 0 p.counter) s x) (some s) s (beVal v.bytes + i) (Nat.le_refl _)
      (by rw [load_store_disj _ _ _ _ _ (by omega), load_store' _ _ _ _ (by rw [hr.2]; simp), hr.2]) (by omega)
      (by intro y hy; injection hy with hy; omega)
    simp only [ctrPolicy, h1]
    refine ⟨⟨hr.1, by rw [h2, Nat.add_assoc]⟩, ?_⟩
    rw [h3]
    unfold ctrKeystream
    rw [load_byBlocks s hs (fun k => E (beBytes s (beVal v.bytes + k))) (fun k => hE _ (by simp))]
    simp only [xorIn, Nat.add_assoc]
    rw [blocksOf_xor s n _ _ (fun k _ => hE _ (by simp)) (fun k _ => by simp), xorBytes_comm]
    congr 1
    rw [← load_blocks s, load_store' _ _ _ _ hx]
  seek := by
    intro v i p j hr _
    refine ⟨_, rfl, hr.1, ?_⟩
    simp only [ctrPolicy]
    have hl : p.counter.length = s := by rw [hr.2]; simp
    rw [seekLoop_spec p.register s j 0 p.counter (by rw [hr.1, ivBytes_length]; omega) (by omega), hr.1,
      List.take_of_length_le (by rw [ivBytes_length]; omega), List.drop_eq_nil_of_le (by omega)]
    simp
  resync := by
    intro v i p w _
    refine ⟨rfl, ?_⟩
    simp only [ctrPolicy, Nat.add_zero]
    have := beBytes_beVal w.bytes
    rw [ivBytes_length] at this
    exact this.symm

theorem repeat_length (hE : ∀ b, b.length = s → (E b).length = s) (k : Nat) (v : List Byte) (hv : v.length = s) : (Nat.repeat E k v).length = s := by
  induction k with
  | zero => exact hv
  | succ k ih => exact hE _ ih

theorem chain_ofb (n : Nat) (c : List Byte) (f : Nat → List Byte) :
    (chain (fun c _ => E c) c ((List.range n).map f)).flatten = blocksOf n (fun k => Nat.repeat E (k + 1) c) := by
  induction n generalizing c f with
  | zero => simp [chain, blocksOf]
  | succ n ih =>
    rw [List.range_succ_eq_map, List.map_cons, List.map_map, blocksOf_succ]
    simp only [chain, List.flatten_cons, ih]
    congr 1
    apply blocksOf_congr
    intro k _
    show Nat.repeat E (k + 1) (E c) = E (Nat.repeat E (k + 1) c)
    have : ∀ j, Nat.repeat E j (E c) = E (Nat.repeat E j c) := by
      intro j
      induction j with
      | zero => rfl
      | succ j ih => simp only [Nat.repeat, ih]
    exact this _

/-- The keystream buffer does not overlap the register. -/
theorem ofbWrite_spec (hs : 0 < s) (hE : ∀ b, b.length = s → (E b).length = s) (m : Mem) (r ks n : Nat) (hn : 0 < n) (hd : r + s ≤ ks ∨ ks + n * s ≤ r) :
    ∃ m', ofbWrite E s m r ks n = .ok m' ∧ load m' r s = Nat.repeat E n (load m r s) ∧
      load m' ks (n * s) = blocksOf n (fun k => Nat.repeat E (k + 1) (load m r s)) := by
  obtain ⟨t, rfl⟩ : ∃ t, n = t + 1 := ⟨n - 1, by omega⟩
  have hmul : (t + 1) * s = s + t * s := by rw [Nat.succ_mul]; omega
  have hEl : (E (load m r s)).length = s := hE _ (by simp)
  obtain ⟨m1, hm1⟩ : ∃ m1, store m ks (E (load m r s)) = m1 := ⟨_, rfl⟩
  obtain ⟨c1, c2⟩ := chainLoop_spec (fun c _ => E c) s (fun c x hc _ => hE c hc) t m1 (ks + s) ks (by omega)
  have happ : (if t + 1 > 1 then apb E s m1 ks none (ks + s) (s * (t + 1 - 1)) {} else .ok m1 : Except Err Mem) =
      .ok (chainLoop (fun c _ => E c) s t m1 (ks + s) ks) := by
    by_cases h : t = 0
    · subst h; rfl
    · rw [if_pos (by omega), Nat.add_sub_cancel, apb]
      simp only [Bool.false_eq_true, if_false]
      rw [Nat.mul_div_cancel_left _ hs, apbLoop_ofb E s t m1 ks (ks + s)]
  have hk1 : load m1 ks s = E (load m r s) := by rw [← hm1]; exact load_store' _ _ _ _ hEl
  rw [chain_ofb, hk1] at c1
  generalize chainLoop (fun c _ => E c) s t m1 (ks + s) ks = m2 at c1 c2 happ
  have hall : load m2 ks ((t + 1) * s) = blocksOf (t + 1) (fun k => Nat.repeat E (k + 1) (load m r s)) := by
    rw [hmul, load_add, c1, blocksOf_succ]
    congr 1
    · rw [show load m2 ks s = load m1 ks s from load_congr _ _ _ _ (fun i hi => c2 _ (by omega)), hk1]; rfl
    · apply blocksOf_congr
      intro k _
      have : ∀ j c, Nat.repeat E j (E c) = E (Nat.repeat E j c) := by
        intro j c
        induction j with
        | zero => rfl
        | succ j ih => simp only [Nat.repeat, ih]
      simp only [Nat.repeat, this]
  have hlastblk : load m2 (ks + t * s) s = Nat.repeat E (t + 1) (load m r s) := by
    have h := hall
    rw [Nat.succ_mul, load_add, blocksOf_snoc] at h
    exact (List.append_inj h (by
      rw [load_length, blocksOf_length s _ _ (fun k _ => repeat_length E s hE _ _ (by simp))])).2
  refine ⟨store m2 r (load m2 (ks + t * s) s), ?_, ?_, ?_⟩
  · unfold ofbWrite
    rw [hm1]
    simp only [Nat.add_sub_cancel] at happ ⊢
    simp only [happ, bind, Except.bind]
  · rw [load_store' _ _ _ _ (by simp), hlastblk]
  · rw [load_store_disj _ _ _ _ _ (by simp; omega), hall]

/-- The OFB policy satisfies the contract; no position can be sought. -/
theorem ofb_ok (hs : 0 < s) (hE : ∀ b, b.length = s → (E b).length = s) (parallel : Nat) (hp : 0 < parallel) :
    (ofbPolicy E s parallel).Ok (fun v => ofbKeystream E s v.bytes) (fun v i p => p = Nat.repeat E i v.bytes) 0 where
  bpi_pos := hs
  iters_pos := hp
  write := by
    intro v i p n hr hn
    have hl : p.length = s := by rw [hr]; exact repeat_length E s hE _ _ (ivBytes_length v)
    obtain ⟨m', h1, h2, h3⟩ := ofbWrite_spec E s hs hE (store (fun _ => 0) 0 p) 0 s n hn (by omega)
    rw [load_store' _ _ _ _ hl] at h2 h3
    have hrep : ∀ j, Nat.repeat E j p = Nat.repeat E (i + j) v.bytes := by
      intro j
      induction j with
      | zero => exact hr
      | succ j ih =>
        show E (Nat.repeat E j p) = E (Nat.repeat E (i + j) v.bytes)
        rw [ih]
    simp only [ofbPolicy, h1]
    refine ⟨by rw [h2, hrep], ?_⟩
    rw [h3]
    unfold ofbKeystream
    rw [load_byBlocks s hs (fun k => Nat.repeat E (k + 1) v.bytes) (fun k => repeat_length E s hE _ _ (ivBytes_length v))]
    apply blocksOf_congr
    intro k _
    rw [hrep, Nat.add_assoc]
  operate := by intro v i p n x h; cases h
  seek := by intro v i p j _ h; omega
  resync := by intro v i p w _; rfl

end

end Verif.Modes
