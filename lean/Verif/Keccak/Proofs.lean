import Verif.Keccak.Bytes

/-! # The buffering, the padding and the squeezing -/
namespace Verif.Keccak
open Spec (bits)

abbrev zeros (n : Nat) : List Byte := List.replicate n 0

theorem zeros_add (a b : Nat) : zeros (a + b) = zeros a ++ zeros b := by simp [zeros]

theorem xorBytes_zeros (a : List Byte) : xorBytes a (zeros a.length) = a := by
  induction a with
  | nil => rfl
  | cons x a ih => simp [xorBytes, List.replicate_succ] at ih ⊢; exact ih

theorem xorBytes_zeros' (n : Nat) (a : List Byte) (h : a.length = n) : xorBytes a (zeros n) = a := by subst h; exact xorBytes_zeros a

theorem zeros_xorBytes (n : Nat) (a : List Byte) (h : a.length = n) : xorBytes (zeros n) a = a := by
  rw [xorBytes_comm]; exact xorBytes_zeros' n a h

theorem xorBytes_length' (a b : List Byte) (h : a.length = b.length) : (xorBytes a b).length = a.length := by simp [xorBytes, h]

theorem xorAt_ok (st : List Byte) (off : Nat) (x : List Byte) (h : off + x.length ≤ st.length) :
    xorAt st off x = .ok (xorBytes st (zeros off ++ x ++ zeros (st.length - off - x.length))) := by
  unfold xorAt
  rw [if_neg (by omega)]
  congr 1
  have e : st = st.take off ++ (st.drop off).take x.length ++ st.drop (off + x.length) := by
    rw [List.append_assoc, ← List.drop_drop, List.take_append_drop, List.take_append_drop]
  conv => rhs; rw [e]
  rw [xorBytes_append _ _ _ _ (by simp; omega), xorBytes_append _ _ _ _ (by simp; omega), xorBytes_zeros' _ _ (by simp; omega),
    xorBytes_zeros' _ _ (by simp; omega)]

/-- The state after whole blocks. -/
def absorbed (r : Nat) (bs : List (List Byte)) : List Byte :=
  bs.foldl (fun S B => keccakF1600 (xorBytes S (B ++ zeros (200 - r)))) (zeros 200)

theorem absorbed_length (r : Nat) (bs : List (List Byte)) : (absorbed r bs).length = 200 := by
  unfold absorbed
  generalize h : zeros 200 = S
  have hS : S.length = 200 := by simp [← h]
  clear h
  induction bs generalizing S with
  | nil => exact hS
  | cons b bs ih => exact ih _ (keccakF1600_length _)

theorem absorbed_append (r : Nat) (bs : List (List Byte)) (b : List Byte) :
    absorbed r (bs ++ [b]) = keccakF1600 (xorBytes (absorbed r bs) (b ++ zeros (200 - r))) := by simp [absorbed]

/-- `s` has been given the message made of the blocks `bs` and the rest `p`. -/
structure RepB (r : Nat) (s : State) (bs : List (List Byte)) (p : List Byte) : Prop where
  blocks : ∀ b ∈ bs, b.length = r
  rest : p.length < r
  counter : s.counter = p.length
  st : s.st = xorBytes (absorbed r bs) (p ++ zeros (200 - p.length))

/-- `s` has been given the message `m`. -/
def Rep (V : Variant) (s : State) (m : List Byte) : Prop := ∃ bs p, m = bs.flatten ++ p ∧ RepB V.rate s bs p

theorem init_rep (V : Variant) (hr : 0 < V.rate) (s : State) : Rep V (restart s) [] :=
  ⟨[], [], rfl, by simp, hr, rfl, by
    show zeros 200 = xorBytes (zeros 200) ([] ++ zeros 200)
    rw [List.nil_append, xorBytes_zeros' 200 _ (by simp)]⟩

theorem xor_more (S p x : List Byte) (hS : S.length = 200) (h : p.length + x.length ≤ 200) :
    xorAt (xorBytes S (p ++ zeros (200 - p.length))) p.length x = .ok (xorBytes S (p ++ x ++ zeros (200 - (p ++ x).length))) := by
  have hl : (xorBytes S (p ++ zeros (200 - p.length))).length = 200 := by rw [xorBytes_length' _ _ (by simp; omega)]; exact hS
  rw [xorAt_ok _ _ _ (by omega), hl, xorBytes_assoc]
  congr 2
  rw [show zeros (200 - p.length) = zeros x.length ++ zeros (200 - p.length - x.length) by rw [← zeros_add]; congr 1; omega, List.append_assoc (zeros p.length),
    xorBytes_append _ _ _ _ (by simp), xorBytes_zeros' _ _ rfl, xorBytes_append _ _ _ _ (by simp), zeros_xorBytes _ _ rfl,
    zeros_xorBytes _ _ (by simp)]
  simp [Nat.sub_sub]

theorem absorb_spec (V : Variant) (hr : 0 < V.rate) (hr2 : V.rate ≤ 200) (fuel : Nat) (s : State) (bs : List (List Byte)) (p input : List Byte)
    (h : RepB V.rate s bs p) (hf : input.length < fuel) :
    ∃ s' bs' p' rest, absorb V fuel s input = .ok (s', rest) ∧ RepB V.rate s' bs' p' ∧ bs'.flatten ++ p' ++ rest = bs.flatten ++ p ++ input ∧
      p'.length + rest.length < V.rate := by
  induction fuel generalizing s bs p input with
  | zero => omega
  | succ fuel ih =>
    have hrest := h.rest
    unfold absorb
    have hsp : (V.rate + 2 ^ 32 - s.counter) % 2 ^ 32 = V.rate - p.length := by rw [h.counter]; omega
    rw [hsp]
    dsimp only
    by_cases hc : input.length ≥ V.rate - p.length
    · rw [if_pos hc, if_pos (by omega), h.st, h.counter,
        xor_more _ _ _ (absorbed_length _ _) (by simp; omega)]
      show ∃ s' bs' p' rest, absorb V fuel ⟨keccakF1600 _, 0⟩ _ = _ ∧ _
      have hbl : (p ++ input.take (V.rate - p.length)).length = V.rate := by simp; omega
      rw [hbl]
      obtain ⟨s', bs', p', rest, e, hrep, hm, hlen⟩ := ih ⟨keccakF1600 (xorBytes (absorbed V.rate bs) (p ++ input.take (V.rate - p.length) ++ zeros (200 - V.rate))), 0⟩
        (bs ++ [p ++ input.take (V.rate - p.length)]) [] (input.drop (V.rate - p.length))
        ⟨by
          intro b hb
          rcases List.mem_append.mp hb with hb | hb
          · exact h.blocks b hb
          · rw [List.mem_singleton.mp hb, hbl],
         hr, rfl, by
          rw [absorbed_append]
          show _ = xorBytes _ ([] ++ zeros 200)
          rw [List.nil_append, xorBytes_zeros' 200 _ (keccakF1600_length _)]⟩
        (by rw [List.length_drop]; omega)
      refine ⟨s', bs', p', rest, e, hrep, ?_, hlen⟩
      rw [hm]
      simp
    · rw [if_neg hc]
      exact ⟨s, bs, p, input, rfl, h, rfl, by omega⟩

theorem update_spec (V : Variant) (hr : 0 < V.rate) (hr2 : V.rate ≤ 200) (s : State) (m x : List Byte) (h : Rep V s m) :
    ∃ s', update V s x = .ok s' ∧ Rep V s' (m ++ x) := by
  obtain ⟨bs, p, rfl, hb⟩ := h
  unfold update
  by_cases hx : x.length = 0
  · rw [if_pos hx, List.length_eq_zero_iff.mp hx, List.append_nil]
    exact ⟨s, rfl, bs, p, rfl, hb⟩
  · rw [if_neg hx]
    obtain ⟨s', bs', p', rest, e, hrep, hm, hlen⟩ := absorb_spec V hr hr2 (x.length + 2) s bs p x hb (by omega)
    rw [e]
    rw [← hm, List.append_assoc]
    have hcnt : (s'.counter + rest.length % 2 ^ 32) % 2 ^ 32 = (p' ++ rest).length := by
      rw [hrep.counter, List.length_append]; omega
    have key : (if rest.length ≠ 0 then xorAt s'.st s'.counter rest else .ok s'.st) = .ok (xorBytes (absorbed V.rate bs') (p' ++ rest ++ zeros (200 - (p' ++ rest).length))) := by
      by_cases h0 : rest.length = 0
      · rw [if_neg (by omega), List.length_eq_zero_iff.mp h0, List.append_nil, hrep.st]
      · rw [if_pos h0, hrep.st, hrep.counter, xor_more _ _ _ (absorbed_length _ _) (by omega)]
    refine ⟨⟨xorBytes (absorbed V.rate bs') (p' ++ rest ++ zeros (200 - (p' ++ rest).length)), (p' ++ rest).length⟩, ?_, bs', p' ++ rest, rfl,
      hrep.blocks, by simpa using hlen, rfl, rfl⟩
    rw [← hcnt]
    have step : ∀ e : Except Err (List Byte), (if rest.length ≠ 0 then xorAt s'.st s'.counter rest else .ok s'.st) = e →
        (do let (s, input) ← (.ok (s', rest) : Except Err (State × List Byte))
            let st ← if input.length ≠ 0 then xorAt s.st s.counter input else .ok s.st
            return (⟨st, (s.counter + input.length % 2 ^ 32) % 2 ^ 32⟩ : State))
          = e.bind fun st => .ok ⟨st, (s'.counter + rest.length % 2 ^ 32) % 2 ^ 32⟩ := by
      rintro e rfl
      show (if rest.length ≠ 0 then (xorAt s'.st s'.counter rest).bind fun st => .ok (⟨st, (s'.counter + rest.length % 2 ^ 32) % 2 ^ 32⟩ : State)
        else .ok (⟨s'.st, (s'.counter + rest.length % 2 ^ 32) % 2 ^ 32⟩ : State)) = _
      by_cases h0 : rest.length = 0
      · rw [if_neg (by omega), if_neg (by omega)]; rfl
      · rw [if_pos h0, if_pos h0]
    rw [step _ key, hcnt]; rfl

/-- The last block: the rest of the message, the domain byte, and the top bit of the block. -/
def lastBlock (V : Variant) (p : List Byte) : List Byte :=
  xorBytes (p ++ [V.domain] ++ zeros (V.rate - p.length - 1)) (zeros (V.rate - 1) ++ [0x80])

theorem lastBlock_length (V : Variant) (p : List Byte) (h : p.length < V.rate) : (lastBlock V p).length = V.rate := by
  unfold lastBlock
  rw [xorBytes_length' _ _ (by simp; omega)]
  simp; omega

theorem pad_spec (V : Variant) (hr2 : V.rate ≤ 200) (s : State) (bs : List (List Byte)) (p : List Byte) (h : RepB V.rate s bs p) :
    ∃ st, xorAt s.st s.counter [V.domain] = .ok st ∧
      xorAt st (V.rate - 1) [0x80] = .ok (xorBytes (absorbed V.rate bs) (lastBlock V p ++ zeros (200 - V.rate))) := by
  have hp := h.rest
  rw [h.st, h.counter, xor_more _ _ _ (absorbed_length _ _) (by simp; omega)]
  refine ⟨_, rfl, ?_⟩
  have hl : (xorBytes (absorbed V.rate bs) (p ++ [V.domain] ++ zeros (200 - (p ++ [V.domain]).length))).length = 200 := by
    rw [xorBytes_length' _ _ (by simp [absorbed_length]; omega), absorbed_length]
  rw [xorAt_ok _ _ _ (by rw [hl]; simp; omega), hl, xorBytes_assoc]
  congr 2
  rw [show (200 - (p ++ [V.domain]).length) = (V.rate - p.length - 1) + (200 - V.rate) by simp; omega, zeros_add, ← List.append_assoc,
    xorBytes_append _ _ _ _ (by simp; omega)]
  unfold lastBlock
  congr 1
  rw [zeros_xorBytes _ _ (by simp; omega)]
  congr 1; simp; omega

/-! ## The padding on bits -/

theorem bits_lastBlock (V : Variant) (suf : List Bool) (hs : suf.length ≤ 6)
    (hd : bits [V.domain] = suf ++ [true] ++ List.replicate (7 - suf.length) false) (bs : List (List Byte)) (hb : ∀ b ∈ bs, b.length = V.rate)
    (p : List Byte) (h : p.length < V.rate) :
    bits bs.flatten ++ bits (lastBlock V p) = bits (bs.flatten ++ p) ++ suf ++ Spec.pad101 (8 * V.rate) (bits (bs.flatten ++ p) ++ suf).length := by
  rw [bits_append, List.append_assoc, List.append_assoc, List.append_cancel_left_eq]
  have hflen : ∃ n, bs.flatten.length = V.rate * n := by
    refine ⟨bs.length, ?_⟩
    clear h
    induction bs with
    | nil => rfl
    | cons b bs ih =>
      rw [List.flatten_cons, List.length_append, ih (fun c hc => hb c (by simp [hc])), hb b (by simp), List.length_cons, Nat.mul_succ]; omega
  obtain ⟨n, hn⟩ := hflen
  have hj : ((-((bits bs.flatten ++ (bits p ++ suf)).length : Int) - 2) % ((8 * V.rate : Nat) : Int)).toNat
      = 6 - suf.length + 8 * (V.rate - p.length - 1) := by
    rw [List.length_append, List.length_append, bits_length, bits_length, hn]
    have e : (-((8 * (V.rate * n) + (8 * p.length + suf.length) : Nat) : Int) - 2)
        = ((6 - suf.length + 8 * (V.rate - p.length - 1) : Nat) : Int) + ((8 * V.rate : Nat) : Int) * (-(n : Int) - 1) := by
      have e1 : ((6 - suf.length + 8 * (V.rate - p.length - 1) : Nat) : Int) = 6 - suf.length + 8 * (V.rate - p.length - 1) := by omega
      rw [e1, Int.mul_sub ((8 * V.rate : Nat) : Int), Int.mul_neg]
      push_cast
      rw [Int.mul_assoc 8]
      generalize (V.rate : Int) * n = q
      omega
    rw [e, Int.add_mul_emod_self_left, Int.emod_eq_of_lt (by omega) (by omega)]
    omega
  unfold lastBlock Spec.pad101
  rw [List.append_assoc (bits bs.flatten), hj, bits_xorBytes, bits_append, bits_append, bits_append, hd, bits_zeros, bits_zeros]
  have h80 : bits [0x80] = List.replicate 7 false ++ [true] := by decide
  rw [h80]
  obtain ⟨k, hk⟩ : ∃ k, V.rate = p.length + 1 + k := ⟨V.rate - p.length - 1, by omega⟩
  rw [hk, show p.length + 1 + k - p.length - 1 = k by omega, show p.length + 1 + k - 1 = p.length + k by omega]
  have split : suf ++ [true] ++ List.replicate (7 - suf.length) false ++ List.replicate (8 * k) false
      = suf ++ [true] ++ List.replicate (6 - suf.length + 8 * k) false ++ [false] := by
    rw [List.append_assoc _ (List.replicate _ _) (List.replicate _ _), List.replicate_append_replicate, show 7 - suf.length + 8 * k = (6 - suf.length + 8 * k) + 1 by omega,
      List.replicate_succ']
    simp
  rw [List.append_assoc (bits p), split]
  rw [show List.replicate (8 * (p.length + k)) false ++ (List.replicate 7 false ++ [true]) = List.replicate (8 * (p.length + k) + 7) false ++ [true] by
    rw [← List.append_assoc, List.replicate_append_replicate]]
  have xz : ∀ (l : List Bool) (n : Nat), l.length = n → List.zipWith (· ^^ ·) l (List.replicate n false) = l := by
    intro l n hn; subst hn
    induction l with
    | nil => rfl
    | cons a l ih => simp [List.replicate_succ, ih]
  unfold Spec.xor
  rw [← List.append_assoc (bits p), List.zipWith_append (by simp [bits_length]; omega), xz _ _ (by simp [bits_length]; omega)]
  simp

/-! ## The sponge -/

theorem blocks_flatten (r : Nat) (hr : 0 < r) (xs : List (List Bool)) (h : ∀ x ∈ xs, x.length = r) : Spec.blocks r xs.flatten = xs := by
  have hlen : xs.flatten.length = r * xs.length := by
    induction xs with
    | nil => rfl
    | cons b bs ih =>
      rw [List.flatten_cons, List.length_append, ih (fun c hc => h c (by simp [hc])), h b (by simp), List.length_cons, Nat.mul_succ]; omega
  unfold Spec.blocks
  rw [hlen, Nat.mul_div_cancel_left _ hr]
  clear hlen
  induction xs with
  | nil => rfl
  | cons b bs ih =>
    have hb := h b (by simp)
    rw [List.length_cons, List.range_succ_eq_map, List.map_cons, List.map_map]
    congr 1
    · rw [Nat.mul_zero, List.drop_zero, List.flatten_cons, List.take_left' hb]
    · conv => rhs; rw [← ih fun c hc => h c (by simp [hc])]
      apply List.map_congr_left
      intro i _
      show ((b :: bs).flatten.drop (r * (i + 1))).take r = _
      rw [List.flatten_cons, Nat.mul_succ, Nat.add_comm, ← List.drop_drop, List.drop_left' hb]

theorem bits_flatten (bs : List (List Byte)) : bits bs.flatten = (bs.map bits).flatten := by
  induction bs with
  | nil => rfl
  | cons b bs ih => simp [bits_append, ih]

theorem bits_absorbed (r : Nat) (hr : r ≤ 200) (bs : List (List Byte)) :
    bits (absorbed r bs) = (bs.map bits).foldl (fun S Pi => Spec.keccakF (Spec.xor S (Pi ++ List.replicate (1600 - 8 * r) false))) (List.replicate 1600 false) := by
  unfold absorbed
  rw [List.foldl_map, show List.replicate 1600 false = bits (zeros 200) from (bits_zeros 200).symm]
  generalize zeros 200 = S
  induction bs generalizing S with
  | nil => rfl
  | cons b bs ih =>
    rw [List.foldl_cons, List.foldl_cons, ih, bits_keccakF, bits_xorBytes, bits_append, bits_zeros, show 8 * (200 - r) = 1600 - 8 * r by omega]

/-- The output of the squeezing phase, in bytes: `n` blocks from the state `S`. -/
def stream (r n : Nat) (S : List Byte) : List Byte := (List.range n).flatMap fun i => (i.repeat keccakF1600 S).take r

theorem repeat_succ' {α : Type} (f : α → α) (n : Nat) (a : α) : Nat.repeat f (n + 1) a = Nat.repeat f n (f a) := by
  induction n with
  | zero => rfl
  | succ n ih => rw [Nat.repeat, ih]; rfl

theorem stream_succ (r n : Nat) (S : List Byte) : stream r (n + 1) S = S.take r ++ stream r n (keccakF1600 S) := by
  unfold stream
  rw [List.range_succ_eq_map, List.flatMap_cons, List.flatMap_map]
  congr 1
  simp only [repeat_succ']

theorem bits_repeat (i : Nat) (S : List Byte) : bits (i.repeat keccakF1600 S) = i.repeat Spec.keccakF (bits S) := by
  induction i with
  | zero => rfl
  | succ i ih => rw [Nat.repeat, Nat.repeat, bits_keccakF, ih]

theorem bits_stream (r n : Nat) (S : List Byte) : bits (stream r n S) = (List.range n).flatMap fun i => (i.repeat Spec.keccakF (bits S)).take (8 * r) := by
  unfold stream
  rw [bits_flatMap]
  simp only [bits_take, bits_repeat]

theorem squeeze_spec (V : Variant) (hr : 0 < V.rate) (hr2 : V.rate ≤ 200) (fuel n : Nat) (st : List Byte) (size : Nat) (hf : size ≤ fuel)
    (hn : size ≤ V.rate * n) : ∃ st', squeeze V fuel st size = .ok (st', (stream V.rate n (keccakF1600 st)).take size) := by
  induction n generalizing fuel st size with
  | zero =>
    have : size = 0 := by omega
    subst this
    cases fuel <;> exact ⟨st, by simp [squeeze]⟩
  | succ n ih =>
    cases size with
    | zero => cases fuel <;> exact ⟨st, by simp [squeeze]⟩
    | succ k => cases fuel with
      | zero => omega
      | succ fuel =>
        unfold squeeze
        have hmin : 0 < min (k + 1) V.rate := by omega
        rw [Nat.mul_succ] at hn
        obtain ⟨st', e⟩ := ih fuel (keccakF1600 st) (k + 1 - min (k + 1) V.rate) (by omega) (by omega)
        dsimp only
        rw [e]
        refine ⟨st', ?_⟩
        show Except.ok (st', _) = _
        congr 2
        rw [stream_succ, List.take_append]
        have hl := keccakF1600_length st
        rw [List.take_take, List.length_take, hl]
        congr 2
        show List.take (k + 1 - min (k + 1) V.rate) _ = _
        congr 1
        omega

/-- What the class computes: the first `size` bytes of the output on `m`. -/
def outBytes (V : Variant) (bs : List (List Byte)) (p : List Byte) (size : Nat) : List Byte :=
  (stream V.rate (size / V.rate + 1) (absorbed V.rate (bs ++ [lastBlock V p]))).take size

theorem final_spec (V : Variant) (hr : 0 < V.rate) (hr2 : V.rate ≤ 200) (hd : V.xof = false → V.digestSize ≤ V.rate) (s : State) (bs : List (List Byte)) (p : List Byte) (size : Nat)
    (h : RepB V.rate s bs p) (hsz : size ≤ if V.xof then uintMax else V.digestSize) :
    ∃ s', final V s size = .ok (restart s', outBytes V bs p size) := by
  obtain ⟨st, e1, e2⟩ := pad_spec V hr2 s bs p h
  have hdiv : size ≤ V.rate * (size / V.rate + 1) := by
    have := Nat.div_add_mod size V.rate; have := Nat.mod_lt size hr; rw [Nat.mul_succ]; omega
  unfold final
  by_cases hx : V.xof = true
  · rw [if_pos hx] at hsz ⊢
    rw [if_neg (by omega), e1]
    obtain ⟨st', e⟩ := squeeze_spec V hr hr2 size (size / V.rate + 1) (xorBytes (absorbed V.rate bs) (lastBlock V p ++ zeros (200 - V.rate))) size (Nat.le_refl _) hdiv
    refine ⟨⟨st', s.counter⟩, ?_⟩
    show (do let st ← xorAt st (V.rate - 1) [0x80]; _) = _
    rw [e2]
    show (do let (st, out) ← squeeze V size _ size; pure (restart ⟨st, s.counter⟩, out)) = _
    rw [e, outBytes, absorbed_append]
    rfl
  · rw [if_neg hx] at hsz ⊢
    have hd' := hd (by simpa using hx)
    rw [if_neg (by omega), e1]
    refine ⟨⟨absorbed V.rate (bs ++ [lastBlock V p]), s.counter⟩, ?_⟩
    show (do let st ← xorAt st (V.rate - 1) [0x80]; _) = _
    rw [e2]
    show (if size > (keccakF1600 _).length then _ else _) = _
    rw [keccakF1600_length, if_neg (by omega), ← absorbed_append, outBytes, stream_succ, List.take_append_of_le_length (by rw [List.length_take, absorbed_length]; omega),
      List.take_take, Nat.min_eq_left (by omega)]
    rfl

theorem bits_outBytes (V : Variant) (hr : 0 < V.rate) (hr2 : V.rate ≤ 200) (suf : List Bool) (hs : suf.length ≤ 6)
    (hd : bits [V.domain] = suf ++ [true] ++ List.replicate (7 - suf.length) false) (bs : List (List Byte)) (hb : ∀ b ∈ bs, b.length = V.rate)
    (p : List Byte) (h : p.length < V.rate) (size : Nat) :
    bits (outBytes V bs p size) = Spec.sponge (8 * V.rate) (bits (bs.flatten ++ p) ++ suf) (8 * size) := by
  unfold outBytes Spec.sponge
  dsimp only
  rw [bits_take, bits_stream, bits_absorbed _ hr2, ← bits_lastBlock V suf hs hd bs hb p h, ← bits_append,
    show bs.flatten ++ lastBlock V p = (bs ++ [lastBlock V p]).flatten by simp, bits_flatten, blocks_flatten (8 * V.rate) (by omega), Nat.mul_div_mul_left _ _ (by omega)]
  intro x hx
  obtain ⟨b, hb', rfl⟩ := List.mem_map.mp hx
  rw [bits_length]
  rcases List.mem_append.mp hb' with hb' | hb'
  · rw [hb b hb']
  · rw [List.mem_singleton.mp hb', lastBlock_length V p h]

end Verif.Keccak
