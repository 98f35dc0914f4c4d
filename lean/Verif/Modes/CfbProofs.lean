import Verif.Modes.CfbSpec
import Verif.Modes.CbcProofs

namespace Verif.Modes

/-- The state seen from outside: the shift register of the current segment, and its ciphertext bytes so far. -/
structure CfbS where
  reg : List Byte
  d : List Byte

section
variable (E : List Byte → List Byte) (s f : Nat) (dir : Dir)

/-- Ciphertext among input and output. -/
def ctOf (x out : List Byte) : List Byte := match dir with | .encryption => out | .decryption => x

/-- A full segment is shifted in before the next byte. -/
def CfbS.ready (st : CfbS) : CfbS := if st.d.length = f then ⟨st.reg.drop f ++ st.d, []⟩ else st

def feedByte (st : CfbS) (p : Byte) : CfbS × Byte :=
  let st := st.ready f
  let o := p ^^^ (E st.reg).getD st.d.length 0
  (⟨st.reg, st.d ++ (match dir with | .encryption => [o] | .decryption => [p])⟩, o)

def feed (st : CfbS) : List Byte → CfbS × List Byte
  | [] => (st, [])
  | p :: ps =>
    let (st, o) := feedByte E f dir st p
    let (st, os) := feed st ps
    (st, o :: os)

theorem feed_append (st : CfbS) (a b : List Byte) :
    feed E f dir st (a ++ b) = ((feed E f dir (feed E f dir st a).1 b).1, (feed E f dir st a).2 ++ (feed E f dir (feed E f dir st a).1 b).2) := by
  induction a generalizing st with
  | nil => rfl
  | cons p ps ih => simp only [List.cons_append, feed, ih]

theorem feed_length (st : CfbS) (x : List Byte) : (feed E f dir st x).2.length = x.length := by
  induction x generalizing st with
  | nil => rfl
  | cons p ps ih => simp only [feed, List.length_cons, ih]

/-- Within a segment. -/
theorem feed_segment (hfs : f ≤ s) (hE : ∀ b, b.length = s → (E b).length = s) (reg : List Byte) (hr : reg.length = s) (x : List Byte) :
    ∀ (d : List Byte), d.length + x.length ≤ f →
      feed E f dir ⟨reg, d⟩ x = (⟨reg, d ++ ctOf dir x (xorBytes x ((E reg).drop d.length))⟩, xorBytes x ((E reg).drop d.length)) := by
  induction x with
  | nil => intro d _; cases dir <;> simp [feed, ctOf, xorBytes]
  | cons p ps ih =>
    intro d h
    simp only [List.length_cons] at h
    have hEl := hE reg hr
    have hdrop : (E reg).drop d.length = (E reg).getD d.length 0 :: (E reg).drop (d.length + 1) := by
      rw [List.drop_eq_getElem_cons (by omega), List.getD_eq_getElem?_getD, List.getElem?_eq_getElem (by omega)]; rfl
    have hrdy : CfbS.ready f ⟨reg, d⟩ = ⟨reg, d⟩ := by
      unfold CfbS.ready
      rw [if_neg (by show d.length ≠ f; omega)]
    simp only [feed, feedByte, hrdy, hdrop]
    cases dir with
    | encryption =>
      rw [ih _ (by simp; omega)]
      simp [ctOf, xorBytes]
    | decryption =>
      rw [ih _ (by simp; omega)]
      simp [ctOf, xorBytes]

/-- A whole or partial segment after a full one. -/
theorem feed_next (hf0 : 0 < f) (hfs : f ≤ s) (hE : ∀ b, b.length = s → (E b).length = s) (reg d : List Byte) (hr : reg.length = s) (hd : d.length = f)
    (x : List Byte) (hx0 : x ≠ []) (hx : x.length ≤ f) :
    feed E f dir ⟨reg, d⟩ x = (⟨reg.drop f ++ d, ctOf dir x (xorBytes x (E (reg.drop f ++ d)))⟩, xorBytes x (E (reg.drop f ++ d))) := by
  have h := feed_segment E s f dir hfs hE (reg.drop f ++ d) (by simp; omega) x [] (by simpa using hx)
  cases x with
  | nil => exact absurd rfl hx0
  | cons p ps =>
    have e1 : CfbS.ready f ⟨reg, d⟩ = ⟨reg.drop f ++ d, []⟩ := by
      unfold CfbS.ready
      rw [if_pos hd]
    have e2 : CfbS.ready f ⟨reg.drop f ++ d, []⟩ = ⟨reg.drop f ++ d, []⟩ := by
      unfold CfbS.ready
      rw [if_neg (by show ([] : List Byte).length ≠ f; simp; omega)]
    have : feed E f dir ⟨reg, d⟩ (p :: ps) = feed E f dir ⟨reg.drop f ++ d, []⟩ (p :: ps) := by
      simp only [feed, feedByte, e1, e2]
    rw [this, h]
    simp

/-- Byte by byte is segment by segment. -/
theorem feed_cfb (hf0 : 0 < f) (hfs : f ≤ s) (hE : ∀ b, b.length = s → (E b).length = s) (n : Nat) : ∀ (x reg : List Byte), x.length ≤ n → reg.length = s →
    (feed E f dir ⟨reg, []⟩ x).2 = (cfb E f dir reg (chunks f x)).flatten := by
  induction n with
  | zero =>
    intro x reg hx _
    have : x = [] := List.eq_nil_of_length_eq_zero (by omega)
    subst this; cases dir <;> rfl
  | succ n ih =>
    intro x reg hx hr
    by_cases hne : x = []
    · subst hne; cases dir <;> rfl
    rw [chunks_of_ne_nil f hf0 x hne]
    conv => lhs; rw [← List.take_append_drop f x]
    rw [feed_append]
    simp only
    have hEl := hE reg hr
    have hpos : 0 < x.length := List.length_pos_iff.mpr hne
    rw [feed_segment E s f dir hfs hE reg hr (x.take f) [] (by simp; omega)]
    simp only [List.nil_append, List.length_nil, List.drop_zero]
    -- the state after the first segment, and a fresh one
    have hfresh : (feed E f dir ⟨reg, ctOf dir (x.take f) (xorBytes (x.take f) (E reg))⟩ (x.drop f)).2 =
        (feed E f dir ⟨reg.drop f ++ ctOf dir (x.take f) (xorBytes (x.take f) (E reg)), []⟩ (x.drop f)).2 := by
      by_cases hd : x.drop f = []
      · rw [hd]; rfl
      · have hlen : f < x.length := by
          by_cases h : f < x.length
          · exact h
          · exact absurd (List.drop_eq_nil_of_le (by omega)) hd
        have hdl : (ctOf dir (x.take f) (xorBytes (x.take f) (E reg))).length = f := by
          cases dir <;> simp [ctOf] <;> omega
        cases hxd : x.drop f with
        | nil => exact absurd hxd hd
        | cons p ps =>
          have e1 : ∀ d : List Byte, d.length = f → CfbS.ready f ⟨reg, d⟩ = ⟨reg.drop f ++ d, []⟩ := by
            intro d hd; unfold CfbS.ready; rw [if_pos hd]
          have e2 : ∀ d : List Byte, CfbS.ready f ⟨reg.drop f ++ d, []⟩ = ⟨reg.drop f ++ d, []⟩ := by
            intro d; unfold CfbS.ready; rw [if_neg (by show ([] : List Byte).length ≠ f; simp; omega)]
          simp only [feed, feedByte, e1 _ hdl, e2]
    rw [hfresh]
    by_cases hd : x.drop f = []
    · rw [hd]; cases dir <;> simp [feed, cfb, cfbEncrypt, cfbDecrypt]
    · have hlen : f < x.length := by
        by_cases h : f < x.length
        · exact h
        · exact absurd (List.drop_eq_nil_of_le (by omega)) hd
      have hdl : (ctOf dir (x.take f) (xorBytes (x.take f) (E reg))).length = f := by
        cases dir <;> simp [ctOf] <;> omega
      rw [ih (x.drop f) _ (by simp; omega) (by rw [List.length_append, List.length_drop, hdl]; omega)]
      cases dir <;> rfl

/-! ## The code -/

/-- What the register holds. -/
def CfbInv (m : Mem) (r : Nat) (st : CfbS) : Prop :=
  st.reg.length = s ∧ st.d.length ≤ f ∧ load m r s = st.reg.drop f ++ st.d ++ ((E st.reg).take f).drop st.d.length

/-- `L` bytes were processed from `inP` to `outP`; nothing but the output, the register and the temporary block changed. -/
def Done (m m' : Mem) (r t outP inP L : Nat) (st st' : CfbS) : Prop :=
  feed E f dir st (load m inP L) = (st', load m' outP L) ∧ CfbInv E s f m' r st' ∧
  ∀ a, (a < outP ∨ outP + L ≤ a) → (a < r ∨ r + s ≤ a) → (a < t ∨ t + s ≤ a) → m' a = m a

/-- Buffers are the same or do not overlap, and do not overlap the object. -/
structure Place (r t outP inP L : Nat) : Prop where
  io : inP = outP ∨ inP + L ≤ outP ∨ outP + L ≤ inP
  ir : inP + L ≤ r ∨ r + s ≤ inP
  or : outP + L ≤ r ∨ r + s ≤ outP
  it : inP + L ≤ t ∨ t + s ≤ inP
  ot : outP + L ≤ t ∨ t + s ≤ outP
  rt : r + s ≤ t ∨ t + s ≤ r

variable {E s f dir}

theorem Place.fst {r t outP inP L1 L2 : Nat} (h : Place s r t outP inP (L1 + L2)) : Place s r t outP inP L1 := by
  obtain ⟨a, b, c, d, e, g⟩ := h
  exact ⟨by omega, by omega, by omega, by omega, by omega, g⟩

theorem Place.snd {r t outP inP L1 L2 : Nat} (h : Place s r t outP inP (L1 + L2)) : Place s r t (outP + L1) (inP + L1) L2 := by
  obtain ⟨a, b, c, d, e, g⟩ := h
  exact ⟨by omega, by omega, by omega, by omega, by omega, g⟩

theorem Done.trans {m m1 m2 : Mem} {r t outP inP L1 L2 : Nat} {st st1 st2 : CfbS} (hp : Place s r t outP inP (L1 + L2))
    (h1 : Done E s f dir m m1 r t outP inP L1 st st1) (h2 : Done E s f dir m1 m2 r t (outP + L1) (inP + L1) L2 st1 st2) :
    Done E s f dir m m2 r t outP inP (L1 + L2) st st2 := by
  obtain ⟨a, b, c, d, e, g⟩ := hp
  obtain ⟨f1, i1, o1⟩ := h1
  obtain ⟨f2, i2, o2⟩ := h2
  refine ⟨?_, i2, ?_⟩
  · rw [load_add, feed_append, f1]
    simp only
    have e1 : load m (inP + L1) L2 = load m1 (inP + L1) L2 := load_congr _ _ _ _ (fun i hi => (o1 _ (by omega) (by omega) (by omega)).symm)
    rw [e1, f2, load_add]
    have e2 : load m2 outP L1 = load m1 outP L1 := load_congr _ _ _ _ (fun i hi => o2 _ (by omega) (by omega) (by omega))
    rw [e2]
  · intro z z1 z2 z3
    rw [o2 z (by omega) z2 z3, o1 z (by omega) z2 z3]

theorem Done.nil {m : Mem} {r t outP inP : Nat} {st : CfbS} (h : CfbInv E s f m r st) : Done E s f dir m m r t outP inP 0 st st :=
  ⟨by simp [feed], h, fun _ _ _ _ => rfl⟩

/-- The decryption loop: message bytes go to the register, and combined with it to the output. -/
theorem combineDec_spec (n : Nat) : ∀ (m : Mem) (out reg msg : Nat), (msg = out ∨ msg + n ≤ out ∨ out + n ≤ msg) →
    (msg + n ≤ reg ∨ reg + n ≤ msg) → (out + n ≤ reg ∨ reg + n ≤ out) →
    load (combineDec n m out reg msg) out n = xorBytes (load m reg n) (load m msg n) ∧
    load (combineDec n m out reg msg) reg n = load m msg n ∧
    ∀ a, (a < out ∨ out + n ≤ a) → (a < reg ∨ reg + n ≤ a) → combineDec n m out reg msg a = m a := by
  induction n with
  | zero => intro m out reg msg _ _ _; exact ⟨rfl, rfl, fun _ _ _ => rfl⟩
  | succ n ih =>
    intro m out reg msg h1 h2 h3
    simp only [combineDec]
    obtain ⟨i1, i2, i3⟩ := ih (store (store m out [m reg ^^^ m msg]) reg [m msg]) (out + 1) (reg + 1) (msg + 1) (by omega) (by omega) (by omega)
    have l : ∀ (m : Mem) a, load m a (n + 1) = m a :: load m (a + 1) n := by
      intro m a
      rw [Nat.add_comm, load_add]; rfl
    have g1 : ∀ a, (a = reg + 1 ∨ a = msg + 1) → load (store (store m out [m reg ^^^ m msg]) reg [m msg]) a n = load m a n := by
      intro a ha
      rw [load_store_disj _ _ _ _ _ (by simp; omega), load_store_disj _ _ _ _ _ (by simp; omega)]
    have g2 : store (store m out [m reg ^^^ m msg]) reg [m msg] out = m reg ^^^ m msg := by
      rw [store_out _ _ _ _ (by simp; omega)]
      simp [store]
    have g3 : store (store m out [m reg ^^^ m msg]) reg [m msg] reg = m msg := by simp [store]
    refine ⟨?_, ?_, ?_⟩
    · rw [l, i1, i3 out (by omega) (by omega), l m reg, l m msg, g1 _ (.inl rfl), g1 _ (.inr rfl), g2]
      rfl
    · rw [l, i2, i3 reg (by omega) (by omega), l m msg, g1 _ (.inr rfl), g3]
    · intro a a1 a2
      rw [i3 a (by omega) (by omega), store_out _ _ _ _ (by simp; omega), store_out _ _ _ _ (by simp; omega)]

theorem combine_spec (dir : Dir) (n : Nat) (m : Mem) (out reg msg : Nat) (h1 : msg = out ∨ msg + n ≤ out ∨ out + n ≤ msg)
    (h2 : msg + n ≤ reg ∨ reg + n ≤ msg) (h3 : out + n ≤ reg ∨ reg + n ≤ out) :
    load (combine dir m out reg msg n) out n = xorBytes (load m msg n) (load m reg n) ∧
    load (combine dir m out reg msg n) reg n = ctOf dir (load m msg n) (xorBytes (load m msg n) (load m reg n)) ∧
    ∀ a, (a < out ∨ out + n ≤ a) → (a < reg ∨ reg + n ≤ a) → combine dir m out reg msg n a = m a := by
  cases dir with
  | encryption =>
    simp only [combine, ctOf]
    have e : load (xorbuf m reg msg n) reg n = xorBytes (load m msg n) (load m reg n) := by
      unfold xorbuf
      rw [load_store' _ _ _ _ (by simp), xorBytes_comm]
    refine ⟨by rw [load_copy, e], by rw [load_copy_disj _ _ _ _ _ _ (by omega), e], ?_⟩
    intro a a1 a2
    rw [copy_out _ _ _ _ _ a1, xorbuf_out _ _ _ _ _ a2]
  | decryption =>
    simp only [combine, ctOf]
    obtain ⟨i1, i2, i3⟩ := combineDec_spec n m out reg msg h1 h2 h3
    exact ⟨by rw [i1, xorBytes_comm], i2, i3⟩

theorem ctOf_length (dir : Dir) (x out : List Byte) (h : x.length = out.length) : (ctOf dir x out).length = x.length := by
  cases dir with
  | encryption => exact h.symm
  | decryption => rfl

/-- Left-over keystream is used. -/
theorem leftover_done (hf0 : 0 < f) (hfs : f ≤ s) (hE : ∀ b, b.length = s → (E b).length = s) (m : Mem) (r t outP inP L : Nat) (reg d : List Byte)
    (hi : CfbInv E s f m r ⟨reg, d⟩) (hL : d.length + L ≤ f) (hp : Place s r t outP inP L) :
    ∃ d', d'.length = d.length + L ∧
      Done E s f dir m (combine dir m outP (r + (s - f) + d.length) inP L) r t outP inP L ⟨reg, d⟩ ⟨reg, d'⟩ := by
  obtain ⟨pa, pb, pc, pd, pe, pg⟩ := hp
  obtain ⟨hr, hd, hm⟩ := hi
  simp only at hr hd hm
  have hEl := hE reg hr
  obtain ⟨c1, c2, c3⟩ := combine_spec dir L m outP (r + (s - f) + d.length) inP pa (by omega) (by omega)
  -- the register bytes used
  have hks : load m (r + (s - f) + d.length) L = ((E reg).drop d.length).take L := by
    have e := congrArg (fun l => (l.drop (s - f + d.length)).take L) hm
    rw [load_drop _ _ _ _ (by omega), load_take _ _ _ _ (by omega), List.drop_left' (by simp; omega), List.drop_take, List.take_take,
      show min L (f - d.length) = L by omega, ← Nat.add_assoc] at e
    exact e
  have hx : xorBytes (load m inP L) (load m (r + (s - f) + d.length) L) = xorBytes (load m inP L) ((E reg).drop d.length) := by
    rw [hks]
    have := xorBytes_take (load m inP L) ((E reg).drop d.length) L
    rw [List.take_of_length_le (by simp; omega), List.take_of_length_le (l := load m inP L) (by simp)] at this
    exact this.symm
  rw [hx] at c1 c2
  have hol : (xorBytes (load m inP L) ((E reg).drop d.length)).length = L := by simp; omega
  refine ⟨d ++ ctOf dir (load m inP L) (xorBytes (load m inP L) ((E reg).drop d.length)), ?_, ?_, ?_, ?_⟩
  · rw [List.length_append, ctOf_length dir _ _ (by rw [hol, load_length]), load_length]
  · rw [feed_segment E s f dir hfs hE reg hr (load m inP L) d (by simpa using hL), c1]
  · refine ⟨hr, ?_, ?_⟩
    · show (d ++ _).length ≤ f
      rw [List.length_append, ctOf_length dir _ _ (by rw [hol, load_length]), load_length]; exact hL
    · simp only
      generalize hct : ctOf dir (load m inP L) (xorBytes (load m inP L) ((E reg).drop d.length)) = ct at c2
      have hctl : ct.length = L := by rw [← hct, ctOf_length dir _ _ (by rw [hol, load_length]), load_length]
      obtain ⟨j, hj⟩ : ∃ j, s = (s - f + d.length) + (L + j) := ⟨s - (s - f + d.length) - L, by omega⟩
      have e0 : load m r s = load m r (s - f + d.length) ++ (load m (r + (s - f + d.length)) L ++ load m (r + (s - f + d.length) + L) j) := by
        conv => lhs; rw [hj]
        rw [load_add m r (s - f + d.length) (L + j), load_add m _ L j]
      have e1 : ∀ m' : Mem, load m' r s = load m' r (s - f + d.length) ++ (load m' (r + (s - f + d.length)) L ++ load m' (r + (s - f + d.length) + L) j) := by
        intro m'
        conv => lhs; rw [hj]
        rw [load_add m' r (s - f + d.length) (L + j), load_add m' _ L j]
      rw [e0] at hm
      have hm' : load m r (s - f + d.length) = reg.drop f ++ d ∧
          load m (r + (s - f + d.length)) L ++ load m (r + (s - f + d.length) + L) j = ((E reg).take f).drop d.length :=
        List.append_inj hm (by simp; omega)
      have htail : load m (r + (s - f + d.length) + L) j = ((E reg).take f).drop (d.length + L) := by
        have := congrArg (List.drop L) hm'.2
        rw [List.drop_left' (by simp), List.drop_drop] at this
        exact this
      rw [e1, List.length_append, hctl, ← htail]
      have a1 : load (combine dir m outP (r + (s - f) + d.length) inP L) r (s - f + d.length) = load m r (s - f + d.length) :=
        load_congr _ _ _ _ (fun i hi => c3 _ (by omega) (by omega))
      have a2 : load (combine dir m outP (r + (s - f) + d.length) inP L) (r + (s - f + d.length) + L) j = load m (r + (s - f + d.length) + L) j :=
        load_congr _ _ _ _ (fun i hi => c3 _ (by omega) (by omega))
      rw [Nat.add_assoc] at c2 a1 a2
      rw [Nat.add_assoc r (s - f) d.length, a1, a2, c2, hm'.1]
      simp only [List.append_assoc]
  · intro a a1 a2 a3
    exact c3 a a1 (by omega)

/-- `TransformRegister` on a full segment starts the next. -/
theorem transform_inv (hf0 : 0 < f) (hfs : f ≤ s) (hE : ∀ b, b.length = s → (E b).length = s) (m : Mem) (o : CfbObj) (hof : o.f = f)
    (hrt : o.r + s ≤ o.t ∨ o.t + s ≤ o.r) (x : List Byte) (hx : load m o.r s = x) :
    CfbInv E s f (transformRegister E s m o) o.r ⟨x, []⟩ ∧
    ∀ a, (a < o.r ∨ o.r + s ≤ a) → (a < o.t ∨ o.t + s ≤ a) → transformRegister E s m o a = m a := by
  have hxl : x.length = s := by rw [← hx]; simp
  have hEl := hE x hxl
  unfold transformRegister
  simp only [hof, hx]
  have e1 : load (store m o.t (E x)) (o.r + f) (s - f) = x.drop f := by
    rw [load_store_disj _ _ _ _ _ (by omega), ← load_drop _ _ _ _ hfs, hx]
  have e2 : load (store m o.t (E x)) o.t f = (E x).take f := by
    rw [← load_take _ o.t s f hfs, load_store' _ _ _ _ hEl]
  refine ⟨⟨hxl, by simp, ?_⟩, ?_⟩
  · simp only [List.append_nil, List.length_nil, List.drop_zero]
    have e3 : s = (s - f) + f := by omega
    conv => lhs; rw [e3]
    rw [load_add]
    simp only [Nat.sub_add_cancel hfs]
    rw [load_copy_disj _ _ _ _ _ _ (by omega), load_copy, load_copy, e1, load_copy_disj _ _ _ _ _ _ (by omega), e2]
  · intro a a1 a2
    rw [copy_out _ _ _ _ _ (by omega), copy_out _ _ _ _ _ (by omega), store_out _ _ _ _ (by omega)]

/-- A whole or partial segment is processed after a full one. -/
theorem segment_done (hf0 : 0 < f) (hfs : f ≤ s) (hE : ∀ b, b.length = s → (E b).length = s) (m : Mem) (o : CfbObj) (hof : o.f = f) (outP inP L : Nat)
    (reg d : List Byte) (hi : CfbInv E s f m o.r ⟨reg, d⟩) (hd : d.length = f) (hL0 : 0 < L) (hL : L ≤ f) (hp : Place s o.r o.t outP inP L) :
    ∃ st', st'.d.length = L ∧
      Done E s f dir m (combine dir (transformRegister E s m o) outP (registerBegin s o) inP L) o.r o.t outP inP L ⟨reg, d⟩ st' := by
  obtain ⟨hr, _, hm⟩ := hi
  simp only [hd] at hm hr
  have hm' : load m o.r s = reg.drop f ++ d := by
    rw [hm, List.drop_eq_nil_of_le (as := (E reg).take f) (by simp; omega), List.append_nil]
  obtain ⟨t1, t2⟩ := transform_inv hf0 hfs hE m o hof hp.rt _ hm'
  obtain ⟨d', hd', f1, i1, o1⟩ := leftover_done (dir := dir) hf0 hfs hE (transformRegister E s m o) o.r o.t outP inP L (reg.drop f ++ d) [] t1 (by simpa using hL) hp
  simp only [List.length_nil, Nat.add_zero, Nat.zero_add] at f1 i1 o1 hd'
  have hin : load (transformRegister E s m o) inP L = load m inP L := by
    obtain ⟨pa, pb, pc, pd, pe, pg⟩ := hp
    exact load_congr _ _ _ _ (fun i hi => t2 _ (by omega) (by omega))
  rw [hin] at f1
  refine ⟨⟨reg.drop f ++ d, d'⟩, hd', ?_, ?_, ?_⟩
  · unfold registerBegin
    rw [hof, ← f1]
    have hne : load m inP L ≠ [] := by
      intro e
      have := congrArg List.length e
      simp at this; omega
    rw [feed_next E s f dir hf0 hfs hE reg d hr hd _ hne (by simpa using hL)]
    rw [feed_segment E s f dir hfs hE _ t1.1 _ [] (by simpa using hL)]
    simp
  · unfold registerBegin
    rw [hof]
    exact i1
  · unfold registerBegin
    rw [hof]
    intro a a1 a2 a3
    rw [o1 a a1 a2 a3, t2 a a2 a3]

theorem cfbLoop_done (hf0 : 0 < f) (hfs : f ≤ s) (hE : ∀ b, b.length = s → (E b).length = s) (o : CfbObj) (hof : o.f = f) (n : Nat) :
    ∀ (m : Mem) (outP inP : Nat) (st : CfbS), CfbInv E s f m o.r st → st.d.length = f → Place s o.r o.t outP inP (n * f) →
    ∃ st', st'.d.length = f ∧ Done E s f dir m (cfbLoop E s dir o n m outP inP) o.r o.t outP inP (n * f) st st' := by
  induction n with
  | zero => intro m outP inP st hi hd _; exact ⟨st, hd, by rw [Nat.zero_mul]; exact Done.nil hi⟩
  | succ n ih =>
    intro m outP inP st hi hd hp
    have hmul : (n + 1) * f = f + n * f := by rw [Nat.succ_mul]; omega
    rw [hmul] at hp ⊢
    obtain ⟨st1, h1, d1⟩ := segment_done (dir := dir) hf0 hfs hE m o hof outP inP f st.reg st.d hi hd hf0 (Nat.le_refl _) hp.fst
    obtain ⟨st2, h2, d2⟩ := ih _ (outP + f) (inP + f) st1 d1.2.1 h1 hp.snd
    refine ⟨st2, h2, ?_⟩
    simp only [cfbLoop, hof]
    exact d1.trans hp d2

/-! ### `Iterate` -/

/-- Blocks after a full block, with feedback of whole blocks. -/
theorem feed_blocks_enc (hs : 0 < s) (hE : ∀ b, b.length = s → (E b).length = s) (xs : List (List Byte)) : ∀ (reg d : List Byte), reg.length = s → d.length = s →
    (∀ x ∈ xs, x.length = s) → ∃ reg', reg'.length = s ∧
      feed E s .encryption ⟨reg, d⟩ xs.flatten = (⟨reg', (chain (fun c x => xorBytes (E c) x) d xs).getLastD d⟩, (chain (fun c x => xorBytes (E c) x) d xs).flatten) := by
  induction xs with
  | nil => intro reg d hr _ _; exact ⟨reg, hr, rfl⟩
  | cons x xs ih =>
    intro reg d hr hd hx
    have hxl := hx x (by simp)
    have hne : x ≠ [] := by intro e; rw [e] at hxl; simp at hxl; omega
    have e : reg.drop s ++ d = d := by rw [List.drop_eq_nil_of_le (by omega)]; rfl
    rw [List.flatten_cons, feed_append, feed_next E s s .encryption hs (Nat.le_refl _) hE reg d hr hd x hne (by omega), e]
    simp only [ctOf]
    have hol : (xorBytes x (E d)).length = s := by rw [xorBytes_length, hxl, hE d hd]; omega
    obtain ⟨reg', hr', h⟩ := ih d (xorBytes x (E d)) hd hol (fun y hy => hx y (by simp [hy]))
    refine ⟨reg', hr', ?_⟩
    rw [h]
    simp only [chain, List.getLastD_cons, List.flatten_cons, xorBytes_comm (E d) x]

/-- Decryption: each block is combined with the encryption of the block before. -/
def cfbDecChain (E : List Byte → List Byte) : List Byte → List (List Byte) → List (List Byte)
  | _, [] => []
  | c, x :: xs => xorBytes (E c) x :: cfbDecChain E x xs

theorem feed_blocks_dec (hs : 0 < s) (hE : ∀ b, b.length = s → (E b).length = s) (xs : List (List Byte)) : ∀ (reg d : List Byte), reg.length = s → d.length = s →
    (∀ x ∈ xs, x.length = s) → ∃ reg', reg'.length = s ∧
      feed E s .decryption ⟨reg, d⟩ xs.flatten = (⟨reg', xs.getLastD d⟩, (cfbDecChain E d xs).flatten) := by
  induction xs with
  | nil => intro reg d hr _ _; exact ⟨reg, hr, rfl⟩
  | cons x xs ih =>
    intro reg d hr hd hx
    have hxl := hx x (by simp)
    have hne : x ≠ [] := by intro e; rw [e] at hxl; simp at hxl; omega
    have e : reg.drop s ++ d = d := by rw [List.drop_eq_nil_of_le (by omega)]; rfl
    rw [List.flatten_cons, feed_append, feed_next E s s .decryption hs (Nat.le_refl _) hE reg d hr hd x hne (by omega), e]
    simp only [ctOf]
    obtain ⟨reg', hr', h⟩ := ih d x hd hxl (fun y hy => hx y (by simp [hy]))
    refine ⟨reg', hr', ?_⟩
    rw [h]
    simp only [cfbDecChain, List.getLastD_cons, List.flatten_cons, xorBytes_comm (E d) x]

theorem cfbDecChain_blocksOf (n : Nat) (g : Nat → List Byte) :
    (cfbDecChain E (g 0) ((List.range n).map fun k => g (k + 1))).flatten = blocksOf n (fun k => xorBytes (E (g k)) (g (k + 1))) := by
  induction n generalizing g with
  | zero => simp [cfbDecChain, blocksOf]
  | succ n ih =>
    rw [List.range_succ_eq_map, List.map_cons, List.map_map, blocksOf_succ]
    simp only [cfbDecChain, List.flatten_cons]
    congr 1
    exact ih (fun k => g (k + 1))

theorem chain_getLastD_length (F : List Byte → List Byte → List Byte) (hF : ∀ c x, c.length = s → x.length = s → (F c x).length = s)
    (xs : List (List Byte)) : ∀ c, c.length = s → (∀ x ∈ xs, x.length = s) → ∀ y ∈ chain F c xs, y.length = s := by
  induction xs with
  | nil => intro c _ _ y hy; cases hy
  | cons x xs ih =>
    intro c hc hx y hy
    have h1 := hF c x hc (hx x (by simp))
    simp only [chain, List.mem_cons] at hy
    rcases hy with rfl | hy
    · exact h1
    · exact ih _ h1 (fun z hz => hx z (by simp [hz])) y hy

theorem iterate_done (hs : 0 < s) (hE : ∀ b, b.length = s → (E b).length = s) (m : Mem) (o : CfbObj) (n : Nat) (hn : 0 < n) (outP inP : Nat)
    (st : CfbS) (hi : CfbInv E s s m o.r st) (hd : st.d.length = s) (hp : Place s o.r o.t outP inP (n * s)) :
    ∃ m' st', iterate E s dir m o outP inP n = .ok m' ∧ st'.d.length = s ∧ Done E s s dir m m' o.r o.t outP inP (n * s) st st' := by
  obtain ⟨t, rfl⟩ : ∃ t, n = t + 1 := ⟨n - 1, by omega⟩
  obtain ⟨reg, d⟩ := st
  obtain ⟨hr, _, hm⟩ := hi
  simp only at hr hd hm
  have hreg : load m o.r s = d := by
    rw [hm, List.drop_eq_nil_of_le (by omega), List.drop_eq_nil_of_le (as := (E reg).take s) (by simp; omega)]; simp
  have hmul : (t + 1) * s = s + t * s := by rw [Nat.succ_mul]; omega
  obtain ⟨pa, pb, pc, pd, pe, pg⟩ := hp
  have hch : chunks s (load m inP ((t + 1) * s)) = load m inP s :: chunks s (load m (inP + s) (t * s)) := by
    rw [hmul, load_add, chunks_append_block s hs _ _ (by simp)]
  have hfl : load m inP ((t + 1) * s) = (chunks s (load m inP ((t + 1) * s))).flatten := (chunks_flatten s hs _).symm
  have hcl : ∀ x ∈ chunks s (load m inP ((t + 1) * s)), x.length = s := chunks_block_length s hs _ (by simp)
  cases dir with
  | encryption =>
    obtain ⟨B, hB⟩ : ∃ B, xorBytes (E (load m o.r s)) (load m inP s) = B := ⟨_, rfl⟩
    have hBl : B.length = s := by rw [← hB, xorBytes_length, hE _ (by simp), load_length]; omega
    obtain ⟨c1, c2⟩ := chainLoop_spec (fun c x => xorBytes (E c) x) s (fun c x hc hx => by rw [xorBytes_length, hE c hc, hx]; omega)
      t (store m outP B) (inP + s) outP (by omega)
    have hsec : (if t + 1 > 1 then apb E s (store m outP B) outP (some (inP + s)) (outP + s) ((t + 1 - 1) * s) {}
        else .ok (store m outP B) : Except Err Mem) = .ok (chainLoop (fun c x => xorBytes (E c) x) s t (store m outP B) (inP + s) outP) := by
      by_cases h : t = 0
      · subst h; rfl
      · rw [if_pos (by omega), Nat.add_sub_cancel, apb]
        simp only [Bool.false_eq_true, if_false]
        rw [Nat.mul_div_cancel _ hs, apbLoop_cfb]
    rw [load_store' _ _ _ _ hBl] at c1
    generalize chainLoop (fun c x => xorBytes (E c) x) s t (store m outP B) (inP + s) outP = m2 at c1 c2 hsec
    have hdata : (List.range t).map (fun k => load (store m outP B) (inP + s + k * s) s) = chunks s (load m (inP + s) (t * s)) := by
      rw [load_chunks _ _ _ _ hs]
      apply List.map_congr_left
      intro k hk
      have hk := List.mem_range.mp hk
      have hk' : k * s + s ≤ t * s := by rw [← Nat.succ_mul]; exact Nat.mul_le_mul_right s hk
      exact load_store_disj _ _ _ _ _ (by omega)
    rw [hdata] at c1
    obtain ⟨reg', hr', hfeed⟩ := feed_blocks_enc hs hE _ reg d hr hd hcl
    rw [← hfl] at hfeed
    have hout : load m2 outP ((t + 1) * s) = (chain (fun c x => xorBytes (E c) x) d (chunks s (load m inP ((t + 1) * s)))).flatten := by
      rw [hch]
      simp only [chain, List.flatten_cons, ← hreg, hB]
      rw [hmul, load_add, c1]
      congr 1
      rw [show load m2 outP s = load (store m outP B) outP s from load_congr _ _ _ _ (fun i hi => c2 _ (by omega))]
      exact load_store' _ _ _ _ hBl
    have hlast : load m2 (outP + t * s) s = (chain (fun c x => xorBytes (E c) x) d (chunks s (load m inP ((t + 1) * s)))).getLastD d := by
      rw [getLastD_flatten s _ _ (chain_getLastD_length _ (fun c x hc hx => by rw [xorBytes_length, hE c hc, hx]; omega) _ d hd hcl)
        (by rw [hch]; simp [chain])]
      rw [← hout, load_length, load_drop _ _ _ _ (by omega)]
      have e1 : (t + 1) * s - s = t * s := by omega
      have e2 : (t + 1) * s - ((t + 1) * s - s) = s := by omega
      rw [e2, e1]
    refine ⟨copy m2 o.r (outP + t * s) s, ⟨reg', (chain (fun c x => xorBytes (E c) x) d (chunks s (load m inP ((t + 1) * s)))).getLastD d⟩, ?_, ?_, ?_, ⟨hr', ?_, ?_⟩, ?_⟩
    · simp only [iterate, hB]
      rw [hsec]
      simp only [bind, Except.bind, Nat.add_sub_cancel]
    · simp only [← hlast, load_length]
    · rw [hfeed, load_copy_disj _ _ _ _ _ _ (by omega), hout]
    · simp only [← hlast, load_length]; omega
    · simp only
      rw [load_copy, hlast, List.drop_eq_nil_of_le (by omega), List.drop_eq_nil_of_le (as := (E reg').take s)]
      · simp
      · rw [← hlast]; simp; omega
    · intro a a1 a2 a3
      rw [copy_out _ _ _ _ _ a2, c2 a (by omega), store_out _ _ _ _ (by omega)]
  | decryption =>
    obtain ⟨m1, hm1⟩ : ∃ m1, copy m o.t (inP + t * s) s = m1 := ⟨_, rfl⟩
    obtain ⟨m2, r1, r2, r3⟩ := apb_reverse E s hE inP (inP + s) (outP + s) t m1 (by omega) (by omega)
    have hsec : (if t + 1 > 1 then apb E s m1 inP (some (inP + s)) (outP + s) ((t + 1 - 1) * s) { reverse := true }
        else .ok m1 : Except Err Mem) = .ok m2 := by
      by_cases h : t = 0
      · subst h
        have : m2 = m1 := by funext a; exact r3 a (by omega)
        rw [this]; rfl
      · rw [if_pos (by omega), Nat.add_sub_cancel, r1]
    have hin : ∀ k, k ≤ t → load m1 (inP + k * s) s = load m (inP + k * s) s := by
      intro k hk
      have hk' : k * s ≤ t * s := Nat.mul_le_mul_right s hk
      rw [← hm1]
      exact load_copy_disj _ _ _ _ _ _ (by omega)
    have hreg2 : load m2 o.r s = d := by
      rw [show load m2 o.r s = load m1 o.r s from load_congr _ _ _ _ (fun i hi => r3 _ (by omega)), ← hm1, load_copy_disj _ _ _ _ _ _ (by omega), hreg]
    have hin0 : load m2 inP s = load m inP s := by
      rw [show load m2 inP s = load m1 inP s from load_congr _ _ _ _ (fun i hi => r3 _ (by omega))]
      simpa using hin 0 (by omega)
    have ht2 : load m2 o.t s = load m (inP + t * s) s := by
      rw [show load m2 o.t s = load m1 o.t s from load_congr _ _ _ _ (fun i hi => r3 _ (by omega)), ← hm1, load_copy]
    obtain ⟨B, hB⟩ : ∃ B, xorBytes (E d) (load m inP s) = B := ⟨_, rfl⟩
    have hBl : B.length = s := by rw [← hB, xorBytes_length, hE _ hd, load_length]; omega
    obtain ⟨reg', hr', hfeed⟩ := feed_blocks_dec hs hE _ reg d hr hd hcl
    rw [← hfl] at hfeed
    have hch' : chunks s (load m inP ((t + 1) * s)) = (List.range (t + 1)).map fun k => load m (inP + k * s) s := load_chunks _ _ _ _ hs
    have hout : load (store m2 outP B) outP ((t + 1) * s) = (cfbDecChain E d (chunks s (load m inP ((t + 1) * s)))).flatten := by
      rw [hch', List.range_succ_eq_map, List.map_cons, List.map_map]
      simp only [cfbDecChain, Nat.zero_mul, Nat.add_zero, hB, List.flatten_cons]
      rw [hmul, load_add, load_store' _ _ _ _ hBl]
      congr 1
      rw [load_store_disj _ _ _ _ _ (by omega), r2]
      have := cfbDecChain_blocksOf (E := E) t (fun k => load m (inP + k * s) s)
      simp only [Nat.zero_mul, Nat.add_zero] at this
      rw [show ((fun k => load m (inP + k * s) s) ∘ Nat.succ) = fun k => load m (inP + (k + 1) * s) s from rfl, this]
      apply blocksOf_congr
      intro k hk
      have e : inP + s + k * s = inP + (k + 1) * s := by rw [Nat.succ_mul]; omega
      rw [e, hin (k + 1) (by omega), hin k (by omega)]
    have hlast : load m (inP + t * s) s = (chunks s (load m inP ((t + 1) * s))).getLastD d := by
      rw [hch', List.range_succ, List.map_append, List.map_cons, List.map_nil, List.getLastD_concat]
    refine ⟨copy (store m2 outP B) o.r o.t s, ⟨reg', (chunks s (load m inP ((t + 1) * s))).getLastD d⟩, ?_, ?_, ?_, ⟨hr', ?_, ?_⟩, ?_⟩
    · simp only [iterate, Nat.add_sub_cancel, hm1] at hsec ⊢
      rw [hsec]
      simp only [bind, Except.bind, hreg2, hin0, hB]
    · simp only [← hlast, load_length]
    · rw [hfeed, load_copy_disj _ _ _ _ _ _ (by omega), hout]
    · simp only [← hlast, load_length]; omega
    · simp only
      rw [load_copy, load_store_disj _ _ _ _ _ (by omega), ht2, hlast, List.drop_eq_nil_of_le (by omega),
        List.drop_eq_nil_of_le (as := (E reg').take s)]
      · simp
      · rw [← hlast]; simp; omega
    · intro a a1 a2 a3
      rw [copy_out _ _ _ _ _ a2, store_out _ _ _ _ (by omega), r3 a (by omega), ← hm1, copy_out _ _ _ _ _ a3]

theorem cfbRest_done (hf0 : 0 < f) (hfs : f ≤ s) (hE : ∀ b, b.length = s → (E b).length = s) (aligned : Bool) (m : Mem) (o : CfbObj) (hof : o.f = f) (ho : o.leftOver = 0)
    (outP inP L : Nat) (st : CfbS) (hi : CfbInv E s f m o.r st) (hd : st.d.length = f) (hp : Place s o.r o.t outP inP L) :
    ∃ m' o' st', cfbRest E s dir aligned m o outP inP L = .ok (m', o') ∧ Done E s f dir m m' o.r o.t outP inP L st st' ∧
      o' = { o with leftOver := f - st'.d.length } := by
  have hs : 0 < s := by omega
  -- the part done by `Iterate`
  obtain ⟨m1, st1, done, e1, hdone, hd1, D1, hle⟩ : ∃ m1 st1 done,
      (if o.f = s ∧ L ≥ o.f ∧ aligned = true then iterate E s dir m o outP inP (L / o.f) else .ok m : Except Err Mem) = .ok m1 ∧
      (if o.f = s ∧ L ≥ o.f ∧ aligned = true then L - L % o.f else 0) = done ∧ st1.d.length = f ∧
      Done E s f dir m m1 o.r o.t outP inP done st st1 ∧ done ≤ L := by
    by_cases hc : o.f = s ∧ L ≥ o.f ∧ aligned = true
    · simp only [if_pos hc]
      obtain ⟨c1, c2, _⟩ := hc
      have hfeq : f = s := by omega
      subst hfeq
      have hq : L / f * f ≤ L := Nat.div_mul_le_self L f
      have hmod : L - L % f = L / f * f := by have := Nat.div_add_mod' L f; omega
      obtain ⟨j, hj⟩ := Nat.exists_eq_add_of_le hq
      have hp' : Place f o.r o.t outP inP (L / f * f) := by
        rw [hj] at hp; exact hp.fst
      obtain ⟨m1, st1, a1, a2, a3⟩ := iterate_done (dir := dir) hs hE m o (L / f) (Nat.div_pos (by omega) hs) outP inP st hi hd hp'
      exact ⟨m1, st1, _, by rw [hof]; exact a1, rfl, a2, by rw [hof, hmod]; exact a3, by omega⟩
    · simp only [if_neg hc]
      exact ⟨m, st, 0, rfl, rfl, hd, Done.nil hi, by omega⟩
  obtain ⟨L2, rfl⟩ := Nat.exists_eq_add_of_le hle
  have hp2 := hp.snd
  have hq : L2 / f * f ≤ L2 := Nat.div_mul_le_self L2 f
  obtain ⟨rem, hrem⟩ := Nat.exists_eq_add_of_le hq
  have hremlt : rem < f := by
    have h1 := Nat.div_add_mod' L2 f
    have h2 := Nat.mod_lt L2 hf0
    omega
  have hp3 : Place s o.r o.t (outP + done) (inP + done) (L2 / f * f + rem) := by rw [← hrem]; exact hp2
  obtain ⟨st2, hd2, D2⟩ := cfbLoop_done (dir := dir) hf0 hfs hE o hof (L2 / f) m1 (outP + done) (inP + done) st1 D1.2.1 hd1 hp3.fst
  have hL2 : done + L2 - done = L2 := by omega
  have hr2 : L2 - L2 / f * f = rem := by omega
  unfold cfbRest
  simp only [hof] at e1 hdone
  simp only [hof, e1, bind, Except.bind, hdone, hL2, hr2]
  by_cases hz : rem > 0
  · rw [if_pos hz]
    obtain ⟨st3, hd3, D3⟩ := segment_done (dir := dir) hf0 hfs hE _ o hof (outP + done + L2 / f * f) (inP + done + L2 / f * f) rem st2.reg st2.d
      D2.2.1 hd2 hz (by omega) hp3.snd
    refine ⟨_, _, st3, rfl, ?_, by rw [hd3]⟩
    apply D1.trans hp
    rw [hrem, ← hrem]
    have := D2.trans hp3 D3
    rw [← hrem] at this
    exact this
  · rw [if_neg hz]
    have hz0 : rem = 0 := by omega
    subst hz0
    refine ⟨_, _, st2, rfl, ?_, ?_⟩
    · apply D1.trans hp
      have e : L2 / f * f = L2 := by omega
      rw [e] at D2
      exact D2
    · rw [hd2, Nat.sub_self]
      cases o
      simp only at ho hof
      subst ho hof
      rfl

theorem cfbData_done (hf0 : 0 < f) (hfs : f ≤ s) (hE : ∀ b, b.length = s → (E b).length = s) (aligned : Bool) (m : Mem) (o : CfbObj) (hof : o.f = f)
    (outP inP L : Nat) (st : CfbS) (hi : CfbInv E s f m o.r st) (ho : o.leftOver = f - st.d.length) (hp : Place s o.r o.t outP inP L) :
    ∃ m' o' st', cfbData E s dir aligned m o outP inP L = .ok (m', o') ∧ Done E s f dir m m' o.r o.t outP inP L st st' ∧
      o' = { o with leftOver := f - st'.d.length } := by
  have hdl := hi.2.1
  generalize hlen : (if o.leftOver > 0 then min o.leftOver L else 0) = len
  have hlenL : len ≤ L := by rw [← hlen]; split <;> omega
  obtain ⟨L2, rfl⟩ := Nat.exists_eq_add_of_le hlenL
  have hlen' : st.d.length + len ≤ f := by rw [← hlen]; split <;> omega
  obtain ⟨m1, st1, hm1, hd1, D1⟩ : ∃ m1 st1, (if o.leftOver > 0 then combine dir m outP (registerBegin s o + (o.f - o.leftOver)) inP len else m) = m1 ∧
      st1.d.length = st.d.length + len ∧ Done E s f dir m m1 o.r o.t outP inP len st st1 := by
    by_cases h : o.leftOver > 0
    · rw [if_pos h]
      obtain ⟨d', h1, h2⟩ := leftover_done (dir := dir) hf0 hfs hE m o.r o.t outP inP len st.reg st.d hi hlen' hp.fst
      have e : o.f - o.leftOver = st.d.length := by omega
      have e' : registerBegin s o = o.r + (s - f) := by unfold registerBegin; rw [hof]
      rw [e, e']
      exact ⟨_, _, rfl, h1, h2⟩
    · rw [if_neg h] at hlen ⊢
      subst hlen
      exact ⟨m, st, rfl, rfl, Done.nil hi⟩
  unfold cfbData
  simp only [hlen, hm1]
  have e2 : len + L2 - len = L2 := by omega
  rw [e2]
  by_cases hz : L2 = 0
  · rw [if_pos hz]
    subst hz
    refine ⟨_, _, st1, rfl, D1, ?_⟩
    rw [hd1]
    congr 1
    omega
  · rw [if_neg hz]
    have hfull : st1.d.length = f := by
      rw [hd1, ← hlen] at *
      split at hlen
      · rw [if_pos ‹_›]; omega
      · rw [if_neg ‹_›]; omega
    obtain ⟨m2, o2, st2, a1, a2, a3⟩ := cfbRest_done (dir := dir) hf0 hfs hE aligned m1 { o with leftOver := o.leftOver - len } hof
      (by show o.leftOver - len = 0; omega) (outP + len) (inP + len) L2 st1 D1.2.1 hfull hp.snd
    exact ⟨m2, o2, st2, a1, D1.trans hp a2, by rw [a3]⟩

end

end Verif.Modes
