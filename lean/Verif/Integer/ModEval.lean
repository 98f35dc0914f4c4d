import Verif.Integer.ModProofs3

/-!
# Evaluating expressions with `ModularArithmetic` and with `MontgomeryRepresentation`

A client program that stores every intermediate result in an `Integer` of its own (`Integer x = ring.Add(a, b);`).  The state of the
ring object (`m_result1`) is threaded through the computation, and every call finds arbitrary contents in uninitialised memory
(`junk`, indexed by the position of the call).
-/
namespace Verif.Integer

variable {ws : Nat}

/-- The ring object after an operation that either wrote `m_result` (`fast`) or left its result in `m_result1`. -/
def ModArith.after (ma : ModArith) (fast : Bool) (r : Obj) : ModArith := if fast then ma else { ma with result1 := r }

/-- Both operands have the size of the modulus. -/
def ModArith.fast (ma : ModArith) (a b : Obj) : Bool := decide (a.reg.length = ma.size ∧ b.reg.length = ma.size)

/-- Evaluate with `ModularArithmetic` (modarith.h, integer.cpp:4574-4671); constants are reduced with `ConvertIn`. -/
def evalPlain (ws : Nat) (junk : List Nat → WMem) : List Nat → ModArith → Expr Obj → Except Err (Obj × ModArith)
  | p, ma, .const a => do
    let r ← modulo ws (junk p) a ma.modulus
    .ok (r, ma)
  | _, ma, .one => .ok (copyCtor (ofWord 1 2), ma)
  | p, ma, .add x y => do
    let (a, ma) ← evalPlain ws junk (0 :: p) ma x
    let (b, ma) ← evalPlain ws junk (1 :: p) ma y
    let r := ma.add ws a b
    .ok (copyCtor r, ma.after (ma.fast a b) r)
  | p, ma, .sub x y => do
    let (a, ma) ← evalPlain ws junk (0 :: p) ma x
    let (b, ma) ← evalPlain ws junk (1 :: p) ma y
    let r := ma.subtract ws a b
    .ok (copyCtor r, ma.after (ma.fast a b) r)
  | p, ma, .mul x y => do
    let (a, ma) ← evalPlain ws junk (0 :: p) ma x
    let (b, ma) ← evalPlain ws junk (1 :: p) ma y
    let r ← ma.multiply ws (junk p) false a b
    .ok (copyCtor r, ma.after false r)
  | p, ma, .sq x => do
    let (a, ma) ← evalPlain ws junk (0 :: p) ma x
    let r ← ma.square ws (junk p) a
    .ok (copyCtor r, ma.after false r)
  | p, ma, .neg x => do
    let (a, ma) ← evalPlain ws junk (0 :: p) ma x
    let r ← ma.inverse ws false a
    .ok (copyCtor r, ma)
  | p, ma, .half x => do
    let (a, ma) ← evalPlain ws junk (0 :: p) ma x
    let r := ma.half ws (junk p) a
    .ok (copyCtor r, ma.after (decide (a.reg.length = ma.size)) r)
  | p, ma, .inv x => do
    let (a, ma) ← evalPlain ws junk (0 :: p) ma x
    let r ← inverseMod ws (junk p) a ma.modulus
    let r := assign ma.result1 r
    .ok (copyCtor r, ma.after false r)

/-- `mr` with a new `m_result1`. -/
def Mont.upd (mr : Mont) (ma : ModArith) : Mont := { ma with u := mr.u }

/-- Evaluate with `MontgomeryRepresentation` (integer.cpp:4695-4766); constants enter through `ConvertIn`. -/
def evalMont (ws : Nat) (junk : List Nat → WMem) : List Nat → Mont → Expr Obj → Except Err (Obj × Mont)
  | p, mr, .const a => do
    let r ← mr.convertIn ws (junk p) a
    .ok (r, mr)
  | p, mr, .one => do
    let r ← mr.one ws (junk p)
    .ok (copyCtor r, mr.upd (mr.toModArith.after false r))
  | p, mr, .add x y => do
    let (a, mr) ← evalMont ws junk (0 :: p) mr x
    let (b, mr) ← evalMont ws junk (1 :: p) mr y
    let r := mr.add ws a b
    .ok (copyCtor r, mr.upd (mr.toModArith.after (mr.fast a b) r))
  | p, mr, .sub x y => do
    let (a, mr) ← evalMont ws junk (0 :: p) mr x
    let (b, mr) ← evalMont ws junk (1 :: p) mr y
    let r := mr.subtract ws a b
    .ok (copyCtor r, mr.upd (mr.toModArith.after (mr.fast a b) r))
  | p, mr, .mul x y => do
    let (a, mr) ← evalMont ws junk (0 :: p) mr x
    let (b, mr) ← evalMont ws junk (1 :: p) mr y
    let r ← mr.multiply ws (junk p) false a b
    .ok (copyCtor r, mr)
  | p, mr, .sq x => do
    let (a, mr) ← evalMont ws junk (0 :: p) mr x
    let r ← mr.square ws (junk p) a
    .ok (copyCtor r, mr)
  | p, mr, .neg x => do
    let (a, mr) ← evalMont ws junk (0 :: p) mr x
    let r ← mr.inverse ws false a
    .ok (copyCtor r, mr)
  | p, mr, .half x => do
    let (a, mr) ← evalMont ws junk (0 :: p) mr x
    let r := mr.half ws (junk p) a
    .ok (copyCtor r, mr.upd (mr.toModArith.after (decide (a.reg.length = mr.size)) r))
  | p, mr, .inv x => do
    let (a, mr) ← evalMont ws junk (0 :: p) mr x
    let r ← mr.inv ws (junk p) a
    .ok (copyCtor r, mr)

/-- The whole client program: construct the ring, evaluate, and (for Montgomery) convert the result out. -/
def runPlain (ws : Nat) (junk : List Nat → WMem) (m : Obj) (e : Expr Obj) : Except Err Obj :=
  (evalPlain ws junk [] (ModArith.mk' m) e).map (·.1)

/-- As `runPlain`, with `MontgomeryRepresentation`. -/
def runMont (ws : Nat) (junk : List Nat → WMem) (m : Obj) (e : Expr Obj) : Except Err Obj := do
  let mr ← Mont.mk' ws (junk [2]) m
  let (r, mr) ← evalMont ws junk [] mr e
  mr.convertOut ws (junk [3]) r

/-! ## Correctness -/

/-- What evaluation establishes about a stored result. -/
structure Elem (ws : Nat) (ma : ModArith) (x : Obj) : Prop where
  ok : Ok ws x
  nn : 0 ≤ value ws x
  lt : value ws x < value ws ma.modulus
  len : x.reg.length ≤ ma.size

theorem elem_copy (hw : 0 < ws) {ma : ModArith} (g : ma.Good ws) {x : Obj} (hx : Ok ws x) (h0 : 0 ≤ value ws x)
    (h1 : value ws x < value ws ma.modulus) : Elem ws ma (copyCtor x) ∧ value ws (copyCtor x) = value ws x := by
  obtain ⟨co, cv⟩ := copyCtor_spec hw hx
  exact ⟨⟨co, by omega, by omega, by rw [copyCtor_length hx]; exact g.fits hw hx h0 h1⟩, cv⟩

theorem after_good {ma : ModArith} (g : ma.Good ws) (fast : Bool) {r : Obj} (hr : Ok ws r) : (ma.after fast r).Good ws := by
  unfold ModArith.after
  split
  · exact g
  · exact ⟨g.okm, g.pos, g.norm, g.rle, g.rpow, hr⟩

theorem after_mod (ma : ModArith) (fast : Bool) (r : Obj) : (ma.after fast r).modulus = ma.modulus := by
  unfold ModArith.after; split <;> rfl

/-- The operands' residues stay valid when only `m_result1` changed. -/
theorem Elem.of_mod {ma ma' : ModArith} {x : Obj} (h : Elem ws ma x) (e : ma'.modulus = ma.modulus) : Elem ws ma' x :=
  ⟨h.ok, h.nn, by rw [e]; exact h.lt, by unfold ModArith.size; rw [e]; exact h.len⟩

theorem emod_bounds {a m : Int} (h : 0 < m) : 0 ≤ a % m ∧ a % m < m := ⟨Int.emod_nonneg _ (by omega), Int.emod_lt_of_pos _ h⟩

theorem evalPlain_spec (hw : 0 < ws) {junk : List Nat → WMem} (hj : ∀ p, AllW (base ws) (junk p)) {M : Obj} (h1 : 1 < value ws M) :
    ∀ (e : Expr Obj) (p : List Nat) (ma : ModArith), ma.Good ws → ma.modulus = M → (∀ a ∈ e.consts, Ok ws a) →
    (value ws M % 2 = 1 ∨ e.noHalf) →
    ∃ r ma', evalPlain ws junk p ma e = .ok (r, ma') ∧ ma'.Good ws ∧ ma'.modulus = M ∧ Elem ws ma' r ∧
      Residue (value ws M) (e.map (value ws)) (value ws r) := by
  have hM : 0 < value ws M := by omega
  intro e
  induction e with
  | const a =>
    intro p ma g hm hc hh
    obtain ⟨r, he, ro, rv, rl⟩ := modulo_spec hw (hj p) (hc a (by simp [Expr.consts])) g.okm g.pos
    rw [← g.norm] at rl
    obtain ⟨b0, b1⟩ := emod_bounds (a := value ws a) g.pos
    refine ⟨r, ma, by rw [evalPlain, he]; rfl, g, hm, ⟨ro, by rw [rv]; exact b0, by rw [rv]; exact b1, rl⟩, ?_⟩
    rw [rv, hm]
    exact Residue.const _
  | one =>
    intro p ma g hm hc hh
    obtain ⟨oo, ov⟩ := ofWord_one hw
    obtain ⟨el, ev⟩ := elem_copy hw g oo (by omega) (by rw [hm]; omega)
    refine ⟨_, ma, by rw [evalPlain], g, hm, el, ?_⟩
    rw [ev, ov, show (1 : Int) = 1 % value ws M from (Int.emod_eq_of_lt (by omega) h1).symm]
    exact Residue.one
  | add x y ihx ihy =>
    intro p ma g hm hc hh
    obtain ⟨a, ma1, e1, g1, m1, el1, r1⟩ := ihx (0 :: p) ma g hm (fun a ha => hc a (by simp [Expr.consts, ha])) (hh.imp_right And.left)
    obtain ⟨b, ma2, e2, g2, m2, el2, r2⟩ := ihy (1 :: p) ma1 g1 m1 (fun a ha => hc a (by simp [Expr.consts, ha])) (hh.imp_right And.right)
    have el1' := el1.of_mod (ma' := ma2) (by rw [m1, m2])
    obtain ⟨so, sv⟩ := ModArith.add_spec hw g2 el1'.ok el2.ok el1'.nn el1'.lt el2.nn el2.lt
    rw [m2] at sv
    obtain ⟨b0, b1⟩ := emod_bounds (a := value ws a + value ws b) hM
    obtain ⟨el, ev⟩ := elem_copy hw g2 so (by rw [sv]; exact b0) (by rw [sv, m2]; exact b1)
    refine ⟨_, _, by rw [evalPlain, e1]; simp only [Bind.bind, Except.bind]; rw [e2], after_good g2 _ so, by rw [after_mod, m2],
      el.of_mod (after_mod _ _ _), ?_⟩
    rw [ev, sv]
    exact Residue.add r1 r2
  | sub x y ihx ihy =>
    intro p ma g hm hc hh
    obtain ⟨a, ma1, e1, g1, m1, el1, r1⟩ := ihx (0 :: p) ma g hm (fun a ha => hc a (by simp [Expr.consts, ha])) (hh.imp_right And.left)
    obtain ⟨b, ma2, e2, g2, m2, el2, r2⟩ := ihy (1 :: p) ma1 g1 m1 (fun a ha => hc a (by simp [Expr.consts, ha])) (hh.imp_right And.right)
    have el1' := el1.of_mod (ma' := ma2) (by rw [m1, m2])
    obtain ⟨so, sv⟩ := ModArith.subtract_spec hw g2 el1'.ok el2.ok el1'.nn el1'.lt el2.nn el2.lt
    rw [m2] at sv
    obtain ⟨b0, b1⟩ := emod_bounds (a := value ws a - value ws b) hM
    obtain ⟨el, ev⟩ := elem_copy hw g2 so (by rw [sv]; exact b0) (by rw [sv, m2]; exact b1)
    refine ⟨_, _, by rw [evalPlain, e1]; simp only [Bind.bind, Except.bind]; rw [e2], after_good g2 _ so, by rw [after_mod, m2],
      el.of_mod (after_mod _ _ _), ?_⟩
    rw [ev, sv]
    exact Residue.sub r1 r2
  | mul x y ihx ihy =>
    intro p ma g hm hc hh
    obtain ⟨a, ma1, e1, g1, m1, el1, r1⟩ := ihx (0 :: p) ma g hm (fun a ha => hc a (by simp [Expr.consts, ha])) (hh.imp_right And.left)
    obtain ⟨b, ma2, e2, g2, m2, el2, r2⟩ := ihy (1 :: p) ma1 g1 m1 (fun a ha => hc a (by simp [Expr.consts, ha])) (hh.imp_right And.right)
    obtain ⟨s, se, so, sv⟩ := ModArith.multiply_spec hw g2 (hj p) (same := false) el1.ok el2.ok (by simp)
    rw [m2] at sv
    obtain ⟨b0, b1⟩ := emod_bounds (a := value ws a * value ws b) hM
    obtain ⟨el, ev⟩ := elem_copy hw g2 so (by rw [sv]; exact b0) (by rw [sv, m2]; exact b1)
    refine ⟨_, _, by rw [evalPlain, e1]; simp only [Bind.bind, Except.bind]; rw [e2]; simp only; rw [se], after_good g2 _ so, by rw [after_mod, m2],
      el.of_mod (after_mod _ _ _), ?_⟩
    rw [ev, sv]
    exact Residue.mul r1 r2
  | sq x ihx =>
    intro p ma g hm hc hh
    obtain ⟨a, ma2, e1, g2, m2, el1, r1⟩ := ihx (0 :: p) ma g hm hc hh
    obtain ⟨s, se, so, sv⟩ := ModArith.square_spec hw g2 (hj p) el1.ok
    rw [m2] at sv
    obtain ⟨b0, b1⟩ := emod_bounds (a := value ws a * value ws a) hM
    obtain ⟨el, ev⟩ := elem_copy hw g2 so (by rw [sv]; exact b0) (by rw [sv, m2]; exact b1)
    refine ⟨_, _, by rw [evalPlain, e1]; simp only [Bind.bind, Except.bind]; rw [se], after_good g2 _ so, by rw [after_mod, m2],
      el.of_mod (after_mod _ _ _), ?_⟩
    rw [ev, sv]
    exact Residue.sq r1
  | neg x ihx =>
    intro p ma g hm hc hh
    obtain ⟨a, ma2, e1, g2, m2, el1, r1⟩ := ihx (0 :: p) ma g hm hc hh
    obtain ⟨s, se, so, sv⟩ := ModArith.inverse_spec hw g2 el1.ok el1.nn el1.lt (Nat.le_trans el1.len g2.rle)
    rw [m2] at sv
    obtain ⟨b0, b1⟩ := emod_bounds (a := -value ws a) hM
    obtain ⟨el, ev⟩ := elem_copy hw g2 so (by rw [sv]; exact b0) (by rw [sv, m2]; exact b1)
    refine ⟨_, _, by rw [evalPlain, e1]; simp only [Bind.bind, Except.bind]; rw [se], g2, m2, el, ?_⟩
    rw [ev, sv]
    exact Residue.neg r1
  | half x ihx =>
    intro p ma g hm hc hh
    have hodd : value ws M % 2 = 1 := hh.resolve_right (by simp [Expr.noHalf])
    obtain ⟨a, ma2, e1, g2, m2, el1, r1⟩ := ihx (0 :: p) ma g hm hc (Or.inl hodd)
    obtain ⟨so, b0, b1, sv⟩ := ModArith.half_spec hw g2 (hj p) el1.ok el1.nn el1.lt (by rw [m2]; exact hodd)
    obtain ⟨el, ev⟩ := elem_copy hw g2 so b0 b1
    refine ⟨_, _, by rw [evalPlain, e1]; rfl, after_good g2 _ so, by rw [after_mod, m2],
      el.of_mod (after_mod _ _ _), ?_⟩
    rw [ev]
    rw [m2] at sv b1
    exact Residue.half r1 b0 b1 sv
  | inv x ihx =>
    intro p ma g hm hc hh
    obtain ⟨a, ma2, e1, g2, m2, el1, r1⟩ := ihx (0 :: p) ma g hm hc hh
    obtain ⟨s, se, so, si⟩ := inverseMod_spec hw (hj p) el1.ok g2.okm g2.pos (fun _ _ _ => by have := el1.len; unfold ModArith.size at this; omega)
    obtain ⟨ao, av⟩ := assign_spec hw ma2.result1 so
    obtain ⟨el, ev⟩ := elem_copy hw g2 ao (by rw [av]; exact si.1) (by rw [av]; exact si.2.1)
    refine ⟨_, _, by rw [evalPlain, e1]; simp only [Bind.bind, Except.bind]; rw [se], after_good g2 _ ao, by rw [after_mod, m2],
      el.of_mod (after_mod _ _ _), ?_⟩
    rw [ev, av]
    rw [m2] at si
    exact Residue.inv r1 si

/-! ### Montgomery -/

theorem upd_good {mr : Mont} (g : mr.Good ws) (fast : Bool) {r : Obj} (hr : Ok ws r) : (mr.upd (mr.toModArith.after fast r)).Good ws := by
  unfold Mont.upd ModArith.after
  split
  · exact g
  · exact { toGood := ⟨g.okm, g.pos, g.norm, g.rle, g.rpow, hr⟩, odd := g.odd, ulen := g.ulen, uwords := g.uwords, uinv := g.uinv }

/-- The multiplicative inverse of the radix. -/
theorem radix_inv {m : Int} (hm : 0 < m) (hodd : m % 2 = 1) (k : Nat) : ∃ i : Int, 2 ^ k * i ≡ 1 [ZMOD m] := by
  refine ⟨((m + 1) / 2) ^ k, ?_⟩
  rw [← mul_pow, show (2 : Int) * ((m + 1) / 2) = m + 1 by omega]
  have h : m + 1 ≡ 1 [ZMOD m] := by
    unfold Int.ModEq
    rw [Int.add_comm, Int.add_emod_right]
  have h2 := h.pow k
  rwa [one_pow] at h2

theorem emod_of_dvd {m a b : Int} (w : Int) (h : b - a = m * w) : a % m = b % m := Int.modEq_iff_dvd.mpr ⟨w, h⟩

theorem dvd_of_emod {m a b : Int} (h : a % m = b % m) : ∃ w, b - a = m * w := Int.modEq_iff_dvd.mp h

theorem out_add {m a b i : Int} : (a + b) % m * i % m = (a * i % m + b * i % m) % m := by
  refine emod_of_dvd ((a + b) / m * i - a * i / m - b * i / m) ?_
  rw [Int.emod_def, Int.emod_def, Int.emod_def]; ring

theorem out_sub {m a b i : Int} : (a - b) % m * i % m = (a * i % m - b * i % m) % m := by
  refine emod_of_dvd ((a - b) / m * i - a * i / m + b * i / m) ?_
  rw [Int.emod_def, Int.emod_def, Int.emod_def]; ring

theorem out_neg {m a i : Int} : -a % m * i % m = -(a * i % m) % m := by
  refine emod_of_dvd (-a / m * i + a * i / m) ?_
  rw [Int.emod_def, Int.emod_def]; ring

theorem out_const {m a R i : Int} (hR : R * i ≡ 1 [ZMOD m]) : a * R % m * i % m = a % m := by
  obtain ⟨c, hc⟩ := dvd_of_emod hR
  refine emod_of_dvd (a * R / m * i + a * c) ?_
  rw [Int.emod_def]; linear_combination a * hc

theorem out_mul {m a b R i s : Int} (hR : R * i ≡ 1 [ZMOD m]) (h : s * R % m = a * b % m) :
    s * i % m = (a * i % m) * (b * i % m) % m := by
  obtain ⟨c, hc⟩ := dvd_of_emod hR
  obtain ⟨d, hd⟩ := dvd_of_emod h
  refine emod_of_dvd (d * i ^ 2 - s * i * c - a * i / m * b * i - b * i / m * a * i + m * (a * i / m) * (b * i / m)) ?_
  rw [Int.emod_def, Int.emod_def]; linear_combination i ^ 2 * hd - s * i * hc

theorem out_out {m a R i s : Int} (hR : R * i ≡ 1 [ZMOD m]) (h : s * R % m = a % m) : s % m = a * i % m := by
  obtain ⟨c, hc⟩ := dvd_of_emod hR
  obtain ⟨d, hd⟩ := dvd_of_emod h
  refine emod_of_dvd (d * i - s * c) ?_
  linear_combination i * hd - s * hc

theorem out_half {m h a i : Int} (e : 2 * h % m = a) : 2 * (h * i % m) % m = a * i % m := by
  refine emod_of_dvd (- (2 * h / m * i) + 2 * (h * i / m)) ?_
  rw [← e, Int.emod_def, Int.emod_def]; ring

theorem out_inv {m a R i s : Int} (hm : 0 < m) (hR : R * i ≡ 1 [ZMOD m]) (h1 : Int.gcd a m = 1 → s * a % m = R * R % m)
    (h2 : Int.gcd a m ≠ 1 → s = 0) : IsInverse (a * i % m) m (s * i % m) := by
  obtain ⟨c, hc⟩ := dvd_of_emod hR
  have hi : Int.gcd i m = 1 := by
    rw [Int.gcd_eq_one_iff]
    intro d d1 d2
    rw [show (1 : Int) = R * i + m * c by linear_combination hc]
    exact Int.dvd_add (Dvd.dvd.mul_left d1 R) (Dvd.dvd.mul_right d2 c)
  have hg : Int.gcd (a * i % m) m = Int.gcd a m := by
    rw [Int.gcd_emod, Int.gcd_mul_left_left_of_gcd_eq_one hi]
  obtain ⟨b0, b1⟩ := emod_bounds (a := s * i) hm
  refine ⟨b0, b1, fun h => ?_, fun h => ?_⟩
  · rw [hg] at h
    obtain ⟨d, hd⟩ := dvd_of_emod (h1 h)
    refine emod_of_dvd (d * i ^ 2 + c * (1 + R * i) + s * i / m * a * i + a * i / m * s * i - m * (s * i / m) * (a * i / m)) ?_
    rw [Int.emod_def, Int.emod_def]; linear_combination i ^ 2 * hd + (1 + R * i) * hc
  · rw [hg] at h
    rw [h2 h]; simp

theorem evalMont_spec (hw : 0 < ws) {junk : List Nat → WMem} (hj : ∀ p, AllW (base ws) (junk p)) {M : Obj} {i : Int} :
    ∀ (e : Expr Obj) (p : List Nat) (mr : Mont), mr.Good ws → mr.modulus = M → 2 ^ (8 * ws * M.reg.length) * i ≡ 1 [ZMOD value ws M] →
    (∀ a ∈ e.consts, Ok ws a) →
    ∃ r mr', evalMont ws junk p mr e = .ok (r, mr') ∧ mr'.Good ws ∧ mr'.modulus = M ∧ Elem ws mr'.toModArith r ∧
      Residue (value ws M) (e.map (value ws)) (value ws r * i % value ws M) := by
  have radixM : ∀ mr : Mont, mr.modulus = M → Mont.radix ws mr = 2 ^ (8 * ws * M.reg.length) := by
    intro mr h; unfold Mont.radix ModArith.size; rw [h]
  intro e
  induction e with
  | const a =>
    intro p mr g hm hR hc
    obtain ⟨r, he, ro, rv, rl⟩ := Mont.convertIn_spec hw g (hj p) (hc a (by simp [Expr.consts]))
    obtain ⟨b0, b1⟩ := emod_bounds (a := value ws a * Mont.radix ws mr) g.pos
    refine ⟨r, mr, by rw [evalMont, he]; rfl, g, hm, ⟨ro, by rw [rv]; exact b0, by rw [rv]; exact b1, rl⟩, ?_⟩
    rw [rv, hm, radixM mr hm, out_const hR]
    exact Residue.const _
  | one =>
    intro p mr g hm hR hc
    obtain ⟨r, he, ro, rv, rl⟩ := Mont.one_spec hw g (hj p)
    obtain ⟨b0, b1⟩ := emod_bounds (a := Mont.radix ws mr) g.pos
    obtain ⟨el, ev⟩ := elem_copy hw g.toGood ro (by rw [rv]; exact b0) (by rw [rv]; exact b1)
    refine ⟨_, _, by rw [evalMont, he]; rfl, upd_good g _ ro, by rw [← hm]; exact after_mod _ _ _, el.of_mod rfl, ?_⟩
    rw [ev, rv, hm, radixM mr hm]
    have := out_const (a := 1) hR
    rw [Int.one_mul] at this
    rw [this]
    exact Residue.one
  | add x y ihx ihy =>
    intro p mr g hm hR hc
    obtain ⟨a, mr1, e1, g1, m1, el1, r1⟩ := ihx (0 :: p) mr g hm hR (fun a ha => hc a (by simp [Expr.consts, ha]))
    obtain ⟨b, mr2, e2, g2, m2, el2, r2⟩ := ihy (1 :: p) mr1 g1 m1 hR (fun a ha => hc a (by simp [Expr.consts, ha]))
    have el1' := el1.of_mod (ma' := mr2.toModArith) (by rw [m1, m2])
    obtain ⟨so, sv⟩ := ModArith.add_spec hw g2.toGood el1'.ok el2.ok el1'.nn el1'.lt el2.nn el2.lt
    obtain ⟨b0, b1⟩ := emod_bounds (a := value ws a + value ws b) g2.pos
    obtain ⟨el, ev⟩ := elem_copy hw g2.toGood so (by rw [sv]; exact b0) (by rw [sv]; exact b1)
    refine ⟨_, _, by rw [evalMont, e1]; simp only [Bind.bind, Except.bind]; rw [e2], upd_good g2 _ so,
      by rw [← m2]; exact after_mod _ _ _, el.of_mod (after_mod _ _ _), ?_⟩
    rw [ev, sv, m2, out_add]
    exact Residue.add r1 r2
  | sub x y ihx ihy =>
    intro p mr g hm hR hc
    obtain ⟨a, mr1, e1, g1, m1, el1, r1⟩ := ihx (0 :: p) mr g hm hR (fun a ha => hc a (by simp [Expr.consts, ha]))
    obtain ⟨b, mr2, e2, g2, m2, el2, r2⟩ := ihy (1 :: p) mr1 g1 m1 hR (fun a ha => hc a (by simp [Expr.consts, ha]))
    have el1' := el1.of_mod (ma' := mr2.toModArith) (by rw [m1, m2])
    obtain ⟨so, sv⟩ := ModArith.subtract_spec hw g2.toGood el1'.ok el2.ok el1'.nn el1'.lt el2.nn el2.lt
    obtain ⟨b0, b1⟩ := emod_bounds (a := value ws a - value ws b) g2.pos
    obtain ⟨el, ev⟩ := elem_copy hw g2.toGood so (by rw [sv]; exact b0) (by rw [sv]; exact b1)
    refine ⟨_, _, by rw [evalMont, e1]; simp only [Bind.bind, Except.bind]; rw [e2], upd_good g2 _ so,
      by rw [← m2]; exact after_mod _ _ _, el.of_mod (after_mod _ _ _), ?_⟩
    rw [ev, sv, m2, out_sub]
    exact Residue.sub r1 r2
  | mul x y ihx ihy =>
    intro p mr g hm hR hc
    obtain ⟨a, mr1, e1, g1, m1, el1, r1⟩ := ihx (0 :: p) mr g hm hR (fun a ha => hc a (by simp [Expr.consts, ha]))
    obtain ⟨b, mr2, e2, g2, m2, el2, r2⟩ := ihy (1 :: p) mr1 g1 m1 hR (fun a ha => hc a (by simp [Expr.consts, ha]))
    have el1' := el1.of_mod (ma' := mr2.toModArith) (by rw [m1, m2])
    obtain ⟨s, se, so, b0, b1, sv, _⟩ := Mont.multiply_spec hw g2 (hj p) (same := false) el1'.ok el2.ok (by simp) el1'.nn el1'.lt el2.nn el2.lt
      el1'.len el2.len
    obtain ⟨el, ev⟩ := elem_copy hw g2.toGood so b0 b1
    refine ⟨_, _, by rw [evalMont, e1]; simp only [Bind.bind, Except.bind]; rw [e2]; simp only; rw [se], g2, m2, el, ?_⟩
    rw [m2, radixM mr2 m2] at sv
    rw [ev, out_mul hR sv]
    exact Residue.mul r1 r2
  | sq x ihx =>
    intro p mr g hm hR hc
    obtain ⟨a, mr2, e1, g2, m2, el1, r1⟩ := ihx (0 :: p) mr g hm hR hc
    obtain ⟨s, se, so, b0, b1, sv, _⟩ := Mont.square_spec hw g2 (hj p) el1.ok el1.nn el1.lt el1.len
    obtain ⟨el, ev⟩ := elem_copy hw g2.toGood so b0 b1
    refine ⟨_, _, by rw [evalMont, e1]; simp only [Bind.bind, Except.bind]; rw [se], g2, m2, el, ?_⟩
    rw [m2, radixM mr2 m2] at sv
    rw [ev, out_mul hR sv]
    exact Residue.sq r1
  | neg x ihx =>
    intro p mr g hm hR hc
    obtain ⟨a, mr2, e1, g2, m2, el1, r1⟩ := ihx (0 :: p) mr g hm hR hc
    obtain ⟨s, se, so, sv⟩ := ModArith.inverse_spec hw g2.toGood el1.ok el1.nn el1.lt (Nat.le_trans el1.len g2.rle)
    obtain ⟨b0, b1⟩ := emod_bounds (a := -value ws a) g2.pos
    obtain ⟨el, ev⟩ := elem_copy hw g2.toGood so (by rw [sv]; exact b0) (by rw [sv]; exact b1)
    refine ⟨_, _, by rw [evalMont, e1]; simp only [Bind.bind, Except.bind]; rw [se], g2, m2, el, ?_⟩
    rw [ev, sv, m2, out_neg]
    exact Residue.neg r1
  | half x ihx =>
    intro p mr g hm hR hc
    obtain ⟨a, mr2, e1, g2, m2, el1, r1⟩ := ihx (0 :: p) mr g hm hR hc
    obtain ⟨so, b0, b1, sv⟩ := ModArith.half_spec hw g2.toGood (hj p) el1.ok el1.nn el1.lt g2.odd
    obtain ⟨el, ev⟩ := elem_copy hw g2.toGood so b0 b1
    refine ⟨_, _, by rw [evalMont, e1]; rfl, upd_good g2 _ so, by rw [← m2]; exact after_mod _ _ _,
      el.of_mod (after_mod _ _ _), ?_⟩
    rw [ev]
    have hp := g2.pos
    rw [m2] at sv hp
    exact Residue.half r1 (emod_bounds hp).1 (emod_bounds hp).2 (out_half sv)
  | inv x ihx =>
    intro p mr g hm hR hc
    obtain ⟨a, mr2, e1, g2, m2, el1, r1⟩ := ihx (0 :: p) mr g hm hR hc
    obtain ⟨s, se, so, b0, b1, _, i1, i2⟩ := Mont.inv_spec hw g2 (hj p) el1.ok el1.nn el1.lt (by have := el1.len; omega)
    obtain ⟨el, ev⟩ := elem_copy hw g2.toGood so b0 b1
    refine ⟨_, _, by rw [evalMont, e1]; simp only [Bind.bind, Except.bind]; rw [se], g2, m2, el, ?_⟩
    have hp := g2.pos
    rw [m2, radixM mr2 m2] at i1
    rw [m2] at i2 hp
    rw [ev]
    exact Residue.inv r1 (out_inv hp hR i1 i2)

end Verif.Integer
