import Verif.Integer.ModEval
import Verif.Integer.WordInv
import Verif.Integer.DivProps

/-!
# C26: Montgomery and plain modular arithmetic compute the residues; C28 (part): modular inverses
-/
namespace Verif.Integer

/-- A client of `ModularArithmetic` obtains the residue its expression stands for, for every modulus above one (odd if the expression
halves), every expression and every contents of uninitialised memory. -/
theorem modular_arithmetic_correct {ws : Nat} (hw : 0 < ws) (junk : List Nat → WMem) (hj : ∀ p, AllW (base ws) (junk p)) {m : Obj}
    (hm : Ok ws m) (h1 : 1 < value ws m) (e : Expr Obj) (he : ∀ a ∈ e.consts, Ok ws a) (hh : value ws m % 2 = 1 ∨ e.noHalf) :
    ∃ r, runPlain ws junk m e = .ok r ∧ Ok ws r ∧ Residue (value ws m) (e.map (value ws)) (value ws r) := by
  obtain ⟨g, gv⟩ := mk'_good hw hm (by omega)
  obtain ⟨r, ma', h2, _, _, el, h3⟩ := evalPlain_spec hw hj (M := (ModArith.mk' m).modulus) (by rw [gv]; exact h1) e [] _ g rfl he
    (by rw [gv]; exact hh)
  rw [gv] at h3
  exact ⟨r, by unfold runPlain; rw [h2]; rfl, el.ok, h3⟩

/-- A client of `MontgomeryRepresentation` obtains the residue its expression stands for, for every odd positive modulus. -/
theorem montgomery_correct {ws : Nat} (hw : 0 < ws) (junk : List Nat → WMem) (hj : ∀ p, AllW (base ws) (junk p)) {m : Obj}
    (hm : Ok ws m) (h0 : 0 < value ws m) (hodd : value ws m % 2 = 1) (e : Expr Obj) (he : ∀ a ∈ e.consts, Ok ws a) :
    ∃ r, runMont ws junk m e = .ok r ∧ Ok ws r ∧ Residue (value ws m) (e.map (value ws)) (value ws r) := by
  obtain ⟨mr, h1, g, _, gv⟩ := mont_mk'_good hw (hj [2]) hm h0 hodd
  obtain ⟨i, hi⟩ := radix_inv h0 hodd (8 * ws * mr.modulus.reg.length)
  obtain ⟨r, mr', h2, g', hm', el, h3⟩ := evalMont_spec hw hj (M := mr.modulus) (i := i) e [] mr g rfl (by rw [gv]; exact hi) he
  obtain ⟨o, h4, oo, o0, o1, ov, _⟩ := Mont.convertOut_spec hw g' (hj [3]) el.ok el.nn el.lt (by have := el.len; omega)
  refine ⟨o, by unfold runMont; rw [h1]; simp only [Bind.bind, Except.bind]; rw [h2]; exact h4, oo, ?_⟩
  have hr : Mont.radix ws mr' = 2 ^ (8 * ws * mr.modulus.reg.length) := by unfold Mont.radix ModArith.size; rw [hm']
  rw [hm', gv, hr] at ov
  rw [hm', gv] at o1
  rw [gv] at h3
  rw [← out_out hi ov, Int.emod_eq_of_lt o0 o1] at h3
  exact h3

/-- An expression has at most one residue when the modulus is odd. -/
theorem residue_unique {m : Int} (hm : 0 < m) (hodd : m % 2 = 1) {e : Expr Int} {v : Int} (h : Residue m e v) :
    ∀ w, Residue m e w → v = w := by
  have cancel : ∀ a b c : Int, 0 ≤ a → a < m → 0 ≤ b → b < m → Int.gcd c m = 1 → a * c % m = b * c % m → a = b := by
    intro a b c a0 a1 b0 b1 hg h
    obtain ⟨w, hw⟩ := dvd_of_emod h
    have h2 : m ∣ (b - a) * c := ⟨w, by rw [← hw]; ring⟩
    have h3 := Int.dvd_of_dvd_mul_left_of_gcd_one h2 (by rw [Int.gcd_comm]; exact hg)
    obtain ⟨q, hq⟩ := h3
    have : q = 0 := by
      by_contra hne
      rcases lt_or_gt_of_ne hne with h4 | h4
      · have : m * q ≤ m * (-1) := Int.mul_le_mul_of_nonneg_left (by omega) (by omega)
        omega
      · have : m * 1 ≤ m * q := Int.mul_le_mul_of_nonneg_left (by omega) (by omega)
        omega
    rw [this] at hq; omega
  induction h with
  | const a => intro w hw; cases hw; rfl
  | one => intro w hw; cases hw; rfl
  | add _ _ i1 i2 => intro w hw; cases hw with | add h1 h2 => rw [i1 _ h1, i2 _ h2]
  | sub _ _ i1 i2 => intro w hw; cases hw with | sub h1 h2 => rw [i1 _ h1, i2 _ h2]
  | mul _ _ i1 i2 => intro w hw; cases hw with | mul h1 h2 => rw [i1 _ h1, i2 _ h2]
  | sq _ i1 => intro w hw; cases hw with | sq h1 => rw [i1 _ h1]
  | neg _ i1 => intro w hw; cases hw with | neg h1 => rw [i1 _ h1]
  | half _ h0 h1 h2 i1 =>
    intro w hw
    cases hw with
    | half k k0 k1 k2 =>
      have e := i1 _ k
      apply cancel _ _ 2 h0 h1 k0 k1
      · have := Int.gcd_emod m 2
        rw [hodd] at this
        rw [Int.gcd_comm, ← this]; rfl
      · rw [Int.mul_comm, h2, Int.mul_comm w, k2, e]
  | inv _ hi i1 =>
    intro w hw
    cases hw with
    | inv k ki =>
      have e := i1 _ k
      rw [← e] at ki
      rename_i a r _ _
      by_cases hg : Int.gcd a m = 1
      · exact cancel _ _ _ hi.1 hi.2.1 ki.1 ki.2.1 hg (by rw [hi.2.2.1 hg, ki.2.2.1 hg])
      · rw [hi.2.2.2 hg, ki.2.2.2 hg]

/-- The two representations agree on every expression, for every odd modulus above one. -/
theorem montgomery_agrees_with_plain {ws : Nat} (hw : 0 < ws) (junk junk' : List Nat → WMem) (hj : ∀ p, AllW (base ws) (junk p))
    (hj' : ∀ p, AllW (base ws) (junk' p)) {m : Obj} (hm : Ok ws m) (h1 : 1 < value ws m) (hodd : value ws m % 2 = 1) (e : Expr Obj)
    (he : ∀ a ∈ e.consts, Ok ws a) :
    ∃ r r', runPlain ws junk m e = .ok r ∧ runMont ws junk' m e = .ok r' ∧ value ws r = value ws r' := by
  obtain ⟨r, h2, _, h3⟩ := modular_arithmetic_correct hw junk hj hm h1 e he (Or.inl hodd)
  obtain ⟨r', h4, _, h5⟩ := montgomery_correct hw junk' hj' hm (by omega) hodd e he
  exact ⟨r, r', h2, h4, residue_unique (by omega) hodd h3 _ h5⟩

/-- An even modulus is refused by `MontgomeryRepresentation`. -/
theorem montgomery_even_modulus {ws : Nat} (hw : 0 < ws) (junk : WMem) {m : Obj} (hm : Ok ws m) (h : value ws m % 2 = 0) :
    Mont.mk' ws junk m = .error .invalidArgument := by
  obtain ⟨co, cv⟩ := copyCtor_spec hw hm
  unfold Mont.mk'
  simp only
  have : isOdd ws (ModArith.mk' m).modulus = false := by
    simp only [ModArith.mk']
    rw [isOdd_spec hw co, cv]; simp [h]
  rw [this]; rfl

/-- `Accumulate` and `Reduce` (in-place addition and subtraction) on reduced operands, whatever the register sizes. -/
theorem accumulate_reduce_correct {ws : Nat} (hw : 0 < ws) {m : Obj} (hm : Ok ws m) (hp : 0 < value ws m) {r1 a b : Obj} (h1 : Ok ws r1)
    (ha : Ok ws a) (hb : Ok ws b) (a0 : 0 ≤ value ws a) (a1 : value ws a < value ws m) (b0 : 0 ≤ value ws b) (b1 : value ws b < value ws m) :
    let ma := { ModArith.mk' m with result1 := r1 }
    Ok ws (ma.accumulate ws a b) ∧ value ws (ma.accumulate ws a b) = (value ws a + value ws b) % value ws m ∧
      Ok ws (ma.reduce ws a b) ∧ value ws (ma.reduce ws a b) = (value ws a - value ws b) % value ws m := by
  intro ma
  obtain ⟨g0, gv⟩ := mk'_good hw hm hp
  have g : ma.Good ws := ⟨g0.okm, g0.pos, g0.norm, g0.rle, g0.rpow, h1⟩
  have hv : value ws ma.modulus = value ws m := gv
  obtain ⟨c1, c2⟩ := ModArith.accumulate_spec hw g ha hb a0 (by omega) b0 (by omega)
  obtain ⟨d1, d2⟩ := ModArith.reduce_spec hw g ha hb a0 (by omega) b0 (by omega)
  rw [hv] at c2 d2
  exact ⟨c1, c2, d1, d2⟩

/-! ### A concrete case: 8-bit words, modulus 251 in an oversized register, `(200 * 77 - 3) * half(inv(9)) + (-5)^2` -/

def exMod : Obj := ⟨[251, 0, 0, 0], false⟩
def w8 (n : Nat) : Obj := ⟨[n % 256, n / 256], false⟩
def exExpr : Expr Obj :=
  .add (.mul (.sub (.mul (.const (w8 200)) (.const (w8 77))) (.const (w8 3))) (.half (.inv (.const (w8 9))))) (.sq (.neg (.const (w8 5))))

theorem exMod_ok : Ok 1 exMod := ⟨words_of_forall (by decide +kernel), ⟨1, rfl⟩, by simp [exMod]⟩
theorem w8_ok (n : Nat) (h : n < 65536) : Ok 1 (w8 n) :=
  ⟨Words.cons (Nat.mod_lt _ (by decide)) (Words.cons (by show n / 256 < 256; omega) Words.nil), ⟨0, rfl⟩, by simp [w8]⟩
theorem exExpr_ok : ∀ a ∈ exExpr.consts, Ok 1 a := by
  intro a ha
  simp only [exExpr, Expr.consts, List.cons_append, List.nil_append, List.mem_cons, List.not_mem_nil, or_false] at ha
  rcases ha with rfl | rfl | rfl | rfl | rfl <;> exact w8_ok _ (by decide)
example : ∃ r r', runPlain 1 (fun _ _ => 7) exMod exExpr = .ok r ∧ runMont 1 (fun _ _ => 9) exMod exExpr = .ok r' ∧ value 1 r = value 1 r' :=
  montgomery_agrees_with_plain (by decide) _ _ (fun _ _ => by decide) (fun _ _ => by decide) exMod_ok (by decide) (by decide) _ exExpr_ok
-- 9 * 28 = 252 = 1, half 28 = 14, (200*77 - 3) * 14 + 25 = 215583 = 225 (mod 251)
example : (runPlain 1 (fun _ _ => 7) exMod exExpr).map (value 1) = .ok 225 := by decide +kernel
example : (runMont 1 (fun _ _ => 9) exMod exExpr).map (value 1) = .ok 225 := by decide +kernel
example : Mont.mk' 1 (fun _ => 0) (w8 250) = .error .invalidArgument :=
  montgomery_even_modulus (by decide) _ (w8_ok 250 (by decide)) (by decide)
example : value 1 ((ModArith.mk' (w8 251)).accumulate 1 (w8 200) (w8 100)) = 49 := by decide +kernel
example : value 1 ((ModArith.mk' (w8 251)).reduce 1 (w8 100) (w8 200)) = 151 := by decide +kernel
theorem allW0 : AllW (base 1) (fun _ => 0) := fun _ => by show 0 < base 1; decide

/-! ### Where the code departs from the property -/

/-- The constructor sizes `m_result` by the register of its argument, not by the value.  With a modulus held in an oversized register,
multiplying the returned reference again (`mr.Multiply(mr.Multiply(a, b), c)`) runs outside the workspace. -/
theorem montgomery_oversized_modulus_undefined :
    ∃ mr x, Mont.mk' 1 (fun _ => 0) exMod = .ok mr ∧ mr.multiply 1 (fun _ => 0) false (w8 3) (w8 4) = .ok x ∧
      value 1 x < value 1 mr.modulus ∧ mr.multiply 1 (fun _ => 0) false x (w8 5) = .error .undefinedBehaviour := by
  obtain ⟨mr, h1, g, _, gv⟩ := mont_mk'_good (ws := 1) (junk := fun _ => 0) (by decide) allW0 exMod_ok (by decide) (by decide)
  have hs : mr.size = 2 ∧ mr.rsize = 4 := by
    have h : (Mont.mk' 1 (fun _ => 0) exMod).map (fun mr => (mr.size, mr.rsize)) = .ok (2, 4) := by decide +kernel
    rw [h1] at h
    have h2 := Except.ok.inj h
    exact ⟨congrArg Prod.fst h2, congrArg Prod.snd h2⟩
  obtain ⟨x, h2, _, _, h3, _, h4⟩ := Mont.multiply_spec (ws := 1) (by decide) g (junk := fun _ => 0) allW0 (same := false)
    (w8_ok 3 (by decide)) (w8_ok 4 (by decide)) (by simp) (by decide) (by rw [gv]; decide) (by decide) (by rw [gv]; decide)
    (by rw [hs.1]; decide) (by rw [hs.1]; decide)
  refine ⟨mr, x, h1, h2, h3, ?_⟩
  unfold Mont.multiply
  simp only
  rw [if_pos (by rw [h4, hs.1, hs.2]; decide)]

/-- `Inverse` (negation) applied to the reference returned by the previous operation is zero, not the negative. -/
theorem inverse_of_own_result_is_zero {ws : Nat} (hw : 0 < ws) {m a : Obj} (hm : Ok ws m) (hp : 0 < value ws m) (ha : Ok ws a)
    (hz : value ws a ≠ 0) : ∃ r, (ModArith.mk' m).inverse ws true a = .ok r ∧ value ws r = 0 :=
  ModArith.inverse_self hw (mk'_good hw hm hp).1 ha hz
example : ((ModArith.mk' (w8 251)).inverse 1 true ((ModArith.mk' (w8 251)).add 1 (w8 3) (w8 4))).map (value 1) = .ok 0 := by decide +kernel
example : ((ModArith.mk' (w8 251)).inverse 1 false ((ModArith.mk' (w8 251)).add 1 (w8 3) (w8 4))).map (value 1) = .ok 244 := by decide +kernel

/-- In the plain ring of a modulus one the multiplicative identity is the unreduced 1 (hence `1 < m` in `modular_arithmetic_correct`). -/
theorem plain_identity_of_modulus_one :
    (runPlain 1 (fun _ _ => 0) (w8 1) .one).map (value 1) = .ok 1 ∧ (1 : Int) % 1 = 0 := by decide +kernel

/-! ## Modular inverses -/

/-- `a.InverseMod(m)` for every integer `a` and every positive `m`: the inverse in `[0, m)`, or zero when there is none — provided a
reduced argument of an odd modulus does not sit in a register more than twice as long as the modulus register.  The missing case is
`inverseMod_oversized_undefined`. -/
theorem inverseMod_correct {ws : Nat} (hw : 0 < ws) (junk : WMem) (hj : AllW (base ws) junk) {a m : Obj} (ha : Ok ws a)
    (hm : Ok ws m) (hp : 0 < value ws m)
    (hl : 0 ≤ value ws a → value ws a < value ws m → value ws m % 2 = 1 → a.reg.length ≤ 2 * m.reg.length) :
    ∃ r, inverseMod ws junk a m = .ok r ∧ Ok ws r ∧ IsInverse (value ws a) (value ws m) (value ws r) :=
  inverseMod_spec hw hj ha hm hp hl

example : (inverseMod 1 (fun _ => 3) (w8 1000) (w8 1013)).map (fun r => value 1 r * 1000 % 1013) = .ok 1 := by decide +kernel
example : (inverseMod 1 (fun _ => 3) ⟨[7, 1], true⟩ (w8 1012)).map (fun r => value 1 r * (-263) % 1012) = .ok 1 := by decide +kernel
example : (inverseMod 1 (fun _ => 3) (w8 1000) (w8 1015)).map (value 1) = .ok 0 := by decide +kernel
example : ∃ r, inverseMod 1 (fun _ => 3) ⟨[7, 1], true⟩ (w8 1012) = .ok r ∧ Ok 1 r ∧ IsInverse (value 1 ⟨[7, 1], true⟩) (value 1 (w8 1012)) (value 1 r) :=
  inverseMod_correct (by decide) _ (fun _ => by decide) ⟨words_of_forall (by decide +kernel), ⟨0, rfl⟩, fun _ => by decide +kernel⟩
    (w8_ok _ (by decide)) (by decide) (by decide)

/-- An argument that is small but sits in a large register, as the difference of two large numbers does, is copied past the end of the
four-fold workspace. -/
theorem inverseMod_oversized_undefined :
    let a := minus 1 ⟨[2, 0, 0, 0, 0, 0, 0, 9], false⟩ ⟨[0, 0, 0, 0, 0, 0, 0, 9], false⟩
    Ok 1 a ∧ value 1 a = 2 ∧ inverseMod 1 (fun _ => 0) a (w8 5) = .error .undefinedBehaviour := by
  intro a
  have h := minus_spec (ws := 1) (by decide) (a := ⟨[2, 0, 0, 0, 0, 0, 0, 9], false⟩) (b := ⟨[0, 0, 0, 0, 0, 0, 0, 9], false⟩)
    ⟨words_of_forall (by decide +kernel), ⟨2, rfl⟩, by simp⟩ ⟨words_of_forall (by decide +kernel), ⟨2, rfl⟩, by simp⟩
  exact ⟨h.1, by decide +kernel, by decide +kernel⟩

/-- `a.InverseMod(word)`: the inverse modulo a word, or zero when there is none.  (The register bound is the one `Modulo(word)` needs:
it sums at most `2^WORD_BITS` words without wrapping.) -/
theorem inverseModWord_correct {ws : Nat} (hw : 0 < ws) {a : Obj} (ha : Ok ws a) (hl : a.reg.length ≤ base ws) {mod : Nat}
    (h0 : 0 < mod) (hB : mod < base ws) :
    ∃ r : Nat, inverseModWord ws a mod = .ok r ∧ IsInverse (value ws a) mod r := by
  unfold inverseModWord
  rw [moduloWord_spec hw ha hl (by omega) hB]
  refine ⟨_, rfl, ?_⟩
  have hb := emod_bounds (a := value ws a) (m := mod) (by omega)
  obtain ⟨n, hn⟩ : ∃ n : Nat, value ws a % mod = n := ⟨(value ws a % mod).toNat, by omega⟩
  have hnm : n < mod := by omega
  have e : (value ws a % (mod : Int)).toNat = n := by omega
  rw [e]
  have inv : WInv (base ws) mod n mod n 0 1 := by
    refine ⟨⟨0, by simp⟩, ⟨1, by push_cast; ring⟩, by simp, hnm, by omega, Nat.gcd_comm _ _⟩
  have := invWordLoop_spec hB n mod 0 1 inv (by intro h; by_cases h1 : mod = 1 <;> omega)
  obtain ⟨i0, i1, i2, i3⟩ := this
  rw [← hn, Int.gcd_emod] at i2 i3
  refine ⟨i0, i1, fun h => ?_, i3⟩
  rw [← i2 h, Int.mul_emod, Int.mul_emod (invWordLoop (base ws) mod mod n 0 1 : Int) (value ws a % mod), Int.emod_emod_of_dvd _ (dvd_refl (mod : Int))]

example : ∃ r : Nat, inverseModWord 1 exMod 200 = .ok r ∧ IsInverse (value 1 exMod) (200 : Nat) r :=
  inverseModWord_correct (by decide) exMod_ok (by decide) (by decide) (by decide)

end Verif.Integer
