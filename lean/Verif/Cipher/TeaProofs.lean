import Verif.Cipher.Tea

namespace Verif.Cipher

theorem foldl_cancel {σ κ : Type} {f g : σ → κ → σ} (h : ∀ k s, g (f s k) k = s) : ∀ (ks : List κ) (s : σ),
    ks.reverse.foldl g (ks.foldl f s) = s
  | [], s => rfl
  | k :: ks, s => by
    rw [List.reverse_cons, List.foldl_append, List.foldl_cons (f := f), foldl_cancel h ks, List.foldl_cons, List.foldl_nil, h]

theorem foldl_cancel' {σ κ : Type} {f g : σ → κ → σ} (h : ∀ k s, f (g s k) k = s) (ks : List κ) (s : σ) :
    ks.foldl f (ks.reverse.foldl g s) = s := by
  have := foldl_cancel (f := g) (g := f) h ks.reverse s
  rwa [List.reverse_reverse] at this

namespace Tea

/-- `i` times the constant. -/
def S (i : Nat) : W32 := BitVec.ofNat 32 i * DELTA

theorem S_succ (i : Nat) : S (i + 1) = S i + DELTA := by
  unfold S
  rw [BitVec.ofNat_add, BitVec.add_mul]
  exact congrArg _ (BitVec.one_mul DELTA)

theorem S_inj {i j : Nat} (hi : i < 2 ^ 32) (hj : j < 2 ^ 32) (h : S i = S j) : i = j := by
  have e : ∀ n, S n * 0x144cbc89 = BitVec.ofNat 32 n := by
    intro n
    unfold S
    rw [BitVec.mul_assoc, show DELTA * 0x144cbc89 = 1 by decide]
    exact BitVec.mul_one _
  have := (e i).symm.trans ((congrArg (· * 0x144cbc89) h).trans (e j))
  have h2 := congrArg BitVec.toNat this
  rw [BitVec.toNat_ofNat, BitVec.toNat_ofNat, Nat.mod_eq_of_lt hi, Nat.mod_eq_of_lt hj] at h2
  exact h2

theorem upLoop_spec (body : W32 → W32 × W32 → W32 × W32) {R : Nat} (hR : R < 2 ^ 32) : ∀ (m i fuel : Nat) (s : W32 × W32), i + m = R → m < fuel →
    upLoop body (S R) fuel (S i) s = some ((List.range' i m).foldl (fun s j => body (S j) s) s)
  | 0, i, fuel + 1, s, h, hf => by
    have : i = R := by omega
    subst this
    unfold upLoop
    simp
  | m + 1, i, fuel + 1, s, h, hf => by
    unfold upLoop
    rw [if_pos (fun hc => by have := S_inj (by omega) hR hc; omega), ← S_succ, upLoop_spec body hR m (i + 1) fuel _ (by omega) (by omega)]
    rw [List.range'_succ, List.foldl_cons]

theorem downLoop_spec (body : W32 → W32 × W32 → W32 × W32) : ∀ (i fuel : Nat) (s : W32 × W32), i < 2 ^ 32 → i < fuel →
    downLoop body fuel (S i) s = some ((List.range' 0 i).reverse.foldl (fun s j => body (S (j + 1)) s) s)
  | 0, fuel + 1, s, _, _ => by
    unfold downLoop
    rw [if_neg (by simp [S])]; rfl
  | i + 1, fuel + 1, s, h, hf => by
    unfold downLoop
    have hz : S (i + 1) ≠ 0 := fun hc => by
      have := S_inj (i := i + 1) (j := 0) h (by decide) (by rw [hc]; simp [S]); omega
    have e : S (i + 1) - DELTA = S i := by rw [S_succ]; exact BitVec.add_sub_cancel _ _
    rw [if_pos hz, e, downLoop_spec body i fuel _ (by omega) (by omega), List.range'_concat]
    simp

theorem keyed_inverse {encBody decBody : W32 → W32 × W32 → W32 × W32} (h1 : ∀ sum s, decBody (sum + DELTA) (encBody sum s) = s)
    (h2 : ∀ sum s, encBody sum (decBody (sum + DELTA) s) = s) {fuel R : Nat} (hR : R < 2 ^ 32) (hf : R < fuel) : (keyedFuel fuel encBody decBody R).Inverse := by
  unfold keyedFuel
  apply ofWords_inverse _ (by decide)
  intro l hl
  match l, hl with
  | [y, z], _ =>
    have z0 : (0 : W32) = S 0 := by simp [S]
    have up : ∀ s, upLoop encBody (S R) fuel 0 s = some ((List.range' 0 R).foldl (fun s j => encBody (S j) s) s) := fun s => by
      rw [z0]; exact upLoop_spec encBody hR R 0 _ s (by omega) hf
    have dn : ∀ s, downLoop decBody fuel (S R) s = some ((List.range' 0 R).reverse.foldl (fun s j => decBody (S (j + 1)) s) s) := fun s =>
      downLoop_spec decBody R _ s hR hf
    have c1 := foldl_cancel (f := fun s j => encBody (S j) s) (g := fun s j => decBody (S (j + 1)) s)
      (fun j s => by rw [S_succ]; exact h1 _ s) (List.range' 0 R) (y, z)
    have c2 := foldl_cancel' (f := fun s j => encBody (S j) s) (g := fun s j => decBody (S (j + 1)) s)
      (fun j s => by rw [S_succ]; exact h2 _ s) (List.range' 0 R) (y, z)
    change (process (upLoop encBody (S R) fuel 0) [y, z]).length = 2 ∧
      process (downLoop decBody fuel (S R)) (process (upLoop encBody (S R) fuel 0) [y, z]) = [y, z] ∧
      (process (downLoop decBody fuel (S R)) [y, z]).length = 2 ∧
      process (upLoop encBody (S R) fuel 0) (process (downLoop decBody fuel (S R)) [y, z]) = [y, z]
    simp only [process, up, dn]
    exact ⟨rfl, by rw [c1], rfl, by rw [c2]⟩

theorem tea_bodies (k : List W32) : (∀ sum s, teaDecBody k (sum + DELTA) (teaEncBody k sum s) = s) ∧
    (∀ sum s, teaEncBody k sum (teaDecBody k (sum + DELTA) s) = s) := by
  constructor <;> rintro sum ⟨y, z⟩ <;> simp only [teaEncBody, teaDecBody, add_sub_cancel', sub_add_cancel']

theorem xtea_bodies (k : List W32) : (∀ sum s, xteaDecBody k (sum + DELTA) (xteaEncBody k sum s) = s) ∧
    (∀ sum s, xteaEncBody k sum (xteaDecBody k (sum + DELTA) s) = s) := by
  constructor <;> rintro sum ⟨y, z⟩ <;> simp only [xteaEncBody, xteaDecBody, add_sub_cancel', sub_add_cancel']

theorem getRounds_lt {m r : Int} {n : Nat} (h : getRounds m r = .ok n) : n < 2 ^ 31 := by
  unfold getRounds at h
  split at h
  · cases h
  · injection h with h; omega

/-! ## BTEA -/

theorem wd_set_same {v : List W32} {p : Nat} (h : p < v.length) (x : W32) : wd (v.set p x) p = x := by
  unfold wd; rw [List.getD_eq_getElem?_getD, List.getElem?_set_self h]; rfl

theorem wd_set_ne {v : List W32} {p q : Nat} (h : p ≠ q) (x : W32) : wd (v.set p x) q = wd v q := by
  unfold wd; rw [List.getD_eq_getElem?_getD, List.getElem?_set_ne h, ← List.getD_eq_getElem?_getD]

theorem set_wd {v : List W32} {p : Nat} : v.set p (wd v p) = v := by
  by_cases h : p < v.length
  · unfold wd; rw [List.getD_eq_getElem?_getD, List.getElem?_eq_getElem h]; exact List.set_getElem_self h
  · rw [List.set_eq_of_length_le (by omega)]

/-- One step of a pass up. -/
def U (k : List W32) (n : Nat) (sum : W32) (v : List W32) (p : Nat) : List W32 :=
  v.set p (wd v p + mx k (wd v ((p + 1) % n)) (wd v ((p + n - 1) % n)) sum (sum >>> 2 &&& 3) p)

/-- One step of a pass down. -/
def D (k : List W32) (n : Nat) (sum : W32) (v : List W32) (p : Nat) : List W32 :=
  v.set p (wd v p - mx k (wd v ((p + 1) % n)) (wd v ((p + n - 1) % n)) sum (sum >>> 2 &&& 3) p)

theorem nb_ne {n p : Nat} (hn : 2 ≤ n) (hp : p < n) : p ≠ (p + 1) % n ∧ p ≠ (p + n - 1) % n := by
  constructor
  · by_cases h : p + 1 < n
    · rw [Nat.mod_eq_of_lt h]; omega
    · rw [show p + 1 = n by omega, Nat.mod_self]; omega
  · by_cases h : p = 0
    · subst h; rw [Nat.mod_eq_of_lt (by omega)]; omega
    · rw [show p + n - 1 = (p - 1) + n by omega, Nat.add_mod_right, Nat.mod_eq_of_lt (by omega)]; omega

theorem U_length (k : List W32) (n : Nat) (sum : W32) (v : List W32) (p : Nat) : (U k n sum v p).length = v.length := by simp [U]
theorem D_length (k : List W32) (n : Nat) (sum : W32) (v : List W32) (p : Nat) : (D k n sum v p).length = v.length := by simp [D]

theorem DU (k : List W32) {n : Nat} (hn : 2 ≤ n) (sum : W32) {v : List W32} (hv : v.length = n) (p : Nat) :
    D k n sum (U k n sum v p) p = v ∧ U k n sum (D k n sum v p) p = v := by
  by_cases hp : p < n
  · obtain ⟨h1, h2⟩ := nb_ne hn hp
    unfold D U
    rw [wd_set_same (by omega), wd_set_ne h1, wd_set_ne h2, wd_set_same (by omega), wd_set_ne h1, wd_set_ne h2]
    simp [List.set_set, set_wd]
  · have eU : ∀ w : List W32, w.length = n → U k n sum w p = w := fun w hw => List.set_eq_of_length_le (by omega)
    have eD : ∀ w : List W32, w.length = n → D k n sum w p = w := fun w hw => List.set_eq_of_length_le (by omega)
    rw [eU v hv, eD v hv, eU v hv]; exact ⟨rfl, rfl⟩

theorem upPass_spec (k : List W32) {n : Nat} (hn : 2 ≤ n) (sum : W32) : ∀ (m p : Nat) (v : List W32) (z : W32), p + m = n - 1 → v.length = n →
    z = wd v ((p + n - 1) % n) →
    upPass k sum (sum >>> 2 &&& 3) m p v z = ((List.range' p m).foldl (U k n sum) v, wd ((List.range' p m).foldl (U k n sum) v) (n - 2))
  | 0, p, v, z, h, hv, hz => by
    unfold upPass
    rw [hz, show p + n - 1 = (n - 2) + n by omega, Nat.add_mod_right, Nat.mod_eq_of_lt (by omega)]
    rfl
  | m + 1, p, v, z, h, hv, hz => by
    unfold upPass
    simp only
    have e : v.set p (wd v p + mx k (wd v (p + 1)) z sum (sum >>> 2 &&& 3) p) = U k n sum v p := by
      unfold U; rw [hz, Nat.mod_eq_of_lt (by omega : p + 1 < n)]
    rw [e, upPass_spec k hn sum m (p + 1) _ _ (by omega) (by rw [U_length]; exact hv)]
    · rw [List.range'_succ, List.foldl_cons]
    · rw [show p + 1 + n - 1 = p + n by omega, Nat.add_mod_right, Nat.mod_eq_of_lt (by omega)]

theorem downPass_spec (k : List W32) {n : Nat} (hn : 2 ≤ n) (sum : W32) : ∀ (p : Nat) (v : List W32) (y : W32), p < n → v.length = n →
    y = wd v ((p + 1) % n) →
    downPass k sum (sum >>> 2 &&& 3) p v y = ((List.range' 1 p).reverse.foldl (D k n sum) v, wd ((List.range' 1 p).reverse.foldl (D k n sum) v) (1 % n))
  | 0, v, y, h, hv, hy => by unfold downPass; rw [hy]; rfl
  | p + 1, v, y, h, hv, hy => by
    unfold downPass
    simp only
    have e : v.set (p + 1) (wd v (p + 1) - mx k y (wd v p) sum (sum >>> 2 &&& 3) (p + 1)) = D k n sum v (p + 1) := by
      unfold D; rw [hy, show p + 1 + n - 1 = p + n by omega, Nat.add_mod_right, Nat.mod_eq_of_lt (by omega : p < n)]
    rw [e, downPass_spec k hn sum p _ _ (by omega) (by rw [D_length]; exact hv)]
    · rw [List.range'_concat, List.reverse_append, List.reverse_cons, List.reverse_nil, List.nil_append, List.foldl_append]
      simp [Nat.add_comm 1 p]
    · rw [Nat.mod_eq_of_lt h]

theorem foldU_length (k : List W32) (n : Nat) (sum : W32) : ∀ (ps : List Nat) (v : List W32), (ps.foldl (U k n sum) v).length = v.length
  | [], _ => rfl
  | p :: ps, v => by rw [List.foldl_cons, foldU_length k n sum ps, U_length]
theorem foldD_length (k : List W32) (n : Nat) (sum : W32) : ∀ (ps : List Nat) (v : List W32), (ps.foldl (D k n sum) v).length = v.length
  | [], _ => rfl
  | p :: ps, v => by rw [List.foldl_cons, foldD_length k n sum ps, D_length]

theorem btUp_spec (k : List W32) {n : Nat} (hn : 2 ≤ n) : ∀ (q i : Nat) (v : List W32) (z : W32), v.length = n → z = wd v (n - 1) →
    btUp k n q (S i) v z = (List.range' (i + 1) q).foldl (fun v j => (List.range' 0 n).foldl (U k n (S j)) v) v
  | 0, i, v, z, hv, hz => rfl
  | q + 1, i, v, z, hv, hz => by
    unfold btUp
    simp only
    rw [← S_succ, upPass_spec k hn (S (i + 1)) (n - 1) 0 v z (by omega) hv (by rw [Nat.zero_add, Nat.mod_eq_of_lt (by omega)]; exact hz)]
    simp only
    have hl := foldU_length k n (S (i + 1)) (List.range' 0 (n - 1)) v
    have e : ((List.range' 0 (n - 1)).foldl (U k n (S (i + 1))) v).set (n - 1)
        (wd ((List.range' 0 (n - 1)).foldl (U k n (S (i + 1))) v) (n - 1) +
          mx k (wd ((List.range' 0 (n - 1)).foldl (U k n (S (i + 1))) v) 0)
            (wd ((List.range' 0 (n - 1)).foldl (U k n (S (i + 1))) v) (n - 2)) (S (i + 1)) (S (i + 1) >>> 2 &&& 3) (n - 1)) =
        (List.range' 0 n).foldl (U k n (S (i + 1))) v := by
      rw [show List.range' 0 n = List.range' 0 (n - 1) ++ [n - 1] by
        obtain ⟨m, rfl⟩ : ∃ m, n = m + 1 := ⟨n - 1, by omega⟩
        rw [List.range'_concat]; simp]
      rw [List.foldl_append, List.foldl_cons, List.foldl_nil, U]
      rw [show n - 1 + 1 = n by omega, Nat.mod_self, show n - 1 + n - 1 = (n - 2) + n by omega, Nat.add_mod_right, Nat.mod_eq_of_lt (by omega : n - 2 < n)]
    rw [e, btUp_spec k hn q (i + 1) _ _ (by rw [foldU_length]; exact hv) rfl, List.range'_succ (s := i + 1), List.foldl_cons]

theorem btDown_spec (k : List W32) {n : Nat} (hn : 2 ≤ n) : ∀ (i fuel : Nat) (v : List W32) (y : W32), i < 2 ^ 32 → i < fuel → v.length = n → y = wd v 0 →
    btDown k n fuel (S i) v y = some ((List.range' 1 i).reverse.foldl (fun v j => (List.range' 0 n).reverse.foldl (D k n (S j)) v) v)
  | 0, fuel + 1, v, y, _, _, hv, hy => by
    unfold btDown
    rw [if_neg (by simp [S])]; rfl
  | i + 1, fuel + 1, v, y, h, hf, hv, hy => by
    unfold btDown
    have hz : S (i + 1) ≠ 0 := fun hc => by
      have := S_inj (i := i + 1) (j := 0) h (by decide) (by rw [hc]; simp [S]); omega
    have es : S (i + 1) - DELTA = S i := by rw [S_succ]; exact BitVec.add_sub_cancel _ _
    rw [if_pos hz, es]
    simp only
    rw [downPass_spec k hn (S (i + 1)) (n - 1) v y (by omega) hv (by rw [show n - 1 + 1 = n by omega, Nat.mod_self]; exact hy)]
    simp only
    have e : ((List.range' 1 (n - 1)).reverse.foldl (D k n (S (i + 1))) v).set 0
        (wd ((List.range' 1 (n - 1)).reverse.foldl (D k n (S (i + 1))) v) 0 -
          mx k (wd ((List.range' 1 (n - 1)).reverse.foldl (D k n (S (i + 1))) v) (1 % n))
            (wd ((List.range' 1 (n - 1)).reverse.foldl (D k n (S (i + 1))) v) (n - 1)) (S (i + 1)) (S (i + 1) >>> 2 &&& 3) 0) =
        (List.range' 0 n).reverse.foldl (D k n (S (i + 1))) v := by
      rw [show List.range' 0 n = 0 :: List.range' 1 (n - 1) by
        obtain ⟨m, rfl⟩ : ∃ m, n = m + 1 := ⟨n - 1, by omega⟩
        rw [List.range'_succ]; simp]
      rw [List.reverse_cons, List.foldl_append, List.foldl_cons, List.foldl_nil, D]
      rw [Nat.zero_add, Nat.zero_add, Nat.mod_eq_of_lt (by omega : n - 1 < n)]
    rw [e, btDown_spec k hn i fuel _ _ (by omega) (by omega) (by rw [foldD_length]; exact hv) rfl, List.range'_concat]
    simp [Nat.add_comm 1 i]

/-- Passes cancel on arrays of the right length. -/
theorem pass_pair (k : List W32) {n : Nat} (hn : 2 ≤ n) (sum : W32) :
    Pair n (fun v => (List.range' 0 n).foldl (U k n sum) v) (fun v => (List.range' 0 n).reverse.foldl (D k n sum) v) :=
  Pair.foldl (f := fun p v => U k n sum v p) (g := fun p v => D k n sum v p) (fun p v hv =>
    ⟨by rw [U_length, hv], (DU k hn sum hv p).1, by rw [D_length, hv], (DU k hn sum hv p).2⟩) _

theorem btea_pair (k : List W32) {n : Nat} (hn : 2 ≤ n) {fuel : Nat} (hf : 58 < fuel) : Pair n (bteaEnc k n) (fun v => bteaDec k n v fuel) := by
  have hp := Pair.foldl (f := fun j v => (List.range' 0 n).foldl (U k n (S j)) v) (g := fun j v => (List.range' 0 n).reverse.foldl (D k n (S j)) v)
    (fun j => pass_pair k hn (S j)) (List.range' 1 (6 + 52 / n))
  have hq : 6 + 52 / n ≤ 58 := by have := Nat.div_le_self 52 n; omega
  have e1 : ∀ v : List W32, v.length = n → bteaEnc k n v = (List.range' 1 (6 + 52 / n)).foldl (fun v j => (List.range' 0 n).foldl (U k n (S j)) v) v := by
    intro v hv
    have := btUp_spec k hn (6 + 52 / n) 0 v _ hv rfl
    rw [show S 0 = 0 by simp [S]] at this
    exact this
  have e2 : ∀ v : List W32, v.length = n → bteaDec k n v fuel =
      (List.range' 1 (6 + 52 / n)).reverse.foldl (fun v j => (List.range' 0 n).reverse.foldl (D k n (S j)) v) v := by
    intro v hv
    have := btDown_spec k hn (6 + 52 / n) fuel v _ (by omega) (by omega) hv rfl
    unfold bteaDec
    rw [show BitVec.ofNat 32 (6 + 52 / n) * DELTA = S (6 + 52 / n) from rfl, this]; rfl
  intro v hv
  obtain ⟨h1, h2, h3, h4⟩ := hp v hv
  simp only
  rw [e1 v hv, e2 v hv, e2 _ h1, e1 _ h3]
  exact ⟨h1, h2, h3, h4⟩

end Tea
end Verif.Cipher
