import Verif.Stream.Proofs

/-! Properties C13 and C14: additive stream ciphers. -/
namespace Verif.Stream

variable {π ι : Type} {P : Policy π ι} {S : ι → Mem} {Rep : ι → Nat → π → Prop} {lim : Nat}

/-- C13, C14. After keying, every history of `ProcessData`, `GenerateBlock`, `Seek` and `Resynchronize` calls returns what
the keystream demands: input bytes combined with, or copies of, the keystream bytes at the current position, which calls
advance by their length, `Seek` sets, and `Resynchronize` sets to 0 of the new vector's keystream. -/
theorem history_outputs (ok : P.Ok S Rep lim) (v : ι) (i : Nat) (p : π) (hr : Rep v i p) (w : ι) (junk : Mem) (ops : List (Op ι)) (hs : SeeksOk P lim ops) :
    run P (setKey P p w junk) ops = .ok (specRun S w 0 ops) :=
  run_inv ok ops w 0 _ (setKey_spec ok v i p w junk hr) hs

theorem specRun_process (S : ι → Mem) (v : ι) (pieces : List (List Byte)) : ∀ (q : Nat) (rest : List (Op ι)),
    ∃ out, specRun S v q (pieces.map .process ++ rest) = out ++ specRun S v (q + pieces.flatten.length) rest ∧
      out.length = pieces.length ∧ out.flatten = xorBytes pieces.flatten (load (S v) q pieces.flatten.length) := by
  induction pieces with
  | nil => intro q rest; exact ⟨[], by simp, rfl, by simp [xorBytes]⟩
  | cons x pieces ih =>
    intro q rest
    obtain ⟨out, e1, e2, e3⟩ := ih (q + x.length) rest
    refine ⟨xorBytes x (load (S v) q x.length) :: out, ?_, by simp [e2], ?_⟩
    · simp only [List.map_cons, List.cons_append, specRun, e1, List.flatten_cons, List.length_append, Nat.add_assoc]
    · simp only [List.flatten_cons, List.length_append, e3, load_add]
      rw [xorBytes_append _ _ _ _ (by simp)]

theorem seeksOk_process (pieces : List (List Byte)) (rest : List (Op ι)) (h : SeeksOk P lim rest) : SeeksOk P lim (pieces.map .process ++ rest) := by
  induction pieces with
  | nil => exact h
  | cons x pieces ih => exact ih

/-- C13. The output does not depend on how the message is split: it is the message combined with the keystream. -/
theorem split_independent (ok : P.Ok S Rep lim) (v : ι) (i : Nat) (p : π) (hr : Rep v i p) (w : ι) (junk : Mem) (pieces : List (List Byte)) :
    ∃ out, run P (setKey P p w junk) (pieces.map .process) = .ok out ∧ out.flatten = xorBytes pieces.flatten (load (S w) 0 pieces.flatten.length) := by
  obtain ⟨out, e1, _, e3⟩ := specRun_process S w pieces 0 []
  refine ⟨out, ?_, e3⟩
  have := history_outputs ok v i p hr w junk (pieces.map .process ++ []) (seeksOk_process (P := P) (lim := lim) pieces [] trivial)
  rw [e1] at this
  simpa [specRun] using this

/-- C13. Decryption, by a second object with the same key and vector, undoes encryption, whatever the two splits. -/
theorem decrypt_encrypt (ok : P.Ok S Rep lim) (v : ι) (i : Nat) (p : π) (hr : Rep v i p) (w : ι) (junk junk' : Mem) (pieces pieces' : List (List Byte))
    (out : List (List Byte)) (henc : run P (setKey P p w junk) (pieces.map .process) = .ok out) (hsame : pieces'.flatten = out.flatten) :
    ∃ back, run P (setKey P p w junk') (pieces'.map .process) = .ok back ∧ back.flatten = pieces.flatten := by
  obtain ⟨o1, e1, f1⟩ := split_independent ok v i p hr w junk pieces
  obtain ⟨o2, e2, f2⟩ := split_independent ok v i p hr w junk' pieces'
  rw [henc] at e1
  injection e1 with e1
  refine ⟨o2, e2, ?_⟩
  rw [f2, hsame, e1, f1]
  have : (xorBytes pieces.flatten (load (S w) 0 pieces.flatten.length)).length = pieces.flatten.length := by simp
  rw [this, xorBytes_cancel _ _ (by simp)]

/-- C14. After `Seek(p)`, whatever happened before, the next bytes use keystream bytes `p`, `p + 1`, ... -/
theorem seek_exact (ok : P.Ok S Rep lim) (v : ι) (i : Nat) (p : π) (hr : Rep v i p) (w : ι) (junk : Mem) (before : List (Op ι))
    (hnr : ∀ u j, Op.resync u j ∉ before) (hs : SeeksOk P lim before) (q : Nat) (hq : q / P.bpi < lim) (x : List Byte) :
    ∃ out, run P (setKey P p w junk) (before ++ [.seek q, .process x]) = .ok (out ++ [xorBytes x (load (S w) q x.length)]) := by
  have hs' : SeeksOk P lim (before ++ [.seek q, .process x]) := by
    clear hnr
    induction before with
    | nil => exact ⟨hq, trivial⟩
    | cons op before ih =>
      cases op with
      | seek r => exact ⟨hs.1, ih hs.2⟩
      | process y => exact ih hs
      | generate n => exact ih hs
      | resync u j => exact ih hs
  rw [history_outputs ok v i p hr w junk _ hs']
  have : ∀ (l : List (Op ι)) (r : Nat), (∀ u j, Op.resync u j ∉ l) →
      ∃ out, specRun S w r (l ++ [.seek q, .process x]) = out ++ [xorBytes x (load (S w) q x.length)] := by
    intro l
    induction l with
    | nil => intro r _; exact ⟨[], rfl⟩
    | cons op l ih =>
      intro r hn
      have hn' : ∀ u j, Op.resync u j ∉ l := fun u j h => hn u j (List.mem_cons_of_mem _ h)
      cases op with
      | seek r' => exact ih _ hn'
      | process y => obtain ⟨o, e⟩ := ih (r + y.length) hn'; exact ⟨xorBytes y (load (S w) r y.length) :: o, by simp only [List.cons_append, specRun, e]⟩
      | generate n => obtain ⟨o, e⟩ := ih (r + n) hn'; exact ⟨load (S w) r n :: o, by simp only [List.cons_append, specRun, e]⟩
      | resync u j => exact absurd List.mem_cons_self (hn u j)
  obtain ⟨out, e⟩ := this before 0 hnr
  exact ⟨out, by rw [e]⟩

/-! ## The hypotheses can be met -/

/-- A toy policy: keystream byte `q` of vector `v` is `v * 7 + q`, three bytes per iteration. -/
def toy : Policy (Nat × Nat) Nat where
  bpi := 3
  iters := 2
  canOperate := true
  write := fun p n => ((p.1, p.2 + n), load (fun q => BitVec.ofNat 8 (p.1 * 7 + q)) (p.2 * 3) (n * 3))
  operate := fun p x n => ((p.1, p.2 + n), xorBytes x (load (fun q => BitVec.ofNat 8 (p.1 * 7 + q)) (p.2 * 3) (n * 3)))
  seek := fun p j => .ok (p.1, j)
  resync := fun _ v => (v, 0)

theorem toy_ok : toy.Ok (fun v q => BitVec.ofNat 8 (v * 7 + q)) (fun v i p => p = (v, i)) (2 ^ 64) where
  bpi_pos := by decide
  iters_pos := by decide
  write := by intro v i p n h _; subst h; exact ⟨rfl, rfl⟩
  operate := by intro v i p n x _ h _ _; subst h; exact ⟨rfl, rfl⟩
  seek := by intro v i p j h _; subst h; exact ⟨_, rfl, rfl⟩
  resync := by intro v i p w _; rfl

def toyOps : List (Op Nat) := [.process [1, 2], .generate 5, .seek 100, .process [9, 9, 9, 9, 9, 9, 9], .resync 4 (fun _ => 0), .process [1]]

example : SeeksOk toy (2 ^ 64) toyOps := by simp [SeeksOk, toyOps, toy]

example : run toy (setKey toy (0, 0) 5 (fun _ => 0xcc)) toyOps = .ok (specRun (fun v q => BitVec.ofNat 8 (v * 7 + q)) 5 0 toyOps) :=
  history_outputs toy_ok 0 0 (0, 0) rfl 5 _ toyOps (by simp [SeeksOk, toyOps, toy])

example : (specRun (fun v q => BitVec.ofNat 8 (v * 7 + q)) 5 0 toyOps).getD 2 [] = [142, 129, 128, 131, 130, 133, 132] := by decide +kernel

end Verif.Stream
