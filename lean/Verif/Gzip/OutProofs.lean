import Verif.Flate.Inflator

/-! # `Inflator` only appends to its output -/
namespace Verif.Flate

/-- Something was appended to the output, and the phase is the same. -/
def Inf.Grew (s t : Inf) : Prop := s.out <+: t.out ∧ t.phase = s.phase

theorem Inf.Grew.refl (s : Inf) : s.Grew s := ⟨List.prefix_refl _, rfl⟩

theorem Inf.Grew.trans {s t u : Inf} (h : s.Grew t) (k : t.Grew u) : s.Grew u := ⟨h.1.trans k.1, k.2.trans h.2⟩

theorem Inf.wrap_out (s : Inf) : s.Grew s.wrap := by
  unfold Inf.wrap
  split
  · exact ⟨List.prefix_append _ _, rfl⟩
  · exact ⟨List.prefix_refl _, rfl⟩

theorem Inf.outputByte_out (s : Inf) (b : Byte) : s.Grew (s.outputByte b) :=
  Inf.wrap_out { s with window := fun i => if i = s.current then b else s.window i, current := s.current + 1 }

theorem Inf.outputString_out (f : Nat) : ∀ (s : Inf) (l : List Byte), s.Grew (Inf.outputString f s l) := by
  induction f with
  | zero => intro s l; exact ⟨List.prefix_refl _, rfl⟩
  | succ f ih =>
    intro s l
    rw [Inf.outputString]
    split
    · exact ⟨List.prefix_refl _, rfl⟩
    · exact (Inf.wrap_out { s with window := writeWindow s.window s.current (l.take (min l.length (windowSize - s.current))), current := s.current + min l.length (windowSize - s.current) }).trans (ih _ _)

theorem Inf.copyLoop_out (n : Nat) : ∀ (i : Nat) (s : Inf), s.Grew (Inf.copyLoop n i s) := by
  induction n with
  | zero => intro i s; exact ⟨List.prefix_refl _, rfl⟩
  | succ n ih => intro i s; exact (s.outputByte_out _).trans (ih _ _)

theorem Inf.copyRest_out (s : Inf) (i n : Nat) : s.Grew (s.copyRest i n) := by
  unfold Inf.copyRest
  split
  · exact Inf.copyLoop_out _ _ _
  · exact ⟨List.prefix_refl _, rfl⟩

theorem Inf.outputPast_out (s : Inf) (n d : Nat) {t : Inf} (h : s.outputPast n d = .ok t) : s.Grew t := by
  have go : ∀ i, (if i + n > windowSize then Except.ok ((Inf.copyLoop (windowSize - i) i s).copyRest 0 (n - (windowSize - i))) else .ok (s.copyRest i n)) = Except.ok (ε := Err) t →
      s.Grew t := by
    intro i h
    split at h
    · cases h; exact (Inf.copyLoop_out _ _ _).trans (Inf.copyRest_out _ _ _)
    · cases h; exact Inf.copyRest_out _ _ _
  unfold Inf.outputPast at h
  dsimp only at h
  split at h
  · exact go _ h
  · split at h
    · exact go _ h
    · cases h

theorem Inf.bodyStep_out (l d : Decoder) (s : Inf) {g : Sig} {t : Inf} (h : s.bodyStep l d = .ok (g, t)) : s.Grew t := by
  unfold Inf.bodyStep at h
  split at h
  · split at h
    · cases h
    · cases h; exact ⟨List.prefix_refl _, rfl⟩
    · rename_i v r _
      split at h
      · cases h; exact Inf.outputByte_out { s with rd := r, literal := v } _
      · split at h
        · cases h; exact ⟨List.prefix_refl _, rfl⟩
        · split at h
          · cases h
          · cases h; exact ⟨List.prefix_refl _, rfl⟩
  · dsimp only at h
    split at h <;> (cases h; exact ⟨List.prefix_refl _, rfl⟩)
  · split at h
    · cases h
    · cases h; exact ⟨List.prefix_refl _, rfl⟩
    · cases h; exact ⟨List.prefix_refl _, rfl⟩
  · split at h
    · cases h
    · dsimp only at h
      split at h
      · cases h; exact ⟨List.prefix_refl _, rfl⟩
      · split at h
        · cases h
        · rename_i e
          cases h
          have k := Inf.outputPast_out _ _ _ e
          exact k

theorem Inf.bodyLoop_out (l d : Decoder) (f : Nat) : ∀ (s : Inf) {b : Bool} {t : Inf}, Inf.bodyLoop l d f s = .ok (b, t) → s.Grew t := by
  induction f with
  | zero => intro s b t h; cases h
  | succ f ih =>
    intro s b t h
    rw [Inf.bodyLoop] at h
    split at h
    · cases h
    · rename_i e; exact (Inf.bodyStep_out l d s e).trans (ih _ h)
    · rename_i e; cases h; exact Inf.bodyStep_out l d s e
    · rename_i e; cases h; exact Inf.bodyStep_out l d s e

theorem Inf.storedLoop_out (spy : List Byte → Nat) (f : Nat) : ∀ (s : Inf) {b : Bool} {t : Inf}, Inf.storedLoop spy f s = .ok (b, t) → s.Grew t := by
  induction f with
  | zero => intro s b t h; cases h
  | succ f ih =>
    intro s b t h
    rw [Inf.storedLoop] at h
    split at h
    · cases h; exact ⟨List.prefix_refl _, rfl⟩
    · dsimp only at h
      have k := Inf.outputString_out (min s.storedLen (spy s.rd.queue) + 1) s (s.rd.queue.take (min s.storedLen (spy s.rd.queue)))
      split at h
      · cases h; exact k
      · have k' := ih _ h
        exact k.trans k'

theorem Inf.flushOutput_out (s : Inf) : s.out <+: s.flushOutput.out := by
  unfold Inf.flushOutput
  split
  · exact List.prefix_append _ _
  · exact List.prefix_refl _

theorem Inf.endBlock_out (s : Inf) : s.out <+: s.endBlock.out := by
  unfold Inf.endBlock
  split
  · exact s.flushOutput_out
  · exact List.prefix_refl _

theorem Inf.endBlock_phase (s : Inf) : s.endBlock.phase = .postStream ∨ s.endBlock.phase = .waitHeader := by
  unfold Inf.endBlock
  split
  · exact .inl rfl
  · exact .inr rfl

theorem Inf.decodeBody_out (spy : List Byte → Nat) (s : Inf) {b : Bool} {t : Inf} (h : s.decodeBody spy = .ok (b, t)) :
    s.out <+: t.out ∧ (t.phase = s.phase ∨ t.phase = .postStream ∨ t.phase = .waitHeader) := by
  unfold Inf.decodeBody at h
  dsimp only at h
  have key : ∀ r : Except Err (Bool × Inf), (∀ b t, r = .ok (b, t) → s.Grew t) →
      (match r with
        | .error e => .error e
        | .ok (true, s) => .ok (true, s.endBlock)
        | .ok (false, s) => .ok (false, s)) = Except.ok (b, t) → s.out <+: t.out ∧ (t.phase = s.phase ∨ t.phase = .postStream ∨ t.phase = .waitHeader) := by
    intro r hr e
    split at e
    · cases e
    · cases e; exact ⟨(hr _ _ rfl).1.trans (Inf.endBlock_out _), .inr (Inf.endBlock_phase _)⟩
    · cases e; exact ⟨(hr _ _ rfl).1, .inl (hr _ _ rfl).2⟩
  refine key _ ?_ h
  intro b t e
  split at e
  · exact Inf.storedLoop_out spy _ s e
  · split at e
    · exact Inf.bodyLoop_out _ _ _ s e
    · cases e
    · cases e

theorem Inf.decodeHeader_out (s : Inf) {t : Inf} (h : s.decodeHeader = .ok t) : t.out = s.out := by
  unfold Inf.decodeHeader at h
  split at h
  · cases h
  · dsimp only at h
    split at h
    · unfold Inf.readStored at h
      dsimp only at h
      split at h
      · cases h
      · split at h
        · cases h
        · cases h; rfl
    · split at h
      · cases h; rfl
      · split at h
        · unfold Inf.readDynamic at h
          dsimp only at h
          repeat' (split at h)
          all_goals first | (cases h; done) | (cases h; rfl)
        · cases h

end Verif.Flate
