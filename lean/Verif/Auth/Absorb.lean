import Verif.Auth.Proofs

/-! `AuthenticateData` by itself, for modes that do not meet the whole contract. -/
namespace Verif.Auth

section
variable {σ κ : Type} {Hk : Hooks σ κ} {R : List Byte → σ → Prop} (pos : 0 < Hk.blockSize)
  (hB : ∀ D o d, R D o → D.length % Hk.blockSize = 0 → Hk.blockSize ≤ d.length → ∃ o', Hk.authBlocks o d = .ok (o', d.length % Hk.blockSize) ∧ R (D ++ whole Hk.blockSize d) o')
include pos hB

theorem authRest_rep (s : State σ) (D x : List Byte) (hD : D.length % Hk.blockSize = 0) (hr : R D s.o) :
    ∃ o', authRest Hk s x = .ok { s with o := o', pending := rest Hk.blockSize (D ++ x) } ∧ R (whole Hk.blockSize (D ++ x)) o' := by
  have hsplit : whole Hk.blockSize (D ++ x) = D ++ whole Hk.blockSize x ∧ rest Hk.blockSize (D ++ x) = rest Hk.blockSize x := by
    have := split_unique Hk.blockSize pos (D ++ whole Hk.blockSize x) (rest Hk.blockSize x)
      (by rw [List.length_append, Nat.add_mod, hD, whole_mod]; exact Nat.zero_mod _) (rest_lt _ pos _)
    rwa [List.append_assoc, whole_rest] at this
  rw [hsplit.1, hsplit.2]
  unfold authRest
  by_cases h : x.length ≥ Hk.blockSize
  · rw [if_pos h]
    obtain ⟨o', e, r⟩ := hB _ s.o x hr hD h
    rw [e]
    refine ⟨o', ?_, ?_⟩
    · dsimp only
      rw [rest, show x.length - x.length % Hk.blockSize = Hk.blockSize * (x.length / Hk.blockSize) by have := Nat.div_add_mod x.length Hk.blockSize; omega]
    · exact r
  · rw [if_neg h]
    have h0 : x.length / Hk.blockSize = 0 := Nat.div_eq_of_lt (by omega)
    refine ⟨s.o, ?_, ?_⟩
    · rw [rest, h0, Nat.mul_zero, List.drop_zero]
    · rw [whole, h0, Nat.mul_zero, List.take_zero, List.append_nil]; exact hr

theorem authData_rep (s : State σ) (D x : List Byte) (hp : s.pending = rest Hk.blockSize D)
    (hr : R (whole Hk.blockSize D) s.o) :
    ∃ o', authData Hk s x = .ok { s with o := o', pending := rest Hk.blockSize (D ++ x) } ∧ R (whole Hk.blockSize (D ++ x)) o' := by
  unfold authData
  by_cases hx : x.length = 0
  · rw [if_pos hx]
    have : x = [] := List.eq_nil_of_length_eq_zero hx
    subst this
    rw [List.append_nil, ← hp]
    exact ⟨s.o, rfl, hr⟩
  rw [if_neg hx]
  have hlt : s.pending.length < Hk.blockSize := by rw [hp]; exact rest_lt _ pos _
  have hD : whole Hk.blockSize D ++ s.pending = D := by rw [hp]; exact whole_rest _ _
  by_cases hn : s.pending.length ≠ 0
  · dsimp only
    rw [if_pos hn]
    by_cases hf : s.pending.length + x.length ≥ Hk.blockSize
    · rw [if_pos hf]
      have hl : (s.pending ++ x.take (Hk.blockSize - s.pending.length)).length = Hk.blockSize := by
        rw [List.length_append, List.length_take]; omega
      obtain ⟨o1, e1, r1⟩ := hB _ s.o (s.pending ++ x.take (Hk.blockSize - s.pending.length)) hr (whole_mod _ _) (by omega)
      rw [e1]
      dsimp only
      have hw : whole Hk.blockSize (s.pending ++ x.take (Hk.blockSize - s.pending.length)) = s.pending ++ x.take (Hk.blockSize - s.pending.length) := by
        rw [whole, hl, Nat.div_self pos, Nat.mul_one]; exact List.take_of_length_le (by omega)
      rw [hw, ← List.append_assoc, hD] at r1
      have hm : (D ++ x.take (Hk.blockSize - s.pending.length)).length % Hk.blockSize = 0 := by
        rw [← hD, List.append_assoc, List.length_append, hl, Nat.add_mod, whole_mod, Nat.mod_self]; exact Nat.zero_mod _
      obtain ⟨o2, e2, r2⟩ := authRest_rep pos hB { s with o := o1, pending := [] } (D ++ x.take (Hk.blockSize - s.pending.length)) (x.drop (Hk.blockSize - s.pending.length)) hm r1
      rw [List.append_assoc, List.take_append_drop] at e2 r2
      exact ⟨o2, e2, r2⟩
    · rw [if_neg hf]
      have := split_unique Hk.blockSize pos (whole Hk.blockSize D) (s.pending ++ x) (whole_mod _ _) (by rw [List.length_append]; omega)
      rw [← List.append_assoc, hD] at this
      rw [this.1, this.2]
      exact ⟨s.o, rfl, hr⟩
  · dsimp only
    rw [if_neg hn]
    have hp0 : s.pending = [] := List.eq_nil_of_length_eq_zero (by omega)
    rw [hp0, List.append_nil] at hD
    rw [hD] at hr
    exact authRest_rep pos hB s D x (by rw [← hD]; exact whole_mod _ _) hr

end

end Verif.Auth
