import Verif.Ida.Core
import Verif.Ida.Spec
import Mathlib.Data.List.Perm.Subperm
import Mathlib.Data.List.Induction

/-! # Histories of calls on a `RawIDA` -/
namespace Verif.Ida
open Verif.MQueue Verif.Gf

theorem callsOf_append (id : W32) (a b : List Call) : callsOf id (a ++ b) = callsOf id a ++ callsOf id b := List.filter_append ..

theorem callsOf_cons_self (c : Call) (l : List Call) : callsOf c.id (c :: l) = c :: callsOf c.id l := by simp [callsOf]

theorem callsOf_cons_ne (id : W32) (c : Call) (l : List Call) (h : c.id ≠ id) : callsOf id (c :: l) = callsOf id l := by simp [callsOf, h]

theorem bytesOf_append (id : W32) (a b : List Call) : bytesOf id (a ++ b) = bytesOf id a ++ bytesOf id b := by
  simp [bytesOf, callsOf_append]

theorem bytesOf_single (c : Call) : bytesOf c.id [c] = c.bytes := by simp [bytesOf, callsOf]

theorem bytesOf_single_ne (id : W32) (c : Call) (h : c.id ≠ id) : bytesOf id [c] = [] := by simp [bytesOf, callsOf, h]

/-- The channels hold what the history sent. -/
structure Track (h : List Call) (chans : List Chan) : Prop where
  data : ∀ ch ∈ chans, ch.data = bytesOf ch.id h
  ended : ∀ ch ∈ chans, ch.ended = (callsOf ch.id h).any Call.last
  ids : ∀ id, id ∈ chans.map Chan.id ↔ callsOf id h ≠ []

theorem track_nil : Track [] [] := ⟨fun _ h => (List.not_mem_nil h).elim, fun _ h => (List.not_mem_nil h).elim, fun id => by simp [callsOf]⟩

theorem track_step {h : List Call} {chans A B : List Chan} {ch : Chan} (c : Call) (ht : Track h chans) (hnd : (chans.map Chan.id).Nodup)
    (hcid : ch.id = c.id) (hce : ch.ended = false)
    (hor : (c.id ∈ chans.map Chan.id ∧ A ++ ch :: B = chans) ∨ (c.id ∉ chans.map Chan.id ∧ A = chans ∧ ch = ⟨c.id, [], false⟩ ∧ B = [])) :
    Track (h ++ [c]) (A ++ ⟨c.id, ch.data ++ c.bytes, c.last⟩ :: B) := by
  have other : ∀ x : Chan, x.id ≠ c.id → x ∈ chans → x.data = bytesOf x.id (h ++ [c]) ∧ x.ended = (callsOf x.id (h ++ [c])).any Call.last := by
    intro x hx hm
    refine ⟨?_, ?_⟩
    · rw [bytesOf_append, bytesOf_single_ne _ _ (Ne.symm hx), List.append_nil]; exact ht.data x hm
    · rw [callsOf_append, callsOf_cons_ne _ _ _ (Ne.symm hx)]
      simpa [callsOf] using ht.ended x hm
  have this' : ch.data = bytesOf c.id h ∧ (callsOf c.id h).any Call.last = false := by
    rcases hor with ⟨_, he⟩ | ⟨hm, _, he, _⟩
    · have hm : ch ∈ chans := by rw [← he]; simp
      rw [← hcid]
      exact ⟨ht.data ch hm, by rw [← ht.ended ch hm, hce]⟩
    · have : callsOf c.id h = [] := by
        by_contra hc; exact hm ((ht.ids c.id).mpr hc)
      rw [he]; simp [bytesOf, this]
  have hAB : ∀ x ∈ A ++ B, x.id ≠ c.id ∧ x ∈ chans := by
    intro x hx
    rcases hor with ⟨_, he⟩ | ⟨hm, hA, _, hB⟩
    · rw [← he, List.map_append, List.map_cons, List.nodup_append] at hnd
      obtain ⟨h1, h2, h3⟩ := hnd
      rw [List.nodup_cons] at h2
      rcases List.mem_append.mp hx with hx | hx
      · refine ⟨fun hc => ?_, by rw [← he]; exact List.mem_append_left _ hx⟩
        exact h3 x.id (List.mem_map_of_mem hx) ch.id (List.mem_cons_self) (by rw [hc, hcid])
      · refine ⟨fun hc => ?_, by rw [← he]; exact List.mem_append_right _ (List.mem_cons_of_mem _ hx)⟩
        exact h2.1 (by rw [hcid, ← hc]; exact List.mem_map_of_mem hx)
    · subst hB; subst hA
      rw [List.append_nil] at hx
      exact ⟨fun hc => hm (hc ▸ List.mem_map_of_mem hx), hx⟩
  refine ⟨?_, ?_, ?_⟩
  · intro x hx
    rcases List.mem_append.mp hx with hx | hx
    · exact (other x (hAB x (List.mem_append_left _ hx)).1 (hAB x (List.mem_append_left _ hx)).2).1
    · rcases List.mem_cons.mp hx with rfl | hx
      · simp only; rw [bytesOf_append, bytesOf_single, this'.1]
      · exact (other x (hAB x (List.mem_append_right _ hx)).1 (hAB x (List.mem_append_right _ hx)).2).1
  · intro x hx
    rcases List.mem_append.mp hx with hx | hx
    · exact (other x (hAB x (List.mem_append_left _ hx)).1 (hAB x (List.mem_append_left _ hx)).2).2
    · rcases List.mem_cons.mp hx with rfl | hx
      · simp only; rw [callsOf_append, callsOf_cons_self, List.any_append, this'.2]; simp [callsOf]
      · exact (other x (hAB x (List.mem_append_right _ hx)).1 (hAB x (List.mem_append_right _ hx)).2).2
  · intro id
    have hids : id ∈ (A ++ (⟨c.id, ch.data ++ c.bytes, c.last⟩ : Chan) :: B).map Chan.id ↔ id = c.id ∨ id ∈ chans.map Chan.id := by
      rcases hor with ⟨hm, he⟩ | ⟨hm, hA, _, hB⟩
      · rw [← he]; simp [hcid]; tauto
      · subst hA; subst hB; simp; exact or_comm
    rw [hids, callsOf_append]
    by_cases hc : c.id = id
    · subst hc; simp [callsOf]
    · rw [callsOf_cons_ne _ _ _ hc, ht.ids]
      simp [callsOf, Ne.symm hc]

/-- A new `RawIDA`, or one that has finished a message. -/
def Fresh (outIds : List W32) (s : Ida) : Prop :=
  s.inIds = [] ∧ s.inQ = [] ∧ s.outIds = outIds ∧ s.v = [] ∧ s.ready = 0 ∧ s.finished = 0

theorem init_fresh (outIds : List W32) : Fresh outIds (Ida.init outIds) := ⟨rfl, rfl, rfl, rfl, rfl, rfl⟩

theorem fresh_inv {R : RingOps W32} {cfg : Cfg} (ht : 0 < cfg.threshold) {outIds : List W32} {s : Ida} (h : Fresh outIds s) : Inv R cfg outIds s.sink s [] 0 := by
  obtain ⟨h1, h2, h3, h4, h5, h6⟩ := h
  exact ⟨h3, by rw [h1]; rfl, by rw [h1]; exact List.nodup_nil, Nat.zero_le _, by rw [h2]; exact List.Forall₂.nil, fun h => absurd h (Nat.lt_irrefl _),
    fun hl => absurd hl (by simp; omega), by simp, by rw [h5]; simp, by omega, by rw [h6]; rfl, by omega, fun _ => h4, Fed.init⟩

theorem run_append (R : RingOps W32) (cfg : Cfg) (a b : List Call) : ∀ (s : Ida), s.run R cfg (a ++ b) =
    match s.run R cfg a with | .error e => .error e | .ok s => s.run R cfg b := by
  induction a with
  | nil => intro s; rfl
  | cons c a ih =>
    intro s
    simp only [List.cons_append, Ida.run]
    cases s.channelData R cfg c.id c.bytes c.last with
    | error e => rfl
    | ok s => exact ih s

theorem step_spec' {R : RingOps W32} {cfg : Cfg} (hR : ∀ x, ∃ w, prepare R x = .ok w) (ht : 0 < cfg.threshold) {outIds : List W32} {k0 : Sink} {s : Ida} {chans : List Chan} {n : Nat}
    {ids : List W32} (hids : ids.length = cfg.threshold) {data : W32 → List Byte} {h rest : List Call} {c : Call}
    (inv : Inv R cfg outIds k0 s chans n) (tr : Track h chans) (hd : Delivers ids data (h ++ c :: rest)) :
    ∃ s' chans', s.channelData R cfg c.id c.bytes c.last = .ok s' ∧ Track (h ++ [c]) chans' ∧
      ((chans'.countP Chan.ended = cfg.threshold ∧ (chans'.map Chan.id).Nodup ∧ Final R cfg outIds k0 s' chans') ∨ ∃ n', Inv R cfg outIds k0 s' chans' n') := by
  have hcm : c.id ∈ ids := hd.1 c (by simp)
  obtain ⟨_, pre, last, hp, hl, hpre⟩ := hd.2 c.id hcm
  rw [callsOf_append, callsOf_cons_self] at hp
  have noend : (callsOf c.id h).any Call.last = false := by
    rw [Bool.eq_false_iff]
    intro hc
    rw [List.any_eq_true] at hc
    obtain ⟨x, hx, hxl⟩ := hc
    have hpx : callsOf c.id h <+: pre := by
      have hl' := congrArg List.length hp
      simp only [List.length_append, List.length_cons, List.length_nil] at hl'
      have e1 : callsOf c.id h = (pre ++ [last]).take (callsOf c.id h).length := by rw [← hp, List.take_append_of_le_length (Nat.le_refl _), List.take_length]
      rw [e1, List.take_append_of_le_length (by omega)]
      exact List.take_prefix _ _
    have := hpre x (hpx.subset hx)
    rw [this] at hxl; cases hxl
  have hnd := inv.nodup
  rw [inv.ids] at hnd
  have hid : (∃ ch ∈ chans, ch.id = c.id ∧ ch.ended = false) ∨ (c.id ∉ chans.map Chan.id ∧ chans.length < cfg.threshold) := by
    by_cases hm : c.id ∈ chans.map Chan.id
    · left
      obtain ⟨ch, hch, he⟩ := List.mem_map.mp hm
      exact ⟨ch, hch, he, by rw [tr.ended ch hch, he, noend]⟩
    · right
      refine ⟨hm, ?_⟩
      have hnd' : (c.id :: chans.map Chan.id).Nodup := List.nodup_cons.mpr ⟨hm, hnd⟩
      have hsub : c.id :: chans.map Chan.id ⊆ ids := by
        intro x hx
        rcases List.mem_cons.mp hx with rfl | hx
        · exact hcm
        · have hne := (tr.ids x).mp hx
          obtain ⟨y, hy⟩ := List.exists_mem_of_ne_nil _ hne
          have hy' := List.mem_filter.mp hy
          have : y.id = x := by simpa using hy'.2
          rw [← this]
          exact hd.1 y (List.mem_append_left _ hy'.1)
      have := (List.subperm_of_subset hnd' hsub).length_le
      simp at this; omega
  obtain ⟨s', A, ch, B, e, hcid, hce, hor, hfin⟩ := channelData_spec hR ht inv c.id c.bytes c.last hid
  refine ⟨s', _, e, track_step c tr hnd hcid hce hor, ?_⟩
  rcases hfin with ⟨h1, h2⟩ | h2
  · refine Or.inl ⟨h1, ?_, h2⟩
    rcases hor with ⟨_, he⟩ | ⟨hm, hA, hch, hB⟩
    · rw [← he] at hnd
      simpa [hcid] using hnd
    · subst hA; subst hB
      rw [List.map_append, List.nodup_append]
      exact ⟨hnd, by simp, fun a ha b hb => by simp at hb; subst hb; exact fun he => hm (he ▸ ha)⟩
  · exact Or.inr h2

theorem not_all_ended {cfg : Cfg} {ids : List W32} (hids : ids.length = cfg.threshold) {data : W32 → List Byte} {h : List Call} {c : Call} {rest : List Call}
    {chans : List Chan} (tr : Track h chans) (hnd : (chans.map Chan.id).Nodup) (hd : Delivers ids data (h ++ c :: rest)) :
    chans.countP Chan.ended ≠ cfg.threshold := by
  intro hc
  have hsub : chans.map Chan.id ⊆ ids := by
    intro x hx
    have hne := (tr.ids x).mp hx
    obtain ⟨y, hy⟩ := List.exists_mem_of_ne_nil _ hne
    have hy' := List.mem_filter.mp hy
    have : y.id = x := by simpa using hy'.2
    rw [← this]
    exact hd.1 y (List.mem_append_left _ hy'.1)
  have hle := (List.subperm_of_subset hnd hsub).length_le
  have hle2 := List.countP_le_length (p := Chan.ended) (l := chans)
  rw [List.length_map] at hle
  have hperm := (List.subperm_of_subset hnd hsub).perm_of_length_le (by rw [List.length_map]; omega)
  have hall : ∀ ch ∈ chans, ch.ended = true := by rw [← countP_eq_length_iff]; omega
  have hcm : c.id ∈ chans.map Chan.id := hperm.symm.subset (hd.1 c (by simp))
  obtain ⟨ch, hch, he⟩ := List.mem_map.mp hcm
  have h1 := hall ch hch
  rw [tr.ended ch hch, he, List.any_eq_true] at h1
  obtain ⟨x, hx, hxl⟩ := h1
  obtain ⟨_, pre, last, hp, hl, hpre⟩ := hd.2 c.id (hd.1 c (by simp))
  rw [callsOf_append, callsOf_cons_self] at hp
  have hpx : callsOf c.id h <+: pre := by
    have hl' := congrArg List.length hp
    simp only [List.length_append, List.length_cons, List.length_nil] at hl'
    have e1 : callsOf c.id h = (pre ++ [last]).take (callsOf c.id h).length := by rw [← hp, List.take_append_of_le_length (Nat.le_refl _), List.take_length]
    rw [e1, List.take_append_of_le_length (by omega)]
    exact List.take_prefix _ _
  have := hpre x (hpx.subset hx)
  rw [this] at hxl; cases hxl

/-- Before its last call, a delivering history keeps the invariant. -/
theorem run_prefix {R : RingOps W32} {cfg : Cfg} (hR : ∀ x, ∃ w, prepare R x = .ok w) (ht : 0 < cfg.threshold) {outIds : List W32} {s : Ida} (hs : Fresh outIds s)
    {ids : List W32} (hids : ids.length = cfg.threshold) {data : W32 → List Byte} (h : List Call) : ∀ (c : Call) (rest : List Call), Delivers ids data (h ++ c :: rest) →
    ∃ s' chans n, s.run R cfg h = .ok s' ∧ Track h chans ∧ Inv R cfg outIds s.sink s' chans n := by
  induction h using List.reverseRecOn with
  | nil => intro c rest _; exact ⟨s, [], 0, rfl, track_nil, fresh_inv ht hs⟩
  | append_singleton h x ih =>
    intro c rest hd
    obtain ⟨s1, chans, n, e, tr, inv⟩ := ih x (c :: rest) (by simpa using hd)
    obtain ⟨s2, chans2, e2, tr2, hfin⟩ := step_spec' hR ht hids inv tr (rest := c :: rest) (by simpa using hd)
    have erun : s.run R cfg (h ++ [x]) = .ok s2 := by
      rw [run_append, e]
      show s1.run R cfg [x] = _
      simp only [Ida.run, e2]
    rcases hfin with ⟨h1, h2, h3⟩ | ⟨n', h3⟩
    · exact absurd h1 (not_all_ended hids tr2 h2 hd)
    · exact ⟨s2, chans2, n', erun, tr2, h3⟩

/-- After a delivering history everything has been processed. -/
theorem run_final {R : RingOps W32} {cfg : Cfg} (hR : ∀ x, ∃ w, prepare R x = .ok w) (ht : 0 < cfg.threshold) {outIds : List W32} {s : Ida} (hs : Fresh outIds s)
    {ids : List W32} (hnd : ids.Nodup) (hids : ids.length = cfg.threshold) {data : W32 → List Byte} {h : List Call} (hd : Delivers ids data h) :
    ∃ s' chans, s.run R cfg h = .ok s' ∧ Final R cfg outIds s.sink s' chans ∧ (chans.map Chan.id).Perm ids ∧ ∀ ch ∈ chans, ch.data = data ch.id := by
  rcases List.eq_nil_or_concat h with rfl | ⟨h0, c, rfl⟩
  · exfalso
    cases ids with
    | nil => simp at hids; omega
    | cons i l =>
      obtain ⟨_, pre, last, hp, _⟩ := hd.2 i (List.mem_cons_self)
      simp [callsOf] at hp
  · rw [List.concat_eq_append] at hd ⊢
    obtain ⟨s1, chans, n, e, tr, inv⟩ := run_prefix hR ht hs hids h0 c [] hd
    obtain ⟨s2, chans2, e2, tr2, hfin⟩ := step_spec' hR ht hids inv tr hd
    have erun : s.run R cfg (h0 ++ [c]) = .ok s2 := by
      rw [run_append, e]
      show s1.run R cfg [c] = _
      simp only [Ida.run, e2]
    have hsub : ids ⊆ chans2.map Chan.id := by
      intro id hm
      obtain ⟨_, pre, last, hp, hl, _⟩ := hd.2 id hm
      rw [tr2.ids id, hp]; simp
    have hended : ∀ ch ∈ chans2, ch.ended = true := by
      intro ch hm
      have hne := (tr2.ids ch.id).mp (List.mem_map_of_mem hm)
      obtain ⟨y, hy⟩ := List.exists_mem_of_ne_nil _ hne
      have hy' := List.mem_filter.mp hy
      have hyid : y.id = ch.id := by simpa using hy'.2
      obtain ⟨_, pre, last, hp, hl, _⟩ := hd.2 ch.id (hyid ▸ hd.1 y hy'.1)
      rw [tr2.ended ch hm, hp]; simp [hl]
    have hcount : chans2.countP Chan.ended = chans2.length := (countP_eq_length_iff _ _).mpr hended
    have hlen := (List.subperm_of_subset hnd hsub).length_le
    rw [List.length_map] at hlen
    have hperm : chans2.length = cfg.threshold → (chans2.map Chan.id).Perm ids := by
      intro hl
      exact ((List.subperm_of_subset hnd hsub).perm_of_length_le (by rw [List.length_map]; omega)).symm
    rcases hfin with ⟨h1, h2, h3⟩ | ⟨n', h3⟩
    · have hp := hperm (by omega)
      exact ⟨s2, chans2, erun, h3, hp, fun ch hm => by rw [tr2.data ch hm]; exact (hd.2 ch.id (hp.subset (List.mem_map_of_mem hm))).1⟩
    · have h4 := h3.finishedLt
      rw [h3.finished] at h4
      omega

end Verif.Ida
