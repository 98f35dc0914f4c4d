import Verif.Ida.Core
import Verif.Ida.Spec

/-! # What the three classes put out for a sequence of columns -/
namespace Verif.Ida
open Verif.MQueue Verif.Gf

/-- The bytes of output `o` when column after column is given by a function of the output. -/
def strm (ks : List (W32 → W32)) (o : W32) : List Byte := ks.flatMap fun h => wordBytes (h o)

theorem strm_append (a b : List (W32 → W32)) (o : W32) : strm (a ++ b) o = strm a o ++ strm b o := by simp [strm]

theorem wordBytes_length (x : W32) : (wordBytes x).length = 4 := by simp [wordBytes]

theorem strm_length (ks : List (W32 → W32)) (o : W32) : (strm ks o).length = 4 * ks.length := by
  induction ks with
  | nil => rfl
  | cons h t ih => rw [strm, List.flatMap_cons, List.length_append, wordBytes_length]; have : (t.flatMap fun h => wordBytes (h o)).length = 4 * t.length := ih; simp only [this, List.length_cons]; omega

theorem columns (outIds : List W32) (ks : List (W32 → W32)) : ∀ (k : Sink) (g : W32 → List Byte), k.outQ = outIds.map g →
    (ks.map fun h => outIds.map h).foldl Sink.column k = { k with outQ := outIds.map fun o => g o ++ strm ks o } := by
  induction ks with
  | nil => intro k g hk; simp [strm, ← hk]
  | cons h t ih =>
    intro k g hk
    rw [List.map_cons, List.foldl_cons]
    have : (k.column (outIds.map h)).outQ = outIds.map fun o => g o ++ wordBytes (h o) := by
      rw [Sink.column, hk]
      simp [List.zipWith_map]
    rw [ih _ _ this]
    simp [Sink.column, strm, List.append_assoc]

theorem fed_split {cfg : Cfg} {outIds : List W32} {k0 : Sink} {cs : List (List W32)} {k : Sink} (P : List (W32 → W32) → Sink → Prop)
    (h0 : P [] k0) (hs : ∀ ks k new, P ks k → P (ks ++ new) (flushIf cfg outIds ((new.map fun h => outIds.map h).foldl Sink.column k)))
    (hf : Fed cfg outIds k0 cs k) : ∀ ks : List (W32 → W32), cs = (ks.map fun h => outIds.map h) → P ks k := by
  induction hf with
  | init => intro ks h; have : ks = [] := by simpa using h.symm
            rw [this]; exact h0
  | step new hf ih =>
    intro ks h
    obtain ⟨a, b, e, ha, hb⟩ := List.map_eq_append_iff.mp h.symm
    subst e
    subst hb
    exact hs a _ b (ih a ha.symm)

/-! ## RawIDA -/

theorem received_append (ch : Option W32) (a b : List Ev) : received ch (a ++ b) = received ch a ++ received ch b := by simp [received]

theorem received_map (ch id : Option W32) (l : List Tok) : received ch (l.map fun t => (id, t)) = if ch = id then l else [] := by
  by_cases h : ch = id
  · subst h
    simp [received, List.filter_eq_self.mpr, List.map_map, Function.comp_def]
  · rw [if_neg h]
    simp only [received, List.map_eq_nil_iff, List.filter_eq_nil_iff]
    intro e he
    obtain ⟨t, _, rfl⟩ := List.mem_map.mp he
    simp [Ne.symm h]

theorem received_zip (outIds : List W32) (g : W32 → List Byte) (ch : Option W32) (hnd : outIds.Nodup) :
    received ch (List.zipWith (fun id q => q.map fun b => (some id, some b)) outIds (outIds.map g)).flatten =
      match ch with | some o => if o ∈ outIds then (g o).map some else [] | none => [] := by
  induction outIds with
  | nil => cases ch <;> rfl
  | cons i l ih =>
    rw [List.nodup_cons] at hnd
    rw [List.map_cons, List.zipWith_cons_cons, List.flatten_cons, received_append, ih hnd.2]
    have := received_map ch (some i) ((g i).map some)
    rw [List.map_map] at this
    rw [show (fun b => ((some i, some b) : Ev)) = (fun t => (some i, t)) ∘ some from rfl, this]
    cases ch with
    | none => simp
    | some o =>
      by_cases h : o = i
      · subst h; simp [hnd.1]
      · simp [h]

/-- What channel `ch` carries. -/
def carried (outIds : List W32) (ks : List (W32 → W32)) : Option W32 → List Tok
  | some o => if o ∈ outIds then (strm ks o).map some else []
  | none => []

theorem raw_closed {cfg : Cfg} (hk : cfg.kind = .raw) {outIds : List W32} (hnd : outIds.Nodup) {k0 k : Sink} (h0 : k0.outQ = outIds.map fun _ => [])
    {ks : List (W32 → W32)} (hf : Fed cfg outIds k0 (ks.map fun h => outIds.map h) k) :
    k.outQ = outIds.map (fun _ => []) ∧ k.queue = k0.queue ∧ ∀ ch, received ch k.out = received ch k0.out ++ carried outIds ks ch := by
  refine fed_split (fun ks k => k.outQ = outIds.map (fun _ => []) ∧ k.queue = k0.queue ∧ ∀ ch, received ch k.out = received ch k0.out ++ carried outIds ks ch)
    ⟨h0, rfl, ?_⟩ ?_ hf ks rfl
  · intro ch; cases ch <;> simp [carried, strm]
  · intro ks k new ⟨h1, h2, h3⟩
    rw [columns outIds new k _ h1]
    unfold flushIf
    split
    · rename_i hc
      simp only [Sink.flush, hk]
      refine ⟨by rw [List.map_map]; rfl, h2, ?_⟩
      intro ch
      rw [received_append, h3, received_zip _ _ _ hnd]
      cases ch with
      | none => simp [carried]
      | some o =>
        by_cases ho : o ∈ outIds
        · simp [carried, ho, strm_append]
        · simp [carried, ho]
    · rename_i hc
      rcases outIds with _ | ⟨o, l⟩
      · refine ⟨by simp, h2, ?_⟩
        intro ch; rw [h3]; cases ch <;> simp [carried]
      · have hn : new = [] := by
          by_contra hne
          apply hc
          refine ⟨by simp, ?_⟩
          rw [List.map_cons, List.headD_cons, List.nil_append]
          intro h
          have := congrArg List.length h
          rw [strm_length] at this
          exact hne (List.length_eq_zero_iff.mp (by rw [List.length_nil] at this; omega))
        subst hn
        refine ⟨by simp [strm], h2, ?_⟩
        intro ch; rw [h3, List.append_nil]

/-! ## SecretRecovery -/

theorem secret_closed {cfg : Cfg} {pad : Bool} (hk : cfg.kind = .secret pad) {o : W32} {k0 k : Sink} (h0 : k0.outQ = [[]])
    {ks : List (W32 → W32)} (hf : Fed cfg [o] k0 (ks.map fun h => [o].map h) k) :
    ∃ p q, k.outQ = [q] ∧ k.queue = k0.queue ∧ k.out = k0.out ++ p.map (fun b => (none, some b)) ∧ p ++ q = strm ks o ∧
      q.length = if pad ∧ ks ≠ [] then 4 else 0 := by
  refine fed_split (fun ks k => ∃ p q, k.outQ = [q] ∧ k.queue = k0.queue ∧ k.out = k0.out ++ p.map (fun b => ((none, some b) : Ev)) ∧ p ++ q = strm ks o ∧
      q.length = if pad ∧ ks ≠ [] then 4 else 0) ⟨[], [], h0, rfl, by simp, rfl, by simp⟩ ?_ hf ks rfl
  rintro ks k new ⟨p, q, h1, h2, h3, h4, h5⟩
  rw [columns [o] new k (fun _ => q) (by rw [h1]; rfl)]
  have hlen := strm_length new o
  unfold flushIf
  split
  · rename_i hc
    simp only [Sink.flush, hk, List.map_cons, List.map_nil, List.headD_cons]
    refine ⟨p ++ (q ++ strm new o).take _, (q ++ strm new o).drop _, rfl, h2, by rw [h3, List.map_append, List.append_assoc], ?_, ?_⟩
    · rw [List.append_assoc, List.take_append_drop, ← List.append_assoc, h4, strm_append]
    · rw [List.length_drop, List.length_append, hlen]
      have hne : ks ++ new ≠ [] := by
        intro h
        obtain ⟨rfl, rfl⟩ := List.append_eq_nil_iff.mp h
        apply hc.2
        simp at h5
        simp [h5, strm]
      cases pad with
      | false => simp
      | true =>
        have : 4 ≤ q.length + 4 * new.length := by
          by_cases hk' : ks = []
          · subst hk'
            have : new ≠ [] := by simpa using hne
            have := List.length_pos_iff.mpr this
            omega
          · simp [hk'] at h5; omega
        rw [if_pos ⟨rfl, this⟩, if_pos ⟨rfl, hne⟩]; omega
  · rename_i hc
    have hz : q ++ strm new o = [] := by
      by_contra h
      exact hc ⟨by simp, by simpa using h⟩
    obtain ⟨hq, hs⟩ := List.append_eq_nil_iff.mp hz
    have hn : new = [] := by
      rw [hs] at hlen
      exact List.length_eq_zero_iff.mp (by rw [List.length_nil] at hlen; omega)
    subst hn
    refine ⟨p, q, by simp [strm], h2, h3, by simpa using h4, by simpa using h5⟩

/-! ## InformationRecovery -/

/-- The bytes of a column in the order in which `InformationRecovery` takes them. -/
def spread (outIds : List W32) (h : W32 → W32) : List Byte := (List.range 4).flatMap fun j => outIds.map fun o => (wordBytes (h o)).getD j 0

theorem spread_length (outIds : List W32) (h : W32 → W32) : (spread outIds h).length = 4 * outIds.length := by
  simp [spread, List.range_succ]; omega

theorem interleave_spec (n : Nat) : ∀ (l : List W32) (g : W32 → List Byte), l ≠ [] → (∀ o ∈ l, (g o).length = n) →
    interleave n (l.map g) = ((List.range n).flatMap fun j => l.map fun o => (g o).getD j 0, l.map fun _ => []) := by
  induction n with
  | zero =>
    intro l g _ h
    have : l.map g = l.map fun _ => [] := List.map_congr_left fun o ho => List.length_eq_zero_iff.mp (h o ho)
    rw [interleave, this]; rfl
  | succ n ih =>
    intro l g hl h
    rcases l with _ | ⟨o, l⟩
    · exact absurd rfl hl
    · have hne : g o ≠ [] := by
        intro hc
        have := h o (List.mem_cons_self)
        rw [hc] at this; simp at this
      obtain ⟨b, t, hb⟩ := List.exists_cons_of_ne_nil hne
      have := ih (o :: l) (fun o => (g o).drop 1) (by simp) (fun o ho => by rw [List.length_drop, h o ho]; rfl)
      have e0 : interleave (n + 1) ((o :: l).map g) = ((((o :: l).map g).map (·.take 1)).flatten ++ (interleave n (((o :: l).map g).map (·.drop 1))).1,
          (interleave n (((o :: l).map g).map (·.drop 1))).2) := by
        rw [List.map_cons, hb]; rfl
      rw [e0, List.map_map, List.map_map]
      have e1 : ((fun x : List Byte => x.drop 1) ∘ g) = fun o => (g o).drop 1 := rfl
      simp only [e1, this]
      refine Prod.ext ?_ rfl
      simp only
      rw [List.range_succ_eq_map, List.flatMap_cons, List.flatMap_map]
      congr 1
      · rw [← List.flatMap_def]
        have : ∀ o' ∈ o :: l, ((fun x : List Byte => x.take 1) ∘ g) o' = [(g o').getD 0 0] := by
          intro o' ho
          have := h o' ho
          cases hg : g o' with
          | nil => rw [hg] at this; simp at this
          | cons x y => simp [hg]
        rw [List.flatMap_congr this, ← List.map_eq_flatMap]
      · apply List.flatMap_congr
        intro j _
        apply List.map_congr_left
        intro o' _
        simp [List.getD_eq_getElem?_getD, Nat.add_comm]

theorem flatMap_spread (outIds : List W32) (new : List (W32 → W32)) : ((List.range (4 * new.length)).flatMap fun j => outIds.map fun o => (strm new o).getD j 0) = new.flatMap (spread outIds) := by
  induction new with
  | nil => rfl
  | cons h t ih =>
    rw [List.length_cons, Nat.mul_add, Nat.mul_one, Nat.add_comm (4 * t.length), List.range_add, List.flatMap_append, List.flatMap_cons, ← ih, List.flatMap_map]
    refine congr (congrArg _ ?_) ?_
    · apply List.flatMap_congr
      intro j hj
      apply List.map_congr_left
      intro o _
      have : j < (wordBytes (h o)).length := by rw [wordBytes_length]; simpa using hj
      rw [strm, List.flatMap_cons, List.getD_eq_getElem?_getD, List.getElem?_append_left this, ← List.getD_eq_getElem?_getD]
    · apply List.flatMap_congr
      intro j _
      apply List.map_congr_left
      intro o _
      rw [strm, List.flatMap_cons, List.getD_eq_getElem?_getD, List.getElem?_append_right (by rw [wordBytes_length]; omega), wordBytes_length, Nat.add_sub_cancel_left, ← List.getD_eq_getElem?_getD]
      rfl

theorem info_closed {cfg : Cfg} {pad : Bool} (hk : cfg.kind = .info pad) {outIds : List W32} (ht : outIds.length = cfg.threshold) (hpos : 0 < cfg.threshold)
    {k0 k : Sink} (h0 : k0.outQ = outIds.map fun _ => []) (hq0 : k0.queue = [])
    {ks : List (W32 → W32)} (hf : Fed cfg outIds k0 (ks.map fun h => outIds.map h) k) :
    ∃ p q, k.outQ = outIds.map (fun _ => []) ∧ k.queue = q ∧ k.out = k0.out ++ p.map (fun b => (none, some b)) ∧ p ++ q = ks.flatMap (spread outIds) ∧
      q.length = if pad ∧ ks ≠ [] then 4 * cfg.threshold else 0 := by
  have hne : outIds ≠ [] := by intro h; rw [h] at ht; simp at ht; omega
  refine fed_split (fun ks k => ∃ p q, k.outQ = outIds.map (fun _ => []) ∧ k.queue = q ∧ k.out = k0.out ++ p.map (fun b => ((none, some b) : Ev)) ∧
      p ++ q = ks.flatMap (spread outIds) ∧ q.length = if pad ∧ ks ≠ [] then 4 * cfg.threshold else 0) ⟨[], [], h0, hq0, by simp, rfl, by simp⟩ ?_ hf ks rfl
  rintro ks k new ⟨p, q, h1, h2, h3, h4, h5⟩
  rw [columns outIds new k _ h1]
  obtain ⟨o1, l1, ho⟩ := List.exists_cons_of_ne_nil hne
  have hslen : ∀ new : List (W32 → W32), (new.flatMap (spread outIds)).length = 4 * cfg.threshold * new.length := by
    intro new
    induction new with
    | nil => simp
    | cons h t ih => rw [List.flatMap_cons, List.length_append, ih, spread_length, ht, List.length_cons, Nat.mul_add]; omega
  have hhead : (outIds.map fun o => [] ++ strm new o).headD [] = strm new o1 := by rw [ho]; simp
  unfold flushIf
  split
  · rename_i hc
    have hnew : new ≠ [] := by
      intro h
      apply hc.2
      subst h
      rw [hhead]; rfl
    simp only [Sink.flush, hk]
    have hil := interleave_spec (4 * new.length) outIds (fun o => [] ++ strm new o) hne (fun o _ => by rw [List.nil_append, strm_length])
    rw [hhead, strm_length, hil]
    simp only [List.nil_append, flatMap_spread, h2]
    refine ⟨p ++ (q ++ new.flatMap (spread outIds)).take _, (q ++ new.flatMap (spread outIds)).drop _, trivial, rfl, by rw [h3, List.map_append, List.append_assoc], ?_, ?_⟩
    · rw [List.append_assoc, List.take_append_drop, ← List.append_assoc, h4, List.flatMap_append]
    · rw [List.length_drop, List.length_append, hslen]
      have hne' : ks ++ new ≠ [] := by simp [hnew]
      have hl1 : 1 ≤ new.length := List.length_pos_iff.mpr hnew
      have hm : 4 * cfg.threshold ≤ 4 * cfg.threshold * new.length := Nat.le_mul_of_pos_right _ hl1
      cases pad with
      | false => simp
      | true => rw [if_pos ⟨rfl, by omega⟩, if_pos ⟨rfl, hne'⟩]; omega
  · rename_i hc
    have hn : new = [] := by
      by_contra hn
      apply hc
      refine ⟨by omega, ?_⟩
      rw [hhead]
      intro h
      have := strm_length new o1
      rw [h] at this
      exact hn (List.length_eq_zero_iff.mp (by rw [List.length_nil] at this; omega))
    subst hn
    refine ⟨p, q, by simp [strm], h2, h3, by simpa using h4, by simpa using h5⟩

end Verif.Ida
