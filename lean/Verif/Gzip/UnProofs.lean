import Verif.Gzip.Model
import Verif.Gzip.OutProofs
import Verif.Flate.InflatorProps

/-! # What a decompressor makes of a sequence of members -/
namespace Verif.Gzip

open Verif.Flate

variable {σ ι : Type}

/-- The subclass `B` reads headers `Hdr h i`, of which it keeps `view x = i`, and accepts the tails `Tl m t`. -/
structure BoxOk (B : Box σ) (view : σ → ι) (Rep : σ → List Byte → Prop) (Hdr : List Byte → ι → Prop) (Tl : List Byte → List Byte → Prop) : Prop where
  headerPos : 1 ≤ B.maxHeader
  tailPos : 3 ≤ B.maxTail
  header : ∀ h i q, Hdr h i → ∃ x, B.header (h ++ q) = .ok (x, q) ∧ view x = i ∧ Rep x []
  absorb : ∀ x m d, Rep x m → Rep (B.absorb x d) (m ++ d)
  absorbView : ∀ x d, view (B.absorb x d) = view x
  good : ∀ x m t q, Rep x m → t.length = B.maxTail → Tl m t → ∃ y, B.tail x (t ++ q) = .ok (y, q) ∧ view y = view x
  bad : ∀ x m t q, Rep x m → t.length = B.maxTail → ¬ Tl m t → B.tail x (t ++ q) = .error .other

mutual
/-- What is to come of the bytes from a header on: output and header, or an error. -/
inductive Reads (n : Nat) (Hdr : List Byte → ι → Prop) (Tl : List Byte → List Byte → Prop) (rep : Bool) (lim : Nat → Prop) : List Byte → Option (List Byte × ι) → Prop
  | mk (h : List Byte) (i : ι) (s m t R : List Byte) (E : Option (List Byte × ι)) (hh : Hdr h i) (hl : lim h.length) (hs : IsDeflate s m) (ht : t.length = n)
      (hf : Follows n Hdr Tl rep lim m t R i E) : Reads n Hdr Tl rep lim (h ++ (s ++ (t ++ R))) E
/-- And after the stream of message `m`. -/
inductive Follows (n : Nat) (Hdr : List Byte → ι → Prop) (Tl : List Byte → List Byte → Prop) (rep : Bool) (lim : Nat → Prop) : List Byte → List Byte → List Byte → ι → Option (List Byte × ι) → Prop
  | bad (m t R : List Byte) (i : ι) (hb : ¬ Tl m t) : Follows n Hdr Tl rep lim m t R i none
  | one (m t R : List Byte) (i : ι) (hr : rep = false) (hg : Tl m t) : Follows n Hdr Tl rep lim m t R i (some (m ++ R, i))
  | stop (m t : List Byte) (i : ι) (hr : rep = true) (hg : Tl m t) : Follows n Hdr Tl rep lim m t [] i (some (m, i))
  | next (m t R : List Byte) (i : ι) (E : Option (List Byte × ι)) (hr : rep = true) (hg : Tl m t) (hn : Reads n Hdr Tl rep lim R E) :
      Follows n Hdr Tl rep lim m t R i (E.map fun e => (m ++ e.1, e.2))
end

section
variable {B : Box σ} {view : σ → ι} {Rep : σ → List Byte → Prop} {Hdr : List Byte → ι → Prop} {Tl : List Byte → List Byte → Prop} {rep : Bool} {lim : Nat → Prop}

/-- What precedes the output. -/
def before (o : List Byte) (E : Option (List Byte × ι)) : Option (List Byte × ι) := E.map fun e => (o ++ e.1, e.2)

theorem before_before (a b : List Byte) (E : Option (List Byte × ι)) : before a (before b E) = before (a ++ b) E := by
  cases E with
  | none => rfl
  | some e => simp [before]

variable (B view Rep Hdr Tl rep lim) in
/-- The states of the object; `F` is the input still to be put, `E` what is to come of it all. -/
inductive UAt (F : List Byte) (E : Option (List Byte × ι)) (s : Un σ) : Prop
  | pre (E' : Option (List Byte × ι)) (hphase : s.inf.phase = .preStream) (hrpt : s.inf.repeats = false) (hrd : s.inf.rd.Ok) (hbits : s.inf.rd.bits = 0)
      (hrd' : Reads B.maxTail Hdr Tl rep lim (s.inf.rd.queue ++ F) E') (hE : E = before s.out E')
  | fin (hrt : rep = true) (hphase : s.inf.phase = .preStream) (hrpt : s.inf.repeats = false) (hrd : s.inf.rd.Ok) (hbits : s.inf.rd.bits = 0) (hq : s.inf.rd.queue = []) (hF : F = []) (hE : E = some (s.out, view s.x))
  | mid (m t R : List Byte) (E' : Option (List Byte × ι)) (hphase : s.inf.phase ≠ .preStream) (hphase' : s.inf.phase ≠ .afterEnd) (hat : At m (t ++ R) F s.inf) (hrep : Rep s.x s.inf.out)
      (ht : t.length = B.maxTail) (hf : Follows B.maxTail Hdr Tl rep lim m t R (view s.x) E') (hE : E = before s.done E')
  | after (hphase : s.inf.phase = .afterEnd) (hflush : s.inf.lastFlush = s.inf.current) (hE : E = some (s.out ++ (s.inf.rd.queue ++ F), view s.x))

theorem drop_prefix {a b : List Byte} (h : a <+: b) : a ++ b.drop a.length = b := by
  obtain ⟨c, rfl⟩ := h
  rw [List.drop_left]

theorem next_rep (hB : BoxOk B view Rep Hdr Tl) {s : Un σ} {t : Inf} (h : s.inf.out <+: t.out) (hr : Rep s.x s.inf.out) : Rep (s.next B t).x t.out := by
  have := hB.absorb s.x s.inf.out (t.out.drop s.inf.out.length) hr
  rw [drop_prefix h] at this
  exact this

theorem At.post_of {m T F : List Byte} {s : Inf} (h : At m T F s) (hp : s.phase = .postStream) :
    s.repeats = false ∧ s.out = m ∧ s.lastFlush = s.current ∧ s.rd.Ok ∧ s.rd.bits = 0 ∧ s.rd.queue ++ F = T := by
  cases h with
  | pre _ _ hp' => rw [hp] at hp'; cases hp'
  | head _ _ _ _ _ hp' => rw [hp] at hp'; cases hp'
  | stored _ _ _ _ _ hp' => rw [hp] at hp'; cases hp'
  | body _ _ _ _ _ _ _ _ _ _ _ _ _ hp' => rw [hp] at hp'; cases hp'
  | after hp' => rw [hp] at hp'; cases hp'
  | post _ h1 h2 h3 h4 h5 h6 => exact ⟨h1, h2, h3, h4, h5, h6⟩

/-- In `waitHeader` the queue is not empty when all the input is there. -/
theorem At.head_queue {m T : List Byte} {s : Inf} (h : At m T [] s) (hp : s.phase = .waitHeader) : 1 ≤ s.rd.queue.length := by
  cases h with
  | pre _ _ hp' => rw [hp] at hp'; cases hp'
  | stored _ _ _ _ _ hp' => rw [hp] at hp'; cases hp'
  | body _ _ _ _ _ _ _ _ _ _ _ _ _ hp' => rw [hp] at hp'; cases hp'
  | post hp' => rw [hp] at hp'; cases hp'
  | after hp' => rw [hp] at hp'; cases hp'
  | head bs pad ρ pos o _ hrep hbs hrd hbits hwin hplan hstr =>
    cases bs with
    | nil => exact absurd rfl hbs
    | cons b bs =>
      have hr := hplan.roomy.1
      have hl := congrArg List.length hstr
      simp only [tailBits, List.length_append, byteBits_length, Reader.str_length, List.length_nil] at hl
      omega

theorem phase_of {s t : Inf} (h : t.phase = s.phase ∨ t.phase = .postStream ∨ t.phase = .waitHeader) (hp : s.phase = .decodingBody) : t.phase ≠ .preStream ∧ t.phase ≠ .afterEnd := by
  rcases h with h | h | h <;> rw [h] <;> first | decide | (rw [hp]; decide)

theorem split_front {a F h X : List Byte} (e : a ++ F = h ++ X) (hl : h.length ≤ a.length) : ∃ q, a = h ++ q ∧ q ++ F = X := by
  have h1 : a.take h.length = h := by
    have := congrArg (List.take h.length) e
    rwa [List.take_append_of_le_length hl, List.take_left] at this
  refine ⟨a.drop h.length, ?_, ?_⟩
  · conv_lhs => rw [← List.take_append_drop h.length a, h1]
  · have := congrArg (List.drop h.length) e
    rwa [List.drop_append_of_le_length hl, List.drop_left] at this

theorem Reads.ne {n : Nat} {X : List Byte} {E : Option (List Byte × ι)} (h : Reads n Hdr Tl rep lim X E) (hn : 3 ≤ n) : X ≠ [] := by
  cases h with
  | mk h i st m t R E hh hl hs ht hf' =>
    intro h0
    have := congrArg List.length h0
    simp only [List.length_append, List.length_nil] at this
    omega

/-- How `ProcessInput` may end. -/
def Ends (B : Box σ) (view : σ → ι) (Rep : σ → List Byte → Prop) (Hdr : List Byte → ι → Prop) (Tl : List Byte → List Byte → Prop) (rep : Bool) (lim : Nat → Prop)
    (flush : Bool) (F : List Byte) (E : Option (List Byte × ι)) (r : Except Err (Un σ)) : Prop :=
  (∃ t, r = .ok t ∧ t.rep = rep ∧ UAt B view Rep Hdr Tl rep lim F E t ∧ (flush = true → E = some (t.out, view t.x) ∧ (t.inf.phase = .preStream ∨ t.inf.phase = .afterEnd))) ∨
  (E = none ∧ r = .error .other)

theorem un_input (hB : BoxOk B view Rep Hdr Tl) {spy : List Byte → Nat} (hspy : SpyOk spy) {flush : Bool} {F : List Byte} (hF : flush = true → F = [])
    (hlim : flush = false → ∀ n, lim n → n ≤ B.maxHeader) (E : Option (List Byte × ι)) (f : Nat) :
    ∀ s : Un σ, s.rep = rep → UAt B view Rep Hdr Tl rep lim F E s → (flush = true → ¬ (s.inf.phase = .preStream ∧ s.inf.rd.queue = [])) →
      s.inf.rd.str.length + s.inf.phase.rank < f → Ends B view Rep Hdr Tl rep lim flush F E (Un.processInput B spy flush f s) := by
  induction f with
  | zero => intro s _ _ _ h; omega
  | succ f ih =>
    intro s hrp h hfin hf
    rw [Un.processInput]
    cases h with
    | fin hrt hphase hrpt hrd hbits hq hF' hE =>
      rw [hphase]
      dsimp only
      cases flush with
      | true => exact absurd ⟨hphase, hq⟩ (hfin rfl)
      | false =>
        rw [if_pos ⟨rfl, by rw [hq]; exact hB.headerPos⟩]
        exact .inl ⟨s, rfl, hrp, .fin hrt hphase hrpt hrd hbits hq hF' hE, fun h => nomatch h⟩
    | after hphase hflush hE =>
      rw [hphase]
      dsimp only
      have hE' : E = some ((s.out ++ s.inf.rd.queue) ++ F, view s.x) := by rw [hE, List.append_assoc]
      refine .inl ⟨_, rfl, hrp, .after hphase hflush ?_, fun hfl => ⟨?_, .inr hphase⟩⟩
      · rw [hE']; simp [Un.out]
      · rw [hE', hF hfl]; simp [Un.out]
    | pre E' hphase hrpt hrd hbits hread hE =>
      rw [hphase]
      dsimp only
      by_cases hw : flush = false ∧ s.inf.rd.queue.length < B.maxHeader
      · rw [if_pos hw]
        exact .inl ⟨s, rfl, hrp, .pre E' hphase hrpt hrd hbits hread hE, fun h => by rw [hw.1] at h; cases h⟩
      · rw [if_neg hw]
        generalize hX : s.inf.rd.queue ++ F = X at hread
        cases hread with
        | mk h i st m t R E'' hh hl hs ht hfo =>
          obtain ⟨q, hq1, hq2⟩ := split_front hX (by
            cases flush with
            | true =>
              have := congrArg List.length hX
              rw [hF rfl] at this
              simp only [List.length_append, List.length_nil] at this
              omega
            | false =>
              have := hlim rfl _ hl
              have : ¬ s.inf.rd.queue.length < B.maxHeader := fun h => hw ⟨rfl, h⟩
              omega)
          obtain ⟨x, e1, e2, e3⟩ := hB.header h i q hh
          rw [hq1, e1]
          dsimp only
          obtain ⟨bs, pad, h1, h2, h3, h4⟩ := hs
          have hlb := congrArg List.length h3
          rw [byteBits_length, List.length_append] at hlb
          have htp := hB.tailPos
          refine ih _ hrp (.mid m t R E' (by dsimp only; decide) (by dsimp only; decide) ?_ e3 ht (by rw [← e2] at hfo; exact hfo) hE) (by intro _ hc; exact absurd hc.1 (by dsimp only; decide)) ?_
          · refine .head bs pad 0 0 [] rfl ?_ h1 hrd (Nat.le_of_eq hbits) ⟨rfl, by simp, fun k hk => absurd hk (by simp), Nat.le_refl _, rfl⟩ ⟨h4, h2, by omega, ?_, by decide⟩ ?_
            · exact hrpt
            · exact roomy_of_extra (by rw [List.length_append]; omega) bs 0 0 [] h4 (by decide)
            · dsimp only
              have : Reader.str { s.inf.rd with queue := q } = byteBits q := by
                rw [Reader.str]; dsimp only; rw [hbits]; rfl
              rw [this, ← byteBits_append, hq2, byteBits_append, h3, tailBits, List.append_assoc]
          · dsimp only
            rw [hphase] at hf
            simp only [Phase.rank, Reader.str_length, hbits, hq1, List.length_append] at hf ⊢
            omega
    | mid m t R E' hphase hphase' hat hrep ht hfo hE =>
      cases hp : s.inf.phase with
      | preStream => exact absurd hp hphase
      | afterEnd => exact absurd hp hphase'
      | waitHeader =>
        dsimp only
        by_cases hlt : s.inf.rd.queue.length < if flush = true then 1 else maxHeaderSize
        · rw [if_pos hlt]
          refine .inl ⟨s, rfl, hrp, .mid m t R E' hphase hphase' hat hrep ht hfo hE, fun hfl => ?_⟩
          rw [hF hfl] at hat
          have := At.head_queue hat hp
          rw [if_pos hfl] at hlt
          omega
        · rw [if_neg hlt]
          obtain ⟨u, e1, e2, e3, e4⟩ := decode_header hat hp (by
            cases flush with
            | true => exact .inl (hF rfl)
            | false => rw [if_neg (by decide)] at hlt; exact .inr (by omega))
          rw [e1]
          refine ih _ hrp (.mid m t R E' (by dsimp only; rw [e3]; decide) (by dsimp only; rw [e3]; decide) e2 ?_ ht hfo hE) (by intro _ hc; dsimp only at hc; rw [e3] at hc; exact absurd hc.1 (by decide)) ?_
          · dsimp only
            rw [Inf.decodeHeader_out _ e1]
            exact hrep
          · dsimp only
            rw [hp] at hf
            rw [e3]
            simp only [Phase.rank] at hf ⊢
            omega
      | decodingBody =>
        dsimp only
        rcases decode_body hspy hat hp with ⟨u, e1, e2, e3, e4⟩ | ⟨u, e1, e2, e3⟩
        · rw [e1]
          have hu : u.phase ≠ .preStream ∧ u.phase ≠ .afterEnd := phase_of (Inf.decodeBody_out _ _ e1).2 hp
          refine ih _ hrp (.mid m t R E' hu.1 hu.2 e2 (next_rep hB (Inf.decodeBody_out _ _ e1).1 hrep) ht (by
            have : view (s.next B u).x = view s.x := hB.absorbView _ _
            rw [this]; exact hfo) hE) (fun _ hc => absurd hc.1 hu.1) ?_
          rw [hp] at hf
          simp only [Phase.rank] at hf
          show u.rd.str.length + u.phase.rank < f
          omega
        · rw [e1]
          have hu : u.phase ≠ .preStream ∧ u.phase ≠ .afterEnd := phase_of (Inf.decodeBody_out _ _ e1).2 hp
          refine .inl ⟨_, rfl, hrp, .mid m t R E' hu.1 hu.2 e2 (next_rep hB (Inf.decodeBody_out _ _ e1).1 hrep) ht (by
            have : view (s.next B u).x = view s.x := hB.absorbView _ _
            rw [this]; exact hfo) hE, fun hfl => absurd (hF hfl) e3⟩
      | postStream =>
        dsimp only
        obtain ⟨a1, a2, a3, a4, a5, a6⟩ := At.post_of hat hp
        by_cases hw : flush = false ∧ s.inf.rd.queue.length < B.maxTail
        · rw [if_pos hw]
          exact .inl ⟨s, rfl, hrp, .mid m t R E' hphase hphase' hat hrep ht hfo hE, fun h => by rw [hw.1] at h; cases h⟩
        · rw [if_neg hw]
          obtain ⟨q, hq1, hq2⟩ := split_front a6 (by
            cases flush with
            | true =>
              have := congrArg List.length a6
              rw [hF rfl] at this
              simp only [List.length_append, List.length_nil] at this
              omega
            | false =>
              have : ¬ s.inf.rd.queue.length < B.maxTail := fun h => hw ⟨rfl, h⟩
              omega)
          rw [a2] at hrep
          rw [hq1]
          have htp := hB.tailPos
          have hlen : 8 * s.inf.rd.queue.length = 8 * t.length + 8 * q.length := by rw [hq1, List.length_append]; omega
          rw [hp] at hf
          simp only [Phase.rank, Reader.str_length, a5] at hf
          by_cases hg : Tl m t
          · obtain ⟨y, e1, e2⟩ := hB.good s.x m t q hrep ht hg
            rw [e1]
            dsimp only
            rw [hrp]
            cases hfo with
            | bad _ _ _ _ hb => exact absurd hg hb
            | one _ _ _ _ hr _ =>
              subst hr
              simp only [Bool.false_eq_true, if_false]
              have hua : UAt B view Rep Hdr Tl false lim F E { s with rep := false, x := y, inf := { s.inf with phase := .afterEnd, rd := { s.inf.rd with queue := q } } } := by
                refine .after rfl a3 ?_
                rw [hE, ← hq2]
                simp only [before, Option.map_some, Un.out, a2, e2, List.append_assoc]
              split
              · rename_i hz
                refine .inl ⟨_, rfl, rfl, hua, fun hfl => ⟨?_, .inr rfl⟩⟩
                have hq0 := List.eq_nil_of_length_eq_zero hz
                rw [hE, ← hq2, hq0, hF hfl]
                simp only [before, Option.map_some, Un.out, a2, e2, List.append_nil]
              · refine ih _ rfl hua (fun _ hc => absurd hc.1 (by dsimp only; decide)) ?_
                simp only [Phase.rank, Reader.str_length, a5]
                omega
            | stop _ _ _ hr _ =>
              subst hr
              simp only [if_true]
              obtain ⟨hq0, hF0⟩ := List.append_eq_nil_iff.1 hq2
              rw [if_pos (by rw [hq0]; rfl)]
              refine .inl ⟨_, rfl, rfl, .fin rfl rfl a1 a4 a5 hq0 hF0 ?_, fun _ => ⟨?_, .inl rfl⟩⟩ <;>
                (rw [hE]; simp only [before, Option.map_some, Un.out, a2, e2])
            | next _ _ _ _ E'' hr _ hn =>
              subst hr
              simp only [if_true]
              have hR : R ≠ [] := hn.ne hB.tailPos
              have hua : UAt B view Rep Hdr Tl true lim F E { s with rep := true, x := y, inf := { s.inf with phase := .preStream, rd := { s.inf.rd with queue := q } } } := by
                refine .pre E'' rfl a1 a4 a5 (by rw [hq2]; exact hn) ?_
                rw [hE, Un.out, a2, ← before_before]
                rfl
              split
              · rename_i hz
                have hq0 := List.eq_nil_of_length_eq_zero hz
                refine .inl ⟨_, rfl, rfl, hua, fun hfl => ?_⟩
                rw [hq0, hF hfl] at hq2
                exact absurd hq2.symm hR
              · rename_i hz
                refine ih _ rfl hua (fun _ hc => hz (congrArg List.length hc.2)) ?_
                simp only [Phase.rank, Reader.str_length, a5]
                omega
          · have e1 := hB.bad s.x m t q hrep ht hg
            rw [e1]
            cases hfo with
            | bad _ _ _ _ hb => exact .inr ⟨hE, rfl⟩
            | one _ _ _ _ _ hg' => exact absurd hg' hg
            | stop _ _ _ _ hg' => exact absurd hg' hg
            | next _ _ _ _ _ _ hg' => exact absurd hg' hg

theorem UAt.feed {F d : List Byte} {E : Option (List Byte × ι)} {s : Un σ} (h : UAt B view Rep Hdr Tl rep lim (d ++ F) E s) :
    UAt B view Rep Hdr Tl rep lim F E { s with inf := { s.inf with rd := { s.inf.rd with queue := s.inf.rd.queue ++ d } } } := by
  cases h with
  | pre E' h1 h2 h3 h4 h5 h6 => exact .pre E' h1 h2 h3 h4 (by simpa only [List.append_assoc] using h5) h6
  | fin h0 h1 h2 h3 h4 h5 h6 h7 =>
    obtain ⟨rfl, rfl⟩ := List.append_eq_nil_iff.1 h6
    exact .fin h0 h1 h2 h3 h4 (by simpa using h5) rfl h7
  | mid m t R E' h1 h2 h3 h4 h5 h6 h7 => exact .mid m t R E' h1 h2 h3.feed h4 h5 h6 h7
  | after h1 h2 h3 => exact .after h1 h2 (by rw [h3]; simp [Un.out])

theorem flushOutput_phase (s : Inf) : s.flushOutput.phase = s.phase := by
  unfold Inf.flushOutput
  split <;> rfl

theorem UAt.soft (hB : BoxOk B view Rep Hdr Tl) {F : List Byte} {E : Option (List Byte × ι)} {s : Un σ} (h : UAt B view Rep Hdr Tl rep lim F E s) : UAt B view Rep Hdr Tl rep lim F E (s.softFlush B) := by
  have hv : ∀ t, view (s.next B t).x = view s.x := fun t => hB.absorbView _ _
  have hpre : s.inf.phase = .preStream → (s.softFlush B).inf = s.inf := fun hp => by
    show s.inf.flushOutput = s.inf
    unfold Inf.flushOutput
    rw [if_neg (fun h => h hp)]
  cases h with
  | pre E' h1 h2 h3 h4 h5 h6 =>
    have e := hpre h1
    have eo : (s.softFlush B).out = s.out := by unfold Un.out; rw [e]; rfl
    exact .pre E' (by rw [e]; exact h1) (by rw [e]; exact h2) (by rw [e]; exact h3) (by rw [e]; exact h4) (by rw [e]; exact h5) (by rw [eo]; exact h6)
  | fin h0 h1 h2 h3 h4 h5 h6 h7 =>
    have e := hpre h1
    have eo : (s.softFlush B).out = s.out := by unfold Un.out; rw [e]; rfl
    exact .fin h0 (by rw [e]; exact h1) (by rw [e]; exact h2) (by rw [e]; exact h3) (by rw [e]; exact h4) (by rw [e]; exact h5) h6 (by rw [eo, Un.softFlush, hv]; exact h7)
  | mid m t R E' h1 h2 h3 h4 h5 h6 h7 =>
    have ep : (s.softFlush B).inf.phase = s.inf.phase := flushOutput_phase _
    exact .mid m t R E' (by rw [ep]; exact h1) (by rw [ep]; exact h2) h3.soft (next_rep hB (Inf.flushOutput_out _) h4) h5 (by rw [Un.softFlush, hv]; exact h6) h7
  | after h1 h2 h3 =>
    have hnil : windowPart s.inf.window s.inf.lastFlush s.inf.current = [] := by rw [h2, windowPart, Nat.sub_self]; rfl
    have hout : (s.softFlush B).out = s.out := by
      show s.done ++ s.inf.flushOutput.out = s.done ++ s.inf.out
      unfold Inf.flushOutput
      rw [if_pos (by rw [h1]; decide), hnil, List.append_nil]
    have hq : (s.softFlush B).inf.rd = s.inf.rd := by
      show s.inf.flushOutput.rd = _
      unfold Inf.flushOutput
      split <;> rfl
    refine .after ((flushOutput_phase _).trans h1) ?_ (by rw [hout, hq, Un.softFlush, hv]; exact h3)
    show s.inf.flushOutput.lastFlush = s.inf.flushOutput.current
    unfold Inf.flushOutput
    rw [if_pos (by rw [h1]; decide)]

theorem un_put (hB : BoxOk B view Rep Hdr Tl) {spy : List Byte → Nat} (hspy : SpyOk spy) (hlim : ∀ n, lim n → n ≤ B.maxHeader) {F d : List Byte} {E : Option (List Byte × ι)} {s : Un σ}
    (hrp : s.rep = rep) (h : UAt B view Rep Hdr Tl rep lim (d ++ F) E s) :
    (∃ t, s.put B spy d false = .ok t ∧ t.rep = rep ∧ UAt B view Rep Hdr Tl rep lim F E t) ∨ (E = none ∧ s.put B spy d false = .error .other) := by
  unfold Un.put
  dsimp only
  rcases un_input hB hspy (flush := false) (F := F) (fun h => nomatch h) (fun _ => hlim) E (2 * (s.inf.rd.bits + 8 * (s.inf.rd.queue ++ d).length) + 10)
    { s with inf := { s.inf with rd := { s.inf.rd with queue := s.inf.rd.queue ++ d } } } hrp h.feed (fun h => nomatch h)
    (by simp only [Reader.str_length]; have := rank_le s.inf.phase; omega) with ⟨t, e1, e2, e3, -⟩ | ⟨e1, e2⟩
  · rw [e1]
    exact .inl ⟨t, by simp, e2, e3⟩
  · rw [e2]
    exact .inr ⟨e1, rfl⟩

theorem un_last (hB : BoxOk B view Rep Hdr Tl) {spy : List Byte → Nat} (hspy : SpyOk spy) {d : List Byte} {E : Option (List Byte × ι)} {s : Un σ}
    (hrp : s.rep = rep) (hne : rep = true → d ≠ []) (h : UAt B view Rep Hdr Tl rep lim d E s) :
    (∃ t, s.put B spy d true = .ok t ∧ E = some (t.out, view t.x)) ∨ (E = none ∧ s.put B spy d true = .error .other) := by
  have hlate : s.inf.phase = .preStream → s.inf.rd.queue ++ d ≠ [] := by
    intro hp
    cases h with
    | pre E' h1 h2 h3 h4 h5 h6 => exact h5.ne hB.tailPos
    | fin h0 h1 h2 h3 h4 h5 h6 h7 => exact absurd h6 (hne h0)
    | mid m t R E' h1 h2 h3 h4 h5 h6 h7 => exact absurd hp h1
    | after h1 h2 h3 => rw [hp] at h1; cases h1
  rw [← List.append_nil d] at h
  unfold Un.put
  dsimp only
  rcases un_input hB hspy (flush := true) (F := []) (fun _ => rfl) (fun h => nomatch h) E (2 * (s.inf.rd.bits + 8 * (s.inf.rd.queue ++ d).length) + 10)
    { s with inf := { s.inf with rd := { s.inf.rd with queue := s.inf.rd.queue ++ d } } } hrp h.feed (fun _ hc => hlate hc.1 hc.2)
    (by simp only [Reader.str_length]; have := rank_le s.inf.phase; omega) with ⟨t, e1, e2, e3, e4⟩ | ⟨e1, e2⟩
  · rw [e1]
    obtain ⟨e5, e6⟩ := e4 rfl
    exact .inl ⟨t, by simp [e6], e5⟩
  · rw [e2]
    exact .inr ⟨e1, rfl⟩

theorem un_calls (hB : BoxOk B view Rep Hdr Tl) {spy : List Byte → Nat} (hspy : SpyOk spy) {last : List Byte} {E : Option (List Byte × ι)} (cs : List Call) (hlim : cs ≠ [] → ∀ n, lim n → n ≤ B.maxHeader) :
    ∀ s : Un σ, s.rep = rep → UAt B view Rep Hdr Tl rep lim (cs.flatMap Call.bytes ++ last) E s →
    (∃ t, Un.calls B spy s cs = .ok t ∧ t.rep = rep ∧ UAt B view Rep Hdr Tl rep lim last E t) ∨ (E = none ∧ Un.calls B spy s cs = .error .other) := by
  induction cs with
  | nil => intro s hr h; exact .inl ⟨s, rfl, hr, h⟩
  | cons c cs ih =>
    intro s hr h
    have hl := hlim (by simp)
    rw [List.flatMap_cons, List.append_assoc] at h
    cases c with
    | put d =>
      rcases un_put hB hspy hl (d := d) hr h with ⟨t, e1, e2, e3⟩ | ⟨e1, e2⟩
      · rw [Un.calls, e1]
        exact ih (fun _ => hl) t e2 e3
      · rw [Un.calls, e2]
        exact .inr ⟨e1, rfl⟩
    | softFlush =>
      rw [Un.calls]
      exact ih (fun _ => hl) _ hr (UAt.soft hB h)

/-- The result of all calls. -/
theorem decompress_spec (hB : BoxOk B view Rep Hdr Tl) {spy : List Byte → Nat} (hspy : SpyOk spy) {X : List Byte} {E : Option (List Byte × ι)} (hX : Reads B.maxTail Hdr Tl rep lim X E)
    (x : σ) (cs : List Call) (last : List Byte) (hcs : cs.flatMap Call.bytes ++ last = X) (hlim : cs ≠ [] → ∀ n, lim n → n ≤ B.maxHeader) (hne : rep = true → last ≠ []) :
    match E with
    | some (o, i) => ∃ t, B.decompress spy x rep cs last = .ok t ∧ t.out = o ∧ view t.x = i
    | none => B.decompress spy x rep cs last = .error .other := by
  have h0 : UAt B view Rep Hdr Tl rep lim (cs.flatMap Call.bytes ++ last) E { x := x, rep := rep } := by
    refine .pre E rfl rfl ⟨(by decide : 0 < 2 ^ 0), (by decide : 0 ≤ 32)⟩ rfl (by rw [hcs]; exact hX) ?_
    cases E <;> rfl
  unfold Box.decompress
  rcases un_calls (rep := rep) hB hspy cs hlim { x := x, rep := rep } rfl h0 with ⟨t, e1, e2, e3⟩ | ⟨e1, e2⟩
  · rw [e1]
    dsimp only
    rcases un_last hB hspy e2 hne e3 with ⟨u, f1, f2⟩ | ⟨f1, f2⟩
    · subst f2
      exact ⟨u, f1, rfl, rfl⟩
    · subst f1
      exact f2
  · subst e1
    rw [e2]

end

end Verif.Gzip
