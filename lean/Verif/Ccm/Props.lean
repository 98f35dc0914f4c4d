import Verif.Ccm.Proofs

/-!
# C64: CCM

`ccm_messages`: any number of messages on one object, each after `Resynchronize` and `SpecifyDataLengths`, in any pieces, finished or given up. `ccm_wrong_header` and `ccm_wrong_text`: no code is returned
for lengths other than those that were specified. `ccm_specify_twice_defect`: `SpecifyDataLengths` called twice leads to a wrong code.
-/
namespace Verif.Ccm

open Verif.Auth (Op Out pieces pieces_flatten)

/-- How a message ends. -/
inductive Ending where
  | final (n : Nat)
  | verify (mac : List Byte)
  | restart
  | givenUp

/-- A message: nonce, pieces of the header and of the text. -/
structure Msg where
  iv : List Byte
  hs : List (List Byte)
  xs : List (List Byte)
  ending : Ending

def Ending.calls : Ending → List Call
  | .final n => [.op (.final n)]
  | .verify mac => [.op (.verify mac)]
  | .restart => [.op .restart]
  | .givenUp => []

def Msg.calls (m : Msg) : List Call :=
  .op (.resync m.iv) :: .specify m.hs.flatten.length m.xs.flatten.length :: (m.hs.map (fun h => .op (.update h)) ++ (m.xs.map (fun x => .op (.process x)) ++ m.ending.calls))

/-- The limits of CCM: a nonce of 7 to 13 bytes, a text whose length fits the length field; and a code no longer than the object computes. -/
def Msg.Ok (M : Nat) (m : Msg) : Prop :=
  7 ≤ m.iv.length ∧ m.iv.length ≤ 13 ∧ m.hs.flatten.length < 2 ^ 64 ∧ m.xs.flatten.length < 256 ^ Spec.L m.iv ∧
    match m.ending with
    | .final n => n ≤ M
    | .verify mac => mac.length ≤ M
    | _ => True

/-- The key stream for the text. -/
def stream (E : List Byte → List Byte) (nonce : List Byte) : Mem := fun q => (Spec.S E nonce (1 + q / 16)).getD (q % 16) 0

/-- The plain text of a message, for an object that encrypts or decrypts. -/
def Msg.plain (fwd : Bool) (k : Key) (m : Msg) : List Byte := if fwd then m.xs.flatten else Spec.crypt k.E m.iv m.xs.flatten

def Ending.results (tag : Nat → List Byte) : Ending → List (Except Err Out)
  | .final n => [.ok (.bytes (tag n))]
  | .verify mac => [.ok (.bool (tag mac.length == mac))]
  | .restart => [.ok .nothing]
  | .givenUp => []

/-- What the calls of a message return. -/
def Msg.results (fwd : Bool) (k : Key) (m : Msg) : List (Except Err Out) :=
  .ok .nothing :: .ok .nothing :: (m.hs.map (fun _ => .ok .nothing) ++ ((pieces (stream k.E m.iv) 0 m.xs).map (fun y => .ok (.bytes y)) ++
    m.ending.results (Spec.tag k.E k.M m.iv m.hs.flatten (m.plain fwd k))))

section
variable {par : Nat} {fwd : Bool}

theorem run_updates (k : Key) (iv : List Byte) (h m : Nat) : ∀ (hs : List (List Byte)) (H : List Byte) (s : Auth.State Obj), InHeader par k iv h m H s → H.length + hs.flatten.length < 2 ^ 64 →
    ∃ s', InHeader par k iv h m (H ++ hs.flatten) s' ∧ ∀ cs, run par fwd s (hs.map (fun h => .op (.update h)) ++ cs) = hs.map (fun _ => .ok .nothing) ++ run par fwd s' cs := by
  intro hs
  induction hs with
  | nil => intro H s hi _; exact ⟨s, by simpa using hi, fun cs => rfl⟩
  | cons x hs ih =>
    intro H s hi hl
    rw [List.flatten_cons, List.length_append] at hl
    obtain ⟨s1, e1, i1⟩ := update_at (fwd := fwd) k iv h m s.o.L s.o.dig H x s hi (by omega)
    obtain ⟨s2, i2, e2⟩ := ih (H ++ x) s1 i1 (by rw [List.length_append]; omega)
    refine ⟨s2, by rwa [List.append_assoc] at i2, fun cs => ?_⟩
    rw [List.map_cons, List.cons_append, run]
    have : step par fwd s (.op (.update x)) = (s1, .ok .nothing) := by
      show ((Auth.update _ s x).1, (Auth.update _ s x).2.map _) = _
      rw [e1]; rfl
    rw [this, e2]; rfl

theorem plainAt_append (k : Key) (iv : List Byte) (q : Nat) (x y : List Byte) : plainAt fwd k iv q (x ++ y) = plainAt fwd k iv q x ++ plainAt fwd k iv (q + x.length) y := by
  unfold plainAt outAt
  split
  · rfl
  · rw [List.length_append, load_add, xorBytes_append _ _ _ _ (by simp)]

theorem L_of (s : Auth.State Obj) (k : Key) (iv : List Byte) (m : Nat) (H P : List Byte) (hs : InText par fwd k iv m H P s ∨ (P = [] ∧ InHeader par k iv H.length m H s)) :
    s.o.L = Spec.L iv ∧ s.o.dig = k.M := by
  rcases hs with h | ⟨_, h⟩
  · exact ⟨h.rep.2.2.1, h.rep.2.1⟩
  · exact ⟨h.rep.2.2.1, h.rep.2.1⟩

theorem run_texts (hp : 0 < par) (k : Key) (iv : List Byte) (h1 : 7 ≤ iv.length) (h2 : iv.length ≤ 13) (m : Nat) (H : List Byte) : ∀ (xs : List (List Byte)) (P : List Byte) (s : Auth.State Obj),
    (InText par fwd k iv m H P s ∨ (P = [] ∧ InHeader par k iv H.length m H s)) → P.length + xs.flatten.length < 256 ^ Spec.L iv →
    ∃ s', (InText par fwd k iv m H (P ++ plainAt fwd k iv P.length xs.flatten) s' ∨ (P ++ plainAt fwd k iv P.length xs.flatten = [] ∧ InHeader par k iv H.length m H s')) ∧
      ∀ cs, run par fwd s (xs.map (fun x => .op (.process x)) ++ cs) = (pieces (stream k.E iv) P.length xs).map (fun y => .ok (.bytes y)) ++ run par fwd s' cs := by
  intro xs
  induction xs with
  | nil =>
    intro P s hi _
    have : plainAt fwd k iv P.length ([] : List (List Byte)).flatten = [] := List.eq_nil_of_length_eq_zero (by rw [plainAt_length]; rfl)
    rw [this, List.append_nil]
    exact ⟨s, hi, fun cs => rfl⟩
  | cons x xs ih =>
    intro P s hi hl
    rw [List.flatten_cons, List.length_append] at hl
    obtain ⟨hL, hd⟩ := L_of s k iv m H P hi
    obtain ⟨s1, e1, i1⟩ := process_at (fwd := fwd) hp k iv m s.o.dig H P x s h1 h2 hi (by omega)
    have hlen : (P ++ plainAt fwd k iv P.length x).length = P.length + x.length := by rw [List.length_append, plainAt_length]
    obtain ⟨s2, i2, e2⟩ := ih (P ++ plainAt fwd k iv P.length x) s1 (Or.inl i1) (by rw [hlen]; omega)
    rw [hlen, List.append_assoc, ← plainAt_append, ← List.flatten_cons] at i2
    refine ⟨s2, i2, fun cs => ?_⟩
    rw [List.map_cons, List.cons_append, run]
    have : step par fwd s (.op (.process x)) = (s1, .ok (.bytes (outAt k iv P.length x))) := by
      show ((Auth.processData (hooks par s.o.L s.o.dig fwd) s x).1, (Auth.processData (hooks par s.o.L s.o.dig fwd) s x).2.map _) = _
      rw [hL, e1]; rfl
    rw [this, e2, hlen]; rfl

theorem run_append (a b : List Call) : ∀ s : Auth.State Obj, ∃ s', run par fwd s (a ++ b) = run par fwd s a ++ run par fwd s' b := by
  induction a with
  | nil => intro s; exact ⟨s, rfl⟩
  | cons c a ih => intro s; obtain ⟨s', e⟩ := ih (step par fwd s c).1; exact ⟨s', by rw [List.cons_append, run, run, e]; rfl⟩

/-- The object is ready for the next message. -/
def Ready (k : Key) (s : Auth.State Obj) : Prop := s.phase ≠ .start ∧ Keyed k s.o

theorem ready_of (s : Auth.State Obj) (k : Key) (iv : List Byte) (m : Nat) (H P : List Byte) (hs : InText par fwd k iv m H P s ∨ (P = [] ∧ InHeader par k iv H.length m H s)) : Ready k s := by
  rcases hs with h | ⟨_, h⟩
  · refine ⟨?_, h.rep.keyed⟩
    rw [h.phase]; split <;> decide
  · exact ⟨by rw [h.phase]; decide, h.rep.keyed⟩

theorem run_ending (hp : 0 < par) (k : Key) (iv H P : List Byte) (h1 : 7 ≤ iv.length) (h2 : iv.length ≤ 13) (hh : H.length < 2 ^ 64) (e : Ending)
    (he : match e with | .final n => n ≤ k.M | .verify mac => mac.length ≤ k.M | _ => True) (s : Auth.State Obj)
    (hs : InText par fwd k iv P.length H P s ∨ (P = [] ∧ InHeader par k iv H.length P.length H s)) :
    ∃ s', Ready k s' ∧ ∀ cs, run par fwd s (e.calls ++ cs) = e.results (Spec.tag k.E k.M iv H P) ++ run par fwd s' cs := by
  obtain ⟨_, hd⟩ := L_of s k iv P.length H P hs
  cases e with
  | final n =>
    obtain ⟨s', ef, hr⟩ := final_at (fwd := fwd) hp k iv H P s.o.L n s h1 h2 hh he hs
    refine ⟨s', hr, fun cs => ?_⟩
    rw [Ending.calls, List.cons_append, List.nil_append, run]
    have : step par fwd s (.op (.final n)) = (s', .ok (.bytes (Spec.tag k.E k.M iv H P n))) := by
      show ((Auth.truncatedFinal (hooks par s.o.L s.o.dig fwd) s n).1, (Auth.truncatedFinal (hooks par s.o.L s.o.dig fwd) s n).2.map _) = _
      rw [hd, ef]; rfl
    rw [this]; rfl
  | verify mac =>
    obtain ⟨s', ef, hr⟩ := final_at (fwd := fwd) hp k iv H P s.o.L mac.length s h1 h2 hh he hs
    refine ⟨s', hr, fun cs => ?_⟩
    rw [Ending.calls, List.cons_append, List.nil_append, run]
    have : step par fwd s (.op (.verify mac)) = (s', .ok (.bool (Spec.tag k.E k.M iv H P mac.length == mac))) := by
      show ((Auth.truncatedVerify (hooks par s.o.L s.o.dig fwd) s mac).1, (Auth.truncatedVerify (hooks par s.o.L s.o.dig fwd) s mac).2.map _) = _
      unfold Auth.truncatedVerify
      rw [hd, digestSize_eq, if_neg (Nat.not_lt.2 he), ef]; rfl
    rw [this]; rfl
  | restart =>
    obtain ⟨r1, r2⟩ := ready_of s k iv P.length H P hs
    refine ⟨Auth.restart s, ?_, fun cs => rfl⟩
    unfold Auth.restart
    split
    · exact ⟨r1, r2⟩
    · exact ⟨r1, r2⟩
    · exact ⟨by simp, r2⟩
  | givenUp => exact ⟨s, ready_of s k iv P.length H P hs, fun cs => rfl⟩

theorem run_begin (hp : 0 < par) (k : Key) (iv : List Byte) (h1 : 7 ≤ iv.length) (h2 : iv.length ≤ 13) (h m : Nat) (hh : h < 2 ^ 64) (hm : m < 256 ^ Spec.L iv) (s : Auth.State Obj) (hs : Ready k s) :
    ∃ s', InHeader par k iv h m [] s' ∧ ∀ cs, run par fwd s (.op (.resync iv) :: .specify h m :: cs) = .ok .nothing :: .ok .nothing :: run par fwd s' cs := by
  obtain ⟨s1, e1, f1⟩ := resync_at (fwd := fwd) hp k iv h1 h2 s.o.L s.o.dig s hs.1 hs.2
  obtain ⟨s2, e2, f2⟩ := specify_at (fwd := fwd) k iv h m h1 h2 hh hm s1 f1
  refine ⟨s2, f2, fun cs => ?_⟩
  have t1 : step par fwd s (.op (.resync iv)) = (s1, .ok .nothing) := by
    show ((Auth.resynchronize _ s iv).1, (Auth.resynchronize _ s iv).2.map _) = _
    rw [e1]; rfl
  have t2 : step par fwd s1 (.specify h m) = (s2, .ok .nothing) := by
    show ((specify par fwd s1 h m).1, (specify par fwd s1 h m).2.map _) = _
    rw [e2]; rfl
  rw [run, run, t1]
  dsimp only
  rw [t2]

theorem plain_eq (k : Key) (m : Msg) : plainAt fwd k m.iv 0 m.xs.flatten = m.plain fwd k := by
  unfold plainAt Msg.plain; rfl

theorem plain_length (k : Key) (m : Msg) : (m.plain fwd k).length = m.xs.flatten.length := by rw [← plain_eq, plainAt_length]

theorem run_message (hp : 0 < par) (k : Key) (m : Msg) (hm : m.Ok k.M) (s : Auth.State Obj) (hs : Ready k s) :
    ∃ s', Ready k s' ∧ ∀ cs, run par fwd s (m.calls ++ cs) = m.results fwd k ++ run par fwd s' cs := by
  obtain ⟨h1, h2, h3, h4, h5⟩ := hm
  obtain ⟨s1, f1, e1⟩ := run_begin (fwd := fwd) hp k m.iv h1 h2 m.hs.flatten.length m.xs.flatten.length h3 h4 s hs
  obtain ⟨s2, f2, e2⟩ := run_updates (fwd := fwd) k m.iv _ _ m.hs [] s1 f1 (by simpa using h3)
  rw [List.nil_append] at f2
  obtain ⟨s3, f3, e3⟩ := run_texts (fwd := fwd) hp k m.iv h1 h2 m.xs.flatten.length m.hs.flatten m.xs [] s2 (Or.inr ⟨rfl, f2⟩) (by simpa using h4)
  rw [List.nil_append, List.length_nil, plain_eq, ← plain_length (fwd := fwd) k m] at f3
  obtain ⟨s4, f4, e4⟩ := run_ending (fwd := fwd) hp k m.iv m.hs.flatten (m.plain fwd k) h1 h2 h3 m.ending h5 s3 f3
  refine ⟨s4, f4, fun cs => ?_⟩
  unfold Msg.calls Msg.results
  simp only [List.cons_append, List.append_assoc]
  rw [e1, e2, e3, e4]
  rfl

theorem setKey_ready (k : Key) (L dig : Nat) (s : Auth.State Obj) : Ready k (Auth.setKey (hooks par L dig fwd) s k none).1 := ⟨by simp [Auth.setKey], rfl, rfl, by simp [Auth.setKey, hooks, Obj.setKey]⟩

/-- C64: `SetKey` on an object in any state, then any messages, in any pieces, some of them given up: every call returns what CCM says. -/
theorem ccm_messages (hp : 0 < par) (fwd : Bool) (k : Key) (s : Auth.State Obj) (ms : List Msg) (hm : ∀ m ∈ ms, m.Ok k.M) :
    run par fwd s (.op (.setKey k none) :: ms.flatMap Msg.calls) = .ok .nothing :: ms.flatMap (Msg.results fwd k) := by
  have key : ∀ (ms : List Msg) (s : Auth.State Obj), Ready k s → (∀ m ∈ ms, m.Ok k.M) → run par fwd s (ms.flatMap Msg.calls) = ms.flatMap (Msg.results fwd k) := by
    intro ms
    induction ms with
    | nil => intro s _ _; rfl
    | cons m ms ih =>
      intro s hs hm
      obtain ⟨s', f, e⟩ := run_message (fwd := fwd) hp k m (hm m (by simp)) s hs
      rw [List.flatMap_cons, List.flatMap_cons, e, ih s' f (fun m' h' => hm m' (by simp [h']))]
  rw [run]
  show _ :: run par fwd (Auth.setKey (hooks par s.o.L s.o.dig fwd) s k none).1 _ = _
  rw [key ms _ (setKey_ready k _ _ s) hm]
  rfl

/-- C64: if the header entered is not as long as specified, the text is refused and so is the code. -/
theorem ccm_wrong_header (hp : 0 < par) (fwd : Bool) (k : Key) (s : Auth.State Obj) (iv : List Byte) (h1 : 7 ≤ iv.length) (h2 : iv.length ≤ 13) (h m : Nat) (hh : h < 2 ^ 64) (hm : m < 256 ^ Spec.L iv)
    (hs : List (List Byte)) (hl : hs.flatten.length < 2 ^ 64) (hne : hs.flatten.length ≠ h) (c : Call) (hc : (∃ x : List Byte, x.length < 256 ^ Spec.L iv ∧ c = .op (.process x)) ∨ ∃ n, n ≤ k.M ∧ c = .op (.final n)) :
    run par fwd s (.op (.setKey k none) :: .op (.resync iv) :: .specify h m :: (hs.map (fun h => .op (.update h)) ++ [c])) =
      .ok .nothing :: .ok .nothing :: .ok .nothing :: (hs.map (fun _ => .ok .nothing) ++ [.error .invalidArgument]) := by
  rw [run]
  show _ :: run par fwd (Auth.setKey (hooks par s.o.L s.o.dig fwd) s k none).1 _ = _
  obtain ⟨s1, f1, e1⟩ := run_begin (fwd := fwd) hp k iv h1 h2 h m hh hm _ (setKey_ready (par := par) (fwd := fwd) k s.o.L s.o.dig s)
  obtain ⟨s2, f2, e2⟩ := run_updates (fwd := fwd) k iv _ _ hs [] s1 f1 (by simpa using hl)
  rw [List.nil_append] at f2
  rw [e1, e2]
  have hfail : ∀ L dig, (hooks par L dig fwd).lastHeader s2.o s2.pending s2.hdr = .error .invalidArgument := by
    intro L dig
    show s2.o.lastHeader _ _ = _
    unfold Obj.lastHeader
    rw [f2.rep.2.2.2.1, f2.hdr, if_pos (Ne.symm hne)]
  have : (step par fwd s2 c).2 = .error .invalidArgument := by
    rcases hc with ⟨x, hx, rfl⟩ | ⟨n, hn, rfl⟩
    · show (Auth.processData (hooks par s2.o.L s2.o.dig fwd) s2 x).2.map _ = _
      have h64 := pow_le iv h1
      unfold Auth.processData
      rw [f2.rep.2.2.1, maxMessage_eq iv h1 h2, f2.msg, if_neg (fun hcc => by
        have := hcc.2
        rw [show (256 ^ Spec.L iv - 1 + 2 ^ 64 - 0) % 2 ^ 64 = 256 ^ Spec.L iv - 1 by rw [Nat.sub_zero, Nat.add_mod_right]; exact Nat.mod_eq_of_lt (by omega)] at this
        omega)]
      dsimp only
      rw [f2.phase]
      dsimp only
      rw [hfail]; rfl
    · show (Auth.truncatedFinal (hooks par s2.o.L s2.o.dig fwd) s2 n).2.map _ = _
      unfold Auth.truncatedFinal
      rw [f2.rep.2.1, digestSize_eq, maxHeader_eq, maxFooter_eq, if_neg (Nat.not_lt.2 hn), if_neg (by rw [f2.hdr]; omega), if_neg (by rw [f2.ftr]; decide), f2.phase]
      dsimp only
      rw [hfail]; rfl
  rw [run, run, this]
  rfl

/-- C64: if the text entered is not as long as specified, the code is refused. -/
theorem ccm_wrong_text (hp : 0 < par) (fwd : Bool) (k : Key) (s : Auth.State Obj) (iv : List Byte) (h1 : 7 ≤ iv.length) (h2 : iv.length ≤ 13) (m : Nat) (hm : m < 256 ^ Spec.L iv)
    (hs xs : List (List Byte)) (hl : hs.flatten.length < 2 ^ 64) (hx : xs.flatten.length < 256 ^ Spec.L iv) (hne : xs.flatten.length ≠ m) (n : Nat) (hn : n ≤ k.M) :
    run par fwd s (.op (.setKey k none) :: .op (.resync iv) :: .specify hs.flatten.length m :: (hs.map (fun h => .op (.update h)) ++ (xs.map (fun x => .op (.process x)) ++ [.op (.final n)]))) =
      .ok .nothing :: .ok .nothing :: .ok .nothing :: (hs.map (fun _ => .ok .nothing) ++ ((pieces (stream k.E iv) 0 xs).map (fun y => .ok (.bytes y)) ++ [.error .invalidArgument])) := by
  rw [run]
  show _ :: run par fwd (Auth.setKey (hooks par s.o.L s.o.dig fwd) s k none).1 _ = _
  obtain ⟨s1, f1, e1⟩ := run_begin (fwd := fwd) hp k iv h1 h2 hs.flatten.length m hl hm _ (setKey_ready (par := par) (fwd := fwd) k s.o.L s.o.dig s)
  obtain ⟨s2, f2, e2⟩ := run_updates (fwd := fwd) k iv _ _ hs [] s1 f1 (by simpa using hl)
  rw [List.nil_append] at f2
  obtain ⟨s3, f3, e3⟩ := run_texts (fwd := fwd) hp k iv h1 h2 m hs.flatten xs [] s2 (Or.inr ⟨rfl, f2⟩) (by simpa using hx)
  rw [e1, e2, e3]
  have hfail : ∀ (o : Obj) (p : List Byte) (L dig hd msg : Nat), o.mlen = m → msg = xs.flatten.length → (hooks par L dig fwd).lastConfidential o p hd msg = .error .invalidArgument := by
    intro o p L dig hd msg ho hmsg
    show o.lastConfidential _ _ = _
    unfold Obj.lastConfidential
    rw [if_pos (by rw [ho, hmsg]; exact Ne.symm hne)]
  have hfin : ∀ (L dig : Nat) (t : Auth.State Obj), t.o.mlen = m → t.msg = xs.flatten.length → (Auth.finalMessage (hooks par L dig fwd) t n).2 = .error .invalidArgument := by
    intro L dig t ht hmsg
    unfold Auth.finalMessage
    rw [hfail _ _ _ _ _ _ ht hmsg]
  have : (step par fwd s3 (.op (.final n))).2 = .error .invalidArgument := by
    show (Auth.truncatedFinal (hooks par s3.o.L s3.o.dig fwd) s3 n).2.map _ = _
    have hres : (Auth.truncatedFinal (hooks par s3.o.L s3.o.dig fwd) s3 n).2 = .error .invalidArgument := by
      unfold Auth.truncatedFinal
      rcases f3 with f | ⟨fP, f⟩
      · rw [f.rep.2.1, digestSize_eq, maxHeader_eq, maxFooter_eq, if_neg (Nat.not_lt.2 hn), if_neg (by rw [f.hdr]; omega), if_neg (by rw [f.ftr]; decide), f.phase]
        have hm3 : s3.msg = xs.flatten.length := by rw [f.msg, List.nil_append, plainAt_length]
        have h := hfin s3.o.L k.M s3 f.rep.2.2.2.2.1 hm3
        cases fwd with
        | true => exact h
        | false => exact h
      · rw [f.rep.2.1, digestSize_eq, maxHeader_eq, maxFooter_eq, if_neg (Nat.not_lt.2 hn), if_neg (by rw [f.hdr]; omega), if_neg (by rw [f.ftr]; decide), f.phase]
        dsimp only
        obtain ⟨o', e, r⟩ := lastHeader_at (fwd := fwd) k iv m hs.flatten s3.o.L k.M s3 f
        rw [e]
        have hx0 : xs.flatten.length = 0 := by
          have := congrArg List.length fP
          rw [List.nil_append, plainAt_length] at this
          exact this
        exact hfin s3.o.L k.M _ r.2.2.2.2.1 (by rw [hx0]; exact f.msg)
    rw [hres]; rfl
  rw [run, run, this]
  rfl

/-- C64: `EncryptAndAuthenticate` is CCM encryption, after `SetKey` on an object in any state. -/
theorem ccm_encrypt (hp : 0 < par) (k : Key) (s : Auth.State Obj) (L dig : Nat) (iv aad text : List Byte) (n : Nat) (h1 : 7 ≤ iv.length) (h2 : iv.length ≤ 13) (hh : aad.length < 2 ^ 64)
    (hx : text.length < 256 ^ Spec.L iv) (hn : n ≤ k.M) :
    encryptAndAuthenticate par (Auth.setKey (hooks par L dig true) s k none).1 iv aad text n = .ok (Spec.crypt k.E iv text, Spec.tag k.E k.M iv aad text n) := by
  obtain ⟨r1, r2⟩ := setKey_ready (par := par) (fwd := true) k L dig s
  obtain ⟨s1, e1, f1⟩ := resync_at (fwd := true) hp k iv h1 h2 (Auth.setKey (hooks par L dig true) s k none).1.o.L (Auth.setKey (hooks par L dig true) s k none).1.o.dig _ r1 r2
  obtain ⟨s2, e2, f2⟩ := specify_at (fwd := true) k iv aad.length text.length h1 h2 hh hx s1 f1
  obtain ⟨s3, e3, f3⟩ := update_at (fwd := true) k iv aad.length text.length s2.o.L s2.o.dig [] aad s2 f2 (by simpa using hh)
  rw [List.nil_append] at f3
  obtain ⟨s4, e4, f4⟩ := process_at (fwd := true) hp k iv text.length s3.o.dig aad [] text s3 h1 h2 (Or.inr ⟨rfl, f3⟩) (by simpa using hx)
  obtain ⟨s5, e5, f5⟩ := final_at (fwd := true) hp k iv aad text s4.o.L n s4 h1 h2 hh hn (Or.inl f4)
  unfold encryptAndAuthenticate
  rw [e1]
  dsimp only
  rw [e2]
  dsimp only
  rw [e3]
  dsimp only
  rw [f3.rep.2.2.1, e4]
  dsimp only
  rw [f4.rep.2.1, e5]
  rfl

/-- C64: `DecryptAndVerify` is CCM decryption: the text, and whether the code is that of the text. -/
theorem ccm_decrypt (hp : 0 < par) (k : Key) (s : Auth.State Obj) (L dig : Nat) (iv aad text mac : List Byte) (h1 : 7 ≤ iv.length) (h2 : iv.length ≤ 13) (hh : aad.length < 2 ^ 64)
    (hx : text.length < 256 ^ Spec.L iv) (hn : mac.length ≤ k.M) :
    decryptAndVerify par (Auth.setKey (hooks par L dig false) s k none).1 iv aad text mac =
      .ok (Spec.crypt k.E iv text, Spec.tag k.E k.M iv aad (Spec.crypt k.E iv text) mac.length == mac) := by
  have hcl : (Spec.crypt k.E iv text).length = text.length := by simp [Spec.crypt]
  obtain ⟨r1, r2⟩ := setKey_ready (par := par) (fwd := false) k L dig s
  obtain ⟨s1, e1, f1⟩ := resync_at (fwd := false) hp k iv h1 h2 (Auth.setKey (hooks par L dig false) s k none).1.o.L (Auth.setKey (hooks par L dig false) s k none).1.o.dig _ r1 r2
  obtain ⟨s2, e2, f2⟩ := specify_at (fwd := false) k iv aad.length text.length h1 h2 hh hx s1 f1
  obtain ⟨s3, e3, f3⟩ := update_at (fwd := false) k iv aad.length text.length s2.o.L s2.o.dig [] aad s2 f2 (by simpa using hh)
  rw [List.nil_append] at f3
  obtain ⟨s4, e4, f4⟩ := process_at (fwd := false) hp k iv text.length s3.o.dig aad [] text s3 h1 h2 (Or.inr ⟨rfl, f3⟩) (by simpa using hx)
  have f4' : InText par false k iv (Spec.crypt k.E iv text).length aad (Spec.crypt k.E iv text) s4 := by rw [hcl]; exact f4
  obtain ⟨s5, e5, f5⟩ := final_at (fwd := false) hp k iv aad (Spec.crypt k.E iv text) s4.o.L mac.length s4 h1 h2 hh hn (Or.inl f4')
  unfold decryptAndVerify
  rw [e1]
  dsimp only
  rw [e2]
  dsimp only
  rw [e3]
  dsimp only
  rw [f3.rep.2.2.1, e4]
  dsimp only
  unfold Auth.truncatedVerify
  rw [f4.rep.2.1, digestSize_eq, if_neg (Nat.not_lt.2 hn), e5]
  rfl

theorem crypt_crypt (E : List Byte → List Byte) (iv x : List Byte) : Spec.crypt E iv (Spec.crypt E iv x) = x := by
  unfold Spec.crypt
  rw [xorBytes_length, load_length, Nat.min_self]
  exact xorBytes_cancel _ _ (by simp)

/-- C64: what was encrypted is decrypted, and found authentic. -/
theorem ccm_round_trip (par par' : Nat) (hp : 0 < par) (hp' : 0 < par') (k : Key) (s s' : Auth.State Obj) (L dig L' dig' : Nat) (iv aad text : List Byte) (n : Nat) (h1 : 7 ≤ iv.length) (h2 : iv.length ≤ 13) (hh : aad.length < 2 ^ 64)
    (hx : text.length < 256 ^ Spec.L iv) (hn : n ≤ k.M) :
    ∃ c mac, encryptAndAuthenticate par (Auth.setKey (hooks par L dig true) s k none).1 iv aad text n = .ok (c, mac) ∧ mac.length = n ∧
      decryptAndVerify par' (Auth.setKey (hooks par' L' dig' false) s' k none).1 iv aad c mac = .ok (text, true) := by
  have hM := k.max
  have hT : (Spec.T k.E k.M iv aad text).length = 16 := by
    unfold Spec.T
    refine Cmac.chain_length k.length _ _ (by simp) (chunks_block_length 16 (by decide) _ ?_)
    have hb : (Spec.B0 k.M iv aad.length text.length).length = 16 := by simp [Spec.B0, Spec.L]; omega
    have p1 := padded_mod (Spec.aadLength aad.length ++ aad)
    have p2 := padded_mod text
    rw [List.length_append, List.length_append, hb]
    omega
  have hS : (Spec.S k.E iv 0).length = 16 := by unfold Spec.S; exact k.length _ (by simp [Spec.L]; omega)
  have hl : (Spec.tag k.E k.M iv aad text n).length = n := by
    unfold Spec.tag; rw [List.length_take, xorBytes_length, hT, hS]; omega
  have hcl : (Spec.crypt k.E iv text).length = text.length := by simp [Spec.crypt]
  refine ⟨_, _, ccm_encrypt hp k s L dig iv aad text n h1 h2 hh hx hn, hl, ?_⟩
  rw [ccm_decrypt hp' k s' L' dig' iv aad _ _ h1 h2 hh (by rw [hcl]; exact hx) (by rw [hl]; exact hn), crypt_crypt, hl, beq_self_eq_true]

end

/-! ## Hypotheses that hold, and the defect -/

/-- A function on blocks, with 8-byte codes. -/
def toy : Key := ⟨fun x => (x.drop 1 ++ x.take 1).map (· * 5 + 0x3b), by intro x h; simp; omega, 8, rfl, by decide, by decide⟩

def someState : Auth.State Obj := Auth.fresh ⟨id, 0, 0, [], [], 0, 0, ⟨⟨[], []⟩, [], 0⟩, fun _ => 0⟩

/-- A message in pieces, one that is given up in the header, an empty one to be verified. -/
def toyMessages : List Msg :=
  [⟨[1, 2, 3, 4, 5, 6, 7], [[1], [], [2, 3]], [[4, 5, 6], [7], [8, 9, 10, 11, 12, 13, 14, 15, 16, 17, 18, 19, 20, 21]], .final 8⟩,
   ⟨[1, 2, 3, 4, 5, 6, 7, 8, 9, 10, 11, 12, 13], [[7]], [], .givenUp⟩, ⟨[9, 9, 9, 9, 9, 9, 9, 9], [], [], .verify [1, 2, 3, 4]⟩]

example (fwd : Bool) : run 4 fwd someState (.op (.setKey toy none) :: toyMessages.flatMap Msg.calls) = .ok .nothing :: toyMessages.flatMap (Msg.results fwd toy) :=
  ccm_messages (by decide) fwd toy someState toyMessages (by intro m hm; simp [toyMessages] at hm; rcases hm with rfl | rfl | rfl <;> simp [Msg.Ok, toy, Spec.L])

/-- The same with 16-byte codes. -/
def toy16 : Key := ⟨toy.E, toy.length, 16, rfl, by decide, by decide⟩

/-- `SpecifyDataLengths` called twice, with the same lengths, before a message of a one-byte header and a one-byte text: no exception, and a code that is not that of CCM. -/
theorem ccm_specify_twice_defect : ∃ (iv mac c : List Byte), iv.length = 13 ∧
    run 1 true someState [.op (.setKey toy16 none), .op (.resync iv), .specify 1 1, .specify 1 1, .op (.update [1]), .op (.process [2]), .op (.final 16)] =
      [.ok .nothing, .ok .nothing, .ok .nothing, .ok .nothing, .ok .nothing, .ok (.bytes c), .ok (.bytes mac)] ∧ mac ≠ Spec.tag toy16.E toy16.M iv [1] [2] 16 := by
  exact ⟨[5, 2, 3, 4, 5, 6, 7, 8, 9, 10, 11, 12, 13], [225, 92, 220, 92, 196, 84, 212, 100, 236, 108, 12, 82, 222, 1, 153, 188], [86], rfl, by decide +kernel, by decide +kernel⟩

end Verif.Ccm
