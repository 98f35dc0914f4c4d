import Verif.Flate.DeflatorProofs
import Verif.Flate.InflatorProps
import Verif.Flate.HuffmanProps
import Mathlib.Data.List.Forall2

/-!
# C36: `Inflator` inverts `Deflator`

`srt` is what `std::sort` does to the leaves of a Huffman tree; nothing is assumed about it but that it sorts, so the
order of leaves of equal frequency is any.  `Junk` is the memory that the constructor leaves uninitialised.
-/
namespace Verif.Flate

/-- A call before the end of a message. -/
inductive Op where
  | put (d : List Byte)
  | flush (hard : Bool)
  | setLevel (n : Int)
deriving DecidableEq, Repr

/-- The bytes the call adds to the message. -/
def Op.bytes : Op → List Byte
  | .put d => d
  | .flush _ => []
  | .setLevel _ => []

/-- Levels are from 0 to 9. -/
def Op.Ok : Op → Prop
  | .setLevel n => 0 ≤ n ∧ n ≤ 9
  | _ => True

def Deflator.op (srt : List Leaf → List Leaf) (s : Deflator) : Op → Except Err Deflator
  | .put d => s.put2 srt d false
  | .flush hard => s.isolatedFlush srt hard
  | .setLevel n => s.setLevel srt n

def Deflator.ops (srt : List Leaf → List Leaf) : Deflator → List Op → Except Err Deflator
  | s, [] => .ok s
  | s, o :: os => match s.op srt o with
    | .error e => .error e
    | .ok s => Deflator.ops srt s os

/-- One message: some calls, and a last `Put` with the message end. -/
structure Msg where
  ops : List Op
  last : List Byte
deriving DecidableEq, Repr

/-- The message. -/
def Msg.bytes (m : Msg) : List Byte := m.ops.flatMap Op.bytes ++ m.last

/-- No flushes and no changes of level. -/
def Msg.Plain (m : Msg) : Prop := ∀ o ∈ m.ops, ∃ d, o = .put d

def Deflator.message (srt : List Leaf → List Leaf) (s : Deflator) (m : Msg) : Except Err Deflator :=
  match Deflator.ops srt s m.ops with
  | .error e => .error e
  | .ok s => s.put2 srt m.last true

/-- What the object delivers for each of several messages. -/
def Deflator.messages (srt : List Leaf → List Leaf) : Deflator → List Msg → Except Err (List (List Byte))
  | _, [] => .ok []
  | s, m :: ms => match s.message srt m with
    | .error e => .error e
    | .ok t => match Deflator.messages srt t ms with
      | .error e => .error e
      | .ok xs => .ok (t.w.out.drop s.w.out.length :: xs)

/-- A new `Deflator`, and some messages. -/
def deflate (srt : List Leaf → List Leaf) (j : Junk) (level log2 : Int) (detect : Bool) (ms : List Msg) : Except Err (List (List Byte)) :=
  match Deflator.new j level log2 detect with
  | .error e => .error e
  | .ok s => s.messages srt ms

section
variable {srt : List Leaf → List Leaf} (hs : IsSort srt)
include hs

theorem ops_live {base : List Byte} (os : List Op) : ∀ {s : Deflator} {inp : List Byte} {off : Nat} {bs : List Block}, Live base inp off bs s → (∀ o ∈ os, o.Ok) →
    ∃ s' off' bs', Deflator.ops srt s os = .ok s' ∧ Live base (inp ++ os.flatMap Op.bytes) off' bs' s' ∧ s'.log2 = s.log2 ∧
      ((∀ o ∈ os, ∃ d, o = .put d) → (os.flatMap Op.bytes = [] → s' = s) ∧ (bs' ≠ [] → bs ≠ [] ∨ s.dsize / 2 < (inp ++ os.flatMap Op.bytes).length)) := by
  induction os with
  | nil =>
    intro s inp off bs hl _
    exact ⟨s, off, bs, rfl, by simpa using hl, rfl, fun _ => ⟨fun _ => rfl, fun h => .inl h⟩⟩
  | cons o os ih =>
    intro s inp off bs hl hok
    have first : ∃ s1 off1 bs1, s.op srt o = .ok s1 ∧ Live base (inp ++ o.bytes) off1 bs1 s1 ∧ s1.log2 = s.log2 ∧
        ((∃ d, o = .put d) → (o.bytes = [] → s1 = s) ∧ (bs1 ≠ [] → bs ≠ [] ∨ s.dsize / 2 < (inp ++ o.bytes).length)) := by
      cases o with
      | put d =>
        obtain ⟨s1, off1, bs1, e, l, g, z, f⟩ := put_live hs hl d
        exact ⟨s1, off1, bs1, e, l, g, fun _ => ⟨z, f⟩⟩
      | flush hard =>
        obtain ⟨s1, off1, bs1, e, l, g⟩ := flush_live hs hl hard
        exact ⟨s1, off1, bs1, e, by simpa [Op.bytes] using l, g, fun ⟨d, h⟩ => (nomatch h)⟩
      | setLevel n =>
        obtain ⟨s1, bs1, e, l, g⟩ := setLevel_live hs hl (hok _ List.mem_cons_self)
        exact ⟨s1, off, bs1, e, by simpa [Op.bytes] using l, g, fun ⟨d, h⟩ => (nomatch h)⟩
    obtain ⟨s1, off1, bs1, e1, l1, g1, p1⟩ := first
    obtain ⟨s2, off2, bs2, e2, l2, g2, p2⟩ := ih l1 (fun o ho => hok o (List.mem_cons_of_mem _ ho))
    rw [List.append_assoc] at l2 p2
    refine ⟨s2, off2, bs2, by rw [Deflator.ops, e1]; exact e2, l2, by rw [g2, g1], fun hp => ?_⟩
    obtain ⟨z1, f1⟩ := p1 (hp _ List.mem_cons_self)
    obtain ⟨z2, f2⟩ := p2 (fun o ho => hp o (List.mem_cons_of_mem _ ho))
    rw [List.flatMap_cons]
    constructor
    · intro h
      obtain ⟨h1, h2⟩ := List.append_eq_nil_iff.1 h
      rw [z2 h2, z1 h1]
    · intro h
      have hd : s1.dsize = s.dsize := by rw [Deflator.dsize, g1]; rfl
      rcases f2 h with h | h
      · rcases f1 h with h | h
        · exact .inl h
        · right; simp only [List.length_append] at h ⊢; omega
      · right; rw [hd] at h; exact h

theorem message_spec {base : List Byte} {s : Deflator} (hf : Fresh base s) (m : Msg) (hok : ∀ o ∈ m.ops, o.Ok) : ∃ s' x, s.message srt m = .ok s' ∧ Fresh (base ++ x) s' ∧
    s'.log2 = s.log2 ∧ IsDeflate x m.bytes ∧ (m.Plain → m.bytes.length ≤ s.dsize / 2 → (m.bytes ≠ [] ∨ s.level ≠ 0) → IsRoomyDeflate x m.bytes) := by
  obtain ⟨s1, off1, bs1, e1, l1, g1, p1⟩ := ops_live hs m.ops hf.live hok
  obtain ⟨s2, off2, bs2, e2, l2, g2, z2, f2⟩ := put_live hs l1 m.last
  obtain ⟨s3, x, bs3, b, pad, e3, fr, g3, hpad, hx, hp, f3, em⟩ := end_live hs l2
  have e : s.message srt m = .ok s3 := by
    rw [Deflator.message, e1]
    simp only []
    rw [put2_true, e2]
    exact e3
  have hb : [] ++ m.ops.flatMap Op.bytes ++ m.last = m.bytes := rfl
  rw [hb] at hp f3 f2
  refine ⟨s3, x, e, fr, by rw [g3, g2, g1], ⟨bs3 ++ [b], pad, by simp, hpad, hx, hp⟩, fun hpl hlen hne => ?_⟩
  obtain ⟨z1, f1⟩ := p1 hpl
  have hd1 : s1.dsize = s.dsize := by rw [Deflator.dsize, g1]; rfl
  have hd2 : s2.dsize = s.dsize := by rw [Deflator.dsize, g2, g1]; rfl
  have hml : m.bytes.length = (m.ops.flatMap Op.bytes).length + m.last.length := List.length_append
  have h3 : bs3 = [] := by
    by_contra h
    rcases f3 h with h | h
    · rcases f2 h with h | h
      · rcases f1 h with h | h
        · exact h rfl
        · rw [List.nil_append] at h; omega
      · rw [hd1] at h; omega
    · rw [hd2] at h; omega
  subst h3
  obtain ⟨hv, o', hr, ho⟩ := hp
  have ho' : m.bytes = o' := ho
  subst ho'
  refine roomy_of_single hpad hx hv hr (fun p hbp => ?_)
  by_cases h0 : m.bytes = []
  · obtain ⟨h1, h2⟩ := List.append_eq_nil_iff.1 h0
    have h12 : s2 = s := by rw [z2 h2, z1 h1]
    subst h12
    rcases hne with h | h
    · exact h h0
    · rcases em h hf.blockLen hf.look hf.avail with ⟨is, hq⟩ | ⟨hh, is, hq⟩ <;> rw [hbp] at hq <;> cases hq
  · rw [hbp] at hr
    have : some ([] ++ []) = some m.bytes := hr
    exact h0 (Option.some.inj this).symm

theorem messages_spec (ms : List Msg) : ∀ {base : List Byte} {s : Deflator}, Fresh base s → (∀ m ∈ ms, ∀ o ∈ m.ops, o.Ok) → ∃ xs, s.messages srt ms = .ok xs ∧
    List.Forall₂ (fun m x => IsDeflate x m.bytes ∧ (m.Plain → m.bytes ≠ [] → 2 * m.bytes.length ≤ s.dsize → IsRoomyDeflate x m.bytes)) ms xs := by
  induction ms with
  | nil => intro base s _ _; exact ⟨[], rfl, .nil⟩
  | cons m ms ih =>
    intro base s hf hok
    obtain ⟨t, x, e, fr, g, h1, h2⟩ := message_spec hs hf m (hok m List.mem_cons_self)
    obtain ⟨xs, e', h3⟩ := ih fr (fun m hm => hok m (List.mem_cons_of_mem _ hm))
    refine ⟨x :: xs, ?_, .cons ⟨h1, fun a b c => h2 a (by omega) (.inl b)⟩ ?_⟩
    · rw [Deflator.messages, e]
      simp only []
      rw [e', fr.w.2.2.2, hf.w.2.2.2, List.drop_left]
    · have hd : t.dsize = s.dsize := by rw [Deflator.dsize, g]; rfl
      rw [hd] at h3
      exact h3

omit hs in
theorem new_fresh {j : Junk} {level log2 : Int} {detect : Bool} (hl : 0 ≤ level ∧ level ≤ 9) (hw : 9 ≤ log2 ∧ log2 ≤ 15) :
    ∃ s, Deflator.new j level log2 detect = .ok s ∧ Fresh [] s ∧ s.dsize = 2 ^ log2.toNat ∧ s.level = level.toNat := by
  rw [Deflator.new, if_neg (fun h => h hw), if_neg (fun h => h hl)]
  refine ⟨_, rfl, ?_, rfl, rfl⟩
  exact { log := ⟨by show 9 ≤ log2.toNat; omega, by show log2.toNat ≤ 15; omega⟩, w := ⟨⟨rfl, (by decide : 0 < 8), (by decide : 0 < 2 ^ 0)⟩, rfl, rfl, rfl⟩
          small := Nat.mod_lt _ (by decide), avail := rfl, dictEnd := rfl, start := rfl, look := rfl, minLook := rfl, toks := rfl
          blockStart := rfl, blockLen := rfl, head := rfl, lit := rfl, dist := rfl }

/-- Every message given to a `Deflator`, in whatever pieces, with whatever flushes and changes of level, and whatever
messages went before, becomes a DEFLATE stream in the sense of RFC 1951. -/
theorem deflator_writes_streams (j : Junk) {level log2 : Int} (detect : Bool) (hl : 0 ≤ level ∧ level ≤ 9) (hw : 9 ≤ log2 ∧ log2 ≤ 15) (ms : List Msg)
    (hok : ∀ m ∈ ms, ∀ o ∈ m.ops, o.Ok) : ∃ xs, deflate srt j level log2 detect ms = .ok xs ∧ List.Forall₂ (fun m x => IsDeflate x m.bytes) ms xs := by
  obtain ⟨s, e, hf, -⟩ := new_fresh (j := j) (detect := detect) hl hw
  obtain ⟨xs, e', h⟩ := messages_spec hs ms hf hok
  exact ⟨xs, by rw [deflate, e]; exact e', h.imp fun _ _ h => h.1⟩

/-- `Inflator` returns every message, and passes on unchanged what follows the stream, if that is at least three
bytes. -/
theorem inflate_inverts_deflate {spy : List Byte → Nat} (hspy : SpyOk spy) (j : Junk) {level log2 : Int} (detect : Bool) (hl : 0 ≤ level ∧ level ≤ 9)
    (hw : 9 ≤ log2 ∧ log2 ≤ 15) (ms : List Msg) (hok : ∀ m ∈ ms, ∀ o ∈ m.ops, o.Ok) : ∃ xs, deflate srt j level log2 detect ms = .ok xs ∧
      List.Forall₂ (fun m x => ∀ (T : List Byte) (cs : List Call) (last : List Byte), 3 ≤ T.length → cs.flatMap Call.bytes ++ last = x ++ T →
        inflate spy cs last = .ok (m.bytes ++ T)) ms xs := by
  obtain ⟨xs, e, h⟩ := deflator_writes_streams hs j detect hl hw ms hok
  exact ⟨xs, e, h.imp fun _ _ h T cs last hT hcs => inflate_reads_streams hspy h hT cs last hcs⟩

/-- When nothing follows, it returns every message of at most half the window that is not empty and was given without
flushes and changes of level. -/
theorem inflate_inverts_deflate_alone {spy : List Byte → Nat} (hspy : SpyOk spy) (j : Junk) {level log2 : Int} (detect : Bool) (hl : 0 ≤ level ∧ level ≤ 9)
    (hw : 9 ≤ log2 ∧ log2 ≤ 15) (ms : List Msg) (hok : ∀ m ∈ ms, m.Plain ∧ m.bytes ≠ [] ∧ 2 * m.bytes.length ≤ 2 ^ log2.toNat) :
    ∃ xs, deflate srt j level log2 detect ms = .ok xs ∧ List.Forall₂ (fun m x => ∀ (cs : List Call) (last : List Byte), cs.flatMap Call.bytes ++ last = x →
        inflate spy cs last = .ok m.bytes) ms xs := by
  obtain ⟨s, e, hf, hd, -⟩ := new_fresh (j := j) (detect := detect) hl hw
  obtain ⟨xs, e', h⟩ := messages_spec hs ms hf (fun m hm o ho => by
    obtain ⟨d, rfl⟩ := (hok m hm).1 o ho; trivial)
  refine ⟨xs, by rw [deflate, e]; exact e', ?_⟩
  rw [hd] at h
  clear e e' hf hd
  induction h with
  | nil => exact .nil
  | cons h t ih =>
    refine .cons ?_ (ih fun m hm => hok m (List.mem_cons_of_mem _ hm))
    intro cs last hcs
    obtain ⟨h1, h2, h3⟩ := hok _ List.mem_cons_self
    have := inflate_reads_roomy_streams hspy (T := []) (h.2 h1 h2 h3) cs last (by simpa using hcs)
    simpa using this

/-- At levels other than 0 it returns the empty message too. -/
theorem inflate_inverts_deflate_empty {spy : List Byte → Nat} (hspy : SpyOk spy) (j : Junk) {level log2 : Int} (detect : Bool) (hl : 1 ≤ level ∧ level ≤ 9)
    (hw : 9 ≤ log2 ∧ log2 ≤ 15) : ∃ x, deflate srt j level log2 detect [⟨[], []⟩] = .ok [x] ∧
      ∀ (cs : List Call) (last : List Byte), cs.flatMap Call.bytes ++ last = x → inflate spy cs last = .ok [] := by
  obtain ⟨s, e, hf, hd, hlv⟩ := new_fresh (j := j) (detect := detect) (level := level) ⟨by omega, hl.2⟩ hw
  obtain ⟨t, x, e', fr, g, h1, h2⟩ := message_spec hs hf ⟨[], []⟩ (fun o ho => (nomatch ho))
  refine ⟨x, ?_, fun cs last hcs => ?_⟩
  · rw [deflate, e]
    show s.messages srt _ = _
    rw [Deflator.messages, e']
    simp only [Deflator.messages]
    rw [fr.w.2.2.2, hf.w.2.2.2]
    rfl
  · have := inflate_reads_roomy_streams hspy (T := []) (h2 (fun o ho => (nomatch ho)) (Nat.zero_le _) (.inr (by omega))) cs last (by simpa using hcs)
    rw [List.append_nil] at this
    exact this

end

/-! ## Streams of `Deflator` that `Inflator` refuses -/

/-- Memory full of rubbish. -/
def junk : Junk := ⟨fun i => BitVec.ofNat 8 (i * 7 + 1), fun i => i + 3, 77, 123456⟩

/-- At level 0 the empty message becomes a stream that `Inflator` refuses when nothing follows it. -/
theorem inflate_refuses_empty_level0 :
    deflate insSort junk 0 15 true [⟨[], []⟩] = .ok [[0x01, 0x00, 0x00, 0xff, 0xff]] ∧
      inflate List.length [] [0x01, 0x00, 0x00, 0xff, 0xff] = .error .invalidDataFormat :=
  ⟨by decide +kernel, inflate_rejects_empty_stored.2⟩

/-- And so does a message that is not empty, if it is flushed before its end. -/
theorem inflate_refuses_flushed_level0 :
    deflate insSort junk 0 15 true [⟨[.put [0x61], .flush false], []⟩] = .ok [[0x00, 0x01, 0x00, 0xfe, 0xff, 0x61, 0x01, 0x00, 0x00, 0xff, 0xff]] ∧
      inflate List.length [] [0x00, 0x01, 0x00, 0xfe, 0xff, 0x61, 0x01, 0x00, 0x00, 0xff, 0xff] = .error .invalidDataFormat :=
  ⟨by decide +kernel, by decide +kernel⟩

/-! ## Examples -/

/-- Two messages with repetitions, flushes and a change of level. -/
def twoMessages : List Msg :=
  [⟨[.put [0x61, 0x62, 0x63, 0x61, 0x62, 0x63, 0x61], .flush true, .put [0x62, 0x63, 0x61, 0x62, 0x63], .setLevel 0, .put [0x01, 0x02]], [0x03]⟩,
   ⟨[.setLevel 9, .put [], .put [0x61]], [0x61, 0x61, 0x61, 0x61, 0x61, 0x61, 0x61]⟩]

theorem twoMessages_ok : ∀ m ∈ twoMessages, ∀ o ∈ m.ops, o.Ok := by
  intro m hm o ho
  simp only [twoMessages, List.mem_cons, List.not_mem_nil, or_false] at hm
  rcases hm with rfl | rfl <;> simp only [List.mem_cons, List.not_mem_nil, or_false] at ho
  · rcases ho with rfl | rfl | rfl | rfl | rfl <;> simp [Op.Ok]
  · rcases ho with rfl | rfl | rfl <;> simp [Op.Ok]

/-- The hypotheses are met, and this is what the streams are. -/
example : ∃ xs, deflate insSort junk 6 9 true twoMessages = .ok xs ∧
    List.Forall₂ (fun m x => ∀ (T : List Byte) (cs : List Call) (last : List Byte), 3 ≤ T.length → cs.flatMap Call.bytes ++ last = x ++ T →
      inflate List.length cs last = .ok (m.bytes ++ T)) twoMessages xs :=
  inflate_inverts_deflate insSort_isSort (fun q hq => ⟨List.length_pos_iff.2 hq, Nat.le_refl _⟩) junk true (by decide) (by decide) twoMessages twoMessages_ok

example : deflate insSort junk 6 9 true twoMessages = .ok
    [[74, 76, 74, 78, 4, 34, 0, 0, 0, 0, 255, 255, 1, 8, 0, 247, 255, 98, 99, 97, 98, 99, 1, 2, 3], [75, 76, 132, 0, 0]] := by
  decide +kernel

end Verif.Flate
