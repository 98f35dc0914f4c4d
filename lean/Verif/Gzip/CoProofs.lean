import Verif.Gzip.BoxProofs

/-! # What the compressors write -/
namespace Verif.Gzip

open Verif.Flate
open Verif.Gzip.Spec (IsTail IsMember IsZHeader IsZlib zeroEnded extraField)
open Verif.Checksum (IsCrc crc32Poly adlerDigest adlerRep isCrc_unique Computes)

variable {κ τ ι : Type}

/-- What is set when the header is written: the header is due to the first call that brings data or flushes. -/
def settings (f : ι → τ → ι) : ι → List (COp τ) → ι
  | i, [] => i
  | i, .set v :: os => settings f (f i v) os
  | i, .data (.put []) :: os => settings f i os
  | i, .data (.setLevel _) :: os => settings f i os
  | i, .data (.put (_ :: _)) :: _ => i
  | i, .data (.flush _) :: _ => i

/-- The bytes the call adds to the message. -/
def COp.bytes : COp τ → List Byte
  | .data o => o.bytes
  | .set _ => []

/-- Levels are from 0 to 9, and what is set is accepted. -/
def COp.Ok (ok : τ → Prop) : COp τ → Prop
  | .data o => o.Ok
  | .set v => ok v

/-- The subclass `C` writes headers `Hdr log2 h i` for the settings `view x = i`, and the tails `Tl m t`. -/
structure CoatOk (C : Coat κ τ) (view : κ → ι) (f : ι → τ → ι) (ok : τ → Prop) (first : ι) (Rep : κ → List Byte → Prop) (Hdr : Nat → List Byte → ι → Prop) (Tl : List Byte → List Byte → Prop) : Prop where
  start : ∀ x d, 9 ≤ d.log2 ∧ d.log2 ≤ 15 → Rep (C.start x d).1 [] ∧ Hdr d.log2 (C.start x d).2 (view x)
  absorb : ∀ x m d, Rep x m → Rep (C.absorb x d) (m ++ d)
  set : ∀ x v, ok v → ∃ y, C.set x v = .ok y ∧ view y = f (view x) v ∧ ∀ m, Rep x m → Rep y m
  finish : ∀ x m, Rep x m → ∃ y t, C.finish x = .ok (y, t) ∧ Tl m t ∧ view y = first

theorem Fresh.putBytes {base h : List Byte} {d : Deflator} (hf : Fresh base d) : Fresh (base ++ h) { d with w := d.w.putBytes h } := by
  obtain ⟨w1, w2, w3, w4⟩ := hf.w
  exact ⟨hf.log, ⟨⟨w1.1, w1.2, w1.3⟩, w2, w3, by show d.w.out ++ h = _; rw [w4]⟩, hf.small, hf.avail, hf.dictEnd, hf.start, hf.look, hf.minLook, hf.toks, hf.blockStart, hf.blockLen, hf.head, hf.lit, hf.dist⟩

theorem Fresh.setLevel {srt : List Leaf → List Leaf} {base : List Byte} {d : Deflator} (hf : Fresh base d) {n : Int} (hn : 0 ≤ n ∧ n ≤ 9) : ∃ d', d.setLevel srt n = .ok d' ∧ Fresh base d' ∧ d'.log2 = d.log2 := by
  rw [Deflator.setLevel, if_neg (fun h => h hn)]
  by_cases he : n = d.level
  · rw [if_pos he]
    exact ⟨d, rfl, hf, rfl⟩
  · rw [if_neg he, endBlock, if_pos ⟨hf.blockLen, rfl⟩]
    exact ⟨_, rfl, ⟨hf.log, hf.w, hf.small, hf.avail, hf.dictEnd, hf.start, hf.look, hf.minLook, hf.toks, hf.blockStart, hf.blockLen, hf.head, hf.lit, hf.dist⟩, rfl⟩

section
variable {C : Coat κ τ} {view : κ → ι} {f : ι → τ → ι} {ok : τ → Prop} {first : ι} {Rep : κ → List Byte → Prop} {Hdr : Nat → List Byte → ι → Prop} {Tl : List Byte → List Byte → Prop}
  {srt : List Leaf → List Leaf}

theorem op_put {s t : Co κ} {b : Byte} {str : List Byte} {d : Deflator} (ht : s.touch C = t) (e : t.d.put2 srt (b :: str) false = .ok d) :
    s.op C srt (.data (.put (b :: str))) = .ok { t with d := d, x := C.absorb t.x (b :: str) } := by
  unfold Co.op
  dsimp only
  rw [ht, e]

theorem op_flush {s t : Co κ} {hard : Bool} {d : Deflator} (ht : s.touch C = t) (e : t.d.isolatedFlush srt hard = .ok d) :
    s.op C srt (.data (.flush hard)) = .ok { t with d := d } := by
  unfold Co.op
  dsimp only
  rw [ht, e]

theorem op_level {s : Co κ} {n : Int} {d : Deflator} (e : s.d.setLevel srt n = .ok d) : s.op C srt (.data (.setLevel n)) = .ok { s with d := d } := by
  unfold Co.op
  dsimp only
  rw [e]

theorem op_set {s : Co κ} {v : τ} {y : κ} (e : C.set s.x v = .ok y) : s.op C srt (.set v) = .ok { s with x := y } := by
  unfold Co.op
  dsimp only
  rw [e]

/-- After the header. -/
theorem ops_written (hC : CoatOk C view f ok first Rep Hdr Tl) (hs : IsSort srt) {base : List Byte} (os : List (COp τ)) : ∀ (s : Co κ) (inp : List Byte) (off : Nat) (bs : List Block), s.written = true → Live base inp off bs s.d →
    Rep s.x inp → (∀ o ∈ os, o.Ok ok) →
    ∃ t off' bs', Co.ops C srt s os = .ok t ∧ t.written = true ∧ Live base (inp ++ os.flatMap COp.bytes) off' bs' t.d ∧ Rep t.x (inp ++ os.flatMap COp.bytes) ∧ t.d.log2 = s.d.log2 := by
  induction os with
  | nil => intro s inp off bs hw hl hr _; exact ⟨s, off, bs, rfl, hw, by simpa using hl, by simpa using hr, rfl⟩
  | cons o os ih =>
    intro s inp off bs hw hl hr hok
    have ht : s.touch C = s := by rw [Co.touch, if_pos hw]
    have step : ∃ t off' bs', s.op C srt o = .ok t ∧ t.written = true ∧ Live base (inp ++ o.bytes) off' bs' t.d ∧ Rep t.x (inp ++ o.bytes) ∧ t.d.log2 = s.d.log2 := by
      have ho := hok o List.mem_cons_self
      rcases o with o | v
      on_goal 1 => rcases o with str | hard | n
      on_goal 1 => rcases str with _ | ⟨b, str⟩
      · exact ⟨s, off, bs, rfl, hw, by simpa [COp.bytes, Op.bytes] using hl, by simpa [COp.bytes, Op.bytes] using hr, rfl⟩
      · obtain ⟨d, off', bs', e, l, g, -⟩ := put_live hs hl (b :: str)
        exact ⟨_, off', bs', op_put ht e, hw, l, hC.absorb _ _ _ hr, g⟩
      · obtain ⟨d, off', bs', e, l, g⟩ := flush_live hs hl hard
        exact ⟨_, off', bs', op_flush ht e, hw, by rw [show COp.bytes (.data (.flush hard) : COp τ) = [] from rfl, List.append_nil]; exact l,
          by rw [show COp.bytes (.data (.flush hard) : COp τ) = [] from rfl, List.append_nil]; exact hr, g⟩
      · obtain ⟨d, bs', e, l, g⟩ := setLevel_live hs hl (n := n) ho
        exact ⟨_, off, bs', op_level e, hw, by rw [show COp.bytes (.data (.setLevel n) : COp τ) = [] from rfl, List.append_nil]; exact l,
          by rw [show COp.bytes (.data (.setLevel n) : COp τ) = [] from rfl, List.append_nil]; exact hr, g⟩
      · obtain ⟨y, e, -, h⟩ := hC.set s.x v ho
        exact ⟨_, off, bs, op_set e, hw, by rw [show COp.bytes (.set v : COp τ) = [] from rfl, List.append_nil]; exact hl,
          by rw [show COp.bytes (.set v : COp τ) = [] from rfl, List.append_nil]; exact h _ hr, rfl⟩
    obtain ⟨t, off', bs', e, h1, h2, h3, h4⟩ := step
    obtain ⟨u, off'', bs'', e', k1, k2, k3, k4⟩ := ih t _ off' bs' h1 h2 h3 fun o ho => hok o (List.mem_cons_of_mem _ ho)
    refine ⟨u, off'', bs'', by rw [Co.ops, e]; exact e', k1, ?_, ?_, by rw [k4, h4]⟩
    · rw [List.flatMap_cons, ← List.append_assoc]; exact k2
    · rw [List.flatMap_cons, ← List.append_assoc]; exact k3

/-- The header is written. -/
theorem touch_spec (hC : CoatOk C view f ok first Rep Hdr Tl) {base : List Byte} {s : Co κ} (hw : s.written = false) (hf : Fresh base s.d) :
    ∃ h, Hdr s.d.log2 h (view s.x) ∧ (s.touch C).written = true ∧ Fresh (base ++ h) (s.touch C).d ∧ Rep (s.touch C).x [] ∧ (s.touch C).d.log2 = s.d.log2 := by
  have e : s.touch C = { d := { s.d with w := s.d.w.putBytes (C.start s.x s.d).2 }, x := (C.start s.x s.d).1, written := true } := by
    rw [Co.touch, if_neg (by rw [hw]; decide)]
  obtain ⟨h1, h2⟩ := hC.start s.x s.d hf.log
  rw [e]
  exact ⟨_, h2, rfl, Fresh.putBytes hf, h1, rfl⟩

/-- The state during a message that began with the settings `i`. -/
def During (view : κ → ι) (Rep : κ → List Byte → Prop) (Hdr : Nat → List Byte → ι → Prop) (base : List Byte) (i : ι) (inp : List Byte) (s : Co κ) : Prop :=
  (s.written = false ∧ Fresh base s.d ∧ view s.x = i ∧ inp = []) ∨ (s.written = true ∧ ∃ h off bs, Hdr s.d.log2 h i ∧ Live (base ++ h) inp off bs s.d ∧ Rep s.x inp)

theorem ops_fresh (hC : CoatOk C view f ok first Rep Hdr Tl) (hs : IsSort srt) {base : List Byte} (os : List (COp τ)) : ∀ (s : Co κ), s.written = false → Fresh base s.d → (∀ o ∈ os, o.Ok ok) →
    ∃ t, Co.ops C srt s os = .ok t ∧ During view Rep Hdr base (settings f (view s.x) os) (os.flatMap COp.bytes) t ∧ t.d.log2 = s.d.log2 := by
  induction os with
  | nil => intro s hw hf _; exact ⟨s, rfl, .inl ⟨hw, hf, rfl, rfl⟩, rfl⟩
  | cons o os ih =>
    intro s hw hf hok
    have ho := hok o List.mem_cons_self
    have hrest : ∀ o ∈ os, o.Ok ok := fun o h => hok o (List.mem_cons_of_mem _ h)
    -- once the header is written
    have later : ∀ t : Co κ, s.op C srt o = .ok t → t.written = true → ∀ h off bs, Hdr t.d.log2 h (view s.x) → Live (base ++ h) o.bytes off bs t.d → Rep t.x o.bytes → t.d.log2 = s.d.log2 →
        settings f (view s.x) (o :: os) = view s.x → ∃ t, Co.ops C srt s (o :: os) = .ok t ∧
          During view Rep Hdr base (settings f (view s.x) (o :: os)) ((o :: os).flatMap COp.bytes) t ∧ t.d.log2 = s.d.log2 := by
      intro t e k1 h off bs k2 k3 k4 k5 k6
      obtain ⟨u, off', bs', e', l1, l2, l3, l4⟩ := ops_written hC hs os t _ off bs k1 k3 k4 hrest
      refine ⟨u, by rw [Co.ops, e]; exact e', .inr ⟨l1, h, off', bs', by rw [l4, k6]; exact k2, by rw [List.flatMap_cons]; exact l2, by rw [List.flatMap_cons]; exact l3⟩, by rw [l4, k5]⟩
    rcases o with o | v
    on_goal 1 => rcases o with str | hard | n
    on_goal 1 => rcases str with _ | ⟨b, str⟩
    · exact ih s hw hf hrest
    · obtain ⟨h, k1, k2, k3, k4, k5⟩ := touch_spec hC hw hf
      obtain ⟨d, off', bs', e, l, g, -⟩ := put_live hs k3.live (b :: str)
      rw [List.nil_append] at l
      have hr := hC.absorb _ _ (b :: str) k4
      exact later _ (op_put rfl e) k2 h off' bs' (by show Hdr d.log2 _ _; rw [g, k5]; exact k1) l hr (g.trans k5) rfl
    · obtain ⟨h, k1, k2, k3, k4, k5⟩ := touch_spec hC hw hf
      obtain ⟨d, off', bs', e, l, g⟩ := flush_live hs k3.live hard
      exact later _ (op_flush rfl e) k2 h off' bs' (by show Hdr d.log2 _ _; rw [g, k5]; exact k1) l k4 (g.trans k5) rfl
    · obtain ⟨d, e, l, g⟩ := Fresh.setLevel (srt := srt) hf (n := n) ho
      obtain ⟨u, e', k, k'⟩ := ih { s with d := d } hw l hrest
      exact ⟨u, by rw [Co.ops, op_level e]; exact e', k, k'.trans g⟩
    · obtain ⟨y, e, e2, -⟩ := hC.set s.x v ho
      obtain ⟨u, e', k, k'⟩ := ih { s with x := y } hw hf hrest
      refine ⟨u, by rw [Co.ops, op_set e]; exact e', ?_, k'⟩
      rw [settings, ← e2]
      exact k

theorem finish_spec (hC : CoatOk C view f ok first Rep Hdr Tl) (hs : IsSort srt) {base : List Byte} {i : ι} {inp : List Byte} {s : Co κ} (hd : During view Rep Hdr base i inp s) (last : List Byte) :
    ∃ t h st tl, s.finish C srt last = .ok t ∧ Hdr s.d.log2 h i ∧ IsDeflate st (inp ++ last) ∧ Tl (inp ++ last) tl ∧ t.written = false ∧ Fresh (base ++ (h ++ st ++ tl)) t.d ∧ view t.x = first ∧
      t.d.log2 = s.d.log2 := by
  have h0 : ∃ h off bs, Hdr s.d.log2 h i ∧ Live (base ++ h) inp off bs (s.touch C).d ∧ Rep (s.touch C).x inp ∧ (s.touch C).d.log2 = s.d.log2 := by
    rcases hd with ⟨k1, k2, k3, rfl⟩ | ⟨k1, h, off, bs, k2, k3, k4⟩
    · obtain ⟨h, l1, l2, l3, l4, l5⟩ := touch_spec hC k1 k2
      rw [k3] at l1
      exact ⟨h, 0, [], l1, l3.live, l4, l5⟩
    · have ht : s.touch C = s := by rw [Co.touch, if_pos k1]
      rw [ht]
      exact ⟨h, off, bs, k2, k3, k4, rfl⟩
  obtain ⟨h, off, bs, k1, k2, k3, k4⟩ := h0
  obtain ⟨d1, off1, bs1, e1, l1, g1, -⟩ := put_live hs k2 last
  obtain ⟨d2, st, bs2, b, pad, e2, fr, g2, hpad, hx, hp, -⟩ := end_live hs l1
  obtain ⟨y, tl, e3, ht, hv⟩ := hC.finish _ _ (hC.absorb _ _ last k3)
  refine ⟨{ d := { d2 with w := d2.w.putBytes tl }, x := y, written := false }, h, st, tl, ?_, k1, ⟨bs2 ++ [b], pad, by simp, hpad, hx, hp⟩, ht, rfl, ?_, hv, ?_⟩
  · rw [Co.finish]
    rw [put2_true, e1]
    show (match d1.put2 srt [] true with | .error e => _ | .ok d => _) = _
    rw [e2]
    dsimp only
    rw [e3]
  · have := Fresh.putBytes (h := tl) fr
    simpa only [List.append_assoc] using this
  · show d2.log2 = _
    rw [g2, g1, k4]

theorem co_messages (hC : CoatOk C view f ok first Rep Hdr Tl) (hs : IsSort srt) (ms : List (List (COp τ) × List Byte)) : ∀ (base : List Byte) (s : Co κ), s.written = false → Fresh base s.d → view s.x = first →
    (∀ m ∈ ms, ∀ o ∈ m.1, o.Ok ok) → ∃ xs, Co.messages C srt s ms = .ok xs ∧
      List.Forall₂ (fun m x => ∃ h st tl, Hdr s.d.log2 h (settings f first m.1) ∧ IsDeflate st (m.1.flatMap COp.bytes ++ m.2) ∧ Tl (m.1.flatMap COp.bytes ++ m.2) tl ∧ x = h ++ st ++ tl) ms xs := by
  induction ms with
  | nil => intro base s _ _ _ _; exact ⟨[], rfl, .nil⟩
  | cons m ms ih =>
    intro base s hw hf hv hok
    obtain ⟨t, e, k1, k2⟩ := ops_fresh hC hs m.1 s hw hf (hok m List.mem_cons_self)
    obtain ⟨u, h, st, tl, e', l1, l2, l3, l4, l5, l6, l7⟩ := finish_spec hC hs k1 m.2
    obtain ⟨xs, e'', h3⟩ := ih _ u l4 l5 l6 fun m hm => hok m (List.mem_cons_of_mem _ hm)
    rw [hv] at l1
    rw [k2] at l1 l7
    rw [l7] at h3
    refine ⟨_ :: xs, ?_, .cons ⟨h, st, tl, l1, l2, l3, rfl⟩ h3⟩
    rw [Co.messages, e]
    dsimp only
    rw [e']
    dsimp only
    rw [e'']
    dsimp only
    rw [l5.w.2.2.2, hf.w.2.2.2, List.drop_left]

/-- A new object: what becomes of each message. -/
theorem compress_spec (hC : CoatOk C view f ok first Rep Hdr Tl) (hs : IsSort srt) (x : κ) (hx : view x = first) (j : Junk) {level log2 : Int} (detect : Bool) (hl : 0 ≤ level ∧ level ≤ 9)
    (hw : 9 ≤ log2 ∧ log2 ≤ 15) (ms : List (List (COp τ) × List Byte)) (hok : ∀ m ∈ ms, ∀ o ∈ m.1, o.Ok ok) :
    ∃ xs, C.compress srt x j level log2 detect ms = .ok xs ∧
      List.Forall₂ (fun m x => ∃ h st tl, Hdr log2.toNat h (settings f first m.1) ∧ IsDeflate st (m.1.flatMap COp.bytes ++ m.2) ∧ Tl (m.1.flatMap COp.bytes ++ m.2) tl ∧ x = h ++ st ++ tl) ms xs := by
  obtain ⟨d, e, hf, hd, -⟩ := new_fresh (j := j) (detect := detect) hl hw
  have hlog : d.log2 = log2.toNat := by
    rw [Deflator.new, if_neg (fun h => h hw), if_neg (fun h => h hl)] at e
    cases e
    rfl
  obtain ⟨xs, e', h⟩ := co_messages hC hs ms [] { d := d, x := x } rfl hf hx hok
  refine ⟨xs, by rw [Coat.compress, e]; exact e', ?_⟩
  dsimp only at h
  rw [hlog] at h
  exact h

end

/-! ## gzip -/

/-- `some` of what is not empty. -/
def present (n : List Byte) : Option (List Byte) := if n.isEmpty then none else some n

/-- The header for these settings. -/
def headerOf (os xf : Byte) (i : Info) : Spec.Header := ⟨false, i.time, xf, os, none, present i.name, present i.comment, none⟩

theorem present_getD (n : List Byte) : (present n).getD [] = n := by cases n <;> rfl

theorem infoOf_headerOf (os xf : Byte) (i : Info) : infoOf (headerOf os xf i) = i := by
  obtain ⟨t, n, c⟩ := i
  simp only [infoOf, headerOf, present_getD]

/-- What a call sets. -/
def setInfo (i : Info) : Setter → Info
  | .time t => { i with time := t % 2 ^ 32 }
  | .name n _ => { i with name := n }
  | .comment n _ => { i with comment := n }

/-- What is set is accepted, and contains no zero byte. -/
def Setter.Ok : Setter → Prop
  | .time _ => True
  | .name n check => (check = true → n.all is8859) ∧ 0 ∉ n
  | .comment n check => (check = true → n.all is8859) ∧ 0 ∉ n

theorem gzStart_bytes (os : Byte) (s : Gz) (d : Deflator) : ∃ xf, (gzStart os s d).2 = (headerOf os xf s.info).bytes := by
  refine ⟨if d.level = 1 then 4 else if d.level = 9 then 2 else 0, ?_⟩
  obtain ⟨_, _, ⟨t, n, c⟩⟩ := s
  rcases n with _ | ⟨a, n⟩ <;> rcases c with _ | ⟨b, c⟩ <;>
    simp [gzStart, Spec.Header.bytes, Spec.Header.plain, Spec.Header.flags, headerOf, present, zeroEnded, extraField]

theorem gzip_ok (o : ByteOrder) (os : Byte) : ∃ Rep, CoatOk (gzip o os) Gz.info setInfo Setter.Ok {} Rep (fun _ b i => ∃ xf, b = (headerOf os xf i).bytes) IsTail := by
  obtain ⟨H, Rep, hC, hH⟩ := crc32_ok o
  refine ⟨fun g m => Rep g.crc m ∧ g.total = m.length % 2 ^ 32, ⟨?_, ?_, ?_, ?_⟩⟩
  · intro x d _
    exact ⟨⟨hC.init, rfl⟩, gzStart_bytes os x d⟩
  · rintro x m d ⟨h1, h2⟩
    refine ⟨hC.update _ _ _ _ h1, ?_⟩
    show (x.total + d.length) % 2 ^ 32 = _
    rw [h2, List.length_append, Nat.mod_add_mod]
  · intro x v hv
    cases v with
    | time t => exact ⟨_, rfl, rfl, fun _ h => h⟩
    | name n check =>
      refine ⟨{ x with info := { x.info with name := n } }, ?_, rfl, fun _ h => h⟩
      show gzSet x (.name n check) = _
      rw [gzSet, if_neg]
      intro h
      rw [Bool.and_eq_true] at h
      rw [hv.1 h.1] at h
      exact absurd h.2 (by decide)
    | comment n check =>
      refine ⟨{ x with info := { x.info with comment := n } }, ?_, rfl, fun _ h => h⟩
      show gzSet x (.comment n check) = _
      rw [gzSet, if_neg]
      intro h
      rw [Bool.and_eq_true] at h
      rw [hv.1 h.1] at h
      exact absurd h.2 (by decide)
  · rintro x m ⟨h1, h2⟩
    obtain ⟨r, e1, e2⟩ := hC.final x.crc m 4 h1 (Nat.le_refl _)
    rw [List.take_of_length_le (by have := (hH m).1; omega)] at e1
    refine ⟨{ x with crc := r, info := {} }, H m ++ leBytes 4 x.total, ?_, ⟨H m, hH m, by rw [h2]⟩, rfl⟩
    show gzFinish o x = _
    rw [gzFinish, e1]
    rfl

/-- Settings that come from accepted calls make a valid header. -/
structure Info.Ok (i : Info) : Prop where
  time : i.time < 2 ^ 32
  name : 0 ∉ i.name
  comment : 0 ∉ i.comment

theorem settings_ok (os : List (COp Setter)) : ∀ i : Info, i.Ok → (∀ o ∈ os, o.Ok Setter.Ok) → (settings setInfo i os).Ok := by
  induction os with
  | nil => intro i h _; exact h
  | cons o os ih =>
    intro i h hok
    have hrest : ∀ o ∈ os, o.Ok Setter.Ok := fun o ho => hok o (List.mem_cons_of_mem _ ho)
    have ho := hok o List.mem_cons_self
    rcases o with o | v
    · rcases o with str | hard | n
      · cases str with
        | nil => exact ih i h hrest
        | cons b str => exact h
      · exact h
      · exact ih i h hrest
    · refine ih _ ?_ hrest
      cases v with
      | time t => exact ⟨Nat.mod_lt _ (by decide), h.name, h.comment⟩
      | name n check => exact ⟨h.time, ho.2, h.comment⟩
      | comment n check => exact ⟨h.time, h.name, ho.2⟩

theorem headerOf_valid (os xf : Byte) {i : Info} (h : i.Ok) : (headerOf os xf i).Valid where
  time := h.time
  extra := fun e he => nomatch he
  name := fun n hn => by
    have : (present i.name).getD [] = n := by rw [show present i.name = some n from hn]; rfl
    rw [present_getD] at this
    rw [← this]; exact h.name
  comment := fun n hn => by
    have : (present i.comment).getD [] = n := by rw [show present i.comment = some n from hn]; rfl
    rw [present_getD] at this
    rw [← this]; exact h.comment
  crc := fun c hc => nomatch hc

theorem zeroEnded_length (n : List Byte) : (zeroEnded (present n)).length ≤ n.length + 1 := by
  cases n <;> simp [present, zeroEnded]

theorem headerOf_length (os xf : Byte) (i : Info) : (headerOf os xf i).bytes.length ≤ 12 + i.name.length + i.comment.length := by
  have h1 := zeroEnded_length i.name
  have h2 := zeroEnded_length i.comment
  simp only [Spec.Header.bytes, Spec.Header.plain, headerOf, extraField, Option.getD_none, List.append_nil, List.length_append, List.length_cons, List.length_nil, leBytes_length]
  omega

/-! ## zlib -/

theorem beBytes_two (n : Nat) : beBytes 2 n = [BitVec.ofNat 8 (n / 256), BitVec.ofNat 8 n] := by
  simp [beBytes, leBytes]

theorem zLevel_le (n : Nat) : zCompressionLevel n ≤ 3 := by
  unfold zCompressionLevel
  by_cases h : n < 10
  · have : ∀ k : Fin 10, [0, 1, 1, 1, 2, 2, 2, 2, 2, 3].getD k.val 0 ≤ 3 := by decide
    exact this ⟨n, h⟩
  · rw [List.getD_eq_getElem?_getD, List.getElem?_eq_none (by simp; omega)]; simp

theorem zStart_spec (d : Deflator) (h : 9 ≤ d.log2 ∧ d.log2 ≤ 15) : IsZHeader d.log2 (zStart d) := by
  have hl := zLevel_le d.level
  unfold zStart
  generalize zCompressionLevel d.level = l at hl
  generalize d.log2 = w at h
  have key : ∀ w : Fin 16, ∀ l : Fin 4, 9 ≤ w.val → let n := zRoundUp ((8 ||| ((w.val - 8) <<< 4)) * 256 + l.val <<< 6) 31
      (BitVec.ofNat 8 (n / 256) : Byte).toNat % 16 = 8 ∧ (BitVec.ofNat 8 (n / 256) : Byte).toNat / 16 + 8 = w.val ∧
        ((BitVec.ofNat 8 (n / 256) : Byte).toNat * 256 + (BitVec.ofNat 8 n : Byte).toNat) % 31 = 0 ∧ (BitVec.ofNat 8 n : Byte).toNat / 32 % 2 = 0 := by decide +kernel
  have := key ⟨w, by omega⟩ ⟨l, by omega⟩ h.1
  exact ⟨_, _, beBytes_two _, this⟩

theorem zlib_ok (W : Nat) (hW : 32 ≤ W) : CoatOk (zlib W) (fun _ => ()) (fun _ _ => ()) (fun _ => True) () adlerRep (fun log2 b _ => IsZHeader log2 b) (fun m t => t = adlerDigest m) := by
  have hC := Checksum.adler_computes W hW
  have hlen : ∀ m, (adlerDigest m).length = 4 := fun m => by simp [adlerDigest]
  refine ⟨fun x d hd => ⟨hC.init, zStart_spec d hd⟩, fun x m d h => hC.update x m 0 d h, (fun _ v => nomatch v), fun x m h => ?_⟩
  obtain ⟨r, e1, e2⟩ := hC.final x m 4 h (Nat.le_refl _)
  rw [List.take_of_length_le (by have := hlen m; omega)] at e1
  exact ⟨r, _, e1, rfl, rfl⟩

end Verif.Gzip
