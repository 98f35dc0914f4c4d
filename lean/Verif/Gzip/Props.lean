import Verif.Gzip.CoProofs

/-!
# C65: `Gunzip` inverts `Gzip`, and `ZlibDecompressor` inverts `ZlibCompressor`

`spy` is how many bytes `ByteQueue::Spy` offers at once, `srt` what `std::sort` does, `Junk` the memory that is not initialised: of these only what is needed is assumed, as in C36.
-/
namespace Verif.Gzip

open Verif.Flate
open Verif.Gzip.Spec (IsTail IsMember IsZHeader IsZlib zeroEnded extraField)
open Verif.Checksum (adlerDigest)

/-- A new `Gunzip` (`repeat` given), these calls and a last `Put` with the message end: what it delivers, and what its `GetFiletime`, `GetFilename` and `GetComment` return. -/
def gunzipRun (o : ByteOrder) (spy : List Byte → Nat) (rep : Bool) (cs : List Call) (last : List Byte) : Except Err (List Byte × Info) :=
  ((gunzip o).decompress spy {} rep cs last).map fun t => (t.out, t.x.info)

/-- The same for `ZlibDecompressor`. -/
def zunlibRun (W : Nat) (spy : List Byte → Nat) (rep : Bool) (cs : List Call) (last : List Byte) : Except Err (List Byte) :=
  ((zunlib W).decompress spy (1, 0) rep cs last).map fun t => t.out

/-- A new `Gzip` and some messages, each some calls and a last `Put` with the message end: what each becomes. -/
def gzipRun (o : ByteOrder) (os : Byte) (srt : List Leaf → List Leaf) (j : Junk) (level log2 : Int) (detect : Bool) (ms : List (List (COp Setter) × List Byte)) : Except Err (List (List Byte)) :=
  (gzip o os).compress srt {} j level log2 detect ms

/-- The same for `ZlibCompressor`. -/
def zlibRun (W : Nat) (srt : List Leaf → List Leaf) (j : Junk) (level log2 : Int) (detect : Bool) (ms : List (List (COp Empty) × List Byte)) : Except Err (List (List Byte)) :=
  (zlib W).compress srt (1, 0) j level log2 detect ms

/-- The message. -/
def message {τ : Type} (m : List (COp τ) × List Byte) : List Byte := m.1.flatMap COp.bytes ++ m.2

/-! ## Decompression of the standard formats -/

theorem map_ok {α β : Type} {r : Except Err α} {g : α → β} {t : α} (h : r = .ok t) : r.map g = .ok (g t) := by rw [h]; rfl

/-- Every member of a gzip file without header checksum is decompressed, however it is divided among the calls; what follows it is passed on unchanged, if `repeat` is false. A header of more than 1024
bytes must come in one piece with all the rest. -/
theorem gunzip_reads_member (o : ByteOrder) {spy : List Byte → Nat} (hspy : SpyOk spy) {h : Spec.Header} {m x R : List Byte} (hx : IsMember h m x) (hc : h.headerCrc = none) (cs : List Call) (last : List Byte)
    (hcs : cs.flatMap Call.bytes ++ last = x ++ R) (hl : cs = [] ∨ h.bytes.length ≤ 1024) : gunzipRun o spy false cs last = .ok (m ++ R, infoOf h) := by
  obtain ⟨hv, s, t, hs, ht, rfl⟩ := hx
  obtain ⟨Rep, hB⟩ := gunzip_ok o
  have htl : t.length = 8 := by obtain ⟨c, hc, rfl⟩ := ht; rw [List.length_append, hc.1, leBytes_length]
  have hr : Reads (gunzip o).maxTail GHdr IsTail false (fun n => cs = [] ∨ n ≤ 1024) (h.bytes ++ (s ++ (t ++ R))) (some (m ++ R, infoOf h)) :=
    .mk h.bytes (infoOf h) s m t R _ ⟨h, hv, hc, rfl, rfl⟩ hl hs htl (.one m t R _ rfl ht)
  obtain ⟨u, e1, e2, e3⟩ := decompress_spec hB hspy hr {} cs last (by simpa only [List.append_assoc] using hcs) (fun hne n hn => hn.resolve_left hne) (fun h => nomatch h)
  rw [gunzipRun, map_ok e1, e2, e3]

/-- Several members, one after the other. -/
structure Mem where
  header : Spec.Header
  msg : List Byte
  bytes : List Byte

theorem file_reads (o : ByteOrder) {lim : Nat → Prop} (ms : List Mem) (hne : ms ≠ []) : (∀ k ∈ ms, IsMember k.header k.msg k.bytes ∧ k.header.headerCrc = none ∧ lim k.header.bytes.length) →
    Reads (gunzip o).maxTail GHdr IsTail true lim (ms.flatMap Mem.bytes) (some (ms.flatMap Mem.msg, infoOf (ms.getLast hne).header)) := by
  induction ms with
  | nil => exact absurd rfl hne
  | cons k ms ih =>
    intro hall
    obtain ⟨⟨hv, s, t, hs, ht, hb⟩, hc, hl⟩ := hall k List.mem_cons_self
    have htl : t.length = (gunzip o).maxTail := by obtain ⟨c, hc, rfl⟩ := ht; rw [List.length_append, hc.1, leBytes_length]; rfl
    by_cases h : ms = []
    · subst h
      rw [List.flatMap_cons, List.flatMap_cons, List.flatMap_nil, List.flatMap_nil, hb, List.append_nil, List.append_nil, List.append_assoc, ← List.append_nil t]
      exact .mk _ _ s k.msg t [] _ ⟨k.header, hv, hc, rfl, rfl⟩ hl hs htl (.stop _ _ _ rfl ht)
    · have hr := ih h fun k hk => hall k (List.mem_cons_of_mem _ hk)
      rw [List.flatMap_cons, List.flatMap_cons, hb, List.getLast_cons h, List.append_assoc, List.append_assoc]
      exact .mk _ _ s k.msg t _ _ ⟨k.header, hv, hc, rfl, rfl⟩ hl hs htl (.next _ _ _ _ _ rfl ht hr)

/-- With `repeat` a file of one or more members becomes the messages one after the other, if the message end comes with the last bytes. -/
theorem gunzip_reads_file (o : ByteOrder) {spy : List Byte → Nat} (hspy : SpyOk spy) (ms : List Mem) (hne : ms ≠ []) (hms : ∀ k ∈ ms, IsMember k.header k.msg k.bytes ∧ k.header.headerCrc = none)
    (cs : List Call) (last : List Byte) (hcs : cs.flatMap Call.bytes ++ last = ms.flatMap Mem.bytes) (hl : cs = [] ∨ ∀ k ∈ ms, k.header.bytes.length ≤ 1024) (hlast : last ≠ []) :
    gunzipRun o spy true cs last = .ok (ms.flatMap Mem.msg, infoOf (ms.getLast hne).header) := by
  obtain ⟨Rep, hB⟩ := gunzip_ok o
  have hr := file_reads o (lim := fun n => cs = [] ∨ n ≤ 1024) ms hne fun k hk => ⟨(hms k hk).1, (hms k hk).2, hl.imp id fun h => h k hk⟩
  obtain ⟨u, e1, e2, e3⟩ := decompress_spec hB hspy hr {} cs last hcs (fun hne n hn => hn.resolve_left hne) (fun _ => hlast)
  rw [gunzipRun, map_ok e1, e2, e3]

/-- A wrong checksum or length after the stream is an error, whatever follows. -/
theorem gunzip_rejects_wrong_tail (o : ByteOrder) {spy : List Byte → Nat} (hspy : SpyOk spy) (rep : Bool) {h : Spec.Header} (hv : h.Valid) (hc : h.headerCrc = none) {s m t R : List Byte} (hs : IsDeflate s m)
    (ht : t.length = 8) (hbad : ¬ IsTail m t) (cs : List Call) (last : List Byte) (hcs : cs.flatMap Call.bytes ++ last = h.bytes ++ s ++ t ++ R) (hl : cs = [] ∨ h.bytes.length ≤ 1024)
    (hlast : rep = true → last ≠ []) : gunzipRun o spy rep cs last = .error .other := by
  obtain ⟨Rep, hB⟩ := gunzip_ok o
  have hr : Reads (gunzip o).maxTail GHdr IsTail rep (fun n => cs = [] ∨ n ≤ 1024) (h.bytes ++ (s ++ (t ++ R))) none :=
    .mk h.bytes (infoOf h) s m t R _ ⟨h, hv, hc, rfl, rfl⟩ hl hs ht (.bad m t R _ hbad)
  have e := decompress_spec hB hspy hr {} cs last (by simpa only [List.append_assoc] using hcs) (fun hne n hn => hn.resolve_left hne) hlast
  rw [gunzipRun, e]
  rfl

/-- Every zlib stream with a window of 2^15 is decompressed. Streams with a smaller one are not modelled. -/
theorem zunlib_reads_partial {W : Nat} (hW : 32 ≤ W) {spy : List Byte → Nat} (hspy : SpyOk spy) {m x R : List Byte} (hx : IsZlib 15 m x) (cs : List Call) (last : List Byte)
    (hcs : cs.flatMap Call.bytes ++ last = x ++ R) : zunlibRun W spy false cs last = .ok (m ++ R) := by
  obtain ⟨h, s, hh, hs, rfl⟩ := hx
  have hB := zunlib_ok W hW
  have hr : Reads (zunlib W).maxTail (fun b (_ : Unit) => IsZHeader 15 b) (fun m t => t = adlerDigest m) false (fun n => n ≤ 2) (h ++ (s ++ (adlerDigest m ++ R))) (some (m ++ R, ())) :=
    .mk h () s m _ R _ hh (by obtain ⟨a, b, rfl, -⟩ := hh; exact Nat.le_refl 2) hs (by simp [adlerDigest]; rfl) (.one m _ R _ rfl rfl)
  obtain ⟨u, e1, e2, e3⟩ := decompress_spec hB hspy hr (1, 0) cs last (by simpa only [List.append_assoc] using hcs) (fun _ _ h => h) (fun h => nomatch h)
  rw [zunlibRun, map_ok e1, e2]

theorem zunlib_rejects_wrong_tail_partial {W : Nat} (hW : 32 ≤ W) {spy : List Byte → Nat} (hspy : SpyOk spy) (rep : Bool) {h s m t R : List Byte} (hh : IsZHeader 15 h) (hs : IsDeflate s m) (ht : t.length = 4)
    (hbad : t ≠ adlerDigest m) (cs : List Call) (last : List Byte) (hcs : cs.flatMap Call.bytes ++ last = h ++ s ++ t ++ R) (hlast : rep = true → last ≠ []) :
    zunlibRun W spy rep cs last = .error .other := by
  have hB := zunlib_ok W hW
  have hr : Reads (zunlib W).maxTail (fun b (_ : Unit) => IsZHeader 15 b) (fun m t => t = adlerDigest m) rep (fun n => n ≤ 2) (h ++ (s ++ (t ++ R))) none :=
    .mk h () s m t R _ hh (by obtain ⟨a, b, rfl, -⟩ := hh; exact Nat.le_refl 2) hs ht (.bad m t R _ hbad)
  have e := decompress_spec hB hspy hr (1, 0) cs last (by simpa only [List.append_assoc] using hcs) (fun _ _ h => h) hlast
  rw [zunlibRun, e]
  rfl

theorem calls_bad_header {σ : Type} (B : Box σ) (spy : List Byte → Nat) {e : Err} (cs : List Call) : ∀ (s : Un σ) (last : List Byte), s.inf.phase = .preStream →
    (∀ q, q <+: s.inf.rd.queue ++ (cs.flatMap Call.bytes ++ last) → B.maxHeader ≤ q.length ∨ q = s.inf.rd.queue ++ (cs.flatMap Call.bytes ++ last) → B.header q = .error e) →
    (match Un.calls B spy s cs with | .error e => .error e | .ok s => s.put B spy last true) = (.error e : Except Err (Un σ)) := by
  induction cs with
  | nil =>
    intro s last hp hq
    have := hq (s.inf.rd.queue ++ last) (List.prefix_refl _) (.inr rfl)
    simp [Un.calls, Un.put, Un.processInput, hp, this]
  | cons c cs ih =>
    intro s last hp hq
    cases c with
    | put d =>
      by_cases h : (s.inf.rd.queue ++ d).length < B.maxHeader
      · have e1 : s.put B spy d false = .ok { s with inf := { s.inf with rd := { s.inf.rd with queue := s.inf.rd.queue ++ d } } } := by
          have h' : s.inf.rd.queue.length + d.length < B.maxHeader := by simpa using h
          simp [Un.put, Un.processInput, hp, h']
        rw [Un.calls, e1]
        exact ih _ last hp (by simpa [Call.bytes] using hq)
      · have := hq (s.inf.rd.queue ++ d) ⟨cs.flatMap Call.bytes ++ last, by simp [Call.bytes]⟩ (.inl (by omega))
        have h' : ¬ s.inf.rd.queue.length + d.length < B.maxHeader := by simpa using h
        simp [Un.calls, Un.put, Un.processInput, hp, this, h']
    | softFlush =>
      rw [Un.calls]
      have e1 : (s.softFlush B).inf.rd = s.inf.rd := by simp [Un.softFlush, Un.next, Inf.flushOutput]; split <;> rfl
      exact ih _ last ((flushOutput_phase s.inf).trans hp) (by rw [e1]; simpa [Call.bytes] using hq)

/-- `ZlibDecompressor` rejects what does not begin with a header of RFC 1950: the first two bytes, as a number, no multiple of 31, another method than deflate, or a preset dictionary. -/
theorem zunlib_rejects_bad_header (W : Nat) (spy : List Byte → Nat) (rep : Bool) (cmf flg : Byte) (R : List Byte)
    (hbad : (cmf.toNat * 256 + flg.toNat) % 31 ≠ 0 ∨ cmf.toNat % 16 ≠ 8 ∨ flg.toNat / 32 % 2 = 1) (cs : List Call) (last : List Byte)
    (hcs : cs.flatMap Call.bytes ++ last = [cmf, flg] ++ R) : zunlibRun W spy rep cs last = .error .invalidDataFormat := by
  have key : (zunlib W).decompress spy (1, 0) rep cs last = .error .invalidDataFormat := by
    refine calls_bad_header (zunlib W) spy cs { x := (1, 0), rep := rep } last rfl fun q hq hl => ?_
    obtain ⟨r, hr⟩ : ∃ r, q = [cmf, flg] ++ r := by
      have hq' : q <+: [cmf, flg] ++ R := by rw [← hcs]; exact hq
      have h2 : 2 ≤ q.length := by
        rcases hl with hl | rfl
        · exact hl
        · show 2 ≤ ([] ++ (cs.flatMap Call.bytes ++ last)).length
          rw [hcs]; simp
      match q, h2 with
      | a :: b :: q, _ =>
        obtain ⟨t, ht⟩ := hq'
        simp only [List.cons_append, List.cons.injEq, List.nil_append] at ht
        exact ⟨q, by rw [ht.1, ht.2.1]; rfl⟩
    subst hr
    show zunHeader _ = _
    have z1 := zbytes.1 cmf
    have z3 := zflag flg
    simp only [zunHeader, getByte, List.cons_append, bind, Except.bind]
    by_cases h1 : (cmf.toNat * 256 + flg.toNat) % 31 = 0
    · rw [if_neg (by simpa using h1)]
      by_cases h2 : cmf.toNat % 16 = 8
      · rw [if_neg (by rw [z1, h2]; decide), if_pos (by rw [z3]; simpa using (hbad.resolve_left (by simpa using h1)).resolve_left (by simpa using h2))]
      · rw [if_pos]
        rw [z1]
        intro h
        exact h2 (by have := congrArg BitVec.toNat h; simpa [BitVec.toNat_ofNat, Nat.mod_eq_of_lt (show cmf.toNat % 16 < 256 by omega)] using this)
    · rw [if_pos h1]
  rw [zunlibRun, key]
  rfl

/-- `Gunzip` rejects what does not begin with the magic numbers of RFC 1952, has another method than deflate, or says that it continues another file or is encrypted. -/
theorem gunzip_rejects_bad_header (o : ByteOrder) (spy : List Byte → Nat) (rep : Bool) (a b c f : Byte) (R : List Byte)
    (hbad : a ≠ 0x1f ∨ b ≠ 0x8b ∨ c ≠ 8 ∨ f.toNat / 2 % 2 = 1 ∨ f.toNat / 32 % 2 = 1) (cs : List Call) (last : List Byte)
    (hcs : cs.flatMap Call.bytes ++ last = [a, b, c, f] ++ R) : gunzipRun o spy rep cs last = .error .invalidDataFormat := by
  have key : (gunzip o).decompress spy {} rep cs last = .error .invalidDataFormat := by
    refine calls_bad_header (gunzip o) spy cs { x := {}, rep := rep } last rfl fun q hq hl => ?_
    obtain ⟨r, hr⟩ : ∃ r, q = [a, b, c, f] ++ r := by
      have hq' : q <+: [a, b, c, f] ++ R := by rw [← hcs]; exact hq
      have h2 : 4 ≤ q.length := by
        rcases hl with hl | rfl
        · exact Nat.le_trans (show 4 ≤ 1024 by decide) hl
        · show 4 ≤ ([] ++ (cs.flatMap Call.bytes ++ last)).length
          rw [hcs]; simp
      match q, h2 with
      | a' :: b' :: c' :: f' :: q, _ =>
        obtain ⟨t, ht⟩ := hq'
        simp only [List.cons_append, List.cons.injEq, List.nil_append] at ht
        exact ⟨q, by rw [ht.1, ht.2.1, ht.2.2.1, ht.2.2.2.1]; rfl⟩
    subst hr
    show gunHeader _ = _
    have z : ∀ f : Byte, f.toNat / 2 % 2 = 1 ∨ f.toNat / 32 % 2 = 1 → flag f (32 ||| 2) = true := by decide +kernel
    simp only [gunHeader, getByte, getBytes, List.cons_append, bind, Except.bind, List.length_cons, List.take_succ_cons, List.take_zero, List.drop_succ_cons, List.drop_zero, List.nil_append]
    rw [if_neg (by omega)]
    dsimp only
    by_cases h1 : a = 0x1f ∧ b = 0x8b
    · obtain ⟨rfl, rfl⟩ := h1
      rw [if_neg (by simp)]
      by_cases h2 : c = 8
      · rw [if_neg (by simpa using h2), if_pos (z f (((hbad.resolve_left (by simp)).resolve_left (by simp)).resolve_left (by simpa using h2)))]
      · rw [if_pos h2]
    · rw [if_pos (by simpa using h1)]
  rw [gunzipRun, key]
  rfl

/-! ## Compression -/

theorem forall2_imp_mem {α β : Type} {P : α → Prop} {R S : α → β → Prop} {as : List α} {bs : List β} (h : List.Forall₂ R as bs) (hp : ∀ a ∈ as, P a) (hi : ∀ a b, P a → R a b → S a b) : List.Forall₂ S as bs := by
  induction h with
  | nil => exact .nil
  | cons h t ih => exact .cons (hi _ _ (hp _ List.mem_cons_self) h) (ih fun a ha => hp a (List.mem_cons_of_mem _ ha))

section
variable {srt : List Leaf → List Leaf} (hsrt : IsSort srt)
include hsrt

/-- Each message given to a `Gzip` becomes a member of RFC 1952 whose header says what was set for this message before its first data. -/
theorem gzip_writes_members (o : ByteOrder) (os : Byte) (j : Junk) {level log2 : Int} (detect : Bool) (hl : 0 ≤ level ∧ level ≤ 9) (hw : 9 ≤ log2 ∧ log2 ≤ 15) (ms : List (List (COp Setter) × List Byte))
    (hok : ∀ m ∈ ms, ∀ p ∈ m.1, p.Ok Setter.Ok) : ∃ xs, gzipRun o os srt j level log2 detect ms = .ok xs ∧
      List.Forall₂ (fun m x => ∃ xf, IsMember (headerOf os xf (settings setInfo {} m.1)) (message m) x) ms xs := by
  obtain ⟨Rep, hC⟩ := gzip_ok o os
  obtain ⟨xs, e, h⟩ := compress_spec hC hsrt {} rfl j detect hl hw ms hok
  refine ⟨xs, e, forall2_imp_mem h hok ?_⟩
  rintro m x hm ⟨h, st, tl, ⟨xf, rfl⟩, h2, h3, rfl⟩
  exact ⟨xf, headerOf_valid os xf (settings_ok m.1 {} ⟨by decide, by simp, by simp⟩ hm), st, tl, h2, h3, rfl⟩

/-- `Gunzip` returns every message, and the settings; what follows it is passed on. -/
theorem gunzip_inverts_gzip (o o' : ByteOrder) (os : Byte) {spy : List Byte → Nat} (hspy : SpyOk spy) (j : Junk) {level log2 : Int} (detect : Bool) (hl : 0 ≤ level ∧ level ≤ 9) (hw : 9 ≤ log2 ∧ log2 ≤ 15)
    (ms : List (List (COp Setter) × List Byte)) (hok : ∀ m ∈ ms, ∀ p ∈ m.1, p.Ok Setter.Ok) : ∃ xs, gzipRun o os srt j level log2 detect ms = .ok xs ∧
      List.Forall₂ (fun m x => ∀ (R : List Byte) (cs : List Call) (last : List Byte), cs.flatMap Call.bytes ++ last = x ++ R →
        (cs = [] ∨ (settings setInfo {} m.1).name.length + (settings setInfo {} m.1).comment.length ≤ 1012) →
        gunzipRun o' spy false cs last = .ok (message m ++ R, settings setInfo {} m.1)) ms xs := by
  obtain ⟨xs, e, h⟩ := gzip_writes_members hsrt o os j detect hl hw ms hok
  refine ⟨xs, e, h.imp ?_⟩
  rintro m x ⟨xf, hx⟩ R cs last hcs hlim
  have := gunzip_reads_member o' hspy hx rfl cs last hcs (hlim.imp id fun h => by have := headerOf_length os xf (settings setInfo {} m.1); omega)
  rw [this, infoOf_headerOf]

/-- And with `repeat` all the messages from all the members one after the other. -/
theorem gunzip_inverts_gzip_all (o o' : ByteOrder) (os : Byte) {spy : List Byte → Nat} (hspy : SpyOk spy) (j : Junk) {level log2 : Int} (detect : Bool) (hl : 0 ≤ level ∧ level ≤ 9) (hw : 9 ≤ log2 ∧ log2 ≤ 15)
    (ms : List (List (COp Setter) × List Byte)) (hne : ms ≠ []) (hok : ∀ m ∈ ms, ∀ p ∈ m.1, p.Ok Setter.Ok) : ∃ xs, gzipRun o os srt j level log2 detect ms = .ok xs ∧
      ∀ (cs : List Call) (last : List Byte), cs.flatMap Call.bytes ++ last = xs.flatten → last ≠ [] →
        (cs = [] ∨ ∀ m ∈ ms, (settings setInfo {} m.1).name.length + (settings setInfo {} m.1).comment.length ≤ 1012) →
        gunzipRun o' spy true cs last = .ok (ms.flatMap message, settings setInfo {} (ms.getLast hne).1) := by
  obtain ⟨xs, e, h⟩ := gzip_writes_members hsrt o os j detect hl hw ms hok
  refine ⟨xs, e, ?_⟩
  have key : ∃ ks : List Mem, ks.map (fun k => (k.msg, infoOf k.header)) = ms.map (fun m => (message m, settings setInfo {} m.1)) ∧ ks.map Mem.bytes = xs ∧
      ∀ k ∈ ks, (IsMember k.header k.msg k.bytes ∧ k.header.headerCrc = none) ∧ k.header.bytes.length ≤ 12 + (infoOf k.header).name.length + (infoOf k.header).comment.length := by
    clear e hok hne
    induction h with
    | nil => exact ⟨[], rfl, rfl, fun k hk => nomatch hk⟩
    | @cons m x ms xs h t ih =>
      obtain ⟨ks, k1, k2, k3⟩ := ih
      obtain ⟨xf, hx⟩ := h
      refine ⟨⟨headerOf os xf (settings setInfo {} m.1), message m, x⟩ :: ks, by simp [k1, infoOf_headerOf], by simp [k2], ?_⟩
      intro k hk
      rcases List.mem_cons.1 hk with rfl | hk
      · exact ⟨⟨hx, rfl⟩, by rw [infoOf_headerOf]; exact headerOf_length _ _ _⟩
      · exact k3 k hk
  obtain ⟨ks, k1, k2, k3⟩ := key
  have hlen : ks.length = ms.length := by simpa using congrArg List.length k1
  have hkne : ks ≠ [] := by intro h; rw [h] at hlen; exact hne (List.eq_nil_of_length_eq_zero hlen.symm)
  intro cs last hcs hlast hlim
  have hr := gunzip_reads_file o' hspy ks hkne (fun k hk => (k3 k hk).1) cs last (by rw [hcs, ← k2, List.flatMap_def]) (hlim.imp id fun h k hk => by
    have hmem : (k.msg, infoOf k.header) ∈ ms.map (fun m => (message m, settings setInfo {} m.1)) := by rw [← k1]; exact List.mem_map_of_mem hk
    obtain ⟨m, hm, he⟩ := List.mem_map.1 hmem
    have h1 := h m hm
    have h2 := (k3 k hk).2
    have h3 : settings setInfo {} m.1 = infoOf k.header := congrArg Prod.snd he
    rw [h3] at h1
    omega) hlast
  rw [hr]
  have e1 : ks.flatMap Mem.msg = ms.flatMap message := by
    have := congrArg (fun l => (l.map Prod.fst).flatten) k1
    simpa [List.flatMap_def, Function.comp_def] using this
  have e2 : infoOf (ks.getLast hkne).header = settings setInfo {} (ms.getLast hne).1 := by
    have := congrArg (fun l => l.getLast?) k1
    simp only [List.getLast?_map, List.getLast?_eq_some_getLast hkne, List.getLast?_eq_some_getLast hne, Option.map_some, Option.some.injEq, Prod.mk.injEq] at this
    exact this.2
  rw [e1, e2]

/-- Each message given to a `ZlibCompressor` becomes a stream of RFC 1950. -/
theorem zlib_writes_streams {W : Nat} (hW : 32 ≤ W) (j : Junk) {level log2 : Int} (detect : Bool) (hl : 0 ≤ level ∧ level ≤ 9) (hw : 9 ≤ log2 ∧ log2 ≤ 15) (ms : List (List (COp Empty) × List Byte))
    (hok : ∀ m ∈ ms, ∀ p ∈ m.1, p.Ok fun _ => True) : ∃ xs, zlibRun W srt j level log2 detect ms = .ok xs ∧ List.Forall₂ (fun m x => IsZlib log2.toNat (message m) x) ms xs := by
  obtain ⟨xs, e, h⟩ := compress_spec (zlib_ok W hW) hsrt (1, 0) rfl j detect hl hw ms hok
  refine ⟨xs, e, h.imp ?_⟩
  rintro m x ⟨h, st, tl, h1, h2, rfl, rfl⟩
  exact ⟨h, st, h1, h2, rfl⟩

/-- `ZlibDecompressor` returns every message, for the default window size of 2^15. -/
theorem zunlib_inverts_zlib_partial {W W' : Nat} (hW : 32 ≤ W) (hW' : 32 ≤ W') {spy : List Byte → Nat} (hspy : SpyOk spy) (j : Junk) {level : Int} (detect : Bool) (hl : 0 ≤ level ∧ level ≤ 9)
    (ms : List (List (COp Empty) × List Byte)) (hok : ∀ m ∈ ms, ∀ p ∈ m.1, p.Ok fun _ => True) : ∃ xs, zlibRun W srt j level 15 detect ms = .ok xs ∧
      List.Forall₂ (fun m x => ∀ (R : List Byte) (cs : List Call) (last : List Byte), cs.flatMap Call.bytes ++ last = x ++ R → zunlibRun W' spy false cs last = .ok (message m ++ R)) ms xs := by
  obtain ⟨xs, e, h⟩ := zlib_writes_streams hsrt hW j detect hl (log2 := 15) (by decide) ms hok
  exact ⟨xs, e, h.imp fun m x hx R cs last hcs => zunlib_reads_partial hW' hspy hx cs last hcs⟩

end

/-! ## Members that `Gunzip` refuses or misreads -/

/-- The member with an empty message and this name. -/
def named (n : List Byte) : List Byte := [0x1f, 0x8b, 8, 8, 0, 0, 0, 0, 0, 3] ++ n ++ [0] ++ [3, 0] ++ [0, 0, 0, 0, 0, 0, 0, 0]

/-- A file name of 1100 bytes: all right in one call, refused in two. -/
theorem gunzip_refuses_long_header_in_pieces :
    gunzipRun .little List.length false [] (named (List.replicate 1100 0x61)) = .ok ([], { name := List.replicate 1100 0x61 }) ∧
      gunzipRun .little List.length false [.put ((named (List.replicate 1100 0x61)).take 1030)] ((named (List.replicate 1100 0x61)).drop 1030) = .error .invalidDataFormat :=
  ⟨by decide +kernel, by decide +kernel⟩

/-- A file name with a zero byte is accepted by `SetFilename`, which by default checks nothing, and written: what `Gunzip` makes of it is an error. -/
theorem gunzip_misreads_name_with_zero :
    gzipRun .little 3 insSort junk 6 9 true [([.set (.name [0x61, 0, 0x62] false)], [0x63])] =
        .ok [[0x1f, 0x8b, 8, 8, 0, 0, 0, 0, 0, 3, 0x61, 0, 0x62, 0, 0x4b, 6, 0, 0x6f, 0xdf, 0xb9, 0x06, 1, 0, 0, 0]] ∧
      gunzipRun .little List.length false [] [0x1f, 0x8b, 8, 8, 0, 0, 0, 0, 0, 3, 0x61, 0, 0x62, 0, 0x4b, 6, 0, 0x6f, 0xdf, 0xb9, 0x06, 1, 0, 0, 0] = .error .invalidDataFormat :=
  ⟨by decide +kernel, by decide +kernel⟩

/-- The value the object computes is the CRC-32. -/
theorem isCrc_of_run {m d : List Byte} {r : BitVec 32} (h : (Checksum.crc32 .little).final ((Checksum.crc32 .little).update 0xffffffff 0 m) 4 = .ok (r, d)) : Checksum.IsCrc Checksum.crc32Poly m d := by
  obtain ⟨H, Rep, hC, hH⟩ := crc32_ok .little
  obtain ⟨s, e, -⟩ := hC.final _ _ 4 (hC.update _ _ 0 m hC.init) (by decide)
  have := e.symm.trans h
  rw [List.nil_append, List.take_of_length_le (by have := (hH m).1; omega)] at this
  injection this with this
  injection this with _ this
  exact this ▸ hH m

/-- `abcabcabcabc` -/
def abc : List Byte := [0x61, 0x62, 0x63, 0x61, 0x62, 0x63, 0x61, 0x62, 0x63, 0x61, 0x62, 0x63]

theorem abcStream_isDeflate : IsDeflate abcStream abc := by
  obtain ⟨bs, pad, h1, h2, h3, h4, -⟩ := abcStream_roomy
  exact ⟨bs, pad, h1, h2, h3, h4⟩

/-- CRC-32 and length. -/
def abcTail : List Byte := [0x34, 0x2a, 0x6e, 0x5a, 12, 0, 0, 0]

theorem abcTail_isTail : IsTail abc abcTail := ⟨[0x34, 0x2a, 0x6e, 0x5a], isCrc_of_run (r := 0xffffffff) (by decide +kernel), by decide⟩

/-- A member: this header, and the message `abc`. -/
theorem abc_isMember {h : Spec.Header} (hv : h.Valid) : IsMember h abc (h.bytes ++ abcStream ++ abcTail) := ⟨hv, _, _, abcStream_isDeflate, abcTail_isTail, rfl⟩

/-- The header of the next example. -/
def checkedHeader : Spec.Header := ⟨false, 0, 0, 3, none, none, none, some [0xa7, 0x77]⟩

/-- A member whose header has the optional checksum of RFC 1952 is refused. -/
theorem gunzip_refuses_header_checksum :
    IsMember checkedHeader abc (checkedHeader.bytes ++ abcStream ++ abcTail) ∧
      gunzipRun .little List.length false [] (checkedHeader.bytes ++ abcStream ++ abcTail) = .error .invalidDataFormat := by
  refine ⟨abc_isMember ⟨by decide, ?_, ?_, ?_, ?_⟩, by decide +kernel⟩
  · intro e h; cases h
  · intro e h; cases h
  · intro e h; cases h
  · intro c h
    cases h
    exact ⟨[0xa7, 0x77, 0x5c, 0x0c], isCrc_of_run (r := 0xffffffff) (by decide +kernel), rfl⟩

/-- A header with text flag, time, extra field, name and comment. -/
def fullHeader : Spec.Header := ⟨true, 0x12345678, 2, 3, some [1, 2, 3], some [0x61, 0x62], some [0x63], none⟩

theorem fullHeader_valid : fullHeader.Valid :=
  ⟨by decide, fun e h => by cases h; decide, fun e h => by cases h; decide, fun e h => by cases h; decide, fun e h => by cases h⟩

/-- A member with a name of 450 bytes and a message of 600 zero bytes, in a stored block. -/
def zeros : List Byte := [0x1f, 0x8b, 8, 8, 0, 0, 0, 0, 0, 3] ++ List.replicate 450 0x61 ++ [0] ++ [1, 0x58, 2, 0xa7, 0xfd] ++ List.replicate 600 0 ++ [0x23, 0xa2, 0xed, 0x77, 0x58, 2, 0, 0]

set_option maxRecDepth 100000 in
/-- With `repeat`, a member whose last bytes come long before the message end, which then comes alone: an error, though without `repeat` it is none. The stream is a stored block, for the object to decode it
before the message end. -/
theorem gunzip_repeat_refuses_late_end :
    (gunzipRun .little List.length false [.put zeros] []).isOk = true ∧ gunzipRun .little List.length true [.put zeros] [] = .error .invalidDataFormat :=
  ⟨by decide +kernel, by decide +kernel⟩

/-! ## Examples -/

example : gunzipRun .big List.length false [.put (fullHeader.bytes ++ [0x4b]), .softFlush] (abcStream.tail ++ abcTail ++ [1, 2]) = .ok (abc ++ [1, 2], ⟨0x12345678, [0x61, 0x62], [0x63]⟩) :=
  gunzip_reads_member .big length_spyOk (abc_isMember fullHeader_valid) rfl _ _ (by decide) (.inr (by decide))

example : gunzipRun .big List.length true [.put (fullHeader.bytes ++ abcStream ++ abcTail ++ fullHeader.bytes)] (abcStream ++ abcTail) = .ok (abc ++ abc, ⟨0x12345678, [0x61, 0x62], [0x63]⟩) :=
  gunzip_reads_file .big length_spyOk [⟨fullHeader, abc, fullHeader.bytes ++ abcStream ++ abcTail⟩, ⟨fullHeader, abc, fullHeader.bytes ++ abcStream ++ abcTail⟩] (by simp) (by simp only [List.mem_cons, List.not_mem_nil, or_false]; rintro k (rfl | rfl) <;> exact ⟨abc_isMember fullHeader_valid, rfl⟩)
    [.put (fullHeader.bytes ++ abcStream ++ abcTail ++ fullHeader.bytes)] (abcStream ++ abcTail) (by decide) (.inr (by simp only [List.mem_cons, List.not_mem_nil, or_false]; rintro k (rfl | rfl) <;> decide)) (by decide)

example : gunzipRun .big List.length true [] (fullHeader.bytes ++ abcStream ++ [0x34, 0x2a, 0x6e, 0x5b, 12, 0, 0, 0]) = .error .other :=
  gunzip_rejects_wrong_tail .big length_spyOk true fullHeader_valid rfl (R := []) (t := [0x34, 0x2a, 0x6e, 0x5b, 12, 0, 0, 0]) abcStream_isDeflate (by decide) (by
    rintro ⟨c, h, e⟩
    obtain ⟨d, h', e'⟩ := abcTail_isTail
    cases isCrc_uniq h h'
    rw [← e'] at e
    exact absurd e (by decide)) [] _ (by simp) (.inl rfl) (by decide)

/-- Two messages, the first with settings. -/
def twoFiles : List (List (COp Setter) × List Byte) :=
  [([.set (.name [0x61, 0x62] true), .set (.time 7), .data (.put [0x61, 0x61, 0x61, 0x61]), .set (.comment [0x7a] false)], [0x63]), ([], [])]

theorem twoFiles_ok : ∀ m ∈ twoFiles, ∀ p ∈ m.1, p.Ok Setter.Ok := by
  intro m hm p hp
  simp only [twoFiles, List.mem_cons, List.not_mem_nil, or_false] at hm
  rcases hm with rfl | rfl <;> simp only [List.mem_cons, List.not_mem_nil, or_false] at hp
  rcases hp with rfl | rfl | rfl | rfl <;> simp [COp.Ok, Setter.Ok, Op.Ok, is8859]

example : ∃ xs, gzipRun .little 3 insSort junk 6 9 true twoFiles = .ok xs ∧
    ∀ (cs : List Call) (last : List Byte), cs.flatMap Call.bytes ++ last = xs.flatten → last ≠ [] → gunzipRun .big List.length true cs last = .ok ([0x61, 0x61, 0x61, 0x61, 0x63], {}) := by
  obtain ⟨xs, e, h⟩ := gunzip_inverts_gzip_all insSort_isSort .little .big 3 length_spyOk junk (level := 6) (log2 := 9) true (by decide) (by decide) twoFiles (by simp [twoFiles]) twoFiles_ok
  refine ⟨xs, e, fun cs last h1 h2 => h cs last h1 h2 (.inr ?_)⟩
  intro m hm
  simp only [twoFiles, List.mem_cons, List.not_mem_nil, or_false] at hm
  rcases hm with rfl | rfl <;> decide

example : gzipRun .little 3 insSort junk 6 9 true twoFiles = .ok
    [[0x1f, 0x8b, 8, 8, 7, 0, 0, 0, 0, 3, 0x61, 0x62, 0, 0x4b, 0x4c, 0x4c, 0x4c, 0x4c, 0x06, 0, 0x95, 0xf2, 0xa2, 0, 5, 0, 0, 0], [0x1f, 0x8b, 8, 0, 0, 0, 0, 0, 0, 3, 3, 0, 0, 0, 0, 0, 0, 0, 0, 0]] := by
  decide +kernel

example : zunlibRun 32 List.length false [.put [0x78], .put ([0x9c] ++ abcStream)] [0x1d, 0xe0, 0x04, 0x99, 5] = .ok (abc ++ [5]) :=
  zunlib_reads_partial (by decide) length_spyOk (R := [5]) ⟨[0x78, 0x9c], abcStream, ⟨0x78, 0x9c, by decide⟩, abcStream_isDeflate, rfl⟩ _ _ (by decide)

example : zunlibRun 32 List.length false [] ([0x78, 0x9c] ++ abcStream ++ [0x1d, 0xe0, 0x04, 0x98]) = .error .other :=
  zunlib_rejects_wrong_tail_partial (by decide) length_spyOk false (h := [0x78, 0x9c]) (t := [0x1d, 0xe0, 0x04, 0x98]) (R := []) ⟨0x78, 0x9c, by decide⟩ abcStream_isDeflate (by decide) (by decide) [] _ (by decide) (by decide)

example : zlibRun 32 insSort junk 6 15 true [([.data (.put [0x61, 0x61, 0x61, 0x61])], [0x63]), ([], [])] = .ok
    [[0x78, 0x9c, 0x4b, 0x4c, 0x4c, 0x4c, 0x4c, 0x06, 0, 0x05, 0xb6, 0x01, 0xe8], [0x78, 0x9c, 3, 0, 0, 0, 0, 1]] := by decide +kernel

/-- Two messages. -/
def twoStrings : List (List (COp Empty) × List Byte) := [([.data (.put [0x61, 0x61])], [0x63]), ([], [])]

theorem twoStrings_ok : ∀ m ∈ twoStrings, ∀ p ∈ m.1, p.Ok fun _ => True := by
  intro m hm p hp
  simp only [twoStrings, List.mem_cons, List.not_mem_nil, or_false] at hm
  rcases hm with rfl | rfl <;> simp only [List.mem_cons, List.not_mem_nil, or_false] at hp
  subst hp
  trivial

example : ∃ xs, zlibRun 32 insSort junk 6 15 true twoStrings = .ok xs ∧
    List.Forall₂ (fun m x => ∀ (R : List Byte) (cs : List Call) (last : List Byte), cs.flatMap Call.bytes ++ last = x ++ R → zunlibRun 64 List.length false cs last = .ok (message m ++ R)) twoStrings xs :=
  zunlib_inverts_zlib_partial insSort_isSort (by decide) (by decide) length_spyOk junk true (by decide) twoStrings twoStrings_ok

example : zunlibRun 32 List.length false [.put [0x78], .softFlush] [0x9d, 1, 2] = .error .invalidDataFormat :=
  zunlib_rejects_bad_header 32 _ false 0x78 0x9d [1, 2] (by decide) _ _ rfl

example : gunzipRun .little List.length true [.put [0x1f, 0x8b]] [8, 0x20, 1, 2] = .error .invalidDataFormat :=
  gunzip_rejects_bad_header .little _ true 0x1f 0x8b 8 0x20 [1, 2] (by decide) _ _ rfl

end Verif.Gzip
