import Verif.BaseN.Proofs

/-! Proofs for the grouper, the text encoders and the round trip. -/
namespace Verif.BaseN

theorem lcmLoop_enc : ∀ w, 0 < w → w < 8 → Enc.lcmLoop w w 8 / w = blockChars w := by
  have h : ∀ w < 8, 0 < w → Enc.lcmLoop w w 8 / w = blockChars w := by decide +kernel
  exact fun w a b => h w b a
theorem lcmLoop_dec : ∀ w, 0 < w → w < 8 →
    0 < Dec.lcmLoop w 8 w / 8 ∧ Dec.lcmLoop w 8 w / 8 * 8 % w = 0 := by
  have h : ∀ w < 8, 0 < w → 0 < Dec.lcmLoop w 8 w / 8 ∧ Dec.lcmLoop w 8 w / 8 * 8 % w = 0 := by decide +kernel
  exact fun w a b => h w b a

theorem Enc.init_spec (a : Nat → Byte) (w : Nat) (p : Option Byte) (garbage : Nat → Byte) (hw : 0 < w) (hw8 : w < 8) :
    ∃ e, Enc.init a w p garbage = .ok e ∧ e.Params a p w (blockChars w) ∧ e.St [] := by
  unfold Enc.init
  rw [if_neg (by omega)]
  refine ⟨_, rfl, ⟨rfl, rfl, rfl, lcmLoop_enc w hw hw8, ?_⟩, ⟨?_, rfl, fun _ => ⟨rfl, rfl⟩, fun h => absurd rfl h⟩⟩
  · simp [lcmLoop_enc w hw hw8]
  · simp only [lcmLoop_enc w hw hw8, List.length_nil]
    exact Nat.mul_pos (blockChars_spec w hw hw8).1 hw

theorem Dec.init_spec (lk : Byte → Int) (w : Nat) (garbage : Nat → Byte) (hw : 0 < w) (hw8 : w < 8) :
    ∃ d, Dec.init lk w garbage = .ok d ∧ d.Params lk w (Dec.lcmLoop w 8 w / 8) ∧ d.St [] := by
  unfold Dec.init
  rw [if_neg (by omega)]
  refine ⟨_, rfl, ⟨rfl, rfl, rfl, ?_⟩, ⟨?_, Nat.zero_mod _, fun _ => ⟨rfl, rfl⟩, fun h => absurd rfl h⟩⟩
  · simp
  · simp only [List.length_nil]; have := (lcmLoop_dec w hw hw8).1; omega

theorem Enc.feedMany_spec (ms : List (List (List Byte))) (e : Enc) (a p w : _) (hw : 0 < w) (hw8 : w < 8)
    (hp : e.Params a p w (blockChars w)) (h : e.St []) :
    e.feedMany ms = ms.map fun m => encodeSpec a w p m.flatten := by
  induction ms generalizing e with
  | nil => rfl
  | cons m ms ih =>
    obtain ⟨h1, h2, h3⟩ := message_spec e a p w hw hw8 hp h m.flatten
    rw [feedMany, List.map_cons, feed_eq, h1, ih _ h2 h3]

theorem Dec.feedMany_spec (ms : List (List (List Byte))) (d : Dec) (lk w : _) (hw : 0 < w) (hw8 : w < 8)
    (hp : d.Params lk w (Dec.lcmLoop w 8 w / 8)) (h : d.St []) (hlk : ∀ c, -1 ≤ lk c ∧ lk c < 2 ^ w) :
    d.feedMany ms = ms.map fun m => decodeSpec (symbolValue lk) w m.flatten := by
  induction ms generalizing d with
  | nil => rfl
  | cons m ms ih =>
    obtain ⟨h1, h2, h3⟩ := message_spec d lk w _ hp hw hw8 (lcmLoop_dec w hw hw8).2 (lcmLoop_dec w hw hw8).1 h hlk m.flatten
    rw [feedMany, List.map_cons, feed_eq, h1, ih _ h2 h3]

/-! ### Grouper -/

/-- Byte at a time: the output and the counter. -/
def grun (g : Nat) (sep : List Byte) : Nat → List Byte → List Byte
  | _, [] => []
  | c, b :: bs => if c = g then sep ++ b :: grun g sep 1 bs else b :: grun g sep (c + 1) bs

def gcnt (g : Nat) : Nat → List Byte → Nat
  | c, [] => c
  | c, _ :: bs => if c = g then gcnt g 1 bs else gcnt g (c + 1) bs

theorem grun_append (g sep c) (x y : List Byte) : grun g sep c (x ++ y) = grun g sep c x ++ grun g sep (gcnt g c x) y := by
  induction x generalizing c with
  | nil => rfl
  | cons b x ih => simp only [List.cons_append, grun, gcnt]; split <;> simp [ih]

theorem gcnt_append (g c) (x y : List Byte) : gcnt g c (x ++ y) = gcnt g (gcnt g c x) y := by
  induction x generalizing c with
  | nil => rfl
  | cons b x ih => simp only [List.cons_append, gcnt]; split <;> simp [ih]

theorem grun_small (g sep c) (x : List Byte) (h : c + x.length ≤ g) : grun g sep c x = x ∧ gcnt g c x = c + x.length := by
  induction x generalizing c with
  | nil => simp [grun, gcnt]
  | cons b x ih =>
    simp only [List.length_cons] at h
    have := ih (c + 1) (by omega)
    simp only [grun, gcnt, if_neg (show c ≠ g by omega), this, List.length_cons]
    exact ⟨trivial, by omega⟩

theorem grun_full (g sep) (hg : 0 < g) (x : List Byte) (hx : x ≠ []) :
    grun g sep g x = sep ++ grun g sep 0 x ∧ gcnt g g x = gcnt g 0 x := by
  cases x with
  | nil => exact absurd rfl hx
  | cons b x => simp [grun, gcnt, show ¬ 0 = g by omega]

theorem gcnt_le (g c) (hg : 0 < g) (x : List Byte) (hc : c ≤ g) : gcnt g c x ≤ g := by
  induction x generalizing c with
  | nil => exact hc
  | cons b x ih => simp only [gcnt]; split <;> exact ih _ (by omega)

theorem Grouper.loop_spec (fuel : Nat) (g : Grouper) (bs : List Byte) (hg : 0 < g.groupSize) (hc : g.counter ≤ g.groupSize)
    (hf : bs.length ≤ fuel) :
    Grouper.loop fuel g bs = ({ g with counter := gcnt g.groupSize g.counter bs }, grun g.groupSize g.separator g.counter bs) := by
  induction fuel generalizing g bs with
  | zero => have : bs = [] := List.eq_nil_of_length_eq_zero (by omega); subst this; rfl
  | succ fuel ih =>
    unfold loop
    split
    · have : bs = [] := List.eq_nil_of_length_eq_zero (by omega); subst this; rfl
    · rename_i hne
      have hne' : bs ≠ [] := by intro h; simp [h] at hne
      -- the counter after a possible separator
      have key : ∀ c, c < g.groupSize →
          (let len := min bs.length (g.groupSize - c)
           loop fuel { g with counter := c + len } (bs.drop len)) =
            ({ g with counter := gcnt g.groupSize c bs }, (grun g.groupSize g.separator c bs).drop (min bs.length (g.groupSize - c))) ∧
          (grun g.groupSize g.separator c bs).take (min bs.length (g.groupSize - c)) = bs.take (min bs.length (g.groupSize - c)) := by
        intro c hcl
        simp only
        generalize hl : min bs.length (g.groupSize - c) = len
        have hl1 : 0 < len := by omega
        have hl2 : len ≤ bs.length := by omega
        obtain ⟨s1, s2⟩ := grun_small g.groupSize g.separator c (bs.take len) (by simp; omega)
        have hsplit : grun g.groupSize g.separator c bs = bs.take len ++ grun g.groupSize g.separator (c + len) (bs.drop len) := by
          conv => lhs; rw [← List.take_append_drop len bs]
          rw [grun_append, s1, s2]; simp [hl2]
        have hcs : gcnt g.groupSize c bs = gcnt g.groupSize (c + len) (bs.drop len) := by
          conv => lhs; rw [← List.take_append_drop len bs]
          rw [gcnt_append, s2]; simp [hl2]
        rw [ih _ _ (by exact hg) (by simp only; omega) (by simp; omega)]
        simp only
        rw [hsplit, hcs, List.drop_left' (by simp [hl2]), List.take_left' (by simp [hl2])]
        exact ⟨rfl, rfl⟩
      by_cases hcf : g.counter = g.groupSize
      · obtain ⟨k1, k2⟩ := key 0 hg
        simp only [if_pos hcf, Nat.sub_zero, Nat.zero_add] at k1 k2 ⊢
        rw [k1]
        obtain ⟨f1, f2⟩ := grun_full g.groupSize g.separator hg bs hne'
        simp only [hcf, f1, f2]
        rw [← k2, List.append_assoc, List.take_append_drop]
      · obtain ⟨k1, k2⟩ := key g.counter (by omega)
        simp only [if_neg hcf] at k1 k2 ⊢
        rw [k1]
        simp only
        rw [← k2, List.nil_append, List.take_append_drop]

theorem grun_zero (g : Nat) (sep : List Byte) (hg : 0 < g) (n : Nat) : ∀ text : List Byte, text.length ≤ n →
    grun g sep 0 text = List.intercalate sep (chunk g text) := by
  induction n with
  | zero => intro t h; have : t = [] := List.eq_nil_of_length_eq_zero (by omega); subst this; simp [grun, chunk_nil, List.intercalate]
  | succ n ih =>
    intro t h
    by_cases ht : t = []
    · subst ht; simp [grun, chunk_nil, List.intercalate]
    · rw [chunk_cons hg ht]
      by_cases hl : t.length ≤ g
      · rw [List.drop_of_length_le hl, chunk_nil, List.take_of_length_le hl, (grun_small g sep 0 t (by omega)).1]
        simp [List.intercalate]
      · have hd : t.drop g ≠ [] := by intro h0; have := congrArg List.length h0; simp at this; omega
        have hih := ih (t.drop g) (by simp; omega)
        conv => lhs; rw [← List.take_append_drop g t]
        obtain ⟨s1, s2⟩ := grun_small g sep 0 (t.take g) (by simp; omega)
        rw [grun_append, s1, s2, show 0 + (t.take g).length = g by simp; omega, (grun_full g sep hg _ hd).1, hih]
        rw [chunk_cons hg hd]
        simp [List.intercalate]

/-- The grouper fed with calls of which none ends the message. -/
def Grouper.fold (g : Grouper) (cs : List Call) : Grouper × List Byte :=
  cs.foldl (fun (s : Grouper × List Byte) (c : Call) => let u := s.1.put2 c.1 c.2; (u.1, s.2 ++ u.2)) (g, [])

theorem Grouper.foldl_acc (cs : List Call) (g : Grouper) (acc : List Byte) :
    cs.foldl (fun (s : Grouper × List Byte) (c : Call) => let u := s.1.put2 c.1 c.2; (u.1, s.2 ++ u.2)) (g, acc) =
    ((g.fold cs).1, acc ++ (g.fold cs).2) := by
  unfold fold
  induction cs generalizing g acc with
  | nil => simp
  | cons c cs ih =>
    rw [List.foldl_cons, List.foldl_cons, ih, ih _ ([] ++ _)]
    simp

theorem Grouper.fold_append (g : Grouper) (a b : List Call) :
    g.fold (a ++ b) = (((g.fold a).1.fold b).1, (g.fold a).2 ++ ((g.fold a).1.fold b).2) := by
  have : g.fold (a ++ b) = b.foldl (fun (s : Grouper × List Byte) (c : Call) => let u := s.1.put2 c.1 c.2; (u.1, s.2 ++ u.2)) (g.fold a) := by
    unfold fold; rw [List.foldl_append]
  rw [this, show g.fold a = ((g.fold a).1, (g.fold a).2) from rfl, foldl_acc]

theorem Grouper.fold_calls (cs : List Call) (g : Grouper) (hc : g.counter ≤ g.groupSize) (hcs : ∀ c ∈ cs, c.2 = false) :
    g.fold cs = (if g.groupSize = 0 then g else { g with counter := gcnt g.groupSize g.counter (callBytes cs) },
      if g.groupSize = 0 then callBytes cs else grun g.groupSize g.separator g.counter (callBytes cs)) := by
  induction cs generalizing g with
  | nil => simp [fold, callBytes, gcnt, grun]
  | cons c cs ih =>
    have h1 : c :: cs = [c] ++ cs := rfl
    have hc2 : c.2 = false := hcs c (by simp)
    have hone : g.fold [c] = (if g.groupSize = 0 then g else { g with counter := gcnt g.groupSize g.counter c.1 },
        if g.groupSize = 0 then c.1 else grun g.groupSize g.separator g.counter c.1) := by
      unfold fold put2
      by_cases h0 : g.groupSize = 0
      · simp [h0, hc2]
      · simp only [List.foldl_cons, List.foldl_nil, hc2, List.nil_append]
        rw [loop_spec c.1.length g c.1 (by omega) hc (Nat.le_refl _)]
        simp [h0]
    have hcb : callBytes (c :: cs) = c.1 ++ callBytes cs := by simp [callBytes]
    rw [h1, fold_append, hone, ← h1, hcb]
    by_cases h0 : g.groupSize = 0
    · simp only [if_pos h0]
      rw [ih g hc (fun x hx => hcs x (by simp [hx]))]
      simp [h0]
    · simp only [if_neg h0]
      rw [ih _ (by simp only; exact gcnt_le _ _ (by omega) _ hc) (fun x hx => hcs x (by simp [hx]))]
      simp only [if_neg h0, grun_append, gcnt_append]

theorem Grouper.message_spec (g : Grouper) (hc : g.counter = 0) (cs : List Call) (last : List Byte)
    (hcs : ∀ c ∈ cs, c.2 = false) :
    g.fold (cs ++ [(last, true)]) =
      ({ g with counter := 0 }, groupSpec g.groupSize g.separator g.terminator (callBytes (cs ++ [(last, true)]))) := by
  -- as if the last call carried no message end, followed by the terminator
  have h1 := fold_calls (cs ++ [(last, false)]) g (by omega) (by
    intro c h; simp only [List.mem_append, List.mem_singleton] at h
    rcases h with h | h
    · exact hcs c h
    · rw [h])
  rw [fold_append] at h1 ⊢
  have hcb : callBytes (cs ++ [(last, true)]) = callBytes (cs ++ [(last, false)]) := by simp [callBytes]
  rw [hcb]
  have h2 : (g.fold cs).1.fold [(last, true)] =
      ({ ((g.fold cs).1.fold [(last, false)]).1 with counter := 0 }, ((g.fold cs).1.fold [(last, false)]).2 ++ ((g.fold cs).1.fold [(last, false)]).1.terminator) := by
    simp [fold, put2]
  rw [h2]
  have e1 := congrArg Prod.fst h1
  have e2 := congrArg Prod.snd h1
  simp only at e1 e2 ⊢
  rw [← List.append_assoc, e2, e1]
  unfold groupSpec
  by_cases h0 : g.groupSize = 0
  · simp [h0]
  · simp only [if_neg h0, hc]
    rw [grun_zero _ _ (by omega) _ _ (Nat.le_refl _)]

/-! ### Encoder calls -/

theorem Enc.putByte_flags (e : Enc) (x : Byte) : ∀ c ∈ (e.putByte x).2, c.2 = false := by
  intro c hc
  unfold putByte at hc
  generalize (if e.bytePos = 0 then ({ e with outBuf := List.replicate e.outputBlockSize 0 } : Enc) else e) = e1 at hc
  dsimp only at hc
  split at hc
  · simp at hc; rw [hc]
  · simp at hc

theorem Enc.put2_flags (bs : List Byte) (e : Enc) : ∀ c ∈ (e.put2 bs false).2, c.2 = false := by
  induction bs generalizing e with
  | nil => simp [put2]
  | cons b bs ih =>
    rw [show b :: bs = [b] ++ bs from rfl, put2_append]
    intro c hc
    simp only [List.mem_append] at hc
    rcases hc with hc | hc
    · apply putByte_flags e b c
      simpa [put2] using hc
    · exact ih _ c hc

theorem Enc.put2_true (e : Enc) (bs : List Byte) :
    ∃ last, (e.put2 bs true).2 = (e.put2 bs false).2 ++ [(last, true)] := by
  have h : (e.put2 bs true).2 = (e.put2 bs false).2 ++ (e.put2 bs false).1.finish.2 := rfl
  rw [h]
  exact ⟨_, rfl⟩

theorem TextEnc.put2_append (t : TextEnc) (x y : List Byte) (me : Bool) :
    t.put2 (x ++ y) me = (((t.put2 x false).1.put2 y me).1, (t.put2 x false).2 ++ ((t.put2 x false).1.put2 y me).2) := by
  have h : ∀ (t : TextEnc) x me, t.put2 x me = (⟨(t.enc.put2 x me).1, (t.grouper.fold (t.enc.put2 x me).2).1⟩, (t.grouper.fold (t.enc.put2 x me).2).2) :=
    fun _ _ _ => rfl
  rw [h, Enc.put2_append]
  simp only [Grouper.fold_append]
  rw [h t x, h _ y]

theorem TextEnc.feed_eq (t : TextEnc) (cs : List (List Byte)) : t.feed cs = t.put2 cs.flatten true := by
  match cs with
  | [] => rfl
  | [c] => simp [feed]
  | c :: d :: cs =>
    show (let r := t.put2 c false; let s := feed r.1 (d :: cs); (s.1, r.2 ++ s.2)) = _
    simp only [TextEnc.feed_eq _ (d :: cs)]
    rw [List.flatten_cons (l := c), TextEnc.put2_append t c]

theorem TextEnc.message_spec (t : TextEnc) (a p w : _) (hw : 0 < w) (hw8 : w < 8)
    (hp : t.enc.Params a p w (blockChars w)) (h : t.enc.St []) (hc : t.grouper.counter = 0) (msg : List Byte) :
    (t.put2 msg true).2 = groupSpec t.grouper.groupSize t.grouper.separator t.grouper.terminator (encodeSpec a w p msg) ∧
    (t.put2 msg true).1.enc.Params a p w (blockChars w) ∧ (t.put2 msg true).1.enc.St [] ∧
    (t.put2 msg true).1.grouper = t.grouper := by
  obtain ⟨h1, h2, h3⟩ := Enc.message_spec t.enc a p w hw hw8 hp h msg
  obtain ⟨last, hl⟩ := Enc.put2_true t.enc msg
  have hg := Grouper.message_spec t.grouper hc _ last (Enc.put2_flags msg t.enc)
  have hput : t.put2 msg true = (⟨(t.enc.put2 msg true).1, (t.grouper.fold (t.enc.put2 msg true).2).1⟩, (t.grouper.fold (t.enc.put2 msg true).2).2) := rfl
  rw [← hl] at hg
  rw [hput, hg, h1]
  refine ⟨rfl, h2, h3, ?_⟩
  simp only; rw [← hc]

theorem TextEnc.feedMany_spec (ms : List (List (List Byte))) (t : TextEnc) (g : Grouper) (a p w : _) (hw : 0 < w) (hw8 : w < 8)
    (hp : t.enc.Params a p w (blockChars w)) (h : t.enc.St []) (hg : t.grouper = g) (hc : g.counter = 0) :
    t.feedMany ms = ms.map fun m => groupSpec g.groupSize g.separator g.terminator (encodeSpec a w p m.flatten) := by
  induction ms generalizing t with
  | nil => rfl
  | cons m ms ih =>
    obtain ⟨h1, h2, h3, h4⟩ := message_spec t a p w hw hw8 hp h (by rw [hg, hc]) m.flatten
    rw [feedMany, List.map_cons, feed_eq, h1, ih _ h2 h3 (h4.trans hg), hg]

/-! ### Round trip on the specification -/

theorem chunk_flatten {α} {w : Nat} (hw : 0 < w) (n : Nat) : ∀ l : List α, l.length ≤ n → (chunk w l).flatten = l := by
  induction n with
  | zero => intro l h; have : l = [] := List.eq_nil_of_length_eq_zero (by omega); subst this; simp [chunk_nil]
  | succ n ih =>
    intro l h
    by_cases hl : l = []
    · subst hl; simp [chunk_nil]
    · have : 0 < l.length := List.length_pos_iff.2 hl
      rw [chunk_cons hw hl, List.flatten_cons, ih _ (by simp; omega), List.take_append_drop]

theorem chunk_len_le {α} {w : Nat} (hw : 0 < w) (n : Nat) : ∀ l : List α, l.length ≤ n → ∀ g ∈ chunk w l, g.length ≤ w := by
  induction n with
  | zero => intro l h; have : l = [] := List.eq_nil_of_length_eq_zero (by omega); subst this; simp [chunk_nil]
  | succ n ih =>
    intro l h g hg
    by_cases hl : l = []
    · subst hl; simp [chunk_nil] at hg
    · have : 0 < l.length := List.length_pos_iff.2 hl
      rw [chunk_cons hw hl] at hg
      rcases List.mem_cons.1 hg with rfl | hg
      · simp; omega
      · exact ih _ (by simp; omega) g hg

theorem symbolOf_lt (w : Nat) (g : List Bool) (h : g.length ≤ w) : symbolOf w g < 2 ^ w := by
  unfold symbolOf
  have := ofBits_lt (g ++ List.replicate (w - g.length) false)
  simpa [Nat.add_sub_cancel' h] using this

theorem symbols_lt (w : Nat) (hw : 0 < w) (msg : List Byte) : ∀ s ∈ symbols w msg, s < 2 ^ w := by
  intro s hs
  unfold symbols at hs
  obtain ⟨g, hg, rfl⟩ := List.mem_map.1 hs
  exact symbolOf_lt w g (chunk_len_le hw _ _ (Nat.le_refl _) g hg)

theorem symbols_bits (w : Nat) (hw : 0 < w) (n : Nat) : ∀ l : List Bool, l.length ≤ n →
    ∃ r, r < w ∧ ((chunk w l).map (symbolOf w)).flatMap (bitsBE w) = l ++ List.replicate r false := by
  induction n with
  | zero => intro l h; have : l = [] := List.eq_nil_of_length_eq_zero (by omega); subst this; exact ⟨0, hw, by simp [chunk_nil]⟩
  | succ n ih =>
    intro l h
    by_cases hl : l = []
    · subst hl; exact ⟨0, hw, by simp [chunk_nil]⟩
    · have h0 : 0 < l.length := List.length_pos_iff.2 hl
      rw [chunk_cons hw hl, List.map_cons, List.flatMap_cons]
      have hb : ∀ g : List Bool, g.length ≤ w → bitsBE w (symbolOf w g) = g ++ List.replicate (w - g.length) false := by
        intro g hg
        have := bitsBE_ofBits (g ++ List.replicate (w - g.length) false)
        rw [show (g ++ List.replicate (w - g.length) false).length = w by simp [Nat.add_sub_cancel' hg]] at this
        exact this
      rw [hb _ (by simp; omega)]
      by_cases hlen : l.length ≤ w
      · rw [List.drop_of_length_le hlen, chunk_nil, List.take_of_length_le hlen]
        exact ⟨w - l.length, by omega, by simp⟩
      · obtain ⟨r, hr, hih⟩ := ih (l.drop w) (by simp; omega)
        refine ⟨r, hr, ?_⟩
        rw [hih, show w - (l.take w).length = 0 by simp; omega]
        simp [← List.append_assoc]

theorem filterMap_eq_nil_of {α β} (f : α → Option β) (l : List α) (h : ∀ x ∈ l, f x = none) : l.filterMap f = [] := by
  induction l with
  | nil => rfl
  | cons a l ih => rw [List.filterMap_cons, h a (by simp)]; exact ih fun x hx => h x (by simp [hx])

theorem filterMap_intercalate {α β} (f : α → Option β) (sep : List α) (hs : ∀ x ∈ sep, f x = none) (ls : List (List α)) :
    (List.intercalate sep ls).filterMap f = ls.flatten.filterMap f := by
  induction ls with
  | nil => rfl
  | cons a ls ih =>
    cases ls with
    | nil => simp [List.intercalate]
    | cons b ls =>
      have : List.intercalate sep (a :: b :: ls) = a ++ sep ++ List.intercalate sep (b :: ls) := by simp [List.intercalate]
      rw [this, List.filterMap_append, List.filterMap_append, filterMap_eq_nil_of f sep hs, ih]
      simp

theorem decode_encode_spec (alpha : Nat → Byte) (value : Byte → Option Nat) (w : Nat) (p : Option Byte) (g : Nat)
    (sep term msg : List Byte) (hw : 0 < w) (hw8 : w < 8)
    (hval : ∀ s, s < 2 ^ w → value (alpha s) = some s)
    (hp : ∀ c, p = some c → value c = none) (hsep : ∀ c ∈ sep, value c = none) (hterm : ∀ c ∈ term, value c = none) :
    decodeSpec value w (groupSpec g sep term (encodeSpec alpha w p msg)) = msg := by
  unfold decodeSpec decodeBits
  have h1 : (groupSpec g sep term (encodeSpec alpha w p msg)).filterMap value = symbols w msg := by
    unfold groupSpec
    rw [List.filterMap_append, filterMap_eq_nil_of _ term hterm, List.append_nil]
    have h2 : (encodeSpec alpha w p msg).filterMap value = symbols w msg := by
      unfold encodeSpec
      simp only
      rw [List.filterMap_append, List.filterMap_map]
      have h3 : ∀ l : List Nat, (∀ s ∈ l, s < 2 ^ w) → l.filterMap (value ∘ alpha) = l := by
        intro l hl
        induction l with
        | nil => rfl
        | cons a l ih =>
          rw [List.filterMap_cons, Function.comp, hval a (hl a (by simp))]
          simp only; rw [ih fun s hs => hl s (by simp [hs])]
      rw [h3 _ (symbols_lt w hw msg)]
      cases p with
      | none => simp
      | some c =>
        simp only
        rw [filterMap_eq_nil_of, List.append_nil]
        intro x hx
        rw [List.eq_of_mem_replicate hx]; exact hp c rfl
    split
    · exact h2
    · rw [filterMap_intercalate _ _ hsep, chunk_flatten (by omega) _ _ (Nat.le_refl _), h2]
  rw [h1]
  obtain ⟨r, hr, h2⟩ := symbols_bits w hw _ (bytesToBits msg) (Nat.le_refl _)
  unfold symbols
  rw [h2, bytesOfBits_append _ _ (by simp; omega)]

theorem builtin_tables : ∀ c ∈ builtin, 0 < c.log2base ∧ c.log2base < 8 ∧ c.alphabet.length = 2 ^ c.log2base ∧ c.table.length = 256 ∧
    (∀ s < 2 ^ c.log2base, ofTable c.table (ofList c.alphabet s) = s) ∧
    (∀ v ∈ c.table, -1 ≤ v ∧ v < 2 ^ c.log2base) := by
  decide +kernel

theorem ofTable_mem (t : List Int) (c : Byte) (h : t.length = 256) : ofTable t c ∈ t := by
  unfold ofTable
  have : c.toNat < t.length := by rw [h]; exact c.isLt
  rw [List.getD_eq_getElem?_getD, List.getElem?_eq_getElem this, Option.getD_some]
  exact List.getElem_mem _

/-! ### `InitializeDecodingLookupArray` -/

theorem initLookup_eq (alphabet : List Byte) (ci : Bool) :
    initLookup alphabet ci = alphabet.zipIdx.foldl (fun lk (p : Byte × Nat) => fun c => if c ∈ keys ci p.1 then (p.2 : Int) else lk c)
      (fun _ => -1) := by
  unfold initLookup
  congr 1
  funext lk p c
  unfold keys
  split
  · by_cases h1 : c = toLower p.1
    · simp [h1]
    · by_cases h2 : c = toUpper p.1 <;> simp [h1, h2]
  · simp

theorem initLookup_step (ci : Bool) (l : List (Byte × Nat)) (lk : Byte → Int) (c : Byte) (h : ∀ p ∈ l, c ∉ keys ci p.1) :
    l.foldl (fun lk (p : Byte × Nat) => fun c => if c ∈ keys ci p.1 then (p.2 : Int) else lk c) lk c = lk c := by
  induction l generalizing lk with
  | nil => rfl
  | cons p l ih =>
    rw [List.foldl_cons, ih _ (fun q hq => h q (by simp [hq]))]
    exact if_neg (h p (by simp))

theorem initLookup_spec (alphabet : List Byte) (ci : Bool)
    (hinj : alphabet.Pairwise (fun a b => ∀ c ∈ keys ci a, c ∉ keys ci b))
    (i : Nat) (hi : i < alphabet.length) (c : Byte) (hc : c ∈ keys ci alphabet[i]) :
    initLookup alphabet ci c = i := by
  rw [initLookup_eq]
  have hz : i < alphabet.zipIdx.length := by simpa using hi
  rw [← List.take_append_drop i alphabet.zipIdx, List.foldl_append, List.drop_eq_getElem_cons hz, List.foldl_cons,
    initLookup_step]
  · simp [hc]
  · intro p hp
    obtain ⟨j, hj, rfl⟩ := List.getElem_of_mem hp
    simp only [List.getElem_drop, List.getElem_zipIdx]
    simp at hj
    exact List.pairwise_iff_getElem.1 hinj i (i + 1 + j) hi (by omega) (by omega) c hc

theorem initLookup_none (alphabet : List Byte) (ci : Bool) (c : Byte) (h : ∀ b ∈ alphabet, c ∉ keys ci b) :
    initLookup alphabet ci c = -1 := by
  rw [initLookup_eq, initLookup_step]
  intro p hp
  apply h
  have := List.mem_zipIdx hp
  simp at this
  rw [this.2]
  exact List.getElem_mem _

end Verif.BaseN
