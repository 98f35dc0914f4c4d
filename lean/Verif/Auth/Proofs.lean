import Verif.Auth.Spec

/-! The contract of the virtual functions, and the base class over them. -/
namespace Verif.Auth

/-- The whole blocks of a string, and what is left. -/
def whole (bs : Nat) (d : List Byte) : List Byte := d.take (bs * (d.length / bs))
def rest (bs : Nat) (d : List Byte) : List Byte := d.drop (bs * (d.length / bs))

/-- How a mode authenticates, as functions of abstract states `α`. -/
structure Impl (κ α : Type) where
  init : κ → List Byte → α
  absorb : κ → α → List Byte → α
  endHeader : κ → α → List Byte → Nat → α
  endMessage : κ → α → List Byte → Nat → Nat → α
  mac : κ → List Byte → α → List Byte → Nat → List Byte

variable {σ κ α : Type}

/-- After the header, and after the text. -/
def Impl.header (I : Impl κ α) (bs : Nat) (k : κ) (iv H : List Byte) : α := I.endHeader k (I.absorb k (I.init k iv) (whole bs H)) (rest bs H) H.length
def Impl.message (I : Impl κ α) (bs : Nat) (k : κ) (iv H C : List Byte) : α := I.endMessage k (I.absorb k (I.header bs k iv H) (whole bs C)) (rest bs C) H.length C.length
def Impl.tag (I : Impl κ α) (bs : Nat) (k : κ) (iv H C F : List Byte) (n : Nat) : List Byte := I.mac k iv (I.absorb k (I.message bs k iv H C) (whole bs F)) (rest bs F) n

/-- The virtual functions of `Hk` implement `A`, through `I`: `Key k o` says that the key of `o` is `k`, and `Rep k iv a q o` that it is at byte `q` of the keystream and has authenticated `a`. -/
structure Hooks.Ok (Hk : Hooks σ κ) (A : Spec.Alg κ) (I : Impl κ α) (Key : κ → σ → Prop) (Rep : κ → List Byte → α → Nat → σ → Prop) : Prop where
  pos : 0 < Hk.blockSize
  maxHeader : A.maxHeader = Hk.maxHeader
  maxMessage : A.maxMessage = Hk.maxMessage
  maxFooter : A.maxFooter = Hk.maxFooter
  digestSize : A.digestSize = Hk.digestSize
  ivOk : A.ivOk = Hk.ivOk
  authInput : A.authInput = decide (Hk.onPlaintext = Hk.forward)
  small : Hk.maxMessage < 2 ^ 64
  tag : ∀ k iv H C F n, Hk.ivOk iv.length = true → H.length ≤ Hk.maxHeader → C.length ≤ Hk.maxMessage → F.length ≤ Hk.maxFooter → n ≤ Hk.digestSize → A.tag k iv H C F n = I.tag Hk.blockSize k iv H C F n
  absorb_nil : ∀ k a, I.absorb k a [] = a
  absorb_append : ∀ k a d e, d.length % Hk.blockSize = 0 → I.absorb k (I.absorb k a d) e = I.absorb k a (d ++ e)
  rep_key : ∀ k iv a q o, Rep k iv a q o → Key k o
  setKey : ∀ o k, Key k (Hk.setKey o k)
  resync : ∀ k o iv, Key k o → Hk.ivOk iv.length = true → ∃ o', Hk.resync o iv = .ok o' ∧ Rep k iv (I.init k iv) 0 o'
  authBlocks : ∀ k iv a q o d, Rep k iv a q o → Hk.blockSize ≤ d.length →
    ∃ o', Hk.authBlocks o d = .ok (o', d.length % Hk.blockSize) ∧ Rep k iv (I.absorb k a (whole Hk.blockSize d)) q o'
  lastHeader : ∀ k iv a q o p h, Rep k iv a q o → p.length < Hk.blockSize → ∃ o', Hk.lastHeader o p h = .ok o' ∧ Rep k iv (I.endHeader k a p h) q o'
  lastConfidential : ∀ k iv a q o p h m, Rep k iv a q o → p.length < Hk.blockSize →
    ∃ o', Hk.lastConfidential o p h m = .ok o' ∧ Rep k iv (I.endMessage k a p h m) q o'
  lastFooter : ∀ k iv a q o p n, Rep k iv a q o → p.length < Hk.blockSize → n ≤ Hk.digestSize → ∃ o', Hk.lastFooter o p n = .ok (o', I.mac k iv a p n) ∧ Key k o'
  process : ∀ k iv a q o x, Rep k iv a q o →
    ∃ o', Hk.process o x = .ok (o', xorBytes x (load (A.keystream k iv) q x.length)) ∧ Rep k iv a (q + x.length) o'

theorem whole_rest (bs : Nat) (d : List Byte) : whole bs d ++ rest bs d = d := List.take_append_drop _ _

theorem whole_length (bs : Nat) (d : List Byte) : (whole bs d).length = bs * (d.length / bs) := by
  rw [whole, List.length_take]; have := Nat.mul_div_le d.length bs; omega

theorem rest_length (bs : Nat) (d : List Byte) : (rest bs d).length = d.length % bs := by
  rw [rest, List.length_drop, Nat.mod_eq_sub]

theorem rest_lt (bs : Nat) (hb : 0 < bs) (d : List Byte) : (rest bs d).length < bs := by
  rw [rest_length]; exact Nat.mod_lt _ hb

theorem whole_mod (bs : Nat) (d : List Byte) : (whole bs d).length % bs = 0 := by rw [whole_length]; exact Nat.mul_mod_right _ _

/-- How a string divides into whole blocks and a rest is unique. -/
theorem split_unique (bs : Nat) (hb : 0 < bs) (w r : List Byte) (hw : w.length % bs = 0) (hr : r.length < bs) : whole bs (w ++ r) = w ∧ rest bs (w ++ r) = r := by
  have h : bs * ((w ++ r).length / bs) = w.length := by
    obtain ⟨c, hc⟩ := Nat.dvd_of_mod_eq_zero hw
    rw [List.length_append, hc, Nat.mul_add_div hb, Nat.div_eq_of_lt hr, Nat.add_zero]
  unfold whole rest
  rw [h]
  exact ⟨List.take_left, List.drop_left⟩

theorem whole_nil (bs : Nat) : whole bs [] = [] := by simp [whole]
theorem rest_nil (bs : Nat) : rest bs [] = [] := by simp [rest]

section
variable {Hk : Hooks σ κ} {A : Spec.Alg κ} {I : Impl κ α} {Key : κ → σ → Prop} {Rep : κ → List Byte → α → Nat → σ → Prop} (ok : Hk.Ok A I Key Rep)
include ok

theorem authRest_spec (k : κ) (iv : List Byte) (a : α) (q : Nat) (s : State σ) (D x : List Byte) (hD : D.length % Hk.blockSize = 0) (hr : Rep k iv (I.absorb k a D) q s.o) :
    ∃ o', authRest Hk s x = .ok { s with o := o', pending := rest Hk.blockSize (D ++ x) } ∧ Rep k iv (I.absorb k a (whole Hk.blockSize (D ++ x))) q o' := by
  have hsplit : whole Hk.blockSize (D ++ x) = D ++ whole Hk.blockSize x ∧ rest Hk.blockSize (D ++ x) = rest Hk.blockSize x := by
    have := split_unique Hk.blockSize ok.pos (D ++ whole Hk.blockSize x) (rest Hk.blockSize x)
      (by rw [List.length_append, Nat.add_mod, hD, whole_mod]; exact Nat.zero_mod _) (rest_lt _ ok.pos _)
    rwa [List.append_assoc, whole_rest] at this
  rw [hsplit.1, hsplit.2]
  unfold authRest
  by_cases h : x.length ≥ Hk.blockSize
  · rw [if_pos h]
    obtain ⟨o', e, r⟩ := ok.authBlocks k iv _ q s.o x hr h
    rw [e]
    refine ⟨o', ?_, ?_⟩
    · dsimp only
      rw [rest, show x.length - x.length % Hk.blockSize = Hk.blockSize * (x.length / Hk.blockSize) by have := Nat.div_add_mod x.length Hk.blockSize; omega]
    · rw [ok.absorb_append _ _ _ _ hD] at r
      exact r
  · rw [if_neg h]
    have h0 : x.length / Hk.blockSize = 0 := Nat.div_eq_of_lt (by omega)
    refine ⟨s.o, ?_, ?_⟩
    · rw [rest, h0, Nat.mul_zero, List.drop_zero]
    · rw [whole, h0, Nat.mul_zero, List.take_zero, List.append_nil]; exact hr

theorem authData_spec (k : κ) (iv : List Byte) (a : α) (q : Nat) (s : State σ) (D x : List Byte) (hp : s.pending = rest Hk.blockSize D)
    (hr : Rep k iv (I.absorb k a (whole Hk.blockSize D)) q s.o) :
    ∃ o', authData Hk s x = .ok { s with o := o', pending := rest Hk.blockSize (D ++ x) } ∧ Rep k iv (I.absorb k a (whole Hk.blockSize (D ++ x))) q o' := by
  unfold authData
  by_cases hx : x.length = 0
  · rw [if_pos hx]
    have : x = [] := List.eq_nil_of_length_eq_zero hx
    subst this
    rw [List.append_nil, ← hp]
    exact ⟨s.o, rfl, hr⟩
  rw [if_neg hx]
  have hlt : s.pending.length < Hk.blockSize := by rw [hp]; exact rest_lt _ ok.pos _
  have hD : whole Hk.blockSize D ++ s.pending = D := by rw [hp]; exact whole_rest _ _
  by_cases hn : s.pending.length ≠ 0
  · dsimp only
    rw [if_pos hn]
    by_cases hf : s.pending.length + x.length ≥ Hk.blockSize
    · rw [if_pos hf]
      have hl : (s.pending ++ x.take (Hk.blockSize - s.pending.length)).length = Hk.blockSize := by
        rw [List.length_append, List.length_take]; omega
      obtain ⟨o1, e1, r1⟩ := ok.authBlocks k iv _ q s.o (s.pending ++ x.take (Hk.blockSize - s.pending.length)) hr (by omega)
      rw [e1]
      dsimp only
      have hw : whole Hk.blockSize (s.pending ++ x.take (Hk.blockSize - s.pending.length)) = s.pending ++ x.take (Hk.blockSize - s.pending.length) := by
        rw [whole, hl, Nat.div_self ok.pos, Nat.mul_one]; exact List.take_of_length_le (by omega)
      rw [hw, ok.absorb_append _ _ _ _ (whole_mod _ _), ← List.append_assoc, hD] at r1
      have hm : (D ++ x.take (Hk.blockSize - s.pending.length)).length % Hk.blockSize = 0 := by
        rw [← hD, List.append_assoc, List.length_append, hl, Nat.add_mod, whole_mod, Nat.mod_self]; exact Nat.zero_mod _
      obtain ⟨o2, e2, r2⟩ := authRest_spec ok k iv a q { s with o := o1, pending := [] } (D ++ x.take (Hk.blockSize - s.pending.length)) (x.drop (Hk.blockSize - s.pending.length)) hm r1
      rw [List.append_assoc, List.take_append_drop] at e2 r2
      exact ⟨o2, e2, r2⟩
    · rw [if_neg hf]
      have := split_unique Hk.blockSize ok.pos (whole Hk.blockSize D) (s.pending ++ x) (whole_mod _ _) (by rw [List.length_append]; omega)
      rw [← List.append_assoc, hD] at this
      rw [this.1, this.2]
      exact ⟨s.o, rfl, hr⟩
  · dsimp only
    rw [if_neg hn]
    have hp0 : s.pending = [] := List.eq_nil_of_length_eq_zero (by omega)
    rw [hp0, List.append_nil] at hD
    rw [hD] at hr
    exact authRest_spec ok k iv a q s D x (by rw [← hD]; exact whole_mod _ _) hr

/-- The object `s` is where the specification is. -/
structure Sim (Hk : Hooks σ κ) (I : Impl κ α) (Key : κ → σ → Prop) (Rep : κ → List Byte → α → Nat → σ → Prop) (s : State σ) (t : Spec.St κ) : Prop where
  hdr : s.hdr = t.H.length
  ftr : s.ftr = t.F.length
  life : match t.life with
    | .noKey => s.phase = .start
    | .keyed k => s.phase = .keySet ∧ Key k s.o
    | .header k iv => s.phase = .ivSet ∧ Hk.ivOk iv.length = true ∧ t.C = [] ∧ t.F = [] ∧ s.msg = 0 ∧ t.offered = 0 ∧ s.pending = rest Hk.blockSize t.H ∧
        Rep k iv (I.absorb k (I.init k iv) (whole Hk.blockSize t.H)) 0 s.o
    | .message k iv => s.phase = (if Hk.onPlaintext = Hk.forward then .untransformed else .transformed) ∧ Hk.ivOk iv.length = true ∧ t.F = [] ∧ s.msg = t.C.length ∧ t.offered = t.C.length ∧
        t.C.length ≤ Hk.maxMessage ∧ s.pending = rest Hk.blockSize t.C ∧ Rep k iv (I.absorb k (I.header Hk.blockSize k iv t.H) (whole Hk.blockSize t.C)) t.C.length s.o
    | .footer k iv => s.phase = .footer ∧ Hk.ivOk iv.length = true ∧ s.msg = t.offered ∧ t.C.length ≤ Hk.maxMessage ∧ t.offered ≤ Hk.maxMessage ∧ s.pending = rest Hk.blockSize t.F ∧
        ∃ q, Rep k iv (I.absorb k (I.message Hk.blockSize k iv t.H t.C) (whole Hk.blockSize t.F)) q s.o

omit ok in
theorem Sim.keyed {s : State σ} {t : Spec.St κ} (h1 : s.hdr = t.H.length) (h2 : s.ftr = t.F.length) (k : κ) (h3 : s.phase = .keySet) (h4 : Key k s.o) (h5 : t.life = .keyed k) : Sim Hk I Key Rep s t :=
  ⟨h1, h2, by rw [h5]; exact ⟨h3, h4⟩⟩

theorem resync_sim (s : State σ) (t : Spec.St κ) (k : κ) (iv : List Byte) (hp : s.phase ≠ .start) (hk : Key k s.o) :
    (resynchronize Hk s iv).2.map (fun _ => Out.nothing) = (Spec.begin A k iv).2 ∧ Sim Hk I Key Rep (resynchronize Hk s iv).1 (Spec.begin A k iv).1 := by
  unfold resynchronize Spec.begin
  rw [ok.ivOk]
  rw [if_neg hp]
  dsimp only
  by_cases hi : Hk.ivOk iv.length = true
  · rw [if_pos hi, if_pos hi]
    obtain ⟨o', e, r⟩ := ok.resync k s.o iv hk hi
    rw [e]
    refine ⟨rfl, rfl, rfl, rfl, hi, rfl, rfl, rfl, rfl, (rest_nil _).symm, ?_⟩
    dsimp only
    rw [whole_nil, ok.absorb_nil]
    exact r
  · rw [if_neg hi, if_neg hi]
    exact ⟨rfl, rfl, rfl, rfl, hk⟩

theorem updateFooter_sim (s : State σ) (k : κ) (iv H C F x : List Byte) (off : Nat) (hb : (F ++ x).length < 2 ^ 64) (hs : Sim Hk I Key Rep s ⟨.footer k iv, H, C, F, off⟩) :
    (updateFooter Hk s x).2 = .ok () ∧ Sim Hk I Key Rep (updateFooter Hk s x).1 ⟨.footer k iv, H, C, F ++ x, off⟩ := by
  obtain ⟨h1, h2, h3, h4, h5, h6, h7, h8, q, h9⟩ := hs
  obtain ⟨o', e, r⟩ := authData_spec ok k iv _ q s F x h8 h9
  unfold updateFooter
  rw [e]
  refine ⟨rfl, h1, ?_, h3, h4, h5, h6, h7, rfl, q, r⟩
  dsimp only
  have h2' : s.ftr = F.length := h2
  rw [h2', ← List.length_append]
  exact Nat.mod_eq_of_lt hb

theorem updateAfter_sim (s : State σ) (k : κ) (iv H C F x : List Byte) (off : Nat) (hb : (F ++ x).length < 2 ^ 64) (hs : Sim Hk I Key Rep s ⟨.message k iv, H, C, F, off⟩) :
    (updateAfter Hk s x).2 = .ok () ∧ Sim Hk I Key Rep (updateAfter Hk s x).1 ⟨.footer k iv, H, C, F ++ x, off⟩ := by
  obtain ⟨h1, h2, h3, h4, h5, h6, h7, h8, h9, h10⟩ := hs
  obtain ⟨o', e, r⟩ := ok.lastConfidential k iv _ _ s.o s.pending s.hdr s.msg h10 (by rw [h9]; exact rest_lt _ ok.pos _)
  unfold updateAfter
  rw [e]
  dsimp only at h1 h2 h5 h6 h7 h8 h9 h10 r ⊢
  subst h5
  apply updateFooter_sim ok _ k iv H C [] x off hb
  refine ⟨h1, h2, rfl, h4, by dsimp only; rw [h6, h7], h8, by rw [h7]; exact h8, (rest_nil _).symm, C.length, ?_⟩
  dsimp only
  rw [whole_nil, ok.absorb_nil]
  rw [h9, h1, h6] at r
  exact r

/-- `ProcessData` once the header has ended. -/
theorem text_sim (s : State σ) (k : κ) (iv H C x : List Byte) (hl : C.length + x.length ≤ Hk.maxMessage)
    (h1 : s.hdr = H.length) (h2 : s.ftr = 0) (h4 : Hk.ivOk iv.length = true) (h6 : s.msg = C.length + x.length) (h9 : s.pending = rest Hk.blockSize C)
    (h10 : Rep k iv (I.absorb k (I.header Hk.blockSize k iv H) (whole Hk.blockSize C)) C.length s.o) :
    (s.phase = .untransformed → Hk.onPlaintext = Hk.forward →
      (processUntransformed Hk s x).2.map Out.bytes = (Spec.text A ⟨.message k iv, H, C, [], C.length⟩ k iv x).2 ∧
        Sim Hk I Key Rep (processUntransformed Hk s x).1 (Spec.text A ⟨.message k iv, H, C, [], C.length⟩ k iv x).1) ∧
    (s.phase = .transformed → ¬ Hk.onPlaintext = Hk.forward →
      (processTransformed Hk s x).2.map Out.bytes = (Spec.text A ⟨.message k iv, H, C, [], C.length⟩ k iv x).2 ∧
        Sim Hk I Key Rep (processTransformed Hk s x).1 (Spec.text A ⟨.message k iv, H, C, [], C.length⟩ k iv x).1) := by
  have hlx : ∀ q, (xorBytes x (load (A.keystream k iv) q x.length)).length = x.length := by intro q; rw [xorBytes_length, load_length]; omega
  refine ⟨fun hp hd => ?_, fun hp hd => ?_⟩
  · obtain ⟨o1, e1, r1⟩ := authData_spec ok k iv _ _ s C x h9 h10
    obtain ⟨o2, e2, r2⟩ := ok.process k iv _ _ o1 x r1
    unfold processUntransformed Spec.text
    rw [e1]
    dsimp only
    rw [e2]
    simp only [ok.authInput, hd, decide_true, if_true]
    refine ⟨rfl, h1, h2, ?_, h4, rfl, ?_, ?_, ?_, rfl, ?_⟩
    · dsimp only; rw [hp, if_pos hd]
    · dsimp only; rw [h6, List.length_append]
    · dsimp only; rw [List.length_append]
    · dsimp only; rw [List.length_append]; exact hl
    · dsimp only; rw [List.length_append]; exact r2
  · obtain ⟨o1, e1, r1⟩ := ok.process k iv _ _ s.o x h10
    obtain ⟨o2, e2, r2⟩ := authData_spec ok k iv _ _ { s with o := o1 } C (xorBytes x (load (A.keystream k iv) C.length x.length)) h9 r1
    unfold processTransformed Spec.text
    rw [e1]
    dsimp only
    rw [e2]
    have hf : A.authInput = false := by rw [ok.authInput]; exact decide_eq_false hd
    simp only [hf, if_false, Bool.false_eq_true]
    refine ⟨rfl, h1, h2, ?_, h4, rfl, ?_, ?_, ?_, rfl, ?_⟩
    · dsimp only; rw [hp, if_neg hd]
    · dsimp only; rw [h6, List.length_append, hlx]
    · dsimp only; rw [List.length_append, hlx]
    · dsimp only; rw [List.length_append, hlx]; exact hl
    · dsimp only; rw [List.length_append, hlx]; exact r2

theorem finalFooter_sim (s : State σ) (k : κ) (iv H C F : List Byte) (n : Nat) (hn : n ≤ Hk.digestSize) (h0 : Hk.ivOk iv.length = true)
    (h1 : s.hdr = H.length) (h2 : s.ftr = F.length) (h3 : H.length ≤ Hk.maxHeader) (h4 : C.length ≤ Hk.maxMessage) (h5 : F.length ≤ Hk.maxFooter)
    (h6 : s.pending = rest Hk.blockSize F) (q : Nat) (h7 : Rep k iv (I.absorb k (I.message Hk.blockSize k iv H C) (whole Hk.blockSize F)) q s.o) (off : Nat) :
    (finalFooter Hk s n).2 = .ok (A.tag k iv H C F n) ∧ Sim Hk I Key Rep (finalFooter Hk s n).1 ⟨.keyed k, H, C, F, off⟩ := by
  obtain ⟨o', e, r⟩ := ok.lastFooter k iv _ q s.o s.pending n h7 (by rw [h6]; exact rest_lt _ ok.pos _) hn
  unfold finalFooter
  rw [e]
  refine ⟨?_, h1, h2, rfl, r⟩
  dsimp only
  rw [ok.tag k iv H C F n h0 h3 h4 h5 hn, Impl.tag, h6]

theorem finalMessage_sim (s : State σ) (k : κ) (iv H C : List Byte) (n : Nat) (hn : n ≤ Hk.digestSize) (h0 : Hk.ivOk iv.length = true)
    (h1 : s.hdr = H.length) (h2 : s.ftr = 0) (h3 : H.length ≤ Hk.maxHeader) (h4 : C.length ≤ Hk.maxMessage) (h8 : s.msg = C.length)
    (h6 : s.pending = rest Hk.blockSize C) (q : Nat) (h7 : Rep k iv (I.absorb k (I.header Hk.blockSize k iv H) (whole Hk.blockSize C)) q s.o) (off : Nat) :
    (finalMessage Hk s n).2 = .ok (A.tag k iv H C [] n) ∧ Sim Hk I Key Rep (finalMessage Hk s n).1 ⟨.keyed k, H, C, [], off⟩ := by
  obtain ⟨o', e, r⟩ := ok.lastConfidential k iv _ q s.o s.pending s.hdr s.msg h7 (by rw [h6]; exact rest_lt _ ok.pos _)
  unfold finalMessage
  rw [e]
  rw [h6, h1, h8] at r
  refine finalFooter_sim ok { s with o := o', pending := [] } k iv H C [] n hn h0 h1 h2 h3 h4 (Nat.zero_le _) (rest_nil _).symm q ?_ off
  dsimp only
  rw [whole_nil, ok.absorb_nil]
  exact r

theorem final_sim (s : State σ) (t : Spec.St κ) (n : Nat) (hs : Sim Hk I Key Rep s t) :
    (truncatedFinal Hk s n).2 = (Spec.finish A t n).2 ∧ Sim Hk I Key Rep (truncatedFinal Hk s n).1 (Spec.finish A t n).1 := by
  obtain ⟨life, H, C, F, off⟩ := t
  have h1 := hs.hdr
  have h2 := hs.ftr
  dsimp only at h1 h2
  unfold truncatedFinal Spec.finish
  dsimp only
  rw [ok.digestSize, ok.maxHeader, ok.maxFooter]
  by_cases c1 : n > Hk.digestSize
  · rw [if_pos c1, if_pos (Or.inl c1)]; exact ⟨rfl, hs⟩
  by_cases c2 : H.length > Hk.maxHeader
  · rw [if_neg c1, if_pos (show s.hdr > Hk.maxHeader by omega), if_pos (Or.inr (Or.inl c2))]; exact ⟨rfl, hs⟩
  by_cases c3 : F.length > Hk.maxFooter
  · rw [if_neg c1, if_neg (show ¬ s.hdr > Hk.maxHeader by omega), if_pos (show s.ftr > Hk.maxFooter by omega), if_pos (Or.inr (Or.inr c3))]; exact ⟨rfl, hs⟩
  rw [if_neg c1, if_neg (show ¬ s.hdr > Hk.maxHeader by omega), if_neg (show ¬ s.ftr > Hk.maxFooter by omega), if_neg (by omega)]
  have hl := hs.life
  cases life with
  | noKey => dsimp only at hl ⊢; rw [hl]; exact ⟨rfl, hs⟩
  | keyed k => dsimp only at hl ⊢; rw [hl.1]; exact ⟨rfl, hs⟩
  | header k iv =>
    obtain ⟨g1, g2, g3, g4, g5, g6, g7, g8⟩ := hl
    dsimp only at g1 g2 g3 g4 g5 g6 g7 g8 ⊢
    subst g3 g4 g6
    obtain ⟨o', e, r⟩ := ok.lastHeader k iv _ 0 s.o s.pending s.hdr g8 (by rw [g7]; exact rest_lt _ ok.pos _)
    simp only [g1, e]
    rw [g7, h1] at r
    refine finalMessage_sim ok { s with o := o', pending := [], phase := .ivSet } k iv H [] n (by omega) g2 h1 h2 (by omega) (Nat.zero_le _) g5 (rest_nil _).symm 0 ?_ 0
    dsimp only
    rw [whole_nil, ok.absorb_nil]
    exact r
  | message k iv =>
    obtain ⟨g1, g2, g3, g4, g5, g6, g7, g8⟩ := hl
    dsimp only at g1 g2 g3 g4 g5 g6 g7 g8 ⊢
    subst g3
    have := finalMessage_sim ok s k iv H C n (by omega) g2 h1 h2 (by omega) g6 g4 g7 _ g8 off
    by_cases hd : Hk.onPlaintext = Hk.forward
    · rw [if_pos hd] at g1; rw [g1]; exact this
    · rw [if_neg hd] at g1; rw [g1]; exact this
  | footer k iv =>
    obtain ⟨g1, g2, g3, g4, g5, g6, q, g7⟩ := hl
    dsimp only at g1 g2 g3 g4 g5 g6 g7 ⊢
    rw [g1]
    exact finalFooter_sim ok s k iv H C F n (by omega) g2 h1 h2 (by omega) g4 (by omega) g6 q g7 off

/-- The bytes a history gives to `Update`. -/
def updated : List (Op κ) → Nat
  | [] => 0
  | .update x :: ops => x.length + updated ops
  | _ :: ops => updated ops

omit ok in
theorem verify_of_final (s : State σ) (t : Spec.St κ) (mac : List Byte) (hd : A.digestSize = Hk.digestSize) (h : (truncatedFinal Hk s mac.length).2 = (Spec.finish A t mac.length).2) :
    (truncatedVerify Hk s mac).1 = (truncatedFinal Hk s mac.length).1 ∧ (truncatedVerify Hk s mac).2 = (Spec.finish A t mac.length).2.map fun c => c == mac := by
  unfold truncatedVerify
  by_cases c : mac.length > Hk.digestSize
  · rw [if_pos c]
    unfold truncatedFinal Spec.finish
    rw [if_pos c, if_pos (Or.inl (by omega))]
    exact ⟨rfl, rfl⟩
  · rw [if_neg c, ← h]
    generalize truncatedFinal Hk s mac.length = r
    obtain ⟨s', e | out⟩ := r <;> exact ⟨rfl, rfl⟩

theorem process_sim (s : State σ) (t : Spec.St κ) (x : List Byte) (hs : Sim Hk I Key Rep s t) :
    (processData Hk s x).2.map Out.bytes = (Spec.step A t (.process x)).2 ∧ Sim Hk I Key Rep (processData Hk s x).1 (Spec.step A t (.process x)).1 := by
  obtain ⟨life, H, C, F, off⟩ := t
  have h1 := hs.hdr
  have h2 := hs.ftr
  have hl := hs.life
  have hsm := ok.small
  dsimp only at h1 h2 hl
  unfold processData
  -- the check of the length
  have hcheck : ∀ m, s.msg = m → m ≤ Hk.maxMessage → ((Hk.maxMessage + 2 ^ 64 - s.msg) % 2 ^ 64 = Hk.maxMessage - m) := by
    intro m e hm
    rw [e, show Hk.maxMessage + 2 ^ 64 - m = (Hk.maxMessage - m) + 2 ^ 64 by omega, Nat.add_mod_right]
    exact Nat.mod_eq_of_lt (by omega)
  cases life with
  | noKey =>
    dsimp only at hl
    simp only [hl, Spec.step, ne_eq, not_true_eq_false, false_and, if_false]
    exact ⟨rfl, h1, h2, rfl⟩
  | keyed k =>
    dsimp only at hl
    simp only [hl.1, Spec.step, ne_eq, not_true_eq_false, false_and, and_false, if_false]
    exact ⟨rfl, h1, h2, rfl, hl.2⟩
  | header k iv =>
    obtain ⟨g1, g2, g3, g4, g5, g6, g7, g8⟩ := hl
    subst g3 g4 g6
    have hph : s.phase ≠ .start ∧ s.phase ≠ .keySet := by rw [g1]; exact ⟨by decide, by decide⟩
    simp only [Spec.step, ok.maxMessage]
    rw [hcheck 0 g5 (Nat.zero_le _)]
    by_cases c : x.length > Hk.maxMessage - 0
    · rw [if_pos ⟨hph, c⟩, if_pos (by omega)]
      exact ⟨rfl, hs⟩
    · rw [if_neg (fun h => c h.2), if_neg (by omega)]
      obtain ⟨o', e, r⟩ := ok.lastHeader k iv _ 0 s.o s.pending s.hdr g8 (by rw [g7]; exact rest_lt _ ok.pos _)
      rw [g7, h1] at r
      have hm : (s.msg + x.length) % 2 ^ 64 = ([] : List Byte).length + x.length := by
        rw [g5]; exact Nat.mod_eq_of_lt (by omega)
      simp only [g1, e]
      have htext := fun ph => text_sim ok { s with o := o', pending := [], phase := ph, msg := (s.msg + x.length) % 2 ^ 64 } k iv H [] x (by rw [List.length_nil]; omega) h1 h2 g2 hm (rest_nil _).symm
        (by dsimp only; rw [whole_nil, ok.absorb_nil]; exact r)
      by_cases hd : Hk.onPlaintext = Hk.forward
      · rw [if_pos hd]
        exact (htext .untransformed).1 rfl hd
      · rw [if_neg hd]
        exact (htext .transformed).2 rfl hd
  | message k iv =>
    obtain ⟨g1, g2, g3, g4, g5, g6, g7, g8⟩ := hl
    subst g3 g5
    have hph : s.phase ≠ .start ∧ s.phase ≠ .keySet := by rw [g1]; split <;> exact ⟨by decide, by decide⟩
    simp only [Spec.step, ok.maxMessage]
    rw [hcheck _ g4 g6]
    by_cases c : x.length > Hk.maxMessage - C.length
    · rw [if_pos ⟨hph, c⟩, if_pos (by omega)]
      exact ⟨rfl, hs⟩
    · rw [if_neg (fun h => c h.2), if_neg (by omega)]
      have hm : (s.msg + x.length) % 2 ^ 64 = C.length + x.length := by
        rw [g4]; exact Nat.mod_eq_of_lt (by omega)
      have htext := fun ph => text_sim ok { s with phase := ph, msg := (s.msg + x.length) % 2 ^ 64 } k iv H C x (by omega) h1 h2 g2 hm g7 g8
      by_cases hd : Hk.onPlaintext = Hk.forward
      · rw [if_pos hd] at g1
        simp only [g1]
        exact (htext .untransformed).1 rfl hd
      · rw [if_neg hd] at g1
        simp only [g1]
        exact (htext .transformed).2 rfl hd
  | footer k iv =>
    obtain ⟨g1, g2, g3, g4, g5, g6, g7⟩ := hl
    have hph : s.phase ≠ .start ∧ s.phase ≠ .keySet := by rw [g1]; exact ⟨by decide, by decide⟩
    simp only [Spec.step, ok.maxMessage]
    rw [hcheck _ g3 g5]
    by_cases c : x.length > Hk.maxMessage - off
    · rw [if_pos ⟨hph, c⟩, if_pos (by omega)]
      exact ⟨rfl, hs⟩
    · rw [if_neg (fun h => c h.2), if_neg (by omega)]
      simp only [g1]
      refine ⟨rfl, h1, h2, rfl, g2, ?_, g4, ?_, g6, g7⟩
      · dsimp only; rw [g3]; exact Nat.mod_eq_of_lt (by omega)
      · dsimp only; omega

theorem step_sim (s : State σ) (t : Spec.St κ) (op : Op κ) (hb : t.H.length + t.F.length + updated [op] < 2 ^ 64) (hs : Sim Hk I Key Rep s t) :
    (step Hk s op).2 = (Spec.step A t op).2 ∧ Sim Hk I Key Rep (step Hk s op).1 (Spec.step A t op).1 := by
  have h1 := hs.hdr
  have h2 := hs.ftr
  cases op with
  | setKey k iv =>
    unfold step setKey
    cases iv with
    | none => exact ⟨rfl, h1, h2, rfl, ok.setKey _ _⟩
    | some iv =>
      simp only [Spec.step, ok.ivOk]
      by_cases hi : Hk.ivOk iv.length = true
      · rw [if_pos hi, if_pos hi]
        exact resync_sim ok _ t k iv (by dsimp only; decide) (ok.setKey _ _)
      · rw [if_neg hi, if_neg hi]
        exact ⟨rfl, h1, h2, rfl, ok.setKey _ _⟩
  | resync iv =>
    obtain ⟨life, H, C, F, off⟩ := t
    have hl := hs.life
    cases life with
    | noKey =>
      dsimp only at hl
      simp only [step, Spec.step, resynchronize, if_pos hl]
      exact ⟨rfl, hs⟩
    | keyed k => exact resync_sim ok s ⟨.keyed k, H, C, F, off⟩ k iv (by rw [hl.1]; decide) hl.2
    | header k iv' => exact resync_sim ok s ⟨.keyed k, H, C, F, off⟩ k iv (by rw [hl.1]; decide) (ok.rep_key _ _ _ _ _ hl.2.2.2.2.2.2.2)
    | message k iv' => exact resync_sim ok s ⟨.keyed k, H, C, F, off⟩ k iv (by rw [hl.1]; split <;> decide) (ok.rep_key _ _ _ _ _ hl.2.2.2.2.2.2.2)
    | footer k iv' =>
      obtain ⟨q, hq⟩ := hl.2.2.2.2.2.2
      exact resync_sim ok s ⟨.keyed k, H, C, F, off⟩ k iv (by rw [hl.1]; decide) (ok.rep_key _ _ _ _ _ hq)
  | restart =>
    obtain ⟨life, H, C, F, off⟩ := t
    have hl := hs.life
    unfold step restart Spec.step
    cases life with
    | noKey => dsimp only at hl; simp only [hl]; exact ⟨trivial, hs⟩
    | keyed k => simp only [hl.1]; exact ⟨trivial, hs⟩
    | header k iv' => simp only [hl.1]; exact ⟨trivial, h1, h2, rfl, ok.rep_key _ _ _ _ _ hl.2.2.2.2.2.2.2⟩
    | message k iv' =>
      have hr := ok.rep_key _ _ _ _ _ hl.2.2.2.2.2.2.2
      by_cases hd : Hk.onPlaintext = Hk.forward
      · have g := hl.1; rw [if_pos hd] at g; simp only [g]; exact ⟨trivial, h1, h2, rfl, hr⟩
      · have g := hl.1; rw [if_neg hd] at g; simp only [g]; exact ⟨trivial, h1, h2, rfl, hr⟩
    | footer k iv' =>
      obtain ⟨q, hq⟩ := hl.2.2.2.2.2.2
      simp only [hl.1]; exact ⟨trivial, h1, h2, rfl, ok.rep_key _ _ _ _ _ hq⟩
  | update x =>
    obtain ⟨life, H, C, F, off⟩ := t
    have hl := hs.life
    simp only [updated, Nat.add_zero] at hb
    unfold step update Spec.step
    dsimp only
    by_cases hx : x.length = 0
    · rw [if_pos hx, if_pos hx]; exact ⟨rfl, hs⟩
    rw [if_neg hx, if_neg hx]
    cases life with
    | noKey => dsimp only at hl; simp only [hl]; exact ⟨rfl, hs⟩
    | keyed k => simp only [hl.1]; exact ⟨rfl, hs⟩
    | header k iv =>
      obtain ⟨g1, g2, g3, g4, g5, g6, g7, g8⟩ := hl
      obtain ⟨o', e, r⟩ := authData_spec ok k iv _ 0 s H x g7 g8
      simp only [g1, e]
      refine ⟨rfl, ?_, h2, rfl, g2, g3, g4, g5, g6, rfl, r⟩
      dsimp only
      have h1' : s.hdr = H.length := h1
      rw [h1', List.length_append]
      exact Nat.mod_eq_of_lt (by omega)
    | message k iv =>
      have := updateAfter_sim ok s k iv H C F x off (by rw [List.length_append]; omega) hs
      by_cases hd : Hk.onPlaintext = Hk.forward
      · have g := hl.1; rw [if_pos hd] at g; simp only [g]; exact ⟨by rw [this.1]; rfl, this.2⟩
      · have g := hl.1; rw [if_neg hd] at g; simp only [g]; exact ⟨by rw [this.1]; rfl, this.2⟩
    | footer k iv =>
      have := updateFooter_sim ok s k iv H C F x off (by rw [List.length_append]; omega) hs
      simp only [hl.1]; exact ⟨by rw [this.1]; rfl, this.2⟩
  | process x => exact process_sim ok s t x hs
  | final n =>
    have := final_sim ok s t n hs
    exact ⟨by unfold step Spec.step; dsimp only; rw [this.1], this.2⟩
  | verify mac =>
    have := final_sim ok s t mac.length hs
    obtain ⟨v1, v2⟩ := verify_of_final s t mac ok.digestSize this.1
    refine ⟨?_, ?_⟩
    · unfold step Spec.step
      dsimp only
      rw [v2]
      cases (Spec.finish A t mac.length).2 <;> rfl
    · show Sim Hk I Key Rep (truncatedVerify Hk s mac).1 _
      rw [v1]; exact this.2

/-- What is entered grows by what is updated. -/
theorem step_entered (t : Spec.St κ) (op : Op κ) : (Spec.step A t op).1.H.length + (Spec.step A t op).1.F.length ≤ t.H.length + t.F.length + updated [op] := by
  obtain ⟨life, H, C, F, off⟩ := t
  cases op with
  | setKey k iv =>
    cases iv with
    | none => simp [Spec.step, updated]
    | some iv => simp only [Spec.step, updated, Spec.begin]; split <;> (try split) <;> simp
  | resync iv => cases life <;> simp only [Spec.step, updated, Spec.begin] <;> (try split) <;> simp
  | restart => cases life <;> simp [Spec.step, updated]
  | update x =>
    simp only [Spec.step, updated]
    split
    · simp
    · cases life <;> simp <;> omega
  | process x => cases life <;> simp only [Spec.step, updated, Spec.text] <;> (try split) <;> simp
  | final n => simp only [Spec.step, updated, Spec.finish]; split <;> (try (cases life)) <;> simp
  | verify m => simp only [Spec.step, updated, Spec.finish]; split <;> (try (cases life)) <;> simp

theorem run_sim (ops : List (Op κ)) : ∀ (s : State σ) (t : Spec.St κ), t.H.length + t.F.length + updated ops < 2 ^ 64 → Sim Hk I Key Rep s t → run Hk s ops = Spec.run A t ops := by
  induction ops with
  | nil => intro s t _ _; rfl
  | cons op ops ih =>
    intro s t hb hs
    have hu : updated (op :: ops) = updated [op] + updated ops := by cases op <;> simp [updated]
    obtain ⟨e1, e2⟩ := step_sim ok s t op (by omega) hs
    have := step_entered ok t op
    unfold run Spec.run
    rw [e1, ih _ _ (by omega) e2]

omit ok in
theorem fresh_sim (o : σ) : Sim Hk I Key Rep (fresh o) (Spec.init : Spec.St κ) := ⟨rfl, rfl, rfl⟩

end

end Verif.Auth
