import Verif.AuthFilter.BegProofs
import Verif.Auth.Props

/-! Proofs about the encryption filter, and the modes of `AuthenticatedSymmetricCipherBase` as ciphers of the filters. -/
namespace Verif.AuthFilter

open Verif.BufFilter Verif.BufFilter.Filt
open Verif.HashFilter (bind_ok')

section
variable {σ : Type} {O : Aead σ} {C : Cipher} {Hd : σ → List Byte → Prop} {Tx : σ → List Byte → List Byte → Prop} (S : O.Serves C Hd Tx)
  {cut : Nat → Nat} (hcut : ∀ r, 0 < r → 1 ≤ cut r ∧ cut r ≤ r)
include S

theorem enc_aadAll (putAAD : Bool) (xs : List (List Byte)) : ∀ (s : Enc σ) (a : List Byte), Hd s.c a → (a ++ xs.flatten).length ≤ C.maxHeader →
    ∃ c', Enc.aadAll O putAAD s xs = .ok ({ s with c := c' }, if putAAD then xs.flatten.map .aad else []) ∧ Hd c' (a ++ xs.flatten) := by
  induction xs with
  | nil => intro s a h _; exact ⟨s.c, by simp [Enc.aadAll], by simpa using h⟩
  | cons x xs ih =>
    intro s a h hl
    rw [List.flatten_cons] at hl ⊢
    obtain ⟨c1, e1, h1⟩ : ∃ c1, (if x.length ≠ 0 then O.update s.c x else .ok s.c : Except Err σ) = .ok c1 ∧ Hd c1 (a ++ x) := by
      by_cases hx : x.length = 0
      · have : x = [] := List.eq_nil_of_length_eq_zero hx
        subst this
        exact ⟨s.c, rfl, by simpa using h⟩
      · rw [if_pos hx]
        exact S.update s.c a x h hx (by simp only [List.length_append] at hl ⊢; omega)
    obtain ⟨c2, e2, h2⟩ := ih { s with c := c1 } (a ++ x) h1 (by rw [List.append_assoc]; exact hl)
    refine ⟨c2, ?_, by rw [List.append_assoc] at h2; exact h2⟩
    rw [Enc.aadAll, Enc.aad, e1]
    show (do let (s, o') ← Enc.aadAll O putAAD { s with c := c1 } xs; return (s, (if putAAD then x.map Item.aad else []) ++ o') : Except Err (Enc σ × List Item)) = _
    rw [e2, bind_ok']
    cases putAAD
    · rfl
    · simp only [if_true, List.map_append]; rfl

include hcut

theorem enc_more (n : Nat) (s : Enc σ) (a t x : List Byte) (hb : Ready s.base 0 []) (ht : Tx s.c a t) (hl : (t ++ x).length ≤ C.maxMessage) :
    ∃ s', Enc.put O cut n s x false = .ok (s', (xorBytes x (load C.ks t.length x.length)).map .text) ∧ Ready s'.base 0 [] ∧ Tx s'.c a (t ++ x) := by
  obtain ⟨f', evs, c', e1, r, e2, t'⟩ := stream_put S hcut true hb x s.c a t ht hl
  refine ⟨⟨f', c'⟩, ?_, r, t'⟩
  unfold Enc.put
  rw [e1, bind_ok']
  dsimp only
  rw [e2, bind_ok']
  rfl

theorem enc_end (n : Nat) (hd : n ≤ O.digestSize) (s : Enc σ) (a t x : List Byte) (hb : Ready s.base 0 []) (ht : Tx s.c a t) (ha : a.length ≤ C.maxHeader) (hl : (t ++ x).length ≤ C.maxMessage) :
    ∃ s', Enc.put O cut n s x true = .ok (s', (xorBytes x (load C.ks t.length x.length)).map .text ++ (C.tag a (t ++ x) n).map .mac ++ [.messageEnd]) ∧ Ready s'.base 0 [] := by
  obtain ⟨f', evs, c', e1, r, e2, t'⟩ := stream_end S hcut true hb x s.c a t ht hl
  obtain ⟨c2, e3⟩ := S.final c' a (t ++ x) n t' ha hl hd
  refine ⟨⟨f', c2⟩, ?_, r⟩
  unfold Enc.put
  rw [e1, bind_ok']
  dsimp only
  rw [e2, bind_ok']
  dsimp only
  rw [if_pos rfl, e3, bind_ok']
  rfl

theorem enc_dataAll (n : Nat) (hd : n ≤ O.digestSize) (xs : List (List Byte)) : ∀ (s : Enc σ) (a t : List Byte), Ready s.base 0 [] → Tx s.c a t → a.length ≤ C.maxHeader → (t ++ xs.flatten).length ≤ C.maxMessage →
    ∃ s', Enc.dataAll O cut n s xs = .ok (s', (xorBytes xs.flatten (load C.ks t.length xs.flatten.length)).map .text ++ (C.tag a (t ++ xs.flatten) n).map .mac ++ [.messageEnd]) ∧ Ready s'.base 0 [] := by
  induction xs with
  | nil => intro s a t hb ht ha hl; exact enc_end S hcut n hd s a t [] hb ht ha hl
  | cons x xs ih =>
    intro s a t hb ht ha hl
    cases xs with
    | nil =>
      rw [List.flatten_cons, List.flatten_nil, List.append_nil] at hl ⊢
      exact enc_end S hcut n hd s a t x hb ht ha hl
    | cons y ys =>
      rw [List.flatten_cons] at hl ⊢
      obtain ⟨s1, e1, r1, t1⟩ := enc_more S hcut n s a t x hb ht (by simp only [List.length_append] at hl ⊢; omega)
      obtain ⟨s2, e2, r2⟩ := ih s1 a (t ++ x) r1 t1 ha (by rw [List.append_assoc]; exact hl)
      refine ⟨s2, ?_, r2⟩
      rw [Enc.dataAll, e1, bind_ok']
      · dsimp only
        rw [e2, bind_ok', List.length_append, List.length_append, load_add, xorBytes_append _ _ _ _ (by simp), List.map_append, List.append_assoc t x]
        simp only [List.append_assoc]
        rfl
      · simp

end

/-! ## The modes of `AuthenticatedSymmetricCipherBase` -/

section
open Verif.Auth
variable {σ κ α : Type} {Hk : Hooks σ κ} {A : Auth.Spec.Alg κ} {I : Impl κ α} {Key : κ → σ → Prop} {Rep : κ → List Byte → α → Nat → σ → Prop}

/-- The mode with a key and an initialisation vector. -/
def cipherOf (A : Auth.Spec.Alg κ) (k : κ) (iv : List Byte) : Cipher where
  maxHeader := min A.maxHeader (2 ^ 64 - 1)
  maxMessage := A.maxMessage
  ks := A.keystream k iv
  tag := fun a x n => A.tag k iv a (authText A k iv 0 x) [] n

def HdOf (Hk : Hooks σ κ) (I : Impl κ α) (Key : κ → σ → Prop) (Rep : κ → List Byte → α → Nat → σ → Prop) (k : κ) (iv : List Byte) (s : State σ) (a : List Byte) : Prop :=
  Sim Hk I Key Rep s ⟨.header k iv, a, [], [], 0⟩

def TxOf (A : Auth.Spec.Alg κ) (Hk : Hooks σ κ) (I : Impl κ α) (Key : κ → σ → Prop) (Rep : κ → List Byte → α → Nat → σ → Prop) (k : κ) (iv : List Byte) (s : State σ) (a x : List Byte) : Prop :=
  (x = [] ∧ HdOf Hk I Key Rep k iv s a) ∨ Sim Hk I Key Rep s ⟨.message k iv, a, authText A k iv 0 x, [], x.length⟩

theorem settle_ok {τ β : Type} (r : τ × Except Err β) (b : β) (h : r.2 = .ok b) : settle r = .ok (r.1, b) := by
  obtain ⟨s, x⟩ := r
  dsimp only at h
  subst h
  rfl

theorem bytes_ok (r : Except Err (List Byte)) (b : List Byte) (h : r.map Out.bytes = .ok (.bytes b)) : r = .ok b := by
  cases r with
  | error e => cases h
  | ok x => injection h with h; injection h with h; rw [h]

theorem auth_serves (ok : Hk.Ok A I Key Rep) (k : κ) (iv : List Byte) : (ofAuth Hk).Serves (cipherOf A k iv) (HdOf Hk I Key Rep k iv) (TxOf A Hk I Key Rep k iv) where
  weaken := fun s a h => .inl ⟨rfl, h⟩
  update := by
    intro s a x h hx hl
    have hl' : (a ++ x).length ≤ min A.maxHeader (2 ^ 64 - 1) := hl
    rw [List.length_append] at hl'
    obtain ⟨u1, u2⟩ := step_sim ok s _ (.update x) (by simp only [updated, List.length_nil]; omega) h
    have hu : Auth.Spec.step A ⟨.header k iv, a, [], [], 0⟩ (.update x) = (⟨.header k iv, a ++ x, [], [], 0⟩, .ok .nothing) := by
      unfold Auth.Spec.step
      dsimp only; rw [if_neg hx]
    rw [hu] at u1 u2
    have e2 : (update Hk s x).2 = .ok () := by
      simp only [step] at u1
      generalize (update Hk s x).2 = r at u1
      cases r with
      | error e => cases u1
      | ok u => rfl
    refine ⟨(update Hk s x).1, ?_, u2⟩
    show (settle (update Hk s x)).map (·.1) = _
    rw [settle_ok _ _ e2]; rfl
  process := by
    intro s a x y h hl
    have hl' : (x ++ y).length ≤ A.maxMessage := hl
    rw [List.length_append] at hl'
    rcases h with ⟨hx, h⟩ | h
    · subst hx
      obtain ⟨p1, p2⟩ := process_sim ok s _ y h
      have hpp : Auth.Spec.step A ⟨.header k iv, a, [], [], 0⟩ (.process y) =
          (⟨.message k iv, a, authText A k iv 0 y, [], y.length⟩, .ok (.bytes (xorBytes y (load (A.keystream k iv) 0 y.length)))) := by
        unfold Auth.Spec.step
        dsimp only
        rw [if_neg (by simp at hl'; omega)]
        unfold Auth.Spec.text authText
        simp only [List.length_nil, List.nil_append, Nat.zero_add]
      rw [hpp] at p1 p2
      exact ⟨_, settle_ok _ _ (bytes_ok _ _ p1), .inr p2⟩
    · obtain ⟨p1, p2⟩ := process_sim ok s _ y h
      have hal := authText_length (A := A) k iv 0 x
      have hpp : Auth.Spec.step A ⟨.message k iv, a, authText A k iv 0 x, [], x.length⟩ (.process y) =
          (⟨.message k iv, a, authText A k iv 0 (x ++ y), [], (x ++ y).length⟩, .ok (.bytes (xorBytes y (load (A.keystream k iv) x.length y.length)))) := by
        unfold Auth.Spec.step
        dsimp only
        rw [if_neg (by omega)]
        unfold Auth.Spec.text
        dsimp only
        rw [hal, authText_append, Nat.zero_add, List.length_append]
        rfl
      rw [hpp] at p1 p2
      exact ⟨_, settle_ok _ _ (bytes_ok _ _ p1), .inr p2⟩
  final := by
    intro s a x n h ha hl hn
    have ha' : a.length ≤ min A.maxHeader (2 ^ 64 - 1) := ha
    have hn' : n ≤ A.digestSize := by rw [ok.digestSize]; exact hn
    have key : (truncatedFinal Hk s n).2 = .ok (A.tag k iv a (authText A k iv 0 x) [] n) := by
      rcases h with ⟨hx, h⟩ | h
      · subst hx
        rw [(final_sim ok s _ n h).1]
        have h0 : authText A k iv 0 [] = [] := List.eq_nil_of_length_eq_zero (by rw [authText_length]; rfl)
        rw [h0]
        unfold Auth.Spec.finish
        rw [if_neg (fun h => h.elim (fun h => by omega) (fun h => h.elim (fun h => absurd (show a.length ≤ A.maxHeader by omega) (Nat.not_le_of_gt h)) (fun h => absurd h (Nat.not_lt_zero _))))]
      · rw [(final_sim ok s _ n h).1, finish_message A k iv _ _ _ n hn' (by omega)]
    exact ⟨_, settle_ok _ _ key⟩

/-- `SetKey` and `Resynchronize` prepare an object for a message, whatever it was used for before. -/
theorem prepared (ok : Hk.Ok A I Key Rep) (s : State σ) (k : κ) (iv : List Byte) (hiv : A.ivOk iv.length = true) :
    ∃ s', resynchronize Hk (setKey Hk s k none).1 iv = (s', .ok ()) ∧ HdOf Hk I Key Rep k iv s' [] := by
  obtain ⟨r1, r2⟩ := resync_sim ok (setKey Hk s k none).1 Auth.Spec.init k iv (by simp [setKey]) (ok.setKey _ _)
  have hb : Auth.Spec.begin A k iv = (⟨.header k iv, [], [], [], 0⟩, .ok .nothing) := by unfold Auth.Spec.begin; rw [if_pos hiv]
  rw [hb] at r1 r2
  have e1 : (resynchronize Hk (setKey Hk s k none).1 iv).2 = .ok () := by
    generalize (resynchronize Hk (setKey Hk s k none).1 iv).2 = r at r1
    cases r with
    | error e => cases r1
    | ok u => rfl
  exact ⟨_, by rw [← e1], r2⟩

end

end Verif.AuthFilter
