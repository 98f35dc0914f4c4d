import Verif.Hash.Obj

/-! # Histories of calls on a hash or MAC object -/
namespace Verif.Hash

/-- `Update`, `Restart`, `TruncatedFinal`, `TruncatedVerify`. -/
inductive Call where
  | update (x : List Byte)
  | restart
  | final (n : Nat)
  | verify (mac : List Byte)

/-- What a call returns. -/
inductive Ret where
  | nothing
  | bytes (x : List Byte)
  | bool (b : Bool)
  deriving DecidableEq

variable {σ : Type}

/-- The results of the calls, to the first exception. `TruncatedVerify` (cryptlib.cpp:406-413) compares what `TruncatedFinal` returns. -/
def Obj.run (O : Obj σ) : σ → List Call → Except Err (List Ret)
  | _, [] => .ok []
  | s, .update x :: cs => match O.update s x with
    | .error e => .error e
    | .ok s => (Obj.run O s cs).map (Ret.nothing :: ·)
  | s, .restart :: cs => (Obj.run O (O.restart s) cs).map (Ret.nothing :: ·)
  | s, .final n :: cs => match O.final s n with
    | .error e => .error e
    | .ok (s, d) => (Obj.run O s cs).map (Ret.bytes d :: ·)
  | s, .verify mac :: cs => match O.final s mac.length with
    | .error e => .error e
    | .ok (s, d) => (Obj.run O s cs).map (Ret.bool (d == mac) :: ·)

/-- What the calls must return if `m` has been given since the last `Restart` or digest. -/
def specCalls (H : List Byte → List Byte) : List Byte → List Call → List Ret
  | _, [] => []
  | m, .update x :: cs => .nothing :: specCalls H (m ++ x) cs
  | _, .restart :: cs => .nothing :: specCalls H [] cs
  | m, .final n :: cs => .bytes ((H m).take n) :: specCalls H [] cs
  | m, .verify mac :: cs => .bool ((H m).take mac.length == mac) :: specCalls H [] cs

/-- No digest is asked for that is longer than the function gives. -/
def SizesOk (size : Nat) : List Call → Prop
  | [] => True
  | .final n :: cs => n ≤ size ∧ SizesOk size cs
  | .verify mac :: cs => mac.length ≤ size ∧ SizesOk size cs
  | _ :: cs => SizesOk size cs

/-- An object that computes `H` on messages of any length answers every history as `H` says. -/
theorem Obj.Computes.calls {O : Obj σ} {H : List Byte → List Byte} {Rep : σ → List Byte → Prop} (C : ∀ lim, O.Computes H lim Rep) :
    ∀ (cs : List Call) (s : σ) (m : List Byte), Rep s m → SizesOk O.digestSize cs → O.run s cs = .ok (specCalls H m cs) := by
  intro cs
  induction cs with
  | nil => intro s m _ _; rfl
  | cons c cs ih =>
    intro s m hr hs
    cases c with
    | update x =>
      obtain ⟨s', e, r⟩ := (C ((m ++ x).length + 1)).update s m x hr (Nat.lt_succ_self _)
      simp only [Obj.run, e, ih s' _ r hs, specCalls]
      rfl
    | restart =>
      simp only [Obj.run, ih _ _ ((C 0).restart s m hr) hs, specCalls]
      rfl
    | final n =>
      obtain ⟨s', e, r⟩ := (C 0).final s m n hr hs.1
      simp only [Obj.run, e, ih s' _ r hs.2, specCalls]
      rfl
    | verify mac =>
      obtain ⟨s', e, r⟩ := (C 0).final s m mac.length hr hs.1
      simp only [Obj.run, e, ih s' _ r hs.2, specCalls]
      rfl

end Verif.Hash
