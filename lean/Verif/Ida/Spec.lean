import Verif.Ida.Model

/-! # Specification: delivering shares, and what a channel carries -/
namespace Verif.Ida

/-- The calls on one channel. -/
def callsOf (id : Verif.Gf.W32) (h : List Call) : List Call := h.filter (fun c => c.id == id)

/-- The bytes sent on one channel. -/
def bytesOf (id : Verif.Gf.W32) (h : List Call) : List Byte := ((callsOf id h).map Call.bytes).flatten

/-- The history sends, on each channel of `ids` and on no other, `data id` in any number of pieces and in any order between the
channels; the message end comes with the last call on the channel. -/
def Delivers (ids : List Verif.Gf.W32) (data : Verif.Gf.W32 → List Byte) (h : List Call) : Prop :=
  (∀ c ∈ h, c.id ∈ ids) ∧ ∀ id ∈ ids, bytesOf id h = data id ∧
    ∃ pre last, callsOf id h = pre ++ [last] ∧ last.last = true ∧ ∀ c ∈ pre, c.last = false

/-- What was sent out on one channel. -/
def received (ch : Option Verif.Gf.W32) (out : List Ev) : List Verif.MQueue.Tok := (out.filter (fun e => e.1 == ch)).map Prod.snd

end Verif.Ida
