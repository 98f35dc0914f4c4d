import Verif.Stream.Model

/-! What a keystream policy must do, and what a history of calls must return. -/
namespace Verif.Stream

variable {π ι : Type}

/-- The policy contract: `S v` is the keystream for the initialisation vector `v`, a byte for every position, and `Rep v i p`
says that `p` stands at iteration `i` of it. Iterations below `lim` can be sought. -/
structure Policy.Ok (P : Policy π ι) (S : ι → Mem) (Rep : ι → Nat → π → Prop) (lim : Nat) : Prop where
  bpi_pos : 0 < P.bpi
  iters_pos : 0 < P.iters
  write : ∀ v i p n, Rep v i p → 0 < n → Rep v (i + n) (P.write p n).1 ∧ (P.write p n).2 = load (S v) (i * P.bpi) (n * P.bpi)
  operate : ∀ v i p n x, P.canOperate = true → Rep v i p → 0 < n → x.length = n * P.bpi →
    Rep v (i + n) (P.operate p x n).1 ∧ (P.operate p x n).2 = xorBytes x (load (S v) (i * P.bpi) (n * P.bpi))
  seek : ∀ v i p j, Rep v i p → j < lim → ∃ p', P.seek p j = .ok p' ∧ Rep v j p'
  resync : ∀ v i p w, Rep v i p → Rep w 0 (P.resync p w)

inductive Op (ι : Type) where
  | process (bytes : List Byte)
  | generate (n : Nat)
  | seek (position : Nat)
  | resync (iv : ι) (junk : Mem)

variable (P : Policy π ι)

/-- The outputs of a history of calls. -/
def run (s : State π) : List (Op ι) → Except Err (List (List Byte))
  | [] => .ok []
  | .process x :: ops => do
    let (s, out) ← processData P s x
    let r ← run s ops
    .ok (out :: r)
  | .generate n :: ops => do
    let (s, out) ← generateBlock P s n
    let r ← run s ops
    .ok (out :: r)
  | .seek q :: ops => do
    let s ← seek P s q
    run s ops
  | .resync v junk :: ops => run (resynchronize P s v junk) ops

/-- The outputs demanded: `q` is the position in the keystream of `v`. -/
def specRun (S : ι → Mem) (v : ι) (q : Nat) : List (Op ι) → List (List Byte)
  | [] => []
  | .process x :: ops => xorBytes x (load (S v) q x.length) :: specRun S v (q + x.length) ops
  | .generate n :: ops => load (S v) q n :: specRun S v (q + n) ops
  | .seek p :: ops => specRun S v p ops
  | .resync w _ :: ops => specRun S w 0 ops

/-- Seeks stay below the limit. -/
def SeeksOk (lim : Nat) : List (Op ι) → Prop
  | [] => True
  | .seek p :: ops => p / P.bpi < lim ∧ SeeksOk lim ops
  | _ :: ops => SeeksOk lim ops

end Verif.Stream
