import Verif.Padding.Model

/-! Padding schemes as byte strings, and what is assumed of a cipher. -/
namespace Verif.Padding

/-- The padded form of `m` for block size `s`; `k` is the distance to the next multiple of `s`, from 1 to `s`. -/
def padded (p : Scheme) (s : Nat) (m : List Byte) : List Byte :=
  let k := s - m.length % s
  match p with
  | .pkcs => m ++ List.replicate k (BitVec.ofNat 8 k)
  | .w3c => m ++ List.replicate (k - 1) 0 ++ [BitVec.ofNat 8 k]
  | .oneAndZeros => m ++ 0x80 :: List.replicate (k - 1) 0
  | .zeros => m ++ List.replicate (k % s) 0
  | .none => m

/-- `pt` is a well-formed padding of `m`. -/
def IsPadded (p : Scheme) (s : Nat) (pt m : List Byte) : Prop :=
  match p with
  | .pkcs => ∃ k, 1 ≤ k ∧ k ≤ s ∧ k < 256 ∧ pt = m ++ List.replicate k (BitVec.ofNat 8 k)
  | .w3c => ∃ k fill, 1 ≤ k ∧ k ≤ s ∧ k < 256 ∧ List.length fill = k - 1 ∧ pt = m ++ fill ++ [BitVec.ofNat 8 k]
  | .oneAndZeros => ∃ j, j < s ∧ pt = m ++ 0x80 :: List.replicate j 0
  | .zeros | .none => pt = m

/-- What the theorems assume of a cipher: on whole blocks, processing is length preserving and can be cut at block
boundaries; the optimal block size leaves room for one block; `ProcessLastBlock` is the default one if there is no minimum
last block size. -/
structure Cipher.Ok (c : Cipher σ) : Prop where
  pos : 1 ≤ c.mandatory
  nil : ∀ st, c.process st [] = (st, [])
  append : ∀ st x y, x.length % c.mandatory = 0 → y.length % c.mandatory = 0 →
    c.process st (x ++ y) = (((c.process (c.process st x).1 y).1), (c.process st x).2 ++ (c.process (c.process st x).1 y).2)
  len : ∀ st x, x.length % c.mandatory = 0 → (c.process st x).2.length = x.length
  used : ∀ st, c.optimalUsed st + c.mandatory ≤ c.optimalBlock
  last : c.minLast = 0 → c.processLast = defaultLast c.mandatory c.process

/-- The put spaces hold at least one block (this is what `HelpCreatePutSpace` guarantees, filters.h:187-203). -/
def Env.Ok (env : Env) (s : Nat) : Prop := ∀ i r, s ≤ env.space i r

/-- `d` in state `sd` undoes `e` in state `se`. -/
def Undoes (d : Cipher τ) (sd : τ) (e : Cipher σ) (se : σ) : Prop :=
  ∀ x, x.length % e.mandatory = 0 → (d.process sd (e.process se x).2).2 = x

end Verif.Padding
