import Verif.Cipher.Rounds

/-!
# SAFER-K and SAFER-SK (safer.h, safer.cpp)
-/
namespace Verif.Cipher.Safer

/-- A block (`a`, …, `h`; safer.cpp:107). -/
structure Oct where
  a : Byte
  b : Byte
  c : Byte
  d : Byte
  e : Byte
  f : Byte
  g : Byte
  h : Byte
deriving DecidableEq

/-- `exp_tab` (safer.cpp:14-30). -/
def expTab : List Byte := [
  1, 45, 226, 147, 190, 69, 21, 174, 120, 3, 135, 164, 184, 56, 207, 63,
  8, 103, 9, 148, 235, 38, 168, 107, 189, 24, 52, 27, 187, 191, 114, 247,
  64, 53, 72, 156, 81, 47, 59, 85, 227, 192, 159, 216, 211, 243, 141, 177,
  255, 167, 62, 220, 134, 119, 215, 166, 17, 251, 244, 186, 146, 145, 100, 131,
  241, 51, 239, 218, 44, 181, 178, 43, 136, 209, 153, 203, 140, 132, 29, 20,
  129, 151, 113, 202, 95, 163, 139, 87, 60, 130, 196, 82, 92, 28, 232, 160,
  4, 180, 133, 74, 246, 19, 84, 182, 223, 12, 26, 142, 222, 224, 57, 252,
  32, 155, 36, 78, 169, 152, 158, 171, 242, 96, 208, 108, 234, 250, 199, 217,
  0, 212, 31, 110, 67, 188, 236, 83, 137, 254, 122, 93, 73, 201, 50, 194,
  249, 154, 248, 109, 22, 219, 89, 150, 68, 233, 205, 230, 70, 66, 143, 10,
  193, 204, 185, 101, 176, 210, 198, 172, 30, 65, 98, 41, 46, 14, 116, 80,
  2, 90, 195, 37, 123, 138, 42, 91, 240, 6, 13, 71, 111, 112, 157, 126,
  16, 206, 18, 39, 213, 76, 79, 214, 121, 48, 104, 54, 117, 125, 228, 237,
  128, 106, 144, 55, 162, 94, 118, 170, 197, 127, 61, 175, 165, 229, 25, 97,
  253, 77, 124, 183, 11, 238, 173, 75, 34, 245, 231, 115, 35, 33, 200, 5,
  225, 102, 221, 179, 88, 105, 99, 86, 15, 161, 49, 149, 23, 7, 58, 40]

/-- `log_tab` (safer.cpp:32-48). -/
def logTab : List Byte := [
  128, 0, 176, 9, 96, 239, 185, 253, 16, 18, 159, 228, 105, 186, 173, 248,
  192, 56, 194, 101, 79, 6, 148, 252, 25, 222, 106, 27, 93, 78, 168, 130,
  112, 237, 232, 236, 114, 179, 21, 195, 255, 171, 182, 71, 68, 1, 172, 37,
  201, 250, 142, 65, 26, 33, 203, 211, 13, 110, 254, 38, 88, 218, 50, 15,
  32, 169, 157, 132, 152, 5, 156, 187, 34, 140, 99, 231, 197, 225, 115, 198,
  175, 36, 91, 135, 102, 39, 247, 87, 244, 150, 177, 183, 92, 139, 213, 84,
  121, 223, 170, 246, 62, 163, 241, 17, 202, 245, 209, 23, 123, 147, 131, 188,
  189, 82, 30, 235, 174, 204, 214, 53, 8, 200, 138, 180, 226, 205, 191, 217,
  208, 80, 89, 63, 77, 98, 52, 10, 72, 136, 181, 86, 76, 46, 107, 158,
  210, 61, 60, 3, 19, 251, 151, 81, 117, 74, 145, 113, 35, 190, 118, 42,
  95, 249, 212, 85, 11, 220, 55, 49, 22, 116, 215, 119, 167, 230, 7, 219,
  164, 47, 70, 243, 97, 69, 103, 227, 12, 162, 59, 28, 133, 24, 4, 29,
  41, 160, 143, 178, 90, 216, 166, 126, 238, 141, 83, 75, 161, 154, 193, 14,
  122, 73, 165, 44, 129, 196, 199, 54, 43, 127, 67, 149, 51, 242, 108, 104,
  109, 240, 2, 40, 206, 221, 155, 234, 94, 153, 124, 20, 134, 207, 229, 66,
  184, 64, 120, 45, 58, 233, 100, 31, 146, 144, 125, 57, 111, 224, 137, 48]

/-- `EXP(x)` (safer.cpp:50). -/
def EXP (x : Byte) : Byte := expTab.getD x.toNat 0
/-- `LOG(x)` (safer.cpp:51). -/
def LOG (x : Byte) : Byte := logTab.getD x.toNat 0

/-- `PHT(x, y)` (safer.cpp:52): the new `x` and `y`. -/
def PHT (x y : Byte) : Byte × Byte := let y := y + x; let x := x + y; (x, y)
/-- `IPHT(x, y)` (safer.cpp:53). -/
def IPHT (x y : Byte) : Byte × Byte := let x := x - y; let y := y - x; (x, y)

/-- The key addition at the beginning of a round and at the end (safer.cpp:114-115, 126-127); `p` is the position of `key` after the first byte of `keySchedule`. -/
def addKey (k : List Byte) (p : Nat) (s : Oct) : Oct :=
  ⟨s.a ^^^ nth k p, s.b + nth k (p + 1), s.c + nth k (p + 2), s.d ^^^ nth k (p + 3), s.e ^^^ nth k (p + 4), s.f + nth k (p + 5), s.g + nth k (p + 6), s.h ^^^ nth k (p + 7)⟩

/-- `a = EXP(a) + key[8]; …` (safer.cpp:116-119). -/
def substitute (k : List Byte) (p : Nat) (s : Oct) : Oct :=
  ⟨EXP s.a + nth k (p + 8), LOG s.b ^^^ nth k (p + 9), LOG s.c ^^^ nth k (p + 10), EXP s.d + nth k (p + 11), EXP s.e + nth k (p + 12), LOG s.f ^^^ nth k (p + 13), LOG s.g ^^^ nth k (p + 14), EXP s.h + nth k (p + 15)⟩

/-- safer.cpp:121 and 146, with `PHT` and `IPHT` for `T`. -/
def layer1 (T : Byte → Byte → Byte × Byte) (s : Oct) : Oct :=
  ⟨(T s.a s.b).1, (T s.a s.b).2, (T s.c s.d).1, (T s.c s.d).2, (T s.e s.f).1, (T s.e s.f).2, (T s.g s.h).1, (T s.g s.h).2⟩

/-- safer.cpp:122 and 145. -/
def layer2 (T : Byte → Byte → Byte × Byte) (s : Oct) : Oct :=
  ⟨(T s.a s.c).1, (T s.b s.d).1, (T s.a s.c).2, (T s.b s.d).2, (T s.e s.g).1, (T s.f s.h).1, (T s.e s.g).2, (T s.f s.h).2⟩

/-- safer.cpp:123 and 144. -/
def layer3 (T : Byte → Byte → Byte × Byte) (s : Oct) : Oct :=
  ⟨(T s.a s.e).1, (T s.b s.f).1, (T s.c s.g).1, (T s.d s.h).1, (T s.a s.e).2, (T s.b s.f).2, (T s.c s.g).2, (T s.d s.h).2⟩

/-- `t = b; b = e; e = c; c = t; t = d; d = f; f = g; g = t;` (safer.cpp:124). -/
def shuffle (s : Oct) : Oct :=
  let t := s.b; let s := { s with b := s.e }; let s := { s with e := s.c }; let s := { s with c := t }
  let t := s.d; let s := { s with d := s.f }; let s := { s with f := s.g }; { s with g := t }

/-- `t = e; e = b; b = c; c = t; t = f; f = d; d = g; g = t;` (safer.cpp:143). -/
def unshuffle (s : Oct) : Oct :=
  let t := s.e; let s := { s with e := s.b }; let s := { s with b := s.c }; let s := { s with c := t }
  let t := s.f; let s := { s with f := s.d }; let s := { s with d := s.g }; { s with g := t }

/-- The body of the loop of `Enc::ProcessAndXorBlock` (safer.cpp:112-125) for round `i`. -/
def encRound (k : List Byte) (i : Nat) (s : Oct) : Oct :=
  shuffle (layer3 PHT (layer2 PHT (layer1 PHT (substitute k (16 * i) (addKey k (16 * i) s)))))

/-- `Enc::ProcessAndXorBlock` (safer.cpp:105-129) without the mask; `k` is the key schedule after its first byte, which is `rounds`. -/
def enc (k : List Byte) (rounds : Nat) (s : Oct) : Oct := addKey k (16 * rounds) (upto rounds (encRound k) s)

/-- `h ^= key[7]; …; a ^= key[0]` (safer.cpp:138-139). -/
def subKey (k : List Byte) (p : Nat) (s : Oct) : Oct :=
  ⟨s.a ^^^ nth k p, s.b - nth k (p + 1), s.c - nth k (p + 2), s.d ^^^ nth k (p + 3), s.e ^^^ nth k (p + 4), s.f - nth k (p + 5), s.g - nth k (p + 6), s.h ^^^ nth k (p + 7)⟩

/-- safer.cpp:147-148. -/
def takeOff (k : List Byte) (p : Nat) (s : Oct) : Oct :=
  ⟨s.a - nth k (p + 8), s.b ^^^ nth k (p + 9), s.c ^^^ nth k (p + 10), s.d - nth k (p + 11), s.e - nth k (p + 12), s.f ^^^ nth k (p + 13), s.g ^^^ nth k (p + 14), s.h - nth k (p + 15)⟩

/-- `h = LOG(h) ^ key[7]; …` (safer.cpp:149-152). -/
def desubstitute (k : List Byte) (p : Nat) (s : Oct) : Oct :=
  ⟨LOG s.a ^^^ nth k p, EXP s.b - nth k (p + 1), EXP s.c - nth k (p + 2), LOG s.d ^^^ nth k (p + 3), LOG s.e ^^^ nth k (p + 4), EXP s.f - nth k (p + 5), EXP s.g - nth k (p + 6), LOG s.h ^^^ nth k (p + 7)⟩

/-- The body of the loop of `Dec::ProcessAndXorBlock` (safer.cpp:140-153); `key` has been moved to the keys of round `i`. -/
def decRound (k : List Byte) (i : Nat) (s : Oct) : Oct :=
  desubstitute k (16 * i) (takeOff k (16 * i) (layer1 IPHT (layer2 IPHT (layer3 IPHT (unshuffle s)))))

/-- `Dec::ProcessAndXorBlock` (safer.cpp:131-155) without the mask. `keySchedule + 8 * (1 + 2 * round) - 7` is 1 + 16 * round. -/
def dec (k : List Byte) (rounds : Nat) (s : Oct) : Oct := downto rounds (decRound k) (subKey k (16 * rounds) s)

/-- `ka[8] = ka[0] ^ … ^ ka[7]` (safer.cpp:73-79). -/
def withParity (l : List Byte) : List Byte := l ++ [l.foldl (· ^^^ ·) 0]

/-- The loop over `i` of the key schedule (safer.cpp:81-100), `n` rounds from `i` on. -/
def expand (strengthened : Bool) : Nat → Nat → List Byte → List Byte → List Byte
  | 0, _, _, _ => []
  | n + 1, i, ka, kb =>
    let ka := ka.map (rotl · 6)
    let kb := kb.map (rotl · 6)
    (List.range 8).map (fun j => nth ka (if strengthened then (j + 2 * i - 1) % 9 else j) + EXP (EXP (BitVec.ofNat 8 (18 * i + j + 1))))
      ++ (List.range 8).map (fun j => nth kb (if strengthened then (j + 2 * i) % 9 else j) + EXP (EXP (BitVec.ofNat 8 (18 * i + j + 10))))
      ++ expand strengthened n (i + 1) ka kb

/-- The bytes `UncheckedSetKey` (safer.cpp:58-101) writes after the number of rounds. -/
def schedule (strengthened : Bool) (key : List Byte) (rounds : Nat) : List Byte :=
  let key1 := key.take 8
  let key2 := if key.length = 8 then key else (key.drop 8).take 8
  key2 ++ expand strengthened rounds 1 (withParity (key1.map (rotl · 5))) (withParity key2)

/-- Eight bytes as a block. -/
def on8 (f : Oct → Oct) (l : List Byte) : List Byte :=
  match l with
  | [a, b, c, d, e, f', g, h] => let s := f ⟨a, b, c, d, e, f', g, h⟩; [s.a, s.b, s.c, s.d, s.e, s.f, s.g, s.h]
  | _ => l

/-- `SetKey` (cryptlib.cpp:58-62) and `UncheckedSetKey` (safer.cpp:58-101), for keys of 8 and 16 bytes (safer.h:66, 83). `rounds` is the `int` parameter; it is read into an `unsigned int`, the buffer gets `1 + 8 * (1 + 2 * nof_rounds)` bytes in 32-bit arithmetic, and only then is the number cut down to 13. Writing past the buffer is undefined behaviour. A failing allocation is not modelled. -/
def setKey (strengthened : Bool) (key : List Byte) (rounds : Option Int) : Except Err Keyed :=
  if key.length ≠ 8 ∧ key.length ≠ 16 then .error .invalidArgument else
  let r := ((rounds.getD (if key.length = 8 then (if strengthened then 8 else 6) else 10)) % 2 ^ 32).toNat
  let size := (1 + 8 * (1 + 2 * r)) % 2 ^ 32
  let n := if 13 < r then 13 else r
  if 1 + (schedule strengthened key n).length > size then .error .undefinedBehaviour else
  .ok ⟨8, on8 (enc (schedule strengthened key n) n), on8 (dec (schedule strengthened key n) n)⟩

end Verif.Cipher.Safer
