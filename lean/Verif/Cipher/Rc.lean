import Verif.Cipher.Rounds

/-!
# rc5.cpp, rc6.cpp, rc2.cpp
-/
namespace Verif.Cipher

/-! ## The key schedule shared by RC5 and RC6 -/
namespace Rc

/-- rc5.cpp:28-30, rc6.cpp:29-31: `sTable[0] = P; sTable[j] = sTable[j-1] + Q`. -/
def initTable : Nat → W32 → List W32
  | 0, _ => []
  | n + 1, x => x :: initTable n (x + 0x9e3779b9)

/-- rc5.cpp:35-39, rc6.cpp:36-40: iterations `h, h+1, ...` of the mixing loop. -/
def mix (size c : Nat) : Nat → Nat → List W32 → List W32 → W32 → W32 → List W32
  | 0, _, s, _, _, _ => s
  | m + 1, h, s, l, a, b =>
    let a' := rotl (nth s (h % size) + a + b) 3
    let s := s.set (h % size) a'
    let b' := rotl (nth l (h % c) + a' + b) (a' + b).toNat
    mix size c m (h + 1) s (l.set (h % c) b') a' b'

/-- rc5.cpp:10-40, rc6.cpp:11-41, for a table of `size` words; the count of iterations is an `unsigned int`. -/
def schedule (size : Nat) (key : List Byte) : List W32 :=
  let c := max ((key.length + 3) / 4) 1
  mix size c (3 * max size c % 2 ^ 32) 0 (initTable size 0xb7e15163) (getUserKey .little 4 c key) 0 0

end Rc

/-! ## RC5 -/
namespace Rc5

/-- rc5.cpp:52-56: iteration `i`. -/
def encRound (s : List W32) (i : Nat) : W32 × W32 → W32 × W32 := fun (a, b) =>
  let a := rotl (a ^^^ b) b.toNat + nth s (2 + 2 * i + 0)
  let b := rotl (a ^^^ b) a.toNat + nth s (2 + 2 * i + 1)
  (a, b)

/-- rc5.cpp:44-59. -/
def enc (s : List W32) (r : Nat) : W32 × W32 → W32 × W32 := fun (a, b) => upto r (encRound s) (a + nth s 0, b + nth s 1)

/-- rc5.cpp:68-73: iteration `i`; `sptr` was moved back `i+1` times from the end of the table of `size` words. -/
def decRound (s : List W32) (size i : Nat) : W32 × W32 → W32 × W32 := fun (a, b) =>
  let sptr := size - 2 * (i + 1)
  let b := rotr (b - nth s (sptr + 1)) a.toNat ^^^ a
  let a := rotr (a - nth s (sptr + 0)) b.toNat ^^^ b
  (a, b)

/-- rc5.cpp:61-78. -/
def dec (s : List W32) (r : Nat) (size : Nat) : W32 × W32 → W32 × W32 := fun x =>
  let (a, b) := upto r (decRound s size) x
  (a - nth s 0, b - nth s 1)

/-- rc5.cpp:10-40 with cryptlib.cpp:58-62 `SetKey`.  The size of the table is an `unsigned int`; if it is too small for the accesses made,
they are out of bounds. -/
def setKey (key : List Byte) (rounds : Int := 16) : Except Err Keyed := do
  if key.length > 255 then throw .invalidArgument
  let r ← getRounds 1 rounds
  let size := 2 * (r + 1) % 2 ^ 32
  if size < 2 * (r + 1) then throw .undefinedBehaviour
  let s := Rc.schedule size key
  pure (ofWords .little 4 2 (on2 (enc s r)) (on2 (dec s r size)))

end Rc5

/-! ## RC6 -/
namespace Rc6

abbrev St := W32 × W32 × W32 × W32

/-- rc6.cpp:55-61: iteration `i`. -/
def encRound (s : List W32) (i : Nat) : St → St := fun (a, b, c, d) =>
  let t := rotl (b * (2 * b + 1)) 5
  let u := rotl (d * (2 * d + 1)) 5
  let a := rotl (a ^^^ t) u.toNat + nth s (2 + 2 * i + 0)
  let c := rotl (c ^^^ u) t.toNat + nth s (2 + 2 * i + 1)
  (b, c, d, a)

/-- rc6.cpp:45-68. -/
def enc (s : List W32) (r : Nat) : St → St := fun (a, b, c, d) =>
  let (a, b, c, d) := upto r (encRound s) (a, b + nth s 0, c, d + nth s 1)
  (a + nth s (2 + 2 * r + 0), b, c + nth s (2 + 2 * r + 1), d)

/-- rc6.cpp:83-89: iteration `i`; `sptr` was moved back `i+2` times. -/
def decRound (s : List W32) (size i : Nat) : St → St := fun (a, b, c, d) =>
  let sptr := size - 2 * (i + 2)
  let (a, b, c, d) := (d, a, b, c)
  let u := rotl (d * (2 * d + 1)) 5
  let t := rotl (b * (2 * b + 1)) 5
  let c := rotr (c - nth s (sptr + 1)) t.toNat ^^^ u
  let a := rotr (a - nth s (sptr + 0)) u.toNat ^^^ t
  (a, b, c, d)

/-- rc6.cpp:70-94. -/
def dec (s : List W32) (r size : Nat) : St → St := fun (a, b, c, d) =>
  let sptr := size - 2
  let (a, b, c, d) := upto r (decRound s size) (a - nth s (sptr + 0), b, c - nth s (sptr + 1), d)
  (a, b - nth s 0, c, d - nth s 1)

/-- rc6.cpp:11-41 with cryptlib.cpp:58-62 `SetKey`; key lengths 16, 24 and 32 (rc6.h:17). -/
def setKey (key : List Byte) (rounds : Int := 20) : Except Err Keyed := do
  if key.length ≠ 16 ∧ key.length ≠ 24 ∧ key.length ≠ 32 then throw .invalidArgument
  let r ← getRounds 1 rounds
  let size := 2 * (r + 2) % 2 ^ 32
  if size < 2 * (r + 2) then throw .undefinedBehaviour
  let s := Rc.schedule size key
  pure (ofWords .little 4 4 (on4 (enc s r)) (on4 (dec s r size)))

end Rc6

/-! ## RC2 -/
namespace Rc2

abbrev W16 := BitVec (8 * 2)
abbrev St := W16 × W16 × W16 × W16

/-- rc2.cpp:18-34 `PITABLE`. -/
def PITABLE : List Byte := [
  217,120,249,196, 25,221,181,237, 40,233,253,121, 74,160,216,157,
  198,126, 55,131, 43,118, 83,142, 98, 76,100,136, 68,139,251,162,
   23,154, 89,245,135,179, 79, 19, 97, 69,109,141,  9,129,125, 50,
  189,143, 64,235,134,183,123, 11,240,149, 33, 34, 92,107, 78,130,
   84,214,101,147,206, 96,178, 28,115, 86,192, 20,167,140,241,220,
   18,117,202, 31, 59,190,228,209, 66, 61,212, 48,163, 60,182, 38,
  111,191, 14,218, 70,105,  7, 87, 39,242, 29,155,188,148, 67,  3,
  248, 17,199,246,144,239, 62,231,  6,195,213, 47,200,102, 30,215,
    8,232,234,222,128, 82,238,247,132,170,114,172, 53, 77,106, 42,
  150, 26,210,113, 90, 21, 73,116, 75,159,208, 94,  4, 24,164,236,
  194,224, 65,110, 15, 81,203,204, 36,145,175, 80,161,244,112, 57,
  153,124, 58,133, 35,184,180,122,252,  2, 54, 91, 37, 85,151, 49,
   45, 93,250,152,227,138,146,174,  5,223, 41, 16,103,108,186,201,
  211,  0,230,207,225,158,168, 44, 99, 22,  1, 63, 88,226,137,169,
   13, 56, 52, 27,171, 51,255,176,187, 72, 12, 95,185,177,205, 46,
  197,243,219, 71,229,165,156,119, 10,166, 32,104,254,127,193,173]

/-- The entry for a byte. -/
def pi (b : Byte) : Byte := nth PITABLE b.toNat

/-- rc2.cpp:37-41: the key, extended to 128 bytes (`m` bytes are missing). -/
def extend (keyLen : Nat) : Nat → List Byte → List Byte
  | 0, L => L
  | m + 1, L => extend keyLen m (L ++ [pi (nth L (L.length - 1) + nth L (L.length - keyLen))])

/-- rc2.cpp:47-48: `for (i=127-T8; i>=0; i--)`; `i+1` iterations left. -/
def back (T8 : Nat) : Nat → List Byte → List Byte
  | 0, L => L
  | i + 1, L => back T8 i (L.set i (pi (nth L (i + 1) ^^^ nth L (i + T8))))

/-- rc2.cpp:10-52 with cryptlib.cpp:58-62 `SetKey`: key lengths 1 to 128.  `T8` is an `unsigned int`: an effective length of zero bits or
fewer gives an index outside of the array (rc2.cpp:45). -/
def schedule (key : List Byte) (effectiveLen : Int) : Except Err (List W16) := do
  if key.length < 1 ∨ 128 < key.length then throw .invalidArgument
  if effectiveLen > 1024 then throw .invalidArgument
  let L := extend key.length (128 - key.length) key
  let T8 := (Int.tdiv (effectiveLen + 7) 8 % 2 ^ 32).toNat
  let at128 := (128 + 2 ^ 32 - T8) % 2 ^ 32
  if 128 ≤ at128 then throw .undefinedBehaviour
  let TM : Byte := BitVec.ofNat 8 (255 >>> ((8 - Int.tmod effectiveLen 8) % 8).toNat)
  let L := L.set at128 (pi (nth L at128 &&& TM))
  let L := back T8 at128 L
  pure ((List.range 64).map fun i => BitVec.ofNat 16 ((nth L (2 * i)).toNat + (nth L (2 * i + 1)).toNat * 256))

/-- rc2.cpp:63-73: the mixing steps of iteration `i`.  The sums are those of `int`s, truncated to sixteen bits. -/
def mixUp (K : List W16) (i : Nat) : St → St := fun (R0, R1, R2, R3) =>
  let R0 := rotl (R0 + ((R1 &&& ~~~R3) + (R2 &&& R3) + nth K (4 * i + 0))) 1
  let R1 := rotl (R1 + ((R2 &&& ~~~R0) + (R3 &&& R0) + nth K (4 * i + 1))) 2
  let R2 := rotl (R2 + ((R3 &&& ~~~R1) + (R0 &&& R1) + nth K (4 * i + 2))) 3
  let R3 := rotl (R3 + ((R0 &&& ~~~R2) + (R1 &&& R2) + nth K (4 * i + 3))) 5
  (R0, R1, R2, R3)

/-- rc2.cpp:77-80: the mashing steps. -/
def mash (K : List W16) : St → St := fun (R0, R1, R2, R3) =>
  let R0 := R0 + nth K (R3 &&& 63).toNat
  let R1 := R1 + nth K (R0 &&& 63).toNat
  let R2 := R2 + nth K (R1 &&& 63).toNat
  let R3 := R3 + nth K (R2 &&& 63).toNat
  (R0, R1, R2, R3)

/-- rc2.cpp:61-82: iteration `i`. -/
def encRound (K : List W16) (i : Nat) : St → St := fun s => if i = 4 ∨ i = 10 then mash K (mixUp K i s) else mixUp K i s

/-- rc2.cpp:96-99. -/
def unmash (K : List W16) : St → St := fun (R0, R1, R2, R3) =>
  let R3 := R3 - nth K (R2 &&& 63).toNat
  let R2 := R2 - nth K (R1 &&& 63).toNat
  let R1 := R1 - nth K (R0 &&& 63).toNat
  let R0 := R0 - nth K (R3 &&& 63).toNat
  (R0, R1, R2, R3)

/-- rc2.cpp:102-112. -/
def mixDown (K : List W16) (i : Nat) : St → St := fun (R0, R1, R2, R3) =>
  let R3 := rotr R3 5 - ((R0 &&& ~~~R2) + (R1 &&& R2) + nth K (4 * i + 3))
  let R2 := rotr R2 3 - ((R3 &&& ~~~R1) + (R0 &&& R1) + nth K (4 * i + 2))
  let R1 := rotr R1 2 - ((R2 &&& ~~~R0) + (R3 &&& R0) + nth K (4 * i + 1))
  let R0 := rotr R0 1 - ((R1 &&& ~~~R3) + (R2 &&& R3) + nth K (4 * i + 0))
  (R0, R1, R2, R3)

/-- rc2.cpp:92-113: iteration `i`. -/
def decRound (K : List W16) (i : Nat) : St → St := fun s => if i = 4 ∨ i = 10 then mixDown K i (unmash K s) else mixDown K i s

/-- rc2.cpp:10-116. -/
def setKey (key : List Byte) (effectiveLen : Int := 1024) : Except Err Keyed := do
  let K ← schedule key effectiveLen
  pure (ofWords .little 2 4 (on4 (upto 16 (encRound K))) (on4 (downto 16 (decRound K))))

end Rc2
end Verif.Cipher
