import Verif.Misc.Precision
import Verif.Common

/-!
# Integers as text (integer.cpp, misc.h)

The arithmetic of the class `Integer` is replaced by that of the integers: C23 to C25 show that it is exact.
-/
namespace Verif.IntStr

/-- The digit of a character (integer.cpp:3253-3263, 3280-3289, 3313-3322); what is no digit counts as the radix. -/
def digitOf (radix : Nat) (ch : Char) : Nat :=
  if ch ≥ '0' ∧ ch ≤ '9' then ch.toNat - '0'.toNat
  else if ch ≥ 'a' ∧ ch ≤ 'f' then ch.toNat - 'a'.toNat + 10
  else if ch ≥ 'A' ∧ ch ≤ 'F' then ch.toNat - 'A'.toNat + 10
  else radix

/-- The loop for `BIG_ENDIAN_ORDER` (integer.cpp:3249-3271). -/
def bigLoop (radix : Nat) : List Char → Nat → Nat
  | [], v => v
  | ch :: s, v => bigLoop radix s (if digitOf radix ch < radix then v * radix + digitOf radix ch else v)

/-- The loop for hexadecimal and `LITTLE_ENDIAN_ORDER` (integer.cpp:3272-3308). -/
def littleLoop : List Char → (nh nl nc position v : Nat) → Nat
  | [], nh, _, nc, position, v => if nc = 1 then v + nh * position else v
  | ch :: s, nh, nl, nc, position, v =>
    let digit := digitOf 16 ch
    if digit < 16 then
      let nh := if nc = 0 then digit else nh
      let nl := if nc = 0 then nl else digit
      let nc := nc + 1
      if nc = 2 then littleLoop s nh nl 0 (position * 256) (v + position * (nh <<< 4 ||| nl))
      else littleLoop s nh nl nc position v
    else littleLoop s nh nl nc position v

/-- The radix the last character asks for (integer.cpp:3203-3219). -/
def suffixRadix (c : Char) : Nat :=
  if c = 'h' ∨ c = 'H' then 16 else if c = 'o' ∨ c = 'O' then 8 else if c = 'b' ∨ c = 'B' then 2 else 10

/-- The prefixes (integer.cpp:3230-3247): the radix and the text after the prefix. -/
def prefixed (radix : Nat) (str : List Char) : Nat × List Char :=
  if str.length > 2 ∧ str.getD 0 ' ' = '0' then
    if str.getD 1 ' ' = 'x' ∨ str.getD 1 ' ' = 'X' then (16, str.drop 2)
    else if str.getD 1 ' ' = 'n' ∨ str.getD 1 ' ' = 'N' then (10, str.drop 2)
    else if str.getD 1 ' ' = 'o' ∨ str.getD 1 ' ' = 'O' then (8, str.drop 2)
    else (radix, str)
  else (radix, str)

/-- `StringToInteger` (integer.cpp:3187-3336) on the characters before the terminating NUL. -/
def parse (little : Bool) (str : List Char) : Int :=
  if str.length = 0 then 0 else
  let radix := suffixRadix (str.getD (str.length - 1) ' ')
  let negative := str.getD 0 ' ' = '-'
  let str := if negative then str.drop 1 else str
  let (radix, str) := prefixed radix str
  let v := if little = false then bigLoop radix str 0
    else if radix = 16 then littleLoop str 0 0 0 1 0
    else bigLoop radix str.reverse 0
  if negative then -(v : Int) else v

/-- The loop that fills the buffer `s` (integer.cpp:3740-3746, 4800-4806), least significant digit first, with `room` characters left. `Integer::Divide` throws for a base of 0. -/
def fill (base : Nat) (vec : Nat → Char) : Nat → Nat → Except Err (List Char)
  | room, value =>
    if value = 0 then .ok [] else
    if base = 0 then .error .divideByZero else
    match room with
    | 0 => .error .undefinedBehaviour
    | room + 1 => (fill base vec room (value / base)).map (vec (value % base) :: ·)

/-- The size of that buffer (integer.cpp:3738, 4796); `BitCount` is the length in bits, and so is `BitPrecision` (`Misc.bitPrecision_eq`). `SaturatingSubtract1` (misc.h:1319-1323) is at least 1. -/
def room (base value : Nat) : Nat := Misc.bitLen value / (if Misc.bitLen base > 1 then Misc.bitLen base - 1 else 1) + 1

/-- `upper` and `lower` (integer.cpp:3733-3736). -/
def digitChars (upper : Bool) : List Char := if upper then "0123456789ABCDEF".toList else "0123456789abcdef".toList

/-- The three values of the `basefield` flags (integer.cpp:3707-3713). -/
inductive Field where | dec | hex | oct
deriving DecidableEq

/-- `FlagToBase` (integer.cpp:3707-3709). -/
def Field.base : Field → Nat | .hex => 16 | .oct => 8 | .dec => 10
/-- `FlagToSuffix` (integer.cpp:3711-3713). -/
def Field.suffix : Field → Char | .hex => 'h' | .oct => 'o' | .dec => '.'

/-- `operator<<` (integer.cpp:3716-3761): the characters written. `CRYPTOPP_USE_STD_SHOWBASE` is not defined (config_misc.h:111). -/
def insert (f : Field) (upper : Bool) (a : Int) : Except Err (List Char) :=
  match fill f.base (fun d => (digitChars upper).getD d ' ') (room f.base a.natAbs) a.natAbs with
  | .error e => .error e
  | .ok s => .ok ((if a < 0 then ['-'] else []) ++ (if a = 0 then ['0'] else []) ++ s.reverse ++ [f.suffix])

/-- `char((digit < 10 ? '0' : (CH - 10)) + digit)` (integer.cpp:4804, misc.h:949). -/
def digitChar (upper : Bool) (digit : Nat) : Char :=
  Char.ofNat ((if digit < 10 then '0'.toNat else (if upper then 'A' else 'a').toNat - 10) + digit)

/-- The suffix of `IntToString` (integer.cpp:4820-4830). -/
def suffixOf (base : Nat) : List Char :=
  if base = 10 then ['.'] else if base = 16 then ['h'] else if base = 8 then ['o'] else if base = 2 then ['b'] else []

/-- `IntToString<Integer>` (integer.cpp:4771-4833); `upper` and `suffix` are the two high bits of the argument `base`. -/
def intToString (base : Nat) (upper suffix : Bool) (value : Int) : Except Err (List Char) :=
  if value = 0 then .ok ['0'] else
  match fill base (digitChar upper) (room base value.natAbs) value.natAbs with
  | .error e => .error e
  | .ok s => .ok ((if value < 0 then ['-'] else []) ++ s.reverse ++ (if suffix then suffixOf base else []))

/-- `IntToString<T>` (misc.h:929-956) for a signed type of `w` bits, for a base of at least 2. The string grows: there is no buffer. `0-value` overflows for the least value. -/
def intToStringT (w : Nat) (base : Nat) (upper : Bool) (value : Int) : Except Err (List Char) :=
  if value = 0 then .ok ['0'] else
  if value < 0 ∧ ¬ (0 - value < 2 ^ (w - 1)) then .error .undefinedBehaviour else
  match fill base (digitChar upper) w value.natAbs with
  | .error e => .error e
  | .ok s => .ok ((if value < 0 then ['-'] else []) ++ s.reverse)

/-- The characters `operator>>` takes (integer.cpp:3696). -/
def taken (c : Char) : Bool :=
  c = '-' || c = 'x' || (c ≥ '0' && c ≤ '9') || (c ≥ 'a' && c ≤ 'f') || (c ≥ 'A' && c ≤ 'F') || c = 'h' || c = 'H' || c = 'o' || c = 'O' || c = ',' || c = '.'

/-- What `std::ws` skips, in the C locale. -/
def space (c : Char) : Bool := c = ' ' || c = '\n' || c = '\t' || c = '\r' || c = '\x0b' || c = '\x0c'

/-- The loop of `operator>>` (integer.cpp:3689-3696): the text `str` without its last character, what is left in the stream after `putback`, and whether the stream has failed: `read` fails at the end of the stream. -/
def readLoop : List Char → List Char × List Char × Bool
  | [] => ([], [], true)
  | c :: s => if taken c then (c :: (readLoop s).1, (readLoop s).2.1, (readLoop s).2.2) else ([], c :: s, false)

/-- `operator>>` (integer.cpp:3681-3704) on a good stream with these characters: the number, the rest of the stream, and whether the stream has failed. -/
def extract (input : List Char) : Int × List Char × Bool :=
  let (str, rest, fail) := readLoop (input.dropWhile space)
  (parse false str, rest, fail)

end Verif.IntStr
