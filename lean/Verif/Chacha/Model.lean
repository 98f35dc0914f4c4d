import Verif.Auth.Model
import Verif.Stream.Model
import Verif.Poly1305.Model
import Verif.Cipher.Basic

/-!
# ChaCha, ChaChaTLS, XChaCha20 (chacha.h, chacha.cpp) and ChaCha20Poly1305, XChaCha20Poly1305 (chachapoly.h, chachapoly.cpp)

The C++ code. The SIMD functions `ChaCha_OperateKeystream_AVX2`, `_SSE2`, `_NEON` and `_ALTIVEC` (chacha_avx.cpp, chacha_simd.cpp) are not modelled: they are assumed to write the blocks of the states whose word 12
is greater by 0, 1, ... and the code that calls them is modelled for every list of them.
-/
namespace Verif.Chacha

abbrev W := BitVec 32

/-- `CHACHA_QUARTER_ROUND` (chacha.cpp:48-52). -/
def quarter (a b c d : W) : W × W × W × W :=
  let a := a + b
  let d := d ^^^ a
  let d := Cipher.rotl d 16
  let c := c + d
  let b := b ^^^ c
  let b := Cipher.rotl b 12
  let a := a + b
  let d := d ^^^ a
  let d := Cipher.rotl d 8
  let c := c + d
  let b := b ^^^ c
  let b := Cipher.rotl b 7
  (a, b, c, d)

/-- The body of the loop over the rounds (chacha.cpp:183-191, 218-226). -/
def doubleRound : List W → List W
  | [x0, x1, x2, x3, x4, x5, x6, x7, x8, x9, x10, x11, x12, x13, x14, x15] =>
    let (x0, x4, x8, x12) := quarter x0 x4 x8 x12
    let (x1, x5, x9, x13) := quarter x1 x5 x9 x13
    let (x2, x6, x10, x14) := quarter x2 x6 x10 x14
    let (x3, x7, x11, x15) := quarter x3 x7 x11 x15
    let (x0, x5, x10, x15) := quarter x0 x5 x10 x15
    let (x1, x6, x11, x12) := quarter x1 x6 x11 x12
    let (x2, x7, x8, x13) := quarter x2 x7 x8 x13
    let (x3, x4, x9, x14) := quarter x3 x4 x9 x14
    [x0, x1, x2, x3, x4, x5, x6, x7, x8, x9, x10, x11, x12, x13, x14, x15]
  | s => s

/-- `for (int i = rounds; i > 0; i -= 2)` (chacha.cpp:181-192). -/
def roundLoop : Nat → List W → List W
  | 0, s => s
  | 1, s => doubleRound s
  | i + 2, s => roundLoop i (doubleRound s)

/-- `CHACHA_OUTPUT` (chacha.cpp:54-70): what is written, or combined with the input. -/
def block (rounds : Nat) (s : List W) : List Byte := (List.zipWith (· + ·) (roundLoop rounds s) s).flatMap fun w => leBytes 4 w.toNat

/-- `MultiBlockSafe` (chacha.cpp:86-89). -/
def multiBlockSafe (ctrLow : W) (blocks : Nat) : Bool := (0xffffffff - ctrLow : W).toNat > blocks

/-- What a SIMD function for `w` blocks writes. -/
def simdBlocks (rounds w : Nat) (s : List W) : List Byte := (List.range w).flatMap fun j => block rounds (s.set 12 (s.getD 12 0 + BitVec.ofNat 32 j))

/-- `while (iterationCount >= w && MultiBlockSafe(state[12], w))` (chacha.cpp:103-114, 121-132, 139-150, 157-168): the state, the keystream, the iterations that are left. -/
def simdLoop (rounds w : Nat) : Nat → List W → Nat → List W × List Byte × Nat
  | 0, s, n => (s, [], n)
  | fuel + 1, s, n =>
    if n ≥ w ∧ multiBlockSafe (s.getD 12 0) w then
      let (s', out, n') := simdLoop rounds w fuel (s.set 12 (s.getD 12 0 + BitVec.ofNat 32 w)) (n - w)
      (s', simdBlocks rounds w s ++ out, n')
    else (s, [], n)

/-- The SIMD functions the machine has, in the order of the code. -/
def simdAll (rounds : Nat) : List Nat → List W → Nat → List W × List Byte × Nat
  | [], s, n => (s, [], n)
  | w :: ws, s, n =>
    let (s1, out1, n1) := simdLoop rounds w n s n
    let (s2, out2, n2) := simdAll rounds ws s1 n1
    (s2, out1 ++ out2, n2)

/-- `if (++ctrLow == 0) ctrHigh++` (chacha.cpp:198-199): `carry` says that `ctrHigh` is word 13 and not a variable that is dropped. -/
def bump (carry : Bool) (s : List W) : List W :=
  let low := s.getD 12 0 + 1
  let s := s.set 12 low
  if low = 0 ∧ carry then s.set 13 (s.getD 13 0 + 1) else s

/-- `ChaCha_OperateKeystream` (chacha.cpp:94-204). -/
def operateLoop (ws : List Nat) (carry : Bool) (rounds : Nat) : Nat → List W → Nat → List W × List Byte
  | 0, s, _ => (s, [])
  | fuel + 1, s, n =>
    let (s1, out1, n1) := simdAll rounds ws s n
    if n1 = 0 then (s1, out1)
    else
      let (s2, out2) := operateLoop ws carry rounds fuel (bump carry s1) (n1 - 1)
      (s2, out1 ++ block rounds s1 ++ out2)

/-- `HChaCha_OperateKeystream` (chacha.cpp:207-233). -/
def hchacha (s : List W) : List W := (roundLoop 20 s).take 4 ++ (roundLoop 20 s).drop 12

/-- `GetBlock<word32, LittleEndian>`: `n` words. -/
def getWords : Nat → List Byte → List W
  | 0, _ => []
  | n + 1, b => BitVec.ofNat 32 (leVal (b.take 4)) :: getWords n (b.drop 4)

/-- Initialisation vectors of `n` bytes: `ThrowIfInvalidIVLength` lets no others through. -/
abbrev Iv (n : Nat) := { v : List Byte // v.length = n }

/-- The policy objects: `m_state[0..15]`, `m_state[16..23]` with the key, `m_counter`, `m_rounds`. -/
structure Pol where
  state : List W
  key : List W
  counter : W
  rounds : Nat

/-- `ChaCha_Policy::CipherSetKey` (chacha.cpp:321-345); `rounds` is the parameter of that name. -/
def chachaSetKey (p : Pol) (rounds : Option Int) (key : List Byte) : Except Err Pol :=
  let r := rounds.getD p.rounds
  if r ≠ 20 ∧ r ≠ 12 ∧ r ≠ 8 then .error .invalidArgument
  else .ok { p with
    rounds := r.toNat
    state := [0x61707865, if key.length = 16 then 0x3120646e else 0x3320646e, if key.length = 16 then 0x79622d36 else 0x79622d32, 0x6b206574] ++
      getWords 4 key ++ getWords 4 (key.drop (if key.length = 32 then 16 else 0)) ++ p.state.drop 12 }

/-- `ChaCha_Policy` (chacha.h:57-79, chacha.cpp:347-378). -/
def chacha (ws : List Nat) : Stream.Policy Pol (Iv 8) where
  bpi := 64
  iters := 1
  canOperate := true
  write := fun p n => let r := operateLoop ws true p.rounds (n + 1) p.state n; ({ p with state := r.1 }, r.2)
  operate := fun p x n => let r := operateLoop ws true p.rounds (n + 1) p.state n; ({ p with state := r.1 }, xorBytes x r.2)
  seek := fun p j => .ok { p with state := (p.state.set 12 (BitVec.ofNat 32 j)).set 13 (BitVec.ofNat 32 (j / 2 ^ 32)) }
  resync := fun p iv => { p with state := p.state.take 12 ++ [0, 0] ++ getWords 2 iv.1 }

/-- `ChaChaTLS_Policy::CipherSetKey` (chacha.cpp:392-419); `first` is the parameter `InitialBlock`. -/
def tlsSetKey (p : Pol) (rounds : Option Int) (first : Option Nat) (key : List Byte) : Except Err Pol :=
  if rounds.getD 20 ≠ 20 then .error .invalidArgument
  else .ok { p with counter := BitVec.ofNat 32 (first.getD 0), key := getWords 8 key }

/-- `ChaChaTLS_Policy` (chacha.h:114-142, chacha.cpp:421-473). -/
def tls (ws : List Nat) : Stream.Policy Pol (Iv 12) where
  bpi := 64
  iters := 1
  canOperate := true
  write := fun p n => let r := operateLoop ws false 20 (n + 1) p.state n; ({ p with state := r.1 }, r.2)
  operate := fun p x n => let r := operateLoop ws false 20 (n + 1) p.state n; ({ p with state := r.1 }, xorBytes x r.2)
  seek := fun p j => .ok { p with state := p.state.set 12 (BitVec.ofNat 32 j) }
  resync := fun p iv => { p with state := [0x61707865, 0x3320646e, 0x79622d32, 0x6b206574] ++ p.key ++ [p.counter] ++ getWords 3 iv.1 }

/-- `XChaCha20_Policy::CipherSetKey` (chacha.cpp:488-511). -/
def xSetKey (p : Pol) (rounds : Option Int) (first : Option Nat) (key : List Byte) : Except Err Pol :=
  let r := rounds.getD p.rounds
  if r ≠ 20 ∧ r ≠ 12 then .error .invalidArgument
  else .ok { p with rounds := r.toNat, counter := BitVec.ofNat 32 (first.getD 1), key := getWords 8 key }

/-- `XChaCha20_Policy` (chacha.h:180-207, chacha.cpp:513-566). `SeekToIteration` does nothing. -/
def xchacha (ws : List Nat) : Stream.Policy Pol (Iv 24) where
  bpi := 64
  iters := 1
  canOperate := true
  write := fun p n => let r := operateLoop ws true p.rounds (n + 1) p.state n; ({ p with state := r.1 }, r.2)
  operate := fun p x n => let r := operateLoop ws true p.rounds (n + 1) p.state n; ({ p with state := r.1 }, xorBytes x r.2)
  seek := fun p _ => .ok p
  resync := fun p iv => { p with state :=
    let s := [0x61707865, 0x3320646e, 0x79622d32, 0x6b206574] ++ p.key ++ getWords 4 iv.1
    [0x61707865, 0x3320646e, 0x79622d32, 0x6b206574] ++ hchacha s ++ [p.counter, 0] ++ getWords 1 (iv.1.drop 16) ++ getWords 1 (iv.1.drop 20) }

/-- `m_userKey`, `m_cipher`, `m_mac` and the two totals of the base class when the message ended; `junk` is what newly allocated memory holds. -/
structure Obj where
  userKey : List Byte
  cipher : Stream.State Pol
  mac : Poly1305.St
  lens : Nat × Nat
  junk : Mem

/-- Keys of 32 bytes: `IsValidKeyLength` (chachapoly.h:52-53, 193-194). -/
abbrev Key := { k : List Byte // k.length = 32 }

section
variable (ws : List Nat) (x : Bool)

/-- `IVSize` (chachapoly.h:58-63, 199-204). -/
def ivLen : Bool → Nat
  | true => 24
  | false => 12

/-- `m_cipher`: `XChaCha20` if `x`, else `ChaChaTLS`. -/
def cipher : (x : Bool) → Stream.Policy Pol (Iv (ivLen x))
  | true => xchacha ws
  | false => tls ws

/-- `CipherSetKey` with the parameter `InitialBlock`. No one sets `Rounds`, so `m_rounds` of `XChaCha20_Policy` is 20 as its constructor left it. -/
def cipherSetKey (p : Pol) (first : Nat) (key : List Byte) : Except Err Pol := if x then xSetKey p (some 20) (some first) key else tlsSetKey p none (some first) key

/-- The 16 bytes of the array `m_acc`. -/
def acc16 (s : Poly1305.St) : Poly1305.St := { s with acc := (s.acc ++ List.replicate 16 0).take 16 }

/-- `RekeyCipherAndMac` (chachapoly.cpp:22-39, 122-139). `SecByteBlock(NULLPTR, 32)` is zero (secblock.h:789-796). `Resynchronize` of the base class has set the totals to 0. -/
def rekey (o : Obj) (iv : Iv (ivLen x)) : Except Err Obj := do
  let p0 ← cipherSetKey x o.cipher.pol 0 o.userKey
  let (c, derived) ← Stream.processData (cipher ws x) (Stream.setKey (cipher ws x) p0 iv o.junk) (List.replicate 32 0)
  let p1 ← cipherSetKey x c.pol 1 o.userKey
  .ok { o with lens := (0, 0), mac := Poly1305.setKeyTLS (acc16 o.mac) derived, cipher := Stream.setKey (cipher ws x) p1 iv o.junk }

/-- The zeros of `AuthenticateLastHeaderBlock` and `AuthenticateLastConfidentialBlock` (chachapoly.cpp:71-85, 171-185). -/
def padTo16 (total : Nat) : List Byte := List.replicate ((16 - total % 16) % 16) 0

/-- `ChaCha20Poly1305_Base`, `XChaCha20Poly1305_Base` (chachapoly.h:29-124, 170-265) and their `_Final`. The totals `AuthenticateLastFooterBlock` reads are the ones at the end of the message: only `ProcessData` changes them,
which throws after that, and `TruncatedFinal` throws if there is a footer. -/
def aead (forward : Bool) : Auth.Hooks Obj Key where
  blockSize := 1
  onPlaintext := false
  forward := forward
  maxHeader := 2 ^ 64 - 1
  maxMessage := 274877906880
  maxFooter := 0
  digestSize := 16
  ivOk := fun n => n == ivLen x
  setKey := fun o k => { o with userKey := k.1 }
  resync := fun o iv => if h : iv.length = ivLen x then rekey ws x o ⟨iv, h⟩ else .error .undefinedBehaviour
  authBlocks := fun o d => .ok ({ o with mac := Poly1305.update o.mac d }, 0)
  lastHeader := fun o _ h => .ok { o with mac := Poly1305.update o.mac (padTo16 h) }
  lastConfidential := fun o _ h m => .ok { o with mac := Poly1305.update o.mac (padTo16 m), lens := (h, m) }
  lastFooter := fun o _ n => do
    let (m, t) ← Poly1305.truncatedFinal (Poly1305.update o.mac (leBytes 8 o.lens.1 ++ leBytes 8 o.lens.2)) n
    .ok ({ o with mac := m }, t)
  process := fun o d => do
    let (c, out) ← Stream.processData (cipher ws x) o.cipher d
    .ok ({ o with cipher := c }, out)

/-- `EncryptAndAuthenticate` (chachapoly.cpp:97-103, 197-203), which does not call `SpecifyDataLengths`. -/
def encryptAndAuthenticate (s : Auth.State Obj) (iv aad message : List Byte) (macSize : Nat) : Auth.State Obj × Except Err (List Byte × List Byte) :=
  match Auth.resynchronize (aead ws x true) s iv with
  | (s, .error e) => (s, .error e)
  | (s, .ok _) =>
    match Auth.update (aead ws x true) s aad with
    | (s, .error e) => (s, .error e)
    | (s, .ok _) =>
      match Auth.processData (aead ws x true) s message with
      | (s, .error e) => (s, .error e)
      | (s, .ok ciphertext) =>
        match Auth.truncatedFinal (aead ws x true) s macSize with
        | (s, .error e) => (s, .error e)
        | (s, .ok mac) => (s, .ok (ciphertext, mac))

/-- `DecryptAndVerify` (chachapoly.cpp:105-111, 205-211). -/
def decryptAndVerify (s : Auth.State Obj) (iv aad ciphertext mac : List Byte) : Auth.State Obj × Except Err (List Byte × Bool) :=
  match Auth.resynchronize (aead ws x false) s iv with
  | (s, .error e) => (s, .error e)
  | (s, .ok _) =>
    match Auth.update (aead ws x false) s aad with
    | (s, .error e) => (s, .error e)
    | (s, .ok _) =>
      match Auth.processData (aead ws x false) s ciphertext with
      | (s, .error e) => (s, .error e)
      | (s, .ok message) =>
        match Auth.truncatedVerify (aead ws x false) s mac with
        | (s, .error e) => (s, .error e)
        | (s, .ok good) => (s, .ok (message, good))

end

end Verif.Chacha
