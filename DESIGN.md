# A Lean 4 model of Crypto++ (weidai11/cryptopp)

This file is the plan and the trusted base. `properties.jsonl` is the list of properties, `MANIFEST.json`
says which theorem proves which property, and `lean/Verif/` holds the model and the proofs.

## Layout of the Lean project

Each area of the library is a folder `lean/Verif/<Area>/`:

* `Model.lean`: transcription of the C++ functions; every definition cites the file and lines of `/repo`.
* `Spec.lean` (when the specification is more than a line): the independent specification.
* `Proofs.lean`: helper lemmas.
* `Props.lean`: the property theorems, with non-vacuity examples. Nothing else is claimed.

## Modelling conventions

* A C++ `byte` is `UInt8` or `BitVec 8`; `word32`/`word64` are `BitVec 32`/`BitVec 64` (or a `Nat` below the
  modulus where the property is about exactness of carries). `size_t`/`lword` are `Nat` unless the property is
  about wrap-around. Where `size_t` wrap-around would be reachable, the definition says so.
* Memory is modelled as values: a buffer is a `List`/`Array`/`Vector`, a function that writes through a pointer
  returns the new value. Aliasing of input and output buffers is not modelled unless said otherwise.
* Exceptions are `Except Err α`; undefined behaviour (out-of-bounds, null dereference) is a separate outcome
  where the code can reach it.
* Virtual functions and template parameters are function parameters; what is assumed of them is an explicit
  hypothesis of the theorem.
* SIMD and assembly variants are not modelled: the portable C++ path is.

## Trusted base

* Lean 4.33.0's kernel. Axioms: at most `propext`, `Classical.choice`, `Quot.sound` (checked by `vcheck`).
* Mathlib definitions used in statements (`Nat`, `ZMod`, `Polynomial`, `WeierstrassCurve`, ...).
* The reading of the C++ code: there is no mechanical link between `/repo` and the model.

## Plan per property

| Id | Modelled | Proof method |
|----|----------|--------------|
| C01, C02 | `queue.cpp`: node list, lazy string, all operations | refinement to `List UInt8`, invariant over operations |
| C03-C06 | `basecode.cpp` state machines, the tables of `hex.cpp`, `base32.cpp`, `base64.cpp` | encoder state = bit string spec; round trip via bit strings; whole-table `decide` |
| C07 | `filters.cpp` BlockQueue ring buffer and PutMaybeModifiable | refinement ring -> list; invariant over Put sequences |
| C08, C09 | `StreamTransformationFilter::LastPut` over an abstract cipher | case analysis on padding scheme |
| C10, C11 | `iterhash.cpp` over an abstract compression function | buffer invariant, fold over blocks |
| C12 | `hmac.cpp` over the hash interface | refinement to two nested hashes |
| C13, C14, C18, C19 | `strciphr.cpp` over abstract policies | keystream as a function Nat -> byte; invariant |
| C15 | `modes.cpp` CTR policy | big-endian value of the counter array |
| C16, C17 | `modes.cpp` CBC, CTS | induction over blocks; xor algebra |
| C20, C21 | `asn.cpp`, `asn.h` | round trip with arbitrary trailing bytes |
| C22-C26 | `integer.cpp` word arrays | value function `Σ w_i 2^(64 i)`; induction/strong recursion |
| C27 | `algebra.cpp` over an abstract group | loop invariants |
| C28 | `nbtheory.cpp`, `algebra.cpp`, `integer.cpp` | Mathlib number theory |
| C29 | the ciphers' portable round functions | each round is inverted; induction over rounds |
| C30, C31 | `pkcspad.cpp`, `oaep.cpp`, `pssr.cpp` | list algebra over abstract hash/MGF |
| C32-C34 | `rsa.cpp`, `gfpcrypt.h`, `dh.h`, ... over ZMod / abstract groups | Mathlib number theory |
| C35 | `ida.cpp`, `polynomi.cpp` over a field | Lagrange interpolation |
| C36 | `zdeflate.cpp`, `zinflate.cpp` bit I/O, canonical Huffman, blocks | round trip in layers |
| C37, C38, C39 | `crc.cpp`, `adler32.cpp`, `gf256.cpp`, `gf2_32.cpp`, `gcm.cpp` | linear algebra over GF(2) |
| C40 | `authenc.cpp` state machine | invariant over call sequences |
| C41 | `poly1305.cpp` 32-bit limb code | value function, bounds invariant |
| C42 | `hkdf.h`, `pwdbased.h`, `pubkey.cpp` | loop = spec |
| C43 | `misc.cpp`, `misc.h` | induction on word/byte paths |
| C44 | `mqueue.cpp` | refinement to list of messages |
| C45 | `ecp.cpp` over a field | Mathlib's `WeierstrassCurve.Affine` |
| C46, C47 | `cryptlib.cpp`, `drbg.h` | state machine invariants |
| C48 | `filters.cpp` HashVerificationFilter on top of C07 | composition |
| C49, C50 | `keccak.cpp`, `sha3.cpp`, `shake.cpp`, `xts.cpp` | buffer invariant; xor algebra |
| C51 | OpenPGP integers of `integer.cpp` | round trip; negation where the code loses data |
| C52 | `DERReencode` of `asn.cpp` | structural induction over the encoding |
| C53 | `ida.cpp` RawIDA with random padding | counting polynomials through given points |
| C54 | `rng.cpp`, `mersenne.h` | refinement to the recurrences |
| C55 | `pubkey.h`, `rsa.h`, `oaep.cpp`, `pssr.cpp`, `pkcspad.cpp` | composition of C30 to C32 |
| C56 | `nbtheory.cpp` | number theory from Mathlib; Pocklington |
| C57 | `rijndael.cpp` (portable) | tables compared with FIPS 197, rounds by algebra |
| C58 | `zinflate.cpp` on arbitrary input | bounds of every table read |
| C59 | `des.cpp` parity functions | all bytes by computation, lists by induction |
| C60 | `sha.cpp`, `md5.cpp` | compression functions unrolled against the standard; C10 |
| C61 | `chacha.cpp`, `chachapoly.cpp` | block function against RFC 8439; C13, C14, C41 |
| C62 | `cmac.cpp`, `cbcmac.cpp` | buffer invariant |
| C63 | `eax.cpp` | composition of C15 and C62 |
| C64 | `ccm.cpp` | composition of C15 and C62; lengths |
| C65 | `gzip.cpp`, `zlib.cpp` | headers and trailers around C36, C37 |
| C66 | `filters.cpp` authenticated filters | state invariant over pieces |
| C67 | `serpent.cpp` | Boolean programs compared with tables bit by bit |
| C68 | `filters.cpp` signature filters | state invariant over pieces |
| C69 | `blake2.cpp` | buffer invariant; compression against RFC 7693 |
| C70 | `siphash.h` | buffer invariant |
| C71 | `scrypt.cpp` | memory invariant; C42 |
| C72 | `salsa.cpp` | block function against the specification; C13, C14 |
| C73 | `arc4.cpp` | refinement to the generator of the literature; induction over calls |
| C74 | text functions of `integer.cpp` and `misc.h` | positional values by induction over digits; round trips |
| C75 | `ArraySink`, `ArrayXorSink` over a memory | invariant over the sequence of calls; frame |
| C76 | `SecBlock` over `AllocatorWithCleanup`, with a heap that remembers what was freed | invariant over the sequence of calls |

## Reading the seeded log

`seeded/LOG.jsonl` has one line per attempt. `failed` lists the declarations whose proof no longer checks after the edit
(the first failing declaration of each file; later ones depend on it). A failing declaration means the proof script broke;
by itself it does not show that the claim became false. Attempts whose edit leaves the claim true are labelled
"equivalent" in the entry.

## What is modelled, area by area

* **Queue** (C01, C02): `queue.h`, `queue.cpp` (`ByteQueueNode`, `ByteQueue`, `Walker`). Not modelled: `LazyPut`'s
  pointer aliasing (its effect is), output channels, timeouts.
* **BaseN** (C03-C06): `basecode.cpp`, `hex.cpp`, `base32.cpp`, `base64.cpp` and the `Grouper`. Not modelled: the
  `AlgorithmParameters` lookups (the parameters are arguments).
* **BufFilter** (C07): `filters.cpp` `BlockQueue` and `FilterWithBufferedInput`. Reads and writes outside the ring's
  buffer are the outcome `undefinedBehaviour`; uninitialised bytes are an arbitrary function. Not modelled: non-blocking
  calls, the `modifiable` flag (it chooses between two entry points of the derived class with the same meaning).
* **Padding** (C08, C09): `filters.cpp` `StreamTransformationFilter` on top of BufFilter, over any cipher satisfying
  `Cipher.Ok`. The sizes of put spaces are arbitrary. Not modelled: `m_isSpecial` (no class in the library uses it).
* **IterHash** (C10, C11): `iterhash.h`, `iterhash.cpp`, over any compression function, word size, block size, byte order
  of the hash and of the machine. Not modelled: SIMD overrides of `HashMultipleBlocks`, the secure wipe of the buffer.
* **Hash, Hmac** (C12): the `HashTransformation` interface as an abstract object with a law (`Obj.Computes`), proved for the
  iterated hashes; `hmac.h`, `hmac.cpp` over any such object. `VerifyBufsEqual` is list equality here (see C43).
* **Stream** (C13, C14): `strciphr.h`, `strciphr.cpp` `AdditiveCipherTemplate` over any keystream policy satisfying
  `Policy.Ok`. Output is a value: the code works byte by byte in increasing order, so in-place use is the same. Not
  modelled: `size_t` overflow in `RoundUpToMultipleOf`, the alignment flags passed to `OperateKeystream`.
- **Modes (C15-C19)** `Verif/Modes`: flat byte memory (`Verif/Mem.lean`), so in-place and separate-buffer calls are the same theorem. Modelled: `BlockTransformation::AdvancedProcessBlocks`, `IncrementCounterByOne`, CTR/OFB policies, `CFB_ModePolicy`/`CFB_CipherTemplate`, `CBC_Encryption`/`CBC_Decryption`, `CBC_CTS_*::ProcessLastBlock`, ECB. Not modelled: SIMD overrides of AdvancedProcessBlocks, lengths that are not a multiple of the block size where the code only asserts, key setup. Buffer alignment is an arbitrary flag.
- Integer (C22, C23; Verif/Integer, Verif/Misc/Precision): word arrays are lists of naturals below `base ws = 2^(8 ws)` for any word size `ws` in bytes (a power of two where BytePrecision is used); Obj = (reg, sign). Modelled: Compare, Increment, Decrement, TwosComplement, portable Add/Subtract, shifts, CountWords, RoundupSize, class Integer copy/assign/+/-/++/--/negate/compare/shift/bit access, Encode/Decode/MinEncodedSize on a byte stream. Not modelled: the x86/ARM assembly variants of Add/Sub, memory exhaustion, SecBlock allocation.
- ASN.1 (C20, C21, C51, C52; Verif/Asn): a source is the list of bytes left in it, a sink the list of bytes put into it. Modelled: DERLengthEncode, both BERLengthDecode, Null, Octet/Text/Date/Bit strings, DEREncodeUnsigned/BERDecodeUnsigned for any width, OID, DERGeneralEncoder, BERGeneralDecoder (window on the source, MessageEnd), DERReencode, Integer DEREncode/BERDecode/octet-string/OpenPGP. The specification transcribes X.690 (IsLength, IsTLV, IsArc, Ber trees). Not modelled: what an aborted decode leaves in the source, bool as the template argument, text of exceptions.
Integer multiplication (Integer/WMem, Mul*.lean; C24): integer.cpp word-array multiplication on a word memory in which destination, workspace and operands are addresses: the comba baselines, the recursive (Karatsuba) multiply, square, bottom and top half routines, AsymmetricMultiply and Integer::Times. Not modelled: the x86/ARM assembly variants; the object-level aliasing cases copy first.
Integer division (Integer/Div*.lean; C25): DivideThreeWordsByTwo, DivideFourWordsByTwo, AtomicDivide, CorrectQuotientEstimate, Divide on word memory, PositiveDivide, Integer::Divide, Modulo(word), Divide(word), DivideByPowerOf2. Double-word division by a word is taken as exact (native double word). Outputs are objects different from the inputs.
- Modular arithmetic (C26, C28; Verif/Integer/Mod*.lean, WordInv): ModularArithmetic (Add, Subtract, Multiply, Square, Inverse, Half, MultiplicativeInverse, Accumulate/Reduce) and MontgomeryRepresentation (construction, Multiply, Square, ConvertIn/Out, MultiplicativeInverse) on word memory, with m_result/m_result1/m_workspace as state and arbitrary contents of uninitialised memory; AlmostInverse, DivideByPower2Mod, RecursiveInverseModPower2, MontgomeryReduce, Integer::InverseMod (Integer and word). A small expression language states what any client computation returns.
- Scalar multiplication (C27; Verif/Algebra, Integer/ModExp*.lean): AbstractGroup as an interface (operations may fail, change state and return references to members); ScalarMultiply, SimultaneousMultiply with WindowSlider, CascadeScalarMultiply, GeneralCascadeMultiplication, DL_FixedBasePrecomputationImpl (without DER load/save and conversions). std::make_heap/push_heap/pop_heap are any functions with the standard's guarantees (HeapOk). Exponent arithmetic is on naturals.
**Block ciphers** (`Verif/Cipher`): portable C++ of tea.cpp, rc2.cpp, rc5.cpp, rc6.cpp, lea.cpp, speck.cpp, simon.cpp, simeck.cpp, cham.cpp, hight.cpp, threefish.cpp, gost.cpp; key schedules included. Statements of straight-line code are transcribed as data (by a script) and interpreted. Not modelled: SSE/NEON/Altivec versions, aliasing of input and output blocks (each block is read before it is written).
- **Checksum** (`Verif/Checksum`, C37): crc.cpp portable `Update` (head, word and tail loops at every alignment, both byte orders, tables transcribed by script), `TruncatedFinal`, adler32.cpp. Specification: remainder in GF(2)[x] (`Verif/Poly2/Basic`: polynomials over GF(2) as bit masks, proved a commutative ring, remainder unique) of the inverted, shifted message; Adler as sums modulo 65521. Proof: tables checked entry by entry against eight division steps, linearity, Horner invariant; byte-reversed simulation for big-endian; bound on the delayed reduction. Not modelled: crc_simd.cpp.
- **Buf** (`Verif/Buf`, C43): `xorbuf` (2 and 3 arguments, any list of vector strides), `VerifyBufsEqual` (32- and 64-bit accumulators), `IncrementCounterByOne`, `ConditionalSwap` on a flat memory.
- **Gf** (`Verif/Gf`, C38): gf256.cpp, gf2_32.cpp, the arithmetic of gf256.h/gf2_32.h. Specification: product and remainder in GF(2)[x] (`Poly2/Basic`); irreducibility as absence of zero divisors. Proof: Horner invariants; residue ring `Poly2.Res` (finite commutative ring, Fermat by Mathlib); extended-Euclid invariants with degree bounds for the shift-based inverse (no overflow, termination in 62 rounds); irreducibility of the library's moduli by a kernel-checked Frobenius/Berlekamp certificate.
`Verif/MQueue` (C44): MessageQueue and EqualityComparisonFilter (mqueue.h/.cpp, message functions of cryptlib.cpp:594-731). ByteQueue is used through the list contract proved in Verif/Queue; blocking targets are not modelled.
- **Ida** (C35, C53): `ida.h`/`ida.cpp` whole: `RawIDA` (channel insertion, `ChannelData`, `ProcessInputQueues`, `ComputeV`), `SecretSharing`, `SecretRecovery`, `InformationDispersal`, `InformationRecovery`, `PaddingRemover`, with the bulk interpolation templates of `polynomi.cpp:514-561` over the model of `GF2_32`. Input queues are the `MessageQueue` model (Verif.MQueue), output `ByteQueue`s are lists (their contract is C07's theorem) except that a parameter says in which pieces a queue hands over its tail. Proof: GF(2^32) is a field (Verif.Gf), every column of words lies on a polynomial of degree < t, interpolation through any t points gives back the values (Lagrange, Mathlib); the word columns produced do not depend on how input is cut and interleaved (history invariant). Secrecy: the map from random words to t-1 shares is a bijection.
- **Rng** (C46, C54): `RandomNumberGenerator::GenerateWord32`/`Shuffle`, `Integer::Randomize` and `GenerateRandomNoThrow` (type ANY), `LC_RNG`, `MersenneTwister`, `X917RNG` with a time vector, over an abstract generator (a state and a block function). Range: induction over rounds. Uniformity: counting preimages of one round's bytes. Shuffle: bijection between choice sequences and permutations. Mersenne: invariant relating the in-place twisted array to the linear recurrence.
**Kdf** (C42): hkdf.h DeriveKey, pwdbased.h DeriveKey of PBKDF1, PBKDF2 and PKCS #12, pubkey.cpp P1363_MGF1KDF2_Common (MGF1, KDF2), over any hash object that computes a function (Verif.Hash) and the HMAC model. The timer is an arbitrary predicate on the iteration number. 32-bit wrap of the iteration counter under a time limit is not modelled (the counter is a natural number), PBKDF2's block counter is. Integer addition in PKCS #12 is taken from Verif.Integer.
- **Dl** (C33, C34): `pubkey.h` DL_SignerBase/DL_VerifierBase/DL_EncryptorBase/DL_DecryptorBase/DL_KeyAgreementAlgorithm_DH, `gfpcrypt.h` GDSA, GDSA_ISO15946, NR, DLIES, `elgamal.h`, `dh.h`, `dh2.cpp`, `mqv.h`, `hmqv.h`, `fhmqv.h`. Integers are `Int`; exponentiations are what Verif.Algebra proves them to compute; the group is any `Params` satisfying `Params.Laws` (commutative, prime order generator, decodable elements), shown to hold for Z_p subgroups (`gfp_parameters`). Not modelled: RFC 6979 nonce generation, the random number generator's choice of exponents, key classes, precomputation.
**Rsa** (C32): `RSAFunction`, `InvertibleRSAFunction` (ApplyFunction, CalculateInverse with blinding and CRT, Validate, the key made by GenerateRandom, Initialize(n,e,d)), the ISO 9796 variants, `CRT`, `ModularRoot`, `LCM`. `Integer` is `Int`, exponentiation is its value. Not modelled: the search for primes, Validate level 2, key serialisation.
- **PkPad** (C30, C31): `pkcspad.cpp` (both encodings), `oaep.cpp`, `pssr.cpp`, `emsa2.cpp` whole, on bounds-checked buffers, over any hash object that meets the contract of Verif.Hash and the model of MGF1 in Verif.Kdf. The randomness (pad bytes, seed, salt) is a parameter. The specification (`PkPad/Spec.lean`) writes the encodings as in RFC 8017 and P1363a. Proof: split the block into its fields; unmasking cancels masking; conversely an accepted block is taken apart and shown equal to the encoding.
- **Tf** (C55): `TF_EncryptorBase::Encrypt`, `TF_DecryptorBase::Decrypt`, `TF_SignerBase::SignAndRestart`, `TF_VerifierBase::InputSignature` with `VerifyAndRestart`/`RecoverAndRestart` over a trapdoor function given by its two operations and bounds, instantiated with RSA and RSA_ISO of Verif.Rsa and the encodings of Verif.PkPad. Not modelled: the message accumulator object (the hash state of the message is given), `InputRecoverableMessage` beyond the length limit, Rabin, RW, LUC, ESIGN.
**Xts** (xts.h, xts.cpp): `GF_Double` for the three word sizes and four block sizes, the parallel loops of `ProcessData` for 4, 8 and 12 blocks, `ProcessLastBlock` in both directions on flat memory, `Resynchronize` in both forms. The block ciphers are functions on blocks. Specification: P1619 tweaks and ciphertext stealing on the whole message.
**Poly1305** (poly1305.h, poly1305.cpp): the 32-bit limb arithmetic of `Poly1305_HashBlocks` and `Poly1305_HashFinal` with the reductions of the C++ types, `CONSTANT_TIME_CARRY` on bit vectors, buffering in `Update`, `TruncatedFinal`, both `UncheckedSetKey`s, `Resynchronize`. Specification: RFC 8439 2.5.
**Ghash** (C39): gcm.cpp SetKeyWithoutResync (both table layouts, the shared reduction table) and the C++ branch of AuthenticateBlocks, on 64-bit words with an explicit byte order. The tables are arrays whose previous contents are arbitrary. The specification is the bit-by-bit algorithm of SP 800-38D section 6.3. The bridge is linearity of the product over xor: each table entry is the product of one byte or nibble position by H. CLMUL, PMULL, SSE2, NEON, POWER8 code and CRYPTOPP_BOOL_SLOW_WORD64 are not modelled.
- **C40** (Verif/Auth, Verif/Gcm). `Auth/Model` is `AuthenticatedSymmetricCipherBase` over any implementation of its virtual functions (`Hooks`); `Auth/Spec` says what each call of a history must return. `Hooks.Ok` states what the virtual functions must do; a simulation gives `history_exact`. `Gcm/Model` models gcm.cpp on the GHASH of C39 and the counter mode of C06, and `gcm_ok` shows that it meets `Hooks.Ok`; `Gcm/Spec` is SP 800-38D. Not modelled: assembly and CLMUL code, `Resynchronize` with length -1, output overlapping input other than in place.
- **C47** (Verif/Drbg). Both generators over any hash object (`Hash.Obj`), `HMAC_DRBG` over the HMAC of C12. `Drbg/Spec` is SP 800-90A; `Drbg/Carry` proves the byte-wise carry loops to add big-endian numbers. Null pointers with a non-zero length are not modelled.
- **Keccak** (`Verif/Keccak`, C49): `KeccakF1600` transcribed statement by statement (both halves of the loop body), the little-endian loads and stores, `Update`, `Restart`, `TruncatedFinal` of `Keccak`, `SHA3` and `SHAKE` over a 200-byte state in which an access outside is undefined.  The specification is FIPS 202 on bit strings (θ ρ π χ ι as index formulas, `rc` by its LFSR, `pad10*1`, the sponge).  Proof: each half round equals `Rnd` lane by lane; the buffering invariant 'state = absorbed blocks xor the rest of the message'; the bits of the padded last block; the squeezing loop by induction.
- **HashFilter** (C48): `HashFilter::Put2` and `HashVerificationFilter` on top of the `BufFilter` model and of any `Hash.Obj`. The specification says, for one whole message, what reaches the attached transformation, whether the exception is thrown and what `GetLastResult` returns; the theorems say a sequence of messages, each cut into any pieces, gives the specification message by message. Blocking calls, default channels.
* **Ecp** (C45): `ecp.cpp` at the level of field values. Model: residues held plainly or in Montgomery form, `VerifyPoint`, `ValidateParameters`, `Equal`, `Inverse`, `Double`, `Add` including the member `m_R` the references point into, `ProjectiveDoubling`, `ParallelInvert`, the window loop of `SimultaneousMultiply`, `ScalarMultiply`, `CascadeScalarMultiply`, conversion of the curve to Montgomery form, and `EcPrecomputation` tables. Specification: Mathlib's `WeierstrassCurve.Affine.Point` group over `ZMod p`. The field operations themselves are C26/C27 (integer area); here they are functions on values. Proof: Jacobian coordinates represent the doubled points, ParallelInvert gives the inverses of all of them, the windows decompose the exponent.
- Number theory (C28, C56; Verif/Nbt): GCD, LCM, Jacobi, SquareRoot, IsSquare, ModularSquareRoot, SolveModularQuadraticEquation, ModularRoot, Lucas, InverseLucas on mathematical integers, each loop with a bound on its rounds that the theorems show to suffice; the prime table (copied from primetab.cpp and checked by the kernel to be all primes up to 32719), TrialDivision, the Fermat, strong and Lucas tests, IsPrime, RabinMillerTest, VerifyPrime, ProvePrime; MihailescuProvablePrime and MaurerProvablePrime as relations over what the generator may give; the generators of PrimeAndGenerator for delta = 1. Modular exponentiation and inverse are the values C26 and C27 prove. Not modelled: FirstPrime, PrimeSieve, delta = -1, the floating-point choice of Maurer's sizes (any size from half on is allowed).
* **Ecp, encoding and groups** (C45): `ECP::EncodePoint`, `DecodePoint` and `DL_GroupParameters_EC<ECP>` (Verif/Ecp/Codec.lean). Model: byte strings, with `IsPrime`, `Jacobi` and `ModularSquareRoot` from the Nbt area; the group parameters as an instance of `Dl.Params`. Proof: the two roots differ in parity; the group laws come from the point group through normalised representatives. Exponentiation by 0 is undefined in the code; the instance has the point at infinity there, so theorems about agreement ask for private keys other than 0.
- `Flate`: `zdeflate.cpp` and `zinflate.cpp` whole, for the raw format: `LowFirstBitWriter`, `LowFirstBitReader`, `HuffmanEncoder` with `GenerateCodeLengths` (over any sort), `HuffmanDecoder` with its cache, `Deflator` (hash chains, lazy matching, window slides, the choice of block type, `DetectUncompressible`, flushes, level changes), `Inflator` (state machine, window). `Format.lean` specifies RFC 1951 on its own: blocks, their bits, their validity and their meaning. `m_byteBuffer`, `m_head`, `m_prev`, `m_window` are functions; accesses beyond their ends are excluded by checks that give `undefinedBehaviour` in `Deflator`. `ULONG_MAX` in `EndBlock` is that of 32 bits. `int` counters are natural numbers. Not modelled: `nonblocking` calls (they throw), signal propagation, `Repeat` beyond one stream.
- `Aes`: the portable part of `rijndael.cpp` (table construction, key schedule, key reversal, the two block functions) in the four builds given by byte order and table layout, against a specification of FIPS 197 written from the standard (GF(2^8), S-box as inverse and affine map, states as matrices). The loops that touch the tables for timing reasons are left out: their result is 0. Not modelled: assembler and vector unit code, `m_aliasBlock`.
- **Flate, robustness (C58).** `Flate/SafetyProps.lean`: the model of Inflator of C36, with the size of `codeLengths` as a parameter, run on any list of Put/Flush calls. `TotalProofs` shows that every decoder the code accepts decodes every bit pattern; `SafetyProofs` and `SafetyBody` carry an invariant over the reader (bits in the buffer as counted, or the wrapped-around counter over a zero buffer), the window and the pending copy through every step; the fuel of the loops suffices (no call diverges), and `outputPastC`, which checks every index, agrees with the model.
- Cipher/Feistel, Cipher/Classic (C29, C59): portable code of des.cpp (but the unused tables), blowfish.cpp, cast.cpp, skipjack.cpp, shacal2.cpp (C++ path), 3way.cpp, idea.cpp (without IDEA_LARGECACHE, which does not compile: it names `key` for `m_key`); the S-boxes are copied from the *.cpp tables into FeistelTables.lean. Blocks are read before they are written, so in-place use is not distinguished; DES-XEX3 is modelled without a mask.
- `Sha` (C60): sha.cpp and md5.cpp, portable `SHA1_HashBlock_CXX`, `SHA256_HashBlock_CXX`, `SHA512_HashBlock_CXX`, `MD5::Transform`, `InitState` and the tables, as instances of `IterHash`. `Sha/Spec.lean` is FIPS 180-4 and RFC 1321 from the documents: schedules of 64 or 80 words, named working variables, constants as roots of primes. Proof: the circular buffer of sixteen words holds the last sixteen schedule words and the array T is the working variables rotated by the round number; then `history_digests`. SIMD, SHA-NI and assembler versions are not modelled.
- Chacha (C61): Spec is RFC 8439 / the XChaCha draft / Bernstein's paper on lists of words; Model is chacha.cpp (portable rounds, the loop with the 32-bit or 64-bit counter, the choice of the SIMD path by MultiBlockSafe, HChaCha, SetKey/Resynchronize/Seek of the three policies) and chachapoly.cpp on top of Auth. Assumed: each SIMD function emits its 4 or 8 consecutive blocks, with the additions to the low counter word only, which the code relies on MultiBlockSafe for. The AEAD key set-up fixes 20 rounds as the code does.
- `Cmac` (C62): `cmac.cpp`, `cbcmac.cpp` over any block function; `Spec` is SP 800-38B with its doubling polynomials for 8, 16, 32, 64 and 128-byte blocks. The delayed last block is an invariant; histories by `Hash/History`.
- `Eax` (C63): `eax.cpp` on top of `Auth`, `Cmac` and CTR. A mended variant, whose `Resync` restarts the MAC, meets the contract of `Auth`; the code does the same as it as long as no message is given up.
- `Ccm` (C64): `ccm.cpp` on top of the base-class functions of `Auth`, with `SpecifyDataLengths`. `MaxMessageLength` depends on the nonce and header length bytes enter the base class buffer, so CCM does not meet the contract `Hooks.Ok`; the proof follows a message through its phases instead (`Fresh`, `InHeader`, `InText`). The content of `m_buffer` when `SpecifyDataLengths` is called after `Update` is not modelled.
- **Gzip** (C65): `Gzip`, `Gunzip`, `ZlibCompressor`, `ZlibDecompressor` over the models of `Deflator` and `Inflator` (C36) and of CRC-32 and Adler-32. `Un.processInput` is `Inflator::ProcessInput` with the virtual functions of the subclass; `Reads` says what a whole input must become, and every call keeps it (`un_calls`). `Spec` is RFC 1952 and RFC 1950 over `IsDeflate` and `IsCrc`. Not modelled: zlib windows other than 2^15 on reading, use after an exception, channels.
- **AuthFilter** (C66): `AuthenticatedEncryptionFilter` and `AuthenticatedDecryptionFilter` (filters.cpp:942-1061) over the model of `FilterWithBufferedInput` (BufFilter), with the channel `AAD`, `ForceNextPut`, the held-back code of the inner `HashVerificationFilter`, `MAC_AT_BEGIN` and `THROW_EXCEPTION`; the mode is an abstract object `Aead` with the contract `Serves`, met by every `AuthenticatedSymmetricCipherBase` (`auth_serves`), in particular the models of GCM and ChaCha20Poly1305. Not modelled: attached transformations that block, and constructor flags that the class does not declare.
- **Serpent** (C29, C67; `Verif/Serpent`): serpent.cpp and serpentp.h, macros as functions on the five registers with the register orders as permutations. The specification has tables of nibbles; each Boolean program is compared with its table on single bits (all sixteen nibbles, by computation) and lifted to words.
- **SM4, SEED, Twofish, MARS, Camellia** (C29; `Verif/Cipher/Modern*`): sm4.cpp, seed.cpp, twofish.cpp, mars.cpp, camellia.cpp (portable paths), tables copied from the sources. Camellia is modelled with both round functions, the one with the combined tables and the `SLOW_ROUND` without, and they are proved equal.
- **Signature filters** (C68; `Verif/SigFilter`): SignerFilter and SignatureVerificationFilter over the model of FilterWithBufferedInput, for an abstract verifier (`Ver.Decides`) that is instantiated with the accumulators of ed25519 (the curve equation is a parameter) and of the discrete logarithm schemes of `Verif/Dl`. `C48`'s proofs are adapted.
- **BLAKE2** (C69; `Verif/Blake2`): BLAKE2b and BLAKE2s objects (UncheckedSetKey, SetKey, constructors, Restart, Update, TruncatedFinal, the counter, the portable compression functions). `Spec.hash` is RFC 7693 with the salt, personalization and last node of the BLAKE2 paper. Proved with the invariant that the blocks before the last have been compressed with the right counter and the last block, full or not, is in the buffer. Not modelled: SIMD code, Restart with a parameter block and counter of the caller.
- **SipHash** (C70; `Verif/SipHash`): the template SipHash_Base (SIPROUND, Update with its buffer of eight bytes, TruncatedFinal with its switch, Restart, UncheckedSetKey) for all C, D and T_128bit, against the definition in the paper over the padded message. The constructor without a key (all zero key) is not modelled.
- **Scrypt** (C71; `Verif/Scrypt`): scrypt.cpp and `Salsa20_Core` statement by statement, `BlockMix`, `Smix` on byte-addressed memories with arbitrary contents before, the parallel loop as any permutation of its iterations, the checks of the parameters with their 64-bit product, over the models of PBKDF2, HMAC and SHA-256. Specification: RFC 7914 and Bernstein's Salsa20. Proof: refinement by induction over the loops; disjointness of the parts of the buffers. Not modelled: allocation failure, the `NameValuePairs` overload.
- **Salsa20, XSalsa20** (C72; `Verif/Salsa`): the C++ code of salsa.cpp with its reordered state, as a policy of the model of `AdditiveCipherTemplate` (C13, C14). Specification: Bernstein's expansion function, HSalsa20 and block numbers. Proof: the state is a permutation of the one specified at every block number; the round function commutes with the permutation; the history theorem of the stream template does the rest. Not modelled: the SSE2 assembly.
- **ARC4, MARC4** (C73; `Verif/Arc4`): arc4.cpp and arc4.h. The specification has a function for the permutation and its indices advance before use; the object's `m_x` is one ahead. Buffers are lists.
- **Integers as text** (C74; `Verif/IntStr`): `StringToInteger`, `operator<<`, `operator>>` and the `IntToString` functions. `Integer` arithmetic is that of the integers (C23 to C25). The buffer of the writers is modelled by its room, so that overrunning it is undefined behaviour; a stream is the list of its characters and a flag for failure. Wide characters and locales other than C are not modelled.
- **SAFER** (C29; `Verif/Cipher/Safer*`): safer.cpp, tables copied from the source; the size of the key buffer is computed as in the code, in 32 bits.
- **Array sinks** (C75; `Verif/ArraySink`): `ArraySink` and `ArrayXorSink` with `Put2`, `CreatePutSpace`, `AvailableSize`, `TotalPutLength` and `IsolatedInitialize`, over a memory of bytes with null pointers. The filters that write into them are not modelled here.
- **SecBlock** (C76; `Verif/SecBlock`): `SecBlock` over `AllocatorWithCleanup`, for words of any size. The heap remembers the content of freed memory, so that wiping can be stated; uninitialised elements are a value of their own; the operating system may refuse any allocation; a call that throws leaves a heap and an object. Freeing twice and access outside of allocations are undefined behaviour. Aligned and unaligned allocation are the same here. `FixedSizeSecBlock` is modelled as two objects with their arrays, for `swap`, without the aligned variant. The comparison is C43's; `SecBlockWithHint` is not modelled.

## Where the code disagrees with the property

Each line names the theorem proving the disagreement.

* `Queue.initialize_zero_then_put_diverges`: a queue initialised with node size 0 loops forever on `Put`.
* `Queue.walker_maxRetrievable_overreports`: `Walker::MaxRetrievable` counts bytes it has already walked over.
* `BufFilter.hardFlush_out_of_bounds`: filters.cpp:452 depends on the order of evaluation of two arguments; with
  right-to-left evaluation a hard flush with block size 1 reads outside the ring.
* `Padding.pkcs_256_not_accepted`: PKCS padding with 256-byte blocks is only asserted against; it does not round-trip.
* `IterHash.too_long_undetected`: with 32-bit hash words the overflow test misses one case (a call of 2^64-1 bytes).
* `IterHash.too_long_changes_object`: `Update` overwrites the counters before it throws `HashInputTooLong`.
* `IterHash.length_field_wraps`: the limit enforced is 2^(16k) bytes, but the length field holds bits and wraps at 2^(16k-3) bytes.
* `Hmac.long_digest_undefined`: HMAC over a hash whose digest is longer than its block, with a long key, writes out of bounds
  (only an assertion guards it; no hash in the library is like that).
- **In-place CBC-CTS last block** (`Modes.cts_in_place_wrong`): `CBC_CTS_Encryption::ProcessLastBlock` called with outString == inString overwrites input it still needs, so the ciphertext is wrong. The documentation promises in-place operation only for ProcessData; a concrete witness is proved.
- C22: `Integer::Decode(..., SIGNED)` of the two's complement encoding of -2^(WORD_BITS*2^(k+1)) (for example -2^128 with 64-bit words) yields a negative zero, so the signed round trip fails there (`Verif.Integer.decode_signed_negative_zero`). `signed_round_trip_partial` covers every other value.
- C22: a signed decode of zero bytes takes the sign from the next byte of the stream, or from an uninitialised variable (`Verif.Integer.decode_empty_reads_next_byte`).
- C20: an OBJECT IDENTIFIER whose second arc is 40 or more, or whose first octet would exceed 255 (X.660 allows any second arc under 2), does not survive DEREncode/BERDecode (`Verif.Asn.oid_round_trip_fails`: 2.999.3 becomes 1.15.3, 2.40 becomes 3.0).
- C20: Integer::BERDecode of `02 00` reads an uninitialised byte (`Verif.Asn.integer_empty_content_undefined`); Integer::BERDecode(DEREncode(-2^128)) gives a negative zero (`integer_round_trip_fails`); BERDecodeUnsigned accepts negative INTEGERs and returns a positive value (`unsigned_misreads_negative`).
- C51: OpenPGPEncode truncates the bit count to 16 bits (`Verif.Asn.pgp_round_trip_fails`).
C25: Integer::Divide(word&, Integer&, dividend, divisor) ignores the sign of the dividend when the divisor is a power of two (-3/2 gives quotient -1, remainder 1): `Verif.Integer.divideWord_pow2_negative_wrong`.
- C26: MontgomeryRepresentation with a modulus in an oversized register writes out of bounds (`Verif.Integer.montgomery_oversized_modulus_undefined`); Inverse of the ring object's own result on the equal-size path returns 0 (`inverse_of_own_result_is_zero`); the plain identity modulo 1 is 1 (`plain_identity_of_modulus_one`); Integer::InverseMod of a small number in a large register writes out of bounds (`inverseMod_oversized_undefined`).
- C27: Precompute(storage = 0) then Exponentiate reads out of bounds (`Verif.Algebra.precompute_without_storage_undefined`); ModularArithmetic::CascadeExponentiate with an even modulus returns unreduced results for unreduced bases (`Verif.Integer.cascade_even_unreduced_wrong`).
BTEA ignores the mask of ProcessAndXorBlock, and with blocks of one word is not invertible (btea_ignores_mask, btea_one_word_not_invertible).
RC2 writes out of bounds for an effective key length of zero or less (rc2_effective_length_zero_undefined); RC5 and RC6 accept INT_MAX rounds, for which the size of the table wraps (rc5_rounds_int_max_undefined, rc6_rounds_int_max_undefined); SPECK and SIMON accept key lengths between the documented ones and ignore the rest of the key (speck_ignores_key_byte); a Threefish tweak shorter than 16 bytes is read out of bounds (threefish_short_tweak_undefined).
- C43: `xorbuf` with an output that starts inside a source not yet read gives results that depend on the vector width the library was built with (`Buf.xorbuf_overlap_depends_on_build`); no precondition is documented.
- C38: `GF2_32` accepts a reducible modulus; `MultiplicativeInverse` of a zero divisor then loops for ever (`Gf.inverse_of_zero_divisor_diverges`).
C44: `NumberOfMessagesInThisSeries` is never decremented; `MessageQueue::swap` leaves `m_messageCounts`; `CopyAllTo` loops forever on a queue with a complete message; `EqualityComparisonFilter` reports equality for a series end with unfinished data and a false mismatch in a second series.
- **C35** `InformationDispersal` does not reset `m_nextChannel` at a message end: the next message is recovered rotated (`Verif.Ida.second_message_rotated`). `PaddingRemover` leaves padding in place when a piece ends in a data byte 1 and the next begins with the padding byte; `InformationRecovery`'s queue does make such cuts (`Verif.Ida.recovery_keeps_padding_at_node_boundary`, `Verif.Ida.queue_cuts_tail`).
- **C54** `LC_RNG::GenerateBlock` computes `a*lo - r*hi` in `word32` before converting to `sword64`, so it is never negative and the result is not `48271*x mod (2^31-1)` (`Verif.Rng.lc_rng_not_park_miller`). `MersenneTwister::DiscardBytes(n)` discards n words (`mersenne_discard_not_generate`), and `GenerateBlock` writes the tail in the opposite byte order of whole words on little-endian machines (`mersenne_tail_order_differs`).
- **DL signatures, encryption**: DSA signing with a nonce that gives a zero component only asserts and outputs a signature that its own verifier rejects (`Dl.zero_component_signed`); `DL_DecryptorBase::Decrypt` reads behind ciphertexts shorter than an element (`Dl.short_ciphertext_undefined`), DLIES behind ciphertexts shorter than a tag (`Dl.short_tag_undefined`); ElGamal `Encrypt` does not check the message length (`Dl.elgamal_long_message_undefined`).
`InvertibleRSAFunction::Initialize(n, e, d)` throws InvalidArgument for correct keys whose factor is reached as a base before the modulus is split (n = 145, e = 3, d = 19: `initialize_refuses_valid_key`) and does not end for d = e = 1 (`initialize_diverges`).
A correct RSA key with a CRT exponent of 1 is refused by the sanity check of each operation (`crt_exponent_one_refused`).
- **C30** `PKCS_EncryptionPaddingScheme::Unpad` accepts a block without a zero separator as the empty message (`PkPad.pkcs_no_separator_accepted`); OAEP `Pad` has undefined behaviour for keys too small for the hash, the empty message passing the length check of `Encrypt` (`PkPad.oaep_small_key_undefined`).
- **C31** with `MIN_PAD_LEN` > 0 and a bit length not a multiple of 8, the verifier rejects the longest recoverable message of its own signer (`PkPad.pss_min_pad_rejects_own`).
- **C55** the RSA verifier checks neither the length of a signature nor that it is below the modulus (`Tf.leading_zero_accepted`, `Tf.signature_not_unique`); `Decrypt` throws for a ciphertext not below the modulus instead of returning an invalid result (`Tf.out_of_range_throws`).
`Xts.long_last_block_undefined`: `ProcessLastBlock` with two or more whole blocks and a part passes `inLength - head` instead of `head` to `ProcessData` (xts.cpp:411, 479), whose last loop then runs below zero.
`Xts.resynchronize_default_undefined`: `Resynchronize(iv)` with the default `ivLength` of -1 calls `memcpy` with that length (xts.cpp:233).
- **C40.** GCM: when the first counter block (`J0`) ends in `ffffffff`, which needs an IV other than 12 bytes long, `Resync` seeks one block on with a carry out of the last four bytes, where SP 800-38D increments only those (`Gcm.gcm_counter_wrap`). Encryption and decryption agree with each other.
- **C47.** `Hash_DRBG` and `HMAC_DRBG` constructed without entropy are not instantiated, but answer `GenerateBlock` from an all-zero state (`Drbg.hash_uninstantiated`, `Drbg.hmac_uninstantiated`); SP 800-90A 9.3 demands an error.
- **C48, `HASH_AT_BEGIN`**: a message shorter than the hash never reaches `FirstPut`. As the first message the expected hash is read from an empty buffer (`short_first_message_undefined`); as a later one it is compared with the hash of the message before it and can be accepted (`short_message_accepted`). After an exception the base class is not reset, so the next valid message is rejected (`valid_message_rejected_after_exception`).
- **C48, `HASH_AT_END`**: a hard flush in the middle of a message passes the held-back bytes on as message; the hash is then not finalised at the message end, so a later valid message is rejected (`valid_message_rejected_after_flush`).
* C45: `ECP::SimultaneousMultiply` with exponent zero hands an empty range to `GeneralCascadeMultiplication`, which reads before it (`Ecp.simultaneous_multiply_zero_undefined`). `DL_GroupParameters_EC::SimultaneousExponentiate` passes exponents through, so `ExponentiateElement(base, 0)` reaches it.
- C28: GCD can be negative (GCD(0,-5) = -5) and RelativelyPrime(0,-1) is false; LCM(0,0) throws. ModularSquareRoot modulo 2 never returns; modulo a prime 3 mod 4 a non-square gives a wrong root without notice. SolveModularQuadraticEquation with p dividing a reports wrong roots. ModularRoot with p = 2 and InverseLucas for m = -2 mod p are wrong.
- C56: MaurerProvablePrime can return a composite number when the size of the smaller prime is drawn as exactly half (16487^2 for 29 bits), can return a prime with one bit less than asked for, and returns 1 for one bit. TrialDivision with a bound above 32719 reads past the prime table.
* C45: `DecodePoint` refuses the compressed encoding `EncodePoint` gives a point with y = 0 (`Ecp.compressed_order_two_refused`), and returns points that are not on the curve for unreduced x (`Ecp.unreduced_coordinate_decoded`) or uncompressed input (`Ecp.off_curve_decoded`).
- `Inflator` refuses a final stored block of length 0 when nothing follows the stream (`inflate_rejects_empty_stored`): the empty message at level 0, or any message flushed at level 0 before its end, cannot be read back (`inflate_refuses_empty_level0`, `inflate_refuses_flushed_level0`).
- `WAIT_HEADER` looks only at the size of the input queue, not at the bits already taken from it, so a valid stream whose last block lies wholly in those bits is refused (`inflate_rejects_short_tail`).
- `codeLengths` in `DecodeHeader` has 286+32 entries, but a header can ask for 288+32: two words are written past its end (`inflate_header_overflow`).
- `Inflator` refuses dynamic blocks without distance codes unless HLIT is 0; RFC 1951 allows them.
- `LongestMatch` never compares the third byte of a match: it relies on equal hashes and equal first and second bytes (`hash_third` shows that this suffices).
- `Deflator::Reset` does not restore the level: after `DetectUncompressible` switched to level 0, a reused object stores later messages until a stored block count is reached again (compression only; the streams stay correct).
- **C58, oversubscribed codes.** `HuffmanDecoder::Initialize` (zinflate.cpp:98-141) subtracts the number of codes in unsigned 64-bit arithmetic and exempts codes of at most one bit, so three or more symbols of length one are accepted: `initialize_accepts_oversubscribed`.
- **C58, truncated header.** The three-bit lengths (zinflate.cpp:410-414) are read without looking whether there are bits; the count of buffered bits wraps around to about 2^32 and the object goes on to decode zeros. With the previous point, nine bytes and a hard flush give 4294967036 bytes of output and no exception: `cut_header_flood` (for the order of equal codes stated at `sortInfos`; `std::sort` may choose another).
- 3-Way (C29): `SetKey` accepts any number of rounds >= 1, but decryption always starts from the constant `START_D` that belongs to 11 rounds; with 10 or 12 rounds it does not undo encryption (`threeway_other_rounds_not_invertible`).
- ChaChaTLS::SeekToIteration stores the iteration number as block number, so Seek(0) after SetKey with InitialBlock 1 goes to block 0 (chachaTLS_seek_defect).
- EAX (`eax.cpp:14-27`): `Resync` gives the MAC its first block without restarting it. If a message was begun and given up, `Resynchronize` (also after `Restart`) leads to another nonce value, keystream and tag than those of EAX. `Eax.eax_abandon_defect`.
- CCM (`ccm.cpp:50-90`): the nonce is read back from `m_buffer` by `SpecifyDataLengths`, which then writes the header length over it. A second call before the header, with the same lengths, is accepted and leads to a code over another nonce (`Ccm.ccm_specify_twice_defect`). Read but not modelled: `Update` before `SpecifyDataLengths` has the same effect.
- C65: `Gunzip` refuses members whose header has a checksum (`FHCRC`), which RFC 1952 allows (gzip.cpp:117, `gunzip_refuses_header_checksum`).
- C65: `Gunzip` parses the header once 1024 bytes are there (`MaxPrestreamHeaderSize`), so a longer one (name, comment or extra field) is refused unless it comes in one call with its rest (`gunzip_refuses_long_header_in_pieces`).
- C65: `Gzip::SetFilename` and `SetComment` by default accept a zero byte, which ends the string for the reader; the rest is then read as data (`gunzip_misreads_name_with_zero`).
- C65: with `repeat`, a message end that comes after the last member has been read completely is an error, since the next header is looked for (`gunzip_repeat_refuses_late_end`).
- C66: data passed by `Put` after additional data on channel `AAD` is rejected with `InvalidArgument` (`put_rejects`): the inherited `Put2` does not force the held-back additional data through first.
- C66: `ForceNextPut` passes `m_queue.GetContigousBlocks(len)` and `len` as arguments of one call; evaluated from right to left it reads past the buffer (`force_order`).
- C66: with `MAC_AT_BEGIN`, a message shorter than the code reads a null pointer (`begin_short`), and after an exception the next genuine message is rejected (`begin_after_throw`).
- Signature filters (C68): with ed25519 and SIGNATURE_AT_END, after a validly signed empty message a message without any signature is accepted, because `ed25519_MessageAccumulator::Restart` keeps the old signature and `InputSignature` ignores an empty one (`ed25519_missing_signature_accepted`). With SIGNATURE_AT_BEGIN a message shorter than a signature is checked with the signature of the message before (`short_message_accepted`), and after an exception the next message is misread (`valid_message_rejected_after_exception`). A verifier with `SignatureUpfront()` is given an empty signature after the message, and PUT_SIGNATURE puts nothing (`upfront_signature_lost`; no class of the library is one).
- BLAKE2 (C69): the constructors check sizes by assertion only. A key longer than a block is copied beyond the end of `m_key` (`construct_long_key`). A digest size above 32 (BLAKE2s) or 64 (BLAKE2b), which SetKey's parameter DigestSize also takes, gives a "digest" whose bytes after the 32nd (64th) are the message length and the flags (`long_digest`), and above 48 (96) bytes reads beyond the state (`longer_digest`).
- C71: scrypt.h allows any parallelization up to `(2^32-1)*32/(128 r)` and keys up to `(2^32-1)*32` bytes, but `DeriveKey` refuses `128 r p >= 2^32` (`large_block_refused`) and keys of `2^32` bytes or more (`long_key_refused`), both through the limit of the inner PBKDF2 and the second only after all the work; it accepts a cost of 1 and a cost not less than `2^(128 r/8)`, which the documentation excludes (`bad_cost_accepted`).
- C72: `XSalsa20_Policy::CipherSetKey` assigns `m_rounds` before it checks it. After a `SetKey` that throws for its number of rounds, every `SetKey` that does not give one throws too (`xsalsa20_spoilt`), and with the old key the object makes another keystream; with 0 rounds the derived key can be read in it (`xsalsa20_failed_setKey`).
- ARC4 (C73): a negative `DiscardBytes` is converted to `size_t`; `SetKey` steps the generator nearly 2^64 times, that is, it does not return in practice (`negative_discard`).
- Integers as text (C74): `operator>>` of a number that ends the stream stores the number but leaves the stream failed, so `while (in >> a)` loses the last number (`extract_at_end`); it does not take the prefixes 0X, 0n and 0N of the constructor (`extract_prefix`). `IntToString<T>` of the least value of a signed type overflows (`toStringT_least`), and base 1 overruns the buffer of `IntToString<Integer>` (`toString_base_one`; only an assertion excludes it).
- SAFER (C29): the number of rounds is not checked against the documented 1 to 13. 0 rounds are accepted (`safer_no_rounds`), more than 13 are cut down (`safer_rounds_clamped`), and the size of the key buffer is computed in 32 bits before that, so that 2^28 rounds write 217 bytes into a buffer of 9 (`safer_rounds_overflow`).
- Array sinks (C75): `ArraySink::IsolatedInitialize` sets the buffer and its size but not `m_total`. A sink initialised again with a second buffer writes from the place where the first ended (`reinit_keeps_count`) and, when the second is not longer than what was put before, takes nothing (`reinit_full`); the beginning of the second buffer is left uninitialised.
- SecBlock (C76): `StandardReallocate` without `preserve` frees the old memory before it allocates. When the allocation throws, `m_ptr` still points to the freed memory and the destructor frees it again (`refused_new_double_free`); it happens for `SecBlock<word64> s(4); s.New(size_t(1) << 62)` without any shortage of memory (`too_large_new_double_free`). The documentation of `New` says that new memory is initialised to 0, which it is not (`new_not_zero`). The copy constructor copies the mark of `SetMark`, so a copy of a block marked 0 leaves its elements in freed memory (`copy_not_wiped`).
- FixedSizeSecBlock (C76): `SecBlock::swap` exchanges the allocators, and with them the arrays, and then the pointers. Two blocks of fixed size have the same elements afterwards as before (`swap_keeps`); each points into the other, so it dangles when the other dies, and neither is wiped (`swap_crosses`). `New` with a size above the array returns with a null pointer and that size (`new_too_large`).
