{"id": "C01", "title": "ByteQueue is a FIFO of bytes", "statement": "Whatever sequence of Put, LazyPut, FinalizeLazyPut, UndoLazyPut, Get, Skip, Peek, Unget, CreatePutSpace+Put, TransferTo and Clear is applied to a ByteQueue, the bytes handed out are exactly those a plain byte list would hand out under append-at-tail / take-from-head / push-at-head; CurrentSize, AnyRetrievable and IsEmpty report the list's length and emptiness.", "quantifier": "every finite history of operations, every node size, every byte string and transfer limit", "why_tests_cant": "node-boundary, auto-growth, lazy-string and cleanup cases interact; the number of histories is unbounded", "anchors": ["queue.cpp: ByteQueueNode, ByteQueue::Put2, ByteQueue::Get, ByteQueue::TransferTo2, ByteQueue::Unget, ByteQueue::CleanupUsedNodes, ByteQueue::LazyPut, ByteQueue::UndoLazyPut, ByteQueue::CreatePutSpace, ByteQueue::Clear"]}
{"id": "C02", "title": "ByteQueue copy, comparison, indexing and walking agree with the byte sequence", "statement": "For every ByteQueue state: the copy constructor and operator= give a queue with the same bytes; operator== is true iff the two byte sequences are equal; operator[](i) is the i-th byte; Spy returns a prefix of the content; CopyRangeTo hands over exactly the requested slice and leaves the queue unchanged.", "quantifier": "every queue state reachable by any operation history, every index and range", "why_tests_cant": "depends on how the bytes are spread over nodes and the lazy string", "anchors": ["queue.cpp: ByteQueue::CopyFrom, operator==, operator[], Spy, CopyRangeTo2, Walker::TransferTo2"]}
{"id": "C03", "title": "Base-N encoding is independent of chunking", "statement": "Feeding a message to HexEncoder/Base32Encoder/Base64Encoder (any Log2Base 1..7, padding on or off) in any split into Put calls yields the same output as one Put of the concatenation.", "quantifier": "every message, every split, every Log2Base in 1..7, every alphabet and padding setting", "why_tests_cant": "the encoder carries bit/byte positions between calls; number of splits is exponential", "anchors": ["basecode.cpp: BaseN_Encoder::Put2, BaseN_Encoder::IsolatedInitialize"]}
{"id": "C04", "title": "Base-N decoding inverts encoding", "statement": "Decoding what the matching encoder produced (hex, base32, base32hex, base64, base64url; with padding, with line breaks inserted by the Grouper, any chunking on either side) returns exactly the original bytes, for every message.", "quantifier": "every byte string, every chunking, every built-in alphabet, upper or lower case, every line length", "why_tests_cant": "message lengths and bit alignments are unbounded", "anchors": ["basecode.cpp: BaseN_Encoder::Put2, BaseN_Decoder::Put2, Grouper::Put2", "hex.cpp", "base32.cpp", "base64.cpp"]}
{"id": "C05", "title": "Base-N encoder output follows the positional bit-string definition", "statement": "The encoder's output is the message's big-endian bit string cut into Log2Base-bit groups (last group zero-filled), each mapped through the alphabet, followed by padding up to a full output block when padding is on.", "quantifier": "every byte string, every Log2Base in 1..7", "why_tests_cant": "unbounded message length; relation to RFC 4648 must hold at every bit offset", "anchors": ["basecode.cpp: BaseN_Encoder::Put2"]}
{"id": "C06", "title": "Decoders ignore characters outside the alphabet", "statement": "Inserting any characters that map to no symbol anywhere in the encoded text does not change what BaseN_Decoder outputs.", "quantifier": "every text, every set of inserted non-alphabet characters", "why_tests_cant": "positions and counts unbounded", "anchors": ["basecode.cpp: BaseN_Decoder::Put2"]}
{"id": "C07", "title": "Buffered-input filters see the same data regardless of chunking", "statement": "A FilterWithBufferedInput with any first/block/last sizes passes its derived filter: first exactly firstSize bytes, then only whole blocks, and finally a last piece satisfying the documented size bound; the concatenation of everything passed equals the input, whatever the split of the input into Put calls; the internal ring buffer never overflows.", "quantifier": "every firstSize, blockSize>=1, lastSize, every message, every split", "why_tests_cant": "ring-buffer wraparound depends on the whole history of chunk sizes", "anchors": ["filters.cpp: FilterWithBufferedInput::PutMaybeModifiable, BlockQueue"]}
{"id": "C08", "title": "Block padding round-trips", "statement": "For each of PKCS, W3C, one-and-zeros padding, and any block transformation with an inverse, decrypting through StreamTransformationFilter what it encrypted gives back the plaintext; with zeros padding the plaintext followed by zero bytes.", "quantifier": "every message of every length, every block size 2..255, every chunking", "why_tests_cant": "unbounded lengths, all residues modulo the block size", "anchors": ["filters.cpp: StreamTransformationFilter::LastPut, NextPutMultiple"]}
{"id": "C09", "title": "Malformed padding is always rejected", "statement": "On decryption, a ciphertext whose length is not a positive multiple of the block size, or whose last decrypted block is not a well-formed padded block of the selected scheme, makes the filter throw InvalidCiphertext; a well-formed one is accepted.", "quantifier": "every ciphertext, every block size and scheme", "why_tests_cant": "the reject set is the complement of an infinite set", "anchors": ["filters.cpp: StreamTransformationFilter::LastPut"]}
{"id": "C10", "title": "Iterated hashes do not depend on how input is split", "statement": "For every IteratedHash instance, the digest after any sequence of Update calls equals the digest of the concatenated message, and equals the Merkle-Damgard definition: pad with 0x80, zeros and the bit length, then fold the compression function over the blocks.", "quantifier": "every compression function, block size, byte order, every message below the length limit, every split", "why_tests_cant": "partial-block buffering depends on all earlier chunk sizes", "anchors": ["iterhash.cpp: IteratedHashBase::Update, HashMultipleBlocks, PadLastBlock, TruncatedFinal"]}
{"id": "C11", "title": "Hash objects are reusable after Final and truncation is prefix-taking", "statement": "After TruncatedFinal (or Restart) the object hashes the next message as a new object would; TruncatedFinal of size n returns the first n bytes of the full digest; n larger than the digest size throws.", "quantifier": "every message sequence and every truncation length", "why_tests_cant": "histories of messages are unbounded", "anchors": ["iterhash.cpp: TruncatedFinal, Restart", "cryptlib.cpp: HashTransformation::ThrowIfInvalidTruncatedSize"]}
{"id": "C12", "title": "HMAC equals its definition for every key and chunking", "statement": "HMAC over any iterated hash computes H((K' xor opad) || H((K' xor ipad) || m)) for every key length (shorter, equal or longer than the block), every split of m, and every sequence of messages under one key; Verify accepts exactly the right MAC.", "quantifier": "every key, message, split and message sequence", "why_tests_cant": "key-length cases and lazy key initialisation interact with histories", "anchors": ["hmac.cpp: HMAC_Base::UncheckedSetKey, Update, TruncatedFinal, KeyInnerHash, Restart"]}
{"id": "C13", "title": "Additive stream ciphers: chunk independence, involution", "statement": "For every keystream policy, ProcessData over any split of the message gives message xor keystream at the right offsets; encrypting twice from the same state returns the message; GenerateBlock yields the keystream itself.", "quantifier": "every policy satisfying the WriteKeystream contract, every split into ProcessData/GenerateBlock calls", "why_tests_cant": "left-over keystream bytes carried across calls", "anchors": ["strciphr.cpp: AdditiveCipherTemplate::ProcessData, GenerateBlock"]}
{"id": "C14", "title": "Seek positions the keystream exactly", "statement": "After Seek(p) the next bytes processed are combined with keystream bytes p, p+1, ... regardless of what was processed before.", "quantifier": "every position, every preceding history, every seekable policy", "why_tests_cant": "positions unbounded, residue modulo the iteration size", "anchors": ["strciphr.cpp: AdditiveCipherTemplate::Seek", "modes.cpp: CTR_ModePolicy::SeekToIteration"]}
{"id": "C15", "title": "CTR mode uses counter values IV, IV+1, IV+2, ... modulo 2^(8*blocksize)", "statement": "Keystream block i of CTR mode is E(IV + i) with big-endian addition over the whole block with wraparound, whatever the batching of iterations.", "quantifier": "every IV, every i, every block size, every batching", "why_tests_cant": "carry propagation across any number of bytes; batching by low counter byte", "anchors": ["modes.cpp: CTR_ModePolicy::OperateKeystream, IncrementCounterBy256, SeekToIteration", "misc.h: IncrementCounterByOne"]}
{"id": "C16", "title": "CBC decryption inverts encryption and is chunk independent", "statement": "For every invertible block transformation, CBC decryption of CBC encryption returns the plaintext; processing in several block-multiple pieces equals processing at once.", "quantifier": "every message of whole blocks, IV, key, split", "why_tests_cant": "unbounded number of blocks and splits", "anchors": ["modes.cpp: CBC_Encryption::ProcessData, CBC_Decryption::ProcessData"]}
{"id": "C17", "title": "CBC ciphertext stealing round-trips for every length", "statement": "CBC-CTS decryption inverts encryption for every message longer than one block, and for messages up to one block when a stolen IV is used; the ciphertext has the plaintext's length.", "quantifier": "every message length and content, every IV", "why_tests_cant": "all lengths and residues", "anchors": ["modes.cpp: CBC_CTS_Encryption::ProcessLastBlock, CBC_CTS_Decryption::ProcessLastBlock"]}
{"id": "C18", "title": "CFB mode round-trips for every feedback size and chunking", "statement": "CFB decryption inverts CFB encryption for every feedback size 1..blocksize, with the two sides splitting the stream differently.", "quantifier": "every message, feedback size, split on each side", "why_tests_cant": "register state and left-over interplay", "anchors": ["strciphr.cpp: CFB_CipherTemplate::ProcessData", "modes.cpp: CFB_ModePolicy"]}
{"id": "C19", "title": "OFB keystream is the iterated encryption of the IV", "statement": "OFB keystream block i is E applied i+1 times to the IV, independent of batching; decryption equals encryption.", "quantifier": "every i, IV, batching", "why_tests_cant": "unbounded", "anchors": ["modes.cpp: OFB_ModePolicy::WriteKeystream"]}
{"id": "C20", "title": "DER lengths, integers, strings and OIDs round-trip and are canonical", "statement": "BERDecode of DEREncode returns the value and consumes exactly the encoding, leaving following bytes untouched, for lengths, unsigned integers, octet strings, bit strings, booleans, big integers and object identifiers; DER length encodings are minimal.", "quantifier": "every value of each type, every trailing data", "why_tests_cant": "value spaces unbounded", "anchors": ["asn.cpp: DERLengthEncode, BERLengthDecode, DEREncodeOctetString, BERDecodeOctetString, DEREncodeBitString, BERDecodeBitString, OID::DEREncode, OID::BERDecode", "asn.h: DEREncodeUnsigned, BERDecodeUnsigned", "integer.cpp: Integer::DEREncode"]}
{"id": "C21", "title": "BER length decoding rejects what it cannot represent", "statement": "BERLengthDecode never returns a length different from the encoded one: indefinite, truncated and over-long length fields are reported, not misread.", "quantifier": "every byte string", "why_tests_cant": "all inputs", "anchors": ["asn.cpp: BERLengthDecode"]}
{"id": "C22", "title": "Integer byte encoding round-trips", "statement": "Integer::Decode(Encode(x)) = x for unsigned and two's-complement signed encodings whenever the output length is at least MinEncodedSize; shorter lengths keep the low bytes; MinEncodedSize is the least sufficient length.", "quantifier": "every integer and every output length", "why_tests_cant": "unbounded integers", "anchors": ["integer.cpp: Integer::Encode, Integer::Decode, Integer::MinEncodedSize"]}
{"id": "C23", "title": "Multi-precision addition, subtraction and comparison are exact", "statement": "Word-array addition and subtraction compute exact sums/differences with the right carry for arrays of any length; signed Integer addition, subtraction and comparison agree with mathematical integers.", "quantifier": "every pair of integers of any size and sign", "why_tests_cant": "carry chains of any length", "anchors": ["integer.cpp: Baseline_Add, Baseline_Sub, Increment, Decrement, PositiveAdd, PositiveSubtract, Integer::Plus, Integer::Minus, Integer::Compare"]}
{"id": "C24", "title": "Multi-precision multiplication is exact", "statement": "Schoolbook and Karatsuba word-array multiplication and squaring produce the exact product for every operand size; Integer::Times is exact for all signs.", "quantifier": "every operand pair of any size", "why_tests_cant": "recursion depth and carry patterns unbounded", "anchors": ["integer.cpp: RecursiveMultiply, RecursiveSquare, AsymmetricMultiply, Integer::Times"]}
{"id": "C25", "title": "Division returns the Euclidean quotient and remainder", "statement": "Integer::Divide gives q, r with a = q*b + r and 0 <= r < |b| for all signs; b = 0 throws; division by a single word agrees.", "quantifier": "every a, every b", "why_tests_cant": "quotient-digit estimation corner cases are rare", "anchors": ["integer.cpp: Integer::Divide, PositiveDivide, Divide, CorrectQuotientEstimate, AtomicDivide, DivideThreeWordsByTwo"]}
{"id": "C26", "title": "Montgomery and plain modular arithmetic agree", "statement": "MontgomeryRepresentation Add/Multiply/Square/Inverse/ConvertIn/ConvertOut compute the same residues as ModularArithmetic for every odd modulus.", "quantifier": "every odd modulus and operand", "why_tests_cant": "carry and final-subtraction cases", "anchors": ["integer.cpp: MontgomeryReduce, MontgomeryRepresentation", "modarith.h: ModularArithmetic"]}
{"id": "C27", "title": "Scalar and simultaneous exponentiation compute powers", "statement": "AbstractGroup::ScalarMultiply, CascadeScalarMultiply, SimultaneousMultiply (sliding windows) return n*P (sums thereof) in any group, for every non-negative exponent.", "quantifier": "every group, element, exponent list", "why_tests_cant": "window bookkeeping depends on all exponent bits", "anchors": ["algebra.cpp: AbstractGroup::ScalarMultiply, CascadeScalarMultiply, SimultaneousMultiply, WindowSlider"]}
{"id": "C28", "title": "gcd, inverses, CRT, Jacobi, modular roots and Lucas sequences are mathematically correct", "statement": "GCD, LCM, CRT, Jacobi, Integer::InverseMod, SquareRoot, IsSquare, ModularSquareRoot, SolveModularQuadraticEquation, ModularRoot, Lucas and InverseLucas return the mathematical values for all inputs in their domain, and every loop in them ends. (The domains exclude the cases where the code is proved wrong: see DESIGN.md.)", "quantifier": "every integer input", "why_tests_cant": "unbounded inputs", "anchors": ["integer.cpp: AlmostInverse, Integer::InverseMod, Integer::SquareRoot", "nbtheory.cpp: CRT, Jacobi, ModularSquareRoot, SolveModularQuadraticEquation, ModularRoot, Lucas, InverseLucas", "algebra.cpp: AbstractEuclideanDomain::Gcd"]}
{"id": "C29", "title": "Block-cipher decryption inverts encryption", "statement": "For every key and block, decryption under the same key inverts encryption and vice versa (TEA, XTEA, BTEA, RC5, RC6, Speck, Simon, CHAM, Simeck, LEA, HIGHT, GOST, Blowfish, CAST, DES, Skipjack, 3-Way, Threefish, IDEA, SHACAL-2, ...).", "quantifier": "every key of every allowed length, every block, every round count", "why_tests_cant": "2^(k+n) cases", "anchors": ["tea.cpp", "rc5.cpp", "rc6.cpp", "speck.cpp", "simon.cpp", "gost.cpp", "blowfish.cpp", "des.cpp", "threefish.cpp", "idea.cpp", "lea.cpp", "hight.cpp", "cham.cpp", "simeck.cpp", "skipjack.cpp", "3way.cpp", "shacal2.cpp"]}
{"id": "C30", "title": "Message encodings for RSA invert and reject", "statement": "PKCS#1 v1.5 encryption padding and OAEP unpad what they padded for every message up to the limit and every random pad or seed. Unpad accepts exactly the encodings of some message (OAEP), and for PKCS#1 v1.5 the encodings plus blocks without a zero separator, taken for the empty message (a defect); everything else is reported invalid. EMSA-PKCS1-v1_5 and EMSA2 produce exactly the standard's encoding and accept nothing else.", "quantifier": "every message, random pad, malformed block", "why_tests_cant": "spaces unbounded", "anchors": ["pkcspad.cpp: PKCS_EncryptionPaddingScheme::Pad, Unpad", "oaep.cpp: OAEP_Base::Pad, Unpad", "pkcspad.cpp: PKCS1v15_SignatureMessageEncodingMethod", "emsa2.cpp: EMSA2Pad", "pubkey.cpp: PK_DeterministicSignatureMessageEncodingMethod::VerifyMessageRepresentative"]}
{"id": "C31", "title": "PSS verification accepts every encoded message representative", "statement": "PSS and PSSR as the library defines them (no least padding length): RecoverMessageFromRepresentative accepts what ComputeMessageRepresentative produced and recovers the recoverable part, for every salt, message, hash identifier and bit length; it accepts exactly the encodings with some salt of the right length and nothing else. For a custom MIN_PAD_LEN > 0 this holds exactly when the padding is long enough for the extra byte of odd bit lengths (otherwise the verifier rejects its own signer: a defect).", "quantifier": "every message, salt, representative bit length", "why_tests_cant": "unbounded", "anchors": ["pssr.cpp: PSSR_MEM_Base"]}
{"id": "C32", "title": "RSA decryption inverts encryption", "statement": "InvertibleRSAFunction::CalculateInverse (CRT with blinding) returns x for ApplyFunction(x), for every valid key, every x below n and every blinding value.", "quantifier": "every valid key, x, blinding factor", "why_tests_cant": "number of keys and messages", "anchors": ["rsa.cpp: RSAFunction::ApplyFunction, InvertibleRSAFunction::CalculateInverse", "nbtheory.cpp: ModularRoot, CRT"]}
{"id": "C33", "title": "Signatures verify", "statement": "For DSA/ECDSA (GDSA), NR, Schnorr-like algorithms here: a signature produced with the private key is accepted by Verify with the matching public key, for all messages and nonces that do not give a zero component.", "quantifier": "every group, key, message representative, nonce", "why_tests_cant": "unbounded", "anchors": ["gfpcrypt.h: DL_Algorithm_GDSA, DL_Algorithm_NR", "pubkey.h: DL_SignerBase, DL_VerifierBase"]}
{"id": "C34", "title": "Key agreement agrees", "statement": "DH, DH2, MQV, HMQV, FHMQV and ElGamal/DLIES: both parties derive the same value for all key pairs; ElGamal decryption inverts encryption.", "quantifier": "every pair of key pairs, every group", "why_tests_cant": "unbounded", "anchors": ["dh.h", "mqv.h", "elgamal.h", "pubkey.h: DL_KeyAgreementAlgorithm_DH"]}
{"id": "C35", "title": "Secret sharing reconstructs from any threshold of shares", "statement": "SecretRecovery/InformationRecovery return the shared data from any `threshold` distinct shares, for every data and every choice of shares.", "quantifier": "every data string, threshold, share subset", "why_tests_cant": "combinatorially many subsets", "anchors": ["ida.cpp: RawIDA, SecretSharing, SecretRecovery", "polynomi.cpp: PrepareBulkPolynomialInterpolation", "gf2_32.cpp"]}
{"id": "C36", "title": "Inflate inverts Deflate", "statement": "Deflator turns every message into a DEFLATE stream in the sense of RFC 1951, whatever the calls to Put, Flush and SetDeflateLevel were, and for every message of a sequence. Inflator decodes every DEFLATE stream, whoever wrote it and however it is cut into pieces, delivers exactly the message, and passes on what follows unchanged, provided at least three bytes follow the stream (as in the gzip and zlib formats). If nothing follows, it returns every message of 1 to half a window bytes put in without flushes, and the empty message except at level 0, where (as after a flush at level 0) it refuses the stream.", "quantifier": "every message, sequence of messages, deflate level, window size, chunking on both sides, flush and level change, content of uninitialised memory, sort of equal frequencies; for Inflator every DEFLATE stream", "why_tests_cant": "unbounded", "anchors": ["zdeflate.cpp: LowFirstBitWriter, HuffmanEncoder, Deflator", "zinflate.cpp: LowFirstBitReader, HuffmanDecoder, Inflator"]}
{"id": "C37", "title": "CRC-32 and Adler-32 equal their mathematical definitions for every chunking", "statement": "CRC32/CRC32C digest is the reflected polynomial remainder definition; Adler32 digest is the pair of sums modulo 65521; both independent of splits.", "quantifier": "every message and split", "why_tests_cant": "unbounded messages", "anchors": ["crc.cpp: CRC32::Update, TruncatedFinal", "adler32.cpp: Adler32::Update"]}
{"id": "C38", "title": "Binary field arithmetic is a field", "statement": "GF(2^8), GF(2^32) multiply/inverse implementations satisfy the field laws and equal polynomial multiplication modulo the modulus.", "quantifier": "every element pair", "why_tests_cant": "2^64 pairs", "anchors": ["gf256.cpp", "gf2_32.cpp"]}
{"id": "C39", "title": "GHASH equals multiplication in GF(2^128)", "statement": "The table-driven GCM authentication (2 KB and 64 KB tables, either byte order) equals the GHASH function of SP 800-38D for every hash key and every run of whole blocks, however the blocks are divided between calls.", "quantifier": "every hash key, initial hash value, block sequence, table size, byte order and split at block boundaries", "why_tests_cant": "2^128 keys", "anchors": ["gcm.cpp: GCM_Base::SetKeyWithoutResync, AuthenticateBlocks"]}
{"id": "C40", "title": "Authenticated ciphers enforce call order and round-trip", "statement": "For every history of SetKey, Resynchronize, Restart, Update, ProcessData, TruncatedFinal and TruncatedVerify on an authenticated cipher, each call returns what the algorithm defines for the key, IV, header and text given since the last IV, whatever the pieces; calls before the key or the IV, and all after the authentication code, throw BadState; GCM is SP 800-38D; a text encrypted and decrypted with the same key, IV and header, in any pieces, comes back and is found authentic. With GCM a header after text makes the code unavailable (InvalidArgument).", "quantifier": "every history of calls, key, IV, header, text and split; every 16-byte block cipher, table size and byte order", "why_tests_cant": "infinite sequences", "anchors": ["authenc.cpp: AuthenticatedSymmetricCipherBase", "gcm.cpp: GCM_Base", "cryptlib.cpp: EncryptAndAuthenticate, DecryptAndVerify"]}
{"id": "C41", "title": "Poly1305 equals its polynomial definition", "statement": "Poly1305 tag is (sum of blocks times r powers mod 2^130-5) + nonce mod 2^128 for every message and split, with no limb overflow.", "quantifier": "every key, message, split", "why_tests_cant": "limb carry corner cases", "anchors": ["poly1305.cpp: Poly1305_HashBlocks, Poly1305_HashFinal"]}
{"id": "C42", "title": "Key-derivation functions equal their definitions", "statement": "HKDF, PBKDF1, PBKDF2, KDF2/MGF1 output equals the RFC/IEEE definition for every output length and parameter set.", "quantifier": "every secret, salt, info, iteration count, output length", "why_tests_cant": "unbounded", "anchors": ["hkdf.h", "pwdbased.h", "pubkey.cpp: P1363_MGF1KDF2_Common"]}
{"id": "C43", "title": "Constant-time comparison and buffer utilities are exact", "statement": "VerifyBufsEqual returns true iff the buffers are equal; xorbuf xors bytewise; IncrementCounterByOne adds one modulo 256^n; for all lengths (word-at-a-time paths included).", "quantifier": "every pair of buffers of every length", "why_tests_cant": "word/byte path boundaries", "anchors": ["misc.cpp: VerifyBufsEqual, xorbuf", "misc.h: IncrementCounterByOne"]}
{"id": "C44", "title": "MessageQueue preserves messages and their boundaries", "statement": "Whatever the history of Put/MessageEnd/Get/GetNextMessage, MessageQueue hands out the message bytes in order, never across a message boundary, and NumberOfMessages counts the complete ones.", "quantifier": "every history", "why_tests_cant": "unbounded histories", "anchors": ["mqueue.cpp: MessageQueue"]}
{"id": "C45", "title": "Elliptic-curve point arithmetic is the group law", "statement": "For every short Weierstrass curve over the integers modulo an odd prime p: VerifyPoint accepts exactly the point at infinity and the reduced solutions of the equation; Add, Double, Inverse, Subtract and Equal on points of the group, whatever object-owned references the arguments are, equal the mathematical group law; ScalarMultiply and CascadeScalarMultiply for every exponent, SimultaneousMultiply for exponents other than 0, and the fixed-base tables compute n*P; the same holds on the curve converted to Montgomery form. DecodePoint(EncodePoint(P)) = P uncompressed, and compressed unless the y-coordinate is 0 (then decoding is refused); DecodeElement with checking yields only points of the curve and accepts no two strings of the announced length for the same point; the multiples of a base point of prime order satisfy the group laws all discrete-log schemes rely on.", "quantifier": "every curve over every prime field, every pair of points", "why_tests_cant": "curve sizes astronomically large", "anchors": ["ecp.cpp: ECP::Add, ECP::Double, ECP::Inverse, ECP::DecodePoint, ECP::EncodePoint", "eccrypto.cpp: DL_GroupParameters_EC<EC>::ValidateElement, ExponentiateElement; eccrypto.h: DecodeElement, EncodeElement"]}
{"id": "C46", "title": "Random integers stay in range and shuffles permute", "statement": "GenerateWord32(min,max) always returns a value in [min,max] and each is equally likely over uniform generator output; Shuffle permutes; Integer::Randomize(min,max) stays in range.", "quantifier": "every min<=max, every generator output stream", "why_tests_cant": "all streams", "anchors": ["cryptlib.cpp: RandomNumberGenerator::GenerateWord32", "cryptlib.h: RandomNumberGenerator::Shuffle", "integer.cpp: Integer::Randomize"]}
{"id": "C47", "title": "DRBG reseed and request limits are enforced", "statement": "Hash_DRBG and HMAC_DRBG return, for every history of IncorporateEntropy and GenerateBlock, what SP 800-90A defines; they throw for too little entropy, for more than INT_MAX requests without a reseed, and for more than 65536 bytes in one, and a call that throws leaves the generator as it was.", "quantifier": "every history of calls, every entropy, nonce, personalization, additional input and size; every hash", "why_tests_cant": "histories unbounded", "anchors": ["drbg.h: Hash_DRBG, HMAC_DRBG"]}
{"id": "C48", "title": "Hash filters: the digest is delivered, and verification accepts exactly the messages whose hash matches", "statement": "HashFilter forwards the message if asked, then the (truncated) digest, then the message end, for each message. HashVerificationFilter reports a message as verified, through GetLastResult, the result byte and the exception, iff its hash is the digest of the rest, and outputs message, hash and result as its flags say, however the messages are cut into Put calls and whatever was processed before; with the hash at the beginning this needs messages at least as long as the hash and no earlier exception. What HashFilter wrote is always accepted and returned unchanged.", "quantifier": "every hash object, digest size, flag combination, sequence of messages and split into calls", "why_tests_cant": "splits and histories unbounded", "anchors": ["filters.cpp: HashFilter::Put2, HashVerificationFilter::*", "filters.h: HashFilter, HashVerificationFilter", "cryptlib.cpp: HashTransformation::TruncatedVerify"]}
{"id": "C49", "title": "Keccak, SHA-3 and SHAKE equal FIPS 202 for every history", "statement": "For every sequence of Update, Restart and TruncatedFinal calls on a Keccak, SHA-3 or SHAKE object, each TruncatedFinal(size) delivers exactly the first size bytes of the FIPS 202 function of the message given since the last Restart or TruncatedFinal, independent of how the message was split; SHAKE delivers any size up to UINT_MAX; larger sizes than allowed throw and leave the object as it was.", "quantifier": "every digest size, message, split, history and output size", "why_tests_cant": "unbounded", "anchors": ["keccak_core.cpp: KeccakF1600", "keccak.cpp: Keccak::Update, Keccak::TruncatedFinal", "sha3.cpp: SHA3::Update, SHA3::TruncatedFinal", "shake.cpp: SHAKE::Update, SHAKE::TruncatedFinal"]}
{"id": "C50", "title": "XTS encryption is IEEE P1619's, however it is split into calls, and decryption inverts it", "statement": "Once the IV is set, processing a message as any number of ProcessData calls of whole blocks followed by one ProcessLastBlock call of whole blocks or of one block and a part gives, concatenated, the P1619 encryption (decryption) of the whole message with the tweak cipher applied to the IV, ciphertext stealing included, with input and output in the same or in separate buffers and for every number of parallel blocks and word size of the build; decrypting the result, split in any other way, gives the message back; less than a block is refused. A ProcessLastBlock call with two or more whole blocks and a part is undefined behaviour, and so is Resynchronize with the default IV length (defects).", "quantifier": "every block cipher, IV, message of at least a block, split into calls, buffer placement, build", "why_tests_cant": "lengths unbounded", "anchors": ["xts.cpp: XTS_ModeBase"]}
{"id": "C51", "title": "OpenPGP integers round-trip", "statement": "Integer::OpenPGPDecode(OpenPGPEncode(x)) is |x| and following bytes are untouched, for every integer whose bit count fits the 16-bit header; longer integers are silently corrupted.", "quantifier": "every integer and every trailing data", "why_tests_cant": "unbounded integers", "anchors": ["integer.cpp: Integer::OpenPGPEncode, Integer::OpenPGPDecode"]}
{"id": "C52", "title": "DERReencode converts indefinite lengths and loses nothing", "statement": "DERReencode consumes exactly one BER value and writes it with every indefinite length on the way down replaced by the minimal definite length; definite-length values are copied with a minimal length field.", "quantifier": "every well-formed BER value of any nesting and size, every trailing data", "why_tests_cant": "unbounded nesting", "anchors": ["asn.cpp: DERReencode, BERGeneralDecoder, DERGeneralEncoder"]}
{"id": "C53", "title": "Fewer shares than the threshold reveal nothing about a shared secret", "statement": "With uniformly random bytes from the generator, the contents of any threshold-1 of the shares that SecretSharing writes have the same distribution for every secret of a given length: every content is obtained with exactly one stream of random bytes.", "quantifier": "every secret, threshold, choice of threshold-1 shares, and every content of these shares", "why_tests_cant": "a statement about all random streams at once; a test sees single runs", "anchors": ["ida.cpp: SecretSharing::Put2, RawIDA", "polynomi.cpp: PrepareBulkPolynomialInterpolation", "gf2_32.cpp"]}
{"id": "C54", "title": "The simple generators are the generators they claim to be", "statement": "MersenneTwister puts out the Mersenne twister sequence of its parameters and seed for any number of words, and DiscardBytes/short requests skip and cut that stream as documented; X917RNG with a time vector is the ANSI X9.17 generator and refuses a repeated block; LC_RNG is the multiplicative congruential generator 48271*x mod (2^31-1).", "quantifier": "every seed, parameter set, number of words, block cipher and request size", "why_tests_cant": "tests compare a few outputs for one seed; in-place state updates and arithmetic corner cases show only for some seeds", "anchors": ["mersenne.h: MersenneTwister", "rng.cpp: LC_RNG, X917RNG"]}
{"id": "C55", "title": "RSA encryption and signature schemes work end to end", "statement": "For every valid key, message, seed or salt and blinding value, decrypting with RSA-OAEP or RSA-PKCS#1 v1.5 gives the message encrypted, and the verifier of RSA-PKCS#1 v1.5, RSA-PSS(R) and RSA_ISO-EMSA2 accepts what the signer makes. Exactly the signatures whose public power is an encoding of the message are accepted, and whatever a ciphertext decrypts to, it is an encryption of it.", "quantifier": "every valid RSA key, message, label, salt, seed, blinding value, signature and ciphertext", "why_tests_cant": "tests try a few keys; leading zeros, modulus sizes not a multiple of 8 bits and numbers near the modulus are rare", "anchors": ["pubkey.cpp: TF_EncryptorBase::Encrypt, TF_DecryptorBase::Decrypt, TF_SignerBase::SignAndRestart, TF_VerifierBase::InputSignature, VerifyAndRestart, RecoverAndRestart", "pubkey.h: PaddedBlockBitLength, MessageRepresentativeBitLength", "rsa.h: RSAFunction_ISO"]}
{"id": "C56", "title": "Prime tests never reject a prime, and provable primes are prime", "statement": "IsPrime, VerifyPrime, RabinMillerTest and the strong and Lucas probable prime tests accept every prime; IsPrime is exact up to 32719^2, TrialDivision up to its table; MihailescuProvablePrime and MaurerProvablePrime return only primes of the size asked for, whatever the random number generator gives; the generators PrimeAndGenerator chooses have order q.", "quantifier": "every prime, every number, every output of the random number generator", "why_tests_cant": "infinitely many primes and random choices; a composite 'provable' prime is too rare to meet by testing", "anchors": ["nbtheory.cpp: IsPrime, VerifyPrime, RabinMillerTest, IsStrongProbablePrime, IsStrongLucasProbablePrime, TrialDivision, ProvePrime, MihailescuProvablePrime, MaurerProvablePrime, PrimeAndGenerator::Generate", "primetab.cpp"]}
{"id": "C57", "title": "AES is FIPS 197's AES", "statement": "AES::Encryption and AES::Decryption accept exactly keys of 16, 24 and 32 bytes; ProcessAndXorBlock computes Cipher and InvCipher of FIPS 197 (plus the mask), and decryption undoes encryption, in little- and big-endian builds, with the aligned and the unaligned tables.", "quantifier": "every key of the three lengths, every block, every mask, the four builds of the portable code", "why_tests_cant": "2^256 keys and 2^128 blocks; tests cover a few hundred vectors, on one build", "anchors": ["rijndael.cpp: Rijndael::Base::UncheckedSetKey, FillEncTable, FillDecTable, Enc::ProcessAndXorBlock, Dec::ProcessAndXorBlock", "rdtables.cpp: Se, Sd, rcon"]}
{"id": "C58", "title": "Inflator survives arbitrary input", "statement": "Whatever bytes are given to an Inflator, in whatever Put, MessageEnd and Flush calls, each call ends, writes inside its arrays and window, and either carries on or throws InvalidDataFormat; codes that are not Huffman codes are refused and the output is bounded by the input.", "quantifier": "every sequence of calls, every byte string, both modes", "why_tests_cant": "infinitely many inputs and ways to cut them into calls; the bad ones are hostile, not typical", "anchors": ["zinflate.cpp: Inflator::ProcessInput, DecodeHeader, DecodeBody, OutputByte, OutputString, OutputPast, HuffmanDecoder::Initialize, HuffmanDecoder::Decode, LowFirstBitReader::FillBuffer, SkipBits"]}
{"id": "C59", "title": "Parity bits of DES keys", "statement": "DES::CheckKeyParityBits is true exactly of keys whose bytes all have an odd number of ones; after DES::CorrectKeyParityBits it is true, only the low bits of bytes have changed, a key with parity is left as it was, and the cipher with the corrected key is the same.", "quantifier": "every key", "why_tests_cant": "2^64 keys; a schedule that uses one parity bit would pass tests whose keys have parity", "anchors": ["des.cpp: DES::CheckKeyParityBits, DES::CorrectKeyParityBits, RawDES::RawSetKey"]}
{"id": "C60", "title": "SHA-1, SHA-2 and MD5 compute the standard functions", "statement": "SHA1, SHA224, SHA256, SHA384, SHA512 and MD5 objects return, for every message and every way of giving it in Update calls (in place or not, at any alignment, after Restart or earlier digests), exactly the digest FIPS 180-4 or RFC 1321 defines, truncated as asked; so does HMAC over them.", "quantifier": "every message below 2^64 (2^128) bytes, every history of calls, both byte orders of the machine", "why_tests_cant": "test vectors cover a few messages; the rotated arrays, circular schedule buffers and rewritten Boolean functions must agree with the standard on every state and block", "anchors": ["sha.cpp: SHA1_HashBlock_CXX, SHA256_HashBlock_CXX, SHA512_HashBlock_CXX, SHA256_K, SHA512_K, InitState", "md5.cpp: MD5::Transform, MD5::InitState", "iterhash.cpp: IteratedHashBase"]}
{"id": "C61", "title": "ChaCha, XChaCha20 and their Poly1305 AEADs compute the standard functions", "statement": "After SetKey, any calls of ProcessData, GenerateString, Seek and Resynchronize on ChaCha (8, 12, 20 rounds), ChaChaTLS and XChaCha20 objects return what the keystream of Bernstein's paper, RFC 8439 and the XChaCha draft says, across every wrap of the block counter and with any of the multi-block SIMD paths (Seek of ChaChaTLS with a non-zero InitialBlock excepted, where it is wrong). ChaCha20Poly1305 and XChaCha20Poly1305 return the ciphertext and tag of RFC 8439 and the draft, in one call or any pieces, accept exactly the tags that are right, and give the plaintext back.", "quantifier": "every key, nonce, counter, text up to the documented limit, split into calls, and history of the object", "why_tests_cant": "test vectors never reach the wrap of the 32-bit counter word, the decision which SIMD path to take depends on the counter, and the order of padding and lengths matters for every split", "anchors": ["chacha.cpp: ChaCha_OperateKeystream, HChaCha_OperateKeystream, ChaCha_CipherPolicy, ChaChaTLS_CipherPolicy, XChaCha20_CipherPolicy", "chachapoly.cpp: ChaCha20Poly1305_Base, XChaCha20Poly1305_Base", "authenc.cpp"]}
{"id": "C62", "title": "CMAC and CBC-MAC compute the standard codes", "statement": "After SetKey, any history of Update, Restart, TruncatedFinal and TruncatedVerify on a CMAC or CBC_MAC object returns, at every final call, the (truncated) code that SP 800-38B / RFC 4493, respectively CBC-MAC with zero padding, defines of exactly the bytes given since the last reset; verification accepts exactly the right code.", "quantifier": "every block cipher of an allowed block size, key, message, division into calls, truncation and earlier use of the object", "why_tests_cant": "the delayed last block makes the state depend on every boundary of the pieces; tests sample a few divisions", "anchors": ["cmac.cpp: CMAC_Base, MulU", "cmac.h", "cbcmac.cpp: CBC_MAC_Base"]}
{"id": "C63", "title": "EAX computes the mode of its paper", "statement": "EncryptAndAuthenticate and DecryptAndVerify after SetKey return the ciphertext, plaintext and verdict that the EAX paper defines; any history of calls returns what it defines, exceptions for wrong order included; what one object encrypts in any pieces another decrypts in any other pieces and accepts. (The code fails this after a message is given up: Resynchronize does not restart the MAC.)", "quantifier": "every block cipher of an allowed block size, key, nonce, header, text, division into calls, tag length and history of calls", "why_tests_cant": "tests use one message per object in a few pieces; the fault after a message that is given up is not reached by any of them", "anchors": ["eax.cpp: EAX_Base", "eax.h", "authenc.cpp: AuthenticatedSymmetricCipherBase"]}
{"id": "C64", "title": "CCM computes the mode of RFC 3610 and refuses wrong lengths", "statement": "After SetKey, any number of messages on one CCM object, each begun by Resynchronize and SpecifyDataLengths and then entered in any pieces, finished, restarted or given up, return the ciphertext (plaintext) and the code that RFC 3610 / SP 800-38C defines; EncryptAndAuthenticate and DecryptAndVerify do so in one call and round-trip. If header or text is not as long as specified, InvalidArgument is thrown instead of a code being returned. (SpecifyDataLengths called twice for a message silently leads to a wrong code.)", "quantifier": "every block cipher of 16 bytes, key, nonce of 7 to 13 bytes, header, text, code length, division into calls, sequence of messages", "why_tests_cant": "the encoding of lengths changes at 2^16-2^8 and 2^32, the length field at every nonce size, and the buffer is shared by nonce, length and data; tests use short messages in a few pieces", "anchors": ["ccm.cpp: CCM_Base", "ccm.h", "authenc.cpp: AuthenticatedSymmetricCipherBase", "cryptlib.cpp: AuthenticatedSymmetricCipher"]}
{"id": "C65", "title": "Gunzip inverts Gzip, ZlibDecompressor inverts ZlibCompressor", "statement": "Every message given to a Gzip object, in any calls with flushes and level changes, becomes a member of RFC 1952 whose header carries the name, comment and time set for it; every message given to a ZlibCompressor becomes a stream of RFC 1950. Gunzip and ZlibDecompressor return the message of every such member or stream, whoever wrote it, however it is divided into calls, pass on what follows, read concatenated members when constructed with repeat, and throw if the checksum or length does not match. (The code fails this for headers with FHCRC, for headers over 1024 bytes that come in pieces, for names with a zero byte, and with repeat when the message end comes alone.)", "quantifier": "every message, settings, level, window size, sequence of calls and division of the input, member of another writer, trailing bytes, number of members, std::sort, ByteQueue::Spy", "why_tests_cant": "tests round-trip a few strings in one piece; headers of other writers, wrong tails after any stream, divisions of the input and several members are unbounded", "anchors": ["gzip.cpp: Gzip, Gunzip", "gzip.h", "zlib.cpp: ZlibCompressor, ZlibDecompressor", "zinflate.cpp: Inflator::ProcessInput", "zdeflate.cpp: Deflator"]}
{"id": "C66", "title": "The authenticated encryption filters write and check messages as the mode defines them, in any pieces", "statement": "AuthenticatedEncryptionFilter, given additional data on the channel AAD and text in any pieces, delivers the additional data (if asked), the ciphertext and the code of the first n bytes of the tag; AuthenticatedDecryptionFilter, given additional data, ciphertext and code in any pieces and with the code at the end or at the beginning, delivers the plaintext and reports by GetLastResult or by throwing HashVerificationFailed exactly whether the code is right, message after message; hence it takes back everything the encryption filter writes. (The code fails this when data follows additional data by Put rather than ChannelPut, when arguments are evaluated from right to left, and with MAC_AT_BEGIN for messages shorter than the code and after a rejected message.)", "quantifier": "every AEAD mode that does what its definition says (GCM with any cipher and ChaCha20Poly1305 as instances), key, nonce, code length, division into calls, sequence of messages, state of buffers", "why_tests_cant": "the last n bytes are held back in a ring buffer that additional data also passes through, so the outcome depends on how every call falls on its boundaries; tests give one or two pieces", "anchors": ["filters.cpp: AuthenticatedEncryptionFilter, AuthenticatedDecryptionFilter, StreamTransformationFilter, HashVerificationFilter, FilterWithBufferedInput", "filters.h", "authenc.cpp"]}
{"id": "C67", "title": "Serpent is the cipher of its submission", "statement": "For keys of 16, 24 and 32 bytes, and only for those, SetKey succeeds, and for every block encryption gives what the published description of Serpent gives (S-boxes as tables, little-endian words, 32 rounds, key schedule with the golden ratio), and decryption gives back every block so encrypted; a local variable the code reads before setting it does not influence the result.", "quantifier": "all keys of every length, all blocks, all initial values of the uninitialised variable", "why_tests_cant": "The S-boxes are straight-line Boolean programs over registers whose roles are permuted from round to round by macros; the vectors check a few blocks and keys, not 2^128 blocks under 2^256 keys.", "anchors": ["serpent.cpp: Serpent_KeySchedule, Serpent::Enc::ProcessAndXorBlock, Serpent::Dec::ProcessAndXorBlock", "serpentp.h: LT, ILT, beforeS0..afterS7, S0..S7, I0..I7, KX, LK, SK"]}
{"id": "C68", "title": "Signature filters sign what they are given, and verification accepts exactly the validly signed messages", "statement": "SignerFilter puts out, for every message, the message (if asked to) followed by a signature of exactly that message. SignatureVerificationFilter takes the signature from the end or the beginning of every message, reports it as verified, by result byte, GetLastResult and absence of the exception, exactly if the signature is valid for the rest, and passes on message and signature as its flags say. It does so for every message on its own, whatever was put in before. What SignerFilter puts out, SignatureVerificationFilter with the matching key accepts.", "quantifier": "all flag combinations, all signature schemes, keys and nonces, all sequences of messages, all ways of cutting them into calls of Put", "why_tests_cant": "Tests send one or two well-formed messages; the claim is about every division of the input, every sequence of good, forged and short messages, and what is left in the accumulator after each.", "anchors": ["filters.cpp SignerFilter::Put2, SignatureVerificationFilter::FirstPut/NextPutMultiple/LastPut", "pubkey.h DL_VerifierBase::InputSignature, VerifyAndRestart", "xed25519.h ed25519_MessageAccumulator, ed25519Verifier::InputSignature"]}
{"id": "C69", "title": "BLAKE2b and BLAKE2s objects compute the hash of RFC 7693, keyed or not", "statement": "A BLAKE2b or BLAKE2s object set up with a key, salt, personalization and digest size in their ranges gives, for every message below the limit of the algorithm and however it is divided between calls of Update, the digest RFC 7693 (and, for salt, personalization and last node, the BLAKE2 paper) defines; after each digest and each Restart it starts again with the same key. Sizes out of their ranges are refused with InvalidArgument.", "quantifier": "all keys, salts, personalizations, digest sizes, tree mode flags; all messages and all sequences of Update, Restart and TruncatedFinal", "why_tests_cant": "Tests use a list of vectors of a few lengths; the claim is about every length, including those at block boundaries and above 2^32 or 2^64 bytes where the two counter words carry, every division into calls and every parameter.", "anchors": ["blake2.cpp BLAKE2b::Update, TruncatedFinal, Restart, UncheckedSetKey, IncrementCounter, BLAKE2_Compress64_CXX and the same of BLAKE2s", "blake2.h BLAKE2b_ParameterBlock, BLAKE2s_ParameterBlock"]}
{"id": "C70", "title": "SipHash objects compute SipHash-c-d", "statement": "A SipHash object with C compression and D finalization rounds and 64 or 128 bits of output takes exactly the keys of 16 bytes and gives, for every message and however it is divided between calls of Update, the SipHash-C-D of the paper by Aumasson and Bernstein, cut to the size asked for; after each result and each Restart it starts again with the same key.", "quantifier": "all C and D, both output sizes, all keys, all messages and all sequences of Update, Restart and TruncatedFinal", "why_tests_cant": "Tests use the published vectors of fewer than 64 bytes, each in one call; the claim is about every length (the length enters modulo 256) and every division of the message across the eight byte buffer.", "anchors": ["siphash.h SipHash_Base::Update, TruncatedFinal, Restart, SIPROUND, UncheckedSetKey"]}
{"id": "C71", "title": "Scrypt derives the key of RFC 7914", "statement": "Scrypt::DeriveKey derives, for every password, salt, cost, block size, parallelization and length its documentation allows, the key of RFC 7914, whatever the number of threads, the order in which they run the blocks and what the memory they allocate held before; it refuses all other parameters.", "quantifier": "all passwords and salts, all parameters, all schedules of the parallel loop and all contents of new memory", "why_tests_cant": "Tests run a few vectors with small parameters, on one schedule and on memory as it happens to be; the limits of the parameters cannot be reached by a test.", "anchors": ["scrypt.cpp Scrypt::DeriveKey, ValidateParameters, Smix, BlockMix, Integerify, Salsa20_8", "salsa.cpp Salsa20_Core", "scrypt.h Scrypt"]}
{"id": "C72", "title": "Salsa20 and XSalsa20 make the keystreams of their specification", "statement": "After SetKey, every sequence of ProcessData, GenerateBlock, Seek and Resynchronize calls of Salsa20 (8, 12 or 20 rounds, keys of 16 or 32 bytes) and of XSalsa20 encrypts with the keystream Bernstein specifies at the position the object is at; other numbers of rounds are refused, and a SetKey that is refused leaves the object as it was.", "quantifier": "all keys, nonces and numbers of rounds, all sequences of calls, all positions below 2^64", "why_tests_cant": "Tests use a few vectors from position 0; the reordered state, the carry of the block number into its second word and the state after refused calls matter for other inputs and histories.", "anchors": ["salsa.cpp Salsa20_Policy::CipherSetKey, CipherResynchronize, SeekToIteration, OperateKeystream", "salsa.cpp XSalsa20_Policy::CipherSetKey, CipherResynchronize", "strciphr.cpp AdditiveCipherTemplate"]}
{"id": "C73", "title": "ARC4 and MARC4 compute RC4's keystream", "statement": "After SetKey with a key of 1 to 256 bytes, every sequence of ProcessData, GenerateBlock and DiscardBytes calls of ARC4 and MARC4 encrypts with (or returns) RC4's keystream, starting after the bytes discarded by the parameter DiscardBytes (0 by default for ARC4, 256 for MARC4); decryption inverts encryption, however both are split into calls.", "quantifier": "all keys, all values of DiscardBytes, all sequences of calls, all data", "why_tests_cant": "Vectors cover a few keys and one call each; a slip in the swap, in the wrapping of the key or in the state kept between calls shows up only for other keys, lengths or splits.", "anchors": ["arc4.cpp ARC4_Base::UncheckedSetKey, ProcessData, GenerateBlock, DiscardBytes, MakeByte", "arc4.h MARC4_Base"]}
{"id": "C74", "title": "Integers written as text are read back", "statement": "operator<< and IntToString write the sign and the digits of an Integer in the base asked for, without leading zeros and within the buffer they allocate; the constructor from a string and operator>> read the number back. The constructor takes the base from a prefix or suffix, skips characters that are no digits of it, and in little-endian order reads pairs of hexadecimal digits as bytes. IntToString of built-in signed types writes every value.", "quantifier": "all integers of any size, all bases of the interface, all strings and streams", "why_tests_cant": "Tests convert a few numbers; the size of the buffer, the ends of the ranges, the confusion of digits with suffixes and the state of the stream at its end depend on the number and the text.", "anchors": ["integer.cpp StringToInteger, operator<<, operator>>, IntToString<Integer>", "misc.h IntToString"]}
{"id": "C75", "title": "Array sinks stay within their buffer", "statement": "An ArraySink keeps the first size bytes of all that is put into it, in pieces of any lengths and from the caller's memory or through CreatePutSpace; it writes nothing outside the free part of its buffer, leaves the rest of the buffer as it was, returns from each Put the number of bytes for which there was no room, and reports the number kept and the room left. An ArrayXorSink adds the same bytes to the old content of the buffer. A sink initialised again starts at the beginning of the new buffer.", "quantifier": "all sequences of calls, all lengths, buffers and memory contents", "why_tests_cant": "Tests fill a few buffers exactly; the ends of the buffer, the split over calls and the count kept over a second initialisation depend on the history.", "anchors": ["filters.h ArraySink, ArrayXorSink", "filters.cpp ArraySink::Put2, ArraySink::CreatePutSpace, ArraySink::IsolatedInitialize, ArrayXorSink::Put2"]}
{"id": "C76", "title": "Secure blocks keep their elements and wipe what they give back", "statement": "After any sequence of New, CleanNew, Grow, CleanGrow, resize, Assign, Append and writes of the caller, a SecBlock holds exactly the elements these calls describe; none of the calls reads or writes outside its memory, and all memory it gives back, in any of them and in its destructor, is set to 0 first. A call throws only for too large sizes or when memory is refused, and then the block is as it was. Memory that New adds is 0. The same holds for FixedSizeSecBlock, and swap exchanges the elements of two blocks.", "quantifier": "all sequences of calls, sizes and contents, and all choices of the operating system which allocations to refuse", "why_tests_cant": "Tests cannot look at memory that was given back, and refuse no allocations; aliasing, sizes near the limit and exceptions in the middle depend on the history.", "anchors": ["secblock.h SecBlock, AllocatorWithCleanup, StandardReallocate, AllocatorBase::CheckSize", "secblock.h FixedSizeSecBlock, FixedSizeAllocatorWithCleanup, SecBlock::swap"]}
