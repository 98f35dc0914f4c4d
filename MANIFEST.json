{
 "claims": [
  {
   "property": "C01",
   "status": "proved",
   "theorems": [
    "Verif.Queue.byteQueue_is_fifo",
    "Verif.Queue.sizes_agree",
    "Verif.Queue.put_then_get_all",
    "Verif.Queue.nonblocking_transfer_loses_nothing",
    "Verif.Queue.initialize_zero_then_put_diverges"
   ],
   "note": "All histories of 21 public calls; NodeSize=0 via IsolatedInitialize is excluded because Put then diverges (separate theorem)."
  },
  {
   "property": "C02",
   "status": "proved",
   "theorems": [
    "Verif.Queue.copy_same_bytes",
    "Verif.Queue.eq_iff_same_bytes",
    "Verif.Queue.index_is_ith",
    "Verif.Queue.spy_prefix",
    "Verif.Queue.copyRange_is_slice",
    "Verif.Queue.walker_reads_in_order",
    "Verif.Queue.walker_maxRetrievable_overreports"
   ],
   "note": "operator= for distinct objects (self-assignment is a use after free in the code). Walker::MaxRetrievable over-reports on lazy bytes: separate theorem."
  },
  {
   "property": "C03",
   "status": "proved",
   "theorems": [
    "Verif.BaseN.encoder_chunking_independent",
    "Verif.BaseN.textEncoder_chunking_independent",
    "Verif.BaseN.decoder_chunking_independent"
   ],
   "note": "exact equality of state and of the sequence of calls made to the attachment; attachment accepts everything"
  },
  {
   "property": "C04",
   "status": "proved",
   "theorems": [
    "Verif.BaseN.decode_encode",
    "Verif.BaseN.decode_encode_custom",
    "Verif.BaseN.builtin_table_inverts"
   ],
   "note": "all built-in codecs with any grouping, padding, chunking, message sequence; custom alphabets too"
  },
  {
   "property": "C05",
   "status": "proved",
   "theorems": [
    "Verif.BaseN.encoder_output",
    "Verif.BaseN.textEncoder_output",
    "Verif.BaseN.decoder_output",
    "Verif.BaseN.encoder_rejects_base",
    "Verif.BaseN.decoder_rejects_base"
   ],
   "note": "bit-string definition"
  },
  {
   "property": "C06",
   "status": "proved",
   "theorems": [
    "Verif.BaseN.decoder_ignores_nonalphabet",
    "Verif.BaseN.builtin_table_range"
   ],
   "note": "any insertion, any chunking"
  },
  {
   "property": "C07",
   "status": "proved",
   "theorems": [
    "Verif.BufFilter.filter_delivers",
    "Verif.BufFilter.lastPut_determined",
    "Verif.BufFilter.filter_delivers_flushed",
    "Verif.BufFilter.hardFlush_out_of_bounds",
    "Verif.BufFilter.filter_rejects_block_size"
   ],
   "note": "All message sequences, splits and sizes. With hard flushes: argument order left-to-right or block size above 1; the other case is refuted by hardFlush_out_of_bounds."
  },
  {
   "property": "C08",
   "status": "proved",
   "theorems": [
    "Verif.Padding.encrypt_output",
    "Verif.Padding.encrypt_output_zeros",
    "Verif.Padding.unpadded_output",
    "Verif.Padding.decrypt_encrypt",
    "Verif.Padding.decrypt_encrypt_zeros",
    "Verif.Padding.lastBlock_output",
    "Verif.Padding.default_padding",
    "Verif.Padding.pkcs_256_not_accepted"
   ],
   "note": "Any cipher meeting Cipher.Ok; every message, split, and put-space behaviour; block sizes below 256 for the round trip."
  },
  {
   "property": "C09",
   "status": "proved",
   "theorems": [
    "Verif.Padding.decrypt_output",
    "Verif.Padding.decrypt_output_zeros",
    "Verif.Padding.unpadded_output",
    "Verif.Padding.padding_needs_block_mode"
   ],
   "note": "Exact accept/reject set for every ciphertext."
  },
  {
   "property": "C10",
   "status": "proved",
   "theorems": [
    "Verif.IterHash.history_digests",
    "Verif.IterHash.split_independent",
    "Verif.IterHash.too_long_rejected",
    "Verif.IterHash.too_long_undetected",
    "Verif.IterHash.length_field_wraps"
   ],
   "note": "Any compression function, word size, block size and byte orders; every split, alignment and in-place use. Length corner cases where the code departs from the English are proved as too_long_undetected and length_field_wraps."
  },
  {
   "property": "C11",
   "status": "proved",
   "theorems": [
    "Verif.IterHash.history_digests",
    "Verif.IterHash.reusable",
    "Verif.IterHash.truncation_rejected",
    "Verif.IterHash.too_long_changes_object"
   ],
   "note": "Histories of any length on one object."
  },
  {
   "property": "C12",
   "status": "proved",
   "theorems": [
    "Verif.Hmac.history_macs",
    "Verif.Hmac.history_macs_iterated",
    "Verif.Hmac.mac_split_independent",
    "Verif.Hmac.needs_block_hash",
    "Verif.Hmac.long_digest_undefined"
   ],
   "note": "Over any hash object computing a function with digest no longer than a block; instantiated for the iterated hashes."
  },
  {
   "property": "C13",
   "status": "proved",
   "theorems": [
    "Verif.Stream.history_outputs",
    "Verif.Stream.split_independent",
    "Verif.Stream.decrypt_encrypt"
   ],
   "note": "Over any keystream policy satisfying Policy.Ok."
  },
  {
   "property": "C14",
   "status": "proved",
   "theorems": [
    "Verif.Stream.history_outputs",
    "Verif.Stream.seek_exact"
   ],
   "note": "Over any keystream policy satisfying Policy.Ok; CTR is an instance (C15)."
  },
  {
   "property": "C15",
   "status": "proved",
   "theorems": [
    "Verif.Modes.ctr_history",
    "Verif.Modes.ctr_blocks",
    "Verif.Modes.ctr_wraps"
   ],
   "note": "CTR_ModePolicy as a Stream policy over an arbitrary block function; any sequence of requests and seeks, counter wraps modulo 2^(8*blocksize), in place or not"
  },
  {
   "property": "C16",
   "status": "proved",
   "theorems": [
    "Verif.Modes.cbc_encrypt_history",
    "Verif.Modes.cbc_decrypt_history",
    "Verif.Modes.cbc_round_trip",
    "Verif.Modes.cbc_encrypt_frame",
    "Verif.Modes.ecb_blocks"
   ],
   "note": "CBC and ECB over any block permutation, any split of the message into calls, in place or not; memory outside the output buffer is unchanged"
  },
  {
   "property": "C17",
   "status": "proved",
   "theorems": [
    "Verif.Modes.cts_round_trip",
    "Verif.Modes.cts_short_round_trip",
    "Verif.Modes.cts_short_rejected",
    "Verif.Modes.cts_in_place_wrong"
   ],
   "note": "ProcessLastBlock of CBC_CTS with separate buffers, including the stolen-IV short message; in-place last block is shown wrong (documented only for ProcessData)"
  },
  {
   "property": "C18",
   "status": "proved",
   "theorems": [
    "Verif.Modes.cfb_history",
    "Verif.Modes.cfb_round_trip",
    "Verif.Modes.cfb_feedback_size"
   ],
   "note": "every feedback size 1..blocksize, any split into calls"
  },
  {
   "property": "C19",
   "status": "proved",
   "theorems": [
    "Verif.Modes.ofb_history",
    "Verif.Modes.ofb_blocks",
    "Verif.Modes.ofb_decrypt_encrypt"
   ],
   "note": "OFB_ModePolicy as a Stream policy over an arbitrary block function"
  },
  {
   "property": "C20",
   "status": "partial",
   "theorems": [
    "Verif.Asn.length_round_trip",
    "Verif.Asn.length_canonical",
    "Verif.Asn.string_decode_exact",
    "Verif.Asn.string_round_trip",
    "Verif.Asn.null_decode_exact",
    "Verif.Asn.null_round_trip",
    "Verif.Asn.bitString_decode_exact",
    "Verif.Asn.bitString_round_trip",
    "Verif.Asn.unsigned_canonical",
    "Verif.Asn.unsigned_decode_exact",
    "Verif.Asn.unsigned_round_trip",
    "Verif.Asn.boolean_round_trip",
    "Verif.Asn.integer_canonical",
    "Verif.Asn.integer_round_trip_partial",
    "Verif.Asn.integer_round_trip_fails",
    "Verif.Asn.integer_empty_content_undefined",
    "Verif.Asn.unsigned_misreads_negative",
    "Verif.Asn.integer_octets_round_trip",
    "Verif.Asn.oid_decode_exact",
    "Verif.Asn.oid_arc_canonical",
    "Verif.Asn.oid_round_trip_partial",
    "Verif.Asn.oid_round_trip_fails"
   ],
   "note": "Proved in full for lengths, strings, null, bit strings, unsigned integers, booleans and octet-string integers. False, with proved counterexamples, for big integers -2^(WORD_BITS*2^(k+1)) and for OIDs whose first two arcs do not fit the one-octet form; proved for all others."
  },
  {
   "property": "C21",
   "status": "proved",
   "theorems": [
    "Verif.Asn.berLength_exact",
    "Verif.Asn.berLength_indefinite_exact",
    "Verif.Asn.berLength_rejects",
    "Verif.Asn.berLengthSize_exact"
   ],
   "note": "exact characterisation (iff) of what both overloads accept, for every byte string and every size_t width"
  },
  {
   "property": "C22",
   "status": "partial",
   "theorems": [
    "Verif.Integer.encode_bytes",
    "Verif.Integer.minEncodedSize_unsigned_least",
    "Verif.Integer.minEncodedSize_signed_least",
    "Verif.Integer.decode_unsigned",
    "Verif.Integer.decode_signed",
    "Verif.Integer.decode_short",
    "Verif.Integer.unsigned_round_trip",
    "Verif.Integer.signed_round_trip_partial",
    "Verif.Integer.encode_short_keeps_low_bytes",
    "Verif.Integer.decode_signed_negative_zero",
    "Verif.Integer.decode_empty_reads_next_byte"
   ],
   "note": "Unsigned round trip proved in full. Signed round trip is false for the values -2^(WORD_BITS*2^(k+1)) (proved: Decode yields a negative zero) and proved for every other integer."
  },
  {
   "property": "C23",
   "status": "proved",
   "theorems": [
    "Verif.Integer.wordAdd_exact",
    "Verif.Integer.wordSub_exact",
    "Verif.Integer.arithmetic_exact",
    "Verif.Integer.compare_exact",
    "Verif.Integer.not_exact",
    "Verif.Integer.shifts_exact",
    "Verif.Integer.bits_exact"
   ],
   "note": "word arrays of any even length, every word size; class Integer with its register-size invariant"
  },
  {
   "property": "C24",
   "status": "proved",
   "theorems": [
    "Verif.Integer.times_exact",
    "Verif.Integer.multiply_words_exact",
    "Verif.Integer.square_words_exact",
    "Verif.Integer.multiplyBottom_words_exact",
    "Verif.Integer.multiplyTop_words_exact",
    "Verif.Integer.asymmetricMultiply_words_exact"
   ],
   "note": "Portable C++ path (no assembly): comba baselines, Karatsuba recursion, squaring, bottom and top halves, asymmetric splitting and Integer::Times, with every carry word modelled."
  },
  {
   "property": "C25",
   "status": "partial",
   "theorems": [
    "Verif.Integer.divide_euclidean",
    "Verif.Integer.divide_by_zero",
    "Verif.Integer.divide_words_exact",
    "Verif.Integer.moduloWord_euclidean",
    "Verif.Integer.divideByPowerOf2_euclidean",
    "Verif.Integer.divideWord_euclidean_partial",
    "Verif.Integer.divideWord_pow2_negative_wrong"
   ],
   "note": "Integer/Integer division, Modulo(word) and DivideByPowerOf2 proved in full, down to the word-level quotient estimation. The word overload of Divide is proved except for negative dividends with a power-of-two divisor, where the code is wrong (witness proved)."
  },
  {
   "property": "C26",
   "status": "proved",
   "theorems": [
    "Verif.Integer.modular_arithmetic_correct",
    "Verif.Integer.montgomery_correct",
    "Verif.Integer.residue_unique",
    "Verif.Integer.montgomery_agrees_with_plain",
    "Verif.Integer.montgomery_even_modulus",
    "Verif.Integer.accumulate_reduce_correct",
    "Verif.Integer.montgomery_oversized_modulus_undefined",
    "Verif.Integer.inverse_of_own_result_is_zero",
    "Verif.Integer.plain_identity_of_modulus_one"
   ],
   "note": "Any expression built from +,-,*,square,negation,halving and inversion, evaluated operation by operation with the objects' own result buffers, on word arrays with uninitialised workspace. Operands are copied between operations (Element values); nesting the returned references is shown to go wrong in three ways."
  },
  {
   "property": "C27",
   "status": "proved",
   "theorems": [
    "Verif.Algebra.scalar_multiply_correct",
    "Verif.Algebra.simultaneous_multiply_correct",
    "Verif.Algebra.cascade_multiply_correct",
    "Verif.Algebra.general_cascade_correct",
    "Verif.Algebra.fixed_base_correct",
    "Verif.Algebra.fixed_base_cascade_correct",
    "Verif.Algebra.precompute_without_storage_undefined",
    "Verif.Integer.a_exp_b_mod_c_correct",
    "Verif.Integer.a_exp_b_mod_c_zero",
    "Verif.Integer.a_times_b_mod_c_correct",
    "Verif.Integer.simultaneous_exponentiate_correct",
    "Verif.Integer.cascade_exponentiate_correct",
    "Verif.Integer.cascade_even_unreduced_wrong"
   ],
   "note": "In any commutative group object (an interface whose operations may fail, return references into mutable members and change state); instantiated with the model of class Integer's Montgomery and plain rings down to words.  Exponent bookkeeping uses natural numbers for the Integer operations proved exact elsewhere.  Excluded cases are proved as witnesses: Precompute with storage 0, and CascadeExponentiate with an even modulus and unreduced bases."
  },
  {
   "property": "C28",
   "status": "proved",
   "theorems": [
    "Verif.Integer.inverseMod_correct",
    "Verif.Integer.inverseModWord_correct",
    "Verif.Integer.inverseMod_oversized_undefined",
    "Verif.Nbt.gcd_exact",
    "Verif.Nbt.gcd_negative",
    "Verif.Nbt.relativelyPrime_exact",
    "Verif.Nbt.lcm_exact",
    "Verif.Nbt.lcm_zero",
    "Verif.Nbt.crt_exact",
    "Verif.Nbt.jacobi_exact",
    "Verif.Nbt.squareRoot_exact",
    "Verif.Nbt.isSquare_exact",
    "Verif.Nbt.modularSquareRoot_exact",
    "Verif.Nbt.modularSquareRoot_nonsquare",
    "Verif.Nbt.modularSquareRoot_three_mod_four_nonsquare",
    "Verif.Nbt.modularSquareRoot_two_diverges",
    "Verif.Nbt.solveQuadratic_exact",
    "Verif.Nbt.solveQuadratic_linear_wrong",
    "Verif.Nbt.modularRoot_exact",
    "Verif.Nbt.modularRoot_two_wrong",
    "Verif.Nbt.lucas_exact",
    "Verif.Nbt.inverseLucas_exact",
    "Verif.Nbt.inverseLucas_minus_two_wrong"
   ],
   "note": "Every function on its domain; where the code is wrong outside it a counterexample is proved (InverseMod of a value in an oversized register, GCD of negative numbers, ModularSquareRoot modulo 2, quadratic equation with a = 0 mod p, ModularRoot with p = 2, InverseLucas of -2)."
  },
  {
   "property": "C29",
   "status": "partial",
   "theorems": [
    "Verif.Cipher.tea_inverse",
    "Verif.Cipher.xtea_inverse",
    "Verif.Cipher.btea_inverse",
    "Verif.Cipher.rc5_inverse",
    "Verif.Cipher.rc6_inverse",
    "Verif.Cipher.rc2_inverse",
    "Verif.Cipher.lea_inverse",
    "Verif.Cipher.speck_cipher_inverse",
    "Verif.Cipher.simon_cipher_inverse",
    "Verif.Cipher.speck64_inverse",
    "Verif.Cipher.speck128_inverse",
    "Verif.Cipher.simon64_inverse",
    "Verif.Cipher.simon128_inverse",
    "Verif.Cipher.simeck32_inverse",
    "Verif.Cipher.simeck64_inverse",
    "Verif.Cipher.cham64_inverse",
    "Verif.Cipher.cham128_inverse",
    "Verif.Cipher.hight_inverse",
    "Verif.Cipher.threefish_inverse",
    "Verif.Cipher.threefish256_inverse",
    "Verif.Cipher.threefish512_inverse",
    "Verif.Cipher.threefish1024_inverse",
    "Verif.Cipher.gost_inverse",
    "Verif.Cipher.btea_one_word_not_invertible",
    "Verif.Cipher.rc2_effective_length_zero_undefined",
    "Verif.Cipher.rc2_effective_length_negative_undefined",
    "Verif.Cipher.rc5_rounds_int_max_undefined",
    "Verif.Cipher.rc6_rounds_int_max_undefined",
    "Verif.Cipher.speck_ignores_key_byte",
    "Verif.Cipher.btea_ignores_mask",
    "Verif.Cipher.threefish_short_tweak_undefined",
    "Verif.Aes.rijndael_inverse",
    "Verif.Cipher.des_inverse",
    "Verif.Cipher.des_ede2_inverse",
    "Verif.Cipher.des_ede3_inverse",
    "Verif.Cipher.des_xex3_inverse",
    "Verif.Cipher.blowfish_inverse",
    "Verif.Cipher.cast128_inverse",
    "Verif.Cipher.cast256_inverse",
    "Verif.Cipher.skipjack_inverse",
    "Verif.Cipher.shacal2_inverse",
    "Verif.Cipher.idea_inverse",
    "Verif.Cipher.idea_multiplication",
    "Verif.Cipher.idea_width_independent",
    "Verif.Cipher.threeway_inverse_partial",
    "Verif.Cipher.threeway_other_rounds_not_invertible",
    "Verif.Cipher.classic_key_lengths",
    "Verif.Serpent.serpent_inverse",
    "Verif.Cipher.sm4_inverse",
    "Verif.Cipher.seed_inverse",
    "Verif.Cipher.twofish_inverse",
    "Verif.Cipher.mars_inverse",
    "Verif.Cipher.camellia_inverse",
    "Verif.Cipher.camellia_slow_round",
    "Verif.Cipher.safer_inverse",
    "Verif.Cipher.safer_accepts",
    "Verif.Cipher.safer_rounds_overflow",
    "Verif.Cipher.safer_rounds_clamped",
    "Verif.Cipher.safer_no_rounds"
   ],
   "note": "Inversion in both directions on all blocks, for all keys and parameters SetKey accepts, for TEA, XTEA, BTEA, RC2, RC5, RC6, LEA, SPECK, SIMON, SIMECK, CHAM, HIGHT, Threefish (all sizes, with tweaks), GOST, AES, DES, DES-EDE2, DES-EDE3, DES-XEX3, Blowfish, CAST-128, CAST-256, Skipjack, SHACAL-2, IDEA, 3-Way (11 rounds), Serpent, SM4, SEED, Twofish, MARS, Camellia, SAFER-K and SAFER-SK; known answers checked by the kernel. Missing: SHARK, Square, ARIA, Kalyna and the vector-unit implementations. Where the code departs: BTEA blocks of one word and masks, RC2 effective lengths <= 0, RC5/RC6 INT_MAX rounds, SPECK key lengths, short Threefish tweaks, 3-Way with other than 11 rounds, SAFER with 0, more than 13 or 2^28 rounds."
  },
  {
   "property": "C30",
   "status": "proved",
   "theorems": [
    "Verif.PkPad.pkcs_round_trip",
    "Verif.PkPad.pkcs_unpad_exact",
    "Verif.PkPad.pkcs_no_separator_accepted",
    "Verif.PkPad.pkcs_accepted_padding",
    "Verif.PkPad.pkcs1_exact",
    "Verif.PkPad.emsa2_exact",
    "Verif.PkPad.oaep_round_trip",
    "Verif.PkPad.oaep_unpad_exact",
    "Verif.PkPad.oaep_small_key_undefined"
   ],
   "note": "Exact acceptance sets for all encodings; Unpad of PKCS #1 v1.5 also accepts a block with no zero separator (proved), and OAEP padding with a key too small for the hash is undefined behaviour (proved)."
  },
  {
   "property": "C31",
   "status": "proved",
   "theorems": [
    "Verif.PkPad.pss_round_trip",
    "Verif.PkPad.pss_round_trip_partial",
    "Verif.PkPad.pss_recover_exact",
    "Verif.PkPad.pss_verify_exact",
    "Verif.PkPad.pss_min_pad_rejects_own"
   ],
   "note": "Proved for every encoding the library instantiates (MIN_PAD_LEN = 0). With MIN_PAD_LEN > 0 and a bit length not a multiple of 8 the verifier rejects its own signer's longest recoverable part (pss_min_pad_rejects_own); pss_round_trip_partial has the exact condition."
  },
  {
   "property": "C32",
   "status": "proved",
   "theorems": [
    "Verif.Rsa.decrypt_inverts_encrypt",
    "Verif.Rsa.verify_inverts_sign",
    "Verif.Rsa.result_checked",
    "Verif.Rsa.too_large_throws",
    "Verif.Rsa.generated_key_valid",
    "Verif.Rsa.initialized_key_works",
    "Verif.Rsa.iso_verify_inverts_sign",
    "Verif.Rsa.iso_decrypt_inverts_encrypt",
    "Verif.Rsa.strip_ends",
    "Verif.Rsa.crt_exponent_one_refused",
    "Verif.Rsa.initialize_refuses_valid_key",
    "Verif.Rsa.initialize_diverges",
    "Verif.Rsa.halving_zero_diverges"
   ],
   "note": "Every key that passes Validate level 1 and whose p, q are prime; every x below n; every list of blinding values with an invertible one. Modular exponentiation is its value (Montgomery and windowing are C27/C26). Three negatives recorded."
  },
  {
   "property": "C33",
   "status": "proved",
   "theorems": [
    "Verif.Dl.signatures_verify",
    "Verif.Dl.signature_components",
    "Verif.Dl.accepted_iff",
    "Verif.Dl.out_of_range_rejected",
    "Verif.Dl.short_signature_refused",
    "Verif.Dl.gfp_parameters",
    "Verif.Dl.zero_component_signed"
   ],
   "note": "All digests, keys and nonces in [1,q-1]; DSA/ECDSA, ECGDSA, NR; over any prime-order group given by Laws (instance: every Z_p subgroup). zero_component_signed: the signer does not retry. The digest is an input; RFC 6979 nonces not modelled."
  },
  {
   "property": "C34",
   "status": "proved",
   "theorems": [
    "Verif.Dl.dh_agrees",
    "Verif.Dl.dh_wrong_order_refused",
    "Verif.Dl.dh2_agrees",
    "Verif.Dl.mqv_agrees",
    "Verif.Dl.hmqv_agrees",
    "Verif.Dl.elgamal_inverts",
    "Verif.Dl.ies_inverts",
    "Verif.Dl.ies_authentic",
    "Verif.Dl.ies_format",
    "Verif.Dl.ies_secret",
    "Verif.Dl.short_ciphertext_undefined",
    "Verif.Dl.short_tag_undefined",
    "Verif.Dl.elgamal_long_message_undefined"
   ],
   "note": "All key pairs, all cofactor options, validation flags, group parameters satisfying Laws. Negative results: decryptors read behind short ciphertexts, ElGamal encryption of too long messages."
  },
  {
   "property": "C35",
   "status": "partial",
   "theorems": [
    "Verif.Ida.secret_sharing_recovers",
    "Verif.Ida.information_dispersal_recovers_partial",
    "Verif.Ida.extra_share_ignored",
    "Verif.Ida.padding_removed_without_bad_cut",
    "Verif.Ida.second_message_rotated",
    "Verif.Ida.padding_kept_at_cut",
    "Verif.Ida.queue_cuts_tail",
    "Verif.Ida.recovery_keeps_padding_at_node_boundary"
   ],
   "note": "Secret sharing proved for every threshold, number of shares, subset, interleaving and cut. Information dispersal proved for a dispersal whose channel counter is at 0 (a new object, or after messages whose padded length is a multiple of the threshold). The full statement is false of the code: the counter is not reset between messages (second_message_rotated), and PaddingRemover leaves the padding in when a queue node ends between a data byte 1 and the padding (recovery_keeps_padding_at_node_boundary, queue_cuts_tail); both proved as negations. How the last bytes lie in queue nodes is a parameter of the model."
  },
  {
   "property": "C36",
   "status": "proved",
   "theorems": [
    "Verif.Flate.inflate_inverts_deflate",
    "Verif.Flate.inflate_inverts_deflate_alone",
    "Verif.Flate.inflate_inverts_deflate_empty",
    "Verif.Flate.deflator_writes_streams",
    "Verif.Flate.inflate_reads_streams",
    "Verif.Flate.inflate_reads_roomy_streams",
    "Verif.Flate.roomy_of_single",
    "Verif.Flate.inflate_refuses_empty_level0",
    "Verif.Flate.inflate_refuses_flushed_level0",
    "Verif.Flate.inflate_rejects_empty_stored",
    "Verif.Flate.inflate_rejects_short_tail",
    "Verif.Flate.huffman_round_trip",
    "Verif.Flate.huffman_canonical",
    "Verif.Flate.code_lengths_valid",
    "Verif.Flate.deflate_huffman_partial"
   ],
   "note": "Deflator writes a DEFLATE stream (RFC 1951, specified in Flate/Format.lean) for every message, history of Put, Flush and SetDeflateLevel, level, window size, content of uninitialised memory and sort, and for every message of a sequence; Inflator decodes every DEFLATE stream, whoever wrote it, in whatever pieces, when three bytes follow it. When nothing follows, short messages without flushes are proved, and counterexamples are proved for level 0."
  },
  {
   "property": "C37",
   "status": "proved",
   "theorems": [
    "Verif.Checksum.crc32_history",
    "Verif.Checksum.crc32c_history",
    "Verif.Checksum.isCrc_unique",
    "Verif.Checksum.adler32_history"
   ],
   "note": "Portable Update loops on machines of both byte orders, every alignment and split; digest is the polynomial remainder (specified over GF(2)[x]) and is unique; Adler sums do not overflow a 32-bit unsigned long. The ARMv8/SSE4.2 CRC instructions (crc_simd.cpp) are not modelled."
  },
  {
   "property": "C38",
   "status": "proved",
   "theorems": [
    "Verif.Gf.gf256_multiply",
    "Verif.Gf.gf256_field",
    "Verif.Gf.gf256_shark_modulus",
    "Verif.Gf.gf2_32_multiply",
    "Verif.Gf.gf2_32_inverse",
    "Verif.Gf.gf2_32_default_modulus",
    "Verif.Gf.inverse_of_zero_divisor_diverges"
   ],
   "note": "Every modulus for multiplication; every irreducible modulus for inversion and the field laws; the moduli used in the library are proved irreducible. Both rotate and shift builds."
  },
  {
   "property": "C39",
   "status": "proved",
   "theorems": [
    "Verif.Ghash.ghash_exact",
    "Verif.Ghash.ghash_tables_agree",
    "Verif.Ghash.ghash_split"
   ],
   "note": "The C++ (non-assembly) code of GCM_Base::SetKeyWithoutResync and AuthenticateBlocks, with both table sizes and both byte orders, against the bit-serial multiplication of SP 800-38D section 6.3. CLMUL, PMULL, NEON, SSE2 and POWER8 code and the CRYPTOPP_BOOL_SLOW_WORD64 branch are not modelled."
  },
  {
   "property": "C40",
   "status": "proved",
   "theorems": [
    "Verif.Auth.history_exact",
    "Verif.Auth.session_exact",
    "Verif.Auth.encrypt_exact",
    "Verif.Auth.decrypt_exact",
    "Verif.Auth.used_up",
    "Verif.Gcm.gcm_history",
    "Verif.Gcm.gcm_encrypt_exact",
    "Verif.Gcm.gcm_decrypt_exact",
    "Verif.Gcm.gcm_late_header",
    "Verif.Gcm.gcm_round_trip",
    "Verif.Gcm.no_wrap_12",
    "Verif.Gcm.gcm_counter_wrap"
   ],
   "note": "The generic theorems hold for every cipher whose virtual functions meet Hooks.Ok; GCM is shown to (Verif.Gcm.gcm_ok). SP 800-38D for all IVs except those whose first counter block ends in ffffffff, where gcm_counter_wrap shows the code differs from it; the round trip holds for all IVs."
  },
  {
   "property": "C41",
   "status": "proved",
   "theorems": [
    "Verif.Poly1305.poly1305_computes",
    "Verif.Poly1305.tls_tag",
    "Verif.Poly1305.cipher_tag",
    "Verif.Poly1305.hashBlock_spec"
   ],
   "note": "both classes, any split, any number of messages, any truncation; the word arithmetic is modelled with its reductions."
  },
  {
   "property": "C42",
   "status": "proved",
   "theorems": [
    "Verif.Kdf.pbkdf1_exact",
    "Verif.Kdf.pbkdf1_timed",
    "Verif.Kdf.pbkdf1_too_long",
    "Verif.Kdf.pbkdf2_exact",
    "Verif.Kdf.pbkdf2_timed",
    "Verif.Kdf.pbkdf2_too_long",
    "Verif.Kdf.pkcs12_exact",
    "Verif.Kdf.pkcs12_timed",
    "Verif.Kdf.hkdf_exact",
    "Verif.Kdf.hkdf_too_long",
    "Verif.Kdf.mgf1_generate",
    "Verif.Kdf.mgf1_masks",
    "Verif.Kdf.kdf2_exact"
   ],
   "note": "Over any hash object computing a function; the clock is an arbitrary function. scrypt is not modelled."
  },
  {
   "property": "C43",
   "status": "proved",
   "theorems": [
    "Verif.Buf.xorbuf3_bytewise",
    "Verif.Buf.xorbuf2_bytewise",
    "Verif.Buf.verifyBufsEqual_iff",
    "Verif.Buf.incrementInPlace_adds_one",
    "Verif.Buf.incrementTo_adds_one",
    "Verif.Buf.conditionalSwap_spec",
    "Verif.Buf.xorbuf_overlap_depends_on_build"
   ],
   "note": "All lengths, byte orders and vector strides. xorbuf needs the output not to start inside a source (proved negative: otherwise the result depends on the build)."
  },
  {
   "property": "C44",
   "status": "proved",
   "theorems": [
    "Verif.MQueue.queue_history",
    "Verif.MQueue.filter_exact",
    "Verif.MQueue.messagesInThisSeries_never_decreases",
    "Verif.MQueue.swap_leaves_counts",
    "Verif.MQueue.copyAll_diverges",
    "Verif.MQueue.unfinished_message_reported_equal",
    "Verif.MQueue.second_series_false_mismatch"
   ],
   "note": "history theorem for MessageQueue over the ByteQueue contract (bytes, message ends, counts of messages) and exactness of EqualityComparisonFilter for all histories of puts; negatives: message series counters, swap, CopyAllTo and the filter's series ends misbehave"
  },
  {
   "property": "C45",
   "status": "proved",
   "theorems": [
    "Verif.Ecp.verify_point_exact",
    "Verif.Ecp.verify_point_group",
    "Verif.Ecp.group_point_verifies",
    "Verif.Ecp.validate_parameters_exact",
    "Verif.Ecp.add_exact",
    "Verif.Ecp.double_exact",
    "Verif.Ecp.inverse_exact",
    "Verif.Ecp.equal_exact",
    "Verif.Ecp.add_alias_exact",
    "Verif.Ecp.double_alias_exact",
    "Verif.Ecp.inverse_alias_exact",
    "Verif.Ecp.subtract_exact",
    "Verif.Ecp.scalar_multiply_exact",
    "Verif.Ecp.cascade_multiply_exact",
    "Verif.Ecp.simultaneous_multiply_exact",
    "Verif.Ecp.fixed_base_exact",
    "Verif.Ecp.fixed_base_cascade_exact",
    "Verif.Ecp.simultaneous_multiply_zero_undefined",
    "Verif.Ecp.encode_point_size",
    "Verif.Ecp.decode_uncompressed",
    "Verif.Ecp.decode_compressed",
    "Verif.Ecp.decode_infinity",
    "Verif.Ecp.compressed_decoding_exact",
    "Verif.Ecp.compressed_order_two_refused",
    "Verif.Ecp.bad_encoding_refused",
    "Verif.Ecp.decode_element_on_curve",
    "Verif.Ecp.decode_element_unique",
    "Verif.Ecp.order_two_witness",
    "Verif.Ecp.unreduced_coordinate_decoded",
    "Verif.Ecp.off_curve_decoded",
    "Verif.Ecp.short_source_throws",
    "Verif.Ecp.ec_parameters",
    "Verif.Ecp.validate_element_exact",
    "Verif.Ecp.g97_ok",
    "Verif.Ecp.zero_private_key_undefined"
   ],
   "note": "Group law with object-owned references, scalar multiplication (mixed-coordinate windows, cascades, fixed-base tables) by way of Montgomery residues, for every odd prime, against Mathlib's affine point group; point encoding and decoding; DL_GroupParameters_EC satisfies the group laws Verif.Dl asks for. Where the code departs, proved: SimultaneousMultiply with exponent 0 is undefined (reached by Agree with private key 0); compressed points with y = 0 are refused; DecodePoint alone checks neither x < p nor the equation."
  },
  {
   "property": "C46",
   "status": "proved",
   "theorems": [
    "Verif.Rng.word32_in_range",
    "Verif.Rng.word32_first_accepted",
    "Verif.Rng.word32_uniform",
    "Verif.Rng.shuffle_permutes",
    "Verif.Rng.shuffle_chooses",
    "Verif.Rng.shuffle_uniform",
    "Verif.Rng.randomize_in_range",
    "Verif.Rng.randomize_uniform",
    "Verif.Rng.randomize_first_accepted",
    "Verif.Rng.randomize_equivalent"
   ],
   "note": "Integer::Randomize is modelled over mathematical integers (the Integer operations are proved exact in Verif.Integer). Uniformity is exact counting over the bytes of one round. The PRIME type of GenerateRandom is not modelled."
  },
  {
   "property": "C47",
   "status": "proved",
   "theorems": [
    "Verif.Drbg.hash_history",
    "Verif.Drbg.hmac_history",
    "Verif.Drbg.construct_refuses",
    "Verif.Drbg.hash_limits",
    "Verif.Drbg.hmac_limits",
    "Verif.Drbg.hash_uninstantiated",
    "Verif.Drbg.hmac_uninstantiated"
   ],
   "note": "Over any hash object that computes a function; digest of at least 8 bytes and no longer than the seed (Hash_DRBG) or the block (HMAC_DRBG). A generator constructed without entropy answers requests: hash_uninstantiated, hmac_uninstantiated."
  },
  {
   "property": "C48",
   "status": "proved",
   "theorems": [
    "Verif.HashFilter.at_end_exact",
    "Verif.HashFilter.at_begin_exact",
    "Verif.HashFilter.at_begin_no_throw_exact",
    "Verif.HashFilter.hash_filter_exact",
    "Verif.HashFilter.round_trip",
    "Verif.HashFilter.long_digest_rejected",
    "Verif.HashFilter.short_first_message_undefined",
    "Verif.HashFilter.short_message_accepted",
    "Verif.HashFilter.valid_message_rejected_after_exception",
    "Verif.HashFilter.valid_message_rejected_after_flush"
   ],
   "note": "Over the FilterWithBufferedInput model of C18 and any hash object. HASH_AT_BEGIN needs messages at least as long as the hash and no earlier exception; both conditions are shown necessary by witnesses. Signature and authenticated decryption filters are not modelled."
  },
  {
   "property": "C49",
   "status": "proved",
   "theorems": [
    "Verif.Keccak.sha3_exact",
    "Verif.Keccak.keccak_exact",
    "Verif.Keccak.shake_exact",
    "Verif.Keccak.sha3_computes"
   ],
   "note": "All classes of keccak.cpp, sha3.cpp and shake.cpp, with the portable KeccakF1600, against FIPS 202 stated on bits: step mappings, round constants from the LFSR, pad10*1, the sponge. keccak_simd.cpp (two lanes, used by nothing here) is not modelled."
  },
  {
   "property": "C50",
   "status": "proved",
   "theorems": [
    "Verif.Xts.xts_exact",
    "Verif.Xts.xts_round_trip",
    "Verif.Xts.short_rejected",
    "Verif.Xts.long_last_block_undefined",
    "Verif.Xts.resynchronize_default_undefined",
    "Verif.Xts.sector_tweak",
    "Verif.Xts.gfDouble_tweak"
   ],
   "note": "xts_exact: any split, any buffers, any build. long_last_block_undefined and resynchronize_default_undefined are defects of the code."
  },
  {
   "property": "C51",
   "status": "partial",
   "theorems": [
    "Verif.Asn.pgp_round_trip_partial",
    "Verif.Asn.pgp_round_trip_fails"
   ],
   "note": "round trip proved for every integer below 2^(2^16-1); longer ones proved corrupted (bit count truncated to 16 bits)"
  },
  {
   "property": "C52",
   "status": "proved",
   "theorems": [
    "Verif.Asn.reencode_exact",
    "Verif.Asn.reencode_der"
   ],
   "note": "BER values as trees of any depth; contents of definite-length values are copied verbatim, as the code does"
  },
  {
   "property": "C53",
   "status": "proved",
   "theorems": [
    "Verif.Ida.secret_sharing_hides"
   ],
   "note": "For every message, set of t-1 shares and content there is exactly one stream of the consumed random bytes giving it."
  },
  {
   "property": "C54",
   "status": "partial",
   "theorems": [
    "Verif.Rng.mersenne_sequence",
    "Verif.Rng.mersenne_sequence_exists",
    "Verif.Rng.mersenne_word32_in_range",
    "Verif.Rng.mersenne_tail_order_differs",
    "Verif.Rng.mersenne_discard_too_much",
    "Verif.Rng.mersenne_discard_not_generate",
    "Verif.Rng.x917_generates",
    "Verif.Rng.x917_repeat_refused",
    "Verif.Rng.lc_rng_partial",
    "Verif.Rng.lc_rng_not_park_miller",
    "Verif.Rng.lc_rng_negative_never_seen"
   ],
   "note": "The word sequence of MersenneTwister and X9.17 are proved. Three clauses are false of the code and their negations are proved: LC_RNG computes the difference unsigned so it is not the congruential generator whenever the difference should be negative; MersenneTwister::DiscardBytes discards words instead of bytes; the tail bytes of GenerateBlock come in the opposite order. X917RNG with system time and RandomPool are not modelled."
  },
  {
   "property": "C55",
   "status": "proved",
   "theorems": [
    "Verif.Tf.oaep_decrypts",
    "Verif.Tf.pkcs_decrypts",
    "Verif.Tf.oaep_decrypt_exact",
    "Verif.Tf.out_of_range_throws",
    "Verif.Tf.pkcs1_verifies",
    "Verif.Tf.pkcs1_verify_exact",
    "Verif.Tf.pss_recovers",
    "Verif.Tf.pss_verify_exact",
    "Verif.Tf.emsa2_verifies",
    "Verif.Tf.signature_not_unique",
    "Verif.Tf.leading_zero_accepted"
   ],
   "note": "oaep_decrypt_exact excludes moduli of 8k+1 bits, where the code replaces a too large block by zeros. Deviations from RFC 8017 proved: signatures with a leading zero byte or with the modulus added are accepted; ciphertexts out of range throw instead of giving an invalid result."
  },
  {
   "property": "C56",
   "status": "partial",
   "theorems": [
    "Verif.Nbt.isSmallPrime_exact",
    "Verif.Nbt.trialDivision_exact",
    "Verif.Nbt.trialDivision_beyond_table_undefined",
    "Verif.Nbt.tests_accept_primes",
    "Verif.Nbt.isPrime_accepts",
    "Verif.Nbt.isPrime_exact",
    "Verif.Nbt.verifyPrime_accepts",
    "Verif.Nbt.verifyPrime_exact",
    "Verif.Nbt.mihailescu_prime",
    "Verif.Nbt.maurer_prime_partial",
    "Verif.Nbt.maurer_composite",
    "Verif.Nbt.maurer_short",
    "Verif.Nbt.maurer_one_bit",
    "Verif.Nbt.safeGenerator_exact",
    "Verif.Nbt.subgroupGenerator_exact"
   ],
   "note": "Maurer's primes are proved prime when every size drawn is more than half; for a size of exactly half a composite result is exhibited (maurer_composite), and one of too few bits (maurer_short). Missing: FirstPrime/PrimeSieve, PrimeAndGenerator's choice of p and q, delta = -1."
  },
  {
   "property": "C57",
   "status": "proved",
   "theorems": [
    "Verif.Aes.encryption_is_fips197",
    "Verif.Aes.decryption_is_fips197",
    "Verif.Aes.fips197_inverse",
    "Verif.Aes.sbox_is_inverse",
    "Verif.Aes.setKey_refuses",
    "Verif.Aes.rijndael_inverse",
    "Verif.Aes.keyed_ok"
   ],
   "note": "The portable C++ code in all four builds (byte order, table layout) equals the specification of FIPS 197 in Aes/Spec.lean for every key and block. The assembler, AES-NI, ARMv8 and POWER8 code is not modelled."
  },
  {
   "property": "C58",
   "status": "partial",
   "theorems": [
    "Verif.Flate.inflator_any_input_partial",
    "Verif.Flate.inflator_any_input",
    "Verif.Flate.run_same",
    "Verif.Flate.copy_in_bounds",
    "Verif.Flate.inflate_header_overflow",
    "Verif.Flate.cut_header_flood",
    "Verif.Flate.initialize_accepts_oversubscribed"
   ],
   "note": "For every sequence of calls the object ends in a state or throws InvalidDataFormat, except for the overflow of codeLengths (a header announcing 319 or 320 lengths), and with an array of 320 entries never otherwise. The code violates the rest: oversubscribed codes with three or more codes of length one are accepted, and a nine-byte header cut short produces four gigabytes."
  },
  {
   "property": "C59",
   "status": "proved",
   "theorems": [
    "Verif.Cipher.des_check_parity",
    "Verif.Cipher.des_correct_parity"
   ],
   "note": "For keys of any length (the functions read 8 bytes)."
  },
  {
   "property": "C60",
   "status": "proved",
   "theorems": [
    "Verif.Sha.sha256_is_fips180",
    "Verif.Sha.sha224_is_fips180",
    "Verif.Sha.sha512_is_fips180",
    "Verif.Sha.sha384_is_fips180",
    "Verif.Sha.sha1_is_fips180",
    "Verif.Sha.md5_is_rfc1321",
    "Verif.Sha.sha256_object",
    "Verif.Sha.sha224_object",
    "Verif.Sha.sha512_object",
    "Verif.Sha.sha384_object",
    "Verif.Sha.sha1_object",
    "Verif.Sha.md5_object",
    "Verif.Sha.hmac_sha256",
    "Verif.Sha.rootFrac_spec"
   ],
   "note": "The portable C++ compression functions; the assembler and vector versions are not modelled. The standard's constants are computed from primes (rootFrac_spec says what is computed); the table of MD5 is listed."
  },
  {
   "property": "C61",
   "status": "proved",
   "theorems": [
    "Verif.Chacha.chacha_history",
    "Verif.Chacha.chacha_rounds",
    "Verif.Chacha.chachaTLS_history",
    "Verif.Chacha.xchacha20_history",
    "Verif.Chacha.xchacha20_draft",
    "Verif.Chacha.aead_history",
    "Verif.Chacha.chacha20Poly1305_encrypt",
    "Verif.Chacha.chacha20Poly1305_decrypt",
    "Verif.Chacha.xchacha20Poly1305_encrypt",
    "Verif.Chacha.xchacha20Poly1305_decrypt",
    "Verif.Chacha.aead_round_trip",
    "Verif.Chacha.chachaTLS_seek_defect"
   ],
   "note": "The SIMD keystream functions are modelled by the number of blocks they emit and how they add to the counter word, not instruction by instruction. chachaTLS_seek_defect: Seek ignores InitialBlock."
  },
  {
   "property": "C62",
   "status": "proved",
   "theorems": [
    "Verif.Cmac.cmac_history",
    "Verif.Cmac.cbcMac_history",
    "Verif.Cmac.cmac_verify"
   ],
   "note": "Over any length-preserving function on blocks as the cipher; AdvancedProcessBlocks is modelled as the chain of xors and encryptions it is asked for."
  },
  {
   "property": "C63",
   "status": "partial",
   "theorems": [
    "Verif.Eax.eax_history_partial",
    "Verif.Eax.eax_encrypt",
    "Verif.Eax.eax_decrypt",
    "Verif.Eax.eax_round_trip",
    "Verif.Eax.eax_abandon_defect"
   ],
   "note": "eax_history_partial is for histories in which Resynchronize is called only after SetKey or when the last message was finished; eax_abandon_defect: otherwise the code returns a wrong ciphertext and tag."
  },
  {
   "property": "C64",
   "status": "proved",
   "theorems": [
    "Verif.Ccm.ccm_messages",
    "Verif.Ccm.ccm_wrong_header",
    "Verif.Ccm.ccm_wrong_text",
    "Verif.Ccm.ccm_encrypt",
    "Verif.Ccm.ccm_decrypt",
    "Verif.Ccm.ccm_round_trip",
    "Verif.Ccm.ccm_specify_twice_defect"
   ],
   "note": "Messages in which SpecifyDataLengths is called once, before the header, as the interface demands; ccm_specify_twice_defect shows what happens otherwise."
  },
  {
   "property": "C65",
   "status": "partial",
   "theorems": [
    "Verif.Gzip.gzip_writes_members",
    "Verif.Gzip.gunzip_reads_member",
    "Verif.Gzip.gunzip_reads_file",
    "Verif.Gzip.gunzip_rejects_wrong_tail",
    "Verif.Gzip.gunzip_inverts_gzip",
    "Verif.Gzip.gunzip_inverts_gzip_all",
    "Verif.Gzip.zlib_writes_streams",
    "Verif.Gzip.zunlib_reads_partial",
    "Verif.Gzip.zunlib_rejects_wrong_tail_partial",
    "Verif.Gzip.zunlib_inverts_zlib_partial",
    "Verif.Gzip.gunzip_refuses_long_header_in_pieces",
    "Verif.Gzip.gunzip_misreads_name_with_zero",
    "Verif.Gzip.gunzip_refuses_header_checksum",
    "Verif.Gzip.gunzip_repeat_refuses_late_end",
    "Verif.Gzip.zunlib_rejects_bad_header",
    "Verif.Gzip.gunzip_rejects_bad_header"
   ],
   "note": "The code violates it in four cases (the last four theorems); outside them gzip is proved in full. ZlibDecompressor is modelled for windows of 2^15 only."
  },
  {
   "property": "C66",
   "status": "partial",
   "theorems": [
    "Verif.AuthFilter.enc_session",
    "Verif.AuthFilter.dec_session_partial",
    "Verif.AuthFilter.dec_session_begin_partial",
    "Verif.AuthFilter.round_trip",
    "Verif.AuthFilter.gcm_round_trip",
    "Verif.AuthFilter.chacha_round_trip",
    "Verif.AuthFilter.put_rejects",
    "Verif.AuthFilter.gcm_put_rejects",
    "Verif.AuthFilter.force_order",
    "Verif.AuthFilter.begin_short",
    "Verif.AuthFilter.begin_after_throw"
   ],
   "note": "The code violates it in four cases (the last five theorems); outside them it is proved in full."
  },
  {
   "property": "C67",
   "status": "proved",
   "theorems": [
    "Verif.Serpent.serpent_is_serpent",
    "Verif.Serpent.serpent_uninitialised",
    "Verif.Serpent.serpent_inverse"
   ],
   "note": "Every S-box program equals its table on every bit position; the permuted register orders, the linear transformation, the key schedule and the 32 rounds equal the description in Verif/Serpent/Spec.lean. The SIMD code of serpent (there is none in this repository) is not at issue."
  },
  {
   "property": "C68",
   "status": "partial",
   "theorems": [
    "Verif.SigFilter.at_end_exact",
    "Verif.SigFilter.at_begin_exact",
    "Verif.SigFilter.at_begin_no_throw_exact",
    "Verif.SigFilter.signer_filter_exact",
    "Verif.SigFilter.round_trip",
    "Verif.SigFilter.ed25519_decides",
    "Verif.SigFilter.dl_decides",
    "Verif.SigFilter.dl_short_refused",
    "Verif.SigFilter.dl_round_trip",
    "Verif.SigFilter.ed25519_missing_signature_accepted",
    "Verif.SigFilter.upfront_signature_lost",
    "Verif.SigFilter.short_message_accepted",
    "Verif.SigFilter.valid_message_rejected_after_exception"
   ],
   "note": "Proved for messages not shorter than a signature, and with SIGNATURE_AT_BEGIN if no earlier message threw; for other inputs the code violates it (the last four theorems). Accumulators of RSA-like schemes are covered by the abstract verifier only."
  },
  {
   "property": "C69",
   "status": "partial",
   "theorems": [
    "Verif.Blake2.blake2b_computes",
    "Verif.Blake2.blake2s_computes",
    "Verif.Blake2.blake2b_digest",
    "Verif.Blake2.blake2s_digest",
    "Verif.Blake2.setKey_rejects_key",
    "Verif.Blake2.setKey_rejects_salt",
    "Verif.Blake2.setKey_rejects_personalization",
    "Verif.Blake2.construct_long_key",
    "Verif.Blake2.long_digest",
    "Verif.Blake2.longer_digest",
    "Verif.Blake2.constructors_do_not_refuse"
   ],
   "note": "The digests are proved right for all sizes in range. Partial because the code does not refuse all sizes out of range: a constructor writes beyond its buffer for a key longer than a block, and a digest size of more than 32 (64) bytes is taken, by constructors and by the parameter DigestSize, and gives bytes of the message counter or beyond the state. The SIMD compression functions and Restart(block, counter) with a block of the caller are not modelled."
  },
  {
   "property": "C70",
   "status": "proved",
   "theorems": [
    "Verif.SipHash.sipHash_computes",
    "Verif.SipHash.sipHash_mac",
    "Verif.SipHash.setKey_rejects"
   ],
   "note": "For all template arguments."
  },
  {
   "property": "C71",
   "status": "partial",
   "theorems": [
    "Verif.Scrypt.deriveKey_scrypt",
    "Verif.Scrypt.deriveKey_refuses",
    "Verif.Scrypt.accepted_no_wrap",
    "Verif.Scrypt.validate_ok_iff",
    "Verif.Scrypt.large_block_refused",
    "Verif.Scrypt.long_key_refused",
    "Verif.Scrypt.bad_cost_accepted"
   ],
   "note": "The key of RFC 7914 is derived for every parameter the code accepts, for every schedule and memory, and the accepted parameters are characterized exactly. The full property is false of the code, and that is proved: documented block sizes and key lengths are refused, and excluded costs are accepted. Allocation failure is not modelled; overlapping iterations are taken to have the effect of some order, as they share no memory they write."
  },
  {
   "property": "C72",
   "status": "partial",
   "theorems": [
    "Verif.Salsa.salsa20_history",
    "Verif.Salsa.salsa20_rounds",
    "Verif.Salsa.salsa20_keeps",
    "Verif.Salsa.xsalsa20_history",
    "Verif.Salsa.xsalsa20_rounds",
    "Verif.Salsa.xsalsa20_spoilt",
    "Verif.Salsa.xsalsa20_failed_setKey"
   ],
   "note": "Proved for both ciphers and all histories after a SetKey that returns. The last part of the property is false of XSalsa20, and that is proved: a refused SetKey leaves the refused number of rounds in the object. The SSE2 assembly is not modelled."
  },
  {
   "property": "C73",
   "status": "partial",
   "theorems": [
    "Verif.Arc4.arc4_history",
    "Verif.Arc4.decrypt_encrypt",
    "Verif.Arc4.setKey_ok_iff",
    "Verif.Arc4.negative_discard"
   ],
   "note": "Proved for every key, every history and every DiscardBytes >= 0. A negative DiscardBytes is not refused: SetKey then steps the generator nearly 2^64 times (negative_discard)."
  },
  {
   "property": "C74",
   "status": "partial",
   "theorems": [
    "Verif.IntStr.insert_parse",
    "Verif.IntStr.insert_prints",
    "Verif.IntStr.toString_prints",
    "Verif.IntStr.toString_parse",
    "Verif.IntStr.toString_parse_decimal",
    "Verif.IntStr.toString_parse_hex",
    "Verif.IntStr.parse_suffix",
    "Verif.IntStr.parse_prefix",
    "Verif.IntStr.parse_little",
    "Verif.IntStr.insert_extract",
    "Verif.IntStr.extract_at_end",
    "Verif.IntStr.extract_prefix",
    "Verif.IntStr.toString_bare_hex",
    "Verif.IntStr.toString_base_one",
    "Verif.IntStr.toStringT_prints",
    "Verif.IntStr.toStringT_least",
    "Verif.IntStr.parse_by_suffix",
    "Verif.IntStr.parse_little_other"
   ],
   "note": "Writing and reading back are proved for all integers. The property is false in places, and that is proved: at the end of a stream operator>> reads the number but makes the stream fail; it stops at the prefixes 0X, 0n, 0N the constructor knows; hexadecimal text without suffix or prefix is not read back; IntToString of the least value of a built-in type negates it, which overflows; base 1 overruns the buffer."
  },
  {
   "property": "C75",
   "status": "partial",
   "theorems": [
    "Verif.ArraySink.sink_keeps",
    "Verif.ArraySink.xorSink_adds",
    "Verif.ArraySink.put_frame",
    "Verif.ArraySink.put_null",
    "Verif.ArraySink.reinit_keeps_count",
    "Verif.ArraySink.reinit_full"
   ],
   "note": "All proved except the last sentence, which the code violates: IsolatedInitialize keeps the count (reinit_keeps_count, reinit_full)."
  },
  {
   "property": "C76",
   "status": "partial",
   "theorems": [
    "Verif.SecBlock.block_history",
    "Verif.SecBlock.throws_only",
    "Verif.SecBlock.refused_new_double_free",
    "Verif.SecBlock.too_large_new_double_free",
    "Verif.SecBlock.new_not_zero",
    "Verif.SecBlock.copy_not_wiped",
    "Verif.SecBlock.Fixed.fixed_wiped",
    "Verif.SecBlock.Fixed.swap_keeps",
    "Verif.SecBlock.Fixed.swap_crosses",
    "Verif.SecBlock.Fixed.new_too_large"
   ],
   "note": "The contents, the wiping, the absence of undefined behaviour and the reasons for exceptions are proved for every history of a SecBlock; wiping also for FixedSizeSecBlock. The block is as it was after an exception except in New, CleanNew and Assign, where the code frees the memory twice (refused_new_double_free); New does not initialise (new_not_zero); swap of fixed size blocks does not exchange them (swap_keeps, swap_crosses): negations proved. Missing: the contents of FixedSizeSecBlock in all histories, its aligned variant, SecBlockWithHint."
  }
 ]
}