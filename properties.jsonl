{"id": "C01", "title": "ML-KEM key generation is FIPS 203 KeyGen", "statement": "KemCore::generate_deterministic(d, z) returns a key pair whose as_bytes encodings are exactly the byte strings FIPS 203 ML-KEM.KeyGen_internal(d, z) prescribes, for each of MlKem512, MlKem768, MlKem1024.", "quantifier": "every pair of 32-byte seeds d, z; every parameter set; every behaviour of the hash/XOF primitives on which the rejection sampler finds 256 candidates", "why_tests_cant": "2^512 seeds; the ACVP vectors cover 25 per parameter set.", "anchors": ["ml-kem/src/kem.rs: DecapsulationKey::generate_deterministic", "ml-kem/src/pke.rs: DecryptionKey::generate", "ml-kem/src/lib.rs: KemCore::generate_deterministic"]}
{"id": "C02", "title": "ML-KEM encapsulation is FIPS 203 Encaps", "statement": "For an encapsulation key parsed from any byte string or produced by generate, encapsulate_deterministic(m) returns exactly the ciphertext and shared key of FIPS 203 ML-KEM.Encaps_internal on the key's as_bytes encoding.", "quantifier": "every encapsulation key reachable through the API (any 384k+32 bytes), every 32-byte m, every parameter set", "why_tests_cant": "The key space and message space are astronomically large; vectors sample 25.", "anchors": ["ml-kem/src/kem.rs: EncapsulationKey::encapsulate_deterministic_inner", "ml-kem/src/pke.rs: EncryptionKey::encrypt"]}
{"id": "C03", "title": "ML-KEM decapsulation is FIPS 203 Decaps", "statement": "For a decapsulation key parsed from any byte string and any ciphertext byte string, decapsulate returns exactly the shared key of FIPS 203 ML-KEM.Decaps_internal.", "quantifier": "every decapsulation key byte string, every ciphertext byte string, every parameter set", "why_tests_cant": "Malformed keys and ciphertexts form an unbounded adversarial space; vectors contain 10 per set.", "anchors": ["ml-kem/src/kem.rs: Decapsulate::decapsulate", "ml-kem/src/pke.rs: DecryptionKey::decrypt"]}
{"id": "C04", "title": "No public ML-KEM operation panics or hangs", "statement": "generate_deterministic, encapsulate_deterministic, decapsulate, from_bytes and as_bytes never panic (no arithmetic overflow, out-of-range index or length mismatch, including in debug builds) and terminate whenever the XOF streams they read hold 256 acceptable candidates.", "quantifier": "all byte-string inputs of the statically required lengths, all three parameter sets, all hash outputs", "why_tests_cant": "Overflow or an index fault could hide on one coefficient value among 3329^256 polynomials.", "anchors": ["ml-kem/src/algebra.rs: FieldElement, FieldElementReader", "ml-kem/src/encode.rs", "ml-kem/src/compress.rs", "ml-kem/src/kem.rs"]}
{"id": "C05", "title": "Encapsulate/decapsulate agree when the noise is in range", "statement": "If (dk, ek) come from generate and (c, K) from ek.encapsulate, then dk.decapsulate(c) returns K whenever every coefficient of the decryption noise e^T r + e2 + cv - s^T(e1 + cu) lies within [-832, 831] (centred mod q; C06 gives the exact window); hence shared keys agree.", "quantifier": "every pair of seeds, every m, every parameter set, every hash behaviour satisfying the noise condition", "why_tests_cant": "The test-suite round-trips a handful of random keys; a wrong NTT root or an off-by-one in rounding could fail on rare keys only.", "anchors": ["ml-kem/src/kem.rs: decapsulate, encapsulate_deterministic_inner", "ml-kem/src/pke.rs: encrypt, decrypt"]}
{"id": "C06", "title": "Decryption failure happens exactly when the noise leaves the window", "statement": "Bit i of the message recovered from an honest ciphertext equals the sent bit b if and only if the i-th noise coefficient lies in the decoding window -832 <= N <= 832 - b; nothing else can make decryption fail.", "quantifier": "every key seed, message and encryption randomness; every bit position", "why_tests_cant": "Failures have probability below 2^-138, so tests never observe one.", "anchors": ["ml-kem/src/pke.rs: DecryptionKey::decrypt, EncryptionKey::encrypt"]}
{"id": "C07", "title": "Implicit rejection is total and exact", "statement": "For every ciphertext c, decapsulate returns the key that re-encapsulation of the decrypted message yields if the re-encrypted ciphertext equals c byte for byte, and SHAKE256(z || c) otherwise; it never returns an error or any mixture of the two.", "quantifier": "every decapsulation key and every ciphertext byte string", "why_tests_cant": "Tampering at any of 8704+ bit positions in any combination; a mask bug could leak on one byte pattern.", "anchors": ["ml-kem/src/kem.rs: decapsulate lines 91-117, constant_time_eq"]}
{"id": "C08", "title": "A ciphertext that no message encapsulates to is rejected to the pseudorandom key", "statement": "If c is not the ciphertext that encapsulate_deterministic produces under the embedded encapsulation key for any m, then decapsulate(c) = SHAKE256(z || c).", "quantifier": "every decapsulation key, every such ciphertext, every message m", "why_tests_cant": "Quantifies over all 2^256 messages.", "anchors": ["ml-kem/src/kem.rs: decapsulate"]}
{"id": "C09", "title": "Distinct ciphertexts decrypting alike: at most one is accepted", "statement": "Among all ciphertexts that decrypt to the same message under one decapsulation key, at most one is accepted; every other one yields SHAKE256(z || c).", "quantifier": "all pairs of ciphertexts and all decapsulation keys", "why_tests_cant": "A universally quantified statement over pairs of 768..1568-byte strings.", "anchors": ["ml-kem/src/kem.rs: decapsulate"]}
{"id": "C10", "title": "The branch-free comparison decides byte-string equality", "statement": "The mask computed by decapsulate over the two ciphertexts is 0xff when they are equal in every byte and 0x00 when they differ in any byte, and the masked select returns exactly one of the two candidate keys.", "quantifier": "all pairs of equal-length byte strings, all pairs of candidate keys", "why_tests_cant": "2^16 byte pairs are enumerable but strings of 768-1568 bytes are not.", "anchors": ["ml-kem/src/kem.rs: constant_time_eq, decapsulate"]}
{"id": "C11", "title": "Encapsulation key serialisation round-trips", "statement": "EncapsulationKey::from_bytes(ek.as_bytes()) == ek for every encapsulation key obtained from generate (also as dk.encapsulation_key() of a generated dk) or from_bytes. Keys taken out of a parsed decapsulation key are the subject of C50.", "quantifier": "every generated or parsed encapsulation key and parameter set", "why_tests_cant": "Needs every coefficient value in every position.", "anchors": ["ml-kem/src/kem.rs: EncodedSizeUser for EncapsulationKey", "ml-kem/src/pke.rs: as_bytes, from_bytes"]}
{"id": "C12", "title": "Decapsulation key serialisation round-trips", "statement": "DecapsulationKey::from_bytes(dk.as_bytes()) is equal to dk for every dk obtained from generate or from_bytes, and decapsulates every ciphertext identically.", "quantifier": "every generated or parsed decapsulation key, every ciphertext", "why_tests_cant": "Same; unit test checks one random key per set.", "anchors": ["ml-kem/src/kem.rs: EncodedSizeUser for DecapsulationKey"]}
{"id": "C13", "title": "Parsing canonicalises keys and is idempotent", "statement": "as_bytes(from_bytes(b)) equals b exactly when every 12-bit coefficient field of b is below 3329; in general it replaces each 12-bit field by its residue mod 3329 and leaves all other bytes unchanged, so parse-serialise is idempotent.", "quantifier": "every byte string of the key length, both key types", "why_tests_cant": "Exponentially many non-canonical encodings; tests check one all-0xff polynomial.", "anchors": ["ml-kem/src/encode.rs: byte_decode", "ml-kem/src/pke.rs: from_bytes", "ml-kem/src/kem.rs: from_bytes"]}
{"id": "C14", "title": "Non-canonical encapsulation keys behave as their canonical form", "statement": "Encapsulating to from_bytes(b) gives the same ciphertext and shared key as encapsulating to from_bytes of the canonical re-encoding of b, for every m (the API performs no modulus check).", "quantifier": "every byte string b of key length, every m", "why_tests_cant": "Exhaustive enumeration of malformed keys is impossible.", "anchors": ["ml-kem/src/kem.rs: EncapsulationKey::from_bytes, new"]}
{"id": "C15", "title": "The stored hash and rejection secret of a parsed decapsulation key are used verbatim", "statement": "from_bytes keeps the last 64 bytes h || z of the encoding unchanged (h is not verified), and decapsulate uses that h in G and that z in the rejection key, whatever their values.", "quantifier": "every decapsulation key byte string", "why_tests_cant": "All 2^512 values of h || z.", "anchors": ["ml-kem/src/kem.rs: DecapsulationKey::from_bytes, decapsulate"]}
{"id": "C16", "title": "A generated key pair is consistent", "statement": "The encapsulation key returned by generate equals dk.encapsulation_key(), its bytes are embedded in dk.as_bytes() at offset 384k, followed by H(ek) and z.", "quantifier": "every pair of seeds and parameter set", "why_tests_cant": "Universal over seeds.", "anchors": ["ml-kem/src/kem.rs: Kem::generate_deterministic, DecapsulationKey::as_bytes"]}
{"id": "C17", "title": "Key equality is encoding equality, except for X-Wing public keys", "statement": "Two encapsulation keys obtained from generate or from_bytes compare equal iff their as_bytes agree; two decapsulation keys compare equal iff their as_bytes agree. X-Wing ciphertexts compare equal iff their as_bytes agree, and so do the public keys of X-Wing secret keys. X-Wing public keys in general compare equal iff the ML-KEM parts of their as_bytes agree and the X25519 parts mean the same u-coordinate: every public key compares equal to one with another encoding; from the same generator state both give the same ciphertext, but shared secrets that are hashes of different strings.", "quantifier": "every pair of generated or parsed keys; all X-Wing public keys, ciphertexts and generator states", "why_tests_cant": "Injectivity over the whole key space.", "anchors": ["ml-kem/src/kem.rs: derive(PartialEq)", "ml-kem/src/kem.rs: as_bytes", "x-wing/src/lib.rs: derive(PartialEq) for EncapsulationKey and Ciphertext"]}
{"id": "C18", "title": "Encoded sizes match FIPS 203 table 3", "statement": "The encapsulation key, decapsulation key and ciphertext types are 800/1632/768, 1184/2400/1088, 1568/3168/1568 bytes and the shared key 32 bytes, with field offsets fixed by k, du, dv for any parameter set.", "quantifier": "every parameter set, including user-defined ones", "why_tests_cant": "Sizes are type-level computations over arbitrary K, Du, Dv.", "anchors": ["ml-kem/src/param.rs: PkeParams, KemParams", "ml-kem/src/lib.rs: ParameterSet impls"]}
{"id": "C19", "title": "Random key generation consumes exactly d then z", "statement": "generate(rng) draws two 32-byte blocks from rng, in that order, uses the first as d and the second as z, and returns what generate_deterministic(d, z) returns; it fails only if rng fails.", "quantifier": "every rng state and behaviour", "why_tests_cant": "Quantifies over all generators.", "anchors": ["ml-kem/src/kem.rs: DecapsulationKey::generate", "ml-kem/src/crypto.rs: rand"]}
{"id": "C20", "title": "Random encapsulation consumes exactly one 32-byte message", "statement": "encapsulate(rng) draws exactly one 32-byte block m and returns what encapsulate_deterministic(m) returns; the rng state afterwards is that of one 32-byte draw.", "quantifier": "every rng state, every reachable encapsulation key", "why_tests_cant": "Quantifies over all generators and keys.", "anchors": ["ml-kem/src/kem.rs: Encapsulate::encapsulate"]}
{"id": "C21", "title": "Field arithmetic is exact modulo 3329 and stays reduced", "statement": "Addition, subtraction and multiplication of reduced coefficients return the reduced representative of the exact result; the two-product accumulation used in polynomial products is reduced correctly for every operand.", "quantifier": "all pairs of coefficients below 3329; all u32 accumulator values that can occur (up to 2*3328^2)", "why_tests_cant": "Barrett reduction is approximate: a wrong constant fails only on a thin set of accumulator values among 22 million.", "anchors": ["ml-kem/src/algebra.rs: small_reduce, barrett_reduce, Add, Sub, Mul, base_case_multiply"]}
{"id": "C22", "title": "The NTT evaluates a polynomial modulo every X^2 - zeta^(2 BitRev7(i)+1)", "statement": "ntt() of a polynomial is the FIPS 203 transform: entries 2i and 2i+1 are the two coefficients of f mod (X^2 - 17^(2 BitRev7(i)+1)).", "quantifier": "all polynomials with reduced coefficients, all 128 components", "why_tests_cant": "3329^256 inputs; the unit test checks two.", "anchors": ["ml-kem/src/algebra.rs: Polynomial::ntt, ZETA_POW_BITREV"]}
{"id": "C23", "title": "NTT and inverse NTT are mutually inverse", "statement": "ntt_inverse(ntt(f)) = f and ntt(ntt_inverse(g)) = g for all f, g with reduced coefficients.", "quantifier": "all polynomials and all NTT-domain polynomials", "why_tests_cant": "The unit test checks one polynomial.", "anchors": ["ml-kem/src/algebra.rs: Polynomial::ntt, NttPolynomial::ntt_inverse"]}
{"id": "C24", "title": "NTT-domain multiplication is multiplication modulo X^256+1", "statement": "ntt_inverse(ntt(f) * ntt(g)) is the negacyclic product of f and g; products distribute over matrix and vector operations accordingly.", "quantifier": "all pairs of polynomials; all vectors and matrices of any dimension", "why_tests_cant": "Bilinear identity over 3329^512 pairs; tested on one pair.", "anchors": ["ml-kem/src/algebra.rs: Mul for NttPolynomial, NttVector, NttMatrix, GAMMA"]}
{"id": "C25", "title": "Byte encoding is the FIPS 203 bit layout", "statement": "encode at width d puts bit j of coefficient i at bit (i*d+j) of the output (little-endian in bytes); decode reads exactly those bits, reducing mod 3329 only for d = 12.", "quantifier": "all widths d from 1 to 12, all coefficient arrays in range, all byte arrays", "why_tests_cant": "Tests use one repeating pattern per width.", "anchors": ["ml-kem/src/encode.rs: byte_encode, byte_decode"]}
{"id": "C26", "title": "Byte encoding and decoding are inverse", "statement": "decode(encode(F)) = F for coefficients below 2^d (below 3329 for d = 12), and encode(decode(B)) = B for every byte string when d < 12; the same holds for vectors of any length.", "quantifier": "all d from 1 to 12, all arrays, all vector lengths", "why_tests_cant": "Random round-trip tests sample.", "anchors": ["ml-kem/src/encode.rs: Encode impls", "ml-kem/src/util.rs: Flatten, Unflatten"]}
{"id": "C27", "title": "Compression rounds exactly as FIPS 203 specifies", "statement": "compress at width d maps x to round(2^d x / 3329) mod 2^d and decompress maps y to round(3329 y / 2^d), with ties upward, with no division instruction.", "quantifier": "all coefficients, all widths 1 to 11 (and all u16 inputs for absence of overflow)", "why_tests_cant": "Each width is enumerable but the claim is for every width a user-defined parameter set may use.", "anchors": ["ml-kem/src/compress.rs: Compress for FieldElement"]}
{"id": "C28", "title": "Compression loses at most round(q/2^(d+1)) and inverts decompression", "statement": "compress(decompress(y)) = y for y < 2^d, d < 12, and decompress(compress(x)) is within round(3329/2^(d+1)) of x modulo 3329.", "quantifier": "all widths 1 to 11, all values", "why_tests_cant": "The unit test uses the weaker threshold q/2^d.", "anchors": ["ml-kem/src/compress.rs"]}
{"id": "C29", "title": "Centred binomial sampling is FIPS 203 SamplePolyCBD", "statement": "The sampled polynomial's i-th coefficient is the number of ones in bits [2i*eta, 2i*eta+eta) minus the number in the next eta bits, mod 3329, so it lies in [-eta, eta]; sampling never panics.", "quantifier": "all PRF outputs, eta in {2,3}", "why_tests_cant": "2^1024 PRF outputs; the tests check a statistical distance on one.", "anchors": ["ml-kem/src/algebra.rs: Polynomial::sample_cbd", "ml-kem/src/param.rs: ones_array"]}
{"id": "C30", "title": "Uniform sampling takes the first 256 accepted candidates", "statement": "The sampled NTT polynomial consists, in order, of the first 256 twelve-bit candidates below 3329 of the XOF stream; buffering in 96-byte blocks never skips, repeats or reorders a candidate.", "quantifier": "all XOF streams holding 256 acceptable candidates, arbitrarily far out", "why_tests_cant": "Buffer-boundary bugs only appear on particular acceptance patterns of an unbounded stream.", "anchors": ["ml-kem/src/algebra.rs: FieldElementReader, NttPolynomial::sample_uniform"]}
{"id": "C31", "title": "Uniform sampling terminates exactly when the stream allows it", "statement": "sample_uniform returns a value if and only if the XOF stream contains at least 256 acceptable candidates; otherwise it loops forever, and it never panics.", "quantifier": "all infinite XOF streams", "why_tests_cant": "Divergence cannot be observed by a test.", "anchors": ["ml-kem/src/algebra.rs: FieldElementReader::next"]}
{"id": "C32", "title": "Key generation and encapsulation use the same matrix", "statement": "The matrix expanded during encapsulation is the transpose of the one expanded during key generation from the same seed, with entry (i,j) of the latter sampled from XOF(rho, j, i).", "quantifier": "every seed rho, every dimension k up to 255, every index pair", "why_tests_cant": "Index swaps cancel on symmetric samples; universal over seeds and dimensions.", "anchors": ["ml-kem/src/algebra.rs: NttVector::sample_uniform, NttMatrix::sample_uniform, transpose"]}
{"id": "C33", "title": "Flatten and unflatten preserve element order and are inverse", "statement": "Flattening an N-array of M-arrays and unflattening yields the original, in both directions, and element (i,j) sits at offset i*M+j; this holds for owned and borrowed forms.", "quantifier": "all element types, all sizes N, M, all contents", "why_tests_cant": "Generic over sizes; unit test uses 2x5 and 5x2.", "anchors": ["ml-kem/src/util.rs: Flatten, Unflatten"]}
{"id": "C34", "title": "Truncate is reduction modulo the target width", "statement": "truncate never hits its unchecked-unwrap undefined behaviour and returns the low-order bits.", "quantifier": "all u32, u64, usize and u128 inputs", "why_tests_cant": "2^128 inputs.", "anchors": ["ml-kem/src/util.rs: define_truncate"]}
{"id": "C35", "title": "Dropping a decapsulation key erases its secrets", "statement": "After drop with the zeroize feature, the memory holding the NTT secret vector and z contains only zeros, whatever the key was.", "quantifier": "every decapsulation key and parameter set", "why_tests_cant": "Needs every key value and every position; drop is not observable in safe tests.", "anchors": ["ml-kem/src/kem.rs: Drop for DecapsulationKey", "ml-kem/src/algebra.rs: Zeroize impls", "ml-kem/src/pke.rs: Zeroize"]}
{"id": "C36", "title": "Decapsulating with a parsed key equals decapsulating with the original", "statement": "For a generated key pair, any sequence of serialise/parse steps on either key followed by encapsulate and decapsulate gives the same results as the original keys.", "quantifier": "every seed pair, every sequence of serialise/parse steps, every message and ciphertext", "why_tests_cant": "Histories of any length.", "anchors": ["ml-kem/src/kem.rs: EncodedSizeUser impls"]}
{"id": "C37", "title": "X-Wing encapsulation and decapsulation agree", "statement": "For (sk, pk) from generate_key_pair and (ct, ss) from pk.encapsulate, sk.decapsulate(ct) = ss whenever X25519 is commutative on the base point and the ML-KEM noise is in range.", "quantifier": "every rng, every 32-byte secret key, every encapsulation randomness", "why_tests_cant": "Universal over keys and randomness; vectors are three.", "anchors": ["x-wing/src/lib.rs: encapsulate, decapsulate, expand_key, combiner"]}
{"id": "C38", "title": "X-Wing implements the draft's key expansion and combiner", "statement": "Key expansion takes d, z and the X25519 secret as bytes 0-31, 32-63, 64-95 of SHAKE128(sk), and the shared secret is SHA3-256(label || ss_M || ss_X || ct_X || pk_X) with the 6-byte label 5c2e2f2f5e5c, on both sides.", "quantifier": "every secret key, ciphertext and encapsulation key", "why_tests_cant": "All 2^256 secret keys; a field-order swap passes self-consistency tests.", "anchors": ["x-wing/src/lib.rs: expand_key, combiner, X_WING_LABEL"]}
{"id": "C39", "title": "X-Wing serialisation round-trips", "statement": "Ciphertext::from(ct.as_bytes()) = ct and from(b).as_bytes() = b for all 1120-byte b; DecapsulationKey likewise for 32 bytes; EncapsulationKey::from(pk.as_bytes()) = pk for every reachable pk, with from(b).as_bytes() = b exactly on canonical ML-KEM parts.", "quantifier": "every byte string of the right length; every reachable key", "why_tests_cant": "1120-byte strings.", "anchors": ["x-wing/src/lib.rs: as_bytes, From impls"]}
{"id": "C40", "title": "X-Wing consumes randomness as the draft orders it", "statement": "generate_key_pair draws exactly one 32-byte block; encapsulate draws exactly two 32-byte blocks, the first being the ML-KEM message and the second the X25519 ephemeral secret.", "quantifier": "every rng", "why_tests_cant": "Quantifies over generators.", "anchors": ["x-wing/src/lib.rs: generate, encapsulate, generate_key_pair"]}
{"id": "C41", "title": "An X-Wing key pair is determined by the 32-byte secret", "statement": "encapsulation_key() of a parsed secret key equals the one returned at generation, and decapsulation depends on the 32 secret bytes only.", "quantifier": "every 32-byte secret", "why_tests_cant": "Universal.", "anchors": ["x-wing/src/lib.rs: From<[u8; 32]>, encapsulation_key, expand_key"]}
{"id": "C42", "title": "The X-Wing combiner input is unambiguous", "statement": "Two combiner invocations hash the same byte string only if all of ss_M, ss_X, ct_X and pk_X agree; so equal shared secrets with differing inputs give a SHA3-256 collision.", "quantifier": "all pairs of combiner inputs", "why_tests_cant": "Injectivity over 128-byte inputs.", "anchors": ["x-wing/src/lib.rs: combiner"]}
{"id": "C43", "title": "X-Wing inherits implicit rejection", "statement": "decapsulate never fails and, when the ML-KEM part of ct is not accepted, the shared secret is the combiner applied to SHAKE256(z || ct_M), with X25519 computed on ct_X regardless.", "quantifier": "every ciphertext and secret key", "why_tests_cant": "All 1120-byte ciphertexts.", "anchors": ["x-wing/src/lib.rs: decapsulate"]}
{"id": "C44", "title": "DHKEM encapsulation and decapsulation agree", "statement": "For any key pair from random_keypair and any encapsulation to its public part, decapsulate returns the encapsulated shared secret, for X25519 and for every curve whose Diffie-Hellman is commutative.", "quantifier": "every curve, key pair, rng", "why_tests_cant": "Generic over curves; tests run one random key per curve.", "anchors": ["dhkem/src/ecdh_kem.rs", "dhkem/src/x25519_kem.rs"]}
{"id": "C45", "title": "DHKEM draws one ephemeral secret and sends its public key", "statement": "encapsulate samples exactly one fresh secret from the rng and the encapsulated key is that secret's public key, independent of the recipient; random_keypair samples exactly one secret and returns it with its own public key.", "quantifier": "every rng state and recipient key", "why_tests_cant": "Quantifies over generators and recipients.", "anchors": ["dhkem/src/ecdh_kem.rs: encapsulate, random_keypair", "dhkem/src/x25519_kem.rs"]}
{"id": "C46", "title": "DHKEM wrappers are transparent", "statement": "DhEncapsulator and DhDecapsulator preserve the wrapped value: into_inner(from(x)) = x, as_ref(from(x)) = x, equality, ordering, hashing, default and point encoding agree with the wrapped type's, and zeroize applies the wrapped type's zeroize to the wrapped value. X25519 keys compare equal iff they mean the same u-coordinate, and equal keys give the same encapsulations and decapsulations.", "quantifier": "every wrapped type and value", "why_tests_cant": "Generic over types.", "anchors": ["dhkem/src/lib.rs: DhEncapsulator, DhDecapsulator"]}
{"id": "C47", "title": "Operations never disturb the keys they use", "statement": "In any interleaved history of generate, parse, extract, serialise, encapsulate, decapsulate and drop over a pool of keys and one rng: a key's encoding and the result of decapsulating a given ciphertext never change; every decapsulation seen is FIPS 203's on the key's encoding seen anywhere in the history; every encapsulation seen is FIPS 203's on the key's encoding, or, for a key taken out of a decapsulation key, on the encapsulation key and hash stored in that key's encoding; two keys that came from anywhere (generated, read back from bytes, taken out) whose encodings are those of one key pair agree on the shared key; sessions do not interfere; no step panics unless the rng does.", "quantifier": "every finite history of API calls over any number of keys", "why_tests_cant": "Unbounded histories.", "anchors": ["ml-kem/src/kem.rs", "ml-kem/src/lib.rs: KemCore"]}
{"id": "C48", "title": "The pre-computed tables are the FIPS 203 Appendix A values", "statement": "Every entry i of the zeta table is 17^BitRev7(i) mod 3329 and every entry of the gamma table is 17^(2 BitRev7(i)+1) mod 3329; the CBD table entry x + 2^eta y is popcount(x) - popcount(y) mod 3329.", "quantifier": "all table indices, eta 2 and 3", "why_tests_cant": "Finite but only indirectly exercised by tests.", "anchors": ["ml-kem/src/algebra.rs: ZETA_POW_BITREV, GAMMA", "ml-kem/src/param.rs: ones_array"]}
{"id": "C49", "title": "Keys with short secrets never fail to decrypt", "statement": "If a key-dependent bound, computed from the l1-norms of the key's secret and error vectors, is at most 831, then decapsulation inverts encapsulation for every message, whatever the encryption noise.", "quantifier": "every generated key meeting the bound, every message", "why_tests_cant": "Universal over all messages and randomness of a key; failure probabilities are far below what sampling can see.", "anchors": ["ml-kem/src/kem.rs: decapsulate, encapsulate_deterministic", "ml-kem/src/pke.rs"]}
{"id": "C50", "title": "An encapsulation key taken out of a parsed decapsulation key keeps the unverified hash", "statement": "dk.encapsulation_key() of a parsed dk derives keys from the hash stored in dk, which is not verified: it survives serialisation iff the stored hash is the hash of the encoded key, and there are parsed keys for which encapsulation keys with equal encodings are not equal.", "quantifier": "every decapsulation key byte string", "why_tests_cant": "Quantifies over adversarial encodings.", "anchors": ["ml-kem/src/kem.rs: DecapsulationKey::from_bytes, encapsulation_key"]}
{"id": "C51", "title": "Builds and platforms behave the same", "statement": "A program using the ML-KEM API, whatever it calls, in whatever order and with whatever byte strings, obtains the same values (or the same non-termination) from a build in which arithmetic overflow panics as from one in which it wraps, and from a platform with 16-bit `usize` as from one with 32, 64 or any larger number of bits. The same holds for each call and each sequence of calls of X-Wing's API.", "quantifier": "every sequence of API calls, every input byte string, every random generator, both overflow behaviours, every width of usize from 16 bits", "why_tests_cant": "Tests run one profile on one platform and on sampled inputs; an overflow reachable for one rare coefficient or a narrower index type would panic in one build and silently corrupt keys in the other.", "anchors": ["ml-kem/src/algebra.rs: FieldElement arithmetic", "ml-kem/src/compress.rs: compress, decompress", "ml-kem/src/encode.rs: byte_encode, byte_decode", "ml-kem/src/kem.rs: constant_time_eq", "x-wing/src/lib.rs"]}
{"id": "C52", "title": "Noise has exactly the centred binomial distribution", "statement": "Over uniformly random input bytes, the 256 coefficients of a sampled noise polynomial are independent and each equals c with probability C(2*eta, eta+c)/4^eta, exactly: every byte string is accounted for and no coefficient pattern is over- or under-represented.", "quantifier": "both noise widths, every pattern of 256 coefficients, all 256^(64*eta) byte strings", "why_tests_cant": "A distribution over 2^1024 or more inputs can be sampled but not counted; a slightly biased sampler passes every statistical test of feasible size.", "anchors": ["ml-kem/src/algebra.rs: Polynomial::sample_cbd, ONES", "ml-kem/src/encode.rs: byte_decode"]}
{"id": "C53", "title": "Matrix entries are exactly uniform and sampling ends", "statement": "Over uniformly random XOF output, after any number of bytes every polynomial is the determined result for the same number of byte strings (so, given that sampling ended, the matrix entry is exactly uniform over Z_q^256), and the fraction of byte strings of length 3N for which sampling has not ended is at most 3^256/4^N; the number of such strings is the sum over j < 256 of C(2N,j)*3329^j*767^(2N-j), and after 840 bytes (280 iterations of FIPS 203 algorithm 7) the fraction is at most 2^-261, the bound of FIPS 203 appendix B.", "quantifier": "every prefix length, every pair of polynomials, every continuation of the stream", "why_tests_cant": "Uniformity over 3329^256 outcomes and a limit in N are not observable by sampling.", "anchors": ["ml-kem/src/algebra.rs: FieldElementReader, NttPolynomial::sample_uniform"]}
{"id": "C54", "title": "An ML-KEM shared key binds public key and ciphertext", "statement": "If two decapsulation keys whose stored hash is right (all generated ones) return the same shared key for two ciphertexts, then the ciphertexts are equal and so are the encapsulation keys (or, if both ciphertexts were rejected, the rejection secrets), or explicitly given inputs built from the values at hand collide under SHA3-256, SHA3-512 (first half) or SHAKE256. Without the right stored hash this fails: parsed decapsulation keys holding different encapsulation keys can share all shared keys.", "quantifier": "all pairs of keys and ciphertexts of a parameter set, honest or not, all hash functions", "why_tests_cant": "The claim is a reduction over all key and ciphertext pairs; a violating pair would not be hit by random tests.", "anchors": ["ml-kem/src/kem.rs: DecapsulationKey::decapsulate, DecapsulationKey::from_bytes"]}
{"id": "C55", "title": "Different messages give different ciphertexts and keys", "statement": "Encapsulating different 32-byte messages to a generated key gives different ciphertexts whenever their decryption noise is in its window; two encapsulations, to whichever keys, give the same shared key only if message and encapsulation key agree or explicitly given inputs collide under SHA3-512 (first half) or SHA3-256.", "quantifier": "all messages, keys and hash functions", "why_tests_cant": "Injectivity over 2^256 messages.", "anchors": ["ml-kem/src/kem.rs: EncapsulationKey::encapsulate_deterministic"]}
{"id": "C56", "title": "An X-Wing shared secret binds public key and ciphertext", "statement": "If two X-Wing secret keys return the same shared secret for two ciphertexts, then the ciphertexts are equal and so are the public keys (or, if both ML-KEM parts were rejected, the X25519 public keys and the ML-KEM rejection secrets), or explicitly given inputs built from the values at hand collide under one of the hash functions.", "quantifier": "all pairs of secret keys and ciphertexts, all hash functions and Diffie-Hellman functions", "why_tests_cant": "The claim is a reduction over all key and ciphertext pairs.", "anchors": ["x-wing/src/lib.rs: DecapsulationKey::decapsulate, combiner"]}
{"id": "C57", "title": "X-Wing sessions: any history is stable, conforming, agreeing and panic-free", "statement": "In every sequence of X-Wing API calls on any number of keys and one generator: encodings of a key, public keys derived from a secret key and decapsulations of a ciphertext never change; every decapsulation and every derived public key is that of the X-Wing draft for the key's encoding; every encapsulation is the draft's for some drawn seed, and decapsulating it with the matching secret key gives the same shared secret if the ML-KEM noise is in its window; nothing panics unless the generator does.", "quantifier": "all finite histories of calls, all generators, hash functions and Diffie-Hellman functions (commuting, where agreement is claimed)", "why_tests_cant": "The number of interleavings is unbounded; tests run a few fixed sequences.", "anchors": ["x-wing/src/lib.rs: EncapsulationKey, DecapsulationKey, Ciphertext, generate_key_pair"]}
{"id": "C58", "title": "X-Wing secret keys with short ML-KEM secrets never fail", "statement": "If the ML-KEM secret and error vectors expanded from a 32-byte X-Wing secret key satisfy an explicit norm bound, then every encapsulation to its public key is decapsulated to the same shared secret, for all randomness.", "quantifier": "all secret keys within the bound, all generator states", "why_tests_cant": "All 2^512 encapsulation seeds.", "anchors": ["x-wing/src/lib.rs: DecapsulationKey::decapsulate, EncapsulationKey::encapsulate"]}
{"id": "C59", "title": "Hash functions are used only on the strings the standards list", "statement": "The result of ML-KEM key generation, key parsing, encapsulation and decapsulation, and of X-Wing public-key derivation, encapsulation and decapsulation, depends on the SHA-3 functions only through the computations FIPS 203 and X-Wing list for that call: two implementations of SHA-3 that answer those few queries alike (for the extendable-output functions, in the bytes read) give exactly the same result, including whether the call ends.", "quantifier": "all parameter sets, keys, messages, ciphertexts, generator states, and all pairs of implementations of SHA-3", "why_tests_cant": "A test runs one implementation of SHA-3 and cannot see which other strings would have mattered; the claim compares all pairs of functions.", "anchors": ["ml-kem/src/crypto.rs: G, H, J, PRF, XOF", "ml-kem/src/kem.rs: DecapsulationKey::generate_deterministic, decapsulate, EncapsulationKey::encapsulate_deterministic", "ml-kem/src/pke.rs: DecryptionKey::generate, EncryptionKey::encrypt", "x-wing/src/lib.rs: expand_key, combiner"]}
{"id": "C60", "title": "No string is hashed in two roles", "statement": "Whatever calls are made with whatever keys and parameter sets, if two of the listed hash computations apply the same function to the same string then they serve the same purpose, and within one call no computation is repeated: every matrix entry and noise polynomial comes from its own string. Key generation for different parameter sets never hashes the same seed string. Each call reads each hash function only on strings of the lengths belonging to its own purposes.", "quantifier": "all parameter sets, keys, messages, ciphertexts and implementations of SHA-3", "why_tests_cant": "Ranges over all pairs of calls and all hash functions.", "anchors": ["ml-kem/src/crypto.rs: G, H, J, PRF, XOF", "ml-kem/src/pke.rs: DecryptionKey::generate, EncryptionKey::encrypt", "ml-kem/src/algebra.rs: sample_ntt, matrix_sample_ntt, sample_poly_vec_cbd", "x-wing/src/lib.rs: expand_key, combiner"]}
{"id": "C61", "title": "Honest decapsulation fails with negligible probability", "statement": "Take any seed d, rejection secret z and message m. If the SHAKE256 outputs that give the noise polynomials and the SHA3-512 outputs that give the encapsulation's key and randomness are uniformly random, the probability that key generation and encapsulation return and decapsulation of the ciphertext does not return the encapsulated key is at most 2^-80 for ML-KEM-512, 2^-90 for ML-KEM-768, 2^-111 for ML-KEM-1024, and at most 2^-90 for X-Wing with any random number generators.", "quantifier": "all seeds, secrets, messages and generators, all behaviour of the remaining hash functions; the probability ranges over all tables of hash outputs", "why_tests_cant": "An event of probability 2^-80 is not met by tests, and a bound on a probability is a count over all outputs of the hash functions.", "anchors": ["ml-kem/src/kem.rs: DecapsulationKey::decapsulate, EncapsulationKey::encapsulate_deterministic", "ml-kem/src/pke.rs: DecryptionKey::generate, decrypt, EncryptionKey::encrypt", "ml-kem/src/algebra.rs: sample_poly_cbd", "ml-kem/src/compress.rs: Compress", "x-wing/src/lib.rs: encapsulate, decapsulate"]}
{"id": "C62", "title": "A history uses the generator's output in order, each part once", "statement": "In any history of calls, the random bytes used are the generator's successive 32-byte outputs, each used exactly once and in the order of the calls: two for an ML-KEM key pair and one for an ML-KEM encapsulation, one for an X-Wing secret key and two for an X-Wing encapsulation; nothing else draws. What the caller sees depends on the generator through those blocks only. An ML-KEM history equals the history of deterministic calls with the blocks written out as arguments.", "quantifier": "all finite histories, all generators, parameter sets and hash functions", "why_tests_cant": "Unbounded interleavings, and independence of the generator compares all pairs of generators.", "anchors": ["ml-kem/src/kem.rs: KemCore::generate, EncapsulationKey::encapsulate", "ml-kem/src/crypto.rs: rand", "x-wing/src/lib.rs: generate, generate_key_pair, EncapsulationKey::encapsulate"]}
{"id": "C63", "title": "Calls return except with negligible probability", "statement": "With SHAKE128 replaced, on the 34-byte strings matrix entries are sampled from, by a table of independent uniform 840-byte outputs (its further output being arbitrary): for given seeds, the probability that key generation, or some encapsulation to the generated key, or some decapsulation with it, fails to return is at most k^2 * 2^-261; for n seed pairs at most n times that; the same bound holds for some encapsulation to any bytes parsed as a public key and some decapsulation with any bytes parsed as a decapsulation key, and 9 * 2^-261 for X-Wing secret keys and parsed public keys.", "quantifier": "all seeds, keys, messages, ciphertexts, generators, supported parameter sets; probability over all tables", "why_tests_cant": "The event has probability below 2^-257 and never shows in a test; the bound averages over all tables.", "anchors": ["ml-kem/src/algebra.rs: FieldElementReader, NttPolynomial::sample_uniform, NttMatrix::sample_uniform", "ml-kem/src/kem.rs: KemCore::generate_deterministic, encapsulate, decapsulate", "x-wing/src/lib.rs: expand_key, decapsulate, encapsulate"]}
{"id": "C64", "title": "What time and memory accesses show", "statement": "An observer sees branches, loop lengths, subscripts, division operands and hash lengths of a call, but neither the direction of the conditional subtraction after a modular addition nor which entry of a noise table is read. To them decapsulation looks the same for every ciphertext, accepted or implicitly rejected, and for all decapsulation keys with the same public seed; so does encapsulation for every message, key generation for all seeds giving the same public seed, serialisation of every decapsulation key, and X-Wing encapsulation and decapsulation. For ML-KEM-768, ML-KEM-1024 and X-Wing this holds also for an observer of 64-byte cache lines if the noise table lies within one. For ML-KEM-512 it fails: with the table at the beginning of a line, the lines read during key generation exclude 3 or -3 for each coefficient of the secret vector. Parsing a decapsulation key looks the same for all strings to who cannot see the operand of a division by a constant. The exceptions are needed: the table subscripts determine the noise, so that the secret vector follows from those read during key generation, and the message and shared key from those read during encapsulation and the ciphertext; X-Wing, which expands its key in every decapsulation, shows the ML-KEM secret vector in each of them, and the ML-KEM message in each encapsulation; the division operands determine the secret vector, the conditional subtraction whether a sum exceeds 3328. The directions of the conditional subtractions alone, during decapsulations of 48 fixed ciphertexts per polynomial of the vector, determine the secret vector of a key; during X-Wing decapsulations they determine the ML-KEM secret vector of the X-Wing key.", "quantifier": "all keys, ciphertexts, messages, seeds, generators and observers; all runs that return", "why_tests_cant": "Timing tests sample a few inputs on one machine; the claim is about every pair of secrets.", "anchors": ["ml-kem/src/kem.rs: decapsulate, constant_time_eq, from_bytes", "ml-kem/src/algebra.rs: small_reduce, barrett_reduce, ntt, sample_cbd", "ml-kem/src/encode.rs: byte_decode", "ml-kem/src/compress.rs: compress", "x-wing/src/lib.rs: decapsulate"]}
{"id": "C65", "title": "X25519 of RFC 7748 agrees", "statement": "With X25519 as RFC 7748 defines it, two parties of X-Wing, and of the X25519 adapter, get the same secret: nothing is assumed about Diffie-Hellman. The ladder multiplies every point of curve25519 by every clamped scalar in the curve's group, so applying two secrets in either order gives the same bytes. A point of order dividing 8 gives 32 zero bytes under every secret, and X-Wing decapsulation accepts it and hashes those zero bytes.", "quantifier": "all secrets, all points of the curve, all keys, ciphertexts, generators and histories", "why_tests_cant": "Test vectors fix a few scalars; agreement is for all 2^256 secrets on both sides.", "anchors": ["x-wing/src/lib.rs: encapsulate, decapsulate, expand_key", "dhkem/src/x25519_kem.rs: encapsulate, decapsulate, random_keypair"]}
{"id": "C66", "title": "Chosen-ciphertext attacks give attacks on the underlying encryption", "statement": "Take an attacker that gets an encapsulation key, a ciphertext and a key, and may adaptively ask for hash values and for decapsulations of every other ciphertext. Its advantage in telling the shared key that encapsulation returned from a random key is at most the probability that a simulation of it, which is given only the public key and the ciphertext, names the encrypted message, plus terms for decryption failures and for guessing the rejection secret. So decapsulation, with its implicit rejection, gives no help beyond what the public key gives.", "quantifier": "all attackers, all numbers of questions, all keys, messages and rejection secrets, all hash functions outside the two that are drawn at random", "why_tests_cant": "It quantifies over every adaptive strategy; a test runs one strategy and cannot see a probability of 2^-100.", "anchors": ["ml-kem/src/kem.rs: decapsulate, encapsulate_deterministic, generate_deterministic", "ml-kem/src/crypto.rs: G, J, H"]}
{"id": "C67", "title": "Finding an encrypted message breaks a standard assumption", "statement": "Take any procedure that gets a public key and an encryption of a random message and lists guesses for the message. The probability that the message is in the list is at most the sum of the advantages of five distinguishers built from the procedure, against G as a seed expander, against PRF (for the key and for the ciphertext), and against module learning with errors (for the key and for the ciphertext), plus the chance of a blind guess.", "quantifier": "all procedures, all lengths of the list, all parameter sets with at most 127 rows and noise width at most 3, all hash functions", "why_tests_cant": "It quantifies over every procedure.", "anchors": ["ml-kem/src/pke.rs: generate, encrypt", "ml-kem/src/algebra.rs: sample_matrix_a, sample_poly_cbd"]}
{"id": "C68", "title": "Chosen-ciphertext security from module learning with errors", "statement": "The modelled key generation, encapsulation and decapsulation together: the advantage of every adaptive chosen-ciphertext attacker is at most the sum of the advantages of five distinguishers, built from it and given no secret, against G, PRF and module learning with errors, plus 3(q+1) times the probability of a decryption failure, plus 3q/2^256 for q questions.", "quantifier": "all attackers, all numbers of questions, all three parameter sets, all hash functions outside the two that are drawn at random", "why_tests_cant": "It quantifies over every adaptive strategy.", "anchors": ["ml-kem/src/kem.rs: decapsulate, encapsulate_deterministic, generate_deterministic", "ml-kem/src/pke.rs: generate, encrypt, decrypt"]}
{"id": "C69", "title": "Attacks on X-Wing give attacks on ML-KEM, SHAKE128 or SHA3-256", "statement": "Take an attacker that gets an X-Wing encapsulation key, a ciphertext and a secret, and may adaptively ask for hash values and for X-Wing decapsulations of every other ciphertext. Its advantage in telling the shared secret that encapsulation returned from a random one is at most the sum of the advantages of procedures built from it: against SHAKE128 as expander of the 32-byte secret key, against ML-KEM-768 under chosen ciphertexts, and against the SHA3-256 combiner as pseudorandom function keyed by the ML-KEM shared key; plus the probability of a decryption failure. X25519 may be broken completely.", "quantifier": "all attackers, all secret keys and encapsulation randomness, all hash functions outside the two that are drawn at random, all functions in place of X25519", "why_tests_cant": "It quantifies over every adaptive strategy.", "anchors": ["x-wing/src/lib.rs: encapsulate, decapsulate, expand_key, combiner, generate_key_pair"]}
{"id": "C70", "title": "Chosen-ciphertext security of X-Wing from module learning with errors", "statement": "The advantage of every adaptive chosen-ciphertext attacker on the modelled X-Wing with at most q questions is at most the sum of the advantages of distinguishers built from it against SHAKE128 as expander, G, PRF, module learning with errors, and the combiner keyed by the ML-KEM shared key, plus 6q+8 times the probability of a decryption failure, plus 6q/2^256.", "quantifier": "all attackers, all numbers of questions, all hash functions outside the two that are drawn at random, all functions in place of X25519", "why_tests_cant": "It quantifies over every adaptive strategy.", "anchors": ["x-wing/src/lib.rs: encapsulate, decapsulate, expand_key, combiner, generate_key_pair", "ml-kem/src/kem.rs: decapsulate, encapsulate_deterministic, generate_deterministic"]}
{"id": "C71", "title": "X-Wing stays secure when ML-KEM is broken completely", "statement": "Take an attacker that gets, besides an X-Wing encapsulation key, a ciphertext and a secret, all secrets of the ML-KEM half: the seeds of its key and the message of the ciphertext. It may adaptively ask for hash values, for values of the combiner, which is drawn at random, and for X-Wing decapsulations of every other ciphertext. Its advantage in telling the shared secret that encapsulation returned from a random one is at most its advantage against SHAKE128 as expander of the secret key, plus the probability that a procedure built from it, which asks at most as many questions, computes the Diffie-Hellman value of two random X25519 public keys given an oracle that recognises Diffie-Hellman values for the first one, plus q/2^256. ML-KEM decryption failures and malleated ciphertexts do not help.", "quantifier": "all attackers, all numbers of questions, all hash functions outside those drawn at random; X25519 as in RFC 7748, or any function that commutes on the base point", "why_tests_cant": "It quantifies over every adaptive strategy.", "anchors": ["x-wing/src/lib.rs: encapsulate, decapsulate, expand_key, combiner, generate_key_pair"]}
{"id": "C72", "title": "The elliptic-curve KEMs never degenerate", "statement": "On secp256k1, P-256, P-384 and P-521, for every secret and every public key or encapsulated key that can be parsed, that is every point except infinity: encapsulation and decapsulation return the x-coordinate of an actual point of the curve, never the placeholder for infinity, so there are no small-order keys as with X25519; generated public keys and encapsulated keys are never infinity, so they always parse; both sides agree; and every such point is the public key of exactly one secret.", "quantifier": "all secrets, all points of the four curves, all generators and their states", "why_tests_cant": "It rests on the number of points of each curve being the published prime, which no sampling of points shows.", "anchors": ["dhkem/src/lib.rs: Secp256k1Kem, NistP256Kem, NistP384Kem, NistP521Kem", "dhkem/src/ecdh_kem.rs: encapsulate, decapsulate, random_keypair"]}
{"id": "C73", "title": "What a raw elliptic-curve secret determines", "statement": "The shared secret of the elliptic-curve KEMs is not bound to the encapsulated key: under one decapsulation key exactly two encapsulated keys, a point and its negative, give the same secret; from one encapsulated key exactly two decapsulation keys, whose scalars add up to the group order, derive the same secret. The secrets that occur are exactly the x-coordinates of points of the curve, (n-1)/2 of them, each for two scalars: they are not uniform strings, so the extraction the crate leaves to its users is necessary.", "quantifier": "all secrets, all points of the four curves", "why_tests_cant": "Exactness of the count ranges over all scalars and points.", "anchors": ["dhkem/src/lib.rs: Secp256k1Kem, NistP256Kem, NistP384Kem, NistP521Kem, crate documentation", "dhkem/src/ecdh_kem.rs: encapsulate, decapsulate"]}
{"id": "C74", "title": "X25519 secrets that are zero: exactly which strings, and never for honest parties", "statement": "For every secret and every string of 32 bytes, whether or not it encodes a point of the curve: X25519 returns 32 zero bytes if and only if the integer in the string, without the unused bit, is one of the seven of Bernstein's published list, whatever the secret. Two applications of X25519 commute on every string. So the X25519 adapter's decapsulation and encapsulation, which check nothing, return the zero secret for exactly those encapsulated keys and encapsulation keys, and X-Wing accepts such ciphertexts, while generated keys, honest encapsulated keys and honest secrets are never in the list.", "quantifier": "all secrets, all strings of 32 bytes, all generators and their states, all X-Wing keys and ciphertexts", "why_tests_cant": "The 'only if' ranges over all 2^256 strings and all secrets; it rests on the number of points of the curve and of its twist.", "anchors": ["dhkem/src/x25519_kem.rs: encapsulate, decapsulate, random_keypair", "x-wing/src/lib.rs: DecapsulationKey::decapsulate, EncapsulationKey::encapsulate"]}
{"id": "C75", "title": "What an X25519 secret determines", "statement": "Whether two encapsulated keys give the same X25519 secret does not depend on the decapsulation key, so anyone can tell with a key of their own. Two secret keys have the same public key if and only if their clamped scalars are equal or add up to 8 times the order of the base point, and then, and only then, they derive the same secret from honest encapsulated keys. From any encapsulated key outside the list of C74, a secret determines the clamped scalar up to its complement to 8 times the order of the curve's or the twist's large subgroup.", "quantifier": "all secrets and strings of 32 bytes, all generators and their states", "why_tests_cant": "Exactness ranges over all scalars and all strings.", "anchors": ["dhkem/src/x25519_kem.rs: encapsulate, decapsulate, random_keypair"]}
{"id": "C76", "title": "With the extraction left to the user, the adapters are RFC 9180's DHKEM", "statement": "The crate documents its KEMs as those of RFC 9180 without the extraction. For every named curve, hash function, KEM identifier and secret length: encapsulation to a key other than the point at infinity, followed by RFC 9180's ExtractAndExpand of the raw secret with the two encoded public keys, gives exactly the secret and the encapsulated key of RFC 9180's Encap with the ephemeral secret that was drawn; decapsulation followed by the extraction is its Decap; so the two sides agree on the extracted secret. The point at infinity itself RFC 9180 refuses, as recipient and as encapsulated key; the adapters return zeros for it. For X25519 the same holds, except for the public keys of C74's list, for which RFC 9180 must fail and the adapter returns a zero secret. The extraction in the crate's HPKE test is RFC 9180's and does not panic.", "quantifier": "all curves, keys, strings of 32 bytes, generators and their states, hash functions, identifiers and lengths", "why_tests_cant": "The crate tests one vector for one curve; conformance ranges over all keys, and for X25519 over where it fails.", "anchors": ["dhkem/src/lib.rs: crate documentation, NistP256Kem and the other named types", "dhkem/src/ecdh_kem.rs: encapsulate, decapsulate", "dhkem/src/x25519_kem.rs: encapsulate, decapsulate", "dhkem/tests/hpke_p256_test.rs: extract_and_expand, test_dhkem_p256_hkdf_sha256"]}
{"id": "C77", "title": "The extracted secret binds both keys, which the raw one does not", "statement": "On a named curve, if two decapsulations, each followed by RFC 9180's extraction with the encoded keys, give the same secret, then the decapsulation keys are the same and the encapsulated keys are the same, or two of the strings hashed on the way, named explicitly, are a collision of the hash function. In particular the two encapsulated keys P and -P, for which the adapter returns the same raw secret, are told apart. For X25519 the extracted secret determines the encapsulated key and the public key as strings of bytes.", "quantifier": "all curves, pairs of decapsulation keys, pairs of encapsulated keys, hash functions and identifiers", "why_tests_cant": "It ranges over all pairs of keys; a counterexample would be a collision, which tests do not find.", "anchors": ["dhkem/src/ecdh_kem.rs: decapsulate", "dhkem/src/x25519_kem.rs: decapsulate", "dhkem/tests/hpke_p256_test.rs: extract_and_expand"]}
{"id": "C78", "title": "Threads that share keys: schedules and lost calls do not matter", "statement": "Any number of threads make calls of a crate on shared keys, each with its own generator; calls begin, end, are lost in the middle (a panic in the generator, the end of the thread) or hang, and keys are dropped, in any order the borrow rules allow. Then all results, keys and generator states are those of the same calls made one after the other, in the order in which they ended. If threads use their own keys and those made before they started, and drop only their own, every thread ends up with exactly what it would have had alone, in every interleaving and whatever became of the other threads' calls; two interleavings of the same threads cannot be told apart by any thread. A name of a key stands for one key throughout. No call has results twice, results stay, and a thread's results come in the order in which it began the calls.", "quantifier": "all schedules of any length, all numbers of threads, all generators, all points at which calls are lost", "why_tests_cant": "Interleavings and crash points grow exponentially; a test run sees one.", "anchors": ["ml-kem/src/kem.rs: the methods take &self and &mut impl CryptoRngCore", "x-wing/src/lib.rs: same", "dhkem/src/ecdh_kem.rs, dhkem/src/x25519_kem.rs: same"]}
{"id": "C79", "title": "A KEM used from several threads is still the KEM", "statement": "In every schedule as in C78 of the calls of ml-kem, x-wing or dhkem: two calls with one argument on one key have one result, whichever threads make them, unless they draw random bytes. Every decapsulation in any thread is FIPS 203's, or the X-Wing draft's, on the key's encoding, whichever thread wrote that encoding. A key pair generated in one thread, an encapsulation to it in another and a decapsulation in a third agree (for ML-KEM and X-Wing if the noise is in its window, as in C05). No call of ml-kem or x-wing panics in any schedule unless its generator does.", "quantifier": "all schedules, threads, generators, keys, seeds, messages and ciphertexts; all parameter sets; every hash function and, for dhkem, every group on which Diffie-Hellman agrees", "why_tests_cant": "It ranges over all schedules and all inputs.", "anchors": ["ml-kem/src/kem.rs: DecapsulationKey, EncapsulationKey, Kem", "x-wing/src/lib.rs: DecapsulationKey, EncapsulationKey, generate_key_pair", "dhkem/src/ecdh_kem.rs, dhkem/src/x25519_kem.rs"]}
{"id": "C80", "title": "The calls are the standard's pseudocode, line by line", "statement": "Key generation, encapsulation and decapsulation return exactly the bytes which Algorithms 16 to 20 of FIPS 203 return, where the algorithms, and Algorithms 3 to 15 below them, are written down as the standard prints them: loops, counters, in-place updates of arrays, squeezing three bytes at a time. A call does not return if and only if the loop of the standard's Algorithm 7 does not end. Decapsulation with a key read from any bytes is Algorithm 18 on those bytes.", "quantifier": "all seeds, messages, keys a caller can hold, byte strings read as decapsulation keys, ciphertexts and generators; every hash function; all supported parameter sets", "why_tests_cant": "Test vectors fix a handful of inputs; agreement with the printed algorithms is a claim about every input, among them those on which Algorithm 7 would not end.", "anchors": ["ml-kem/src/kem.rs: Kem::generate, generate_deterministic, EncapsulationKey::encapsulate, encapsulate_deterministic, DecapsulationKey::decapsulate", "ml-kem/src/pke.rs", "ml-kem/src/algebra.rs", "ml-kem/src/encode.rs", "ml-kem/src/crypto.rs"]}
{"id": "C81", "title": "Chosen-ciphertext security rests on learning with errors with uniform matrices", "statement": "If SHAKE128 on the 34-byte strings that matrix entries are expanded from is a random table, which the attacker can read, then an attacker that asks at most q questions to G, J and decapsulation tells the key that encapsulation returned from a random one with an advantage of at most the sum of: the advantages of two distinguishers, built from it, for module learning with errors over Z_q[X]/(X^256+1) with uniform matrices (k equations in k unknowns, and k+1 equations in k unknowns); the advantages of three distinguishers against G as a generator and PRF; 2 k^2 / 2^261; and 3(q+1) times the average failure probability of decryption plus 3q / 2^256.", "quantifier": "all attackers (adaptive, any computation, with access to the whole table), all numbers of questions, all other hash functions, all supported parameter sets", "why_tests_cant": "It is a statement about every attacker and about probabilities far below what can be sampled; that expanding a public seed is as good as a uniform matrix, although the seed is known to the attacker, cannot be observed in a run.", "anchors": ["ml-kem/src/pke.rs: DecryptionKey::generate, EncryptionKey::encrypt", "ml-kem/src/algebra.rs: NttMatrix::sample_uniform, NttPolynomial::sample_uniform", "ml-kem/src/crypto.rs: XOF", "ml-kem/src/kem.rs: DecapsulationKey::decapsulate, EncapsulationKey::encapsulate"]}
{"id": "C82", "title": "Ciphertexts and shared keys look random under chosen-ciphertext attack", "statement": "If SHAKE128 on 34-byte strings is a random table, which the attacker can read, then an attacker that asks at most q questions to G, J and decapsulation tells the pair of ciphertext and shared key that encapsulation returned from a ciphertext packed from uniform polynomials, made without the public key, together with a random key, with an advantage of at most the sum of: the advantages of thirteen distinguishers built from it against module learning with errors with uniform matrices, G as a generator, and PRF; 7 k^2 / 2^261; (3q+2) times the average failure probability of decryption; and 3q / 2^256.", "quantifier": "all attackers (adaptive, randomised, any computation, with access to the whole table), all numbers of questions, all other hash functions, all supported parameter sets", "why_tests_cant": "It is a statement about every attacker and about probabilities far below what can be sampled.", "anchors": ["ml-kem/src/kem.rs: EncapsulationKey::encapsulate_deterministic, DecapsulationKey::decapsulate, Kem::generate_deterministic", "ml-kem/src/pke.rs: EncryptionKey::encrypt", "ml-kem/src/compress.rs: Compress", "ml-kem/src/encode.rs: Encode"]}
{"id": "C83", "title": "Ciphertexts do not reveal the recipient", "statement": "If SHAKE128 on 34-byte strings is a random table, which the attacker can read, then an attacker that is given two public keys, and the ciphertext and shared key that encapsulation returned for one of them, and that asks at most q questions to G, J and decapsulation with both keys (other than of the challenge), tells which key was used with an advantage of at most the sum of: the advantages of twice thirteen distinguishers built from it against module learning with errors with uniform matrices, G as a generator, and PRF; 18 k^2 / 2^261; (12q+4) times the average failure probability of decryption; and 12q / 2^256.", "quantifier": "all attackers (adaptive, randomised, any computation), all numbers of questions, all other hash functions, all supported parameter sets", "why_tests_cant": "It is a statement about every attacker and about probabilities far below what can be sampled.", "anchors": ["ml-kem/src/kem.rs: EncapsulationKey::encapsulate_deterministic, DecapsulationKey::decapsulate, Kem::generate_deterministic", "ml-kem/src/pke.rs: EncryptionKey::encrypt", "ml-kem/src/crypto.rs: G, J, XOF"]}
{"id": "C84", "title": "X-Wing is secure from learning with errors with uniform matrices", "statement": "If SHAKE128 on 34-byte strings is a random table, which the attacker can read, then an attacker on X-Wing that asks at most q questions to G, J and decapsulation tells the shared secret that encapsulation returned from a random one with an advantage of at most the sum of, for the attacker shown the right secret and for the attacker shown a random one: its advantages against the expansion of the secret key by SHAKE128, against module learning with errors with uniform matrices, G as a generator and PRF, and against the combiner as a pseudorandom function of the ML-KEM key; and of 36 / 2^261, (6q+8) times the average failure probability of ML-KEM decryption, and 6q / 2^256. Nothing is assumed about X25519.", "quantifier": "all attackers (adaptive, randomised, any computation, with access to the whole table), all numbers of questions, all other hash functions, all functions in place of X25519", "why_tests_cant": "It is a statement about every attacker and about probabilities far below what can be sampled.", "anchors": ["x-wing/src/lib.rs: EncapsulationKey::encapsulate, DecapsulationKey::decapsulate, combiner, expand_key", "ml-kem/src/kem.rs: EncapsulationKey::encapsulate_deterministic, DecapsulationKey::decapsulate", "ml-kem/src/crypto.rs: G, J, XOF"]}
{"id": "C85", "title": "Decapsulation failures are negligible over random matrices", "statement": "For every key seed, rejection secret and message, if the outputs of SHAKE128 that give the matrix, those of SHAKE256 that give the noise and those of SHA3-512 that give the encapsulation's randomness are uniform, then an honest ciphertext decapsulates to another key than encapsulation returned with probability at most 2^-120 for ML-KEM-512, 2^-152 for ML-KEM-768, 2^-163 for ML-KEM-1024 and 2^-152 for X-Wing, with any generators and with X25519 as RFC 7748 defines it.", "quantifier": "all seeds, rejection secrets, messages, generators and other hash functions; the probability is over the three random functions", "why_tests_cant": "Failures this rare cannot be met by sampling, and the probability is over all random functions.", "anchors": ["ml-kem/src/pke.rs: DecryptionKey::generate, EncryptionKey::encrypt, DecryptionKey::decrypt", "ml-kem/src/algebra.rs: sample_poly_cbd, SampleNTT", "ml-kem/src/compress.rs", "x-wing/src/lib.rs: EncapsulationKey::encapsulate, DecapsulationKey::decapsulate"]}
{"id": "C86", "title": "The security bounds contain no unknown failure probability", "statement": "If SHAKE128 on 34-byte strings is a random table that everybody can read, then K-PKE with a random key and random coins decrypts any message, which may depend on the key, incorrectly with a probability of at most 2^-120, 2^-152 or 2^-163 for ML-KEM-512, 768 and 1024, but for the advantages of three explicit tests against G as a generator and against PRF. So the advantage of any attacker that asks at most q questions, against the chosen-ciphertext security of ML-KEM and X-Wing, the randomness of its ciphertexts and the anonymity of its recipients, is bounded by the advantages of explicit distinguishers against learning with errors, G, PRF and (X-Wing) the expansion and the combiner, and by numbers.", "quantifier": "all attackers (adaptive, randomised, any computation), all numbers of questions, all other hash functions, all choices of messages", "why_tests_cant": "It is a statement about every attacker and about probabilities far below what can be sampled.", "anchors": ["ml-kem/src/kem.rs: EncapsulationKey::encapsulate_deterministic, DecapsulationKey::decapsulate", "ml-kem/src/pke.rs: DecryptionKey::generate, EncryptionKey::encrypt, DecryptionKey::decrypt", "x-wing/src/lib.rs: EncapsulationKey::encapsulate, DecapsulationKey::decapsulate"]}
{"id": "C87", "title": "The pointer casts of flatten and unflatten are sound", "statement": "Flattening and unflattening arrays, owned or borrowed, has no undefined behaviour: every pointer stays within the array's own memory, every read is aligned and of a valid value, and no offset overflows. The results are those of C33. The owned forms run no destructor themselves, and dropping the result runs the destructors that dropping the argument would have run, in the same order and each once, so no element is leaked or dropped twice. The borrowed form returns references into the borrowed array that do not overlap and that together cover exactly its bytes.", "quantifier": "all element types with any size, alignment, representation and destructor, all sizes N and M, all places of the array in memory, all widths of usize", "why_tests_cant": "A test cannot observe undefined behaviour, and the casts are generic over element type and sizes.", "anchors": ["ml-kem/src/util.rs: Flatten, Unflatten"]}
{"id": "C88", "title": "Programs with any number of keys and exchanges work", "statement": "Take any program that generates keys, stores them as bytes, and exchanges secrets with them in any order: the sender reads the public key and encapsulates, the owner reads the secret key and decapsulates. If the hash functions are random tables, then the probability that some call panics or does not return, that an exchange with an existing key does not take place, or that in some exchange the two sides have different secrets, is at most 2^-259 per key and 2^-120 per exchange for ML-KEM-512, 9*2^-261 and 2^-152 for ML-KEM-768 and X-Wing, and 2^-257 and 2^-163 for ML-KEM-1024.", "quantifier": "all programs (any numbers of keys and exchanges, any order), all random generators that return, all hash functions outside the tables", "why_tests_cant": "It is about all programs, and the probabilities are far below what can be sampled.", "anchors": ["ml-kem/src/kem.rs: KemCore::generate, EncapsulationKey::encapsulate, DecapsulationKey::decapsulate, from_bytes, as_bytes", "x-wing/src/lib.rs: generate_key_pair, EncapsulationKey::encapsulate, DecapsulationKey::decapsulate"]}
{"id": "C89", "title": "Secure for many users and many messages", "statement": "Any number of users generate ML-KEM keys, and any number of messages are encapsulated, each for one of the users. An attacker that sees all public keys, ciphertexts and shared keys, and may have every other ciphertext decapsulated with every user's key, cannot tell the shared keys from random ones, cannot tell the ciphertexts from random strings of their kind, and cannot tell whom the ciphertexts are for. Its advantage is at most the sum, over the messages, of the advantages of thirteen distinguishers built from it (against G as a generator, PRF and module learning with errors), plus explicit statistical terms.", "quantifier": "all numbers of users and messages, all choices of recipients, all adaptive attackers with any number of questions, all seeds, messages and hash tables (averaged), the three parameter sets", "why_tests_cant": "It is about all attackers, and the probabilities are far below what can be sampled.", "anchors": ["ml-kem/src/kem.rs: KemCore::generate_deterministic, EncapsulationKey::encapsulate_deterministic, DecapsulationKey::decapsulate", "ml-kem/src/pke.rs: EncryptionKey::encrypt, DecryptionKey::decrypt"]}
{"id": "C90", "title": "X-Wing is secure for many users and many messages", "statement": "Any number of users generate X-Wing keys, and any number of encapsulations are made, each for one of the users. An attacker that sees all public keys, ciphertexts and shared secrets, and may have every ciphertext but a user's own challenges decapsulated with that user's key, cannot tell the shared secrets from random strings. Its advantage is at most the sum, over the encapsulations, of what attacks on a single X-Wing key need (against the expansion of the secret key, G, PRF, module learning with errors with uniform matrices, and the combiner as a pseudorandom function), plus explicit statistical terms. Nothing is assumed about X25519.", "quantifier": "all numbers of users and encapsulations, all choices of recipients, all adaptive attackers with any number of questions, all X25519 functions, all secret keys, randomness and hash tables (averaged)", "why_tests_cant": "It is about all attackers, and the probabilities are far below what can be sampled.", "anchors": ["x-wing/src/lib.rs: generate_key_pair, EncapsulationKey::encapsulate, DecapsulationKey::decapsulate, combiner", "ml-kem/src/kem.rs: KemCore::generate_deterministic, EncapsulationKey::encapsulate_deterministic, DecapsulationKey::decapsulate"]}
{"id": "C91", "title": "X-Wing is secure for many users even if ML-KEM is broken", "statement": "In the same situation, an attacker that is even given all users' ML-KEM seeds and all ML-KEM messages cannot tell the shared secrets from random strings, if the combiner is a random function. Its advantage is at most the sum, over the encapsulations, of the chance that explicit procedures solve the strong Diffie-Hellman problem for X25519 and of advantages against the expansion of one secret key, plus t(3q + 2t)/2^256. The procedures ask at most 3q + 2t questions. For X25519 as in RFC 7748 nothing else is assumed.", "quantifier": "all numbers of users u and encapsulations t, all choices of recipients, all adaptive attackers with any number q of questions, all secret keys, randomness and random functions (averaged)", "why_tests_cant": "It is about all attackers, and the probabilities are far below what can be sampled.", "anchors": ["x-wing/src/lib.rs: generate_key_pair, EncapsulationKey::encapsulate, DecapsulationKey::decapsulate, combiner"]}
{"id": "C92", "title": "ML-KEM ciphertexts hide the recipient even from somebody who sees what both keys make of them", "statement": "An attacker that is given two public keys, a ciphertext encapsulated for one of them, and the shared keys that decapsulating this ciphertext with each of the two keys returns, and that may have all other ciphertexts decapsulated with both keys, cannot tell which key the ciphertext was made for: the shared key of implicit rejection looks just like an agreed one. Its advantage is at most that of explicit distinguishers against G as a generator, PRF and module learning with errors, plus explicit statistical terms.", "quantifier": "all parameter sets, all adaptive attackers with any number of questions, all keys, randomness and hash tables (averaged)", "why_tests_cant": "It is about all attackers, and the probabilities are far below what can be sampled.", "anchors": ["ml-kem/src/kem.rs: DecapsulationKey::decapsulate (implicit rejection), EncapsulationKey::encapsulate_deterministic, KemCore::generate_deterministic", "ml-kem/src/pke.rs: EncryptionKey::encrypt, DecryptionKey::decrypt"]}
{"id": "C93", "title": "X-Wing ciphertexts hide the recipient even from somebody who sees what both keys make of them", "statement": "An attacker that is given two X-Wing public keys, a ciphertext encapsulated for one of them, and the shared secrets that decapsulating this ciphertext with each of the two keys returns, and that may have all other ciphertexts decapsulated with both keys, cannot tell which key the ciphertext was made for. Its advantage is at most that of explicit distinguishers against the expansion of secret keys, G as a generator, PRF and module learning with errors, plus explicit statistical terms. Nothing is assumed about X25519 and the combiner.", "quantifier": "all adaptive attackers with any number of questions, all X25519 functions, all secret keys, randomness and hash tables (averaged)", "why_tests_cant": "It is about all attackers, and the probabilities are far below what can be sampled.", "anchors": ["x-wing/src/lib.rs: generate_key_pair, EncapsulationKey::encapsulate, DecapsulationKey::decapsulate, expand_key, combiner", "ml-kem/src/kem.rs: DecapsulationKey::decapsulate (implicit rejection)"]}
{"id": "C94", "title": "The DHKEM adapters followed by a random extraction withstand chosen-ciphertext attacks, and without it they do not", "statement": "For the KEMs over secp256k1, P-256, P-384, P-521 and X25519: let the raw shared secret be put through RFC 9180's ExtractAndExpand with the encapsulated key and the recipient's key as context, and let that extraction be a random function. An attacker that is given the recipient's public key, an encapsulated key and a secret, and that may have every other string decapsulated and extracted, cannot tell the right secret from a random one, better than an explicit procedure solves the Diffie-Hellman problem with at most as many yes-or-no questions about Diffie-Hellman values. For X25519 this holds whether or not the all-zero value is refused. The raw secrets themselves do not withstand one question: an attacker that asks for the negated point, or for the string with the ignored bit flipped, always recognises the secret. For any number of recipients and messages, where all secrets are to be told from random ones and each recipient decapsulates all but their own challenges, the bound is a sum, over the messages, of the chances of explicit procedures against one Diffie-Hellman problem, with one more question per message. Nor can an attacker tell for which of the recipients each message is meant, when no recipient answers for the challenges themselves: the views under any two assignments differ by at most the sum of those chances for both.", "quantifier": "all adaptive attackers with any number of questions, all secrets, all extraction functions (averaged), all generators from which every secret can be drawn; all numbers of recipients and messages", "why_tests_cant": "It is about all attackers, and the probabilities are far below what can be sampled.", "anchors": ["dhkem/src/ecdh_kem.rs: EcdhKem, Encapsulate for DhEncapsulator, Decapsulate for DhDecapsulator", "dhkem/src/x25519_kem.rs: X25519Kem", "dhkem/src/lib.rs: Secp256k1Kem, NistP256Kem, NistP384Kem, NistP521Kem"]}
{"id": "C95", "title": "What the zeroize feature leaves in the memory of finished calls", "statement": "With the feature zeroize, after an X-Wing decapsulation or key generation, the ML-KEM secret vector, the rejection secret z inside the key object, and the X25519 secret key object have been overwritten with zeros. The local arrays they were made from (seeds d and z, X25519 secret bytes, the 32 secret bytes at generation), both shared secrets and their combination have not: ss_x is erased only in a copy. Hence from what one decapsulation leaves, every ciphertext for that key can be decapsulated without the key. An encapsulation leaves both shared secrets, the message and the ephemeral secret; ML-KEM key generation leaves its seeds, ML-KEM decapsulation the decrypted message, both candidate keys and the product of the secret vector with the ciphertext's: from what the decapsulations of k fixed ciphertexts leave (k the module rank), the secret vector of any key is computed, with the feature or without. With any features of dhkem, its default feature zeroize included, an X25519 encapsulation leaves its ephemeral secret and a dropped X25519 decapsulator its secret, unless the build also asks for zeroize of x-wing (or another crate asks for that of x25519-dalek); on the NIST and secp256k1 curves both are erased in every build. No feature changes what any call returns.", "quantifier": "all sets of requested features of the three crates, all keys, ciphertexts, generators, initial memory contents and hash and Diffie-Hellman functions; for a compiler that moves values without leaving copies and overwrites nothing by itself", "why_tests_cant": "Safe tests cannot observe the memory of finished calls, and the claim ranges over all keys and ciphertexts.", "anchors": ["x-wing/src/lib.rs: DecapsulationKey::decapsulate, EncapsulationKey::encapsulate, DecapsulationKey::expand_key, generate_key_pair", "ml-kem/src/kem.rs: decapsulate, encapsulate, generate, Drop for DecapsulationKey", "ml-kem/src/pke.rs: DecryptionKey::generate, decrypt, EncryptionKey::encrypt", "dhkem/Cargo.toml: features", "dhkem/src/x25519_kem.rs, dhkem/src/ecdh_kem.rs: encapsulate, random_keypair, decapsulate"]}
{"id": "C96", "title": "Printing a decapsulation key prints the key", "statement": "The Debug output of ML-KEM keys, {:?} and {:#?} alike, is the same for two keys only if they are equal. It contains the secret vector and the rejection secret in full: from any text that starts with the printed decapsulation key, every ciphertext for that key can be decapsulated.", "quantifier": "all decapsulation and encapsulation keys of all parameter sets, both forms of output, any text after the key that does not start with a digit; however the array crate prints an array, as a list or as a named tuple around the list", "why_tests_cant": "That nothing is elided or ambiguous is a claim about all keys.", "anchors": ["ml-kem/src/kem.rs: derive(Debug) on DecapsulationKey, EncapsulationKey", "ml-kem/src/pke.rs: derive(Debug) on DecryptionKey, EncryptionKey", "ml-kem/src/algebra.rs: derive(Debug) on FieldElement, NttPolynomial, NttVector"]}
{"id": "C97", "title": "Comparing decapsulation keys with == is correct but not constant-time", "statement": "== on ML-KEM decapsulation keys says whether they are equal. It stops at the first difference: for different keys the number of elements compared is one more than the length of their common beginning. Somebody who can have keys of their choice parsed and compared with a secret key and sees that number learns the whole secret key with at most 3329 (512 k + 96) comparisons.", "quantifier": "all pairs of keys; for the attack, every key that was generated or parsed, with one procedure for all of them", "why_tests_cant": "A claim about all keys and about the work done, not the result.", "anchors": ["ml-kem/src/kem.rs: derive(PartialEq) on DecapsulationKey, EncapsulationKey", "ml-kem/src/pke.rs: derive(PartialEq)", "ml-kem/src/algebra.rs: derive(PartialEq)"]}
{"id": "C98", "title": "Different secrets give different public keys", "statement": "If two ML-KEM seeds d give the same encapsulation key, they are equal or an explicit pair of inputs collides under the first half of SHA3-512; equal decapsulation keys moreover have the same z. One seed used for two parameter sets gives different public seeds, up to such a collision. If two X-Wing secrets give the same public key, they are equal or explicit inputs collide under SHAKE128 (32 bytes) or SHA3-512. If these functions are random on the strings that are hashed, two of N independently generated ML-KEM key pairs have the same public key with probability at most N(N-1)/2^256, two of N X-Wing key pairs with at most 3N(N-1)/2^257.", "quantifier": "all pairs of seeds, all hash functions and Diffie-Hellman functions, all numbers of users", "why_tests_cant": "A coincidence would not be hit by tests; the claim is over all pairs of seeds.", "anchors": ["ml-kem/src/pke.rs: DecryptionKey::generate", "ml-kem/src/kem.rs: DecapsulationKey::generate_deterministic", "x-wing/src/lib.rs: DecapsulationKey::expand_key, encapsulation_key"]}
{"id": "C99", "title": "What a repeated message or generator state exposes", "statement": "If one message is encapsulated for two ML-KEM recipients, of the same or different parameter sets, by encapsulate_deterministic or because the generator was twice in the same state, then each recipient whose own exchange does not fail can compute the other's ciphertext and shared key from their own ciphertext and the other's public key. Towards one recipient a repetition shows: two ciphertexts without decryption failure are equal exactly if the messages are. Two X-Wing encapsulations from one state have the same X25519 part, and the other recipient obtains the ML-KEM secret, so that only X25519(e, pk_X) is left to protect the exchange. Two Diffie-Hellman encapsulations from one state have the same ciphertext.", "quantifier": "all keys, messages, generators and states; all pairs of parameter sets", "why_tests_cant": "It is about all pairs of recipients and all ways in which a generator can repeat a state.", "anchors": ["ml-kem/src/kem.rs: EncapsulationKey::encapsulate, encapsulate_deterministic", "x-wing/src/lib.rs: EncapsulationKey::encapsulate", "dhkem/src/ecdh_kem.rs: encapsulate", "dhkem/src/x25519_kem.rs: encapsulate"]}
