# Design: a Lean 4 model of RustCrypto/KEMs

## Layers

- `Verif/Rust/*` machine integers, the `Res` monad (`ok` value, `panic`, `div` = does not return), loops,
  fixed-size arrays. An overflow of `+`, `-`, `*`, `<<`, `>>` panics if the build has overflow checks
  (debug profile) and wraps if not (release profile; shift amounts are masked). `usize` has any width from 16 bits.
  Profile and width are the class `Build`, and every theorem is for an arbitrary `Build`, so for all of them.
- `Verif/Model/*` the code of /repo, function by function. Each definition cites file and lines.
- `Verif/Spec/*` small specifications that do not mention the model (FIPS 203 mathematics over
  `ZMod 3329`, bit lists, rational rounding, the X-Wing draft formulas).
- `Verif/Proofs/*` helper lemmas connecting model and spec.
- `Verif/Props/*` the property theorems, each next to a non-vacuity example.

## What is modelled and what is not

Modelled, function by function: everything in ml-kem/src (util, algebra, compress, encode, param,
crypto, pke, kem, lib), x-wing/src/lib.rs and dhkem/src, except test modules and
feature plumbing. COVERAGE.md lists every function with the definitions that model it (`tools/coverage.py`).
`Model/History.lean` adds arbitrary sequences of API calls on many keys, `Model/Sessions.lean` programs that exchange secrets, `Model/UtilMem.lean` the pointers of util.rs,
`Model/Locals.lean` the local variables of kem.rs, pke.rs and x-wing with their destructors and the blocks under the feature `zeroize` (C95), `Model/Features.lean` and `Model/DhkemLocals.lean` the same for dhkem, with the features of the Cargo.toml files (C95), `Model/Debug.lean` the derived printing of ML-KEM keys (C96), `Model/Compare.lean` the work of `==` on them (C97), `Model/Hpke.lean` the key derivation in the
crate's HPKE test.

Parameters of the model (external crates, not in /repo): SHA3-256, SHA3-512, SHAKE128, SHAKE256
(`sha3`), the rng (`rand_core`), X25519 (`x25519-dalek`), ECDH (`elliptic-curve`), zeroize's
volatile writes. They are universally quantified; what is assumed about them is a hypothesis of the
theorem that needs it:

- `SeedOk S k rho`: the SHAKE128 streams for the k x k matrix hold 256 candidates below 3329 each. It
  is needed: without it the code loops (C31, C04).
  Spec/Fips202.lean defines the four functions as FIPS 202 does. Props/Vectors.lean shows, in the kernel, that with them
  the model's calls give the outputs of NIST vectors from /repo/ml-kem/tests (key generation, encapsulation,
  decapsulation, implicit rejection), so `SeedOk` holds for those seeds. Props/VectorXWing.lean does the same for the
  test of /repo/x-wing with its first vector, with X25519 as RFC 7748 defines it. These are tests of the specification; no
  property rests on them. The evaluation goes through functions on lists of numbers (Proofs/Fips202Eval.lean,
  Proofs/Fips203Eval.lean) that are proved equal to the specification.
- `NoiseOk`/`noiseBound`: the decryption noise of the values used is in its window (C05, C37, C47, C49).
- `PublicKeyIsBase`, `Commutes` (X-Wing), `Agrees` (DHKEM): what Diffie-Hellman must satisfy. `Agrees` is
  proved for every commutative group and every Weierstrass curve; all three are proved for X25519 as RFC 7748
  defines it (C65). C72, C73, C76 and C77 are about ECDH on the four curves as published (Spec/Sec2.lean); that the crates
  `k256`, `p256`, `p384` and `p521` compute in those groups is assumed.
- the rng does not panic (C47_no_panic only).

Timing is modelled at the level of the source (C64): `Model/Leak.lean` leaves an event at every run-time branch,
loop, subscript, division and hash call. That the events are placed as the code has them is read off the source,
like the rest of the model; that they are complete (constant-time integer arithmetic, hash functions, rng and
X25519) is assumed.

Not modelled: timing and side channels of compiled code beyond that, the compiler, memory allocation, trait dispatch (each trait
method is the function it resolves to), `Debug` of values other than ML-KEM keys, the `kem` crate's error type (it is `Infallible`).

Simplifications: a `StaticSecret`/`EphemeralSecret` is its bytes or scalar; references and owned values
are the same; `unsafe` casts in util.rs are modelled as reads of the same memory in the same order, with the
undefined cases as `panic` (C87 proves that this is what the pointers do, in a model of memory with layouts,
alignment, pointers and destructors).

## Trusted base

- Lean's kernel (4.33.0) and Mathlib's definitions used in statements: `ZMod`, `Polynomial`, `round`,
  `Nat.nth`, `Nat.count`, `Nat.card`, real numbers and their powers, `Finset.sum`, `Finset.expect`,
  `WeierstrassCurve.Affine.Point`.
- Axioms: propext, Classical.choice, Quot.sound, and no other. Exceptions using fewer: C18_table3,
  C39_secret_roundtrip, C45_decapsulate use none; C28_width_12, C46_* only propext; C18_sizes, C35_*,
  C44_agree, C45_ephemeral, C45_recipient_independent only propext and Quot.sound. All others listed in
  MANIFEST.json use all three. `tools/axioms.txt`, run as a Lean file, prints the list.
- The reading of the Rust source: that Model/* says what the code does. As a check of that reading (a test,
  not a proof), the model was run with a Lean SHA-3 (Kat/Keccak, Kat/Run) on the vectors in /repo: 75 key
  generation, 75 encapsulation and 30 decapsulation vectors for the three parameter sets, and the X-Wing
  vectors; all outputs agree.
- The specifications in Spec/*, to be read against FIPS 203 and the X-Wing draft. For FIPS 203 it suffices to read
  Spec/Fips203Algorithms.lean, the printed algorithms; C80 proves that Spec/Fips203.lean says the same.

## How the theorems were tested

`seeded/LOG.jsonl` lists wrong programs: an edit to one definition of the model, the claims it breaks and
the theorems that no longer prove.

## Plan per property

- **C01** ML-KEM key generation is FIPS 203 KeyGen. Model `generate_deterministic` down to machine integers; write FIPS 203 over ZMod 3329 and bit lists in Spec; prove the model's output bytes equal the spec's (refinement).
- **C02** ML-KEM encapsulation is FIPS 203 Encaps. Same refinement for encapsulation; key = any reduced key, which from_bytes/generate provably give.
- **C03** ML-KEM decapsulation is FIPS 203 Decaps. Same refinement for decapsulation.
- **C04** No public ML-KEM operation panics or hangs. Model is in a `Res` monad (ok / panic / div) with overflow-checked machine arithmetic and checked indexing; the refinement theorems conclude `= ok _`, which is absence of panic and divergence.
- **C05** Encapsulate/decapsulate agree when the noise is in range. Algebra in the NTT-domain ring: w - mu = noise; then rounding lemma; then determinism of re-encryption.
- **C06** Decryption failure happens exactly when the noise leaves the window. Same, as an iff per bit.
- **C07** Implicit rejection is total and exact. Comparison fold lemma plus case split.
- **C08** A ciphertext that no message encapsulates to is rejected to the pseudorandom key. Corollary of C07 quantified over all m.
- **C09** Distinct ciphertexts decrypting alike: at most one is accepted. Corollary of C07 for pairs of ciphertexts.
- **C10** The branch-free comparison decides byte-string equality. Byte lemma by exhaustive kernel check over the 256x256 table (whole domain), lifted by induction over the string.
- **C11** Encapsulation key serialisation round-trips. Codec round-trip lifted to keys; invariants Reduced and h = H(bytes).
- **C12** Decapsulation key serialisation round-trips. Same for dk.
- **C13** Parsing canonicalises keys and is idempotent. Bit-level characterisation of decode/encode at width 12.
- **C14** Non-canonical encapsulation keys behave as their canonical form. Corollary of C13.
- **C15** The stored hash and rejection secret of a parsed decapsulation key are used verbatim. Direct, over the byte layout.
- **C16** A generated key pair is consistent. Direct, over the byte layout.
- **C17** Key equality is encoding equality, except for X-Wing public keys. Injectivity of as_bytes on reachable keys. For X-Wing, Model/Equality.lean has the derived comparisons; x25519-dalek's `==` compares u-coordinates (external, from curve25519-dalek 4.1.2, which Cargo.lock pins), so the theorem names exactly which encodings are equal and shows that each key has an equal one with another encoding (Props/Equality.lean).
- **C18** Encoded sizes match FIPS 203 table 3. Type-level sizes are computed by Lean definitions; equalities by unfolding, generic in k, du, dv.
- **C19** Random key generation consumes exactly d then z. Rng is an abstract state machine parameter.
- **C20** Random encapsulation consumes exactly one 32-byte message. Same.
- **C21** Field arithmetic is exact modulo 3329 and stays reduced. Nat arithmetic on checked u16/u32/u64 operations.
- **C22** The NTT evaluates a polynomial modulo every X^2 - zeta^(2 BitRev7(i)+1). Loop invariant per layer: after a layer the block values are f mod (X^len - w_b); root identities checked over the complete 128-entry table.
- **C23** NTT and inverse NTT are mutually inverse. Each inverse layer undoes a forward layer up to factor 2; 3303*128 = 1.
- **C24** NTT-domain multiplication is multiplication modulo X^256+1. Ring homomorphism into Z_q[X]/(X^2-gamma_i) for each i, then injectivity of the NTT.
- **C25** Byte encoding is the FIPS 203 bit layout. testBit reasoning on u128 words, generic in d.
- **C26** Byte encoding and decoding are inverse. From C25.
- **C27** Compression rounds exactly as FIPS 203 specifies. Error analysis of the truncated reciprocal, generic in d <= 11; spec uses Mathlib `round` over rationals.
- **C28** Compression loses at most round(q/2^(d+1)) and inverts decompression. From C27.
- **C29** Centred binomial sampling is FIPS 203 SamplePolyCBD. Complete table of ones_array plus C25.
- **C30** Uniform sampling takes the first 256 accepted candidates. Invariant of the buffered reader relating state to candidate index; spec uses Mathlib `Nat.nth`.
- **C31** Uniform sampling terminates exactly when the stream allows it. `loop` modelled with partial_fixpoint, divergence proved by fixpoint induction.
- **C32** Key generation and encapsulation use the same matrix. Direct on the sampling functions, generic k.
- **C33** Flatten and unflatten preserve element order and are inverse. Index lemma for flat layout.
- **C34** Truncate is reduction modulo the target width. Model keeps the unchecked unwrap as an explicit `panic` (UB) outcome; prove it never arises.
- **C35** Dropping a decapsulation key erases its secrets. Drop modelled as a function on the key's memory; zeroize = write of zeros. Compiler/allocator copies are outside the model.
- **C36** Decapsulating with a parsed key equals decapsulating with the original. Induction over the list of serialise/parse steps.
- **C37** X-Wing encapsulation and decapsulation agree. From C05 plus a commutativity hypothesis on the X25519 parameter.
- **C38** X-Wing implements the draft's key expansion and combiner. Direct; spec writes the draft formula with list concatenation.
- **C39** X-Wing serialisation round-trips. Vector append/split lemmas + C11/C13.
- **C40** X-Wing consumes randomness as the draft orders it. Direct over the abstract rng.
- **C41** An X-Wing key pair is determined by the 32-byte secret. Direct.
- **C42** The X-Wing combiner input is unambiguous. Injectivity of fixed-length concatenation.
- **C43** X-Wing inherits implicit rejection. From C07.
- **C44** DHKEM encapsulation and decapsulation agree. DH as a parameter with an explicit commutativity hypothesis (satisfied by a concrete group instance).
- **C45** DHKEM draws one ephemeral secret and sends its public key. Direct.
- **C46** DHKEM wrappers are transparent. Direct; `==` of X25519 keys in Props/Equality.lean.
- **C47** Operations never disturb the keys they use. State machine over a key pool; invariant by induction over the op list.
- **C48** The pre-computed tables are the FIPS 203 Appendix A values. Kernel evaluation over the complete tables.
- **C49** Keys with short secrets never fail to decrypt. Bound each noise coefficient by the l1-norms of the secret vectors and the worst-case compression and sampling errors; then C05.
- **C50** Extracted encapsulation keys keep the unverified hash. Byte layout of parsed keys; concrete counterexample for any primitives.
- **C51** Builds and platforms behave the same. Every API function is proved equal to an expression without machine arithmetic, whatever the profile and the width of `usize`; lifted to whole histories by induction.
- **C52** Noise has exactly the centred binomial distribution. Count preimages: bytes to bit groups is a bijection, groups are independent, one group by the complete table of 2^(2 eta) cases.
- **C53** Matrix entries are exactly uniform and sampling ends. Count candidate sequences that begin with given kept ones, by recursion on the length; bytes to candidates is a bijection; the bound is by induction. The exact count is by induction against the binomial theorem, and the bound of appendix B is one evaluation of that count in the kernel.
- **C54** An ML-KEM shared key binds public key and ciphertext. Case analysis on acceptance of each ciphertext, with the collisions as predicates on explicit inputs (Spec/Collision.lean), since mere existence of collisions is trivial. The negative part is a constructed key.
- **C55** Different messages give different ciphertexts and keys. Decryption is a left inverse when the noise is in its window (C06); the key part as in C54.
- **C56** An X-Wing shared secret binds public key and ciphertext. C42 for the combiner, then C54 for the ML-KEM part.
- **C57** X-Wing sessions: any history is stable, conforming, agreeing and panic-free. Model/XWingHistory.lean; invariant: every live key is the one obtained at its index, and every observation is explained by those keys; induction on the history. Also lifts C51 to histories.
- **C58** X-Wing secret keys with short ML-KEM secrets never fail. C49 for the ML-KEM part, Diffie-Hellman agreement for the rest.
- **C59** Hash functions are used only on the strings the standards list. Spec/Queries.lean lists the hash computations of each call with their roles. Locality: the closed forms of C01-C03, C38 are rewritten query by query.
- **C60** No string is hashed in two roles. Lengths of the hashed strings separate roles of one function, nonces and indices separate computations of one role; then C59.
- **C61** Honest decapsulation fails with negligible probability. `Spec/Random.lean` defines the probability as a count over finite tables that replace SHAKE256 on 33-byte strings and SHA3-512 on 64-byte strings; the rest of SHA-3 stays arbitrary. By C06 the event is that a noise coefficient leaves its window. Each coefficient is a sum of independent centred-binomial terms with weights that depend on encryption's noise, plus a bounded rounding term, so its moment generating function is a product (`Proofs/Average.lean`, `CbdAverage.lean`, `Tail.lean`). The rounding of u is averaged over the noise e1 exactly, for each of the 3329 values of the noiseless u, and the worst value is taken, so the matrix is arbitrary (`TailTables.lean`, tables checked in the kernel). A union bound over 256 coefficients gives the stated numbers. The encapsulation's randomness is chosen after the key, so the averages are taken one after the other, and the event that it hits the key's own noise seed costs 2^-256. The bounds hold for every matrix and are weaker than those FIPS 203 quotes for random ones (2^-138 and below). Witness: a table for which decapsulation does fail, so the probability is positive.
- **C62** A history uses the generator's output in order, each part once. Induction over the history; each step is shown to draw a list of blocks and to give the same result with any other generator that yields the same blocks. Added because seeded bugs that failed to advance the generator inside a history were caught only by an example.
- **C63** Calls return except with negligible probability. Union bound over the k^2 entries, each with the appendix B bound of C53; C04 says a call returns exactly if the seed can be expanded, whatever the message or ciphertext.
- **C64** What time and memory accesses show. A second, instrumented model (Model/Leak.lean) leaves an event at every run-time branch, loop, subscript, division and hash; forgetting the events gives the model back (Proofs/Leak.lean). A relational logic on pairs of runs (Proofs/Oblivious.lean) shows equal observations; a dual one (Proofs/Reveal.lean) shows what equal observations reveal. Chosen ciphertexts compare multiples of each secret coefficient with thresholds, and the directions of the subtraction `v - sTu` show the outcome (Props/LeakKey.lean): three factors and sixteen thresholds determine every coefficient. Reading the noise from the subscripts is a function of the observation (Props/LeakMessage.lean; for X-Wing Props/LeakXWing.lean).
- **C65** X25519 of RFC 7748 agrees. Spec/Rfc7748.lean transcribes X25519, the RFC's test vectors checked by the kernel. Proofs/Prime25519.lean proves 2^255 - 19 prime by a Pratt certificate; Proofs/Montgomery.lean proves the doubling and differential addition formulas against Mathlib's group law; Proofs/X25519.lean is the ladder's invariant. What remains assumed is that x25519-dalek computes RFC 7748's function.
- **C66** Chosen-ciphertext attacks give attacks on the underlying encryption. Spec/Cca.lean defines attackers as strategies, the tables that replace G and J, and the simulation. The experiment (`Attack`) runs the model's functions. Proofs/Fo.lean is the Fujisaki-Okamoto argument for an arbitrary randomised encryption scheme, by averaging over tables: replacing the derived key by a table of the ciphertext is exact except at messages whose encryption is decrypted to something else, and a question hits such a message with probability at most delta. Witness: an attacker with unbounded computation whose advantage is 1 - 2^-256.
- **C67** Finding an encrypted message breaks a standard assumption. Spec/Mlwe.lean states the assumptions as games. Five game hops; between them the order of averages is exchanged, the values of a uniform table at distinct nonces are independent, and adding the message to a uniform polynomial is a bijection. The matrix is the one expanded from the seed, so the assumption is module learning with errors for that distribution of matrices; C81 relates it to uniform matrices.
- **C68** Chosen-ciphertext security from module learning with errors. C66 and C67; the simulation lists at most as many messages as the attacker asks questions. The failure probability delta is a parameter; C61 bounds it for random PRF.
- **C69** Attacks on X-Wing give attacks on ML-KEM, SHAKE128 or SHA3-256. Spec/XWingCca.lean defines X-Wing attackers and the ML-KEM attacker made from one (`toKem`), which runs X25519 and the combiner itself. Props/XWingCca.lean: the experiment runs the model's key generation, encapsulation and decapsulation; three hops (expanded key replaced by random bytes, ML-KEM key replaced by a random one, combiner replaced by a random table), and the last game does not depend on which secret is shown. Witness: an attacker that asks one question and has advantage at least 1 - 2^-256 in one execution.
- **C70** Chosen-ciphertext security of X-Wing from module learning with errors. C69 and C68 for `toKem`, which asks as many questions as the X-Wing attacker (`answer_atMost`).
- **C71** X-Wing stays secure when ML-KEM is broken completely. Spec/XWingDh.lean defines attackers with combiner questions, the strong Diffie-Hellman problem, and the solver made from an attacker (`toDh`). Props/XWingDh.lean: the experiment runs the model's key generation, encapsulation and decapsulation with the combiner replaced by a random table (`withCombiner`). The table is split into one for Diffie-Hellman values and one for all other inputs (`expect_merge`); the shown secret is one entry of the first, which is asked for only if the solver wins or if another ciphertext has the same X25519 part and the same ML-KEM secret. The latter is a collision of two entries of a random table, found with probability at most q/2^256 (Proofs/Walk.lean). Witness: an attacker that asks two questions and has advantage at least 1 - 2^-256 in one execution. `C71_questions` counts the solver's questions; `C71_rfc7748` discharges the assumptions on X25519 by C65.
- **C72** The elliptic-curve KEMs never degenerate. Spec/Sec2.lean gives the published parameters, with Mathlib's group on the curve; Model/DhkemCurves.lean instantiates `EcdhKem` with it. Proofs/CurvePrimes.lean: field sizes and orders are prime by Pocklington certificates the kernel checks (Proofs/Pocklington.lean). Proofs/CurveChecks.lean: the kernel computes n - 1 times the base point in projective coordinates, giving the negative of the base point, and x^p modulo the cubic, giving no point of order two. Proofs/Weierstrass.lean: so the number of points is a multiple of n, less than 3n because there are at most 2p + 2 points, and odd, hence n. Witness: the base point with secret 1; key generation and encapsulation on P-256.
- **C73** What a raw elliptic-curve secret determines. Same files. Points with equal x-coordinates are equal or negatives; multiplication by a scalar is injective because the order is prime; the count is by fibres of two.
- **C74** X25519 secrets that are zero: exactly which strings, and never for honest parties. Proofs/Twist25519.lean takes the curve over the algebraic closure of the field, where every u lifts to a point, redoes the ladder's correctness there, and defines the Frobenius map: points with u in the field are those fixed by it, the curve, or negated, the twist. Proofs/Twist25519Count.lean: the two groups have 2p + 2 points together; the base point has the published order, prime by a Pocklington certificate (Proofs/Order25519.lean), and there is a point of order 8, so the curve has 8 times that order and the twist 4 times a prime; hence the points of order dividing 8 are multiples of one point on each. Proofs/X25519All.lean: a clamped scalar is 8 times a number less than both primes. Spec/SmallOrder.lean states orders and list. Witness: all 14 strings; 2, which is on the twist.
- **C75** What an X25519 secret determines. Same files. Equal coordinates other than 0 are equal or opposite points, on the same one of the two groups; the difference is killed by 8. Witness: two scalars that differ with equal public keys; two different coordinates with equal secrets.
- **C76** With the extraction left to the user, the adapters are RFC 9180's DHKEM. Spec/Hkdf.lean states HMAC and HKDF over any hash function, Spec/Rfc9180.lean the labelled functions, ExtractAndExpand, Encap, Decap and the groups with their encodings and checks, from the RFC; neither mentions the model. Model/Hpke.lean models the derivation in the crate's HPKE test. Props/Hpke.lean proves the equations, using C72 (no multiple of a key is the point at infinity) and C74 (when X25519 is zero). Witness: Props/HpkeVector.lean runs the crate's whole HPKE test vector through model and specification, with SHA-256 (Spec/Sha256.lean) and the curve arithmetic evaluated by the kernel.
- **C77** The extracted secret binds both keys, which the raw one does not. Proofs/Hkdf.lean: HMAC with keys of one length is injective up to a collision among the strings it hashes, so HKDF as RFC 9180 uses it is. Encodings have fixed lengths and are injective, so the context determines the keys. Witness: the vector of C76; P and -P.
- **C78** Threads that share keys: schedules and lost calls do not matter. Model/Threads.lean: a world of threads for any API whose calls read keys and a generator and return keys and results; events begin, finish, abandon, drop; a drop of a borrowed key is refused. That calls have no other effect on others is read off the signatures (`&self`, `&mut` of the caller's generator; no statics, cells or locks in the three crates). `atomically` and `effects` in Props/Threads.lean are the sequential specification; C78_linearizable is a simulation with the invariant that a running call holds what is in the pool, C78_alone a simulation between the full schedule and one thread's part of it, C78_once an invariant on what a thread has begun, is in and has ended.
- **C79** A KEM used from several threads is still the KEM. Props/ThreadsKem.lean: the invariant of C78_explained with reachability of keys (C03, C04), and the theorems on single calls (C05, C37, C38, C44). Witness: one schedule of four threads in which a drop is refused, a call is lost and a key is dropped, for each crate.
- **C80** The calls are the standard's pseudocode, line by line. Spec/Fips203Algorithms.lean transcribes Algorithms 3 to 18 in do-notation on lists; `while` is the least number of rounds after which the condition fails, if there is one. Each loop becomes a fold with an invariant (Proofs/Algorithms.lean, Proofs/AlgorithmsKem.lean); the transforms are compared with the loops of the model, which C07 to C09 compare with the mathematics; Algorithm 7 keeps 'the candidates below q so far'. Then C01 to C04 finish. So a reader need not trust the reformulation of the algorithms in Spec/Fips203.lean: it is proved equal to the printed ones (C80_parts and the three calls).
- **C81** Chosen-ciphertext security rests on learning with errors with uniform matrices. Spec/MlweUniform.lean: the standard module-learning-with-errors game `mlwe r c η η'`, and how a given matrix is planted in a table of SHAKE128 so that SampleNTT reads it: the candidates below q are replaced in order, everything else stays. Proofs/Reprogram.lean: planting a uniform polynomial in a uniform string gives a uniform string (exactly, by induction on the number of candidates), hence planting a uniform matrix in a uniform table gives a uniform table; and the planted matrix is read unless fewer than 256 of 560 candidates are below q. Props/MlweUniform.lean: the games of C67 averaged over the table, the two learning-with-errors hops replaced by ones for uniform matrices in Z_q[X]/(X^256+1) (the NTT is a bijection), then C66.
- **C82** Ciphertexts and shared keys look random under chosen-ciphertext attack. Proofs/FoPseudorandom.lean: in the simulation of C66 the challenge ciphertext may be any string; the attacker tells the real challenge from an unrelated one only as far as it tells the two ciphertexts apart in the simulation. Spec/Pseudorandom.lean: the attacker as a distinguisher of public keys and ciphertexts, and the thirteen distinguishers. Props/Pseudorandom.lean: real game to simulation (C66), encryption to uniform polynomials under a uniform matrix (the hops of C81, for a decider that lists all messages or none), and back to the real key with the unrelated ciphertext.
- **C83** Ciphertexts do not reveal the recipient. Spec/Anonymity.lean: attackers with decapsulation for two keys, and such an attacker as one on a single key that generates the other key itself and answers its decapsulations with one question to G and one to J. Props/Anonymity.lean: both games equal those of C82 for that attacker up to the failure of generating the other key; the game on a ciphertext from uniform polynomials does not depend on which key it is for; the triangle inequality.
- **C84** X-Wing is secure from learning with errors with uniform matrices. Props/XWingUniform.lean: C81 for attackers with coins (`C81_randomised`), then the hops of C69 and C70 with the table drawn first: the table of 34-byte strings leaves the expansion of a 32-byte secret key and the combiner unchanged (`expanded_xof`), so each advantage is one number for a distinguisher that draws the table itself.
- **C85** Decapsulation failures are negligible over random matrices. Props/FailureUniform.lean. The matrix is replaced by a uniform one (Proofs/Reprogram.lean). For a uniform matrix `Aᵀy` is uniform unless a slot of the transform of every component of `y` vanishes (Proofs/TailUniform.lean), so the rounding error of `u` can be averaged, where C61 takes its maximum. The exceptional `y` are bounded by the largest entry of a table of 3329 sums, computed in the kernel as one multiplication of large numbers per step (Proofs/HitTable.lean, Proofs/UniformTables.lean).
- **C86** The security bounds contain no unknown failure probability. Props/Complete.lean, Spec/Correctness.lean. An incorrect decryption means that the part of the noise that does not depend on the message is large (`loud_of_incorrect`); whether it is can be tested, given the seeds or the values of `PRF`. Three such tests lead to uniform noise, where the tail bound of C85 applies.
- **C87** The pointer casts of flatten and unflatten are sound. Rust/Memory.lean, Model/UtilMem.lean, Props/Memory.lean. Objects are sequences of cells, pointers are offsets, a layout says how a type is stored, and undefined behaviour is `panic`. The functions are modelled with their pointers, `ManuallyDrop` and the destructors run at the end of the scope.
- **C88** Programs with any number of keys and exchanges work. Model/Sessions.lean, Props/Sessions.lean. The states of the generator, and so the seeds of all keys and messages, do not depend on the tables. A program works if every key returns (C63) and no exchange fails (C85); the union bound gives the sum.
- **C89** Secure for many users and many messages. Spec/ManyUsers.lean, Props/ManyUsers.lean. The messages are replaced by random strings one after the other. Whoever attacks a single step can generate all other keys and make all other messages themselves, with questions for `G` and `J`; that is an attack on one key and one message, which C86 bounds.
- **C90** X-Wing is secure for many users and many messages. Spec/XWingMany.lean, Props/XWingMany.lean. The secrets are replaced one after the other. Whoever attacks a single step can generate all other keys and make all other ciphertexts themselves, with questions for `G` and `J`; that is an attack on one key and one message, which C86 bounds.
- **C91** X-Wing is secure for many users even if ML-KEM is broken. Spec/XWingManyDh.lean, Props/XWingManyDh.lean. As C90, with questions for the combiner too; a single step is an attack that C71 turns into one on X25519. The steps are exact, as an attack on a key that does not exist fails on both sides.
- **C92** ML-KEM ciphertexts hide the recipient even from somebody who sees what both keys make of them. Spec/Told.lean, Proofs/Sparse.lean, Props/Told.lean. With one key generated by the attacker itself, C86 replaces the challenge by an unrelated packed vector and its shared key by a random one. An unrelated packed vector is an encryption of some message only with probability 2^-256 (Proofs/Sparse.lean: compression of a uniform coefficient hits a given value with probability at most 5/3329), so the other key rejects it, and what it returns is an answer of `J` that nobody has asked for. Then the game no longer depends on which key is which.
- **C93** X-Wing ciphertexts hide the recipient even from somebody who sees what both keys make of them. Spec/XWingTold.lean, Props/XWingTold.lean. Somebody who knows the X25519 secrets can turn what ML-KEM's two keys make of the challenge into what the two X-Wing keys make of it. So the attack is exactly an attack of C92, once the seeds expanded from the two secret keys are replaced by random ones.
- **C94** The DHKEM adapters followed by a random extraction withstand chosen-ciphertext attacks, and without it they do not. Spec/DhkemCca.lean (attackers, the Diffie-Hellman problem with questions, the explicit procedure), Props/DhkemCca.lean. A random function is the same as two: a table of the encapsulated key for those inputs that hold the recipient's Diffie-Hellman value, and a table for all others. With the first table, decapsulation needs no secret, and a question tells which table answers. The value shown to the attacker is an entry of the first table that is not read again unless the attacker asks for the Diffie-Hellman value of the challenge. For many recipients: Spec/DhkemMany.lean, Props/DhkemMany.lean, by a hybrid over the messages whose every step plays all users but one. Which recipient refuses which challenge is a parameter; when all refuse all challenges, the view with random secrets does not depend on the assignment of messages to recipients, which gives anonymity from two uses of the bound.
- **C95** What the zeroize feature leaves in the memory of finished calls. Rust/Locals.lean (frames, destructors at return, moves, Copy arrays), Model/Locals.lean, Props/Locals.lean. Each function with variables is proved to return what the plain model returns; then the contents of the memory after a call are computed, in order, by inversion of the run. Memory that later calls overwrite, temporaries and registers are not represented, and a move leaves nothing: a real compiler may leave more, and later calls may overwrite some. Model/Features.lean is the feature tables of the three Cargo.toml files and Cargo's rule (a feature is on if anything in the build asks for it); Model/DhkemLocals.lean the variables of the Diffie-Hellman adapters, with the destructors of x25519-dalek and elliptic-curve as read from those crates; Props/DhkemLocals.lean shows by induction over what turns features on that dhkem's `zeroize` never reaches x25519-dalek. Props/LocalsKey.lean: ciphertexts whose first part decompresses to a constant in one polynomial make `sTu` a known unit times one polynomial of the secret vector; it is read back from the bytes left and transformed.
- **C96** Printing a decapsulation key prints the key. Rust/Fmt.lean (core's builders for structs, tuples and lists, with indentation), Model/Debug.lean, Props/Debug.lean. Each printer is shown to be injective also in front of any text that does not start with a digit, from numbers up to keys.
- **C97** Comparing decapsulation keys with == is correct but not constant-time. Model/Compare.lean (derived comparisons with the number of elements compared; core's memcmp on bytes is taken element by element), Spec/Compare.lean (procedures that ask for comparisons), Props/Compare.lean. Comparisons of fields and arrays are those of the flattened sequences; the procedure finds number after number, a try being right exactly if the comparison goes further. All tries are keys that from_bytes accepts.
- **C98** Different secrets give different public keys. Spec/KeyTables.lean (the two hash functions as random tables), Props/Unique.lean. The public key contains the first half of G(d ‖ k). For the probabilities: union over the pairs, and the values of a random table at two points are independent.
- **C99** What a repeated message or generator state exposes. Props/Reuse.lean. The other recipient is an explicit computation: decrypt one's own ciphertext, encapsulate the result to the victim's key. From the decryption half of C05 and the randomness theorems C20 and C40.
