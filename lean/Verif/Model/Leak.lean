import Verif.Model.XWing
import Verif.Rust.Leak
/-!
The functions of /repo that handle secrets, with a record of branches, loop lengths, subscripts, division
operands and hash lengths (`Rust.Event`). Every definition follows the one of the same name in Verif/Model and
cites the same lines; forgetting the events gives that definition back (`Verif/Proofs/Leak.lean`).

Simplifications: branches on compile-time constants (`D::USIZE == 12`), calls and returns leave no event; so do
reads of an iterator, which follow from the loop event; the expansion of the public seed `ρ` into the matrix is
one event that shows all of `ρ`; overflow checks leave no event, as they fail only in runs that panic. The hash
functions, the rng and X25519 (external crates) are taken to run in time depending on lengths only.
-/
namespace MlKem.Leaky
open Rust
open Rust.Leak (op emit)

variable [Build]

/-- ml-kem/src/algebra.rs:36-42 -/
def small_reduce (x : UInt16) : Leak UInt16 := do
  emit (.reduce (Rust.lt x FieldElement.Q))
  op (if Rust.lt x FieldElement.Q then .ok x else Rust.sub x FieldElement.Q)

/-- ml-kem/src/algebra.rs:44-49 -/
def barrett_reduce (x : UInt32) : Leak UInt16 := do
  let product ← op (Rust.mul (cast x : UInt64) FieldElement.BARRETT_MULTIPLIER)
  let quotient ← op (truncate UInt32 (← op (Rust.shr product FieldElement.BARRETT_SHIFT)))
  let remainder ← op (Rust.sub x (← op (Rust.mul quotient FieldElement.Q32)))
  small_reduce (← op (truncate UInt16 remainder))

/-- ml-kem/src/algebra.rs:73-75 -/
def add (self rhs : FieldElement) : Leak FieldElement := do
  let s ← op (Rust.add self.val rhs.val)
  let r ← small_reduce s
  op (.ok ⟨r⟩)

/-- ml-kem/src/algebra.rs:81-84 -/
def sub (self rhs : FieldElement) : Leak FieldElement := do
  let s ← op (Rust.sub (← op (Rust.add self.val FieldElement.Q)) rhs.val)
  let r ← small_reduce s
  op (.ok ⟨r⟩)

/-- ml-kem/src/algebra.rs:90-94 -/
def mul (self rhs : FieldElement) : Leak FieldElement := do
  let x : UInt32 := cast self.val
  let y : UInt32 := cast rhs.val
  let r ← barrett_reduce (← op (Rust.mul x y))
  op (.ok ⟨r⟩)

/-- ml-kem/src/algebra.rs:55-67 `base_case_multiply` -/
def base_case_multiply (a0 a1 b0 b1 : FieldElement) (i : Nat) : Leak (FieldElement × FieldElement) := do
  let a0 : UInt32 := cast a0.val
  let a1 : UInt32 := cast a1.val
  let b0 : UInt32 := cast b0.val
  let b1 : UInt32 := cast b1.val
  let g : UInt32 := cast (← Leak.idx GAMMA i).val
  let b1g : UInt32 := cast (← barrett_reduce (← op (Rust.mul b1 g)))
  let c0 ← barrett_reduce (← op (Rust.add (← op (Rust.mul a0 b0)) (← op (Rust.mul a1 b1g))))
  let c1 ← barrett_reduce (← op (Rust.add (← op (Rust.mul a0 b1)) (← op (Rust.mul a1 b0))))
  op (.ok (⟨c0⟩, ⟨c1⟩))

/-- ml-kem/src/algebra.rs:104-112 -/
def polyAdd (self rhs : Polynomial) : Leak Polynomial := do
  let v ← Leak.zipVec add self.coeffs rhs.coeffs
  op (.ok ⟨v⟩)

/-- ml-kem/src/algebra.rs:118-126 -/
def polySub (self rhs : Polynomial) : Leak Polynomial := do
  let v ← Leak.zipVec sub self.coeffs rhs.coeffs
  op (.ok ⟨v⟩)

/-- ml-kem/src/algebra.rs:132-134 -/
def smul (self : FieldElement) (rhs : Polynomial) : Leak Polynomial := do
  let v ← Leak.mapVec (fun x => mul self x) rhs.coeffs
  op (.ok ⟨v⟩)

/-- ml-kem/src/algebra.rs:383-387 -/
def nttInner (zeta : FieldElement) (len : Nat) (f : Vector FieldElement 256) (j : Nat) :
    Leak (Vector FieldElement 256) := do
  let t ← mul zeta (← Leak.idx f (← op (addUsize j len)))
  let f ← Leak.setIdx f (← op (addUsize j len)) (← sub (← Leak.idx f j) t)
  Leak.setIdx f j (← add (← Leak.idx f j) t)

/-- ml-kem/src/algebra.rs:379-388. The counter `k` is part of the state, as in the code. -/
def nttBlock (len : Nat) (st : Vector FieldElement 256 × Nat) (start : Nat) :
    Leak (Vector FieldElement 256 × Nat) := do
  let (f, k) := st
  let zeta ← Leak.idx ZETA_POW_BITREV k
  let k ← op (addUsize k 1)
  let f ← Leak.forEach (range start (← op (addUsize start len))) f (nttInner zeta len)
  op (.ok (f, k))

/-- ml-kem/src/algebra.rs:378-389 -/
def nttLayer (st : Vector FieldElement 256 × Nat) (len : Nat) : Leak (Vector FieldElement 256 × Nat) := do
  Leak.forEach (rangeStep 0 256 (← op (mulUsize 2 len))) st (nttBlock len)

/-- ml-kem/src/algebra.rs:374-392 `ntt` -/
def ntt (self : Polynomial) : Leak NttPolynomial := do
  let (f, _k) ← Leak.forEach [128, 64, 32, 16, 8, 4, 2] (self.coeffs, 1) nttLayer
  op (.ok ⟨f⟩)

/-- ml-kem/src/algebra.rs:199-207 -/
def nttAdd (self rhs : NttPolynomial) : Leak NttPolynomial := do
  let v ← Leak.zipVec add self.coeffs rhs.coeffs
  op (.ok ⟨v⟩)

/-- ml-kem/src/algebra.rs:343-354 -/
def mulStep (self rhs : NttPolynomial) (out : Vector FieldElement 256) (i : Nat) :
    Leak (Vector FieldElement 256) := do
  let a0 ← Leak.idx self.coeffs (← op (mulUsize 2 i))
  let a1 ← Leak.idx self.coeffs (← op (addUsize (← op (mulUsize 2 i)) 1))
  let b0 ← Leak.idx rhs.coeffs (← op (mulUsize 2 i))
  let b1 ← Leak.idx rhs.coeffs (← op (addUsize (← op (mulUsize 2 i)) 1))
  let (c0, c1) ← base_case_multiply a0 a1 b0 b1 i
  let out ← Leak.setIdx out (← op (mulUsize 2 i)) c0
  Leak.setIdx out (← op (addUsize (← op (mulUsize 2 i)) 1)) c1

/-- ml-kem/src/algebra.rs:340-357 -/
def nttMul (self rhs : NttPolynomial) : Leak NttPolynomial := do
  let out ← Leak.forEach (range 0 128) NttPolynomial.default.coeffs (mulStep self rhs)
  op (.ok ⟨out⟩)

/-- ml-kem/src/algebra.rs:406-410 -/
def invInner (zeta : FieldElement) (len : Nat) (f : Vector FieldElement 256) (j : Nat) :
    Leak (Vector FieldElement 256) := do
  let t ← Leak.idx f j
  let f ← Leak.setIdx f j (← add t (← Leak.idx f (← op (addUsize j len))))
  Leak.setIdx f (← op (addUsize j len)) (← mul zeta (← sub (← Leak.idx f (← op (addUsize j len))) t))

/-- ml-kem/src/algebra.rs:402-411 -/
def invBlock (len : Nat) (st : Vector FieldElement 256 × Nat) (start : Nat) :
    Leak (Vector FieldElement 256 × Nat) := do
  let (f, k) := st
  let zeta ← Leak.idx ZETA_POW_BITREV k
  let k ← op (decUsize k)
  let f ← Leak.forEach (range start (← op (addUsize start len))) f (invInner zeta len)
  op (.ok (f, k))

/-- ml-kem/src/algebra.rs:401-412 -/
def invLayer (st : Vector FieldElement 256 × Nat) (len : Nat) : Leak (Vector FieldElement 256 × Nat) := do
  Leak.forEach (rangeStep 0 256 (← op (mulUsize 2 len))) st (invBlock len)

/-- ml-kem/src/algebra.rs:397-415 `ntt_inverse` -/
def ntt_inverse (self : NttPolynomial) : Leak Polynomial := do
  let (f, _k) ← Leak.forEach [2, 4, 8, 16, 32, 64, 128] (self.coeffs, 127) invLayer
  smul ⟨3303⟩ ⟨f⟩

/-! ### encode.rs, compress.rs -/

/-- ml-kem/src/encode.rs:27-29 -/
def packChunk (D : Nat) (v : List FieldElement) : Leak U128 :=
  Leak.forEach v.zipIdx (0 : U128) fun x (vj, j) => do
    let y ← op (Rust.shl (cast vj.val : U128) (← op (mulUsize D j)))
    op (.ok (Rust.or x y))

/-- ml-kem/src/encode.rs:26-32 -/
def encodeChunk (D : Nat) (v : List FieldElement) (b : List UInt8) : Leak (List UInt8) := do
  let byte_step := ByteStep D
  let x ← packChunk D v
  let xb := (U128.toLeBytes x).toList
  let src ← op (if byte_step ≤ xb.length then Res.ok (xb.take byte_step) else .panic)
  op (copyFromSlice b src)

/-- ml-kem/src/encode.rs:17-36 `byte_encode` -/
def byte_encode (D : Nat) (vals : DecodedValue) : Leak (EncodedPolynomial D) := do
  let val_step := ValueStep D
  let byte_step := ByteStep D
  let bytes : EncodedPolynomial D := Vector.replicate _ 0
  let vc := chunks val_step vals.toList
  let bc := chunks byte_step bytes.toList
  let out ← Leak.mapList (fun (v, b) => encodeChunk D v b) (vc.zip bc)
  op (arrayOfList _ out.flatten)

/-- ml-kem/src/encode.rs:55-62. The remainder is a division. -/
def unpackValue (D : Nat) (x : U128) (j : Nat) : Leak FieldElement := do
  let mask ← op (Rust.sub (← op (Rust.shl (1 : UInt16) D)) 1)
  let val ← op (truncate UInt16 (← op (Rust.shr x (← op (mulUsize D j)))))
  let val := Rust.and val mask
  if D = 12 then do
    emit (.divide val.toNat FieldElement.Q.toNat)
    let r ← op (Rust.rem val FieldElement.Q)
    op (.ok ⟨r⟩)
  else
    op (.ok ⟨val⟩)

/-- ml-kem/src/encode.rs:51-62 -/
def decodeChunk (D : Nat) (v : List FieldElement) (b : List UInt8) : Leak (List FieldElement) := do
  let byte_step := ByteStep D
  let head ← op (if byte_step ≤ 16 then copyFromSlice (List.replicate byte_step 0) b else .panic)
  let xb : Bytes 16 ← op (arrayOfList 16 (head ++ List.replicate (16 - byte_step) 0))
  let x := U128.fromLeBytes xb
  Leak.mapList (fun (_, j) => unpackValue D x j) v.zipIdx

/-- ml-kem/src/encode.rs:41-66 `byte_decode` -/
def byte_decode (D : Nat) (bytes : EncodedPolynomial D) : Leak DecodedValue := do
  let val_step := ValueStep D
  let byte_step := ByteStep D
  let vals : DecodedValue := Vector.replicate _ ⟨0⟩
  let vc := chunks val_step vals.toList
  let bc := chunks byte_step bytes.toList
  let out ← Leak.mapList (fun (v, b) => decodeChunk D v b) (vc.zip bc)
  op (arrayOfList _ out.flatten)

/-- ml-kem/src/encode.rs:77-79 -/
def encode (D : Nat) (self : Polynomial) : Leak (EncodedPolynomial D) := byte_encode D self.coeffs
/-- ml-kem/src/encode.rs:81-83 -/
def decode (D : Nat) (enc : EncodedPolynomial D) : Leak Polynomial := do
  let v ← byte_decode D enc
  op (.ok ⟨v⟩)
/-- ml-kem/src/encode.rs:112-114 -/
def nttEncode (D : Nat) (self : NttPolynomial) : Leak (EncodedPolynomial D) := byte_encode D self.coeffs
/-- ml-kem/src/encode.rs:116-118 -/
def nttDecode (D : Nat) (enc : EncodedPolynomial D) : Leak NttPolynomial := do
  let v ← byte_decode D enc
  op (.ok ⟨v⟩)

/-- ml-kem/src/util.rs:92-113 `unflatten` of an array of `K` parts: its addresses are fixed by the lengths. -/
def unflatten {D K : Nat} (enc : EncodedPolynomialVector D K) : Leak (Vector (EncodedPolynomial D) K) := do
  emit (.loop K)
  op (VectorEncodingSize.unflatten enc)

/-- ml-kem/src/encode.rs:93-96 -/
def vecEncode (D : Nat) {K : Nat} (self : PolynomialVector K) : Leak (EncodedPolynomialVector D K) := do
  let polys ← Leak.mapVec (encode D) self.polys
  op (.ok (VectorEncodingSize.flatten polys))
/-- ml-kem/src/encode.rs:98-106 -/
def vecDecode (D : Nat) {K : Nat} (enc : EncodedPolynomialVector D K) : Leak (PolynomialVector K) := do
  let parts ← unflatten enc
  let v ← Leak.mapVec (decode D) parts
  op (.ok ⟨v⟩)
/-- ml-kem/src/encode.rs:128-131 -/
def nttVecEncode (D : Nat) {K : Nat} (self : NttVector K) : Leak (EncodedPolynomialVector D K) := do
  let polys ← Leak.mapVec (nttEncode D) self.polys
  op (.ok (VectorEncodingSize.flatten polys))
/-- ml-kem/src/encode.rs:133-141 -/
def nttVecDecode (D : Nat) {K : Nat} (enc : EncodedPolynomialVector D K) : Leak (NttVector K) := do
  let parts ← unflatten enc
  let v ← Leak.mapVec (nttDecode D) parts
  op (.ok ⟨v⟩)

/-- ml-kem/src/compress.rs:37-43 -/
def compress (D : Nat) (self : FieldElement) : Leak FieldElement := op (self.compress D)
/-- ml-kem/src/compress.rs:46-51 -/
def decompress (D : Nat) (self : FieldElement) : Leak FieldElement := op (self.decompress D)
/-- ml-kem/src/compress.rs:54-60 -/
def polyCompress (D : Nat) (self : Polynomial) : Leak Polynomial := do
  let v ← Leak.mapVec (compress D) self.coeffs
  op (.ok ⟨v⟩)
/-- ml-kem/src/compress.rs:62-68 -/
def polyDecompress (D : Nat) (self : Polynomial) : Leak Polynomial := do
  let v ← Leak.mapVec (decompress D) self.coeffs
  op (.ok ⟨v⟩)
/-- ml-kem/src/compress.rs:72-78 -/
def vecCompress (D : Nat) {K : Nat} (self : PolynomialVector K) : Leak (PolynomialVector K) := do
  let v ← Leak.mapVec (polyCompress D) self.polys
  op (.ok ⟨v⟩)
/-- ml-kem/src/compress.rs:80-86 -/
def vecDecompress (D : Nat) {K : Nat} (self : PolynomialVector K) : Leak (PolynomialVector K) := do
  let v ← Leak.mapVec (polyDecompress D) self.polys
  op (.ok ⟨v⟩)

/-! ### crypto.rs, sampling, vectors -/

variable (H : Sha3)

/-- ml-kem/src/crypto.rs:19-32 `G` -/
def G (inputs : List (List UInt8)) : Leak (B32 × B32) := do
  emit (.hash inputs.flatten.length 64)
  op (.ok (MlKem.G H inputs))

/-- ml-kem/src/crypto.rs:34-44 `H` -/
def Hash (x : List UInt8) : Leak B32 := do
  emit (.hash x.length 32)
  op (.ok (MlKem.Hash H x))

/-- ml-kem/src/crypto.rs:46-56 `J` -/
def J (inputs : List (List UInt8)) : Leak B32 := do
  emit (.hash inputs.flatten.length 32)
  op (.ok (MlKem.J H inputs))

/-- ml-kem/src/crypto.rs:60-72 `PRF` -/
def PRF (Eta : CbdSize) (s : B32) (b : UInt8) : Leak (EncodedPolynomial Eta.SampleSize) := do
  emit (.hash (s.toList ++ [b]).length (EncodedPolynomialSize Eta.SampleSize))
  op (.ok (MlKem.PRF H Eta s b))

omit H in
/-- ml-kem/src/algebra.rs:143-149. The subscript of `ONES` is a secret. -/
def sample_cbd (Eta : CbdSize) (B : EncodedPolynomial Eta.SampleSize) : Leak Polynomial := do
  let vals ← decode Eta.SampleSize B
  let v ← Leak.mapVec (fun val => do
    emit (.table Eta.OnesSize val.val.toNat)
    op (Rust.idx Eta.ONES val.val.toNat)) vals.coeffs
  op (.ok ⟨v⟩)

/-- ml-kem/src/algebra.rs:171-180 -/
def vecSampleCbd (K : Nat) (Eta : CbdSize) (sigma : B32) (start_n : UInt8) : Leak (PolynomialVector K) := do
  let v ← Leak.tabulate K fun i => do
    let N ← op (Rust.add start_n (← op (truncateUsize i.val)))
    let prf_output ← PRF H Eta sigma N
    sample_cbd Eta prf_output
  op (.ok ⟨v⟩)

/-- ml-kem/src/algebra.rs:496-500 with 423-429, 268-271, 211-263: the expansion of the public seed, whose only
secret-free input is `rho`; it may show all of it. -/
def sample_matrix (K : Nat) (rho : B32) (transpose : Bool) : Leak (NttMatrix K) := do
  emit (.expand rho.toList)
  op (NttMatrix.sample_uniform H K rho transpose)

omit H in
/-- ml-kem/src/algebra.rs:159-167 -/
def vecAdd {K : Nat} (self rhs : PolynomialVector K) : Leak (PolynomialVector K) := do
  let v ← Leak.zipVec polyAdd self.polys rhs.polys
  op (.ok ⟨v⟩)

omit H in
/-- ml-kem/src/algebra.rs:447-455 -/
def nttVecAdd {K : Nat} (self rhs : NttVector K) : Leak (NttVector K) := do
  let v ← Leak.zipVec nttAdd self.polys rhs.polys
  op (.ok ⟨v⟩)

omit H in
/-- ml-kem/src/algebra.rs:461-467 -/
def dot {K : Nat} (self rhs : NttVector K) : Leak NttPolynomial :=
  Leak.forEach (self.polys.toList.zip rhs.polys.toList) NttPolynomial.default fun acc (x, y) => do
    nttAdd acc (← nttMul x y)

omit H in
/-- ml-kem/src/algebra.rs:477-479 -/
def vecNttInverse {K : Nat} (self : NttVector K) : Leak (PolynomialVector K) := do
  let v ← Leak.mapVec ntt_inverse self.polys
  op (.ok ⟨v⟩)

omit H in
/-- ml-kem/src/algebra.rs:471-473 -/
def vecNtt {K : Nat} (self : PolynomialVector K) : Leak (NttVector K) := do
  let v ← Leak.mapVec ntt self.polys
  op (.ok ⟨v⟩)

omit H in
/-- ml-kem/src/algebra.rs:490-492 -/
def mulVec {K : Nat} (self : NttMatrix K) (rhs : NttVector K) : Leak (NttVector K) := do
  let v ← Leak.mapVec (fun x => dot x rhs) self.rows
  op (.ok ⟨v⟩)

/-! ### pke.rs, kem.rs -/

variable {P : ParameterSet}

/-- ml-kem/src/pke.rs:39-60 `DecryptionKey::generate` -/
def generate (P : ParameterSet) (d : B32) : Leak (DecryptionKey P × EncryptionKey P) := do
  let k : UInt8 := UInt8.ofNat P.K
  let (rho, sigma) ← G H [d.toList, [k]]
  let A_hat ← sample_matrix H P.K rho false
  let s ← vecSampleCbd H P.K P.Eta1 sigma 0
  let e ← vecSampleCbd H P.K P.Eta1 sigma (UInt8.ofNat P.K)
  let s_hat ← vecNtt s
  let e_hat ← vecNtt e
  let t_hat ← nttVecAdd (← mulVec A_hat s_hat) e_hat
  op (.ok ({ s_hat }, { t_hat, rho }))

omit H in
/-- ml-kem/src/pke.rs:64-77 `DecryptionKey::decrypt` -/
def decrypt (self : DecryptionKey P) (ciphertext : P.EncodedCiphertext) : Leak B32 := do
  let (c1, c2) := P.split_ct ciphertext
  let u ← vecDecode P.Du c1
  let u ← vecDecompress P.Du u
  let v ← decode P.Dv c2
  let v ← polyDecompress P.Dv v
  let u_hat ← vecNtt u
  let sTu ← ntt_inverse (← dot self.s_hat u_hat)
  let w ← polySub v sTu
  encode 1 (← polyCompress 1 w)

/-- ml-kem/src/pke.rs:108-129 `EncryptionKey::encrypt` -/
def encrypt (self : EncryptionKey P) (message randomness : B32) : Leak P.EncodedCiphertext := do
  let r ← vecSampleCbd H P.K P.Eta1 randomness 0
  let e1 ← vecSampleCbd H P.K P.Eta2 randomness (UInt8.ofNat P.K)
  let prf_output ← PRF H P.Eta2 randomness (← op (Rust.mul (2 : UInt8) (UInt8.ofNat P.K)))
  let e2 ← sample_cbd P.Eta2 prf_output
  let A_hat_t ← sample_matrix H P.K self.rho true
  let r_hat ← vecNtt r
  let ATr ← vecNttInverse (← mulVec A_hat_t r_hat)
  let u ← vecAdd ATr e1
  let mu ← decode 1 message
  let mu ← polyDecompress 1 mu
  let tTr ← ntt_inverse (← dot self.t_hat r_hat)
  let v ← polyAdd (← polyAdd tTr e2) mu
  let c1 ← vecEncode P.Du (← vecCompress P.Du u)
  let c2 ← encode P.Dv (← polyCompress P.Dv v)
  op (.ok (P.concat_ct c1 c2))

omit H in
/-- ml-kem/src/pke.rs:85-88 with param.rs:214-216 -/
def decryptionKeyFromBytes (enc : P.EncodedDecryptionKey) : Leak (DecryptionKey P) := do
  let s_hat ← nttVecDecode (K := P.K) 12 enc
  op (.ok { s_hat })

omit H in
/-- ml-kem/src/pke.rs:138-145 with param.rs:214-216 -/
def encryptionKeyFromBytes (enc : P.EncodedEncryptionKey) : Leak (EncryptionKey P) := do
  let (t_hat, rho) := P.split_ek enc
  let t_hat ← nttVecDecode (K := P.K) 12 t_hat
  op (.ok { t_hat, rho })

omit H in
/-- ml-kem/src/pke.rs:132-135 with param.rs:210-212 -/
def encryptionKeyAsBytes (self : EncryptionKey P) : Leak P.EncodedEncryptionKey := do
  let t_hat ← nttVecEncode 12 self.t_hat
  op (.ok (P.concat_ek t_hat self.rho))

omit H in
/-- ml-kem/src/pke.rs:80-82 with param.rs:210-212 -/
def decryptionKeyAsBytes (self : DecryptionKey P) : Leak P.EncodedDecryptionKey :=
  nttVecEncode 12 self.s_hat

/-- ml-kem/src/kem.rs:160-163 `EncapsulationKey::new` -/
def newKey (ek_pke : EncryptionKey P) : Leak (EncapsulationKey P) := do
  let h ← Hash H (← encryptionKeyAsBytes ek_pke).toList
  op (.ok { ek_pke, h })

/-- ml-kem/src/kem.rs:165-169, 209-214 `encapsulate_deterministic` -/
def encapsulate_deterministic (self : EncapsulationKey P) (m : B32) : Leak (P.EncodedCiphertext × SharedKey) := do
  let (K, r) ← G H [m.toList, self.h.toList]
  let c ← encrypt H self.ek_pke m r
  op (.ok (c, K))

/-- ml-kem/src/kem.rs:193-199 `encapsulate`; drawing from the generator is a public event -/
def encapsulate (self : EncapsulationKey P) (rng : Rng) (s : rng.State) :
    Leak ((P.EncodedCiphertext × SharedKey) × rng.State) := do
  let (m, s) ← op (rand rng 32 s)
  let r ← encapsulate_deterministic H self m
  op (.ok (r, s))

omit H in
/-- ml-kem/src/kem.rs:107-111: the mask `equal`. `constant_time_eq` (kem.rs:79-83) is arithmetic. -/
def ctEqualMask {n : Nat} (cp c : Bytes n) : Leak UInt8 := do
  let eqs ← Leak.zipVec (fun x y => op (constant_time_eq x y)) cp c
  op (.ok (eqs.toList.foldl (fun x y => Rust.and x y) 0xff))

omit H in
/-- ml-kem/src/kem.rs:112-116: the masked selection -/
def ctSelect (equal : UInt8) (Kp Kbar : B32) : Leak B32 := do
  emit (.loop 32)
  op (.ok (MlKem.ctSelect equal Kp Kbar))

/-- ml-kem/src/kem.rs:91-117 `decapsulate` -/
def decapsulate (self : DecapsulationKey P) (encapsulated_key : P.EncodedCiphertext) : Leak SharedKey := do
  let mp ← decrypt self.dk_pke encapsulated_key
  let (Kp, rp) ← G H [mp.toList, self.ek.h.toList]
  let Kbar ← J H [self.z.toList, encapsulated_key.toList]
  let cp ← encrypt H self.ek.ek_pke mp rp
  let equal ← ctEqualMask cp encapsulated_key
  ctSelect equal Kp Kbar

omit H in
/-- ml-kem/src/kem.rs:54-69 `from_bytes` -/
def decapsulationKeyFromBytes (enc : P.EncodedDecapsulationKey) : Leak (DecapsulationKey P) := do
  let (dk_pke, ek_pke, h, z) := P.split_dk enc
  let ek_pke ← encryptionKeyFromBytes ek_pke
  let dk_pke ← decryptionKeyFromBytes dk_pke
  op (.ok { dk_pke, ek := { ek_pke, h }, z })

omit H in
/-- ml-kem/src/kem.rs:71-75 `as_bytes` -/
def decapsulationKeyAsBytes (self : DecapsulationKey P) : Leak P.EncodedDecapsulationKey := do
  let dk_pke ← decryptionKeyAsBytes self.dk_pke
  let ek ← encryptionKeyAsBytes self.ek.ek_pke
  op (.ok (P.concat_dk dk_pke ek self.ek.h self.z))

/-- ml-kem/src/kem.rs:243-250, 137-142 `generate_deterministic` -/
def generate_deterministic (P : ParameterSet) (d z : B32) : Leak (DecapsulationKey P × EncapsulationKey P) := do
  let (dk_pke, ek_pke) ← generate H P d
  let ek ← newKey H ek_pke
  let dk : DecapsulationKey P := { dk_pke, ek, z }
  op (.ok (dk, dk.encapsulation_key))

end MlKem.Leaky

namespace XWing.Leaky
open Rust MlKem
open Rust.Leak (op emit)

variable [Build] (H : Sha3) (X : X25519)

/-- x-wing/src/lib.rs:260-275 `combiner` -/
def combiner (ss_m : B32) (ss_x ct_x pk_x : Bytes 32) : Leak SharedSecret := do
  emit (.hash (6 + 32 + 32 + 32 + 32) 32)
  op (.ok (XWing.combiner H ss_m ss_x ct_x pk_x))

/-- x-wing/src/lib.rs:80-101 `encapsulate` -/
def encapsulate (self : EncapsulationKey) (rng : Rng) (s : rng.State) :
    Leak ((Ciphertext × SharedSecret) × rng.State) := do
  let ((ct_m, ss_m), s) ← MlKem.Leaky.encapsulate H self.pk_m rng s
  let (ek_x, s) ← op (generate rng 32 s)
  emit .curve
  let ct_x := X.x25519 ek_x X25519_BASEPOINT_BYTES
  emit .curve
  let ss_x := X.x25519 ek_x self.pk_x
  let ss ← combiner H ss_m ss_x ct_x self.pk_x
  op (.ok ((({ ct_m, ct_x } : Ciphertext), ss), s))

/-- x-wing/src/lib.rs:176-198 `expand_key` -/
def expand_key (self : DecapsulationKey) :
    Leak (MlKem.DecapsulationKey MlKem768Params × Bytes 32 ×
      MlKem.EncapsulationKey MlKem768Params × Bytes 32) := do
  let shaker := hashUpdate [] self.sk.toList
  emit (.hash shaker.length 96)
  let expanded : XofReader := { stream := H.shake128 shaker, pos := 0 }
  let (d, expanded) := read_from 32 expanded
  let (z, expanded) := read_from 32 expanded
  let (sk_m, pk_m) ← MlKem.Leaky.generate_deterministic H MlKem768Params d z
  let (sk_x, _expanded) := read_from 32 expanded
  emit .curve
  let pk_x := X.publicKey sk_x
  op (.ok (sk_m, sk_x, pk_m, pk_x))

/-- x-wing/src/lib.rs:140-153 `decapsulate` -/
def decapsulate (self : DecapsulationKey) (ct : Ciphertext) : Leak SharedSecret := do
  let (sk_m, sk_x, _pk_m, pk_x) ← expand_key H X self
  let ss_m ← MlKem.Leaky.decapsulate H sk_m ct.ct_m
  emit .curve
  let ss_x := X.x25519 sk_x ct.ct_x
  combiner H ss_m ss_x ct.ct_x pk_x

end XWing.Leaky
