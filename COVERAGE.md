# Coverage

Generated by `tools/coverage.py`. For every function of /repo outside its test modules, the definitions of the
model whose comments cite lines of its body, the narrowest first. What is left out, and why, is at the end.

## dhkem/src/ecdh_kem.rs

| function | model |
|---|---|
| `encapsulate` (24-34) of `impl<C> Encapsulate<PublicKey<C>, SharedSecret<C>> for DhEncapsulator<PublicKey<C>>` | `Dhkem.EcdhKem.encapsulate`, `Dhkem.Locals.encapsulate`, `Threads.dhKem` |
| `decapsulate` (43-47) of `impl<C> Decapsulate<PublicKey<C>, SharedSecret<C>> for DhDecapsulator<EphemeralSecret<C>>` | `Dhkem.EcdhKem.decapsulate`, `Dhkem.Locals.decapsulate`, `Threads.dhKem` |
| `random_keypair` (59-66) of `impl<C> DhKem for EcdhKem<C>` | `Dhkem.EcdhKem.random_keypair`, `Dhkem.Locals.random_keypair`, `Threads.dhKem` |

## dhkem/src/lib.rs

| function | model |
|---|---|
| `as_ref` (63-65) of `impl<X> AsRef<X> for DhEncapsulator<X>` | `Dhkem.DhEncapsulator.as_ref` |
| `from` (69-71) of `impl<X> From<X> for DhEncapsulator<X>` | `Dhkem.DhEncapsulator.from_`, `Threads.dhKem` |
| `as_ref` (75-77) of `impl<X> AsRef<X> for DhDecapsulator<X>` | `Dhkem.DhDecapsulator.as_ref` |
| `from` (81-83) of `impl<X> From<X> for DhDecapsulator<X>` | `Dhkem.DhDecapsulator.from_` |
| `into_inner` (88-90) of `impl<X> DhEncapsulator<X>` | `Dhkem.DhEncapsulator.into_inner` |
| `into_inner` (95-97) of `impl<X> DhDecapsulator<X>` | `Dhkem.DhDecapsulator.into_inner` |
| `to_encoded_point` (107-109) of `impl<C> ToEncodedPoint<C> for DhEncapsulator<PublicKey<C>>` | `Dhkem.DhEncapsulator.to_encoded_point` |
| `zeroize` (114-116) of `impl<X: Zeroize> Zeroize for DhEncapsulator<X>` | `Dhkem.DhEncapsulator.zeroize` |
| `zeroize` (121-123) of `impl<X: Zeroize> Zeroize for DhDecapsulator<X>` | `Dhkem.DhDecapsulator.zeroize` |

## dhkem/src/x25519_kem.rs

| function | model |
|---|---|
| `encapsulate` (15-25) of `impl Encapsulate<PublicKey, SharedSecret> for DhEncapsulator<PublicKey>` | `Dhkem.Locals.encapsulate`, `Dhkem.X25519Kem.encapsulate`, `Threads.dhKem` |
| `decapsulate` (31-35) of `impl Decapsulate<PublicKey, SharedSecret> for DhDecapsulator<ReusableSecret>` | `Dhkem.Locals.decapsulate`, `Dhkem.X25519Kem.decapsulate`, `Threads.dhKem` |
| `random_keypair` (44-51) of `impl DhKem for X25519Kem` | `Dhkem.Locals.random_keypair`, `Dhkem.X25519Kem.random_keypair`, `Threads.dhKem` |

## ml-kem/src/algebra.rs

| function | model |
|---|---|
| `zeroize` (22-24) of `impl Zeroize for FieldElement` | `MlKem.FieldElement.zeroize` |
| `small_reduce` (36-42) of `impl FieldElement` | `MlKem.FieldElement.small_reduce`, `MlKem.Leaky.small_reduce` |
| `barrett_reduce` (44-49) of `impl FieldElement` | `MlKem.FieldElement.barrett_reduce`, `MlKem.Leaky.barrett_reduce` |
| `base_case_multiply` (55-67) of `impl FieldElement` | `MlKem.FieldElement.base_case_multiply`, `MlKem.Leaky.base_case_multiply` |
| `add` (73-75) of `impl Add<FieldElement> for FieldElement` | `MlKem.FieldElement.add`, `MlKem.Leaky.add` |
| `sub` (81-84) of `impl Sub<FieldElement> for FieldElement` | `MlKem.FieldElement.sub`, `MlKem.Leaky.sub` |
| `mul` (90-94) of `impl Mul<FieldElement> for FieldElement` | `MlKem.FieldElement.mul`, `MlKem.Leaky.mul` |
| `add` (104-112) of `impl Add<&Polynomial> for &Polynomial` | `MlKem.Leaky.polyAdd`, `MlKem.Polynomial.add` |
| `sub` (118-126) of `impl Sub<&Polynomial> for &Polynomial` | `MlKem.Leaky.polySub`, `MlKem.Polynomial.sub` |
| `mul` (132-134) of `impl Mul<&Polynomial> for FieldElement` | `MlKem.Leaky.smul`, `MlKem.Polynomial.smul` |
| `sample_cbd` (143-149) of `impl Polynomial` | `MlKem.Leaky.sample_cbd`, `MlKem.Polynomial.sample_cbd` |
| `add` (159-167) of `impl<K: ArraySize> Add<PolynomialVector<K>> for PolynomialVector<K>` | `MlKem.Leaky.vecAdd`, `MlKem.PolynomialVector.add` |
| `sample_cbd` (171-180) of `impl<K: ArraySize> PolynomialVector<K>` | `MlKem.Leaky.vecSampleCbd`, `MlKem.PolynomialVector.sample_cbd` |
| `zeroize` (189-193) of `impl Zeroize for NttPolynomial` | `MlKem.NttPolynomial.zeroize` |
| `add` (199-207) of `impl Add<&NttPolynomial> for &NttPolynomial` | `MlKem.Leaky.nttAdd`, `MlKem.NttPolynomial.add` |
| `new` (219-231) of `impl<'a> FieldElementReader<'a>` | `MlKem.FieldElementReader.new` |
| `next` (233-263) of `impl<'a> FieldElementReader<'a>` | `MlKem.FieldElementReader.nextLoop`, `MlKem.FieldElementReader.getNext` |
| `sample_uniform` (268-271) of `impl NttPolynomial` | `MlKem.NttPolynomial.sample_uniform` |
| `bitrev7` (290-298) of `impl NttPolynomial` | `MlKem.bitrev7`, `MlKem.ZETA_POW_BITREV` |
| `mul` (340-357) of `impl Mul<&NttPolynomial> for &NttPolynomial` | `MlKem.Leaky.mulStep`, `MlKem.NttPolynomial.mulStep`, `MlKem.Leaky.nttMul`, `MlKem.NttPolynomial.mul` |
| `ntt` (374-392) of `impl Polynomial` | `MlKem.Leaky.nttInner`, `MlKem.Polynomial.nttInner`, `MlKem.Leaky.nttBlock`, `MlKem.Polynomial.nttBlock` |
| `ntt_inverse` (397-415) of `impl NttPolynomial` | `MlKem.Leaky.invInner`, `MlKem.NttPolynomial.invInner`, `MlKem.Leaky.invBlock`, `MlKem.NttPolynomial.invBlock` |
| `sample_uniform` (423-429) of `impl<K: ArraySize> NttVector<K>` | `MlKem.NttVector.sample_uniform` |
| `zeroize` (437-441) of `impl<K> Zeroize for NttVector<K>` | `MlKem.NttVector.zeroize` |
| `add` (447-455) of `impl<K: ArraySize> Add<&NttVector<K>> for &NttVector<K>` | `MlKem.Leaky.nttVecAdd`, `MlKem.NttVector.add` |
| `mul` (461-467) of `impl<K: ArraySize> Mul<&NttVector<K>> for &NttVector<K>` | `MlKem.Leaky.dot`, `MlKem.NttVector.mul` |
| `ntt` (471-473) of `impl<K: ArraySize> PolynomialVector<K>` | `MlKem.Leaky.vecNtt`, `MlKem.PolynomialVector.ntt` |
| `ntt_inverse` (477-479) of `impl<K: ArraySize> NttVector<K>` | `MlKem.Leaky.vecNttInverse`, `MlKem.NttVector.ntt_inverse` |
| `mul` (490-492) of `impl<K: ArraySize> Mul<&NttVector<K>> for &NttMatrix<K>` | `MlKem.Leaky.mulVec`, `MlKem.NttMatrix.mulVec` |
| `sample_uniform` (496-500) of `impl<K: ArraySize> NttMatrix<K>` | `MlKem.Leaky.sample_matrix`, `MlKem.NttMatrix.sample_uniform` |
| `transpose` (502-506) of `impl<K: ArraySize> NttMatrix<K>` | `MlKem.NttMatrix.transpose` |

## ml-kem/src/compress.rs

| function | model |
|---|---|
| `compress` (37-43) of `impl Compress for FieldElement` | `MlKem.Q_HALF`, `MlKem.FieldElement.compress`, `MlKem.Leaky.compress` |
| `decompress` (46-51) of `impl Compress for FieldElement` | `MlKem.FieldElement.decompress`, `MlKem.Leaky.decompress` |
| `compress` (54-60) of `impl Compress for Polynomial` | `MlKem.Leaky.polyCompress`, `MlKem.Polynomial.compress` |
| `decompress` (62-68) of `impl Compress for Polynomial` | `MlKem.Leaky.polyDecompress`, `MlKem.Polynomial.decompress` |
| `compress` (72-78) of `impl<K: ArraySize> Compress for PolynomialVector<K>` | `MlKem.Leaky.vecCompress`, `MlKem.PolynomialVector.compress` |
| `decompress` (80-86) of `impl<K: ArraySize> Compress for PolynomialVector<K>` | `MlKem.Leaky.vecDecompress`, `MlKem.PolynomialVector.decompress` |

## ml-kem/src/crypto.rs

| function | model |
|---|---|
| `rand` (13-17) | `MlKem.rand` |
| `G` (19-32) | `MlKem.G`, `MlKem.Leaky.G` |
| `H` (34-44) | `MlKem.Hash`, `MlKem.Leaky.Hash` |
| `J` (46-56) | `MlKem.J`, `MlKem.Leaky.J` |
| `PRF` (60-72) | `MlKem.Leaky.PRF`, `MlKem.PRF` |
| `XOF` (74-79) | `MlKem.XOF` |

## ml-kem/src/encode.rs

| function | model |
|---|---|
| `byte_encode` (17-36) | `MlKem.Leaky.packChunk`, `MlKem.packChunk`, `MlKem.Leaky.encodeChunk`, `MlKem.encodeChunk` |
| `byte_decode` (41-66) | `MlKem.Leaky.unpackValue`, `MlKem.unpackValue`, `MlKem.Leaky.decodeChunk`, `MlKem.decodeChunk` |
| `encode` (77-79) of `impl<D: EncodingSize> Encode<D> for Polynomial` | `MlKem.Leaky.encode`, `MlKem.Polynomial.encode` |
| `decode` (81-83) of `impl<D: EncodingSize> Encode<D> for Polynomial` | `MlKem.Leaky.decode`, `MlKem.Polynomial.decode` |
| `encode` (93-96) of `impl<D, K> Encode<D> for PolynomialVector<K>` | `MlKem.Leaky.vecEncode`, `MlKem.PolynomialVector.encode` |
| `decode` (98-106) of `impl<D, K> Encode<D> for PolynomialVector<K>` | `MlKem.Leaky.vecDecode`, `MlKem.PolynomialVector.decode` |
| `encode` (112-114) of `impl<D: EncodingSize> Encode<D> for NttPolynomial` | `MlKem.Leaky.nttEncode`, `MlKem.NttPolynomial.encode` |
| `decode` (116-118) of `impl<D: EncodingSize> Encode<D> for NttPolynomial` | `MlKem.Leaky.nttDecode`, `MlKem.NttPolynomial.decode` |
| `encode` (128-131) of `impl<D, K> Encode<D> for NttVector<K>` | `MlKem.Leaky.nttVecEncode`, `MlKem.NttVector.encode` |
| `decode` (133-141) of `impl<D, K> Encode<D> for NttVector<K>` | `MlKem.Leaky.nttVecDecode`, `MlKem.NttVector.decode` |

## ml-kem/src/kem.rs

| function | model |
|---|---|
| `drop` (38-41) of `impl<P> Drop for DecapsulationKey<P>` | `MlKem.DecapsulationKey.drop` |
| `from_bytes` (54-69) of `impl<P> EncodedSizeUser for DecapsulationKey<P>` | `MlKem.DecapsulationKey.from_bytes`, `MlKem.Leaky.decapsulationKeyFromBytes` |
| `as_bytes` (71-75) of `impl<P> EncodedSizeUser for DecapsulationKey<P>` | `MlKem.DecapsulationKey.as_bytes`, `MlKem.Leaky.decapsulationKeyAsBytes` |
| `constant_time_eq` (79-83) | `MlKem.constant_time_eq` |
| `decapsulate` (91-117) of `impl<P> ::kem::Decapsulate<EncodedCiphertext<P>, SharedKey> for DecapsulationKey<P>` | `MlKem.Leaky.ctEqualMask`, `MlKem.Leaky.ctSelect`, `MlKem.ctEqualMask`, `MlKem.ctSelect` |
| `encapsulation_key` (125-127) of `impl<P> DecapsulationKey<P>` | `MlKem.DecapsulationKey.encapsulation_key` |
| `generate` (129-133) of `impl<P> DecapsulationKey<P>` | `MlKem.DecapsulationKey.generate`, `MlKem.Locals.generate` |
| `generate_deterministic` (137-142) of `impl<P> DecapsulationKey<P>` | `MlKem.DecapsulationKey.generate_deterministic`, `MlKem.Leaky.generate_deterministic`, `MlKem.Locals.generate_deterministic` |
| `new` (160-163) of `impl<P> EncapsulationKey<P>` | `MlKem.EncapsulationKey.new`, `MlKem.Leaky.newKey` |
| `encapsulate_deterministic_inner` (165-169) of `impl<P> EncapsulationKey<P>` | `MlKem.EncapsulationKey.encapsulate_deterministic_inner`, `MlKem.Leaky.encapsulate_deterministic`, `MlKem.Locals.encapsulate_deterministic_inner` |
| `from_bytes` (178-180) of `impl<P> EncodedSizeUser for EncapsulationKey<P>` | `MlKem.EncapsulationKey.from_bytes` |
| `as_bytes` (182-184) of `impl<P> EncodedSizeUser for EncapsulationKey<P>` | `MlKem.EncapsulationKey.as_bytes` |
| `encapsulate` (193-199) of `impl<P> ::kem::Encapsulate<EncodedCiphertext<P>, SharedKey> for EncapsulationKey<P>` | `MlKem.EncapsulationKey.encapsulate`, `MlKem.Leaky.encapsulate`, `MlKem.Locals.encapsulate` |
| `encapsulate_deterministic` (209-214) of `impl<P> crate::EncapsulateDeterministic<EncodedCiphertext<P>, SharedKey> for EncapsulationKey<P>` | `MlKem.EncapsulationKey.encapsulate_deterministic`, `MlKem.Leaky.encapsulate_deterministic` |
| `generate` (236-240) of `impl<P> crate::KemCore for Kem<P>` | `MlKem.Kem.generate`, `MlKem.Locals.kem_generate`, `Sessions.mlKem` |
| `generate_deterministic` (243-250) of `impl<P> crate::KemCore for Kem<P>` | `MlKem.Kem.generate_deterministic`, `MlKem.Leaky.generate_deterministic`, `MlKem.Locals.kem_generate_deterministic` |

## ml-kem/src/param.rs

| function | model |
|---|---|
| `flatten` (85-87) of `impl<D, K> VectorEncodingSize<K> for D` | `MlKem.VectorEncodingSize.flatten` |
| `unflatten` (89-91) of `impl<D, K> VectorEncodingSize<K> for D` | `MlKem.VectorEncodingSize.unflatten` |
| `ones_array` (110-132) | `MlKem.ones_array` |
| `encode_u12` (210-212) of `impl<P> PkeParams for P` | `MlKem.encode_u12` |
| `decode_u12` (214-216) of `impl<P> PkeParams for P` | `MlKem.decode_u12` |
| `concat_ct` (218-220) of `impl<P> PkeParams for P` | `MlKem.ParameterSet.concat_ct` |
| `split_ct` (222-224) of `impl<P> PkeParams for P` | `MlKem.ParameterSet.split_ct` |
| `concat_ek` (226-228) of `impl<P> PkeParams for P` | `MlKem.ParameterSet.concat_ek` |
| `split_ek` (230-232) of `impl<P> PkeParams for P` | `MlKem.ParameterSet.split_ek` |
| `concat_dk` (274-281) of `impl<P> KemParams for P` | `MlKem.ParameterSet.concat_dk` |
| `split_dk` (284-297) of `impl<P> KemParams for P` | `MlKem.ParameterSet.split_dk` |

## ml-kem/src/pke.rs

| function | model |
|---|---|
| `zeroize` (28-30) of `impl<P> Zeroize for DecryptionKey<P>` | `MlKem.DecryptionKey.zeroize` |
| `generate` (39-60) of `impl<P> DecryptionKey<P>` | `MlKem.DecryptionKey.generate`, `MlKem.Leaky.generate`, `MlKem.Locals.pke_generate` |
| `decrypt` (64-77) of `impl<P> DecryptionKey<P>` | `MlKem.DecryptionKey.decrypt`, `MlKem.Leaky.decrypt`, `MlKem.Locals.pke_decrypt` |
| `as_bytes` (80-82) of `impl<P> DecryptionKey<P>` | `MlKem.DecryptionKey.as_bytes`, `MlKem.Leaky.decryptionKeyAsBytes` |
| `from_bytes` (85-88) of `impl<P> DecryptionKey<P>` | `MlKem.DecryptionKey.from_bytes`, `MlKem.Leaky.decryptionKeyFromBytes` |
| `encrypt` (108-129) of `impl<P> EncryptionKey<P>` | `MlKem.EncryptionKey.encrypt`, `MlKem.Leaky.encrypt`, `MlKem.Locals.pke_encrypt` |
| `as_bytes` (132-135) of `impl<P> EncryptionKey<P>` | `MlKem.EncryptionKey.as_bytes`, `MlKem.Leaky.encryptionKeyAsBytes` |
| `from_bytes` (138-145) of `impl<P> EncryptionKey<P>` | `MlKem.EncryptionKey.from_bytes`, `MlKem.Leaky.encryptionKeyFromBytes` |

## ml-kem/src/util.rs

| function | model |
|---|---|
| `truncate` (23-29) of `impl Truncate<$to> for $from` | `MlKem.truncate` |
| `flatten` (57-60) of `impl<T, N, M> Flatten<T, Prod<M, N>> for Array<Array<T, M>, N>` | `MlKem.Mem.flatten`, `MlKem.flatten` |
| `unflatten` (85-89) of `impl<T, N, M> Unflatten<M> for Array<T, N>` | `MlKem.Mem.unflatten`, `MlKem.unflatten` |
| `unflatten` (104-112) of `impl<'a, T, N, M> Unflatten<M> for &'a Array<T, N>` | `MlKem.Mem.unflattenRef`, `MlKem.Leaky.unflatten`, `MlKem.unflattenRef` |

## x-wing/src/lib.rs

| function | model |
|---|---|
| `encapsulate` (80-101) of `impl Encapsulate<Ciphertext, SharedSecret> for EncapsulationKey` | `XWing.EncapsulationKey.encapsulate`, `XWing.Leaky.encapsulate`, `XWing.Locals.encapsulate` |
| `as_bytes` (108-113) of `impl EncapsulationKey` | `XWing.EncapsulationKey.as_bytes` |
| `from` (117-126) of `impl From<&[u8; ENCAPSULATION_KEY_SIZE]> for EncapsulationKey` | `XWing.EncapsulationKey.from_bytes` |
| `decapsulate` (140-153) of `impl Decapsulate<Ciphertext, SharedSecret> for DecapsulationKey` | `XWing.DecapsulationKey.decapsulate`, `XWing.Leaky.decapsulate`, `XWing.Locals.decapsulate` |
| `generate` (164-167) of `impl DecapsulationKey` | `XWing.DecapsulationKey.generate`, `XWing.Locals.generate` |
| `encapsulation_key` (171-174) of `impl DecapsulationKey` | `XWing.DecapsulationKey.encapsulation_key`, `XWing.Locals.encapsulation_key` |
| `expand_key` (176-198) of `impl DecapsulationKey` | `XWing.DecapsulationKey.expand_key`, `XWing.Leaky.expand_key`, `XWing.Locals.expand_key` |
| `as_bytes` (202-204) of `impl DecapsulationKey` | `XWing.DecapsulationKey.as_bytes` |
| `from` (208-210) of `impl From<[u8; DECAPSULATION_KEY_SIZE]> for DecapsulationKey` | `XWing.DecapsulationKey.from_bytes` |
| `as_bytes` (225-230) of `impl Ciphertext` | `XWing.Ciphertext.as_bytes` |
| `from` (234-244) of `impl From<&[u8; CIPHERTEXT_SIZE]> for Ciphertext` | `XWing.Ciphertext.from_bytes` |
| `generate_key_pair` (254-258) | `Sessions.xWing`, `XWing.Locals.generate_key_pair`, `XWing.generate_key_pair` |
| `combiner` (260-275) | `XWing.Leaky.combiner`, `XWing.combiner` |
| `read_from` (277-281) | `XWing.read_from` |
| `generate` (283-287) | `XWing.generate` |

## Left out

| function | why |
|---|---|
| dhkem/src/lib.rs `random_keypair` (151-153) of `pub trait DhKem` | declaration in a trait; its implementations are listed |
| ml-kem/src/algebra.rs `from` (361-363) of `impl From<Array<FieldElement, U256>> for NttPolynomial` | wraps an array in a newtype; the model has no separate array |
| ml-kem/src/algebra.rs `from` (367-369) of `impl From<NttPolynomial> for Array<FieldElement, U256>` | unwraps the newtype; used in tests only |
| ml-kem/src/compress.rs `compress` (26-26) of `pub trait Compress` | declaration in a trait; its implementations are listed |
| ml-kem/src/compress.rs `decompress` (27-27) of `pub trait Compress` | declaration in a trait; its implementations are listed |
| ml-kem/src/encode.rs `encode` (70-70) of `pub trait Encode<D: EncodingSize>` | declaration in a trait; its implementations are listed |
| ml-kem/src/encode.rs `decode` (71-71) of `pub trait Encode<D: EncodingSize>` | declaration in a trait; its implementations are listed |
| ml-kem/src/lib.rs `from_bytes` (89-89) of `pub trait EncodedSizeUser` | declaration in a trait; its implementations are listed |
| ml-kem/src/lib.rs `as_bytes` (92-92) of `pub trait EncodedSizeUser` | declaration in a trait; its implementations are listed |
| ml-kem/src/lib.rs `encapsulate_deterministic` (110-110) of `pub trait EncapsulateDeterministic<EK, SS>` | declaration in a trait; its implementations are listed |
| ml-kem/src/lib.rs `generate` (143-143) of `pub trait KemCore` | declaration in a trait; its implementations are listed |
| ml-kem/src/lib.rs `generate_deterministic` (147-148) of `pub trait KemCore` | declaration in a trait; its implementations are listed |
| ml-kem/src/param.rs `flatten` (67-67) of `pub trait VectorEncodingSize<K>: EncodingSize` | declaration in a trait; its implementations are listed |
| ml-kem/src/param.rs `unflatten` (68-68) of `pub trait VectorEncodingSize<K>: EncodingSize` | declaration in a trait; its implementations are listed |
| ml-kem/src/param.rs `encode_u12` (179-179) of `pub trait PkeParams: ParameterSet` | declaration in a trait; its implementations are listed |
| ml-kem/src/param.rs `decode_u12` (180-180) of `pub trait PkeParams: ParameterSet` | declaration in a trait; its implementations are listed |
| ml-kem/src/param.rs `concat_ct` (182-182) of `pub trait PkeParams: ParameterSet` | declaration in a trait; its implementations are listed |
| ml-kem/src/param.rs `split_ct` (183-183) of `pub trait PkeParams: ParameterSet` | declaration in a trait; its implementations are listed |
| ml-kem/src/param.rs `concat_ek` (185-185) of `pub trait PkeParams: ParameterSet` | declaration in a trait; its implementations are listed |
| ml-kem/src/param.rs `split_ek` (186-186) of `pub trait PkeParams: ParameterSet` | declaration in a trait; its implementations are listed |
| ml-kem/src/param.rs `concat_dk` (239-244) of `pub trait KemParams: PkeParams` | declaration in a trait; its implementations are listed |
| ml-kem/src/param.rs `split_dk` (246-253) of `pub trait KemParams: PkeParams` | declaration in a trait; its implementations are listed |
| ml-kem/src/util.rs `truncate` (17-17) of `pub trait Truncate<T>` | declaration in a trait; its implementations are listed |
| ml-kem/src/util.rs `flatten` (44-44) of `pub trait Flatten<T, M: ArraySize>` | declaration in a trait; its implementations are listed |
| ml-kem/src/util.rs `unflatten` (70-70) of `pub trait Unflatten<M>` | declaration in a trait; its implementations are listed |
| x-wing/src/lib.rs `generate_from_os_rng` (159-161) of `impl DecapsulationKey` | `generate` at the operating system's generator; the theorems about `generate` hold for every generator, failing ones included |
| x-wing/src/lib.rs `generate_key_pair_from_os_rng` (249-251) | `generate_key_pair` at the operating system's generator; as above |
