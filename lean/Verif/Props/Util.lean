import Verif.Props.KemKeys
import Verif.Proofs.Flatten
import Verif.Model.XWing
/-! C33-C35: flattening, truncation, erasure on drop. -/
namespace MlKem
open Rust

variable [Build]

/-! ### C33 -/

omit [Build] in
/-- **C33** Flattening puts element `j` of part `i` at offset `i*M+j`. -/
theorem C33_flatten {T : Type} {M N : Nat} (v : Vector (Vector T M) N) {i j : Nat} (hi : i < N)
    (hj : j < M) : ∃ h : i * M + j < M * N, (flatten v)[i * M + j] = v[i][j] :=
  ⟨offset_lt hi hj, flatten_getElem v hi hj _⟩

omit [Build] in
/-- **C33** Unflattening reads it from there, in the owned and the borrowed form; the borrowed form
never reads outside the array. -/
theorem C33_unflatten {T : Type} {N P M : Nat} (hN : N = P * M) (v : Vector T N) :
    unflattenRef hN v = .ok (unflatten hN v) ∧
    ∀ {i j : Nat} (hi : i < M) (hj : j < P),
      ∃ h : i * P + j < N, (unflatten hN v)[i][j] = v[i * P + j] :=
  ⟨unflattenRef_eq hN v, fun hi hj => ⟨by rw [hN]; exact offset_lt hi hj, unflatten_getElem hN v hi hj⟩⟩

omit [Build] in
/-- **C33** The two are inverse to each other, in both orders. -/
theorem C33_inverse {T : Type} {M N : Nat} (v : Vector (Vector T M) N) (w : Vector T (M * N)) :
    unflatten rfl (flatten v) = v ∧ flatten (unflatten rfl w) = w ∧
    unflattenRef rfl (flatten v) = .ok v :=
  ⟨unflatten_flatten v, flatten_unflatten w, by rw [unflattenRef_eq, unflatten_flatten]⟩

example : flatten #v[#v[1, 2, 3], #v[4, 5, 6]] = #v[1, 2, 3, 4, 5, 6] := by decide +kernel

/-! ### C34 -/

omit [Build] in
/-- **C34** Every instance of `truncate` returns the low-order bits and never reaches the unchecked
unwrap of an error. -/
theorem C34_truncate :
    (∀ x : UInt32, ∃ y : UInt16, truncate UInt16 x = .ok y ∧ y.toNat = x.toNat % 2 ^ 16) ∧
    (∀ x : UInt64, ∃ y : UInt32, truncate UInt32 x = .ok y ∧ y.toNat = x.toNat % 2 ^ 32) ∧
    (∀ x : Nat, ∃ y : UInt8, truncateUsize x = .ok y ∧ y.toNat = x % 2 ^ 8) ∧
    (∀ x : U128, ∃ y : UInt16, truncate UInt16 x = .ok y ∧ y.toNat = BitVec.toNat x % 2 ^ 16) ∧
    (∀ x : U128, ∃ y : UInt8, truncate UInt8 x = .ok y ∧ y.toNat = BitVec.toNat x % 2 ^ 8) := by
  refine ⟨fun x => ⟨_, truncate_ok (by decide) x, UInt16.toNat_ofNat'⟩,
    fun x => ⟨_, truncate_ok (by decide) x, UInt32.toNat_ofNat'⟩,
    fun x => ⟨_, truncateUsize_ok x, UInt8.toNat_ofNat'⟩,
    fun x => ⟨_, truncate_ok (by decide) x, UInt16.toNat_ofNat'⟩,
    fun x => ⟨_, truncate_ok (by decide) x, UInt8.toNat_ofNat'⟩⟩

example : truncate UInt16 (0x12345678 : UInt32) = .ok 0x5678 := by decide +kernel

/-! ### C35 -/

omit [Build] in
/-- **C35** After drop every coefficient of the secret vector and every byte of `z` is zero. The
public part is untouched. -/
theorem C35_drop {P : ParameterSet} (dk : DecapsulationKey P) :
    (∀ (c : Fin P.K) (i : Fin 256), dk.drop.dk_pke.s_hat.polys[c].coeffs[i].val = 0) ∧
    (∀ i : Fin 32, dk.drop.z[i] = 0) ∧ dk.drop.ek = dk.ek := by
  refine ⟨fun c i => ?_, fun i => ?_, rfl⟩
  · simp [DecapsulationKey.drop, DecryptionKey.zeroize, NttVector.zeroize, NttPolynomial.zeroize,
      FieldElement.zeroize]
  · simp [DecapsulationKey.drop, bytesZeroize]

omit [Build] in
/-- **C35** Hence what is left in memory depends only on the public key: two keys with the same
encapsulation key are indistinguishable after drop. -/
theorem C35_no_residue {P : ParameterSet} (dk dk' : DecapsulationKey P) (h : dk.ek = dk'.ek) :
    dk.drop = dk'.drop := by
  obtain ⟨⟨⟨s⟩⟩, ek, z⟩ := dk
  obtain ⟨⟨⟨s'⟩⟩, ek', z'⟩ := dk'
  obtain rfl : ek = ek' := h
  unfold DecapsulationKey.drop DecryptionKey.zeroize NttVector.zeroize bytesZeroize
  have e1 : s.map NttPolynomial.zeroize = s'.map NttPolynomial.zeroize := by
    apply Vector.ext
    intro i hi
    simp only [Vector.getElem_map, NttPolynomial.zeroize, NttPolynomial.mk.injEq]
    apply Vector.ext
    intro j hj
    simp [FieldElement.zeroize]
  have e2 : (z.map fun _ => (0 : UInt8)) = z'.map fun _ => 0 := by
    apply Vector.ext; intro i hi; simp
  simp only [e1, e2]

omit [Build] in
/-- **C35** for the X-Wing types that erase themselves. -/
theorem C35_xwing_drop (sk : XWing.DecapsulationKey) (ct : XWing.Ciphertext) :
    (∀ i : Fin 32, sk.drop.sk[i]'i.isLt = 0) ∧ (∀ i : Fin 1088, ct.drop.ct_m[i] = 0) ∧
    (∀ i : Fin 32, ct.drop.ct_x[i] = 0) := by
  refine ⟨fun i => ?_, fun i => ?_, fun i => ?_⟩ <;>
    simp [XWing.DecapsulationKey.drop, XWing.Ciphertext.drop, bytesZeroize]

/-- A key with non-zero secrets exists: dropping it changes it. -/
example : ∃ dk : DecapsulationKey MlKem512Params, dk.drop ≠ dk :=
  ⟨⟨⟨⟨Vector.replicate _ ⟨Vector.replicate _ ⟨7⟩⟩⟩⟩,
    ⟨⟨⟨Vector.replicate _ ⟨Vector.replicate _ ⟨7⟩⟩⟩, Vector.replicate _ 1⟩, Vector.replicate _ 2⟩,
    Vector.replicate _ 3⟩, by
    intro h
    have := congrArg (fun k : DecapsulationKey MlKem512Params => k.z[0]) h
    simp [DecapsulationKey.drop, bytesZeroize] at this⟩

end MlKem
