import Verif.Spec.Noise
import Verif.Proofs.Kem
/-! Decryption of an honest ciphertext recovers the message up to the noise. -/
namespace MlKem
open Rust MInt Fips203 FieldElement Finset

variable (S : Sha3) (p : Params)

theorem cmod_valMinAbs (x : Zq) : cmod x = x.valMinAbs := by
  have hx := zval_lt x
  have h := ZMod.valMinAbs_def_pos x
  rw [h]
  unfold cmod
  rfl

/-- The vector identity behind decryption: `v + c_v - sᵀ(u + c_u) = μ + noise`. -/
theorem decrypt_poly (d m r : List UInt8) :
    (cipherV S p d m r + lossOf p.dv (cipherV S p d m r))
      - NTTinv (∑ i : Fin p.k, MultiplyNTTs (NTT (secretS S p d i))
          (NTT (cipherU S p d r i + lossOf p.du (cipherU S p d r i))))
      = messageMu m + noise S p d m r := by
  apply nttEquiv.injective
  change NTT _ = NTT _
  apply toT_injective
  generalize hcv : lossOf p.dv (cipherV S p d m r) = cv
  generalize hcu : (fun i => lossOf p.du (cipherU S p d r i)) = cu
  have hcu' : ∀ i, lossOf p.du (cipherU S p d r i) = cu i := fun i => by rw [← hcu]
  have hnoise : noise S p d m r
      = NTTinv (∑ i : Fin p.k, MultiplyNTTs (NTT (errorE S p d i)) (NTT (ephemeralY S p r i)))
        + errorE2 S p r + cv
        - NTTinv (∑ i : Fin p.k, MultiplyNTTs (NTT (secretS S p d i)) (NTT (errorE1 S p r i + cu i))) := by
    rw [noise, hcv, NTTinv_sum, NTTinv_sum]
    simp only [NTTinv_mul, hcu']
  rw [hnoise]
  simp only [hcu']
  simp only [cipherV, cipherU, publicT]
  simp only [NTT_sub, NTT_add, NTT_NTTinv, toT_sub, toT_add, toT_sum, toT_mul]
  simp only [mul_add, add_mul, sum_add_distrib]
  have hswap : ∑ i : Fin p.k, (∑ j : Fin p.k, toT (matA S (seeds S p d).1 i.val j.val)
        * toT (NTT (secretS S p d j))) * toT (NTT (ephemeralY S p r i))
      = ∑ i : Fin p.k, toT (NTT (secretS S p d i)) * ∑ j : Fin p.k,
        toT (matA S (seeds S p d).1 j.val i.val) * toT (NTT (ephemeralY S p r j)) := by
    simp only [sum_mul, mul_sum]
    rw [sum_comm]
    refine sum_congr rfl fun i _ => sum_congr rfl fun j _ => ?_
    ring
  rw [hswap]
  ring

theorem encT_honest (d m r : List UInt8) :
    encT S p (genT S p (seeds S p d).1 (seeds S p d).2) (seeds S p d).1 m r
      = encodeVec p.du (fun i n => Compress p.du (cipherU S p d r i n))
        ++ ByteEncode p.dv (fun n => Compress p.dv (cipherV S p d m r n)) := rfl

theorem decMod_eq {w : Nat} (h : w ≤ 11) : decMod w = 2 ^ w := by
  rw [decMod, if_neg (by omega)]

/-- Decryption of an honest ciphertext, before the final rounding -/
theorem decT_honest (hdu1 : 1 ≤ p.du) (hdu2 : p.du ≤ 11) (hdv1 : 1 ≤ p.dv) (hdv2 : p.dv ≤ 11)
    (d m r : List UInt8) :
    decT p (genS S p (seeds S p d).2)
        (encT S p (genT S p (seeds S p d).1 (seeds S p d).2) (seeds S p d).1 m r)
      = ByteEncode 1 fun n => Compress 1 (messageMu m n + noise S p d m r n) := by
  rw [encT_honest]
  unfold decT
  dsimp only
  have hu : ∀ i : Fin p.k, ByteDecode p.du (block p.du
      (encodeVec p.du (fun i n => Compress p.du (cipherU S p d r i n))
        ++ ByteEncode p.dv (fun n => Compress p.dv (cipherV S p d m r n))) i.val)
      = fun n => Compress p.du (cipherU S p d r i n) := by
    intro i
    rw [block_encodeVec, ByteDecode_ByteEncode hdu1 _ (by omega)]
    intro n
    rw [decMod_eq hdu2]
    exact Compress_lt _ _
  have hv : ByteDecode p.dv
      ((encodeVec p.du (fun i n => Compress p.du (cipherU S p d r i n))
        ++ ByteEncode p.dv (fun n => Compress p.dv (cipherV S p d m r n))).drop (32 * p.du * p.k))
      = fun n => Compress p.dv (cipherV S p d m r n) := by
    rw [List.drop_left' (by rw [encodeVec_length, Nat.mul_comm 32]),
      ByteDecode_ByteEncode hdv1 _ (by omega)]
    intro n
    rw [decMod_eq hdv2]
    exact Compress_lt _ _
  rw [hv]
  simp only [hu]
  have e1 : (fun n => Decompress p.dv (Compress p.dv (cipherV S p d m r n)))
      = cipherV S p d m r + lossOf p.dv (cipherV S p d m r) := by
    funext n; simp [lossOf]
  have e2 : ∀ i, (fun n => Decompress p.du (Compress p.du (cipherU S p d r i n)))
      = cipherU S p d r i + lossOf p.du (cipherU S p d r i) := by
    intro i; funext n; simp [lossOf]
  have key := decrypt_poly S p d m r
  rw [e1]
  simp only [e2]
  have hs : genS S p (seeds S p d).2 = fun i => NTT (secretS S p d i) := rfl
  rw [hs, key]
  rfl

theorem ByteDecode_one (m : List UInt8) (n : Fin 256) : ByteDecode 1 m n = (bit m n.val).toNat := by
  rw [ByteDecode, if_neg (by omega)]
  cases h : bit m n.val <;> simp [ofBits, h]

/-- Rounding to one bit succeeds exactly in the window. -/
theorem window_iff (b : Bool) (x : Zq) :
    Compress 1 (Decompress 1 b.toNat + x) = b.toNat ↔ InWindow b x := by
  have hx := zval_lt x
  rw [Compress_eq, InWindow, ← cmod_valMinAbs, cmod, ZMod.val_add, Decompress_val (by omega) (by omega)
    (by cases b <;> decide)]
  cases b
  · simp only [Bool.toNat_false]
    split <;> omega
  · simp only [Bool.toNat_true]
    split <;> omega

/-- Bit `n` of the decrypted message is the bit sent exactly if the noise is in its window. -/
theorem decT_bit (hdu1 : 1 ≤ p.du) (hdu2 : p.du ≤ 11) (hdv1 : 1 ≤ p.dv) (hdv2 : p.dv ≤ 11)
    (d m r : List UInt8) (n : Fin 256) :
    bit (decT p (genS S p (seeds S p d).2)
        (encT S p (genT S p (seeds S p d).1 (seeds S p d).2) (seeds S p d).1 m r)) n.val
      = bit m n.val ↔ InWindow (bit m n.val) (noise S p d m r n) := by
  rw [decT_honest S p hdu1 hdu2 hdv1 hdv2, bit_ByteEncode _ (by omega), ← window_iff]
  have e : Fin.ofNat 256 (n.val / 1) = n := by
    apply Fin.ext
    show n.val / 1 % 256 = n.val
    omega
  rw [e, messageMu, ByteDecode_one, Nat.mod_one]
  have hlt := Compress_lt 1 (Decompress 1 (bit m n.val).toNat + noise S p d m r n)
  generalize Compress 1 (Decompress 1 (bit m n.val).toNat + noise S p d m r n) = w at hlt ⊢
  generalize bit m n.val = b
  have hw : w = 0 ∨ w = 1 := by omega
  rcases hw with rfl | rfl <;> cases b <;> simp

/-- The whole message is recovered exactly if the noise is in its window everywhere. -/
theorem decT_honest_iff (hdu1 : 1 ≤ p.du) (hdu2 : p.du ≤ 11) (hdv1 : 1 ≤ p.dv) (hdv2 : p.dv ≤ 11)
    (d m r : List UInt8) (hm : m.length = 32) :
    decT p (genS S p (seeds S p d).2)
        (encT S p (genT S p (seeds S p d).1 (seeds S p d).2) (seeds S p d).1 m r) = m
      ↔ NoiseOk S p d m r := by
  constructor
  · intro h n
    rw [← decT_bit S p hdu1 hdu2 hdv1 hdv2, h]
  · intro h
    apply list_u8_ext
    · rw [decT_length, hm]
    · intro t ht
      rw [decT_length] at ht
      exact (decT_bit S p hdu1 hdu2 hdv1 hdv2 d m r ⟨t, by omega⟩).2 (h ⟨t, by omega⟩)

end MlKem
