import Verif.Spec.Rfc9180
/-! What equal outputs of HKDF, used as in RFC 9180, say about the inputs. -/
namespace Hkdf
open Rust

variable {H : Hash}

theorem length_padKey (k : List UInt8) : (padKey H k).length = H.block := by
  unfold padKey
  have := H.size_le
  dsimp only
  split
  · simp only [List.length_append, Vector.length_toList, List.length_replicate]
    omega
  · simp only [List.length_append, List.length_replicate]
    omega

theorem xor_inj (b : UInt8) : Function.Injective (fun x : UInt8 => x ^^^ b) := by
  intro x y h
  have := congrArg (· ^^^ b) h
  simpa only [UInt8.xor_assoc, UInt8.xor_self, UInt8.xor_zero] using this

theorem toList_inj {n : Nat} {a b : Bytes n} (h : a.toList = b.toList) : a = b := Vector.toList_inj.1 h

theorem hmac_inj {k k' m m' : List UInt8} (hk : k.length ≤ H.block) (hl : k.length = k'.length)
    (h : hmac H k m = hmac H k' m') :
    (k = k' ∧ m = m') ∨ CollideIn H [inner H k m, outer H k m] [inner H k' m', outer H k' m'] := by
  by_cases ho : outer H k m = outer H k' m'
  · obtain ⟨h1, h2⟩ := List.append_inj ho (by rw [List.length_map, List.length_map, length_padKey, length_padKey])
    have h1 := (xor_inj 0x5c).list_map h1
    by_cases hi : inner H k m = inner H k' m'
    · left
      obtain ⟨-, h3⟩ := List.append_inj hi (by rw [List.length_map, List.length_map, length_padKey, length_padKey])
      refine ⟨?_, h3⟩
      unfold padKey at h1
      dsimp only at h1
      rw [if_neg (by omega), if_neg (by omega)] at h1
      exact (List.append_inj h1 hl).1
    · exact Or.inr ⟨_, List.mem_cons_self, _, List.mem_cons_self, hi, toList_inj h2⟩
  · exact Or.inr ⟨_, List.mem_cons_of_mem _ List.mem_cons_self, _, List.mem_cons_of_mem _ List.mem_cons_self, ho, h⟩

theorem expand_size (h0 : 0 < H.size) (prk info : List UInt8) :
    expand H prk info H.size = (hmac H prk (info ++ [1])).toList := by
  have h1 : (H.size + H.size - 1) / H.size = 1 := by
    have : H.size + H.size - 1 = H.size - 1 + H.size := by omega
    rw [this, Nat.add_div_right _ h0, Nat.div_eq_of_lt (by omega)]
  unfold expand
  rw [h1]
  simp only [List.range_one, List.map_cons, List.map_nil, List.flatten_cons, List.flatten_nil, List.append_nil]
  rw [List.take_of_length_le (by unfold block; rw [Vector.length_toList])]
  rfl

end Hkdf

namespace Rfc9180
open Rust Hkdf

variable {H : Hash} {kem_id : Nat}

/-- The secret is an HMAC under the extracted key. -/
theorem eae_eq (h0 : 0 < H.size) (dh ctx : List UInt8) : ExtractAndExpand H kem_id H.size dh ctx =
    (hmac H (LabeledExtract H kem_id [] "eae_prk" dh)
      (labeledInfo kem_id "shared_secret" ctx H.size ++ [1])).toList :=
  expand_size h0 _ _

/-- Equal secrets have equal inputs, or two of the strings hashed for them collide. -/
theorem eae_inj (h0 : 0 < H.size) {dh dh' ctx ctx' : List UInt8}
    (h : ExtractAndExpand H kem_id H.size dh ctx = ExtractAndExpand H kem_id H.size dh' ctx') :
    (dh = dh' ∧ ctx = ctx') ∨
    CollideIn H (hashed H kem_id H.size dh ctx) (hashed H kem_id H.size dh' ctx') := by
  rw [eae_eq h0, eae_eq h0] at h
  have hlen : ∀ d, (LabeledExtract H kem_id [] "eae_prk" d).length = H.size := fun d => Vector.length_toList
  rcases hmac_inj (by rw [hlen]; exact H.size_le) (by rw [hlen, hlen]) (toList_inj h) with ⟨h1, h2⟩ | h1
  · have h2 := (List.append_inj_left' h2 rfl)
    have hctx : ctx = ctx' := List.append_cancel_left h2
    rcases hmac_inj (Nat.zero_le _) rfl (toList_inj h1) with ⟨-, h3⟩ | h3
    · exact Or.inl ⟨List.append_cancel_left h3, hctx⟩
    · right
      obtain ⟨x, hx, y, hy, hxy⟩ := h3
      refine ⟨x, ?_, y, ?_, hxy⟩
      · simp only [List.mem_cons, List.not_mem_nil, or_false] at hx
        unfold hashed
        rcases hx with rfl | rfl <;> simp
      · simp only [List.mem_cons, List.not_mem_nil, or_false] at hy
        unfold hashed
        rcases hy with rfl | rfl <;> simp
  · right
    obtain ⟨x, hx, y, hy, hxy⟩ := h1
    refine ⟨x, ?_, y, ?_, hxy⟩
    · simp only [List.mem_cons, List.not_mem_nil, or_false] at hx
      unfold hashed
      rcases hx with rfl | rfl <;> simp
    · simp only [List.mem_cons, List.not_mem_nil, or_false] at hy
      unfold hashed
      rcases hy with rfl | rfl <;> simp

end Rfc9180
