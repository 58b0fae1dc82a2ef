import Verif.Model.Pke
import Verif.Proofs.Sample
import Verif.Proofs.Mul
import Verif.Proofs.Flatten
/-! Vectors and matrices of polynomials -/
namespace MlKem
open Rust MInt Fips203 FieldElement Finset

variable [Build]

variable {K : Nat}

/-- A vector of polynomials as stored by the code -/
def pv (F : Fin K → Poly) : PolynomialVector K := ⟨Vector.ofFn fun i => ⟨polyVec (F i)⟩⟩
/-- A vector of NTT polynomials as stored by the code -/
def nv (F : Fin K → Poly) : NttVector K := ⟨Vector.ofFn fun i => ⟨polyVec (F i)⟩⟩
/-- A vector of coefficient arrays -/
def rv (F : Fin K → Fin 256 → Nat) : PolynomialVector K := ⟨Vector.ofFn fun i => ⟨rawVec (F i)⟩⟩

omit [Build] in
theorem nv_inj {F G : Fin K → Poly} (h : nv F = nv G) : F = G := by
  funext i
  have h2 : (nv F).polys[i] = (nv G).polys[i] := by rw [h]
  simp only [nv, Fin.getElem_fin, Vector.getElem_ofFn, NttPolynomial.mk.injEq] at h2
  exact polyVec_inj h2

theorem pv_add (F G : Fin K → Poly) :
    (pv F).add (pv G) = .ok (pv fun i => F i + G i) := by
  unfold PolynomialVector.add
  rw [zipVec_ok (g := fun i => ⟨polyVec (F i + G i)⟩)]
  · rfl
  · intro i; simp [pv]

theorem nv_add (F G : Fin K → Poly) :
    (nv F).add (nv G) = .ok (nv fun i => F i + G i) := by
  unfold NttVector.add
  rw [zipVec_ok (g := fun i => ⟨polyVec (F i + G i)⟩)]
  · rfl
  · intro i; simp [nv]

theorem pv_ntt (F : Fin K → Poly) : (pv F).ntt = .ok (nv fun i => NTT (F i)) := by
  unfold PolynomialVector.ntt
  rw [mapVec_ok (g := fun i => ⟨polyVec (NTT (F i))⟩)]
  · rfl
  · intro i; simp [pv, ntt_ok]

theorem nv_ntt_inverse (F : Fin K → Poly) :
    (nv F).ntt_inverse = .ok (pv fun i => NTTinv (F i)) := by
  unfold NttVector.ntt_inverse
  rw [mapVec_ok (g := fun i => ⟨polyVec (NTTinv (F i))⟩)]
  · rfl
  · intro i; simp [nv, ntt_inverse_ok]

theorem nv_mul (F G : Fin K → Poly) :
    (nv F).mul (nv G) = .ok ⟨polyVec (∑ i, MultiplyNTTs (F i) (G i))⟩ := by
  unfold NttVector.mul
  have hlen : ((nv F).polys.toList.zip (nv G).polys.toList).length = K := by simp
  obtain ⟨s', h1, h2⟩ := forEach_list_inv ((nv F).polys.toList.zip (nv G).polys.toList)
    (init := NttPolynomial.default)
    (body := fun acc (x, y) => do acc.add (← x.mul y))
    (fun n acc => acc = ⟨polyVec (∑ m ∈ range n,
      if h : m < K then MultiplyNTTs (F ⟨m, h⟩) (G ⟨m, h⟩) else 0)⟩)
    (by rw [sum_range_zero]; exact default_eq)
    (by
      intro n hn acc hacc
      have hK : n < K := by rw [hlen] at hn; exact hn
      refine ⟨_, ?_, rfl⟩
      rw [hacc, sum_range_succ, dif_pos hK]
      simp [nv])
  rw [h1, h2, hlen, Finset.sum_range]
  simp

theorem mulVec_ok (A : Fin K → Fin K → Poly) (G : Fin K → Poly) :
    NttMatrix.mulVec ⟨Vector.ofFn fun i => nv (A i)⟩ (nv G)
      = .ok (nv fun i => ∑ j, MultiplyNTTs (A i j) (G j)) := by
  unfold NttMatrix.mulVec
  rw [mapVec_ok (g := fun i => ⟨polyVec (∑ j, MultiplyNTTs (A i j) (G j))⟩)]
  · rfl
  · intro i; simp [nv_mul]

/-! ### Hash functions -/

omit [Build] in
theorem foldl_hashUpdate (l : List (List UInt8)) (a : List UInt8) :
    l.foldl hashUpdate a = a ++ l.flatten := by
  induction l generalizing a with
  | nil => simp
  | cons x xs ih => rw [List.foldl_cons, ih]; simp [hashUpdate]

variable (S : Sha3)

omit [Build] in
theorem toList_ofFn_stream {a b : Nat} (h : a = b) (g : Nat → UInt8) :
    (Vector.ofFn fun i : Fin a => g i.val).toList = List.ofFn fun i : Fin b => g i.val := by
  subst h
  apply List.ext_getElem <;> simp

omit [Build] in
theorem PRF_toList (Eta : CbdSize) (s : B32) (b : UInt8) :
    (PRF S Eta s b).toList = Fips203.PRF S Eta.toNat s.toList b.toNat := by
  unfold PRF Fips203.PRF prefixBytes
  simp only [hashUpdate, List.nil_append, XofReader.read, Nat.zero_add, UInt8.ofNat_toNat]
  exact toList_ofFn_stream (by cases Eta <;> rfl) _

omit [Build] in
theorem G_fst (inputs : List (List UInt8)) :
    (MlKem.G S inputs).1.toList = (Fips203.G S inputs.flatten).1 := by
  unfold MlKem.G Fips203.G
  simp only [foldl_hashUpdate, List.nil_append]
  apply List.ext_getElem <;> simp

omit [Build] in
theorem G_snd (inputs : List (List UInt8)) :
    (MlKem.G S inputs).2.toList = (Fips203.G S inputs.flatten).2 := by
  unfold MlKem.G Fips203.G
  simp only [foldl_hashUpdate, List.nil_append]
  apply List.ext_getElem <;> simp

omit [Build] in
theorem J_toList (inputs : List (List UInt8)) :
    (MlKem.J S inputs).toList = Fips203.J S inputs.flatten := by
  unfold MlKem.J Fips203.J prefixBytes
  simp only [foldl_hashUpdate, List.nil_append, XofReader.read, Nat.zero_add]
  exact toList_ofFn_stream rfl _

omit [Build] in
theorem Hash_toList (x : List UInt8) : (Hash S x).toList = Fips203.H S x := by
  simp [Hash, Fips203.H, hashUpdate]

/-! ### Sampling -/

theorem pv_sample_cbd (Eta : CbdSize) (sigma : B32) {start : UInt8} {n0 : Nat}
    (hs : start.toNat = n0) (hK : n0 + K ≤ 256) :
    PolynomialVector.sample_cbd S K Eta sigma start = .ok (pv fun i : Fin K =>
      SamplePolyCBD Eta.toNat (Fips203.PRF S Eta.toNat sigma.toList (n0 + i.val))) := by
  unfold PolynomialVector.sample_cbd
  rw [tabulate_ok (g := fun i : Fin K => ⟨polyVec (SamplePolyCBD Eta.toNat
    (Fips203.PRF S Eta.toNat sigma.toList (n0 + i.val)))⟩)]
  · rfl
  · intro i
    have hi := i.isLt
    rw [truncateUsize_ok, Res.ok_bind]
    have e1 : toNat (UInt8.ofNat i.val) = i.val :=
      toNat_ofNat_lt (α := UInt8) (by simp only [bits_u8]; omega)
    have e2 : toNat start = n0 := hs
    have e3 : toNat (ofNat (n0 + i.val) : UInt8) = n0 + i.val :=
      toNat_ofNat_lt (α := UInt8) (by simp only [bits_u8]; omega)
    rw [add_ok (by rw [e1, e2]; simp only [bits_u8]; omega), e1, e2, Res.ok_bind]
    dsimp only
    rw [cbd_ok, PRF_toList, ← toNat_u8, e3]

omit [Build] in
theorem XOF_eq (rho : B32) (i j : Nat) :
    XOF S rho (UInt8.ofNat j) (UInt8.ofNat i) = { stream := streamA S rho.toList i j, pos := 0 } := by
  simp [XOF, streamA, hashUpdate]

theorem nv_sample_uniform (rho : B32) (i : Nat) (tr : Bool)
    (h : ∀ j, j < K → Accepts (if tr then streamA S rho.toList j i else streamA S rho.toList i j)) :
    NttVector.sample_uniform S K rho i tr = .ok (nv fun j : Fin K =>
      if tr then matA S rho.toList j.val i else matA S rho.toList i j.val) := by
  unfold NttVector.sample_uniform
  rw [tabulate_ok (g := fun j : Fin K =>
    ⟨polyVec (if tr then matA S rho.toList j.val i else matA S rho.toList i j.val)⟩)]
  · rfl
  · intro j
    have hj := h j.val j.isLt
    cases tr with
    | true =>
      simp only [if_true, truncateUsize_ok, Res.ok_bind] at hj ⊢
      rw [XOF_eq, sample_uniform_ok hj, matA]
    | false =>
      simp only [Bool.false_eq_true, if_false, truncateUsize_ok, Res.ok_bind] at hj ⊢
      rw [XOF_eq, sample_uniform_ok hj, matA]

theorem matrix_sample (rho : B32) (h : SeedOk S K rho.toList) (tr : Bool) :
    NttMatrix.sample_uniform S K rho tr = .ok ⟨Vector.ofFn fun i : Fin K => nv fun j : Fin K =>
      if tr then matA S rho.toList j.val i.val else matA S rho.toList i.val j.val⟩ := by
  unfold NttMatrix.sample_uniform
  rw [tabulate_ok (g := fun i : Fin K => nv fun j : Fin K =>
      if tr then matA S rho.toList j.val i.val else matA S rho.toList i.val j.val)]
  · rfl
  · intro i
    apply nv_sample_uniform
    intro j hj
    cases tr
    · exact h _ _ i.isLt hj
    · exact h _ _ hj i.isLt

omit [Build] in
theorem tabulate_div {α : Type} {n : Nat} {f : Fin n → Res α}
    (h : ∀ i, (∃ a, f i = .ok a) ∨ f i = .div) (hd : ∃ i, f i = .div) : tabulate n f = .div := by
  induction n with
  | zero => obtain ⟨i, _⟩ := hd; exact i.elim0
  | succ n ih =>
    by_cases hc : ∃ i : Fin n, f i.castSucc = .div
    · rw [tabulate, ih (fun i => h _) hc]; rfl
    · have hall : ∀ i : Fin n, ∃ a, f i.castSucc = .ok a := by
        intro i
        rcases h i.castSucc with h1 | h1
        · exact h1
        · exact absurd ⟨i, h1⟩ hc
      choose g hg using hall
      have hl : f (Fin.last n) = .div := by
        obtain ⟨i, hi⟩ := hd
        revert hi
        refine Fin.lastCases (fun h => h) (fun j hj => absurd ⟨j, hj⟩ hc) i
      rw [tabulate, tabulate_ok hg, Res.ok_bind, hl]
      rfl

theorem nv_sample_uniform_div (rho : B32) (i : Nat) (tr : Bool)
    (h : ∃ j, j < K ∧ ¬ Accepts (if tr then streamA S rho.toList j i else streamA S rho.toList i j)) :
    NttVector.sample_uniform S K rho i tr = .div := by
  unfold NttVector.sample_uniform
  have key : ∀ j : Fin K, (do
      let (i, j) := if tr then (j.val, i) else (i, j.val)
      let xof := XOF S rho (← truncateUsize j) (← truncateUsize i)
      NttPolynomial.sample_uniform xof) = NttPolynomial.sample_uniform
        { stream := if tr then streamA S rho.toList j.val i else streamA S rho.toList i j.val,
          pos := 0 } := by
    intro j
    cases tr <;> simp only [Bool.false_eq_true, if_false, if_true, truncateUsize_ok, Res.ok_bind] <;>
      rw [XOF_eq]
  rw [tabulate_div]
  · rfl
  · intro j
    have k := key j
    dsimp only at k ⊢
    rw [k]
    by_cases hj : Accepts (if tr then streamA S rho.toList j.val i else streamA S rho.toList i j.val)
    · exact .inl ⟨_, sample_uniform_ok hj⟩
    · exact .inr (sample_uniform_div hj)
  · obtain ⟨j, hj, hna⟩ := h
    refine ⟨⟨j, hj⟩, ?_⟩
    have k := key ⟨j, hj⟩
    dsimp only at k ⊢
    rw [k]
    exact sample_uniform_div hna

theorem matrix_sample_div (rho : B32) (h : ¬ SeedOk S K rho.toList) (tr : Bool) :
    NttMatrix.sample_uniform S K rho tr = .div := by
  unfold NttMatrix.sample_uniform
  rw [tabulate_div]
  · rfl
  · intro i
    by_cases hi : ∀ j, j < K →
        Accepts (if tr then streamA S rho.toList j i.val else streamA S rho.toList i.val j)
    · exact .inl ⟨_, nv_sample_uniform S rho _ tr hi⟩
    · refine .inr (nv_sample_uniform_div S rho _ tr ?_)
      by_contra hc
      exact hi fun j hj => by
        by_contra hna
        exact hc ⟨j, hj, hna⟩
  · by_contra hc
    apply h
    intro i j hi hj
    by_contra hna
    cases tr with
    | false => exact hc ⟨⟨i, hi⟩, nv_sample_uniform_div S rho _ _ ⟨j, hj, by simpa using hna⟩⟩
    | true => exact hc ⟨⟨j, hj⟩, nv_sample_uniform_div S rho _ _ ⟨i, hi, by simpa using hna⟩⟩

/-! ### Encoding -/

omit [Build] in
theorem encodeVec_length (d : Nat) (F : Fin K → Fin 256 → Nat) :
    (encodeVec d F).length = d * 32 * K := by
  unfold encodeVec
  rw [ofFn_eq_range_map, flatten_uniform_length (B := d * 32)]
  intro c hc
  simp [hc, ByteEncode_length, Nat.mul_comm]

omit [Build] in
theorem mapEncode_flatten (d : Nat) (F : Fin K → Fin 256 → Nat) :
    VectorEncodingSize.flatten (D := d) (Vector.ofFn fun i : Fin K => bytesOf (ByteEncode d (F i)))
      = bytesOf (encodeVec d F) := by
  apply eq_bytesOf
  rw [VectorEncodingSize.flatten, flatten_toList, encodeVec]
  congr 2
  funext i
  simp only [Fin.getElem_fin, Vector.getElem_ofFn]
  rw [toList_bytesOf]
  rw [ByteEncode_length, EncodedPolynomialSize, Nat.mul_comm]

theorem nv_encode (F : Fin K → Poly) :
    NttVector.encode 12 (nv F) = .ok (bytesOf (encodeVec 12 fun i => rep (F i))) := by
  unfold NttVector.encode
  rw [mapVec_ok (g := fun i => bytesOf (ByteEncode 12 (rep (F i)))), Res.ok_bind, mapEncode_flatten]
  intro i
  simp [nv, NttPolynomial.encode, byte_encode_poly]

theorem rv_encode {D : Nat} (h1 : 1 ≤ D) (h2 : D ≤ 12) {F : Fin K → Fin 256 → Nat}
    (hF : ∀ i n, F i n < 2 ^ D) :
    PolynomialVector.encode D (rv F) = .ok (bytesOf (encodeVec D F)) := by
  unfold PolynomialVector.encode
  rw [mapVec_ok (g := fun i => bytesOf (ByteEncode D (F i))), Res.ok_bind, mapEncode_flatten]
  intro i
  simp [rv, Polynomial.encode, byte_encode_raw h1 h2 (hF i)]

omit [Build] in
theorem unflatten_block {D : Nat} (b : EncodedPolynomialVector D K) {i : Nat} (hi : i < K) :
    (unflatten rfl b : Vector (EncodedPolynomial D) K)[i].toList = block D b.toList i := by
  rw [unflatten_toList rfl b hi, block, Nat.mul_comm 32 D]

theorem nv_decode (b : EncodedPolynomialVector 12 K) :
    NttVector.decode 12 b = .ok (nv fun i => ofNats (ByteDecode 12 (block 12 b.toList i.val))) := by
  unfold NttVector.decode VectorEncodingSize.unflatten
  rw [unflattenRef_eq, Res.ok_bind,
    mapVec_ok (g := fun i => ⟨polyVec (ofNats (ByteDecode 12 (block 12 b.toList i.val)))⟩)]
  · rfl
  · intro i
    rw [Fin.getElem_fin, NttPolynomial.decode, byte_decode_poly, unflatten_block b i.isLt]
    rfl

theorem rv_decode {D : Nat} (h1 : 1 ≤ D) (h2 : D ≤ 12) (b : EncodedPolynomialVector D K) :
    PolynomialVector.decode D b = .ok (rv fun i => ByteDecode D (block D b.toList i.val)) := by
  unfold PolynomialVector.decode VectorEncodingSize.unflatten
  rw [unflattenRef_eq, Res.ok_bind,
    mapVec_ok (g := fun i => ⟨rawVec (ByteDecode D (block D b.toList i.val))⟩)]
  · rfl
  · intro i
    rw [Fin.getElem_fin, Polynomial.decode, byte_decode_raw h1 h2, unflatten_block b i.isLt]
    rfl

theorem pv_compress {D : Nat} (h2 : D ≤ 12) (F : Fin K → Poly) :
    PolynomialVector.compress D (pv F) = .ok (rv fun i n => Compress D (F i n)) := by
  unfold PolynomialVector.compress
  rw [mapVec_ok (g := fun i => ⟨rawVec fun n => Compress D (F i n)⟩)]
  · rfl
  · intro i
    simp [pv, poly_compress_ok h2]

theorem rv_decompress {D : Nat} (h1 : 1 ≤ D) (h2 : D ≤ 12) {F : Fin K → Fin 256 → Nat}
    (hF : ∀ i n, F i n < 2 ^ D) :
    PolynomialVector.decompress D (rv F) = .ok (pv fun i n => Decompress D (F i n)) := by
  unfold PolynomialVector.decompress
  rw [mapVec_ok (g := fun i => ⟨polyVec fun n => Decompress D (F i n)⟩)]
  · rfl
  · intro i
    simp [rv, poly_decompress_ok h1 h2 (hF i)]

/-! ### Blocks of encoded vectors -/

omit [Build] in
theorem block_encodeVec (d : Nat) (F : Fin K → Fin 256 → Nat) (rest : List UInt8) (i : Fin K) :
    block d (encodeVec d F ++ rest) i.val = ByteEncode d (F i) := by
  have hu : ∀ c, c < K → (if h : c < K then ByteEncode d (F ⟨c, h⟩) else []).length = 32 * d := by
    intro c hc; simp [hc, ByteEncode_length]
  have hle : 32 * d * i.val + 32 * d ≤ 32 * d * K := by
    rw [← Nat.mul_succ]; exact Nat.mul_le_mul_left _ i.isLt
  have hL : (encodeVec d F).length = 32 * d * K := by rw [encodeVec_length, Nat.mul_comm d]
  unfold block
  rw [List.drop_append_of_le_length (by omega), List.take_append_of_le_length
    (by rw [List.length_drop]; omega)]
  apply List.ext_getElem?
  intro t
  by_cases ht : t < 32 * d
  · rw [List.getElem?_take_of_lt ht, List.getElem?_drop, encodeVec, ofFn_eq_range_map,
      flatten_uniform_getElem? K hu (by omega)]
    have e1 : (32 * d * i.val + t) / (32 * d) = i.val := by
      rw [Nat.mul_add_div (by omega), Nat.div_eq_of_lt ht]; omega
    have e2 : (32 * d * i.val + t) % (32 * d) = t := by
      rw [Nat.mul_add_mod, Nat.mod_eq_of_lt ht]
    rw [e1, e2, dif_pos i.isLt]
  · rw [List.getElem?_eq_none (by rw [List.length_take]; omega),
      List.getElem?_eq_none (by rw [ByteEncode_length]; omega)]

omit [Build] in
/-- A string of `K` blocks is the concatenation of its blocks. -/
theorem flatten_blocks {d : Nat} {B : List UInt8} (hB : B.length = 32 * d * K) :
    (List.ofFn fun i : Fin K => block d B i.val).flatten = B := by
  have hu : ∀ c, c < K → (if _ : c < K then block d B c else []).length = 32 * d := by
    intro c hc
    have hle : 32 * d * c + 32 * d ≤ 32 * d * K := by
      rw [← Nat.mul_succ]; exact Nat.mul_le_mul_left _ hc
    simp [hc, block]; omega
  rw [ofFn_eq_range_map]
  apply List.ext_getElem?
  intro t
  by_cases ht : t < 32 * d * K
  · have hd : 0 < 32 * d := Nat.pos_of_ne_zero fun h => by simp [h] at ht
    have h1 : t / (32 * d) < K := Nat.div_lt_of_lt_mul ht
    rw [flatten_uniform_getElem? K hu ht, dif_pos h1, block,
      List.getElem?_take_of_lt (Nat.mod_lt _ hd), List.getElem?_drop, Nat.div_add_mod]
  · rw [List.getElem?_eq_none (by rw [flatten_uniform_length K hu]; omega),
      List.getElem?_eq_none (by omega)]

end MlKem
