import Verif.Proofs.Algorithms
/-!
The algorithms of FIPS 203 for K-PKE and ML-KEM, as the standard writes them, compute what Spec/Fips203.lean says.
-/
namespace Fips203.Alg
open MlKem (Sha3)
open Finset (range)

/-! ### Loops that may fail -/

theorem forIn_some {σ : Type} (l : List Nat) {body : Nat → σ → Option (ForInStep σ)} (f : σ → Nat → σ)
    (h : ∀ i s, i ∈ l → body i s = some (.yield (f s i))) (s : σ) : forIn l s body = some (l.foldl f s) := by
  induction l generalizing s with
  | nil => rfl
  | cons a l ih =>
    rw [List.forIn_cons, h a s (List.mem_cons_self ..)]
    exact ih (fun i s hi => h i s (List.mem_cons_of_mem _ hi)) _

theorem some_bind {α β : Type} (a : α) (f : α → Option β) : (some a >>= f) = f a := rfl

theorem forIn_none {σ : Type} (l : List Nat) {body : Nat → σ → Option (ForInStep σ)} {x : Nat} (hx : x ∈ l)
    (h : ∀ s, body x s = none) (hy : ∀ i s r, body i s = some r → ∃ s', r = .yield s') (s : σ) :
    forIn l s body = none := by
  induction l generalizing s with
  | nil => exact absurd hx List.not_mem_nil
  | cons a l ih =>
    rw [List.forIn_cons]
    rcases hb : body a s with _ | r
    · rfl
    · obtain ⟨s', rfl⟩ := hy a s r hb
      rcases List.mem_cons.1 hx with rfl | hx
      · rw [h] at hb; exact absurd hb (by simp)
      · exact ih hx s'

theorem foldl_range {σ : Type} (n : Nat) (f : σ → Nat → σ) (s : σ) :
    (List.range n).foldl f s = (List.range' 0 n).foldl f s := by rw [List.range_eq_range']

/-- A vector with a counter -/
theorem counter_eq {α : Type} [Inhabited α] (k N : Nat) (l : List α) (hl : l.length = k) (F : Nat → α) :
    (List.range k).foldl (fun (st : Nat × List α) i => (st.1 + 1, st.2.set i (F st.1))) (N, l) =
      (N + k, List.ofFn (n := k) fun i => F (N + i.val)) := by
  rw [foldl_range]
  have key := foldl_inv (lo := 0) (n := k) (s := (N, l))
    (f := fun (st : Nat × List α) i => (st.1 + 1, st.2.set i (F st.1)))
    (fun i st => st.1 = N + i ∧ st.2.length = k ∧ ∀ t, t < i → st.2[t]! = F (N + t))
    ⟨rfl, hl, fun t ht => absurd ht (by omega)⟩
    (by
      rintro i ⟨M, l⟩ - hi ⟨h1, h2, h3⟩
      dsimp only at h1 h2 h3 ⊢
      refine ⟨by omega, by rw [List.length_set]; exact h2, fun t ht => ?_⟩
      rw [get_set]
      by_cases hit : i = t
      · rw [if_pos ⟨hit, by omega⟩, h1, hit]
      · rw [if_neg fun h => hit h.1]; exact h3 t (by omega))
  generalize (List.range' 0 k).foldl (fun (st : Nat × List α) i => (st.1 + 1, st.2.set i (F st.1))) (N, l) = r at key
  obtain ⟨M, l'⟩ := r
  obtain ⟨h1, h2, h3⟩ := key
  dsimp only at h1 h2 h3
  rw [Prod.mk.injEq]
  refine ⟨by omega, ext_get (by rw [h2, List.length_ofFn]) fun i hi => ?_⟩
  rw [h3 i (by omega), get_ofFn _ (by omega)]

/-! ### The matrix -/

/-- A row of the matrix -/
theorem row_eq (k i : Nat) (A : List (List (List Zq))) (hA : A.length = k) (hi : i < k) (hr : (A[i]!).length = k)
    (g : Nat → List Zq) : (List.range k).foldl (fun A j => A.set i (A[i]!.set j (g j))) A =
      A.set i (List.ofFn (n := k) fun j => g j.val) := by
  have : ∀ (l : List Nat) (A : List (List (List Zq))), A.length = k →
      l.foldl (fun A j => A.set i (A[i]!.set j (g j))) A =
        A.set i (l.foldl (fun r j => r.set j (g j)) A[i]!) := by
    intro l
    induction l with
    | nil =>
      intro A hA
      refine ext_get (by rw [List.length_set]; rfl) fun t _ => ?_
      rw [get_set]
      by_cases h : i = t
      · rw [if_pos ⟨h, by omega⟩, h]; rfl
      · rw [if_neg fun h' => h h'.1]; rfl
    | cons a l ih =>
      intro A hA
      rw [List.foldl_cons, ih _ (by rw [List.length_set]; exact hA), List.foldl_cons, get_set,
        if_pos ⟨rfl, by omega⟩, List.set_set]
  rw [this _ A hA, foldl_range, fill_eq k _ hr g]

variable (S : Sha3) (p : Params)

/-- The matrix of the specification, as lists -/
noncomputable def matL (k : Nat) (A : Nat → Nat → Poly) : List (List (List Zq)) :=
  List.ofFn fun i : Fin k => List.ofFn fun j : Fin k => ofPoly (A i.val j.val)

theorem matrix_some {rho : List UInt8} (h : SeedOk S p.k rho) :
    matrix S p rho = some (matL p.k (matA S rho)) := by
  have hin : ∀ i A, i ∈ List.range p.k → (forIn (m := Option) (List.range p.k) A fun j (A : List (List (List Zq))) => do
      let x ← SampleNTT S (rho ++ [UInt8.ofNat j, UInt8.ofNat i])
      pure (ForInStep.yield (A.set i (A[i]!.set j x)))) =
      some ((List.range p.k).foldl (fun A j => A.set i (A[i]!.set j (ofPoly (matA S rho i j)))) A) := fun i A hi => by
    refine forIn_some _ _ (fun j A hj => ?_) A
    rw [sampleNTT_eq S _ (h i j (List.mem_range.1 hi) (List.mem_range.1 hj))]
    rfl
  have hout := forIn_some (List.range p.k) (body := fun i A => do
      let A ← forIn (m := Option) (List.range p.k) A fun j (A : List (List (List Zq))) => do
        let x ← SampleNTT S (rho ++ [UInt8.ofNat j, UInt8.ofNat i])
        pure (ForInStep.yield (A.set i (A[i]!.set j x)))
      pure (ForInStep.yield A))
    (fun A i => (List.range p.k).foldl (fun A j => A.set i (A[i]!.set j (ofPoly (matA S rho i j)))) A)
    (fun i A hi => by rw [hin i A hi]; rfl) (List.replicate p.k (List.replicate p.k []))
  have he : matrix S p rho = (forIn (m := Option) (List.range p.k) (List.replicate p.k (List.replicate p.k [])) fun i A => do
      let A ← forIn (m := Option) (List.range p.k) A fun j (A : List (List (List Zq))) => do
        let x ← SampleNTT S (rho ++ [UInt8.ofNat j, UInt8.ofNat i])
        pure (ForInStep.yield (A.set i (A[i]!.set j x)))
      pure (ForInStep.yield A)) >>= pure := rfl
  rw [he, hout, bind_pure, foldl_range]
  refine congrArg some ?_
  have key := foldl_inv (lo := 0) (n := p.k) (s := List.replicate p.k (List.replicate p.k ([] : List Zq)))
    (f := fun A i => (List.range p.k).foldl (fun A j => A.set i (A[i]!.set j (ofPoly (matA S rho i j)))) A)
    (fun i A => A.length = p.k ∧ (∀ t, t < p.k → A[t]!.length = p.k) ∧
      ∀ t, t < i → A[t]! = List.ofFn fun j : Fin p.k => ofPoly (matA S rho t j.val))
    ⟨List.length_replicate, fun t ht => by
      rw [getElem!_pos _ t (by rw [List.length_replicate]; exact ht), List.getElem_replicate, List.length_replicate],
      fun t ht => absurd ht (by omega)⟩
    (by
      rintro i A - hi ⟨h1, h2, h3⟩
      rw [row_eq p.k i A h1 (by omega) (h2 i (by omega)) fun j => ofPoly (matA S rho i j)]
      refine ⟨by rw [List.length_set]; exact h1, fun t ht => ?_, fun t ht => ?_⟩
      · rw [get_set]
        split
        · exact List.length_ofFn
        · exact h2 t ht
      · rw [get_set]
        by_cases hit : i = t
        · rw [if_pos ⟨hit, by omega⟩, hit]
        · rw [if_neg fun h => hit h.1]; exact h3 t (by omega))
  obtain ⟨h1, -, h3⟩ := key
  refine ext_get (by rw [h1, matL, List.length_ofFn]) fun i hi => ?_
  rw [h1] at hi
  rw [h3 i (by omega), matL, get_ofFn _ hi]

theorem matrix_none {rho : List UInt8} (h : ¬ SeedOk S p.k rho) : matrix S p rho = none := by
  simp only [SeedOk, not_forall] at h
  obtain ⟨i, j, hi, hj, hij⟩ := h
  have he : matrix S p rho = (forIn (m := Option) (List.range p.k) (List.replicate p.k (List.replicate p.k [])) fun i A => do
      let A ← forIn (m := Option) (List.range p.k) A fun j (A : List (List (List Zq))) => do
        let x ← SampleNTT S (rho ++ [UInt8.ofNat j, UInt8.ofNat i])
        pure (ForInStep.yield (A.set i (A[i]!.set j x)))
      pure (ForInStep.yield A)) >>= pure := rfl
  rw [he, bind_pure]
  refine forIn_none _ (List.mem_range.2 hi) (fun A => ?_) (fun i A r hr => ?_) _
  · have : (forIn (m := Option) (List.range p.k) A fun j (A : List (List (List Zq))) => do
        let x ← SampleNTT S (rho ++ [UInt8.ofNat j, UInt8.ofNat i])
        pure (ForInStep.yield (A.set i (A[i]!.set j x)))) = none := by
      refine forIn_none _ (List.mem_range.2 hj) (fun A => ?_) (fun j A r hr => ?_) _
      · rw [sampleNTT_none S _ hij]; rfl
      · obtain ⟨x, -, hx⟩ := Option.bind_eq_some_iff.1 hr
        exact ⟨_, (Option.some.inj hx).symm⟩
    rw [this]; rfl
  · obtain ⟨x, -, hx⟩ := Option.bind_eq_some_iff.1 hr
    exact ⟨_, (Option.some.inj hx).symm⟩

/-! ### Vectors -/

/-- A vector of the specification, as lists -/
def ofVec {k : Nat} (f : Fin k → Poly) : List (List Zq) := List.ofFn fun i => ofPoly (f i)

variable {k : Nat}

theorem ofVec_get (f : Fin k → Poly) {i : Nat} (hi : i < k) : (ofVec f)[i]! = ofPoly (f ⟨i, hi⟩) := get_ofFn _ hi

theorem zipWith_ofFn {α β γ : Type} {n : Nat} (h : α → β → γ) (f : Fin n → α) (g : Fin n → β) :
    List.zipWith h (List.ofFn f) (List.ofFn g) = List.ofFn fun i => h (f i) (g i) := by
  refine List.ext_getElem (by simp) fun i h1 h2 => ?_
  simp

theorem add_eq (f g : Poly) : add (ofPoly f) (ofPoly g) = ofPoly (f + g) := by
  rw [ofPoly_eq, ofPoly_eq, ofPoly_eq, add, zipWith_ofFn]; rfl

theorem sub_eq (f g : Poly) : sub (ofPoly f) (ofPoly g) = ofPoly (f - g) := by
  rw [ofPoly_eq, ofPoly_eq, ofPoly_eq, sub, zipWith_ofFn]; rfl

theorem addVec_eq (f g : Fin k → Poly) : addVec (ofVec f) (ofVec g) = ofVec fun i => f i + g i := by
  rw [addVec, ofVec, ofVec, zipWith_ofFn, ofVec]
  refine congrArg List.ofFn (funext fun i => add_eq _ _)

theorem map_ofVec {β : Type} (f : Fin k → Poly) (h : List Zq → β) :
    (ofVec f).map h = List.ofFn fun i => h (ofPoly (f i)) := by rw [ofVec, List.map_ofFn]; rfl

theorem replicate_zero : List.replicate 256 (0 : Zq) = ofPoly 0 := by
  refine ext_get (by rw [ofPoly_length, List.length_replicate]) fun i hi => ?_
  rw [List.length_replicate] at hi
  rw [ofPoly_get _ hi]
  exact get_replicate_zero (α := Zq) 256 i

theorem dot_eq (u v : Fin k → Poly) : dot k (ofVec u) (ofVec v) = ofPoly (∑ j, Fips203.MultiplyNTTs (u j) (v j)) := by
  have e : dot k (ofVec u) (ofVec v) = (List.range' 0 k).foldl
      (fun w j => add w (MultiplyNTTs (ofVec u)[j]! (ofVec v)[j]!)) (List.replicate 256 0) := by
    unfold dot
    simp only [Std.Legacy.Range.forIn_eq_forIn_range', Std.Legacy.Range.size, Nat.sub_zero, Nat.add_sub_cancel,
      Nat.div_one, List.forIn_pure_yield_eq_foldl, pure_bind, Id.run_pure]
  have key := foldl_inv (lo := 0) (n := k) (s := List.replicate 256 (0 : Zq))
    (f := fun w j => add w (MultiplyNTTs (ofVec u)[j]! (ofVec v)[j]!))
    (fun i w => w = ofPoly (∑ j ∈ range i, if h : j < k then Fips203.MultiplyNTTs (u ⟨j, h⟩) (v ⟨j, h⟩) else 0))
    (by rw [Finset.sum_range_zero]; exact replicate_zero)
    (by
      rintro i w - hi rfl
      have hi : i < k := by omega
      rw [ofVec_get u hi, ofVec_get v hi, multiplyNTTs_eq, add_eq, Finset.sum_range_succ, dif_pos hi])
  rw [e, key, Nat.zero_add, Finset.sum_range]
  refine congrArg ofPoly (Finset.sum_congr rfl fun j _ => ?_)
  rw [dif_pos j.isLt]

theorem mulVec_eq (A : Nat → Nat → Poly) (u : Fin k → Poly) : mulVec k (matL k A) (ofVec u) =
    ofVec fun i : Fin k => ∑ j, Fips203.MultiplyNTTs (A i.val j.val) (u j) := by
  refine ext_get (by simp [mulVec, ofVec]) fun i hi => ?_
  have hi : i < k := by simpa [mulVec] using hi
  rw [ofVec_get _ hi, mulVec, getElem!_pos _ i (by simpa using hi), List.getElem_map, List.getElem_range, matL,
    get_ofFn _ hi]
  exact dot_eq _ _

theorem transpose_eq (A : Nat → Nat → Poly) : transpose k (matL k A) = matL k fun i j => A j i := by
  refine List.ext_getElem (by simp [transpose, matL]) fun i h1 h2 => ?_
  have hi : i < k := by simpa [transpose] using h1
  refine List.ext_getElem (by simp [transpose, matL]) fun j h3 h4 => ?_
  have hj : j < k := by simpa [transpose] using h3
  simp only [transpose, List.getElem_map, List.getElem_range]
  rw [matL, get_ofFn _ hj, get_ofFn _ hi]
  simp [matL]

theorem map_ofPoly {β : Type} (f : Poly) (h : Zq → β) : (ofPoly f).map h = List.ofFn fun n => h (f n) := by
  rw [ofPoly_eq, List.map_ofFn]; rfl

theorem byteEncode_ofFn (d : Nat) (F : Fin 256 → Nat) : ByteEncode d (List.ofFn F) = Fips203.ByteEncode d F := by
  rw [byteEncode_eq]
  exact congrArg _ (funext fun i => get_ofFn F i.isLt)

theorem byteEncodeVec_eq (d : Nat) (h : List Zq → List Nat) (g : Poly → Fin 256 → Nat)
    (hg : ∀ f, h (ofPoly f) = List.ofFn (g f)) (f : Fin k → Poly) :
    ByteEncodeVec d ((ofVec f).map h) = encodeVec d fun i => g (f i) := by
  rw [map_ofVec, ByteEncodeVec, List.map_ofFn, encodeVec]
  refine congrArg List.flatten (congrArg List.ofFn (funext fun i => ?_))
  show ByteEncode d (h (ofPoly (f i))) = _
  rw [hg, byteEncode_ofFn]

theorem bit_take (B : List UInt8) {n t : Nat} (h : t < 8 * n) : bit (B.take n) t = bit B t := by
  rw [bit, bit, List.getD_eq_getElem?_getD, List.getD_eq_getElem?_getD, List.getElem?_take_of_lt (by omega)]

theorem ByteDecode_take (d : Nat) (B : List UInt8) : Fips203.ByteDecode d (B.take (32 * d)) = Fips203.ByteDecode d B := by
  funext i
  rw [Fips203.ByteDecode, Fips203.ByteDecode]
  refine congrArg (· % _) (Finset.sum_congr rfl fun j hj => ?_)
  have : i.val * d + j < 8 * (32 * d) := by
    have h1 := Finset.mem_range.1 hj
    have h2 := Nat.mul_le_mul_right d (show i.val + 1 ≤ 256 by omega)
    rw [Nat.add_mul, Nat.one_mul] at h2
    omega
  show (bit (B.take (32 * d)) (i.val * d + j)).toNat * 2 ^ j = (bit B (i.val * d + j)).toNat * 2 ^ j
  rw [bit_take B this]

theorem block_take (d : Nat) (B : List UInt8) {i : Nat} (h : i < k) :
    ((B.take (32 * d * k)).drop (32 * d * i)).take (32 * d) = Fips203.block d B i := by
  rw [List.drop_take, List.take_take, Fips203.block]
  congr 1
  have h2 := Nat.mul_le_mul_left (32 * d) (show i + 1 ≤ k from h)
  rw [Nat.mul_add] at h2
  omega

theorem byteDecodeVec_eq {d : Nat} (hd : d ≤ 12) (B B' : List UInt8)
    (hB : ∀ i, i < k → (B.drop (32 * d * i)).take (32 * d) = Fips203.block d B' i) (h : List Nat → List Zq)
    (g : (Fin 256 → Nat) → Poly) (hg : ∀ F, h (List.ofFn F) = ofPoly (g F)) :
    (ByteDecodeVec d k B).map h = ofVec fun i : Fin k => g (Fips203.ByteDecode d (Fips203.block d B' i.val)) := by
  rw [ByteDecodeVec, List.map_map]
  refine List.ext_getElem (by simp [ofVec]) fun i h1 h2 => ?_
  have hi : i < k := by simpa using h1
  rw [List.getElem_map, List.getElem_range, Function.comp, hB i hi, byteDecode_eq hd, hg]
  simp [ofVec]

theorem toInts_ofPoly (f : Poly) : toInts (ofPoly f) = List.ofFn (rep f) := map_ofPoly f _

theorem ofInts_ofFn (F : Fin 256 → Nat) : ofInts (List.ofFn F) = ofPoly (ofNats F) := by
  rw [ofInts, List.map_ofFn, ofPoly_eq]; rfl

theorem map_ofFn' {α : Type} (F : Fin 256 → α) (h : α → Zq) : (List.ofFn F).map h = ofPoly fun n => h (F n) := by
  rw [List.map_ofFn, ofPoly_eq]; rfl

/-! ### K-PKE -/

theorem ofFn_cbd (eta : Nat) (s : List UInt8) (N : Nat) :
    (List.ofFn fun i : Fin k => SamplePolyCBD eta (PRF S eta s (N + i.val))) =
      ofVec fun i : Fin k => Fips203.SamplePolyCBD eta (PRF S eta s (N + i.val)) := by
  rw [ofVec]
  exact congrArg List.ofFn (funext fun i => by rw [samplePolyCBD_eq, ofPoly_eq])

theorem map_NTT (f : Fin k → Poly) : (ofVec f).map NTT = ofVec fun i => Fips203.NTT (f i) := by
  rw [map_ofVec, ofVec]
  exact congrArg List.ofFn (funext fun i => NTT_eq _)

theorem map_NTTinv (f : Fin k → Poly) : (ofVec f).map NTTinv = ofVec fun i => Fips203.NTTinv (f i) := by
  rw [map_ofVec, ofVec]
  exact congrArg List.ofFn (funext fun i => NTTinv_eq _)

/-- A loop that fills a vector with samples -/
theorem cbd_loop (eta : Nat) (s : List UInt8) (N : Nat) :
    (forIn (m := Option) (List.range k) (N, List.replicate k ([] : List Zq)) fun i st =>
      pure (ForInStep.yield (st.1 + 1, st.2.set i (SamplePolyCBD eta (PRF S eta s st.1))))) =
      some (N + k, ofVec fun i : Fin k => Fips203.SamplePolyCBD eta (PRF S eta s (N + i.val))) := by
  refine (forIn_some (List.range k) (fun (st : Nat × List (List Zq)) i =>
    (st.1 + 1, st.2.set i (SamplePolyCBD eta (PRF S eta s st.1))))
    (fun i st _ => rfl) _).trans ?_
  rw [counter_eq k N _ List.length_replicate fun N => SamplePolyCBD eta (PRF S eta s N), ofFn_cbd]

theorem kpke_keygen_some {d : List UInt8} (h : SeedOk S p.k (seeds S p d).1) :
    KPKE_KeyGen S p d = some (Fips203.KPKE_KeyGen S p d) := by
  have hm := matrix_some S p h
  unfold KPKE_KeyGen
  rw [seeds] at hm
  dsimp only
  rw [hm, some_bind, cbd_loop, some_bind, cbd_loop, some_bind]
  dsimp only
  rw [map_NTT, map_NTT, mulVec_eq, addVec_eq, byteEncodeVec_eq 12 toInts rep toInts_ofPoly,
    byteEncodeVec_eq 12 toInts rep toInts_ofPoly]
  simp only [Nat.zero_add]
  rfl

theorem kpke_keygen_none {d : List UInt8} (h : ¬ SeedOk S p.k (seeds S p d).1) : KPKE_KeyGen S p d = none := by
  have hm := matrix_none S p h
  unfold KPKE_KeyGen
  rw [seeds] at hm
  dsimp only
  rw [hm]
  rfl

theorem kpke_encrypt_some {ek : List UInt8} (m r : List UInt8)
    (h : SeedOk S p.k ((ek.drop (384 * p.k)).take 32)) :
    KPKE_Encrypt S p ek m r = some (Fips203.KPKE_Encrypt S p ek m r) := by
  have hm := matrix_some S p h
  unfold KPKE_Encrypt
  dsimp only
  rw [hm, some_bind, cbd_loop, some_bind, cbd_loop, some_bind]
  dsimp only
  rw [map_NTT, transpose_eq, mulVec_eq, map_NTTinv, addVec_eq,
    byteDecodeVec_eq (by omega) _ ek (fun i hi => block_take 12 ek hi) ofInts ofNats ofInts_ofFn, dot_eq, NTTinv_eq,
    samplePolyCBD_eq, ← ofPoly_eq, add_eq, byteDecode_eq (by omega), map_ofFn', add_eq,
    byteEncodeVec_eq p.du (fun f => f.map (Compress p.du)) (fun f n => Compress p.du (f n)) (fun f => map_ofPoly f _),
    map_ofPoly, byteEncode_ofFn]
  simp only [Nat.zero_add, ← Nat.two_mul]
  rfl

theorem kpke_encrypt_none {ek : List UInt8} (m r : List UInt8)
    (h : ¬ SeedOk S p.k ((ek.drop (384 * p.k)).take 32)) : KPKE_Encrypt S p ek m r = none := by
  have hm := matrix_none S p h
  unfold KPKE_Encrypt
  dsimp only
  rw [hm]
  rfl

theorem kpke_decrypt_eq (hu : p.du ≤ 12) (hv : p.dv ≤ 12) (dk c : List UInt8) :
    KPKE_Decrypt p dk c = Fips203.KPKE_Decrypt p dk c := by
  unfold KPKE_Decrypt
  dsimp only
  rw [byteDecodeVec_eq hu _ c (fun i hi => block_take p.du c hi) (fun f => f.map (Decompress p.du))
      (fun F n => Decompress p.du (F n)) (fun F => map_ofFn' F _),
    byteDecodeVec_eq (by omega) dk dk (fun i _ => rfl) ofInts ofNats ofInts_ofFn, map_NTT, dot_eq, NTTinv_eq,
    byteDecode_eq hv, ByteDecode_take, map_ofFn', sub_eq, map_ofPoly, byteEncode_ofFn]
  rfl

/-! ### ML-KEM -/

theorem keygen_some {d : List UInt8} (z : List UInt8) (h : SeedOk S p.k (seeds S p d).1) :
    KeyGen_internal S p d z = some (Fips203.KeyGen_internal S p d z) := by
  rw [KeyGen_internal, kpke_keygen_some S p h]
  rfl

theorem keygen_none {d : List UInt8} (z : List UInt8) (h : ¬ SeedOk S p.k (seeds S p d).1) :
    KeyGen_internal S p d z = none := by
  rw [KeyGen_internal, kpke_keygen_none S p h]
  rfl

theorem encaps_some {ek : List UInt8} (m : List UInt8) (h : SeedOk S p.k ((ek.drop (384 * p.k)).take 32)) :
    Encaps_internal S p ek m = some (Fips203.Encaps_internal S p ek m) := by
  rw [Encaps_internal]
  dsimp only
  rw [kpke_encrypt_some S p _ _ h]
  rfl

theorem encaps_none {ek : List UInt8} (m : List UInt8) (h : ¬ SeedOk S p.k ((ek.drop (384 * p.k)).take 32)) :
    Encaps_internal S p ek m = none := by
  rw [Encaps_internal]
  dsimp only
  rw [kpke_encrypt_none S p _ _ h]
  rfl

/-- The seed of the matrix in a decapsulation key -/
theorem rho_of_dk (dk : List UInt8) : (((dk.drop (384 * p.k)).take (384 * p.k + 32)).drop (384 * p.k)).take 32 =
    (dk.drop (768 * p.k)).take 32 := by
  rw [List.drop_take, List.drop_drop, List.take_take]
  congr 2 <;> omega

theorem decaps_some (hu : p.du ≤ 12) (hv : p.dv ≤ 12) {dk : List UInt8} (c : List UInt8)
    (h : SeedOk S p.k ((dk.drop (768 * p.k)).take 32)) :
    Decaps_internal S p dk c = some (Fips203.Decaps_internal S p dk c) := by
  rw [← rho_of_dk] at h
  unfold Decaps_internal
  rw [show 768 * p.k + 32 - 384 * p.k = 384 * p.k + 32 by omega]
  dsimp only
  rw [kpke_decrypt_eq p hu hv, kpke_encrypt_some S p _ _ h, some_bind]
  unfold Fips203.Decaps_internal
  dsimp only
  split_ifs with h1 h2
  · rfl
  · rfl
  · exact absurd (not_not.1 h1) h2

theorem decaps_none {dk : List UInt8} (c : List UInt8)
    (h : ¬ SeedOk S p.k ((dk.drop (768 * p.k)).take 32)) : Decaps_internal S p dk c = none := by
  rw [← rho_of_dk] at h
  unfold Decaps_internal
  rw [show 768 * p.k + 32 - 384 * p.k = 384 * p.k + 32 by omega]
  dsimp only
  rw [kpke_encrypt_none S p _ _ h]
  rfl

end Fips203.Alg
