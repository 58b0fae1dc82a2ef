import Verif.Props.Cca
import Verif.Spec.Mlwe
/-! C67: K-PKE is one-way if module learning with errors is hard, and what that means for the modelled code. -/
set_option linter.unusedSectionVars false

namespace MlKem
open Rust Fips203 Finset BigOperators Fo

noncomputable instance : Fintype UInt8 := Fintype.ofFinite _

section
variable (S : Sha3) {p : Params}

theorem prf_table {eta : Nat} (he : eta ≤ 3) (s : B32) (b : Nat) :
    SamplePolyCBD eta (Fips203.PRF S eta s.toList b) = SamplePolyCBD eta (prfTable S s (UInt8.ofNat b)).toList := by
  have e : Fips203.PRF S eta s.toList b = (prfTable S s (UInt8.ofNat b)).toList.take (64 * eta) := by
    unfold Fips203.PRF prefixBytes prfTable
    apply List.ext_getElem
    · rw [List.length_ofFn, List.length_take, Vector.length_toList]; omega
    · intro i h1 h2
      rw [List.getElem_ofFn, List.getElem_take, Vector.getElem_toList, Vector.getElem_ofFn]
  rw [e, cbd_take]

theorem packKey_toList {e : Nat} (he : e = 384 * p.k + 32) (rho : B32) (t : Fin p.k → Poly) :
    (packKey p e rho t).toList = enc12 t ++ rho.toList := by
  refine toList_bytesOf ?_
  rw [he]
  show (enc12 t ++ rho.toList).length = _
  rw [List.length_append, enc12_length, Vector.length_toList]

theorem keygen_pack (h1 : p.eta1 ≤ 3) {e : Nat} (he : e = 384 * p.k + 32) (d : B32) :
    (KPKE_KeyGen S p d.toList).1 = (packKey p e (seedPair S p d).1 (lweKey S p (seedPair S p d).1
      (fun i => prfTable S (seedPair S p d).2 (UInt8.ofNat i.val))
      fun i => prfTable S (seedPair S p d).2 (UInt8.ofNat (p.k + i.val)))).toList := by
  have e1 : (seedPair S p d).1.toList = (seeds S p d.toList).1 := toList_bytesOf (seeds_length S p _).1
  have e2 : (seedPair S p d).2.toList = (seeds S p d.toList).2 := toList_bytesOf (seeds_length S p _).2
  rw [packKey_toList he, KPKE_KeyGen_eq, e1]
  refine congrArg (· ++ _) (congrArg enc12 ?_)
  funext i
  unfold genT genS lweKey
  simp only [e1, ← prf_table S h1, e2]

theorem encrypt_pack (h1 : p.eta1 ≤ 3) (h2 : p.eta2 ≤ 3) {e n : Nat} (he : e = 384 * p.k + 32) (rho m r : B32)
    (t : Fin p.k → Poly) :
    encrypt S p n (packKey p e rho t).toList m r = packCipher p n
      (lweU S p rho (fun i => prfTable S r (UInt8.ofNat i.val)) fun i => prfTable S r (UInt8.ofNat (p.k + i.val)))
      (lweV p t (fun i => prfTable S r (UInt8.ofNat i.val)) (prfTable S r (UInt8.ofNat (2 * p.k))) + messagePoly m) := by
  unfold encrypt packCipher
  rw [packKey_toList he, KPKE_Encrypt_enc12 S p t _ _ _ (by simp)]
  unfold encT lweU lweV messagePoly
  simp only [prf_table S h1, prf_table S h2]

/-- The values at the nonces of key generation are independent. -/
theorem expect_keyNoise (hk : 2 * p.k ≤ 255) (f : (Fin p.k → Bytes 192) → (Fin p.k → Bytes 192) → ℝ) :
    𝔼 F : UInt8 → Bytes 192, f (fun i => F (UInt8.ofNat i.val)) (fun i => F (UInt8.ofNat (p.k + i.val)))
      = 𝔼 xs, 𝔼 xe, f xs xe := by
  have hj : Function.Injective (Sum.elim (fun i : Fin p.k => UInt8.ofNat i.val) fun i : Fin p.k => UInt8.ofNat (p.k + i.val)) := by
    have key : ∀ {a b : Nat}, a < 256 → b < 256 → UInt8.ofNat a = UInt8.ofNat b → a = b := by
      intro a b ha hb h
      have := congrArg UInt8.toNat h
      simpa [UInt8.toNat_ofNat', Nat.mod_eq_of_lt ha, Nat.mod_eq_of_lt hb] using this
    rintro (i | i) (j | j) h <;> simp only [Sum.elim_inl, Sum.elim_inr] at h <;>
      have h := key (by omega) (by omega) h
    · rw [Fin.ext h]
    · omega
    · omega
    · rw [Fin.ext (Nat.add_left_cancel h)]
  refine (expect_comp_injective hj fun x => f (fun i => x (.inl i)) fun i => x (.inr i)).trans ?_
  exact (Fintype.expect_equiv (Equiv.sumArrowEquivProdArrow (Fin p.k) (Fin p.k) (Bytes 192)) _
    (fun y => f y.1 y.2) fun x => rfl).trans (expect_prod_type _)

/-- The values at the nonces of encryption are independent. -/
theorem expect_encNoise (hk : 2 * p.k ≤ 255) (f : (Fin p.k → Bytes 192) → (Fin p.k → Bytes 192) → Bytes 192 → ℝ) :
    𝔼 F : UInt8 → Bytes 192, f (fun i => F (UInt8.ofNat i.val)) (fun i => F (UInt8.ofNat (p.k + i.val)))
        (F (UInt8.ofNat (2 * p.k)))
      = 𝔼 xs, 𝔼 xe, 𝔼 x2, f xs xe x2 := by
  have hj : Function.Injective (Sum.elim (fun i : Fin p.k => UInt8.ofNat i.val)
      (Sum.elim (fun i : Fin p.k => UInt8.ofNat (p.k + i.val)) fun _ : Unit => UInt8.ofNat (2 * p.k))) := by
    have key : ∀ {a b : Nat}, a < 256 → b < 256 → UInt8.ofNat a = UInt8.ofNat b → a = b := by
      intro a b ha hb h
      have := congrArg UInt8.toNat h
      simpa [UInt8.toNat_ofNat', Nat.mod_eq_of_lt ha, Nat.mod_eq_of_lt hb] using this
    rintro (i | i | i) (j | j | j) h <;> simp only [Sum.elim_inl, Sum.elim_inr] at h <;>
      first
      | (have h := key (by omega) (by omega) h; first | omega | rw [Fin.ext h] | rw [Fin.ext (Nat.add_left_cancel h)])
      | rfl
  refine (expect_comp_injective hj fun x => f (fun i => x (.inl i)) (fun i => x (.inr (.inl i))) (x (.inr (.inr ())))).trans ?_
  refine (Fintype.expect_equiv (Equiv.sumArrowEquivProdArrow (Fin p.k) (Fin p.k ⊕ Unit) (Bytes 192)) _
    (fun y => f y.1 (fun i => y.2 (.inl i)) (y.2 (.inr ()))) fun x => rfl).trans ((expect_prod_type _).trans ?_)
  refine Finset.expect_congr rfl fun xs _ => ?_
  refine (Fintype.expect_equiv (Equiv.sumArrowEquivProdArrow (Fin p.k) Unit (Bytes 192)) _
    (fun y => f xs y.1 (y.2 ())) fun x => rfl).trans ((expect_prod_type _).trans ?_)
  refine Finset.expect_congr rfl fun xe _ => ?_
  exact Fintype.expect_equiv (Equiv.funUnique Unit (Bytes 192)) _ _ fun x => rfl

theorem advantage_eq {X Ω W W' : Type} [Fintype Ω] [Fintype W] [Fintype W'] (D : X → Ω → Prop) (real : W → X)
    (ideal : W' → X) :
    Fips203.advantage D real ideal = |(𝔼 w, 𝔼 o, ind (D (real w) o)) - 𝔼 w, 𝔼 o, ind (D (ideal w) o)| := by
  unfold Fips203.advantage
  simp only [prob_ind, expect_prod_type]

/-- The games: each step from the real to the ideal version of one assumption leads to the next. -/
theorem C67_games (hk : 2 * p.k ≤ 255) (h1 : p.eta1 ≤ 3) (h2 : p.eta2 ≤ 3) {e n : Nat} (he : e = 384 * p.k + 32)
    {Ω : Type} [Fintype Ω] [Nonempty Ω] (B : Bytes e → Bytes n → Ω → List B32) {q : Nat}
    (hB : ∀ ek c o, (B ek c o).length ≤ q) :
    prob (fun ((d, m, r, coins) : B32 × B32 × B32 × Ω) => m ∈ B (Fips203.bytes e (KPKE_KeyGen S p d.toList).1)
        (encrypt S p n (KPKE_KeyGen S p d.toList).1 m r) coins)
      = 𝔼 w, 𝔼 o, ind (onSeeds S p B (seedPair S p w) o)
    ∧ 𝔼 w, 𝔼 o, ind (onSeeds S p B w o) = 𝔼 w, 𝔼 o, ind (onKeyNoise S p B (prfTable S w) o)
    ∧ 𝔼 w, 𝔼 o, ind (onKeyNoise S p B w o) = 𝔼 w, 𝔼 o, ind (onKey S p B (lwe1 S p w) o)
    ∧ 𝔼 w, 𝔼 o, ind (onKey S p B w o) = 𝔼 w, 𝔼 o, ind (onCipherNoise S p B (prfTable S w) o)
    ∧ 𝔼 w, 𝔼 o, ind (onCipherNoise S p B w o) = 𝔼 w, 𝔼 o, ind (onCipher p B (lwe2 S p w) o)
    ∧ 𝔼 w, 𝔼 o, ind (onCipher p B w o) ≤ q * 2 ^ (-256 : ℤ) := by
  simp only [prob_ind, expect_prod_type]
  simp only [keygen_pack S h1 he, bytes_toList', onSeeds, onKeyNoise, onKey, onCipherNoise, onCipher, lwe1, lwe2,
    encrypt_pack S h1 h2 he]
  set key : B32 → (UInt8 → Bytes 192) → Fin p.k → Poly := fun rho F =>
    lweKey S p rho (fun i => F (UInt8.ofNat i.val)) fun i => F (UInt8.ofNat (p.k + i.val)) with hkey
  set g : B32 → (Fin p.k → Poly) → (UInt8 → Bytes 192) → B32 → Ω → ℝ := fun rho t F m o => ind (m ∈ B (packKey p e rho t)
    (packCipher p n (lweU S p rho (fun i => F (UInt8.ofNat i.val)) fun i => F (UInt8.ofNat (p.k + i.val)))
      (lweV p t (fun i => F (UInt8.ofNat i.val)) (F (UInt8.ofNat (2 * p.k))) + messagePoly m)) o) with hg
  have c1 : 𝔼 rho, 𝔼 sigma, 𝔼 m, 𝔼 r, 𝔼 o, g rho (key rho (prfTable S sigma)) (prfTable S r) m o
      = 𝔼 sigma, 𝔼 rho, 𝔼 m, 𝔼 r, 𝔼 o, g rho (key rho (prfTable S sigma)) (prfTable S r) m o := Finset.expect_comm ..
  have c2 : 𝔼 F, 𝔼 rho, 𝔼 m, 𝔼 r, 𝔼 o, g rho (key rho F) (prfTable S r) m o
      = 𝔼 rho, 𝔼 xs, 𝔼 xe, 𝔼 m, 𝔼 r, 𝔼 o, g rho (lweKey S p rho xs xe) (prfTable S r) m o := by
    rw [Finset.expect_comm]
    exact Finset.expect_congr rfl fun rho _ => expect_keyNoise hk fun xs xe =>
      𝔼 m, 𝔼 r, 𝔼 o, g rho (lweKey S p rho xs xe) (prfTable S r) m o
  have c3 : 𝔼 rho, 𝔼 t, 𝔼 m, 𝔼 r, 𝔼 o, g rho t (prfTable S r) m o
      = 𝔼 r, 𝔼 rho, 𝔼 t, 𝔼 m, 𝔼 o, g rho t (prfTable S r) m o := by
    refine (Finset.expect_congr rfl fun rho _ => ?_).trans (Finset.expect_comm ..)
    refine (Finset.expect_congr rfl fun t _ => ?_).trans (Finset.expect_comm ..)
    exact Finset.expect_comm ..
  have c4 : 𝔼 F, 𝔼 rho, 𝔼 t, 𝔼 m, 𝔼 o, g rho t F m o
      = 𝔼 rho, 𝔼 t, 𝔼 xy, 𝔼 xe, 𝔼 x2, 𝔼 m, 𝔼 o, ind (m ∈ B (packKey p e rho t)
          (packCipher p n (lweU S p rho xy xe) (lweV p t xy x2 + messagePoly m)) o) := by
    refine (Finset.expect_comm ..).trans (Finset.expect_congr rfl fun rho _ => ?_)
    refine (Finset.expect_comm ..).trans (Finset.expect_congr rfl fun t _ => ?_)
    exact expect_encNoise hk fun xy xe x2 => 𝔼 m, 𝔼 o, ind (m ∈ B (packKey p e rho t)
          (packCipher p n (lweU S p rho xy xe) (lweV p t xy x2 + messagePoly m)) o)
  have c5 : 𝔼 rho, 𝔼 t, 𝔼 u, 𝔼 v, 𝔼 m, 𝔼 o, ind (m ∈ B (packKey p e rho t) (packCipher p n u (v + messagePoly m)) o)
      ≤ q * 2 ^ (-256 : ℤ) := by
    have av : ∀ {X : Type} [Fintype X] [Nonempty X] {f : X → ℝ} {c : ℝ}, (∀ x, f x ≤ c) → 𝔼 x, f x ≤ c :=
      fun {X} _ _ {f c} h => (Finset.expect_le_expect fun x _ => h x).trans (le_of_eq (Fintype.expect_const c))
    refine av fun rho => av fun t => av fun u => ?_
    rw [Finset.expect_comm]
    have sh : ∀ m : B32, 𝔼 v, 𝔼 o, ind (m ∈ B (packKey p e rho t) (packCipher p n u (v + messagePoly m)) o)
        = 𝔼 v, 𝔼 o, ind (m ∈ B (packKey p e rho t) (packCipher p n u v) o) := fun m =>
      Fintype.expect_equiv (Equiv.addRight (messagePoly m)) _ _ fun v => rfl
    simp only [sh]
    rw [Finset.expect_comm]
    refine av fun v => ?_
    rw [Finset.expect_comm]
    refine av fun o => (mem_prob _).trans ?_
    have := hB (packKey p e rho t) (packCipher p n u v) o
    gcongr
  exact ⟨trivial, c1, c2, c3, c4, c5⟩

/-- **C67** The probability that `B`, given a public key and an encryption of a random message, lists the message
among at most `q` guesses is bounded by the advantages of the distinguishers built from it. -/
theorem C67_one_way (hk : 2 * p.k ≤ 255) (h1 : p.eta1 ≤ 3) (h2 : p.eta2 ≤ 3) {e n : Nat} (he : e = 384 * p.k + 32)
    {Ω : Type} [Fintype Ω] [Nonempty Ω] (B : Bytes e → Bytes n → Ω → List B32) {q : Nat}
    (hB : ∀ ek c o, (B ek c o).length ≤ q) :
    prob (fun ((d, m, r, coins) : B32 × B32 × B32 × Ω) => m ∈ B (Fips203.bytes e (KPKE_KeyGen S p d.toList).1)
        (encrypt S p n (KPKE_KeyGen S p d.toList).1 m r) coins)
      ≤ Fips203.advantage (onSeeds S p B) (seedPair S p) id
        + Fips203.advantage (onKeyNoise S p B) (prfTable S) id
        + Fips203.advantage (onKey S p B) (lwe1 S p) id
        + Fips203.advantage (onCipherNoise S p B) (prfTable S) id
        + Fips203.advantage (onCipher p B) (lwe2 S p) id
        + q * 2 ^ (-256 : ℤ) := by
  obtain ⟨c0, c1, c2, c3, c4, c5⟩ := C67_games S hk h1 h2 he B hB
  simp only [advantage_eq, id]
  have tri : ∀ {a b c : ℝ}, b ≤ c → a ≤ |a - b| + c := fun {a b c} h => by have := le_abs_self (a - b); linarith
  have t1 := c0.trans_le (tri (c1.trans_le (tri (c2.trans_le (tri (c3.trans_le (tri (c4.trans_le (tri c5)))))))))
  simp only [← add_assoc] at t1
  exact t1

/-! ### The modelled code -/

theorem hashed_length {n : Nat} (G : B32 → B32 → B32 × B32) (J : B32 → Bytes n → B32) (D : Bytes n → Option B32)
    (A : Attacker n) {q : Nat} (h : A.AtMost q) : (A.hashed G J D).length ≤ q := by
  induction A generalizing q with
  | guess b => exact Nat.zero_le _
  | hashG m a next ih =>
    obtain ⟨q', rfl, h⟩ := h
    exact Nat.succ_le_succ (ih _ (h _))
  | hashJ z c next ih =>
    obtain ⟨q', rfl, h⟩ := h
    exact (ih _ (h _)).trans (Nat.le_succ _)
  | decaps c next ih =>
    obtain ⟨q', rfl, h⟩ := h
    exact (ih _ (h _)).trans (Nat.le_succ _)

open Classical in
/-- **C68** Chosen-ciphertext security of the modelled code. An attacker that asks at most `q` questions tells the key
that encapsulation returns from a random one with an advantage of at most the advantages of five distinguishers
built from it, which are given no secret key and no decapsulation: against `G` as a generator, twice against
`PRF`, and twice against module learning with errors; plus `3 (q + 1) 𝔼 δ + 3 q / 2^256`, where `δ d` bounds the
probability that K-PKE decryption with the key generated from `d` returns another message than was encrypted. -/
theorem C68_secure [Build] {P : ParameterSet} (h : Supported P p)
    (A : P.EncodedEncryptionKey → P.EncodedCiphertext → B32 → Attacker P.CiphertextSize) {q : Nat}
    (hA : ∀ e c K, (A e c K).AtMost q) {δ : B32 → ℝ} (hδ : ∀ d m, prob (fun r : B32 => Incorrect S p d m r) ≤ δ d) :
    |prob (fun (d, m, G, z, J) => Attack S P A id d z m G J)
        - prob (fun (d, m, K1, G, z, J) => Attack S P A (fun _ => K1) d z m G J)|
      ≤ Fips203.advantage (onSeeds S p (simulate S p A)) (seedPair S p) id
        + Fips203.advantage (onKeyNoise S p (simulate S p A)) (prfTable S) id
        + Fips203.advantage (onKey S p (simulate S p A)) (lwe1 S p) id
        + Fips203.advantage (onCipherNoise S p (simulate S p A)) (prfTable S) id
        + Fips203.advantage (onCipher p (simulate S p A)) (lwe2 S p) id
        + 3 * (q + 1) * (𝔼 d, δ d) + 3 * q * 2 ^ (-256 : ℤ) := by
  have he : ∀ x : CbdSize, x.toNat ≤ 3 := by intro x; cases x <;> decide
  have h1 := C66_chosen_ciphertext S h A hA hδ
  have h2 := C67_one_way S h.k_le (h.eta1 ▸ he _) (h.eta2 ▸ he _) (e := P.EncryptionKeySize)
    (by obtain rfl := h.eq; rfl) (simulate S p A) (q := q) fun ek c o => hashed_length _ _ _ _ (hA _ _ _)
  linarith

/-- With the toy hash functions decryption is always possible without the secret key, by searching for it, so C67
gives that one of the five distinguishers succeeds. -/
example [Build] : ∃ B : Bytes MlKem768Params.EncryptionKeySize → Bytes MlKem768Params.CiphertextSize → Unit → List B32,
    1 - 2 ^ (-256 : ℤ) ≤ Fips203.advantage (onSeeds Toy.S ML_KEM_768 B) (seedPair Toy.S ML_KEM_768) id
        + Fips203.advantage (onKeyNoise Toy.S ML_KEM_768 B) (prfTable Toy.S) id
        + Fips203.advantage (onKey Toy.S ML_KEM_768 B) (lwe1 Toy.S ML_KEM_768) id
        + Fips203.advantage (onCipherNoise Toy.S ML_KEM_768 B) (prfTable Toy.S) id
        + Fips203.advantage (onCipher ML_KEM_768 B) (lwe2 Toy.S ML_KEM_768) id := by
  classical
  have key : ∀ ek : Bytes MlKem768Params.EncryptionKeySize, ∃ f : Bytes MlKem768Params.CiphertextSize → B32,
      ∀ d : B32, Fips203.bytes _ (KPKE_KeyGen Toy.S ML_KEM_768 d.toList).1 = ek → ∀ m r,
        f (encrypt Toy.S ML_KEM_768 _ (KPKE_KeyGen Toy.S ML_KEM_768 d.toList).1 m r) = m := by
    intro ek
    have hl : ∀ d : B32, (Fips203.bytes MlKem768Params.EncryptionKeySize (KPKE_KeyGen Toy.S ML_KEM_768 d.toList).1).toList
        = (KPKE_KeyGen Toy.S ML_KEM_768 d.toList).1 := by
      intro d
      refine toList_bytesOf ?_
      rw [KPKE_KeyGen_eq, List.length_append, enc12_length, (seeds_length Toy.S ML_KEM_768 d.toList).1]
      rfl
    by_cases hex : ∃ d0 : B32, Fips203.bytes MlKem768Params.EncryptionKeySize (KPKE_KeyGen Toy.S ML_KEM_768 d0.toList).1 = ek
    · obtain ⟨d0, h0⟩ := hex
      refine ⟨decrypt Toy.S ML_KEM_768 _ d0, fun d hd m r => ?_⟩
      rw [show (KPKE_KeyGen Toy.S ML_KEM_768 d.toList).1 = (KPKE_KeyGen Toy.S ML_KEM_768 d0.toList).1 by
        rw [← hl d, ← hl d0, h0, hd]]
      by_contra hne
      exact toy_correct _ _ _ ((fail_iff Toy.S supported_768 d0 m r).1 hne)
    · exact ⟨fun _ => default, fun d hd => absurd ⟨d, hd⟩ hex⟩
  choose f hf using key
  refine ⟨fun ek c _ => [f ek c], ?_⟩
  have := C67_one_way Toy.S (p := ML_KEM_768) (e := MlKem768Params.EncryptionKeySize) (n := MlKem768Params.CiphertextSize)
    (by decide) (by decide) (by decide) rfl (fun ek c (_ : Unit) => [f ek c]) (q := 1) fun _ _ _ => le_refl _
  have h1 : prob (fun ((d, m, r, coins) : B32 × B32 × B32 × Unit) =>
      m ∈ [f (Fips203.bytes _ (KPKE_KeyGen Toy.S ML_KEM_768 d.toList).1)
        (encrypt Toy.S ML_KEM_768 _ (KPKE_KeyGen Toy.S ML_KEM_768 d.toList).1 m r)]) = 1 := by
    rw [prob_ind]
    refine (Finset.expect_congr rfl fun x _ => if_pos ?_).trans (Fintype.expect_const (1 : ℝ))
    obtain ⟨d, m, r, o⟩ := x
    exact List.mem_singleton.2 (hf _ d rfl m r).symm
  rw [h1] at this
  simp only [Nat.cast_one, one_mul] at this
  linarith

end

end MlKem
