import Verif.Props.MlweUniform
import Verif.Proofs.FoPseudorandom
import Verif.Spec.Pseudorandom
/-! C82: ciphertexts and shared keys of the modelled code look random to chosen-ciphertext attackers. -/
set_option linter.unusedSectionVars false

namespace MlKem
open Rust Fips203 Finset BigOperators Fo

/-! ### The game with an unrelated challenge -/

/-- The attacker is given the public key generated from `d` and `z`, and any ciphertext `c` and key `K`. It may ask for
`G`, for `J`, and for the decapsulation of all other ciphertexts. It ends with the guess `true`. -/
def AttackOn [Build] (S : Sha3) (P : ParameterSet)
    (A : P.EncodedEncryptionKey → P.EncodedCiphertext → B32 → Attacker P.CiphertextSize)
    (c : P.EncodedCiphertext) (K : B32) (d z : B32) (G : B32 → B32 → B32 × B32)
    (J : B32 → P.EncodedCiphertext → B32) : Prop :=
  ∃ (dk : DecapsulationKey P) (ek : EncapsulationKey P) (eb : P.EncodedEncryptionKey),
    Kem.generate_deterministic (withOracles S G J) P d z = .ok (dk, ek) ∧ ek.as_bytes = .ok eb ∧
    (A eb c K).output G J (fun c' =>
      if c' = c then none else
        match dk.decapsulate (withOracles S G J) c' with
        | .ok K' => some K'
        | _ => none) = true

section
variable [Build] (S : Sha3) {P : ParameterSet} {p : Params}

theorem attackOn_iff (h : Supported P p)
    (A : P.EncodedEncryptionKey → P.EncodedCiphertext → B32 → Attacker P.CiphertextSize) (c : P.EncodedCiphertext)
    (K : B32) {d : B32} (hs : SeedOk S p.k (seeds S p d.toList).1) (z : B32) (G : B32 → B32 → B32 × B32)
    (J : B32 → P.EncodedCiphertext → B32) :
    AttackOn S P A c K d z G J ↔
      (A (Fips203.bytes _ (KPKE_KeyGen S p d.toList).1) c K).output G J
        (simD c (Fo.keyOf (encrypt S p _ (KPKE_KeyGen S p d.toList).1) (decrypt S p _ d)
            (fun m => (G m (keyHash S p d)).1) (fun m => (G m (keyHash S p d)).2) (J z))) = true := by
  obtain ⟨dk, ek, h1, h2, h3, h4⟩ := run_ok S h hs z G J
  unfold AttackOn
  constructor
  · rintro ⟨dk', ek', eb, g1, g2, g4⟩
    obtain ⟨rfl, rfl⟩ := Prod.mk.inj (Res.ok.inj (h1.symm.trans g1))
    obtain rfl := Res.ok.inj (h2.symm.trans g2)
    simp only [h4] at g4
    refine Eq.trans ?_ g4
    unfold simD
    congr 1
    funext c'
    congr
  · intro g4
    refine ⟨dk, ek, _, h1, h2, ?_⟩
    simp only [h4]
    refine Eq.trans ?_ g4
    unfold simD
    congr 1
    funext c'
    congr

theorem attackOn_none (h : Supported P p)
    (A : P.EncodedEncryptionKey → P.EncodedCiphertext → B32 → Attacker P.CiphertextSize) (c : P.EncodedCiphertext)
    (K : B32) {d : B32} (hs : ¬ SeedOk S p.k (seeds S p d.toList).1) (z : B32) (G : B32 → B32 → B32 × B32)
    (J : B32 → P.EncodedCiphertext → B32) : ¬ AttackOn S P A c K d z G J := by
  rintro ⟨dk, ek, eb, h1, -⟩
  have := (genSeed_iff (withOracles S G J) h d z).1 ⟨_, h1⟩
  rw [oracles_seeds S G J (by simp)] at this
  exact hs this

/-! ### One key -/

theorem pk_toList (h : Supported P p) (d : B32) :
    (Fips203.bytes P.EncryptionKeySize (KPKE_KeyGen S p d.toList).1).toList = (KPKE_KeyGen S p d.toList).1 := by
  obtain rfl := h.eq
  refine toList_bytesOf ?_
  rw [KPKE_KeyGen_eq, List.length_append, enc12_length, (seeds_length S _ _).1]

/-- The simulation, with the tables split -/
theorem simulateGuess_tables (h : Supported P p)
    (A : P.EncodedEncryptionKey → P.EncodedCiphertext → B32 → Attacker P.CiphertextSize) (d : B32)
    (c : P.EncodedCiphertext) (J : B32 → P.EncodedCiphertext → B32) (K1 : B32) (t : P.EncodedCiphertext → B32) :
    𝔼 G, ind (simulateGuess S p A (Fips203.bytes _ (KPKE_KeyGen S p d.toList).1) c (J, K1, t, G) = true)
      = 𝔼 Gt, 𝔼 r : B32 → B32, ind (Sim2 (encrypt S p P.CiphertextSize (KPKE_KeyGen S p d.toList).1)
          (fun c K => toTree Gt J (keyHash S p d) (A (Fips203.bytes _ (KPKE_KeyGen S p d.toList).1) c K)) c r t K1) := by
  rw [expect_tables (keyHash S p d)]
  refine Finset.expect_congr rfl fun Gt _ => Finset.expect_congr rfl fun r _ => ?_
  refine (Finset.expect_congr rfl fun k _ => ind_congr ?_).trans (Fintype.expect_const (ι := B32 → B32) _)
  unfold simulateGuess Sim2
  dsimp only
  rw [pk_toList S h, simulateG_update, simD_eq, toTree_out]

/-- The real game, for one key and one message, against the simulation on an encryption of the message -/
theorem real_simulated (h : Supported P p)
    (A : P.EncodedEncryptionKey → P.EncodedCiphertext → B32 → Attacker P.CiphertextSize) {q : Nat}
    (hA : ∀ e c K, (A e c K).AtMost q) {d : B32} (hs : SeedOk S p.k (seeds S p d.toList).1) {δ : ℝ}
    (hδ : ∀ m, prob (fun r : B32 => Incorrect S p d m r) ≤ δ) (m : B32) :
    |(𝔼 G, 𝔼 z, 𝔼 J, ind (Attack S P A id d z m G J))
        - 𝔼 J, 𝔼 K1, 𝔼 t, 𝔼 r : B32, 𝔼 G, ind (simulateGuess S p A (Fips203.bytes _ (KPKE_KeyGen S p d.toList).1)
          (encrypt S p _ (KPKE_KeyGen S p d.toList).1 m r) (J, K1, t, G) = true)|
      ≤ (𝔼 J, 𝔼 K1, 𝔼 t, 𝔼 r : B32, 𝔼 G, ind (m ∈ simulate S p A (Fips203.bytes _ (KPKE_KeyGen S p d.toList).1)
          (encrypt S p _ (KPKE_KeyGen S p d.toList).1 m r) (J, K1, t, G)))
        + 2 * ((q + 1) * δ) + q * 2 ^ (-256 : ℤ) := by
  have hek := pk_toList S h d
  have hδ' : ∀ m, 𝔼 r : B32, ind (Fail (encrypt S p P.CiphertextSize (KPKE_KeyGen S p d.toList).1) (decrypt S p _ d) m r) ≤ δ := by
    intro m
    simp only [ind_congr (fail_iff S h d m _)]
    rw [← prob_ind]
    exact hδ m
  have hδ0 : 0 ≤ δ := le_trans (by unfold prob; positivity) (hδ m)
  simp only [ind_congr (attack_iff S h A _ hs _ _ _ _), simulateGuess_tables S h]
  generalize hE : encrypt S p P.CiphertextSize (KPKE_KeyGen S p d.toList).1 = enc at *
  generalize hD : decrypt S p P.CiphertextSize d = dec at *
  generalize heb : Fips203.bytes P.EncryptionKeySize (KPKE_KeyGen S p d.toList).1 = eb at *
  set hk := keyHash S p d with hhk
  -- the rejection keys become independent
  have s1 : |(𝔼 G, 𝔼 z, 𝔼 J, ind ((A eb (enc m (G m hk).2) (G m hk).1).output G J
        (simD (enc m (G m hk).2) (Fo.keyOf enc dec (fun m => (G m hk).1) (fun m => (G m hk).2) (J z))) = true))
      - 𝔼 G : B32 → B32 → B32 × B32, 𝔼 J : B32 → P.EncodedCiphertext → B32, 𝔼 j : P.EncodedCiphertext → B32,
        ind ((A eb (enc m (G m hk).2) (G m hk).1).output G J
        (simD (enc m (G m hk).2) (Fo.keyOf enc dec (fun m => (G m hk).1) (fun m => (G m hk).2) j)) = true)|
      ≤ q * 2 ^ (-256 : ℤ) :=
    (abs_expect_sub fun G => reject_close G
      (fun j => simD (enc m (G m hk).2) (Fo.keyOf enc dec (fun m => (G m hk).1) (fun m => (G m hk).2) j))
      (A eb (enc m (G m hk).2) (G m hk).1) (hA _ _ _)).trans (le_of_eq (Fintype.expect_const _))
  -- the tables are split
  have s2 : 𝔼 G : B32 → B32 → B32 × B32, 𝔼 J : B32 → P.EncodedCiphertext → B32,
        𝔼 j : P.EncodedCiphertext → B32, ind ((A eb (enc m (G m hk).2) (G m hk).1).output G J
        (simD (enc m (G m hk).2) (Fo.keyOf enc dec (fun m => (G m hk).1) (fun m => (G m hk).2) j)) = true)
      = 𝔼 J, 𝔼 Gt, 𝔼 r : B32 → B32, 𝔼 k : B32 → B32, 𝔼 j, ind (Real0 enc dec
          (fun c K => toTree Gt J hk (A eb c K)) m r k j) := by
    rw [Finset.expect_comm]
    refine Finset.expect_congr rfl fun J _ => ?_
    rw [expect_tables hk]
    simp only [Function.update_self, Real0, toTree_out]
    rfl
  have s3 : ∀ (J : B32 → P.EncodedCiphertext → B32) (Gt : B32 → B32 → B32 × B32), _ := fun J Gt =>
    Fo.pseudorandom (A := fun c K => toTree Gt J hk (A eb c K)) hδ' hδ0 (fun c K => toTree_atMost _ _ _ _ (hA _ _ _)) m
  have s4 : 𝔼 J : B32 → P.EncodedCiphertext → B32, 𝔼 Gt : B32 → B32 → B32 × B32,
        ((𝔼 K1, 𝔼 t, 𝔼 x : B32, 𝔼 r : B32 → B32, ind (m ∈ (toTree Gt J hk (A eb (enc m x) K1)).asks (simG enc t r)
          (simD (enc m x) t))) + 2 * ((q + 1) * δ))
      ≤ (𝔼 J, 𝔼 K1, 𝔼 t, 𝔼 r : B32, 𝔼 G, ind (m ∈ simulate S p A eb (enc m r) (J, K1, t, G))) + 2 * ((q + 1) * δ) := by
    simp only [Finset.expect_add_distrib, Fintype.expect_const]
    refine add_le_add (Finset.expect_le_expect fun J _ => ?_) le_rfl
    rw [Finset.expect_comm]
    refine Finset.expect_le_expect fun K1 _ => ?_
    rw [Finset.expect_comm]
    refine Finset.expect_le_expect fun t _ => ?_
    rw [Finset.expect_comm]
    refine Finset.expect_le_expect fun x _ => ?_
    rw [expect_tables hk (fun G => ind (m ∈ simulate S p A eb (enc m x) (J, K1, t, G)))]
    refine Finset.expect_le_expect fun Gt _ => Finset.expect_le_expect fun r _ => ?_
    refine le_trans (le_of_eq (Fintype.expect_const (ι := B32 → B32) _).symm)
      (Finset.expect_le_expect fun k _ => ind_mono fun hm => ?_)
    unfold simulate
    dsimp only
    rw [hek, simulateG_update, hE, simD_eq]
    exact toTree_asks _ _ _ _ _ _ hm
  rw [s2] at s1
  have a2 := abs_expect_sub fun J => abs_expect_sub fun Gt => s3 J Gt
  have e2 : 𝔼 J, 𝔼 Gt, 𝔼 K1 : B32, 𝔼 t, 𝔼 x : B32, 𝔼 r, ind (Sim2 enc (fun c K => toTree Gt J hk (A eb c K)) (enc m x) r t K1)
      = 𝔼 J, 𝔼 K1, 𝔼 t, 𝔼 x : B32, 𝔼 Gt, 𝔼 r, ind (Sim2 enc (fun c K => toTree Gt J hk (A eb c K)) (enc m x) r t K1) := by
    refine Finset.expect_congr rfl fun J _ => ?_
    refine (Finset.expect_comm ..).trans (Finset.expect_congr rfl fun K1 _ => ?_)
    refine (Finset.expect_comm ..).trans (Finset.expect_congr rfl fun t _ => ?_)
    exact Finset.expect_comm ..
  rw [e2] at a2
  replace a2 := a2.trans s4
  clear s2 s3 s4 e2
  simp only [id]
  have t1 := abs_sub_le (𝔼 G, 𝔼 z, 𝔼 J, ind ((A eb (enc m (G m hk).2) (G m hk).1).output G J
        (simD (enc m (G m hk).2) (Fo.keyOf enc dec (fun m => (G m hk).1) (fun m => (G m hk).2) (J z))) = true))
    (𝔼 J, 𝔼 Gt, 𝔼 r : B32 → B32, 𝔼 k : B32 → B32, 𝔼 j, ind (Real0 enc dec
          (fun c K => toTree Gt J hk (A eb c K)) m r k j))
    (𝔼 J, 𝔼 K1, 𝔼 t, 𝔼 x : B32, 𝔼 Gt, 𝔼 r, ind (Sim2 enc (fun c K => toTree Gt J hk (A eb c K)) (enc m x) r t K1))
  linarith

/-- The game with an unrelated challenge, for one key, against its simulation -/
theorem unrelated_simulated (h : Supported P p)
    (A : P.EncodedEncryptionKey → P.EncodedCiphertext → B32 → Attacker P.CiphertextSize) {q : Nat}
    (hA : ∀ e c K, (A e c K).AtMost q) {d : B32} (hs : SeedOk S p.k (seeds S p d.toList).1) {δ : ℝ}
    (hδ : ∀ m, prob (fun r : B32 => Incorrect S p d m r) ≤ δ) (c : P.EncodedCiphertext) (K1 : B32) :
    |(𝔼 G, 𝔼 z, 𝔼 J, ind (AttackOn S P A c K1 d z G J))
        - 𝔼 J, 𝔼 t, 𝔼 G, ind (simulateGuess S p A (Fips203.bytes _ (KPKE_KeyGen S p d.toList).1) c (J, K1, t, G) = true)|
      ≤ q * δ + q * 2 ^ (-256 : ℤ) := by
  have hδ' : ∀ m, 𝔼 r : B32, ind (Fail (encrypt S p P.CiphertextSize (KPKE_KeyGen S p d.toList).1) (decrypt S p _ d) m r) ≤ δ := by
    intro m
    simp only [ind_congr (fail_iff S h d m _)]
    rw [← prob_ind]
    exact hδ m
  have hδ0 : 0 ≤ δ := le_trans (by unfold prob; positivity) (hδ default)
  simp only [ind_congr (attackOn_iff S h A _ _ hs _ _ _), simulateGuess_tables S h]
  generalize hE : encrypt S p P.CiphertextSize (KPKE_KeyGen S p d.toList).1 = enc at *
  generalize hD : decrypt S p P.CiphertextSize d = dec at *
  generalize heb : Fips203.bytes P.EncryptionKeySize (KPKE_KeyGen S p d.toList).1 = eb at *
  set hk := keyHash S p d with hhk
  have s1 : |(𝔼 G, 𝔼 z, 𝔼 J, ind ((A eb c K1).output G J
        (simD c (Fo.keyOf enc dec (fun m => (G m hk).1) (fun m => (G m hk).2) (J z))) = true))
      - 𝔼 G : B32 → B32 → B32 × B32, 𝔼 J : B32 → P.EncodedCiphertext → B32, 𝔼 j : P.EncodedCiphertext → B32,
        ind ((A eb c K1).output G J
        (simD c (Fo.keyOf enc dec (fun m => (G m hk).1) (fun m => (G m hk).2) j)) = true)|
      ≤ q * 2 ^ (-256 : ℤ) :=
    (abs_expect_sub fun G => reject_close G
      (fun j => simD c (Fo.keyOf enc dec (fun m => (G m hk).1) (fun m => (G m hk).2) j))
      (A eb c K1) (hA _ _ _)).trans (le_of_eq (Fintype.expect_const _))
  have s2 : 𝔼 G : B32 → B32 → B32 × B32, 𝔼 J : B32 → P.EncodedCiphertext → B32,
        𝔼 j : P.EncodedCiphertext → B32, ind ((A eb c K1).output G J
        (simD c (Fo.keyOf enc dec (fun m => (G m hk).1) (fun m => (G m hk).2) j)) = true)
      = 𝔼 J, 𝔼 Gt, 𝔼 r : B32 → B32, 𝔼 k : B32 → B32, 𝔼 j, ind ((toTree Gt J hk (A eb c K1)).out
        (realG k r) (simD c (Fo.keyOf enc dec k r j)) = true) := by
    rw [Finset.expect_comm]
    refine Finset.expect_congr rfl fun J _ => ?_
    rw [expect_tables hk]
    simp only [Function.update_self, toTree_out]
    rfl
  have s3 : ∀ (J : B32 → P.EncodedCiphertext → B32) (Gt : B32 → B32 → B32 × B32), _ := fun J Gt =>
    Fo.unrelated (A := fun c K => toTree Gt J hk (A eb c K)) hδ' hδ0 (fun c K => toTree_atMost _ _ _ _ (hA _ _ _)) c K1
  rw [s2] at s1
  have a2 := abs_expect_sub fun J => (abs_expect_sub fun Gt => s3 J Gt).trans (le_of_eq (Fintype.expect_const _))
  rw [Fintype.expect_const] at a2
  have e2 : 𝔼 J, 𝔼 Gt, 𝔼 t, 𝔼 r, ind (Sim2 enc (fun c K => toTree Gt J hk (A eb c K)) c r t K1)
      = 𝔼 J, 𝔼 t, 𝔼 Gt, 𝔼 r, ind (Sim2 enc (fun c K => toTree Gt J hk (A eb c K)) c r t K1) :=
    Finset.expect_congr rfl fun J _ => Finset.expect_comm ..
  rw [e2] at a2
  clear s2 s3 e2
  have t1 := abs_sub_le (𝔼 G, 𝔼 z, 𝔼 J, ind ((A eb c K1).output G J
        (simD c (Fo.keyOf enc dec (fun m => (G m hk).1) (fun m => (G m hk).2) (J z))) = true))
    (𝔼 J, 𝔼 Gt, 𝔼 r : B32 → B32, 𝔼 k : B32 → B32, 𝔼 j, ind ((toTree Gt J hk (A eb c K1)).out
        (realG k r) (simD c (Fo.keyOf enc dec k r j)) = true))
    (𝔼 J, 𝔼 t, 𝔼 Gt, 𝔼 r, ind (Sim2 enc (fun c K => toTree Gt J hk (A eb c K)) c r t K1))
  linarith

end

/-! ### Deciding instead of guessing -/

theorem mem_allStrings (l : List UInt8) : l ∈ allStrings l.length := by
  induction l with
  | nil => exact List.mem_singleton.2 rfl
  | cons b l ih =>
    refine List.mem_flatMap.2 ⟨l, ih, List.mem_map.2 ⟨b.toNat, List.mem_range.2 b.toNat_lt, ?_⟩⟩
    rw [UInt8.ofNat_toNat]

theorem mem_decider {e n : Nat} {Ω : Type} (D : Bytes e → Bytes n → Ω → Prop) (ek : Bytes e) (c : Bytes n) (o : Ω)
    (m : B32) : m ∈ decider D ek c o ↔ D ek c o := by
  unfold decider
  by_cases h : D ek c o
  · rw [if_pos h]
    refine iff_of_true (List.mem_map.2 ⟨m.toList, ?_, bytes_toList' m⟩) h
    have := mem_allStrings m.toList
    rwa [Vector.length_toList] at this
  · rw [if_neg h]
    exact iff_of_false List.not_mem_nil h

section
variable (S : Sha3) {p : Params} {e n : Nat} {Ω : Type} [Fintype Ω] [Nonempty Ω]

/-- The games: from an honest public key and an encryption to a uniform public key, and on to a uniform ciphertext -/
theorem decide_games [Build] (hk : 2 * p.k ≤ 255) (h1 : p.eta1 ≤ 3) (h2 : p.eta2 ≤ 3) (he : e = 384 * p.k + 32)
    (D : XofTable → Bytes e → Bytes n → Ω → Prop) :
    |(𝔼 T : XofTable, 𝔼 d : B32, 𝔼 m : B32, 𝔼 r : B32, 𝔼 o, ind (D T (Fips203.bytes e (KPKE_KeyGen (withXof S T) p d.toList).1)
          (encrypt (withXof S T) p n (KPKE_KeyGen (withXof S T) p d.toList).1 m r) o))
        - 𝔼 T, 𝔼 w, 𝔼 o, ind (onKey (withXof S T) p (decider (D T)) w o)|
      ≤ keyAssumptionsM S p (fun T => decider (D T)) + p.k ^ 2 * (2 : ℝ) ^ (-261 : ℤ)
    ∧ |(𝔼 T : XofTable, 𝔼 d : B32, 𝔼 m : B32, 𝔼 r : B32, 𝔼 o, ind (D T (Fips203.bytes e (KPKE_KeyGen (withXof S T) p d.toList).1)
          (encrypt (withXof S T) p n (KPKE_KeyGen (withXof S T) p d.toList).1 m r) o))
        - 𝔼 T, 𝔼 w, 𝔼 o, ind (onCipher p (decider (D T)) w o)|
      ≤ assumptionsM S p (fun T => decider (D T)) + 2 * p.k ^ 2 * (2 : ℝ) ^ (-261 : ℤ) := by
  set B : XofTable → Bytes e → Bytes n → Ω → List B32 := fun T => decider (D T) with hB
  have hg := fun T => C67_games (withXof S T) hk h1 h2 he (B T) (q := ((allStrings 32).map (Fips203.bytes 32)).length)
    (fun ek c o => by
      show (decider (D T) ek c o).length ≤ _
      unfold decider
      split
      · exact le_rfl
      · exact Nat.zero_le _)
  have av : ∀ {f g : XofTable → ℝ}, (∀ T, f T = g T) → 𝔼 T, f T = 𝔼 T, g T := fun h => Finset.expect_congr rfl fun T _ => h T
  have c0 := av fun T => (hg T).1
  have c1 := av fun T => (hg T).2.1
  have c2 := av fun T => (hg T).2.2.1
  have c3 := av fun T => (hg T).2.2.2.1
  have c4 := av fun T => (hg T).2.2.2.2.1
  have kr := key_real S B (by omega : p.k ≤ 255)
  have cr := cipher_real S B (by omega : p.k ≤ 255)
  have ki := key_ideal S B (by omega : p.k ≤ 255)
  have ci := cipher_ideal (p := p) B (by omega)
  have s1 : 𝔼 T, 𝔼 w, 𝔼 o, ind (onSeeds (withXof S T) p (B T) (seedPair (withXof S T) p w) o)
      = 𝔼 w, 𝔼 o, ind (onSeedsT S p B (seedPair S p w) o) :=
    expect_coins (fun T => onSeeds (withXof S T) p (B T)) (seedPair S p)
  have s2 : 𝔼 T, 𝔼 w, 𝔼 o, ind (onSeeds (withXof S T) p (B T) w o) = 𝔼 w, 𝔼 o, ind (onSeedsT S p B w o) :=
    expect_coins (fun T => onSeeds (withXof S T) p (B T)) id
  have s3 : 𝔼 T, 𝔼 w, 𝔼 o, ind (onKeyNoise (withXof S T) p (B T) (prfTable (withXof S T) w) o)
      = 𝔼 w, 𝔼 o, ind (onKeyNoiseT S p B (prfTable S w) o) :=
    expect_coins (fun T => onKeyNoise (withXof S T) p (B T)) (prfTable S)
  have s4 : 𝔼 T, 𝔼 w, 𝔼 o, ind (onKeyNoise (withXof S T) p (B T) w o) = 𝔼 w, 𝔼 o, ind (onKeyNoiseT S p B w o) :=
    expect_coins (fun T => onKeyNoise (withXof S T) p (B T)) id
  have s5 : 𝔼 T, 𝔼 w, 𝔼 o, ind (onCipherNoise (withXof S T) p (B T) (prfTable (withXof S T) w) o)
      = 𝔼 w, 𝔼 o, ind (onCipherNoiseT S p B (prfTable S w) o) :=
    expect_coins (fun T => onCipherNoise (withXof S T) p (B T)) (prfTable S)
  have s6 : 𝔼 T, 𝔼 w, 𝔼 o, ind (onCipherNoise (withXof S T) p (B T) w o) = 𝔼 w, 𝔼 o, ind (onCipherNoiseT S p B w o) :=
    expect_coins (fun T => onCipherNoise (withXof S T) p (B T)) id
  have a1 := (advantage_eq (onSeedsT S p B) (seedPair S p) id).symm
  have a2 := (advantage_eq (onKeyNoiseT S p B) (prfTable S) id).symm
  have a3 := (advantage_eq (onKeyM S p B) (mlwe p.k p.k p.eta1 p.eta1) id).symm
  have a4 := (advantage_eq (onCipherNoiseT S p B) (prfTable S) id).symm
  have a5 := (advantage_eq (onCipherM p B) (mlwe (p.k + 1) p.k p.eta1 p.eta2) id).symm
  simp only [id] at a1 a2 a3 a4 a5
  have c : 𝔼 T : XofTable, 𝔼 d : B32, 𝔼 m : B32, 𝔼 r : B32, 𝔼 o,
        ind (D T (Fips203.bytes e (KPKE_KeyGen (withXof S T) p d.toList).1)
          (encrypt (withXof S T) p n (KPKE_KeyGen (withXof S T) p d.toList).1 m r) o)
      = 𝔼 T, prob (fun ((d, m, r, coins) : B32 × B32 × B32 × Ω) =>
        m ∈ B T (Fips203.bytes e (KPKE_KeyGen (withXof S T) p d.toList).1)
          (encrypt (withXof S T) p n (KPKE_KeyGen (withXof S T) p d.toList).1 m r) coins) := by
    refine Finset.expect_congr rfl fun T _ => ?_
    simp only [prob_ind, expect_prod_type, hB]
    refine Finset.expect_congr rfl fun d _ => Finset.expect_congr rfl fun m _ => Finset.expect_congr rfl fun r _ =>
      Finset.expect_congr rfl fun o _ => ind_congr (mem_decider _ _ _ _ _).symm
  rw [c, c0, s1]
  rw [s2, s3] at c1
  rw [s4] at c2
  rw [s5, ki] at c3
  rw [s6] at c4
  rw [c1] at a1
  rw [c2] at a2
  rw [c3] at a3
  rw [c4] at a4
  unfold assumptionsM keyAssumptionsM
  have g1 : 𝔼 T, 𝔼 w, 𝔼 o, ind (onKey (withXof S T) p (decider (D T)) w o)
      = 𝔼 w, 𝔼 o, ind (onCipherNoiseT S p B (prfTable S w) o) := ki.trans c3
  have g2 : 𝔼 T, 𝔼 w, 𝔼 o, ind (onCipher p (decider (D T)) w o) = 𝔼 w, 𝔼 o, ind (onCipherM p B w o) := ci
  rw [← a1, ← a2, ← a3, ← a4, ← a5, g1, g2]
  clear a1 a2 a3 a4 a5 c0 c1 c2 c3 c4 s1 s2 s3 s4 s5 s6 c hg av ki ci g1 g2
  generalize (𝔼 w, 𝔼 o, ind (onSeedsT S p B (seedPair S p w) o)) = x0 at *
  generalize (𝔼 w, 𝔼 o, ind (onKeyNoiseT S p B (prfTable S w) o)) = x1 at *
  generalize (𝔼 T, 𝔼 w, 𝔼 o, ind (onKey (withXof S T) p (B T) (lwe1 (withXof S T) p w) o)) = x2 at *
  generalize (𝔼 w, 𝔼 o, ind (onKeyM S p B (mlwe p.k p.k p.eta1 p.eta1 w) o)) = x3 at *
  generalize (𝔼 w, 𝔼 o, ind (onCipherNoiseT S p B (prfTable S w) o)) = x4 at *
  generalize (𝔼 T, 𝔼 w, 𝔼 o, ind (onCipher p (B T) (lwe2 (withXof S T) p w) o)) = x5 at *
  generalize (𝔼 w, 𝔼 o, ind (onCipherM p B (mlwe (p.k + 1) p.k p.eta1 p.eta2 w) o)) = x6 at *
  generalize (𝔼 w, 𝔼 o, ind (onCipherM p B w o)) = x7 at *
  have t1 := abs_sub_le x0 x1 x4
  have t2 := abs_sub_le x1 x2 x4
  have t3 := abs_sub_le x2 x3 x4
  have t4 := abs_sub_le x0 x4 x7
  have t5 := abs_sub_le x4 x5 x7
  have t6 := abs_sub_le x5 x6 x7
  constructor <;> linarith

end

theorem le_of_chain {x0 x1 x2 x3 x4 a b1 b2 b3 b4 b5 c : ℝ} (h1 : |x0 - x1| ≤ a + b1 + b2 + b3) (h2 : |x1 - x2| ≤ b4)
    (h3 : |x2 - x3| ≤ b5) (h4 : |x3 - x4| ≤ c) {a' r : ℝ} (h5 : a ≤ a') (hr : a' + b1 + b2 + b3 + b4 + b5 + c = r) :
    |x0 - x4| ≤ r := by
  have t1 := abs_sub_le x0 x1 x4
  have t2 := abs_sub_le x1 x2 x4
  have t3 := abs_sub_le x2 x3 x4
  linarith

section
variable (S : Sha3) {P : ParameterSet} {p : Params} {Ω : Type} [Fintype Ω] [Nonempty Ω]

/-- Whether the matrix exists costs `k² / 2^261`. -/
theorem expect_seed [Build] (d : B32) :
    𝔼 T : XofTable, ind (¬ SeedOk (withXof S T) p.k (seeds (withXof S T) p d.toList).1) ≤ p.k ^ 2 * (2 : ℝ) ^ (-261 : ℤ) := by
  have := prob_seed S p.k (seeds_length S p d.toList).1
  rw [prob_ind] at this
  exact this

/-- The real game against the simulation on encryptions -/
theorem real_step [Build] (h : Supported P p)
    (A : Ω → XofTable → P.EncodedEncryptionKey → P.EncodedCiphertext → B32 → Attacker P.CiphertextSize) {q : Nat}
    (hA : ∀ o T e c K, (A o T e c K).AtMost q) {δ : XofTable → B32 → ℝ}
    (hδ : ∀ T d m, prob (fun r : B32 => Incorrect (withXof S T) p d m r) ≤ δ T d) :
    |(𝔼 T, 𝔼 d, 𝔼 m, 𝔼 o, 𝔼 G, 𝔼 z, 𝔼 J, ind (Attack (withXof S T) P (A o T) id d z m G J))
        - 𝔼 T : XofTable, 𝔼 d : B32, 𝔼 m : B32, 𝔼 r : B32, 𝔼 o : Ω × SimulatorCoins P.CiphertextSize,
          ind (acceptT S p A T (Fips203.bytes _ (KPKE_KeyGen (withXof S T) p d.toList).1)
            (encrypt (withXof S T) p _ (KPKE_KeyGen (withXof S T) p d.toList).1 m r) o)|
      ≤ (𝔼 T : XofTable, 𝔼 d : B32, 𝔼 m : B32, 𝔼 r : B32, 𝔼 o : Ω × SimulatorCoins P.CiphertextSize,
          ind (m ∈ collectT S p A T (Fips203.bytes _ (KPKE_KeyGen (withXof S T) p d.toList).1)
            (encrypt (withXof S T) p _ (KPKE_KeyGen (withXof S T) p d.toList).1 m r) o))
        + 2 * (q + 1) * (𝔼 T, 𝔼 d, δ T d) + q * 2 ^ (-256 : ℤ) + p.k ^ 2 * (2 : ℝ) ^ (-261 : ℤ) := by
  have swap : ∀ f : Ω → (B32 → P.EncodedCiphertext → B32) → B32 → (P.EncodedCiphertext → B32) → B32 →
      (B32 → B32 → B32 × B32) → ℝ, 𝔼 r, 𝔼 o : Ω × SimulatorCoins P.CiphertextSize, f o.1 o.2.1 o.2.2.1 o.2.2.2.1 r o.2.2.2.2
        = 𝔼 o, 𝔼 J, 𝔼 K1, 𝔼 t, 𝔼 r, 𝔼 G, f o J K1 t r G := by
    intro f
    simp only [expect_prod_type]
    refine (Finset.expect_comm ..).trans (Finset.expect_congr rfl fun o _ => ?_)
    refine (Finset.expect_comm ..).trans (Finset.expect_congr rfl fun J _ => ?_)
    refine (Finset.expect_comm ..).trans (Finset.expect_congr rfl fun K1 _ => ?_)
    exact Finset.expect_comm ..
  have e1 : ∀ (T : XofTable) (d m : B32), 𝔼 r : B32, 𝔼 o : Ω × SimulatorCoins P.CiphertextSize,
        ind (acceptT S p A T (Fips203.bytes _ (KPKE_KeyGen (withXof S T) p d.toList).1)
            (encrypt (withXof S T) p _ (KPKE_KeyGen (withXof S T) p d.toList).1 m r) o)
      = 𝔼 o, 𝔼 J, 𝔼 K1, 𝔼 t, 𝔼 r, 𝔼 G, ind (simulateGuess (withXof S T) p (A o T)
            (Fips203.bytes _ (KPKE_KeyGen (withXof S T) p d.toList).1)
            (encrypt (withXof S T) p _ (KPKE_KeyGen (withXof S T) p d.toList).1 m r) (J, K1, t, G) = true) := fun T d m =>
    swap fun o J K1 t r G => ind (simulateGuess (withXof S T) p (A o T)
            (Fips203.bytes _ (KPKE_KeyGen (withXof S T) p d.toList).1)
            (encrypt (withXof S T) p _ (KPKE_KeyGen (withXof S T) p d.toList).1 m r) (J, K1, t, G) = true)
  have e2 : ∀ (T : XofTable) (d m : B32), 𝔼 r : B32, 𝔼 o : Ω × SimulatorCoins P.CiphertextSize,
        ind (m ∈ collectT S p A T (Fips203.bytes _ (KPKE_KeyGen (withXof S T) p d.toList).1)
            (encrypt (withXof S T) p _ (KPKE_KeyGen (withXof S T) p d.toList).1 m r) o)
      = 𝔼 o, 𝔼 J, 𝔼 K1, 𝔼 t, 𝔼 r, 𝔼 G, ind (m ∈ simulate (withXof S T) p (A o T)
            (Fips203.bytes _ (KPKE_KeyGen (withXof S T) p d.toList).1)
            (encrypt (withXof S T) p _ (KPKE_KeyGen (withXof S T) p d.toList).1 m r) (J, K1, t, G)) := fun T d m =>
    swap fun o J K1 t r G => ind (m ∈ simulate (withXof S T) p (A o T)
            (Fips203.bytes _ (KPKE_KeyGen (withXof S T) p d.toList).1)
            (encrypt (withXof S T) p _ (KPKE_KeyGen (withXof S T) p d.toList).1 m r) (J, K1, t, G))
  simp only [e1, e2]
  have key : ∀ (T : XofTable) (d m : B32) (o : Ω),
      |(𝔼 G, 𝔼 z, 𝔼 J, ind (Attack (withXof S T) P (A o T) id d z m G J))
        - 𝔼 J, 𝔼 K1, 𝔼 t, 𝔼 r : B32, 𝔼 G, ind (simulateGuess (withXof S T) p (A o T)
          (Fips203.bytes _ (KPKE_KeyGen (withXof S T) p d.toList).1)
          (encrypt (withXof S T) p _ (KPKE_KeyGen (withXof S T) p d.toList).1 m r) (J, K1, t, G) = true)|
      ≤ (𝔼 J, 𝔼 K1, 𝔼 t, 𝔼 r : B32, 𝔼 G, ind (m ∈ simulate (withXof S T) p (A o T)
          (Fips203.bytes _ (KPKE_KeyGen (withXof S T) p d.toList).1)
          (encrypt (withXof S T) p _ (KPKE_KeyGen (withXof S T) p d.toList).1 m r) (J, K1, t, G)))
        + 2 * (q + 1) * δ T d + q * 2 ^ (-256 : ℤ) + ind (¬ SeedOk (withXof S T) p.k (seeds (withXof S T) p d.toList).1) := by
    intro T d m o
    have hδ0 : 0 ≤ δ T d := le_trans (by unfold prob; positivity) (hδ T d m)
    by_cases hs : SeedOk (withXof S T) p.k (seeds (withXof S T) p d.toList).1
    · have := real_simulated (withXof S T) h (A o T) (hA o T) hs (hδ T d) m
      have := ind_nonneg (¬ SeedOk (withXof S T) p.k (seeds (withXof S T) p d.toList).1)
      linarith
    · have hz : ∀ z G J, ind (Attack (withXof S T) P (A o T) id d z m G J) = 0 := fun z G J => by
        unfold ind; exact if_neg (attack_none (withXof S T) h (A o T) id hs z m G J)
      have hb : ind (¬ SeedOk (withXof S T) p.k (seeds (withXof S T) p d.toList).1) = 1 := by unfold ind; exact if_pos hs
      simp only [hz, Fintype.expect_const, hb]
      have b1 : ∀ E : (B32 → P.EncodedCiphertext → B32) → B32 → (P.EncodedCiphertext → B32) → B32 →
          (B32 → B32 → B32 × B32) → Prop, 0 ≤ 𝔼 J, 𝔼 K1, 𝔼 t, 𝔼 r, 𝔼 G, ind (E J K1 t r G) := fun E =>
        Finset.expect_nonneg fun _ _ => Finset.expect_nonneg fun _ _ => Finset.expect_nonneg fun _ _ =>
          Finset.expect_nonneg fun _ _ => Finset.expect_nonneg fun _ _ => ind_nonneg _
      have b2 : 𝔼 J, 𝔼 K1, 𝔼 t, 𝔼 r : B32, 𝔼 G, ind (simulateGuess (withXof S T) p (A o T)
          (Fips203.bytes _ (KPKE_KeyGen (withXof S T) p d.toList).1)
          (encrypt (withXof S T) p _ (KPKE_KeyGen (withXof S T) p d.toList).1 m r) (J, K1, t, G) = true) ≤ 1 :=
        (expect_ind fun J => expect_ind fun K1 => expect_ind fun t => expect_ind fun r => expect_ind fun G => ind_le _).2
      have b3 := b1 fun J K1 t r G => simulateGuess (withXof S T) p (A o T)
          (Fips203.bytes _ (KPKE_KeyGen (withXof S T) p d.toList).1)
          (encrypt (withXof S T) p _ (KPKE_KeyGen (withXof S T) p d.toList).1 m r) (J, K1, t, G) = true
      have b4 := b1 fun J K1 t r G => m ∈ simulate (withXof S T) p (A o T)
          (Fips203.bytes _ (KPKE_KeyGen (withXof S T) p d.toList).1)
          (encrypt (withXof S T) p _ (KPKE_KeyGen (withXof S T) p d.toList).1 m r) (J, K1, t, G)
      rw [zero_sub, abs_neg, abs_of_nonneg b3]
      have b5 : (0 : ℝ) ≤ 2 * (q + 1) * δ T d := by positivity
      have b6 : (0 : ℝ) ≤ q * 2 ^ (-256 : ℤ) := by positivity
      linarith
  refine (abs_expect_sub fun T => abs_expect_sub fun d => abs_expect_sub fun m => abs_expect_sub fun o =>
    key T d m o).trans ?_
  simp only [Finset.expect_add_distrib, Fintype.expect_const, ← Finset.mul_expect]
  have hsd : 𝔼 T : XofTable, 𝔼 d : B32, ind (¬ SeedOk (withXof S T) p.k (seeds (withXof S T) p d.toList).1)
      ≤ p.k ^ 2 * (2 : ℝ) ^ (-261 : ℤ) := by
    rw [Finset.expect_comm]
    exact (Finset.expect_le_expect fun d _ => expect_seed S d).trans (le_of_eq (Fintype.expect_const _))
  linarith

/-- The game with an unrelated challenge against its simulation -/
theorem unrelated_step [Build] (h : Supported P p)
    (A : Ω → XofTable → P.EncodedEncryptionKey → P.EncodedCiphertext → B32 → Attacker P.CiphertextSize) {q : Nat}
    (hA : ∀ o T e c K, (A o T e c K).AtMost q) {δ : XofTable → B32 → ℝ}
    (hδ : ∀ T d m, prob (fun r : B32 => Incorrect (withXof S T) p d m r) ≤ δ T d) :
    |(𝔼 T, 𝔼 d, 𝔼 u, 𝔼 v, 𝔼 o, 𝔼 K, 𝔼 G, 𝔼 z, 𝔼 J,
          ind (AttackOn (withXof S T) P (A o T) (packCipher p _ u v) K d z G J))
        - 𝔼 T : XofTable, 𝔼 d : B32, 𝔼 m : B32, 𝔼 r : B32, 𝔼 o : ((Fin p.k → Poly) × Poly) × Ω × SimulatorCoins P.CiphertextSize,
          ind (acceptUniformT S p A T (Fips203.bytes _ (KPKE_KeyGen (withXof S T) p d.toList).1)
            (encrypt (withXof S T) p _ (KPKE_KeyGen (withXof S T) p d.toList).1 m r) o)|
      ≤ q * (𝔼 T, 𝔼 d, δ T d) + q * 2 ^ (-256 : ℤ) + p.k ^ 2 * (2 : ℝ) ^ (-261 : ℤ) := by
  have e1 : ∀ (T : XofTable) (d : B32), 𝔼 m : B32, 𝔼 r : B32, 𝔼 o : ((Fin p.k → Poly) × Poly) × Ω × SimulatorCoins P.CiphertextSize,
        ind (acceptUniformT S p A T (Fips203.bytes _ (KPKE_KeyGen (withXof S T) p d.toList).1)
            (encrypt (withXof S T) p _ (KPKE_KeyGen (withXof S T) p d.toList).1 m r) o)
      = 𝔼 u, 𝔼 v, 𝔼 o, 𝔼 K1, 𝔼 J, 𝔼 t, 𝔼 G, ind (simulateGuess (withXof S T) p (A o T)
            (Fips203.bytes _ (KPKE_KeyGen (withXof S T) p d.toList).1) (packCipher p _ u v) (J, K1, t, G) = true) := by
    intro T d
    have : ∀ m r : B32, 𝔼 o : ((Fin p.k → Poly) × Poly) × Ω × SimulatorCoins P.CiphertextSize,
        ind (acceptUniformT S p A T (Fips203.bytes _ (KPKE_KeyGen (withXof S T) p d.toList).1)
            (encrypt (withXof S T) p _ (KPKE_KeyGen (withXof S T) p d.toList).1 m r) o)
      = 𝔼 u, 𝔼 v, 𝔼 o, 𝔼 K1, 𝔼 J, 𝔼 t, 𝔼 G, ind (simulateGuess (withXof S T) p (A o T)
            (Fips203.bytes _ (KPKE_KeyGen (withXof S T) p d.toList).1) (packCipher p _ u v) (J, K1, t, G) = true) := by
      intro m r
      simp only [expect_prod_type]
      refine Finset.expect_congr rfl fun u _ => Finset.expect_congr rfl fun v _ => Finset.expect_congr rfl fun o _ => ?_
      exact Finset.expect_comm ..
    simp only [this, Fintype.expect_const]
  simp only [e1]
  have key : ∀ (T : XofTable) (d : B32) (u : Fin p.k → Poly) (v : Poly) (o : Ω) (K : B32),
      |(𝔼 G, 𝔼 z, 𝔼 J, ind (AttackOn (withXof S T) P (A o T) (packCipher p _ u v) K d z G J))
        - 𝔼 J, 𝔼 t, 𝔼 G, ind (simulateGuess (withXof S T) p (A o T)
          (Fips203.bytes _ (KPKE_KeyGen (withXof S T) p d.toList).1) (packCipher p _ u v) (J, K, t, G) = true)|
      ≤ q * δ T d + q * 2 ^ (-256 : ℤ) + ind (¬ SeedOk (withXof S T) p.k (seeds (withXof S T) p d.toList).1) := by
    intro T d u v o K
    have hδ0 : 0 ≤ δ T d := le_trans (by unfold prob; positivity) (hδ T d default)
    by_cases hs : SeedOk (withXof S T) p.k (seeds (withXof S T) p d.toList).1
    · have := unrelated_simulated (withXof S T) h (A o T) (hA o T) hs (hδ T d) (packCipher p _ u v) K
      have := ind_nonneg (¬ SeedOk (withXof S T) p.k (seeds (withXof S T) p d.toList).1)
      linarith
    · have hz : ∀ z G J, ind (AttackOn (withXof S T) P (A o T) (packCipher p _ u v) K d z G J) = 0 := fun z G J => by
        unfold ind; exact if_neg (attackOn_none (withXof S T) h (A o T) _ _ hs z G J)
      have hb : ind (¬ SeedOk (withXof S T) p.k (seeds (withXof S T) p d.toList).1) = 1 := by unfold ind; exact if_pos hs
      simp only [hz, Fintype.expect_const, hb]
      have b2 := expect_ind fun J => expect_ind fun t => expect_ind fun G => ind_le (simulateGuess (withXof S T) p (A o T)
          (Fips203.bytes _ (KPKE_KeyGen (withXof S T) p d.toList).1) (packCipher p _ u v) (J, K, t, G) = true)
      rw [zero_sub, abs_neg, abs_of_nonneg b2.1]
      have b5 : (0 : ℝ) ≤ q * δ T d := by positivity
      have b6 : (0 : ℝ) ≤ q * 2 ^ (-256 : ℤ) := by positivity
      linarith [b2.2]
  refine (abs_expect_sub fun T => abs_expect_sub fun d => abs_expect_sub fun u => abs_expect_sub fun v =>
    abs_expect_sub fun o => abs_expect_sub fun K => key T d u v o K).trans ?_
  simp only [Finset.expect_add_distrib, Fintype.expect_const, ← Finset.mul_expect]
  have hsd : 𝔼 T : XofTable, 𝔼 d : B32, ind (¬ SeedOk (withXof S T) p.k (seeds (withXof S T) p d.toList).1)
      ≤ p.k ^ 2 * (2 : ℝ) ^ (-261 : ℤ) := by
    rw [Finset.expect_comm]
    exact (Finset.expect_le_expect fun d _ => expect_seed S d).trans (le_of_eq (Fintype.expect_const _))
  linarith

/-- A uniform public key and a uniform ciphertext: the message that is added does not matter. -/
theorem uniform_games {e n : Nat}
    (A : Ω → XofTable → Bytes e → Bytes n → B32 → Attacker n) :
    𝔼 T, 𝔼 w, 𝔼 o, ind (onCipher p (decider (acceptT S p A T)) w o)
      = 𝔼 T, 𝔼 w, 𝔼 o, ind (onKey (withXof S T) p (decider (acceptUniformT S p A T)) w o) := by
  refine Finset.expect_congr rfl fun T _ => ?_
  simp only [expect_prod_type, onCipher, onKey, ind_congr (mem_decider _ _ _ _ _)]
  refine Finset.expect_congr rfl fun rho _ => Finset.expect_congr rfl fun t _ => ?_
  have sh : ∀ (u : Fin p.k → Poly) (m : B32), 𝔼 v, 𝔼 o : Ω × SimulatorCoins n,
        ind (acceptT S p A T (packKey p e rho t) (packCipher p n u (v + messagePoly m)) o)
      = 𝔼 v, 𝔼 o : Ω × SimulatorCoins n, ind (acceptT S p A T (packKey p e rho t) (packCipher p n u v) o) := fun u m =>
    Fintype.expect_equiv (Equiv.addRight (messagePoly m)) _ _ fun v => rfl
  have l : ∀ u : Fin p.k → Poly, 𝔼 v, 𝔼 m : B32, 𝔼 o : Ω × SimulatorCoins n,
        ind (acceptT S p A T (packKey p e rho t) (packCipher p n u (v + messagePoly m)) o)
      = 𝔼 v, 𝔼 o : Ω × SimulatorCoins n, ind (acceptT S p A T (packKey p e rho t) (packCipher p n u v) o) := by
    intro u
    rw [Finset.expect_comm]
    simp only [sh, Fintype.expect_const]
  simp only [expect_prod_type] at l
  simp only [l, acceptUniformT, Fintype.expect_const]

/-- **C82** Ciphertexts and shared keys look random to chosen-ciphertext attackers. SHAKE128 on 34-byte strings is a random
table `T`, which the attacker can read; the attacker also uses coins `o`. It asks at most `q` questions. It tells the
ciphertext and the key that encapsulation returns from a random key and a ciphertext that is made from uniform polynomials
`u`, `v`, so without the public key, with an advantage of at most the advantages of thirteen distinguishers built from it,
which are given no secret key and no decapsulation, plus statistical terms. Here `δ T d` bounds the probability that K-PKE
decryption with the key generated from `d` returns another message than was encrypted. -/
theorem C82_pseudorandom [Build] (h : Supported P p)
    (A : Ω → XofTable → P.EncodedEncryptionKey → P.EncodedCiphertext → B32 → Attacker P.CiphertextSize) {q : Nat}
    (hA : ∀ o T e c K, (A o T e c K).AtMost q) {δ : XofTable → B32 → ℝ}
    (hδ : ∀ T d m, prob (fun r : B32 => Incorrect (withXof S T) p d m r) ≤ δ T d) :
    |prob (fun (T, d, m, o, G, z, J) => Attack (withXof S T) P (A o T) id d z m G J)
        - prob (fun (T, d, u, v, o, K, G, z, J) => AttackOn (withXof S T) P (A o T) (packCipher p _ u v) K d z G J)|
      ≤ challengeAssumptions S p A + 7 * p.k ^ 2 * (2 : ℝ) ^ (-261 : ℤ) + (3 * q + 2) * (𝔼 T, 𝔼 d, δ T d) + 3 * q * 2 ^ (-256 : ℤ) := by
  have he : ∀ x : CbdSize, x.toNat ≤ 3 := by intro x; cases x <;> decide
  have hes : P.EncryptionKeySize = 384 * p.k + 32 := by obtain rfl := h.eq; rfl
  have s1 := real_step S h A hA hδ
  have s2 := (decide_games S h.k_le (h.eta1 ▸ he _) (h.eta2 ▸ he _) hes (acceptT S p A)).2
  have s3 := uniform_games S A (p := p) (e := P.EncryptionKeySize) (n := P.CiphertextSize)
  have s4 := (decide_games S h.k_le (h.eta1 ▸ he _) (h.eta2 ▸ he _) hes (acceptUniformT S p A)).1
  have s5 := unrelated_step S h A hA hδ
  have s6 := C81_one_way S (collectT S p A) h.k_le (h.eta1 ▸ he _) (h.eta2 ▸ he _) hes (q := q)
    fun T ek c o => hashed_length _ _ _ _ (hA o.1 T _ _ _)
  have e1 : prob (fun (T, d, m, o, G, z, J) => Attack (withXof S T) P (A o T) id d z m G J)
      = 𝔼 T, 𝔼 d, 𝔼 m, 𝔼 o, 𝔼 G, 𝔼 z, 𝔼 J, ind (Attack (withXof S T) P (A o T) id d z m G J) := by
    rw [prob_ind]
    refine (expect_prod_type _).trans (Finset.expect_congr rfl fun T _ => ?_)
    refine (expect_prod_type _).trans (Finset.expect_congr rfl fun d _ => ?_)
    refine (expect_prod_type _).trans (Finset.expect_congr rfl fun m _ => ?_)
    refine (expect_prod_type _).trans (Finset.expect_congr rfl fun o _ => ?_)
    refine (expect_prod_type _).trans (Finset.expect_congr rfl fun G _ => ?_)
    exact expect_prod_type _
  have e2 : prob (fun (T, d, u, v, o, K, G, z, J) => AttackOn (withXof S T) P (A o T) (packCipher p _ u v) K d z G J)
      = 𝔼 T, 𝔼 d, 𝔼 u, 𝔼 v, 𝔼 o, 𝔼 K, 𝔼 G, 𝔼 z, 𝔼 J,
          ind (AttackOn (withXof S T) P (A o T) (packCipher p _ u v) K d z G J) := by
    rw [prob_ind]
    refine (expect_prod_type _).trans (Finset.expect_congr rfl fun T _ => ?_)
    refine (expect_prod_type _).trans (Finset.expect_congr rfl fun d _ => ?_)
    refine (expect_prod_type _).trans (Finset.expect_congr rfl fun u _ => ?_)
    refine (expect_prod_type _).trans (Finset.expect_congr rfl fun v _ => ?_)
    refine (expect_prod_type _).trans (Finset.expect_congr rfl fun o _ => ?_)
    refine (expect_prod_type _).trans (Finset.expect_congr rfl fun K _ => ?_)
    refine (expect_prod_type _).trans (Finset.expect_congr rfl fun G _ => ?_)
    exact expect_prod_type _
  have e3 : prob (fun ((T, d, m, r, coins) : XofTable × B32 × B32 × B32 × Ω × SimulatorCoins P.CiphertextSize) =>
        m ∈ collectT S p A T (Fips203.bytes _ (KPKE_KeyGen (withXof S T) p d.toList).1)
          (encrypt (withXof S T) p _ (KPKE_KeyGen (withXof S T) p d.toList).1 m r) coins)
      = 𝔼 T : XofTable, 𝔼 d : B32, 𝔼 m : B32, 𝔼 r : B32, 𝔼 o : Ω × SimulatorCoins P.CiphertextSize,
          ind (m ∈ collectT S p A T (Fips203.bytes _ (KPKE_KeyGen (withXof S T) p d.toList).1)
            (encrypt (withXof S T) p _ (KPKE_KeyGen (withXof S T) p d.toList).1 m r) o) := by
    rw [prob_ind]
    refine (expect_prod_type _).trans (Finset.expect_congr rfl fun T _ => ?_)
    refine (expect_prod_type _).trans (Finset.expect_congr rfl fun d _ => ?_)
    refine (expect_prod_type _).trans (Finset.expect_congr rfl fun m _ => ?_)
    exact expect_prod_type _
  have ea : assumptionsM S p (collectT S p A) = Fips203.advantage (onSeedsT S p (collectT S p A)) (seedPair S p) id
        + Fips203.advantage (onKeyNoiseT S p (collectT S p A)) (prfTable S) id
        + Fips203.advantage (onKeyM S p (collectT S p A)) (mlwe p.k p.k p.eta1 p.eta1) id
        + Fips203.advantage (onCipherNoiseT S p (collectT S p A)) (prfTable S) id
        + Fips203.advantage (onCipherM p (collectT S p A)) (mlwe (p.k + 1) p.k p.eta1 p.eta2) id := rfl
  rw [e3, ← ea] at s6
  rw [e1, e2]
  rw [s3] at s2
  rw [abs_sub_comm] at s4 s5
  clear e1 e2 e3 ea s3
  generalize (𝔼 T, 𝔼 d, 𝔼 m, 𝔼 o, 𝔼 G, 𝔼 z, 𝔼 J, ind (Attack (withXof S T) P (A o T) id d z m G J)) = x0 at *
  generalize (𝔼 T, 𝔼 d, 𝔼 u, 𝔼 v, 𝔼 o, 𝔼 K, 𝔼 G, 𝔼 z, 𝔼 J,
    ind (AttackOn (withXof S T) P (A o T) (packCipher p _ u v) K d z G J)) = x4 at *
  refine le_of_chain s1 s2 s4 s5 s6 ?_
  unfold challengeAssumptions
  ring

/-- The attacker that searches for a secret key, on an unrelated challenge -/
theorem searcher_attackOn [Build] {S : Sha3} {P : ParameterSet} {p : Params} (h : Supported P p) (c : P.EncodedCiphertext)
    (d z : B32) (G : B32 → B32 → B32 × B32) (J : B32 → P.EncodedCiphertext → B32)
    (hs : SeedOk S p.k (seeds S p d.toList).1) :
    prob (fun K => AttackOn S P (searcher S p) c K d z G J) ≤ 2 ^ (-256 : ℤ) := by
  rw [prob_ind]
  simp only [ind_congr (attackOn_iff S h (searcher S p) c _ hs z G J)]
  unfold searcher
  simp only [Attacker.output, decide_eq_true_eq]
  have one : ∀ x : B32, 𝔼 K : B32, ind (x = K) ≤ 2 ^ (-256 : ℤ) := fun x => by
    refine le_trans (le_of_eq (Finset.expect_congr rfl fun K _ => ind_congr ?_)) ((mem_prob [x]).trans (by simp))
    rw [List.mem_singleton, eq_comm]
  exact one _

/-- The hypotheses of C82 hold for the attacker that searches for the secret key of the toy hash functions, with one
question, `δ = 0` and no coins. If the matrix exists, which it does but for a probability of `9 / 2^261`, it always answers
`true` in the real game and almost never on a random key. So the left-hand side of C82 is almost 1. -/
example [Build] : (∀ (_o : Unit) (T : XofTable) (eb : MlKem768Params.EncodedEncryptionKey) c K,
      (searcher (withXof Toy.S T) ML_KEM_768 eb c K : Attacker MlKem768Params.CiphertextSize).AtMost 1) ∧
    (∀ (T : XofTable) d m, prob (fun r : B32 => Incorrect (withXof Toy.S T) ML_KEM_768 d m r) ≤ 0) ∧
    (∀ d : B32, prob (fun T : XofTable => ¬ SeedOk (withXof Toy.S T) ML_KEM_768.k (seeds Toy.S ML_KEM_768 d.toList).1)
      ≤ (ML_KEM_768.k : ℝ) ^ 2 * 2 ^ (-261 : ℤ)) ∧
    ∀ (T : XofTable) d, SeedOk (withXof Toy.S T) ML_KEM_768.k (seeds Toy.S ML_KEM_768 d.toList).1 →
      (∀ z m G J, Attack (withXof Toy.S T) MlKem768Params (searcher (withXof Toy.S T) ML_KEM_768) id d z m G J) ∧
      ∀ u v z G J, prob (fun K => AttackOn (withXof Toy.S T) MlKem768Params (searcher (withXof Toy.S T) ML_KEM_768)
        (packCipher ML_KEM_768 _ u v) K d z G J) ≤ 2 ^ (-256 : ℤ) := by
  refine ⟨fun _ T eb c K => ⟨0, rfl, fun a => trivial⟩, fun T d m => le_of_eq ?_, fun d => ?_, fun T d hs =>
    ⟨fun z m G J => (searcher_attack supported_768 (toy_correct_xof T) id d z m G J hs).2 rfl,
      fun u v z G J => searcher_attackOn supported_768 _ d z G J hs⟩⟩
  · rw [prob_ind]
    exact (Finset.expect_congr rfl fun r _ => if_neg (toy_correct_xof T d m r)).trans (Fintype.expect_const (0 : ℝ))
  · exact prob_seed Toy.S ML_KEM_768.k (seeds_length Toy.S ML_KEM_768 d.toList).1

end

end MlKem
