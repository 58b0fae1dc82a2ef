import Verif.Props.Mlwe
import Verif.Props.XWing
import Verif.Spec.XWingCca
/-! C69: chosen-ciphertext attacks on the modelled X-Wing give attacks on ML-KEM, SHAKE128 or SHA3-256. -/
set_option linter.unusedSectionVars false

namespace MlKem
open Rust Fips203 Finset BigOperators Fo

/-- How well an attacker tells the shared key of the modelled ML-KEM from a random one -/
noncomputable def ccaAdvantage [Build] (S : Sha3) (P : ParameterSet)
    (A : P.EncodedEncryptionKey → P.EncodedCiphertext → B32 → Attacker P.CiphertextSize) : ℝ :=
  |prob (fun (d, m, G, z, J) => Attack S P A id d z m G J)
    - prob (fun (d, m, K1, G, z, J) => Attack S P A (fun _ => K1) d z m G J)|

section
variable [Build] (S : Sha3) {P : ParameterSet} {p : Params}

/-- Decapsulation of an honest ciphertext returns its key if decryption is correct. -/
theorem decaps_of_correct (h : Supported P p) (hdu : p.du ≤ 11) (hdv : p.dv ≤ 11) {d z m : B32}
    {G : B32 → B32 → B32 × B32} {J : B32 → P.EncodedCiphertext → B32} {dk : DecapsulationKey P} {ek c K}
    (hgen : Kem.generate_deterministic (withOracles S G J) P d z = .ok (dk, ek))
    (henc : ek.encapsulate_deterministic (withOracles S G J) m = .ok (c, K))
    (hc : ¬ Incorrect S p d m (G m (keyHash S p d)).2) : dk.decapsulate (withOracles S G J) c = .ok K := by
  refine C05_decaps_encaps (withOracles S G J) h hdu hdv hgen henc ?_
  obtain rfl := h.eq
  have hn := ct_ne_one P
  have hsig := (seeds_length S P.toParams d.toList).2
  have hrho := (seeds_length S P.toParams d.toList).1
  have hk : (keyHash S P.toParams d).toList = Fips203.H S (KPKE_KeyGen S P.toParams d.toList).1 :=
    toList_bytesOf (by simp [Fips203.H])
  have e0 : KPKE_KeyGen (withOracles S G J) P.toParams d.toList = KPKE_KeyGen S P.toParams d.toList := by
    rw [KPKE_KeyGen_eq, KPKE_KeyGen_eq, oracles_seeds S G J (by simp), oracles_genT S G J hn hsig, oracles_genS S G J hn hsig]
  have e1 : encapsRandomness (withOracles S G J) (KPKE_KeyGen (withOracles S G J) P.toParams d.toList).1 m.toList
      = (G m (keyHash S P.toParams d)).2.toList := by
    rw [e0]
    unfold encapsRandomness
    have e2 : Fips203.H (withOracles S G J) (KPKE_KeyGen S P.toParams d.toList).1
      = (keyHash S P.toParams d).toList := hk.symm
    rw [e2, oracles_G]
  show NoiseOk (withOracles S G J) P.toParams d.toList m.toList
    (encapsRandomness (withOracles S G J) (KPKE_KeyGen (withOracles S G J) P.toParams d.toList).1 m.toList)
  rw [e1]
  clear hgen henc e0 e1
  refine (decT_honest_iff (withOracles S G J) P.toParams h.du_pos hdu h.dv_pos hdv _ _ _ (by simp)).1 ?_
  rw [oracles_seeds S G J (by simp), oracles_genS S G J hn hsig, oracles_genT S G J hn hsig,
    oracles_encT S G J hn _ _ _ (by simp)]
  unfold Incorrect at hc
  rw [not_not] at hc
  refine Eq.trans ?_ hc
  rw [KPKE_KeyGen_eq, KPKE_Encrypt_enc12 S P.toParams _ _ _ _ hrho, KPKE_Decrypt_enc12]

omit [Build] in
theorem expect_at {ι α : Type} [Fintype ι] [DecidableEq ι] [Fintype α] [Nonempty α] (i : ι) (f : α → ℝ) :
    𝔼 t : ι → α, f (t i) = 𝔼 x, f x := by
  rw [expect_update i]
  refine Finset.expect_congr rfl fun x _ => ?_
  simp only [Function.update_self]
  exact Fintype.expect_const _

end

end MlKem

namespace XWing
open Rust MlKem Fips203 XWingSpec Finset BigOperators Fo
open MlKem (bytesOf toList_bytesOf bytes_ext)

variable [Build]

/-- The attacker is given the public key of the pair generated from `sk`, the ciphertext of an encapsulation that
draws `m` and `e`, and `key ss`, where `ss` is the shared secret that is returned with it. It may ask for ML-KEM's `G`
and `J`, and for the decapsulation of all other ciphertexts. It ends with the guess `true`. -/
def Attack (S : Sha3) (X : X25519) (A : Bytes 1216 → Bytes 1120 → B32 → XWingSpec.Attacker) (key : B32 → B32)
    (sk m e : B32) (G : B32 → B32 → B32 × B32) (J : B32 → Bytes 1088 → B32) : Prop :=
  ∃ (dk : DecapsulationKey) (ek : EncapsulationKey) (eb : Bytes 1216) (ct : Ciphertext) (cb : Bytes 1120)
    (ss : SharedSecret) (s s' : _),
    generate_key_pair (withOracles S G J) X blocks [sk] = .ok ((dk, ek), s) ∧ ek.as_bytes = .ok eb ∧
    ek.encapsulate (withOracles S G J) X blocks [m, e] = .ok ((ct, ss), s') ∧ ct.as_bytes = .ok cb ∧
    (A eb cb (key ss)).output G J (fun c =>
      if c = cb then none else
        match (do let ct ← Ciphertext.from_bytes c; dk.decapsulate (withOracles S G J) X ct) with
        | .ok ss => some ss
        | _ => none) = true

/-- The same for a key pair whose ML-KEM seeds are `d` and `z` and whose X25519 secret is `x` -/
def Expanded (S : Sha3) (X : X25519) (A : Bytes 1216 → Bytes 1120 → B32 → XWingSpec.Attacker) (key : B32 → B32)
    (d z x m e : B32) (G : B32 → B32 → B32 × B32) (J : B32 → Bytes 1088 → B32) : Prop :=
  ∃ (dk : MlKem.DecapsulationKey MlKem768Params) (ek : MlKem.EncapsulationKey MlKem768Params) (eb : Bytes 1184)
    (c : Bytes 1088) (K : B32),
    Kem.generate_deterministic (withOracles S G J) MlKem768Params d z = .ok (dk, ek) ∧ ek.as_bytes = .ok eb ∧
    ek.encapsulate_deterministic (withOracles S G J) m = .ok (c, K) ∧
    (A (joinKey eb (X.publicKey x)) (join c (X.x25519 e basePoint))
        (key (keyed S K (X.x25519 e (X.publicKey x), X.x25519 e basePoint, X.publicKey x)))).output G J (fun c' =>
      if c' = join c (X.x25519 e basePoint) then none else
        match dk.decapsulate (withOracles S G J) (partM c') with
        | .ok K' => some (keyed S K' (X.x25519 x (partX c'), partX c', X.publicKey x))
        | _ => none) = true

variable (S : Sha3) (X : X25519) (A : Bytes 1216 → Bytes 1120 → B32 → XWingSpec.Attacker) (key : B32 → B32)

omit [Build] in
theorem join_eq (c : Bytes 1088) (x : Bytes 32) : join c x = cat CIPHERTEXT_SIZE c x := rfl

omit [Build] in
theorem joinKey_eq (c : Bytes 1184) (x : Bytes 32) : joinKey c x = cat ENCAPSULATION_KEY_SIZE c x := rfl

omit [Build] in
theorem partX_eq (c : Bytes 1120) : partX c = back 1088 32 c := rfl

omit [Build] in
theorem partM_eq (c : Bytes 1120) : partM c = front 1088 c := by
  apply Vector.ext
  intro i hi
  unfold partM front Fips203.bytes bytesOf
  rw [Vector.getElem_ofFn, Vector.getElem_ofFn]
  simp only [List.getD_eq_getElem?_getD]
  rw [List.getElem?_take_of_lt hi]

omit [Build] in
theorem blocks_fill (b : B32) (s : List B32) : blocks.fill_bytes 32 (b :: s) = .ok (b, s) := rfl

theorem attack_expanded (sk m e : B32) (G : B32 → B32 → B32 × B32) (J : B32 → Bytes 1088 → B32) :
    Attack S X A key sk m e G J ↔
      Expanded S X A key (expanded S sk).1 (expanded S sk).2.1 (expanded S sk).2.2 m e G J := by
  have hH : ∀ l, seedD (withOracles S G J) l = seedD S l ∧ seedZ (withOracles S G J) l = seedZ S l
    ∧ secretX (withOracles S G J) l = secretX S l := fun l => ⟨rfl, rfl, rfl⟩
  have hC : ∀ a b c d : List UInt8, Combiner (withOracles S G J) a b c d = Combiner S a b c d := fun _ _ _ _ => rfl
  have hdec : ∀ (sk_m : MlKem.DecapsulationKey MlKem768Params) pk_m,
      Kem.generate_deterministic (withOracles S G J) MlKem768Params (expanded S sk).1 (expanded S sk).2.1 = .ok (sk_m, pk_m) →
      ∀ c, (match (do let ct ← Ciphertext.from_bytes c
                      (DecapsulationKey.from_bytes sk).decapsulate (withOracles S G J) X ct) with
        | .ok ss => some ss
        | _ => none) = (match sk_m.decapsulate (withOracles S G J) (partM c) with
        | .ok K' => some (keyed S K' (X.x25519 (expanded S sk).2.2 (partX c), partX c, X.publicKey (expanded S sk).2.2))
        | _ => none) := by
    intro sk_m pk_m hg c
    have hct : Ciphertext.from_bytes c = .ok ⟨front 1088 c, back 1088 32 c⟩ := ct_from_bytes c
    rw [hct, Res.ok_bind, partM_eq, partX_eq]
    unfold DecapsulationKey.decapsulate
    rw [expand_key_eq]
    have hg' : Kem.generate_deterministic (withOracles S G J) MlKem768Params
        (seedD (withOracles S G J) (DecapsulationKey.from_bytes sk).sk.toList)
        (seedZ (withOracles S G J) (DecapsulationKey.from_bytes sk).sk.toList) = .ok (sk_m, pk_m) := hg
    rw [hg', Res.ok_bind, Res.ok_bind]
    dsimp only
    cases sk_m.decapsulate (withOracles S G J) (front 1088 c) <;> rfl
  constructor
  · rintro ⟨dk, ek, eb, ct, cb, ss, s, s', h1, h2, h3, h4, h5⟩
    obtain ⟨b, s1, pk, g1, g2, g3⟩ := ((C40_randomness (withOracles S G J) X blocks [sk]).1 _).1 h1
    rw [blocks_fill] at g1
    obtain ⟨rfl, rfl⟩ := Prod.mk.inj (Res.ok.inj g1)
    obtain ⟨hp, -⟩ := Prod.mk.inj g3
    obtain ⟨rfl, rfl⟩ := Prod.mk.inj hp
    obtain ⟨sk_m, hg, hx⟩ := derived_shape (withOracles S G J) X g2
    have hx : ek.pk_x = X.publicKey (expanded S sk).2.2 := hx
    have hg : Kem.generate_deterministic (withOracles S G J) MlKem768Params (expanded S sk).1 (expanded S sk).2.1
      = .ok (sk_m, ek.pk_m) := hg
    obtain ⟨m', s2, e', s3, ct_m, ss_m, k1, k2, k3, k4⟩ := ((C40_randomness (withOracles S G J) X blocks [m, e]).2 ek _).1 h3
    rw [blocks_fill] at k1
    obtain ⟨rfl, rfl⟩ := Prod.mk.inj (Res.ok.inj k1)
    rw [blocks_fill] at k2
    obtain ⟨rfl, rfl⟩ := Prod.mk.inj (Res.ok.inj k2)
    obtain ⟨hp, -⟩ := Prod.mk.inj k4
    obtain ⟨rfl, hss⟩ := Prod.mk.inj hp
    have hss : ss = keyed S ss_m (X.x25519 e ek.pk_x, X.x25519 e basePoint, ek.pk_x) := hss
    subst hss
    obtain ⟨eb', he, -⟩ : ∃ eb' : Bytes 1184, ek.pk_m.as_bytes = .ok eb' ∧ True := by
      obtain ⟨eb', he, -⟩ := C02_encaps_is_fips203 (withOracles S G J) supported_768 (.generated hg) m
      exact ⟨eb', he, trivial⟩
    have h2' : eb = joinKey eb' ek.pk_x := Res.ok.inj (h2.symm.trans (ek_as_bytes ek he))
    have h4' : cb = join ct_m (X.x25519 e basePoint) := Res.ok.inj (h4.symm.trans (ct_as_bytes _))
    subst h2' h4'
    refine ⟨sk_m, ek.pk_m, eb', ct_m, ss_m, hg, he, k3, ?_⟩
    simp only [hdec sk_m _ hg] at h5
    rw [hx] at h5
    refine Eq.trans ?_ h5
    refine congrFun (congrArg _ ?_) _
    funext c'
    refine if_congr Iff.rfl rfl ?_
    cases sk_m.decapsulate (withOracles S G J) (partM c') <;> rfl
  · rintro ⟨sk_m, pk_m, eb, c, K, h1, h2, h3, h4⟩
    have g2 : (DecapsulationKey.from_bytes sk).encapsulation_key (withOracles S G J) X
        = .ok ⟨pk_m, X.publicKey (expanded S sk).2.2⟩ := by
      unfold DecapsulationKey.encapsulation_key
      rw [expand_key_eq]
      have hg' : Kem.generate_deterministic (withOracles S G J) MlKem768Params
          (seedD (withOracles S G J) (DecapsulationKey.from_bytes sk).sk.toList)
          (seedZ (withOracles S G J) (DecapsulationKey.from_bytes sk).sk.toList) = .ok (sk_m, pk_m) := h1
      rw [hg']
      rfl
    refine ⟨DecapsulationKey.from_bytes sk, ⟨pk_m, X.publicKey (expanded S sk).2.2⟩,
      joinKey eb (X.publicKey (expanded S sk).2.2), ⟨c, X.x25519 e basePoint⟩, join c (X.x25519 e basePoint),
      keyed S K (X.x25519 e (X.publicKey (expanded S sk).2.2), X.x25519 e basePoint, X.publicKey (expanded S sk).2.2), [], [],
      ((C40_randomness (withOracles S G J) X blocks [sk]).1 _).2 ⟨sk, [], _, rfl, g2, rfl⟩, ek_as_bytes _ h2,
      ((C40_randomness (withOracles S G J) X blocks [m, e]).2 _ _).2 ⟨m, [e], e, [], c, K, rfl, rfl, h3, rfl⟩, ct_as_bytes _, ?_⟩
    simp only [hdec sk_m _ h1]
    refine Eq.trans ?_ h4
    refine congrFun (congrArg _ ?_) _
    funext c'
    refine if_congr Iff.rfl rfl ?_
    cases sk_m.decapsulate (withOracles S G J) (partM c') <;> rfl

/-! ### From ML-KEM attackers -/

omit [Build] in
theorem answer_output (x : B32) (c : Bytes 1120) (F : Exchange → B32) (G : B32 → B32 → B32 × B32)
    (J : B32 → Bytes 1088 → B32) {D : Bytes 1120 → Option B32} {D' : Bytes 1088 → Option B32}
    (h0 : D c = none)
    (h1 : ∀ c', c' ≠ c → partM c' = partM c → D c' = some (F (X.x25519 x (partX c'), partX c', X.publicKey x)))
    (h2 : ∀ c', partM c' ≠ partM c →
      D c' = (D' (partM c')).map fun K => keyed S K (X.x25519 x (partX c'), partX c', X.publicKey x))
    (B : XWingSpec.Attacker) :
    (answer S X.x25519 X.publicKey x c F B).output G J D' = B.output G J D := by
  induction B with
  | guess b => rfl
  | hashG m h next ih => exact ih _
  | hashJ z c' next ih => exact ih _
  | decaps c' next ih =>
    unfold answer XWingSpec.Attacker.output
    by_cases hc : c' = c
    · rw [if_pos hc, hc, h0]
      exact ih _
    rw [if_neg hc]
    by_cases hm : partM c' = partM c
    · rw [if_pos hm, h1 c' hc hm]
      exact ih _
    · rw [if_neg hm, h2 c' hm]
      exact ih _

omit [Build] in
theorem join_parts (c : Bytes 1120) : join (partM c) (partX c) = c := by
  rw [partM_eq]
  exact cat_front_back ct_size c

omit [Build] in
theorem answer_congr (x : B32) (c : Bytes 1120) {F F' : Exchange → B32}
    (h : ∀ t, t.2.1 ≠ partX c → F t = F' t) (B : XWingSpec.Attacker) :
    answer S X.x25519 X.publicKey x c F B = answer S X.x25519 X.publicKey x c F' B := by
  induction B with
  | guess b => rfl
  | hashG m h next ih => unfold answer; simp only [ih]
  | hashJ z c' next ih => unfold answer; simp only [ih]
  | decaps c' next ih =>
    unfold answer
    simp only [ih]
    by_cases hc : c' = c
    · rw [if_pos hc, if_pos hc]
    rw [if_neg hc, if_neg hc]
    by_cases hm : partM c' = partM c
    · rw [if_pos hm, if_pos hm, h _ fun hx => hc ?_]
      rw [← join_parts c', ← join_parts c, hm]
      exact congrArg _ hx
    · rw [if_neg hm, if_neg hm]

omit [Build] in
theorem answer_atMost (x : B32) (c : Bytes 1120) (F : Exchange → B32) (B : XWingSpec.Attacker) {q : Nat} (h : B.AtMost q) :
    (answer S X.x25519 X.publicKey x c F B).AtMost q := by
  have mono : ∀ (B : Fips203.Attacker 1088) {q : Nat}, B.AtMost q → B.AtMost (q + 1) := by
    intro B
    induction B with
    | guess b => exact fun _ => trivial
    | hashG m h next ih => rintro q ⟨q', rfl, h⟩; exact ⟨_, rfl, fun a => ih _ (h a)⟩
    | hashJ m h next ih => rintro q ⟨q', rfl, h⟩; exact ⟨_, rfl, fun a => ih _ (h a)⟩
    | decaps c next ih => rintro q ⟨q', rfl, h⟩; exact ⟨_, rfl, fun a => ih _ (h a)⟩
  induction B generalizing q with
  | guess b => trivial
  | hashG m h next ih => obtain ⟨q', rfl, h⟩ := h; exact ⟨_, rfl, fun a => ih _ (h a)⟩
  | hashJ m h next ih => obtain ⟨q', rfl, h⟩ := h; exact ⟨_, rfl, fun a => ih _ (h a)⟩
  | decaps c' next ih =>
    obtain ⟨q', rfl, h⟩ := h
    unfold answer
    by_cases hc : c' = c
    · rw [if_pos hc]; exact mono _ (ih _ (h _))
    by_cases hm : partM c' = partM c
    · rw [if_neg hc, if_pos hm]; exact mono _ (ih _ (h _))
    · rw [if_neg hc, if_neg hm]; exact ⟨_, rfl, fun a => ih _ (h _)⟩

omit [Build] in
theorem partM_join (c : Bytes 1088) (x : Bytes 32) : partM (join c x) = c := by
  rw [partM_eq, join_eq]; exact front_cat ct_size c x

omit [Build] in
theorem partX_join (c : Bytes 1088) (x : Bytes 32) : partX (join c x) = x := by
  rw [partX_eq, join_eq]; exact back_cat ct_size c x

omit [Build] in
theorem ite_same {α : Type} {p : Prop} {i i' : Decidable p} {a b b' : α} (h : b = b') : @ite _ p i a b = @ite _ p i' a b' := by
  rw [h]
  congr

/-- If decryption of the challenge is correct, an attack on X-Wing is an attack on ML-KEM. -/
theorem expanded_kem (d z x m e : B32) (G : B32 → B32 → B32 × B32) (J : B32 → Bytes 1088 → B32)
    (hc : ¬ Incorrect S ML_KEM_768 d m (G m (keyHash S ML_KEM_768 d)).2) :
    Expanded S X A key d z x m e G J ↔
      MlKem.Attack S MlKem768Params (toKem S X.x25519 X.publicKey (keyed S) A key x e) id d z m G J := by
  unfold Expanded MlKem.Attack
  refine exists_congr fun dk => exists_congr fun ek => exists_congr fun eb => exists_congr fun c => exists_congr fun K => ?_
  refine and_congr_right fun h1 => and_congr_right fun h2 => and_congr_right fun h3 => ?_
  have hd : dk.decapsulate (withOracles S G J) c = .ok K :=
    decaps_of_correct S supported_768 (by decide) (by decide) h1 h3 hc
  unfold toKem
  have key := answer_output S X x (join c (X.x25519 e basePoint)) (keyed S K) G J (D := fun c' =>
      if c' = join c (X.x25519 e basePoint) then none else
        match dk.decapsulate (withOracles S G J) (partM c') with
        | .ok K' => some (keyed S K' (X.x25519 x (partX c'), partX c', X.publicKey x))
        | _ => none)
      (D' := fun c' => if c' = c then none else
        match dk.decapsulate (withOracles S G J) c' with
        | .ok K' => some K'
        | _ => none) (if_pos rfl) (fun c' hc' hm => ?_) (fun c' hm => ?_)
  · rw [← key]
    refine iff_of_eq (congrArg (· = true) ?_)
    refine congrFun (congrArg (Fips203.Attacker.output G J) (funext fun c' => ?_)) _
    refine ite_same ?_
    have e : @withOracles S 1088 G J = @withOracles S MlKem768Params.CiphertextSize G J := rfl
    rw [← e]
    cases dk.decapsulate (withOracles S G J) c' <;> rfl
  · rw [partM_join] at hm
    rw [if_neg hc', hm, hd]
  · rw [partM_join] at hm
    rw [if_neg fun e => hm (by rw [e, partM_join]), if_neg hm]
    cases dk.decapsulate (withOracles S G J) (partM c') <;> rfl

/-- What an attack on X-Wing needs: the advantages against the expansion of the secret key by SHAKE128, against ML-KEM,
for a random X25519 key and exchange, and against the combiner as a pseudorandom function of `ss_M`. The attacker
is shown `key ss`. -/
noncomputable def hybrid : ℝ :=
  Fips203.advantage (fun ((d, z, x) : B32 × B32 × B32) (m, e, g, j) => Expanded S X A key d z x m e g j) (expanded S) id
  + (𝔼 x, 𝔼 e, ccaAdvantage S MlKem768Params (toKem S X.x25519 X.publicKey (keyed S) A key x e))
  + Fips203.advantage (fun (F : Exchange → B32) (d, z, m, x, e, g, j) => MlKem.Attack S MlKem768Params
      (toKem S X.x25519 X.publicKey (fun _ => F) A key x e) id d z m g j) (keyed S) id

section
variable {a b c d e g j k : Type} [Fintype a] [Fintype b] [Fintype c] [Fintype d] [Fintype e] [Fintype g] [Fintype j] [Fintype k]

omit [Build] in
theorem reorder7 (f : a → b → c → d → e → g → j → ℝ) :
    𝔼 u, 𝔼 v, 𝔼 w, 𝔼 x, 𝔼 y, 𝔼 z, 𝔼 t, f u v w x y z t = 𝔼 w, 𝔼 z, 𝔼 u, 𝔼 x, 𝔼 v, 𝔼 y, 𝔼 t, f u v w x y z t := by
  have := Fintype.expect_equiv (M := ℝ)
    (⟨fun (u, v, w, x, y, z, t) => (w, z, u, x, v, y, t), fun (w, z, u, x, v, y, t) => (u, v, w, x, y, z, t),
      fun _ => rfl, fun _ => rfl⟩ : a × b × c × d × e × g × j ≃ c × g × a × d × b × e × j)
    (fun (u, v, w, x, y, z, t) => f u v w x y z t) (fun (w, z, u, x, v, y, t) => f u v w x y z t) fun _ => rfl
  simpa only [expect_prod_type] using this

omit [Build] in
theorem reorder8 (f : a → b → c → d → e → g → j → k → ℝ) :
    𝔼 u, 𝔼 v, 𝔼 w, 𝔼 x, 𝔼 s, 𝔼 y, 𝔼 z, 𝔼 t, f u v w x s y z t
      = 𝔼 s, 𝔼 w, 𝔼 z, 𝔼 x, 𝔼 u, 𝔼 v, 𝔼 y, 𝔼 t, f u v w x s y z t := by
  have := Fintype.expect_equiv (M := ℝ)
    (⟨fun (u, v, w, x, s, y, z, t) => (s, w, z, x, u, v, y, t), fun (s, w, z, x, u, v, y, t) => (u, v, w, x, s, y, z, t),
      fun _ => rfl, fun _ => rfl⟩ : a × b × c × d × e × g × j × k ≃ e × c × j × d × a × b × g × k)
    (fun (u, v, w, x, s, y, z, t) => f u v w x s y z t) (fun (s, w, z, x, u, v, y, t) => f u v w x s y z t) fun _ => rfl
  simpa only [expect_prod_type] using this

end

theorem kem_hop {δ : B32 → ℝ} (hδ : ∀ d m, prob (fun r : B32 => Incorrect S ML_KEM_768 d m r) ≤ δ d) :
    |(𝔼 d, 𝔼 z, 𝔼 x, 𝔼 m, 𝔼 e, 𝔼 g, 𝔼 j, ind (Expanded S X A key d z x m e g j))
      - 𝔼 d, 𝔼 z, 𝔼 x, 𝔼 m, 𝔼 e, 𝔼 g, 𝔼 j,
        ind (MlKem.Attack S MlKem768Params (toKem S X.x25519 X.publicKey (keyed S) A key x e) id d z m g j)| ≤ 𝔼 d, δ d := by
  have pt : ∀ d z x m e g j, |ind (Expanded S X A key d z x m e g j)
      - ind (MlKem.Attack S MlKem768Params (toKem S X.x25519 X.publicKey (keyed S) A key x e) id d z m g j)|
      ≤ ind (Incorrect S ML_KEM_768 d m (g m (keyHash S ML_KEM_768 d)).2) := fun d z x m e g j =>
    abs_ind_sub fun hc => expanded_kem S X A key d z x m e g j hc
  have hd : ∀ d m, 𝔼 g : B32 → B32 → B32 × B32, ind (Incorrect S ML_KEM_768 d m (g m (keyHash S ML_KEM_768 d)).2) ≤ δ d := by
    intro d m
    rw [expect_at m fun y : B32 → B32 × B32 => ind (Incorrect S ML_KEM_768 d m (y (keyHash S ML_KEM_768 d)).2),
      expect_at (keyHash S ML_KEM_768 d) fun y : B32 × B32 => ind (Incorrect S ML_KEM_768 d m y.2), expect_prod_type]
    refine (le_of_eq (Fintype.expect_const (𝔼 r : B32, ind (Incorrect S ML_KEM_768 d m r)))).trans ?_
    rw [← prob_ind]
    exact hδ d m
  generalize (fun d z x m e g j => ind (MlKem.Attack S MlKem768Params
    (toKem S X.x25519 X.publicKey (keyed S) A key x e) id d z m g j)) = T at *
  have av : ∀ {Y : Type} [Fintype Y] [Nonempty Y] {f f' : Y → ℝ} {c : ℝ}, (∀ y, |f y - f' y| ≤ c) →
      |(𝔼 y, f y) - 𝔼 y, f' y| ≤ c := fun {Y} _ _ {f f' c} h =>
    (abs_expect_sub h).trans (le_of_eq (Fintype.expect_const c))
  refine abs_expect_sub fun d => ?_
  refine av fun z => ?_
  refine av fun x => ?_
  refine av fun m => ?_
  refine av fun e => ?_
  refine (abs_expect_sub fun g => ?_).trans (hd d m)
  exact av fun j => pt d z x m e g j

theorem half {δ : B32 → ℝ} (hδ : ∀ d m, prob (fun r : B32 => Incorrect S ML_KEM_768 d m r) ≤ δ d) :
    |prob (fun (sk, m, e, g, j) => Attack S X A key sk m e g j)
        - prob (fun ((F, d, z, m, x, e, g, j) : (Exchange → B32) × B32 × B32 × B32 × B32 × B32 × _ × _) =>
            MlKem.Attack S MlKem768Params (toKem S X.x25519 X.publicKey (fun _ => F) A key x e) id d z m g j)|
      ≤ hybrid S X A key + 𝔼 d, δ d := by
  unfold hybrid ccaAdvantage
  simp only [advantage_eq, prob_ind, expect_prod_type, attack_expanded, id]
  set T : B32 → B32 → B32 → B32 → (B32 → B32 → B32 × B32) → B32 → (B32 → Bytes 1088 → B32) → ℝ := fun x e d m g z j =>
    ind (MlKem.Attack S MlKem768Params (toKem S X.x25519 X.publicKey (keyed S) A key x e) id d z m g j) with hT
  set T1 : B32 → B32 → B32 → B32 → B32 → (B32 → B32 → B32 × B32) → B32 → (B32 → Bytes 1088 → B32) → ℝ := fun x e d m K g z j =>
    ind (MlKem.Attack S MlKem768Params (toKem S X.x25519 X.publicKey (fun _ => keyed S K) A key x e) id d z m g j) with hT1
  have c1 : |(𝔼 d, 𝔼 z, 𝔼 x, 𝔼 m, 𝔼 e, 𝔼 g, 𝔼 j, ind (Expanded S X A key d z x m e g j))
      - 𝔼 x, 𝔼 e, 𝔼 d, 𝔼 m, 𝔼 g, 𝔼 z, 𝔼 j, T x e d m g z j| ≤ 𝔼 d, δ d := by
    rw [reorder7 T]
    exact kem_hop S X A key hδ
  have c2 : |(𝔼 x, 𝔼 e, 𝔼 d, 𝔼 m, 𝔼 g, 𝔼 z, 𝔼 j, T x e d m g z j) - 𝔼 x, 𝔼 e, 𝔼 d, 𝔼 m, 𝔼 K, 𝔼 g, 𝔼 z, 𝔼 j, T1 x e d m K g z j|
      ≤ 𝔼 x, 𝔼 e, |(𝔼 d, 𝔼 m, 𝔼 g, 𝔼 z, 𝔼 j, T x e d m g z j) - 𝔼 d, 𝔼 m, 𝔼 K, 𝔼 g, 𝔼 z, 𝔼 j, T1 x e d m K g z j| :=
    abs_expect_sub fun x => abs_expect_sub fun e => le_refl _
  have c3 := reorder8 T1
  have tri : ∀ {a b c u v : ℝ}, |a - b| ≤ u → |b - c| ≤ v → |a - c| ≤ u + v := fun h h' =>
    (abs_sub_le _ _ _).trans (add_le_add h h')
  have := tri (tri (tri (le_refl _) c1) c2) (c := 𝔼 F, 𝔼 d, 𝔼 z, 𝔼 m, 𝔼 x, 𝔼 e, 𝔼 g, 𝔼 j,
    ind (MlKem.Attack S MlKem768Params (toKem S X.x25519 X.publicKey (fun _ => F) A key x e) id d z m g j))
    (le_of_eq (congrArg (fun y => |y - _|) c3)) (a := 𝔼 sk, 𝔼 m, 𝔼 e, 𝔼 g, 𝔼 j,
      ind (Expanded S X A key (expanded S sk).1 (expanded S sk).2.1 (expanded S sk).2.2 m e g j))
  have fin : ∀ a b c d : ℝ, a + b + c + d = a + c + d + b := fun a b c d => by ring
  rw [fin] at this
  exact this

omit [Build] in
theorem swap_update {ι α R : Type} [Fintype ι] [DecidableEq ι] [Fintype α] [Nonempty α] [Fintype R] (pt : R → ι)
    (f : (ι → α) → R → ℝ) (f' : α → (ι → α) → R → ℝ) (h : ∀ r F u, f (Function.update F (pt r) u) r = f' u F r) :
    𝔼 F, 𝔼 r, f F r = 𝔼 u, 𝔼 F, 𝔼 r, f' u F r := by
  rw [Finset.expect_comm]
  have : ∀ r, 𝔼 F, f F r = 𝔼 u, 𝔼 F, f' u F r := fun r => by
    rw [expect_update (pt r)]
    simp only [h]
  simp only [this]
  rw [Finset.expect_comm]
  exact Finset.expect_congr rfl fun u _ => Finset.expect_comm ..

/-- With a random function in place of the combiner, the shared secret is independent of all answers. -/
theorem kem_swap (F : Exchange → B32) (u d z x m e : B32) (G : B32 → B32 → B32 × B32) (J : B32 → Bytes 1088 → B32) :
    MlKem.Attack S MlKem768Params (toKem S X.x25519 X.publicKey
        (fun _ => Function.update F (X.x25519 e (X.publicKey x), X.x25519 e basePoint, X.publicKey x) u) A id x e) id d z m G J ↔
      MlKem.Attack S MlKem768Params (toKem S X.x25519 X.publicKey (fun _ => F) A (fun _ => u) x e) id d z m G J := by
  refine iff_of_eq (congrArg (fun B => MlKem.Attack S MlKem768Params B id d z m G J) ?_)
  funext ek c K
  unfold toKem
  dsimp only [id]
  rw [Function.update_self]
  refine answer_congr S X x _ (fun t ht => ?_) _
  rw [partX_join] at ht
  exact Function.update_of_ne (fun e => ht (by rw [e])) _ _

/-- Averaged over the random function and all else, showing the right secret is showing a random one. -/
theorem swap_all : 𝔼 F, 𝔼 d, 𝔼 z, 𝔼 m, 𝔼 x, 𝔼 e, 𝔼 g, 𝔼 j,
    ind (MlKem.Attack S MlKem768Params (toKem S X.x25519 X.publicKey (fun _ => F) A id x e) id d z m g j)
    = 𝔼 ss, 𝔼 F, 𝔼 d, 𝔼 z, 𝔼 m, 𝔼 x, 𝔼 e, 𝔼 g, 𝔼 j,
      ind (MlKem.Attack S MlKem768Params (toKem S X.x25519 X.publicKey (fun _ => F) A (fun _ => ss) x e) id d z m g j) := by
  have := swap_update (R := B32 × B32 × B32 × B32 × B32 × (B32 → B32 → B32 × B32) × (B32 → MlKem768Params.EncodedCiphertext → B32))
    (fun (d, z, m, x, e, g, j) => (X.x25519 e (X.publicKey x), X.x25519 e basePoint, X.publicKey x))
    (fun (F : Exchange → B32) (d, z, m, x, e, g, j) => ind (MlKem.Attack S MlKem768Params
      (toKem S X.x25519 X.publicKey (fun _ => F) A id x e) id d z m g j))
    (fun ss (F : Exchange → B32) (d, z, m, x, e, g, j) => ind (MlKem.Attack S MlKem768Params
      (toKem S X.x25519 X.publicKey (fun _ => F) A (fun _ => ss) x e) id d z m g j))
    fun (d, z, m, x, e, g, j) F u => ind_congr (kem_swap S X A F u d z x m e g j)
  simpa only [expect_prod_type] using this

/-- **C69** An attacker on X-Wing tells the shared secret that encapsulation returned from a random one with an
advantage of at most `hybrid` for the attacker shown the right secret, and for the attacker shown a random one, plus twice
the probability that ML-KEM decryption fails. Nothing is assumed about X25519. -/
theorem C69_hybrid {δ : B32 → ℝ} (hδ : ∀ d m, prob (fun r : B32 => Incorrect S ML_KEM_768 d m r) ≤ δ d) :
    |prob (fun (sk, m, e, g, j) => Attack S X A id sk m e g j)
        - prob (fun ((ss, sk, m, e, g, j) : B32 × _) => Attack S X A (fun _ => ss) sk m e g j)|
      ≤ hybrid S X A id + (𝔼 ss, hybrid S X A (fun _ => ss)) + 2 * 𝔼 d, δ d := by
  have h1 := half S X A id hδ
  have h2 := abs_expect_sub fun ss => half S X A (fun _ => ss) hδ
  rw [Finset.expect_add_distrib, Fintype.expect_const] at h2
  simp only [prob_ind, expect_prod_type] at h1 h2 ⊢
  rw [swap_all S X A] at h1
  have tri : ∀ {a b c u v : ℝ}, |a - b| ≤ u → |b - c| ≤ v → |a - c| ≤ u + v := fun h h' =>
    (abs_sub_le _ _ _).trans (add_le_add h h')
  rw [abs_sub_comm] at h2
  have := tri h1 h2
  linarith

/-- What an attack on X-Wing needs, down to module learning with errors: the advantages against the expansion of the
secret key by SHAKE128, against `G`, `PRF` and module learning with errors, and against the combiner as a pseudorandom
function of `ss_M` -/
noncomputable def hybridMlwe : ℝ :=
  Fips203.advantage (fun ((d, z, x) : B32 × B32 × B32) (m, e, g, j) => Expanded S X A key d z x m e g j) (expanded S) id
  + (𝔼 x, 𝔼 e, assumptions S ML_KEM_768 (simulate S ML_KEM_768 (toKem S X.x25519 X.publicKey (keyed S) A key x e)))
  + Fips203.advantage (fun (F : Exchange → B32) (d, z, m, x, e, g, j) => MlKem.Attack S MlKem768Params
      (toKem S X.x25519 X.publicKey (fun _ => F) A key x e) id d z m g j) (keyed S) id

theorem hybrid_le {q : Nat} (hA : ∀ eb cb ss, (A eb cb ss).AtMost q) {δ : B32 → ℝ}
    (hδ : ∀ d m, prob (fun r : B32 => Incorrect S ML_KEM_768 d m r) ≤ δ d) :
    hybrid S X A key ≤ hybridMlwe S X A key + (3 * (q + 1) * (𝔼 d, δ d) + 3 * q * 2 ^ (-256 : ℤ)) := by
  have h : ∀ x e, ccaAdvantage S MlKem768Params (toKem S X.x25519 X.publicKey (keyed S) A key x e)
      ≤ assumptions S ML_KEM_768 (simulate S ML_KEM_768 (toKem S X.x25519 X.publicKey (keyed S) A key x e))
        + (3 * (q + 1) * (𝔼 d, δ d) + 3 * q * 2 ^ (-256 : ℤ)) := fun x e => by
    have := C68_secure S supported_768 (toKem S X.x25519 X.publicKey (keyed S) A key x e) (q := q)
      (fun eb c K => answer_atMost S X x _ _ _ (hA _ _ _)) hδ
    unfold assumptions
    rw [← add_assoc]
    exact this
  have h2 : (𝔼 x, 𝔼 e, ccaAdvantage S MlKem768Params (toKem S X.x25519 X.publicKey (keyed S) A key x e))
      ≤ (𝔼 x, 𝔼 e, assumptions S ML_KEM_768 (simulate S ML_KEM_768 (toKem S X.x25519 X.publicKey (keyed S) A key x e)))
        + (3 * (q + 1) * (𝔼 d, δ d) + 3 * q * 2 ^ (-256 : ℤ)) := by
    refine (Finset.expect_le_expect fun x _ => Finset.expect_le_expect fun e _ => h x e).trans (le_of_eq ?_)
    simp only [Finset.expect_add_distrib, Fintype.expect_const]
  unfold hybrid hybridMlwe
  linarith

/-- **C70** Chosen-ciphertext security of the modelled X-Wing from module learning with errors, the pseudorandomness
of SHAKE128's expansion, `G`, `PRF` and the combiner, for an attacker that asks at most `q` questions. Nothing is
assumed about X25519. -/
theorem C70_secure {q : Nat} (hA : ∀ eb cb ss, (A eb cb ss).AtMost q) {δ : B32 → ℝ}
    (hδ : ∀ d m, prob (fun r : B32 => Incorrect S ML_KEM_768 d m r) ≤ δ d) :
    |prob (fun (sk, m, e, g, j) => Attack S X A id sk m e g j)
        - prob (fun ((ss, sk, m, e, g, j) : B32 × _) => Attack S X A (fun _ => ss) sk m e g j)|
      ≤ hybridMlwe S X A id + (𝔼 ss, hybridMlwe S X A (fun _ => ss)) + (6 * q + 8) * (𝔼 d, δ d) + 6 * q * 2 ^ (-256 : ℤ) := by
  have h1 := C69_hybrid S X A hδ
  have h2 := hybrid_le S X A id hA hδ
  have h3 : (𝔼 ss, hybrid S X A (fun _ => ss)) ≤ (𝔼 ss, hybridMlwe S X A (fun _ => ss))
      + (3 * (q + 1) * (𝔼 d, δ d) + 3 * q * 2 ^ (-256 : ℤ)) := by
    refine (Finset.expect_le_expect fun ss _ => hybrid_le S X A (fun _ => ss) hA hδ).trans (le_of_eq ?_)
    rw [Finset.expect_add_distrib, Fintype.expect_const]
  linarith

/-- An attacker that knows the secrets of one execution and compares the secret it is shown -/
noncomputable def insider (S : Sha3) (X : X25519) (sk m e : B32) (_ : Bytes 1216) (_ : Bytes 1120) (ss : B32) :
    XWingSpec.Attacker :=
  .hashG m (keyHash S ML_KEM_768 (expanded S sk).1) fun a => .guess (decide (ss = keyed S a.1
    (X.x25519 e (X.publicKey (expanded S sk).2.2), X.x25519 e basePoint, X.publicKey (expanded S sk).2.2)))

theorem insider_attack (sk m e : B32) (G : B32 → B32 → B32 × B32) (J : B32 → Bytes 1088 → B32) :
    Attack Toy.S X (insider Toy.S X sk m e) key sk m e G J ↔
      key (keyed Toy.S (G m (keyHash Toy.S ML_KEM_768 (expanded Toy.S sk).1)).1 (X.x25519 e (X.publicKey (expanded Toy.S sk).2.2),
        X.x25519 e basePoint, X.publicKey (expanded Toy.S sk).2.2))
      = keyed Toy.S (G m (keyHash Toy.S ML_KEM_768 (expanded Toy.S sk).1)).1 (X.x25519 e (X.publicKey (expanded Toy.S sk).2.2),
        X.x25519 e basePoint, X.publicKey (expanded Toy.S sk).2.2) := by
  rw [attack_expanded, expanded_kem Toy.S X _ _ _ _ _ _ _ _ _ (toy_correct _ _ _)]
  refine (attack_iff Toy.S supported_768 (toKem Toy.S X.x25519 X.publicKey (keyed Toy.S) (insider Toy.S X sk m e) key
    (expanded Toy.S sk).2.2 e) id (Toy.seedOk _ _) _ _ _ _).trans ?_
  exact decide_eq_true_iff

/-- The insider asks one question, always answers `true` on the right secret and almost never on another one; and
ML-KEM decryption never fails for these hash functions. -/
example (sk m e : B32) : (∀ eb cb ss, (insider Toy.S X sk m e eb cb ss).AtMost 1) ∧
    (∀ d m, prob (fun r : B32 => Incorrect Toy.S ML_KEM_768 d m r) ≤ 0) ∧
    (∀ g j, Attack Toy.S X (insider Toy.S X sk m e) id sk m e g j) ∧
    ∀ g j, prob (fun ss => Attack Toy.S X (insider Toy.S X sk m e) (fun _ => ss) sk m e g j) ≤ 2 ^ (-256 : ℤ) := by
  refine ⟨fun _ _ _ => ⟨0, rfl, fun _ => trivial⟩, fun d m => le_of_eq ?_,
    fun g j => (insider_attack X id sk m e g j).2 rfl, fun g j => ?_⟩
  · rw [prob_ind]
    exact (Finset.expect_congr rfl fun r _ => if_neg (toy_correct d m r)).trans (Fintype.expect_const (0 : ℝ))
  · rw [prob_ind]
    have := mem_prob [keyed Toy.S (g m (keyHash Toy.S ML_KEM_768 (expanded Toy.S sk).1)).1
      (X.x25519 e (X.publicKey (expanded Toy.S sk).2.2), X.x25519 e basePoint, X.publicKey (expanded Toy.S sk).2.2)]
    refine le_trans (le_of_eq (Finset.expect_congr rfl fun ss _ => ind_congr ?_)) (this.trans (by simp))
    rw [insider_attack, List.mem_singleton]

end XWing
