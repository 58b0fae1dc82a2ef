import Verif.Proofs.Fo
import Verif.Spec.Cca
import Verif.Props.Failure
/-! C66: chosen-ciphertext attacks on the modelled code give attacks on K-PKE. -/
set_option linter.unusedSectionVars false

namespace MlKem
open Rust Fips203 Finset BigOperators Fo

/-! ### The attack -/

/-- The attacker is given the public key generated from `d` and `z`, the ciphertext that encapsulating `m`
returns, and `key K`, where `K` is the shared key that is returned with it. It may ask for `G`, for `J`, and for the
decapsulation of all other ciphertexts. It ends with the guess `true`. -/
def Attack [Build] (S : Sha3) (P : ParameterSet)
    (A : P.EncodedEncryptionKey → P.EncodedCiphertext → B32 → Attacker P.CiphertextSize) (key : B32 → B32)
    (d z m : B32) (G : B32 → B32 → B32 × B32) (J : B32 → P.EncodedCiphertext → B32) : Prop :=
  ∃ (dk : DecapsulationKey P) (ek : EncapsulationKey P) (eb : P.EncodedEncryptionKey) (c : P.EncodedCiphertext)
    (K : SharedKey),
    Kem.generate_deterministic (withOracles S G J) P d z = .ok (dk, ek) ∧ ek.as_bytes = .ok eb ∧
    ek.encapsulate_deterministic (withOracles S G J) m = .ok (c, K) ∧
    (A eb c (key K)).output G J (fun c' =>
      if c' = c then none else
        match dk.decapsulate (withOracles S G J) c' with
        | .ok K' => some K'
        | _ => none) = true

/-! ### Hash functions with tables -/

section
variable (S : Sha3) {n : Nat} (G : B32 → B32 → B32 × B32) (J : B32 → Bytes n → B32) {p : Params}

theorem bytes_toList {n : Nat} (b : Bytes n) (l : List UInt8) : Fips203.bytes n (b.toList ++ l) = b := by
  apply Vector.ext
  intro i hi
  unfold Fips203.bytes
  rw [Vector.getElem_ofFn, List.getD_eq_getElem?_getD, List.getElem?_append_left (by simpa using hi)]
  simp [hi]

theorem bytes_toList' {n : Nat} (b : Bytes n) : Fips203.bytes n b.toList = b := by
  rw [← List.append_nil b.toList, bytes_toList]

theorem oracles_G (m h : B32) :
    Fips203.G (withOracles S G J) (m.toList ++ h.toList) = ((G m h).1.toList, (G m h).2.toList) := by
  unfold Fips203.G withOracles
  simp only
  rw [if_pos (by simp), bytes_toList, List.drop_left' (by simp), bytes_toList']
  simp only [Vector.toList_append]
  rw [List.take_left' (by simp), List.drop_left' (by simp)]

theorem oracles_J (z : B32) (c : Bytes n) :
    Fips203.J (withOracles S G J) (z.toList ++ c.toList) = (J z c).toList := by
  unfold Fips203.J prefixBytes
  apply List.ext_getElem
  · simp
  · intro i h1 h2
    have hi : i < 32 := by simpa using h1
    rw [List.getElem_ofFn, Vector.getElem_toList]
    unfold withOracles
    simp only
    rw [dif_pos ⟨by simp, hi⟩]
    simp only [bytes_toList, List.drop_left' (show z.toList.length = 32 by simp), bytes_toList']

theorem oracles_seeds {d : List UInt8} (hd : d.length = 32) :
    seeds (withOracles S G J) p d = seeds S p d := by
  unfold seeds Fips203.G withOracles
  simp [hd]

theorem oracles_PRF (hn : n ≠ 1) {eta : Nat} {s : List UInt8} (hs : s.length = 32) (b : Nat) :
    Fips203.PRF (withOracles S G J) eta s b = Fips203.PRF S eta s b := by
  unfold Fips203.PRF
  congr 1
  funext i
  unfold withOracles
  simp only
  rw [dif_neg]
  rintro ⟨h, -⟩
  simp [hs] at h
  omega

theorem oracles_genS (hn : n ≠ 1) {sigma : List UInt8} (hs : sigma.length = 32) :
    genS (withOracles S G J) p sigma = genS S p sigma := by
  funext i
  unfold genS
  rw [oracles_PRF S G J hn hs]

theorem oracles_genT (hn : n ≠ 1) {rho sigma : List UInt8} (hs : sigma.length = 32) :
    genT (withOracles S G J) p rho sigma = genT S p rho sigma := by
  funext i
  unfold genT
  rw [oracles_PRF S G J hn hs, oracles_genS S G J hn hs]
  rfl

theorem oracles_encT (hn : n ≠ 1) (t : Fin p.k → Poly) (rho m : List UInt8) {r : List UInt8} (hs : r.length = 32) :
    encT (withOracles S G J) p t rho m r = encT S p t rho m r := by
  unfold encT
  simp only [oracles_PRF S G J hn hs]
  rfl

end

/-! ### What the attack comes to -/

section
variable [Build] (S : Sha3) {P : ParameterSet} {p : Params}

/-- `H(ek)` for the key generated from `d` -/
noncomputable def keyHash (S : Sha3) (p : Params) (d : B32) : B32 :=
  Fips203.bytes 32 (Fips203.H S (KPKE_KeyGen S p d.toList).1)

/-- Decryption with the key generated from `d` -/
noncomputable def decrypt (S : Sha3) (p : Params) (n : Nat) (d : B32) (c : Bytes n) : B32 :=
  Fips203.bytes 32 (KPKE_Decrypt p (KPKE_KeyGen S p d.toList).2 c.toList)

theorem ct_ne_one (P : ParameterSet) : P.CiphertextSize ≠ 1 := by
  have h1 := ct_size P
  have h2 : 32 ∣ P.CiphertextSize := by
    rw [h1]
    exact Dvd.dvd.add (Dvd.dvd.mul_right (Dvd.intro_left _ rfl) _) (Dvd.intro_left _ rfl)
  intro h
  rw [h] at h2
  exact absurd h2 (by decide)

theorem select_eq {n : Nat} (c : Bytes n) {L : List UInt8} (hL : L.length = n) (K K' : B32)
    {_ : Decidable (c.toList = L)} {_ : Decidable (Fips203.bytes n L = c)} :
    (bytesOf (if c.toList = L then K.toList else K'.toList) : B32)
      = if Fips203.bytes n L = c then K else K' := by
  have hl : (Fips203.bytes n L).toList = L := toList_bytesOf hL
  by_cases hc : Fips203.bytes n L = c
  · rw [if_pos hc, if_pos (by rw [← hc, hl])]
    exact bytes_toList' _
  · rw [if_neg hc, if_neg (fun e => hc (bytes_ext (hl.trans e.symm)))]
    exact bytes_toList' _

/-- What key generation, encapsulation and decapsulation return -/
theorem run_ok (h : Supported P p) {d : B32} (hs : SeedOk S p.k (seeds S p d.toList).1) (z : B32)
    (G : B32 → B32 → B32 × B32) (J : B32 → P.EncodedCiphertext → B32) :
    ∃ dk ek, Kem.generate_deterministic (withOracles S G J) P d z = .ok (dk, ek) ∧
      ek.as_bytes = .ok (Fips203.bytes _ (KPKE_KeyGen S p d.toList).1) ∧
      (∀ m : B32, ek.encapsulate_deterministic (withOracles S G J) m = .ok
        (encrypt S p _ (KPKE_KeyGen S p d.toList).1 m (G m (keyHash S p d)).2, (G m (keyHash S p d)).1)) ∧
      ∀ c, dk.decapsulate (withOracles S G J) c = .ok
        (keyOf (encrypt S p _ (KPKE_KeyGen S p d.toList).1) (decrypt S p _ d)
            (fun m => (G m (keyHash S p d)).1) (fun m => (G m (keyHash S p d)).2) (J z) c) := by
  obtain rfl := h.eq
  have hn := ct_ne_one P
  have hd : d.toList.length = 32 := by simp
  have hsig := (seeds_length S P.toParams d.toList).2
  have hrho := (seeds_length S P.toParams d.toList).1
  have hseed : SeedOk (withOracles S G J) P.K (seeds (withOracles S G J) P.toParams d.toList).1 := by
    rw [oracles_seeds S G J hd]; exact hs
  have hgen := kem_generate_ok (withOracles S G J) h.valid d z hseed
  have hT : genT (withOracles S G J) P.toParams (seeds S P.toParams d.toList).1 (seeds S P.toParams d.toList).2
      = genT S P.toParams (seeds S P.toParams d.toList).1 (seeds S P.toParams d.toList).2 := oracles_genT S G J hn hsig
  have hS : genS (withOracles S G J) P.toParams (seeds S P.toParams d.toList).2
      = genS S P.toParams (seeds S P.toParams d.toList).2 := oracles_genS S G J hn hsig
  have hH : Hash (withOracles S G J) (KPKE_KeyGen S P.toParams d.toList).1 = keyHash S P.toParams d := by
    apply bytes_ext
    rw [Hash_toList]
    exact (toList_bytesOf (by simp [Fips203.H])).symm
  have hekb := ekBytes_gen S (P := P) d
  have hek : genEk (withOracles S G J) P d = ekOf (genT S P.toParams (seeds S P.toParams d.toList).1 (seeds S P.toParams d.toList).2)
      (bytesOf (seeds S P.toParams d.toList).1) (keyHash S P.toParams d) := by
    unfold genEk
    dsimp only
    rw [oracles_seeds S G J hd, hT, hekb, hH]
  have hdk : genDk (withOracles S G J) P d z = dkOf (genS S P.toParams (seeds S P.toParams d.toList).2)
      (genT S P.toParams (seeds S P.toParams d.toList).1 (seeds S P.toParams d.toList).2)
      (bytesOf (seeds S P.toParams d.toList).1) (keyHash S P.toParams d) z := by
    rw [genDk_eq, oracles_seeds S G J hd, hT, hS, hekb, hH]
  have hseed' : SeedOk (withOracles S G J) P.K (bytesOf (seeds S P.toParams d.toList).1 : B32).toList := by
    rw [toList_bytesOf hrho]; exact hs
  have henc : ∀ m r : B32, encT (withOracles S G J) P.toParams
      (genT S P.toParams (seeds S P.toParams d.toList).1 (seeds S P.toParams d.toList).2)
      (bytesOf (seeds S P.toParams d.toList).1 : B32).toList m.toList r.toList
      = KPKE_Encrypt S P.toParams (KPKE_KeyGen S P.toParams d.toList).1 m.toList r.toList := by
    intro m r
    rw [oracles_encT S G J hn _ _ _ (by simp), toList_bytesOf hrho]
    exact (KPKE_Encrypt_enc12 S P.toParams _ _ _ _ hrho).symm
  have hel : ∀ m r : B32, (KPKE_Encrypt S P.toParams (KPKE_KeyGen S P.toParams d.toList).1 m.toList r.toList).length
      = P.CiphertextSize := by
    intro m r
    rw [← henc, encT_length, ct_size]
  have hdec : ∀ c : List UInt8, decT P.toParams (genS S P.toParams (seeds S P.toParams d.toList).2) c
      = KPKE_Decrypt P.toParams (KPKE_KeyGen S P.toParams d.toList).2 c := fun c =>
    (KPKE_Decrypt_enc12 P.toParams _ c).symm
  have hdl : ∀ c : List UInt8, (KPKE_Decrypt P.toParams (KPKE_KeyGen S P.toParams d.toList).2 c).length = 32 := by
    intro c
    rw [← hdec, decT_length]
  have hencaps := encaps_ok (withOracles S G J) h.valid
    (genT S P.toParams (seeds S P.toParams d.toList).1 (seeds S P.toParams d.toList).2)
    (bytesOf (seeds S P.toParams d.toList).1) (keyHash S P.toParams d)
  have heb := kem_ek_as_bytes (genT S P.toParams (seeds S P.toParams d.toList).1 (seeds S P.toParams d.toList).2)
    (bytesOf (seeds S P.toParams d.toList).1) (keyHash S P.toParams d)
  rw [hekb] at heb
  have hdecaps : ∀ c' : P.EncodedCiphertext, (dkOf (genS S P.toParams (seeds S P.toParams d.toList).2)
      (genT S P.toParams (seeds S P.toParams d.toList).1 (seeds S P.toParams d.toList).2)
      (bytesOf (seeds S P.toParams d.toList).1) (keyHash S P.toParams d) z).decapsulate (withOracles S G J) c'
      = .ok (keyOf (encrypt S P.toParams _ (KPKE_KeyGen S P.toParams d.toList).1) (decrypt S P.toParams _ d)
            (fun m => (G m (keyHash S P.toParams d)).1) (fun m => (G m (keyHash S P.toParams d)).2) (J z) c') := by
    intro c'
    rw [decaps_ok (withOracles S G J) h.valid _ _ _ _ _ hseed']
    refine congrArg Res.ok ?_
    have hm' : decT P.toParams (genS S P.toParams (seeds S P.toParams d.toList).2) c'.toList
        = (decrypt S P.toParams _ d c').toList := by
      rw [hdec]
      exact (toList_bytesOf (hdl _)).symm
    unfold decapsT keyOf
    dsimp only
    rw [hm', oracles_G, oracles_J]
    dsimp only
    rw [henc]
    exact select_eq c' (hel _ _) _ _
  refine ⟨_, _, hgen, (congrArg EncapsulationKey.as_bytes hek).trans heb, fun m => ?_, fun c => ?_⟩
  · refine (congrArg (fun e => EncapsulationKey.encapsulate_deterministic (withOracles S G J) e m) hek).trans ?_
    have := hencaps m hseed'
    rw [oracles_G] at this
    dsimp only at this
    rw [henc] at this
    have hK : (bytesOf (G m (keyHash S P.toParams d)).1.toList : B32) = (G m (keyHash S P.toParams d)).1 := bytes_toList' _
    rw [hK] at this
    exact this
  · rw [hdk]
    exact hdecaps c

theorem attack_iff (h : Supported P p)
    (A : P.EncodedEncryptionKey → P.EncodedCiphertext → B32 → Attacker P.CiphertextSize) (key : B32 → B32)
    {d : B32} (hs : SeedOk S p.k (seeds S p d.toList).1) (z m : B32) (G : B32 → B32 → B32 × B32)
    (J : B32 → P.EncodedCiphertext → B32) :
    Attack S P A key d z m G J ↔
      (A (Fips203.bytes _ (KPKE_KeyGen S p d.toList).1)
        (encrypt S p _ (KPKE_KeyGen S p d.toList).1 m (G m (keyHash S p d)).2) (key (G m (keyHash S p d)).1)).output G J
        (simD (encrypt S p _ (KPKE_KeyGen S p d.toList).1 m (G m (keyHash S p d)).2)
          (keyOf (encrypt S p _ (KPKE_KeyGen S p d.toList).1) (decrypt S p _ d)
            (fun m => (G m (keyHash S p d)).1) (fun m => (G m (keyHash S p d)).2) (J z))) = true := by
  obtain ⟨dk, ek, h1, h2, h3, h4⟩ := run_ok S h hs z G J
  unfold Attack
  constructor
  · rintro ⟨dk', ek', eb, c, K, g1, g2, g3, g4⟩
    obtain ⟨rfl, rfl⟩ := Prod.mk.inj (Res.ok.inj (h1.symm.trans g1))
    obtain rfl := Res.ok.inj (h2.symm.trans g2)
    obtain ⟨rfl, rfl⟩ := Prod.mk.inj (Res.ok.inj ((h3 m).symm.trans g3))
    simp only [h4] at g4
    refine Eq.trans ?_ g4
    unfold simD
    congr 1
    funext c'
    congr
  · intro g4
    refine ⟨dk, ek, _, _, _, h1, h2, h3 m, ?_⟩
    simp only [h4]
    refine Eq.trans ?_ g4
    unfold simD
    congr 1
    funext c'
    congr

theorem attack_none (h : Supported P p)
    (A : P.EncodedEncryptionKey → P.EncodedCiphertext → B32 → Attacker P.CiphertextSize) (key : B32 → B32)
    {d : B32} (hs : ¬ SeedOk S p.k (seeds S p d.toList).1) (z m : B32) (G : B32 → B32 → B32 × B32)
    (J : B32 → P.EncodedCiphertext → B32) : ¬ Attack S P A key d z m G J := by
  rintro ⟨dk, ek, eb, c, K, h1, -⟩
  have := (genSeed_iff (withOracles S G J) h d z).1 ⟨_, h1⟩
  rw [oracles_seeds S G J (by simp)] at this
  exact hs this

end

/-! ### Attackers as trees -/

section
variable {n : Nat}

/-- The tree of an attacker, for a fixed `J` and fixed values of `G` at strings that do not end in `h` -/
noncomputable def toTree (Gt : B32 → B32 → B32 × B32) (J : B32 → Bytes n → B32) (h : B32) :
    Attacker n → Tree B32 B32 (Bytes n) B32
  | .guess b => .done b
  | .hashG m h' next =>
    open Classical in
    if h' = h then .hash m fun a => toTree Gt J h (next a) else toTree Gt J h (next (Gt h' m))
  | .hashJ z c next => toTree Gt J h (next (J z c))
  | .decaps c next => .decaps c fun a => toTree Gt J h (next a)

theorem _root_.Fo.Tree.AtMost.mono {M R C K : Type} {T : Tree M R C K} {q q' : Nat} (h : T.AtMost q) (hq : q ≤ q') :
    T.AtMost q' := by
  induction T generalizing q q' with
  | done b => trivial
  | hash m next ih =>
    obtain ⟨r, rfl, hr⟩ := h
    exact ⟨q' - 1, by omega, fun a => ih a (hr a) (by omega)⟩
  | decaps c next ih =>
    obtain ⟨r, rfl, hr⟩ := h
    exact ⟨q' - 1, by omega, fun a => ih a (hr a) (by omega)⟩

theorem toTree_atMost (Gt : B32 → B32 → B32 × B32) (J : B32 → Bytes n → B32) (h : B32) (A : Attacker n) {q : Nat}
    (hA : A.AtMost q) : (toTree Gt J h A).AtMost q := by
  induction A generalizing q with
  | guess b => trivial
  | hashG m h' next ih =>
    obtain ⟨r, rfl, hr⟩ := hA
    unfold toTree
    split
    · exact ⟨r, rfl, fun a => ih a (hr a)⟩
    · exact (ih _ (hr _)).mono (Nat.le_succ _)
  | hashJ z c next ih =>
    obtain ⟨r, rfl, hr⟩ := hA
    exact (ih _ (hr _)).mono (Nat.le_succ _)
  | decaps c next ih =>
    obtain ⟨r, rfl, hr⟩ := hA
    exact ⟨r, rfl, fun a => ih a (hr a)⟩

theorem toTree_out (Gt : B32 → B32 → B32 × B32) (J : B32 → Bytes n → B32) (h : B32) (g : B32 → B32 × B32)
    (o : Bytes n → Option B32) (A : Attacker n) :
    (toTree Gt J h A).out g o = A.output (fun m h' => Function.update Gt h g h' m) J o := by
  induction A with
  | guess b => rfl
  | hashG m h' next ih =>
    unfold toTree Attacker.output
    split
    next e => subst e; rw [Function.update_self]; exact ih _
    next e => rw [Function.update_of_ne e]; exact ih _
  | hashJ z c next ih => exact ih _
  | decaps c next ih => exact ih _

theorem toTree_asks (Gt : B32 → B32 → B32 × B32) (J : B32 → Bytes n → B32) (h : B32) (g : B32 → B32 × B32)
    (o : Bytes n → Option B32) (A : Attacker n) {m : B32} (hm : m ∈ (toTree Gt J h A).asks g o) :
    m ∈ A.hashed (fun m h' => Function.update Gt h g h' m) J o := by
  induction A with
  | guess b => exact hm
  | hashG m' h' next ih =>
    unfold toTree at hm
    unfold Attacker.hashed
    split at hm
    next e =>
      subst e
      rw [Function.update_self]
      rcases List.mem_cons.1 hm with rfl | hm
      · exact List.mem_cons_self
      · exact List.mem_cons_of_mem _ (ih _ hm)
    next e =>
      rw [Function.update_of_ne e]
      exact List.mem_cons_of_mem _ (ih _ hm)
  | hashJ z c next ih => exact ih _ hm
  | decaps c next ih => exact ih _ hm

/-- The first halves of the strings an attacker asks `J` for -/
def askedJ (G : B32 → B32 → B32 × B32) (J : B32 → Bytes n → B32) (D : Bytes n → Option B32) :
    Attacker n → List B32
  | .guess _ => []
  | .hashG m h next => askedJ G J D (next (G m h))
  | .hashJ z c next => z :: askedJ G J D (next (J z c))
  | .decaps c next => askedJ G J D (next (D c))

theorem askedJ_length (G : B32 → B32 → B32 × B32) (J : B32 → Bytes n → B32) (D : Bytes n → Option B32)
    (A : Attacker n) {q : Nat} (hA : A.AtMost q) : (askedJ G J D A).length ≤ q := by
  induction A generalizing q with
  | guess b => exact Nat.zero_le _
  | hashG m h' next ih =>
    obtain ⟨r, rfl, hr⟩ := hA
    exact (ih _ (hr _)).trans (Nat.le_succ _)
  | hashJ z c next ih =>
    obtain ⟨r, rfl, hr⟩ := hA
    exact Nat.succ_le_succ (ih _ (hr _))
  | decaps c next ih =>
    obtain ⟨r, rfl, hr⟩ := hA
    exact (ih _ (hr _)).trans (Nat.le_succ _)

theorem output_updateJ (G : B32 → B32 → B32 × B32) (J : B32 → Bytes n → B32) (D : Bytes n → Option B32)
    (A : Attacker n) {z : B32} (j : Bytes n → B32) (h : z ∉ askedJ G J D A) :
    A.output G (Function.update J z j) D = A.output G J D := by
  induction A with
  | guess b => rfl
  | hashG m h' next ih => exact ih _ h
  | hashJ z' c next ih =>
    have hz : z' ≠ z := fun e => h (e ▸ List.mem_cons_self)
    unfold Attacker.output
    rw [Function.update_of_ne hz]
    exact ih _ fun c => h (List.mem_cons_of_mem _ c)
  | decaps c next ih => exact ih _ h

theorem mem_prob (L : List B32) : 𝔼 z : B32, ind (z ∈ L) ≤ L.length * 2 ^ (-256 : ℤ) := by
  induction L with
  | nil =>
    refine le_of_eq ?_
    simp only [ind, List.not_mem_nil, if_false, List.length_nil, Nat.cast_zero, zero_mul]
    exact Fintype.expect_const _
  | cons a L ih =>
    refine le_trans (b := (𝔼 z : B32, ind (z = a)) + 𝔼 z : B32, ind (z ∈ L)) ?_ ?_
    · rw [← Finset.expect_add_distrib]
      exact Finset.expect_le_expect fun z _ => (ind_mono List.mem_cons.1).trans (ind_or _ _)
    · have : 𝔼 z : B32, ind (z = a) = 2 ^ (-256 : ℤ) := by
        have h0 : ∀ b, b ≠ a → ind (b = a) = 0 := fun b hb => by unfold ind; exact if_neg hb
        have h1 : ind (a = a) = 1 := by unfold ind; exact if_pos rfl
        rw [Fintype.expect_eq_sum_div_card, Fintype.sum_eq_single a h0, h1, ← Nat.card_eq_fintype_card, card_bytes]
        norm_num
      rw [this, List.length_cons]
      push_cast
      linarith

/-- Rejected ciphertexts have random keys, unless the attacker guesses the rejection secret. -/
theorem reject_close (G : B32 → B32 → B32 × B32) (D : (Bytes n → B32) → Bytes n → Option B32) (A : Attacker n)
    {q : Nat} (hA : A.AtMost q) :
    |(𝔼 z : B32, 𝔼 J : B32 → Bytes n → B32, ind (A.output G J (D (J z)) = true))
      - 𝔼 J : B32 → Bytes n → B32, 𝔼 j : Bytes n → B32, ind (A.output G J (D j) = true)| ≤ q * 2 ^ (-256 : ℤ) := by
  have e1 : ∀ z : B32, 𝔼 J : B32 → Bytes n → B32, ind (A.output G J (D (J z)) = true)
      = 𝔼 j : Bytes n → B32, 𝔼 J : B32 → Bytes n → B32, ind (A.output G (Function.update J z j) (D j) = true) := by
    intro z
    rw [expect_update z]
    simp only [Function.update_self]
  have e2 : 𝔼 J : B32 → Bytes n → B32, 𝔼 j : Bytes n → B32, ind (A.output G J (D j) = true)
      = 𝔼 _z : B32, 𝔼 j : Bytes n → B32, 𝔼 J : B32 → Bytes n → B32, ind (A.output G J (D j) = true) := by
    rw [Fintype.expect_const, Finset.expect_comm]
  simp only [e1]
  rw [e2]
  refine le_trans (b := 𝔼 z : B32, 𝔼 j : Bytes n → B32, 𝔼 J : B32 → Bytes n → B32, ind (z ∈ askedJ G J (D j) A)) ?_ ?_
  · refine abs_expect_sub fun z => abs_expect_sub fun j => abs_expect_sub fun J => abs_ind_sub fun h => ?_
    rw [output_updateJ G J (D j) A j h]
  · rw [Finset.expect_comm]
    refine (Finset.expect_le_expect (g := fun _ => (q : ℝ) * 2 ^ (-256 : ℤ)) fun j _ => ?_).trans
      (le_of_eq (Fintype.expect_const _))
    rw [Finset.expect_comm]
    refine (Finset.expect_le_expect (g := fun _ => (q : ℝ) * 2 ^ (-256 : ℤ)) fun J _ => ?_).trans
      (le_of_eq (Fintype.expect_const _))
    refine (mem_prob _).trans (mul_le_mul_of_nonneg_right ?_ (by positivity))
    exact_mod_cast askedJ_length G J (D j) A hA

/-- A table of `G`, by its values at strings that end in `h` and its other values -/
theorem expect_tables (h : B32) (f : (B32 → B32 → B32 × B32) → ℝ) :
    𝔼 G, f G = 𝔼 Gt : B32 → B32 → B32 × B32, 𝔼 r : B32 → B32, 𝔼 k : B32 → B32,
      f (fun m h' => Function.update Gt h (realG k r) h' m) := by
  rw [Fintype.expect_equiv (Equiv.piComm fun _ _ : B32 => B32 × B32) f (fun Gt => f fun m h' => Gt h' m) fun G => rfl,
    expect_update h, Finset.expect_comm]
  refine Finset.expect_congr rfl fun Gt _ => ?_
  rw [Fintype.expect_equiv (Equiv.arrowProdEquivProdArrow B32 (fun _ => B32) fun _ => B32)
    (fun g => f fun m h' => Function.update Gt h g h' m)
    (fun kr => f fun m h' => Function.update Gt h (realG kr.1 kr.2) h' m) fun g => rfl, expect_prod_type,
    Finset.expect_comm]

end

/-! ### The bound for one key -/

section
variable [Build] (S : Sha3) {P : ParameterSet} {p : Params}

theorem bytes_eq_iff {n : Nat} {L : List UInt8} (hL : L.length = n) (m : Bytes n) :
    Fips203.bytes n L = m ↔ L = m.toList := by
  have hl : (Fips203.bytes n L).toList = L := toList_bytesOf hL
  constructor
  · rintro rfl
    exact hl.symm
  · rintro rfl
    exact bytes_toList' m

theorem fail_iff (h : Supported P p) (d m r : B32) :
    Fail (encrypt S p P.CiphertextSize (KPKE_KeyGen S p d.toList).1) (decrypt S p _ d) m r ↔ Incorrect S p d m r := by
  obtain rfl := h.eq
  have hrho := (seeds_length S P.toParams d.toList).1
  have hel : (KPKE_Encrypt S P.toParams (KPKE_KeyGen S P.toParams d.toList).1 m.toList r.toList).length
      = P.CiphertextSize := by
    rw [KPKE_KeyGen_eq, KPKE_Encrypt_enc12 S P.toParams _ _ _ _ hrho, encT_length, ct_size]
  have hdl : ∀ c : List UInt8, (KPKE_Decrypt P.toParams (KPKE_KeyGen S P.toParams d.toList).2 c).length = 32 := by
    intro c
    rw [KPKE_KeyGen_eq, KPKE_Decrypt_enc12, decT_length]
  have e : (encrypt S P.toParams P.CiphertextSize (KPKE_KeyGen S P.toParams d.toList).1 m r).toList
      = KPKE_Encrypt S P.toParams (KPKE_KeyGen S P.toParams d.toList).1 m.toList r.toList := toList_bytesOf hel
  unfold Fail Incorrect decrypt
  rw [e]
  exact not_congr (bytes_eq_iff (hdl _) m)

theorem simD_eq {n : Nat} (c0 : Bytes n) (t : Bytes n → B32) : simulateD c0 t = simD c0 t := by
  funext c
  unfold simD simulateD
  congr

open Classical in
omit [Build] in
theorem prob_ind {α : Type} [Fintype α] (E : α → Prop) : prob E = 𝔼 a, ind (E a) := prob_eq_expect E

theorem simulateG_update (d : B32) {n : Nat} (t : Bytes n → B32) (Gt : B32 → B32 → B32 × B32) (k r : B32 → B32) :
    simulateG S p (KPKE_KeyGen S p d.toList).1 t (fun m h' => Function.update Gt (keyHash S p d) (realG k r) h' m)
      = fun m h' => Function.update Gt (keyHash S p d)
          (simG (encrypt S p n (KPKE_KeyGen S p d.toList).1) t r) h' m := by
  funext m h'
  have hk : (keyHash S p d).toList = Fips203.H S (KPKE_KeyGen S p d.toList).1 := toList_bytesOf (by simp [Fips203.H])
  unfold simulateG
  by_cases e : h' = keyHash S p d
  · subst e
    rw [if_pos hk, Function.update_self]
    simp only [Function.update_self]
    rfl
  · rw [if_neg (fun c => e (bytes_ext (c.trans hk.symm)))]
    simp only [Function.update_of_ne e]

/-- The key of the generated public key, the hidden table and the rest fixed -/
theorem fixed_message (h : Supported P p)
    (A : P.EncodedEncryptionKey → P.EncodedCiphertext → B32 → Attacker P.CiphertextSize) {q : Nat}
    (hA : ∀ e c K, (A e c K).AtMost q) {d : B32} (hs : SeedOk S p.k (seeds S p d.toList).1) {δ : ℝ}
    (hδ : ∀ m, prob (fun r : B32 => Incorrect S p d m r) ≤ δ) (m : B32) :
    |(𝔼 G, 𝔼 z, 𝔼 J, ind (Attack S P A id d z m G J))
        - 𝔼 K1 : B32, 𝔼 G, 𝔼 z, 𝔼 J, ind (Attack S P A (fun _ => K1) d z m G J)|
      ≤ (𝔼 J, 𝔼 K1, 𝔼 t, 𝔼 r : B32, 𝔼 G, ind (m ∈ simulate S p A (Fips203.bytes _ (KPKE_KeyGen S p d.toList).1)
          (encrypt S p _ (KPKE_KeyGen S p d.toList).1 m r) (J, K1, t, G)))
        + 3 * ((q + 1) * δ) + 2 * (q * 2 ^ (-256 : ℤ)) := by
  have hek : (Fips203.bytes P.EncryptionKeySize (KPKE_KeyGen S p d.toList).1).toList = (KPKE_KeyGen S p d.toList).1 := by
    obtain rfl := h.eq
    refine toList_bytesOf ?_
    rw [KPKE_KeyGen_eq, List.length_append, enc12_length, (seeds_length S _ _).1]
  have hδ' : ∀ m, 𝔼 r : B32, ind (Fail (encrypt S p P.CiphertextSize (KPKE_KeyGen S p d.toList).1) (decrypt S p _ d) m r) ≤ δ := by
    intro m
    simp only [ind_congr (fail_iff S h d m _)]
    rw [← prob_ind]
    exact hδ m
  have hδ0 : 0 ≤ δ := le_trans (by unfold prob; positivity) (hδ m)
  simp only [ind_congr (attack_iff S h A _ hs _ _ _ _)]
  generalize hE : encrypt S p P.CiphertextSize (KPKE_KeyGen S p d.toList).1 = enc at *
  generalize hD : decrypt S p P.CiphertextSize d = dec at *
  generalize heb : Fips203.bytes P.EncryptionKeySize (KPKE_KeyGen S p d.toList).1 = eb at *
  set hk := keyHash S p d with hhk
  -- the rejection keys become independent
  have s1 : ∀ key : B32 → B32, |(𝔼 G, 𝔼 z, 𝔼 J, ind ((A eb (enc m (G m hk).2) (key (G m hk).1)).output G J
        (simD (enc m (G m hk).2) (keyOf enc dec (fun m => (G m hk).1) (fun m => (G m hk).2) (J z))) = true))
      - 𝔼 G : B32 → B32 → B32 × B32, 𝔼 J : B32 → P.EncodedCiphertext → B32, 𝔼 j : P.EncodedCiphertext → B32,
        ind ((A eb (enc m (G m hk).2) (key (G m hk).1)).output G J
        (simD (enc m (G m hk).2) (keyOf enc dec (fun m => (G m hk).1) (fun m => (G m hk).2) j)) = true)|
      ≤ q * 2 ^ (-256 : ℤ) := fun key =>
    (abs_expect_sub fun G => reject_close G
      (fun j => simD (enc m (G m hk).2) (keyOf enc dec (fun m => (G m hk).1) (fun m => (G m hk).2) j))
      (A eb (enc m (G m hk).2) (key (G m hk).1)) (hA _ _ _)).trans (le_of_eq (Fintype.expect_const _))
  -- the tables are split
  have s2 : ∀ key : B32 → B32, 𝔼 G : B32 → B32 → B32 × B32, 𝔼 J : B32 → P.EncodedCiphertext → B32,
        𝔼 j : P.EncodedCiphertext → B32, ind ((A eb (enc m (G m hk).2) (key (G m hk).1)).output G J
        (simD (enc m (G m hk).2) (keyOf enc dec (fun m => (G m hk).1) (fun m => (G m hk).2) j)) = true)
      = 𝔼 J, 𝔼 Gt, 𝔼 r : B32 → B32, 𝔼 k : B32 → B32, 𝔼 j, ind ((toTree Gt J hk (A eb (enc m (r m)) (key (k m)))).out
        (realG k r) (simD (enc m (r m)) (keyOf enc dec k r j)) = true) := by
    intro key
    rw [Finset.expect_comm]
    refine Finset.expect_congr rfl fun J _ => ?_
    rw [expect_tables hk]
    simp only [Function.update_self, toTree_out]
    rfl
  have s3 : ∀ (J : B32 → P.EncodedCiphertext → B32) (Gt : B32 → B32 → B32 × B32),
      |(𝔼 r : B32 → B32, 𝔼 k : B32 → B32, 𝔼 j, ind ((toTree Gt J hk (A eb (enc m (r m)) (k m))).out
        (realG k r) (simD (enc m (r m)) (keyOf enc dec k r j)) = true))
      - 𝔼 K1, 𝔼 r : B32 → B32, 𝔼 k : B32 → B32, 𝔼 j, ind ((toTree Gt J hk (A eb (enc m (r m)) K1)).out
        (realG k r) (simD (enc m (r m)) (keyOf enc dec k r j)) = true)|
      ≤ (𝔼 K1, 𝔼 t, 𝔼 x : B32, 𝔼 r : B32 → B32, ind (m ∈ (toTree Gt J hk (A eb (enc m x) K1)).asks (simG enc t r)
          (simD (enc m x) t))) + 3 * ((q + 1) * δ) := fun J Gt =>
    Fo.advantage (A := fun c K => toTree Gt J hk (A eb c K)) hδ' hδ0 (fun c K => toTree_atMost _ _ _ _ (hA _ _ _)) m
  have s4 : 𝔼 J : B32 → P.EncodedCiphertext → B32, 𝔼 Gt : B32 → B32 → B32 × B32,
        ((𝔼 K1, 𝔼 t, 𝔼 x : B32, 𝔼 r : B32 → B32, ind (m ∈ (toTree Gt J hk (A eb (enc m x) K1)).asks (simG enc t r)
          (simD (enc m x) t))) + 3 * ((q + 1) * δ))
      ≤ (𝔼 J, 𝔼 K1, 𝔼 t, 𝔼 r : B32, 𝔼 G, ind (m ∈ simulate S p A eb (enc m r) (J, K1, t, G))) + 3 * ((q + 1) * δ) := by
    simp only [Finset.expect_add_distrib, Fintype.expect_const]
    refine add_le_add (Finset.expect_le_expect fun J _ => ?_) le_rfl
    rw [Finset.expect_comm]
    refine Finset.expect_le_expect fun K1 _ => ?_
    rw [Finset.expect_comm]
    refine Finset.expect_le_expect fun t _ => ?_
    rw [Finset.expect_comm]
    refine Finset.expect_le_expect fun x _ => ?_
    rw [expect_tables hk (fun G => ind (m ∈ simulate S p A eb (enc m x) (J, K1, t, G)))]
    refine Finset.expect_le_expect fun Gt _ => Finset.expect_le_expect fun r _ => ?_
    refine le_trans (le_of_eq (Fintype.expect_const (ι := B32 → B32) _).symm)
      (Finset.expect_le_expect fun k _ => ind_mono fun hm => ?_)
    unfold simulate
    dsimp only
    rw [hek, simulateG_update, hE, simD_eq]
    exact toTree_asks _ _ _ _ _ _ hm
  simp only [s2] at s1
  have a0 := s1 id
  have a1 := abs_expect_sub fun K1 => s1 fun _ => K1
  rw [Fintype.expect_const] at a1
  simp only [id] at a0
  have a2 := abs_expect_sub fun J => abs_expect_sub fun Gt => s3 J Gt
  have e2 : 𝔼 J, 𝔼 Gt, 𝔼 K1, 𝔼 r : B32 → B32, 𝔼 k : B32 → B32, 𝔼 j, ind ((toTree Gt J hk (A eb (enc m (r m)) K1)).out
        (realG k r) (simD (enc m (r m)) (keyOf enc dec k r j)) = true)
      = 𝔼 K1, 𝔼 J, 𝔼 Gt, 𝔼 r : B32 → B32, 𝔼 k : B32 → B32, 𝔼 j, ind ((toTree Gt J hk (A eb (enc m (r m)) K1)).out
        (realG k r) (simD (enc m (r m)) (keyOf enc dec k r j)) = true) :=
    (Finset.expect_congr rfl fun J _ => Finset.expect_comm ..).trans (Finset.expect_comm ..)
  rw [e2] at a2
  replace a2 := a2.trans s4
  clear s1 s2 s3 s4 e2
  simp only [id]
  generalize (𝔼 J, 𝔼 Gt, 𝔼 r : B32 → B32, 𝔼 k : B32 → B32, 𝔼 j, ind ((toTree Gt J hk (A eb (enc m (r m)) (k m))).out
        (realG k r) (simD (enc m (r m)) (keyOf enc dec k r j)) = true)) = y0 at *
  generalize (𝔼 K1, 𝔼 J, 𝔼 Gt, 𝔼 r : B32 → B32, 𝔼 k : B32 → B32, 𝔼 j, ind ((toTree Gt J hk (A eb (enc m (r m)) K1)).out
        (realG k r) (simD (enc m (r m)) (keyOf enc dec k r j)) = true)) = y1 at *
  rw [abs_sub_comm] at a1
  have t1 := abs_sub_le (𝔼 G, 𝔼 z, 𝔼 J, ind ((A eb (enc m (G m hk).2) (G m hk).1).output G J
        (simD (enc m (G m hk).2) (keyOf enc dec (fun m => (G m hk).1) (fun m => (G m hk).2) (J z))) = true)) y0
     (𝔼 K1, 𝔼 G, 𝔼 z, 𝔼 J, ind ((A eb (enc m (G m hk).2) K1).output G J
        (simD (enc m (G m hk).2) (keyOf enc dec (fun m => (G m hk).1) (fun m => (G m hk).2) (J z))) = true))
  have t2 := abs_sub_le y0 y1
     (𝔼 K1, 𝔼 G, 𝔼 z, 𝔼 J, ind ((A eb (enc m (G m hk).2) K1).output G J
        (simD (enc m (G m hk).2) (keyOf enc dec (fun m => (G m hk).1) (fun m => (G m hk).2) (J z))) = true))
  linarith

open Classical in
/-- **C66** for one key. Let an attacker ask at most `q` questions. Let `m`, the rejection secret `z`, the tables
`G`, `J` and an independent key `K1` be uniform. The attacker tells the key that encapsulation returned from `K1`
with an advantage of at most the probability that `simulate`, which is given the public key and the ciphertext only,
lists the plaintext of a K-PKE ciphertext, plus `3 (q + 1) δ + 2 q / 2^256`. Here `δ` bounds the probability that
K-PKE decryption returns another message than was encrypted. -/
theorem C66_one_key (h : Supported P p)
    (A : P.EncodedEncryptionKey → P.EncodedCiphertext → B32 → Attacker P.CiphertextSize) {q : Nat}
    (hA : ∀ e c K, (A e c K).AtMost q) (d : B32) {δ : ℝ} (hδ : ∀ m, prob (fun r : B32 => Incorrect S p d m r) ≤ δ) :
    |prob (fun (m, G, z, J) => Attack S P A id d z m G J)
        - prob (fun (m, K1, G, z, J) => Attack S P A (fun _ => K1) d z m G J)|
      ≤ prob (fun (m, r, coins) => m ∈ simulate S p A (Fips203.bytes _ (KPKE_KeyGen S p d.toList).1)
            (encrypt S p _ (KPKE_KeyGen S p d.toList).1 m r) coins)
        + 3 * (q + 1) * δ + 2 * q * 2 ^ (-256 : ℤ) := by
  simp only [prob_ind, expect_prod_type]
  by_cases hs : SeedOk S p.k (seeds S p d.toList).1
  · have := abs_expect_sub fun m => fixed_message S h A hA hs hδ m
    refine this.trans (le_of_eq ?_)
    rw [Finset.expect_add_distrib, Finset.expect_add_distrib, Fintype.expect_const, Fintype.expect_const]
    have e : ∀ f : (B32 → P.EncodedCiphertext → B32) → B32 → (P.EncodedCiphertext → B32) → B32 →
        (B32 → B32 → B32 × B32) → ℝ,
        𝔼 J, 𝔼 K1, 𝔼 t, 𝔼 r, 𝔼 G, f J K1 t r G = 𝔼 r, 𝔼 J, 𝔼 K1, 𝔼 t, 𝔼 G, f J K1 t r G := fun f =>
      (Finset.expect_congr rfl fun J _ => (Finset.expect_congr rfl fun K1 _ => Finset.expect_comm ..).trans
        (Finset.expect_comm ..)).trans (Finset.expect_comm ..)
    simp only [e]
    ring
  · have hz : ∀ (key : B32 → B32) z m G J, ind (Attack S P A key d z m G J) = 0 := fun key z m G J => by
      unfold ind; exact if_neg (attack_none S h A key hs z m G J)
    have hδ0 : 0 ≤ δ := le_trans (by unfold prob; positivity) (hδ default)
    simp only [hz, Fintype.expect_const, sub_self, abs_zero]
    refine add_nonneg (add_nonneg ?_ (by positivity)) (by positivity)
    exact Finset.expect_nonneg fun _ _ => Finset.expect_nonneg fun _ _ => Finset.expect_nonneg fun _ _ =>
        Finset.expect_nonneg fun _ _ => Finset.expect_nonneg fun _ _ => Finset.expect_nonneg fun _ _ => ind_nonneg _

/-- **C66** for a random key: `δ d` bounds the probability that K-PKE decryption with the key generated from `d`
returns another message than was encrypted. -/
theorem C66_chosen_ciphertext (h : Supported P p)
    (A : P.EncodedEncryptionKey → P.EncodedCiphertext → B32 → Attacker P.CiphertextSize) {q : Nat}
    (hA : ∀ e c K, (A e c K).AtMost q) {δ : B32 → ℝ} (hδ : ∀ d m, prob (fun r : B32 => Incorrect S p d m r) ≤ δ d) :
    |prob (fun (d, m, G, z, J) => Attack S P A id d z m G J)
        - prob (fun (d, m, K1, G, z, J) => Attack S P A (fun _ => K1) d z m G J)|
      ≤ prob (fun ((d, m, r, coins) : B32 × B32 × B32 × _) => m ∈ simulate S p A (Fips203.bytes _ (KPKE_KeyGen S p d.toList).1)
            (encrypt S p _ (KPKE_KeyGen S p d.toList).1 m r) coins)
        + 3 * (q + 1) * (𝔼 d, δ d) + 2 * q * 2 ^ (-256 : ℤ) := by
  simp only [prob_ind, expect_prod_type]
  have := fun d => C66_one_key S h A hA d (hδ d)
  simp only [prob_ind, expect_prod_type] at this
  refine (abs_expect_sub this).trans (le_of_eq ?_)
  rw [Finset.expect_add_distrib, Finset.expect_add_distrib, Fintype.expect_const, ← Finset.mul_expect]

end

/-! ### Witnesses -/

open Classical in
/-- An attacker that searches for a secret key, decrypts the challenge and compares the key it is shown -/
noncomputable def searcher (S : Sha3) (p : Params) {e n : Nat} (eb : Bytes e) (c : Bytes n) (K : B32) : Attacker n :=
  .hashG (if h : ∃ d, Fips203.bytes e (KPKE_KeyGen S p d.toList).1 = eb then decrypt S p n h.choose c else default)
    (Fips203.bytes 32 (Fips203.H S eb.toList)) fun a => .guess (decide (a.1 = K))

theorem searcher_attack [Build] {S : Sha3} {P : ParameterSet} {p : Params} (h : Supported P p)
    (hc : ∀ d m r : B32, ¬ Incorrect S p d m r) (key : B32 → B32) (d z m : B32) (G : B32 → B32 → B32 × B32)
    (J : B32 → P.EncodedCiphertext → B32) (hs : SeedOk S p.k (seeds S p d.toList).1) :
    Attack S P (searcher S p) key d z m G J ↔ (G m (keyHash S p d)).1 = key (G m (keyHash S p d)).1 := by
  rw [attack_iff S h _ key hs]
  have hl : ∀ d : B32, (Fips203.bytes P.EncryptionKeySize (KPKE_KeyGen S p d.toList).1).toList
      = (KPKE_KeyGen S p d.toList).1 := by
    intro d
    refine toList_bytesOf ?_
    obtain rfl := h.eq
    rw [KPKE_KeyGen_eq, List.length_append, enc12_length, (seeds_length S P.toParams d.toList).1]
  have hex : ∃ d' : B32, Fips203.bytes P.EncryptionKeySize (KPKE_KeyGen S p d'.toList).1
      = Fips203.bytes _ (KPKE_KeyGen S p d.toList).1 := ⟨d, rfl⟩
  have hd : (KPKE_KeyGen S p hex.choose.toList).1 = (KPKE_KeyGen S p d.toList).1 := by
    have := congrArg Vector.toList hex.choose_spec
    rwa [hl, hl] at this
  have hm : ∀ r : B32, decrypt S p P.CiphertextSize hex.choose
      (encrypt S p P.CiphertextSize (KPKE_KeyGen S p d.toList).1 m r) = m := by
    intro r
    have key : ∀ d' : B32, (KPKE_KeyGen S p d'.toList).1 = (KPKE_KeyGen S p d.toList).1 → decrypt S p P.CiphertextSize d'
        (encrypt S p P.CiphertextSize (KPKE_KeyGen S p d.toList).1 m r) = m := fun d' e => by
      rw [← e]
      by_contra hne
      exact hc _ _ _ ((fail_iff S h d' m r).1 hne)
    exact key _ hd
  unfold searcher
  rw [dif_pos hex, hm, hl]
  simp only [Attacker.output, decide_eq_true_eq]
  rfl

theorem toy_correct (d m r : B32) : ¬ Incorrect Toy.S ML_KEM_768 d m r := by
  refine fun hne => hne ?_
  rw [KPKE_KeyGen_eq, KPKE_Encrypt_enc12 Toy.S ML_KEM_768 _ _ _ _ (seeds_length Toy.S ML_KEM_768 _).1, KPKE_Decrypt_enc12]
  exact (decT_honest_iff Toy.S ML_KEM_768 (by decide) (by decide) (by decide) (by decide) _ _ _ (by simp)).2
    (Toy.noiseOk (by simp) _ _ _)

/-- The searcher asks one question, K-PKE never fails for these hash functions, and the searcher always answers
`true` on the right key but almost never on another one: the left-hand side of C66 is not small by itself. -/
example [Build] : (∀ (eb : MlKem768Params.EncodedEncryptionKey) c K,
      (searcher Toy.S ML_KEM_768 eb c K : Attacker MlKem768Params.CiphertextSize).AtMost 1) ∧
    (∀ d m, prob (fun r : B32 => Incorrect Toy.S ML_KEM_768 d m r) ≤ 0) ∧
    (∀ d z m G J, Attack Toy.S MlKem768Params (searcher Toy.S ML_KEM_768) id d z m G J) ∧
    ∀ d z m G J, prob (fun K1 => Attack Toy.S MlKem768Params (searcher Toy.S ML_KEM_768) (fun _ => K1) d z m G J)
      ≤ 2 ^ (-256 : ℤ) := by
  refine ⟨fun eb c K => ⟨0, rfl, fun a => trivial⟩, fun d m => le_of_eq ?_,
    fun d z m G J => (searcher_attack supported_768 toy_correct id d z m G J (Toy.seedOk _ _)).2 rfl, fun d z m G J => ?_⟩
  · rw [prob_ind]
    exact (Finset.expect_congr rfl fun r _ => if_neg (toy_correct d m r)).trans (Fintype.expect_const (0 : ℝ))
  · rw [prob_ind]
    have := mem_prob [(G m (keyHash Toy.S ML_KEM_768 d)).1]
    refine le_trans (le_of_eq (Finset.expect_congr rfl fun K1 _ => ind_congr ?_)) (this.trans (by simp))
    rw [searcher_attack supported_768 toy_correct _ d z m G J (Toy.seedOk _ _), List.mem_singleton, eq_comm]

end MlKem
