import Verif.Props.KemCorrect
import Verif.Props.Toy
import Verif.Props.XWing
import Verif.Proofs.Reveal
/-!
C64: what the running time and the memory accesses of a call give away. `Leaky.f` (Verif/Model/Leak.lean) is `f`
with a list of events; `f` itself is what remains when the events are forgotten (`C64_same_function`).
-/
namespace MlKem
open Rust Rust.Leak Fips203

variable [Build] (H : Sha3) {P : ParameterSet} {p : Params} {O : Type} (v : Event → Option O)

/-- **C64** The functions with events are the functions of the model. -/
theorem C64_same_function (P : ParameterSet) :
    (∀ d z, (Leaky.generate_deterministic H P d z).res = Kem.generate_deterministic H P d z) ∧
    (∀ (ek : EncapsulationKey P) m, (Leaky.encapsulate_deterministic H ek m).res = ek.encapsulate_deterministic H m) ∧
    (∀ (ek : EncapsulationKey P) (rng : Rng) s, (Leaky.encapsulate H ek rng s).res = ek.encapsulate H rng s) ∧
    (∀ (dk : DecapsulationKey P) c, (Leaky.decapsulate H dk c).res = dk.decapsulate H c) ∧
    (∀ b : P.EncodedDecapsulationKey, (Leaky.decapsulationKeyFromBytes b).res = DecapsulationKey.from_bytes b) ∧
    (∀ dk : DecapsulationKey P, (Leaky.decapsulationKeyAsBytes dk).res = dk.as_bytes) :=
  ⟨Leaky.generate_deterministic_res H, Leaky.encapsulate_deterministic_res H, Leaky.encapsulate_res H,
    Leaky.decapsulate_res H, Leaky.decapsulationKeyFromBytes_res, Leaky.decapsulationKeyAsBytes_res⟩

omit [Build] in
/-- An observer who cannot tell the entries of the two tables apart -/
theorem fit_of (h : Supported P p) (hdu : p.du < 12) (hdv : p.dv < 12) (h1 : HidesTable v (4 ^ p.eta1))
    (h2 : HidesTable v (4 ^ p.eta2)) : Leaky.Fit v P := by
  have hS : ∀ e : CbdSize, e.SampleSize ≠ 12 := by intro e; cases e <;> decide
  have hO : ∀ e : CbdSize, e.OnesSize = 4 ^ e.toNat := by intro e; cases e <;> rfl
  exact ⟨hS _, hS _, by rw [← h.du]; omega, by rw [← h.dv]; omega, by rw [hO, ← h.eta1]; exact h1,
    by rw [hO, ← h.eta2]; exact h2⟩

/-- **C64** Decapsulation: whoever cannot see the direction of the conditional subtraction nor the position of an
access within a noise table sees the same events for every decapsulation key with the same public seed and for
every ciphertext — also whether the ciphertext was accepted or implicitly rejected. -/
theorem C64_decapsulate (h : Supported P p) (hdu : p.du < 12) (hdv : p.dv < 12) (hr : HidesReduce v)
    (h1 : HidesTable v (4 ^ p.eta1)) (h2 : HidesTable v (4 ^ p.eta2)) {dk dk' : DecapsulationKey P}
    (hrho : dk.encapsulation_key.ek_pke.rho = dk'.encapsulation_key.ek_pke.rho) {c c' : P.EncodedCiphertext}
    {K K' : SharedKey} (hd : dk.decapsulate H c = .ok K) (hd' : dk'.decapsulate H c' = .ok K') :
    seen v (Leaky.decapsulate H dk c) = seen v (Leaky.decapsulate H dk' c') :=
  (Leaky.decapsulate_eqv H hr (fit_of v h hdu hdv h1 h2) dk dk' hrho c c' K K'
    ((Leaky.decapsulate_res H dk c).trans hd) ((Leaky.decapsulate_res H dk' c').trans hd')).1

/-- **C64** Encapsulation: the same observer sees the same events for every message and, with the same public
seed, every encapsulation key. -/
theorem C64_encapsulate (h : Supported P p) (hdu : p.du < 12) (hdv : p.dv < 12) (hr : HidesReduce v)
    (h1 : HidesTable v (4 ^ p.eta1)) (h2 : HidesTable v (4 ^ p.eta2)) {ek ek' : EncapsulationKey P}
    (hrho : ek.ek_pke.rho = ek'.ek_pke.rho) {m m' : B32} {r r' : P.EncodedCiphertext × SharedKey}
    (he : ek.encapsulate_deterministic H m = .ok r) (he' : ek'.encapsulate_deterministic H m' = .ok r') :
    seen v (Leaky.encapsulate_deterministic H ek m) = seen v (Leaky.encapsulate_deterministic H ek' m') :=
  (Leaky.encapsulate_deterministic_eqv H hr (fit_of v h hdu hdv h1 h2) ek ek' hrho m m' r r'
    ((Leaky.encapsulate_deterministic_res H ek m).trans he)
    ((Leaky.encapsulate_deterministic_res H ek' m').trans he')).1

/-- **C64** Key generation: two seed pairs that give encapsulation keys with the same public seed look the same. -/
theorem C64_generate (h : Supported P p) (hdu : p.du < 12) (hdv : p.dv < 12) (hr : HidesReduce v)
    (h1 : HidesTable v (4 ^ p.eta1)) (h2 : HidesTable v (4 ^ p.eta2)) {d z d' z' : B32}
    {dk dk' : DecapsulationKey P} {ek ek' : EncapsulationKey P}
    (hg : Kem.generate_deterministic H P d z = .ok (dk, ek))
    (hg' : Kem.generate_deterministic H P d' z' = .ok (dk', ek')) (hrho : ek.ek_pke.rho = ek'.ek_pke.rho) :
    seen v (Leaky.generate_deterministic H P d z) = seen v (Leaky.generate_deterministic H P d' z') := by
  obtain ⟨e1, e2⟩ := Leaky.generate_rho H hg
  obtain ⟨e1', e2'⟩ := Leaky.generate_rho H hg'
  have e1 : ek = dk.ek := e1
  have e1' : ek' = dk'.ek := e1'
  rw [e1, e1'] at hrho
  exact (Leaky.generate_deterministic_eqv H hr (fit_of v h hdu hdv h1 h2) d z d' z'
    (e2.symm.trans (hrho.trans e2')) _ _ ((Leaky.generate_deterministic_res H d z).trans hg)
    ((Leaky.generate_deterministic_res H d' z').trans hg')).1

/-- **C64** Serialising a decapsulation key looks the same for all keys, to everyone. -/
theorem C64_as_bytes {dk dk' : DecapsulationKey P} {b b' : P.EncodedDecapsulationKey} (h : dk.as_bytes = .ok b)
    (h' : dk'.as_bytes = .ok b') :
    seen v (Leaky.decapsulationKeyAsBytes dk) = seen v (Leaky.decapsulationKeyAsBytes dk') :=
  (Leaky.decapsulationKeyAsBytes_eqv dk dk' b b' ((Leaky.decapsulationKeyAsBytes_res dk).trans h)
    ((Leaky.decapsulationKeyAsBytes_res dk').trans h')).1

/-- **C64** Parsing a decapsulation key looks the same for all strings to whoever cannot see the operands of
`% 3329`. -/
theorem C64_from_bytes (hv : HidesDividend v) {b b' : P.EncodedDecapsulationKey} {dk dk' : DecapsulationKey P}
    (h : DecapsulationKey.from_bytes b = .ok dk) (h' : DecapsulationKey.from_bytes b' = .ok dk') :
    seen v (Leaky.decapsulationKeyFromBytes b) = seen v (Leaky.decapsulationKeyFromBytes b') :=
  (Leaky.decapsulationKeyFromBytes_eqv hv b b' dk dk' ((Leaky.decapsulationKeyFromBytes_res b).trans h)
    ((Leaky.decapsulationKeyFromBytes_res b').trans h')).1

/-- The operands of `% 3329` are secret: whoever sees them learns every coefficient of the secret vector of a
decapsulation key that is parsed. The exception in `C64_from_bytes` is necessary. -/
theorem C64_from_bytes_shows (h : Supported P p) {b b' : P.EncodedDecapsulationKey}
    (hs : seen some (Leaky.decapsulationKeyFromBytes b) = seen some (Leaky.decapsulationKeyFromBytes b')) :
    ∀ n, n < 256 * p.k → field12 b.toList n % 3329 = field12 b'.toList n % 3329 := by
  obtain rfl := h.eq
  obtain ⟨s, t, rho, hh, z, es, -, -, -, -, hf⟩ := kem_dk_from_bytes b
  obtain ⟨s', t', rho', hh', z', es', -, -, -, -, hf'⟩ := kem_dk_from_bytes b'
  have ht : (Leaky.decapsulationKeyFromBytes b).trace = (Leaky.decapsulationKeyFromBytes b').trace := by
    unfold seen at hs
    rwa [List.filterMap_some, List.filterMap_some] at hs
  have key := Leaky.decapsulationKeyFromBytes_rev b b' _ _ ((Leaky.decapsulationKeyFromBytes_res b).trans hf)
    ((Leaky.decapsulationKeyFromBytes_res b').trans hf') ht
  have hk : dkOf s t rho hh z = dkOf s' t rho hh z := by
    have key : ({ s_hat := nv s } : DecryptionKey P) = { s_hat := nv s' } := key
    unfold dkOf
    rw [key]
  have hb := kem_dk_as_bytes s t rho hh z
  rw [hk] at hb
  have hb := Res.ok.inj ((kem_dk_as_bytes s' t rho hh z).symm.trans hb)
  have hl := congrArg Vector.toList hb
  rw [toList_bytesOf dk_size, toList_bytesOf dk_size] at hl
  have hsplit : ∀ s : Fin P.K → Poly, dkBytes s t rho hh z = enc12 s ++ (enc12 t ++ (rho.toList ++ (hh.toList ++ z.toList))) := by
    intro s
    simp only [dkBytes, ekBytes, List.append_assoc]
  rw [hsplit, hsplit] at hl
  have he := (List.append_inj hl (by rw [enc12_length, enc12_length])).1
  intro n hn
  have hn : n < 256 * P.K := hn
  have g := field12_enc12 es hn
  have g' := field12_enc12 es' hn
  rw [field12_take _ (by omega)] at g g'
  rw [← g, ← g', he]

/-- The subscripts of the noise tables are secret: whoever sees them learns all the noise that is sampled. The
exception in `C64_decapsulate`, `C64_encapsulate` and `C64_generate` is necessary. -/
theorem C64_noise_shows (K : Nat) (Eta : CbdSize) {s s' : B32} {n : UInt8} {e e' : PolynomialVector K}
    (he : PolynomialVector.sample_cbd H K Eta s n = .ok e) (he' : PolynomialVector.sample_cbd H K Eta s' n = .ok e')
    (hs : seen some (Leaky.vecSampleCbd H K Eta s n) = seen some (Leaky.vecSampleCbd H K Eta s' n)) : e = e' := by
  unfold seen at hs
  rw [List.filterMap_some, List.filterMap_some] at hs
  exact Leaky.vecSampleCbd_rev H K Eta (by cases Eta <;> decide) s s' n e e' ((Leaky.vecSampleCbd_res H K Eta s n).trans he)
    ((Leaky.vecSampleCbd_res H K Eta s' n).trans he') hs

/-- The direction of the conditional subtraction is secret: it tells whether the sum of two coefficients exceeds
3328. The exception for it is necessary, too. -/
theorem C64_reduce_shows (x y : FieldElement) (hx : x.val.toNat < 3329) (hy : y.val.toNat < 3329) :
    seen some (Leaky.add x y) = [.reduce (decide (x.val.toNat + y.val.toNat < 3329))] := by
  have h : Rust.add x.val y.val = .ok (UInt16.ofNat (x.val.toNat + y.val.toNat)) :=
    add_ok (α := UInt16) (show x.val.toNat + y.val.toNat < 2 ^ 16 by omega)
  have hr : (op (Rust.add x.val y.val)).res = .ok (UInt16.ofNat (x.val.toNat + y.val.toNat)) := h
  unfold Leaky.add
  have hb : ∀ z : Leak UInt16, (z >>= fun r => op (.ok (⟨r⟩ : FieldElement))).trace = z.trace := by
    intro z
    show (Leak.bind z _).trace = _
    unfold Leak.bind
    cases z.res
    · exact List.append_nil _
    · rfl
    · rfl
  rw [seen_bind hr]
  show List.filterMap some [] ++ List.filterMap some _ = _
  rw [hb, List.filterMap_some]
  show [Event.reduce (Rust.lt (UInt16.ofNat (x.val.toNat + y.val.toNat)) FieldElement.Q)] = _
  have hlt : Rust.lt (UInt16.ofNat (x.val.toNat + y.val.toNat)) FieldElement.Q
      = decide (x.val.toNat + y.val.toNat < 3329) := by
    show decide ((UInt16.ofNat (x.val.toNat + y.val.toNat)).toNat < 3329) = _
    rw [UInt16.toNat_ofNat_of_lt' (by show _ < 65536; omega)]
  rw [hlt]

/-- Two sums that look different -/
example : seen some (Leaky.add ⟨3328⟩ ⟨1⟩) ≠ seen some (Leaky.add ⟨3327⟩ ⟨1⟩) := by
  rw [C64_reduce_shows ⟨3328⟩ ⟨1⟩ (by decide) (by decide), C64_reduce_shows ⟨3327⟩ ⟨1⟩ (by decide) (by decide)]
  decide

omit [Build] in
/-- The observer `program` meets the hypotheses, -/
theorem program_hides : HidesReduce program ∧ ∀ n, HidesTable program n := ⟨fun _ _ => rfl, fun _ _ _ _ _ => rfl⟩

omit [Build] in
/-- and, for the table of `η = 2`, so does one who sees 64-byte cache lines, if the table lies within one. -/
theorem cacheLine_hides {o : Nat} (h : o % 64 ≤ 32) :
    HidesReduce (cacheLine o) ∧ HidesTable (cacheLine o) (4 ^ 2) := by
  refine ⟨fun _ _ => rfl, fun i j hi hj => ?_⟩
  have : (o + 2 * i) / 64 = (o + 2 * j) / 64 := by omega
  unfold cacheLine
  dsimp only
  rw [this]

omit [Build] in
/-- The table of `η = 3` takes two lines, wherever it lies: it can be told apart. -/
theorem cacheLine_shows (o : Nat) : ¬ HidesTable (cacheLine o) (4 ^ 3) := by
  intro h
  have := h 0 63 (by decide) (by decide)
  unfold cacheLine at this
  have := (Event.table.inj (Option.some.inj this)).2
  omega

/-- **C64** ML-KEM-768 and -1024, with the noise table within a cache line: cache lines, branches, subscripts,
division operands and hash lengths do not depend on the key, the ciphertext or acceptance. -/
theorem C64_cache_lines (hP : P = MlKem768Params ∨ P = MlKem1024Params) {o : Nat} (ho : o % 64 ≤ 32)
    {dk dk' : DecapsulationKey P} (hrho : dk.encapsulation_key.ek_pke.rho = dk'.encapsulation_key.ek_pke.rho)
    {c c' : P.EncodedCiphertext} {K K' : SharedKey} (hd : dk.decapsulate H c = .ok K)
    (hd' : dk'.decapsulate H c' = .ok K') :
    seen (cacheLine o) (Leaky.decapsulate H dk c) = seen (cacheLine o) (Leaky.decapsulate H dk' c') := by
  obtain ⟨h1, h2⟩ := cacheLine_hides ho
  rcases hP with rfl | rfl
  · exact C64_decapsulate H _ supported_768 (by decide) (by decide) h1 h2 h2 hrho hd hd'
  · exact C64_decapsulate H _ supported_1024 (by decide) (by decide) h1 h2 h2 hrho hd hd'

/-- With the toy primitives: an accepted ciphertext and every other one look the same, for all seeds. -/
example (d z m : B32) : ∃ (dk : DecapsulationKey MlKem768Params) (ek : EncapsulationKey MlKem768Params)
    (c : MlKem768Params.EncodedCiphertext) (K : SharedKey),
    Kem.generate_deterministic Toy.S MlKem768Params d z = .ok (dk, ek) ∧
    ek.encapsulate_deterministic Toy.S m = .ok (c, K) ∧ dk.decapsulate Toy.S c = .ok K ∧
    ∀ c', ∃ K', dk.decapsulate Toy.S c' = .ok K' ∧
      seen program (Leaky.decapsulate Toy.S dk c) = seen program (Leaky.decapsulate Toy.S dk c') := by
  obtain ⟨⟨dk, ek⟩, hg⟩ := (C04_generate_outcome Toy.S supported_768 d z).2.2 (Toy.seedOk _ _)
  obtain ⟨eb, -, hi⟩ := (C04_encaps_outcome Toy.S supported_768 (.reach (.generated hg)) m).2
  obtain ⟨⟨c, K⟩, he⟩ := hi.2 (Toy.seedOk _ _)
  have hK := C05_decaps_encaps Toy.S supported_768 (by decide) (by decide) hg he (Toy.noiseOk (by simp) _ _ _)
  refine ⟨dk, ek, c, K, hg, he, hK, fun c' => ?_⟩
  obtain ⟨-, db, -, hi'⟩ := C04_decaps_outcome Toy.S supported_768 (.generated hg) c'
  obtain ⟨K', hK'⟩ := hi'.2 (Toy.seedOk _ _)
  exact ⟨K', hK', C64_decapsulate Toy.S program supported_768 (by decide) (by decide) program_hides.1
    (program_hides.2 _) (program_hides.2 _) rfl hK hK'⟩

/-- All encapsulations to a key, and all key generations that differ in `z` only, look the same. -/
example (d z z' m m' : B32) : ∃ (dk dk' : DecapsulationKey MlKem512Params) (ek ek' : EncapsulationKey MlKem512Params),
    Kem.generate_deterministic Toy.S MlKem512Params d z = .ok (dk, ek) ∧
    Kem.generate_deterministic Toy.S MlKem512Params d z' = .ok (dk', ek') ∧
    seen program (Leaky.generate_deterministic Toy.S MlKem512Params d z)
      = seen program (Leaky.generate_deterministic Toy.S MlKem512Params d z') ∧
    seen program (Leaky.encapsulate_deterministic Toy.S ek m)
      = seen program (Leaky.encapsulate_deterministic Toy.S ek m') := by
  obtain ⟨⟨dk, ek⟩, hg⟩ := (C04_generate_outcome Toy.S supported_512 d z).2.2 (Toy.seedOk _ _)
  obtain ⟨⟨dk', ek'⟩, hg'⟩ := (C04_generate_outcome Toy.S supported_512 d z').2.2 (Toy.seedOk _ _)
  obtain ⟨eb, -, hi⟩ := (C04_encaps_outcome Toy.S supported_512 (.reach (.generated hg)) m).2
  obtain ⟨r, he⟩ := hi.2 (Toy.seedOk _ _)
  obtain ⟨eb', -, hi'⟩ := (C04_encaps_outcome Toy.S supported_512 (.reach (.generated hg)) m').2
  obtain ⟨r', he'⟩ := hi'.2 (Toy.seedOk _ _)
  refine ⟨dk, dk', ek, ek', hg, hg', C64_generate Toy.S program supported_512 (by decide) (by decide) program_hides.1
    (program_hides.2 _) (program_hides.2 _) hg hg' ?_, C64_encapsulate Toy.S program supported_512 (by decide) (by decide)
    program_hides.1 (program_hides.2 _) (program_hides.2 _) rfl he he'⟩
  obtain ⟨e1, e2⟩ := Leaky.generate_rho Toy.S hg
  obtain ⟨e1', e2'⟩ := Leaky.generate_rho Toy.S hg'
  have e1 : ek = dk.ek := e1
  have e1' : ek' = dk'.ek := e1'
  rw [e1, e1']
  exact e2.trans e2'.symm

/-- Two strings that look different when parsed: the first coefficient is 0 in one and 1 in the other. -/
example : seen some (Leaky.decapsulationKeyFromBytes (P := MlKem512Params) (bytesOf (0 :: List.replicate 1631 0)))
    ≠ seen some (Leaky.decapsulationKeyFromBytes (P := MlKem512Params) (bytesOf (1 :: List.replicate 1631 0))) := by
  intro h
  have h := C64_from_bytes_shows supported_512 h 0 (by decide)
  have hl : ∀ a : UInt8, (a :: List.replicate 1631 (0 : UInt8)).length = MlKem512Params.DecapsulationKeySize := by
    intro a
    rw [List.length_cons, List.length_replicate]
    rfl
  rw [toList_bytesOf (hl _), toList_bytesOf (hl _), ← field12_take _ (l := 2) (by decide),
    ← field12_take (1 :: _) (l := 2) (by decide)] at h
  have h : field12 [0, 0] 0 % 3329 = field12 [1, 0] 0 % 3329 := h
  exact absurd h (by decide +kernel)

/-- SHAKE256 that repeats the first byte of its input -/
def repeating : Sha3 := { Toy.S with shake256 := fun l _ => l.headD 0 }

/-- Two samplings that look different -/
example : seen some (Leaky.vecSampleCbd repeating 2 .U3 (Vector.replicate 32 0) 0)
    ≠ seen some (Leaky.vecSampleCbd repeating 2 .U3 (Vector.replicate 32 1) 0) := by
  have key : ∀ a : UInt8, PolynomialVector.sample_cbd repeating 2 .U3 (Vector.replicate 32 a) 0
      = .ok (pv fun _ => SamplePolyCBD 3 (List.replicate 192 a)) := by
    intro a
    rw [pv_sample_cbd repeating .U3 (Vector.replicate 32 a) (n0 := 0) rfl (by decide)]
    have h : ∀ n, Fips203.PRF repeating 3 (Vector.replicate 32 a).toList n = List.replicate 192 a := by
      intro n
      unfold Fips203.PRF prefixBytes repeating
      rw [Vector.toList_replicate]
      exact List.ofFn_const 192 a
    refine congrArg (fun f => Res.ok (pv f)) (funext fun i => ?_)
    exact congrArg (SamplePolyCBD 3) (h _)
  intro h
  have h := C64_noise_shows repeating 2 .U3 (key 0) (key 1) h
  have h := congrArg (fun e => e.polys[0].coeffs) h
  simp only [pv, Vector.getElem_ofFn] at h
  have h := congrFun (polyVec_inj h) 0
  exact absurd h (by decide +kernel)

end MlKem

namespace XWing
open Rust Rust.Leak MlKem Fips203

variable [Build] (H : Sha3) (X : X25519) {O : Type} (v : Event → Option O)

/-- **C64** The functions with events are the functions of the model. -/
theorem C64_xwing_same_function :
    (∀ (pk : EncapsulationKey) (rng : Rng) s, (Leaky.encapsulate H X pk rng s).res = pk.encapsulate H X rng s) ∧
    (∀ (sk : DecapsulationKey) ct, (Leaky.decapsulate H X sk ct).res = sk.decapsulate H X ct) :=
  ⟨Leaky.encapsulate_res H X, Leaky.decapsulate_res H X⟩

/-- **C64** X-Wing decapsulation: the same observer sees the same events for every ciphertext and, if the
expanded ML-KEM public keys have the same seed `ρ`, every secret key. -/
theorem C64_xwing_decapsulate (hr : HidesReduce v) (ht : HidesTable v (4 ^ 2)) {sk sk' : DecapsulationKey}
    {sm sm' : MlKem.DecapsulationKey MlKem768Params} {sx sx' px px' : Bytes 32}
    {pm pm' : MlKem.EncapsulationKey MlKem768Params} (hk : sk.expand_key H X = .ok (sm, sx, pm, px))
    (hk' : sk'.expand_key H X = .ok (sm', sx', pm', px')) (hrho : pm.ek_pke.rho = pm'.ek_pke.rho)
    {ct ct' : Ciphertext} {K K' : SharedSecret} (hd : sk.decapsulate H X ct = .ok K)
    (hd' : sk'.decapsulate H X ct' = .ok K') :
    seen v (Leaky.decapsulate H X sk ct) = seen v (Leaky.decapsulate H X sk' ct') := by
  refine (Leaky.decapsulate_eqv H X hr (fit_of v supported_768 (by decide) (by decide) ht ht) sk sk' ?_ ct ct' K K'
    ((Leaky.decapsulate_res H X sk ct).trans hd) ((Leaky.decapsulate_res H X sk' ct').trans hd')).1
  intro a b ha hb
  obtain rfl := Res.ok.inj (hk.symm.trans ha)
  obtain rfl := Res.ok.inj (hk'.symm.trans hb)
  exact hrho

/-- **C64** X-Wing encapsulation: what is seen does not depend on what the generator returns. -/
theorem C64_xwing_encapsulate (hr : HidesReduce v) (ht : HidesTable v (4 ^ 2)) {pk pk' : EncapsulationKey}
    (hrho : pk.pk_m.ek_pke.rho = pk'.pk_m.ek_pke.rho) {rng rng' : Rng} {s : rng.State} {s' : rng'.State}
    {r : (Ciphertext × SharedSecret) × rng.State} {r' : (Ciphertext × SharedSecret) × rng'.State}
    (he : pk.encapsulate H X rng s = .ok r) (he' : pk'.encapsulate H X rng' s' = .ok r') :
    seen v (Leaky.encapsulate H X pk rng s) = seen v (Leaky.encapsulate H X pk' rng' s') :=
  (Leaky.encapsulate_eqv H X hr (fit_of v supported_768 (by decide) (by decide) ht ht) pk pk' hrho rng rng' s s' r r'
    ((Leaky.encapsulate_res H X pk rng s).trans he) ((Leaky.encapsulate_res H X pk' rng' s').trans he')).1

/-- With the toy primitives the secret key `sk` looks the same with every ciphertext, and every encapsulation to
its public key looks the same. -/
example (sk : DecapsulationKey) (ct ct' : Ciphertext) (s s' : Nat) : ∃ sm sx pm px K K' r r',
    sk.expand_key Toy.S toyX = .ok (sm, sx, pm, px) ∧
    sk.decapsulate Toy.S toyX ct = .ok K ∧ sk.decapsulate Toy.S toyX ct' = .ok K' ∧
    seen program (Leaky.decapsulate Toy.S toyX sk ct) = seen program (Leaky.decapsulate Toy.S toyX sk ct') ∧
    (EncapsulationKey.mk pm px).encapsulate Toy.S toyX Toy.rng s = .ok r ∧
    (EncapsulationKey.mk pm px).encapsulate Toy.S toyX Toy.rng s' = .ok r' ∧
    seen program (Leaky.encapsulate Toy.S toyX (EncapsulationKey.mk pm px) Toy.rng s)
      = seen program (Leaky.encapsulate Toy.S toyX (EncapsulationKey.mk pm px) Toy.rng s') := by
  obtain ⟨pk, pb, hk, -⟩ := C38_keygen Toy.S toyX toyX_base sk (Toy.seedOk _ _)
  obtain ⟨⟨sm, sx, pm, px⟩, hx, e⟩ := Res.bind_eq_ok.mp hk
  obtain rfl : EncapsulationKey.mk pm px = pk := Res.ok.inj e
  have hd : ∀ ct, ∃ K, sk.decapsulate Toy.S toyX ct = .ok K := by
    intro ct
    obtain ⟨⟨b, -, h2, -⟩, -⟩ := C39_ciphertext_roundtrip ct (Vector.replicate _ 0)
    obtain ⟨ct', h3, h4⟩ := C38_decaps Toy.S toyX toyX_base sk (Toy.seedOk _ _) b
    obtain rfl := Res.ok.inj (h2.symm.trans h3)
    exact ⟨_, h4⟩
  have he : ∀ s : Nat, ∃ r, (EncapsulationKey.mk pm px).encapsulate Toy.S toyX Toy.rng s = .ok r := by
    intro s
    obtain ⟨_, -, h3⟩ := C38_encaps Toy.S toyX (.derived hk) (rng := Toy.rng) (s := s) rfl rfl
    obtain ⟨_, _, _, h4, -⟩ := h3 (Toy.seedOk _ _)
    exact ⟨_, h4⟩
  obtain ⟨K, hK⟩ := hd ct
  obtain ⟨K', hK'⟩ := hd ct'
  obtain ⟨r, hr⟩ := he s
  obtain ⟨r', hr'⟩ := he s'
  exact ⟨sm, sx, pm, px, K, K', r, r', hx, hK, hK', C64_xwing_decapsulate Toy.S toyX program program_hides.1
    (program_hides.2 _) hx hx rfl hK hK', hr, hr', C64_xwing_encapsulate Toy.S toyX program program_hides.1
    (program_hides.2 _) rfl hr hr'⟩

end XWing
