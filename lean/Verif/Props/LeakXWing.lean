import Verif.Props.LeakKey
import Verif.Props.LeakMessage
/-!
C64: what the subscripts of the noise tables and the directions of the conditional subtraction give away in X-Wing. The secret key is expanded anew in every decapsulation, so
that every decapsulation reads the tables at subscripts that give the ML-KEM secret vector away; ML-KEM's own decapsulation reads
them only at subscripts that depend on the message.
-/
namespace XWing
open Rust Rust.Leak MlKem Fips203

variable [Build] (H : Sha3) (X : X25519)

/-- **C64** X-Wing decapsulation: from the subscripts of the noise tables that are read, in their order, one computes the ML-KEM
secret vector of the secret key, whatever the ciphertext is. -/
theorem C64_xwing_decapsulate_shows {sk : DecapsulationKey} {sm : MlKem.DecapsulationKey MlKem768Params} {sx px : Bytes 32}
    {pm : MlKem.EncapsulationKey MlKem768Params} (hk : sk.expand_key H X = .ok (sm, sx, pm, px)) (ct : Ciphertext) :
    readSecret MlKem768Params (seen subscripts (Leaky.decapsulate H X sk ct)) = sm.dk_pke := by
  have hk := (Leaky.expand_key_res H X sk).trans hk
  unfold Leaky.decapsulate
  rw [seen_bind hk]
  unfold Leaky.expand_key at hk ⊢
  dsimp only at hk ⊢
  rw [res_bind, res_emit, Res.ok_bind, res_bind] at hk
  obtain ⟨⟨dk, ek⟩, h1, hk⟩ := Res.bind_eq_ok.1 hk
  obtain ⟨rfl, -⟩ := Prod.mk.inj (Res.ok.inj hk)
  rw [Silent.after (a := ()) (Silent.emit rfl) rfl, seen_bind h1, List.append_assoc]
  exact readSecret_ok H supported_768 ((MlKem.Leaky.generate_deterministic_res H _ _).symm.trans h1) _

/-- **C64** X-Wing encapsulation: from the encapsulation key, the ciphertext and the subscripts one computes the ML-KEM message
and the ML-KEM shared key. The shared secret is the combination of that key with an X25519 secret, on which the subscripts do not
depend: they are those of the ML-KEM encapsulation of the message. -/
theorem C64_xwing_encapsulate_shows {pk : EncapsulationKey} (hk : PkReach H X pk) {rng : Rng} {s s' : rng.State} {ct : Ciphertext}
    {ss : SharedSecret} (he : pk.encapsulate H X rng s = .ok ((ct, ss), s')) :
    ∃ (m e : Bytes 32) (s1 : rng.State) (K : SharedKey), rng.fill_bytes 32 s = .ok (m, s1) ∧ rng.fill_bytes 32 s1 = .ok (e, s') ∧
      seen subscripts (Leaky.encapsulate H X pk rng s) = seen subscripts (MlKem.Leaky.encapsulate_deterministic H pk.pk_m m) ∧
      let found := readMessage pk.pk_m (seen subscripts (Leaky.encapsulate H X pk rng s)) ct.ct_m
      found = m.toList ∧ K.toList = (Fips203.G H (found ++ pk.pk_m.h.toList)).1 ∧
      ss = combiner H K (X.x25519 e pk.pk_x) ct.ct_x pk.pk_x := by
  obtain ⟨m, s1, e, s2, c, K, hm, he1, h3, h4⟩ := ((C40_randomness H X rng s).2 pk _).1 he
  obtain ⟨h5, rfl⟩ := Prod.mk.inj h4
  obtain ⟨rfl, rfl⟩ := Prod.mk.inj h5
  have hseen : seen subscripts (Leaky.encapsulate H X pk rng s)
      = seen subscripts (MlKem.Leaky.encapsulate_deterministic H pk.pk_m m) := by
    have hd : (MlKem.Leaky.encapsulate_deterministic H pk.pk_m m).res = .ok (c, K) :=
      (MlKem.Leaky.encapsulate_deterministic_res H pk.pk_m m).trans h3
    have hr : (op (rand rng 32 s)).res = .ok (m, s1) := hm
    have hr2 : (op (generate rng 32 s1)).res = .ok (e, s') := he1
    have hM : (MlKem.Leaky.encapsulate H pk.pk_m rng s).res = .ok ((c, K), s1) := by
      unfold MlKem.Leaky.encapsulate
      rw [res_bind, hr, Res.ok_bind, res_bind, hd]
      rfl
    unfold Leaky.encapsulate
    rw [seen_bind hM]
    dsimp only
    rw [Silent.after (Silent.op _) hr2]
    dsimp only
    rw [Silent.after (a := ()) (Silent.emit rfl) rfl, Silent.after (a := ()) (Silent.emit rfl) rfl]
    have hc : Silent subscripts (Leaky.combiner H K (X.x25519 e pk.pk_x) (X.x25519 e X25519_BASEPOINT_BYTES) pk.pk_x) :=
      Silent.bind (Silent.emit rfl) fun _ => Silent.op _
    rw [Silent.after hc rfl]
    unfold MlKem.Leaky.encapsulate
    rw [Silent.after (Silent.op _) hr]
    dsimp only
    rw [seen_bind hd]
    show (_ ++ []) ++ [] = _
    rw [List.append_nil, List.append_nil]
  obtain ⟨f1, f2⟩ := C64_encapsulate_shows H (P := MlKem768Params) (Or.inr (Or.inl rfl)) (hk.ek H X) h3
  refine ⟨m, e, s1, K, hm, he1, hseen, ?_⟩
  rw [hseen]
  exact ⟨f1, f2.symm, rfl⟩

/-! ### The directions -/

/-- All expansions of secret keys go through the same number of conditional subtractions. -/
theorem expand_key_count (sk sk' : DecapsulationKey) :
    Eqv (countOf directions) (Leaky.expand_key H X sk) (Leaky.expand_key H X sk') := by
  have hcd : HidesReduce (countOf directions) := fun _ _ => rfl
  have ht : HidesTable (countOf directions) MlKem768Params.Eta1.OnesSize := fun _ _ _ _ => rfl
  have hS : MlKem768Params.Eta1.SampleSize ≠ 12 := by decide
  have hg : ∀ d z d' z' : B32, Eqv (countOf directions) (MlKem.Leaky.generate_deterministic H MlKem768Params d z)
      (MlKem.Leaky.generate_deterministic H MlKem768Params d' z') := by
    intro d z d' z'
    refine Eqv.bind ?_ fun _ _ => Eqv.bind (MlKem.Leaky.newKey_eqv H _ _) fun _ _ => Eqv.op _ _
    unfold MlKem.Leaky.generate
    refine Eqv.bind (Eqv.bind (Eqv.emit rfl) fun _ _ => Eqv.op _ _) fun _ _ => ?_
    exact Eqv.bind (Eqv.bind (Eqv.emit rfl) fun _ _ => Eqv.op _ _) fun _ _ =>
      Eqv.bind (MlKem.Leaky.vecSampleCbd_eqv H _ _ hS ht _ _ _ _) fun _ _ =>
      Eqv.bind (MlKem.Leaky.vecSampleCbd_eqv H _ _ hS ht _ _ _ _) fun _ _ => Eqv.bind (MlKem.Leaky.vecNtt_eqv hcd _ _) fun _ _ =>
      Eqv.bind (MlKem.Leaky.vecNtt_eqv hcd _ _) fun _ _ => Eqv.bind (MlKem.Leaky.mulVec_eqv hcd _ _ _ _) fun _ _ =>
      Eqv.bind (MlKem.Leaky.nttVecAdd_eqv hcd _ _ _ _) fun _ _ => Eqv.op _ _
  unfold Leaky.expand_key
  exact Eqv.bind (Eqv.emit rfl) fun _ _ => Eqv.bind (hg _ _ _ _) fun _ _ => Eqv.bind (Eqv.emit rfl) fun _ _ => Eqv.op _ _

/-- What comes later is noticed later. -/
theorem seen_first {O α β : Type} (v : Event → Option O) (x : Leak α) (f : α → Leak β) :
    ∃ more, seen v (x >>= f) = seen v x ++ more := by
  cases h : x.res with
  | ok a => exact ⟨_, seen_bind h⟩
  | panic | div =>
    refine ⟨[], ?_⟩
    show (Leak.bind x f).trace.filterMap v = x.trace.filterMap v ++ []
    unfold Leak.bind
    rw [h, List.append_nil]

/-- **C64** The direction of the conditional subtraction gives the ML-KEM half of an X-Wing key away, too: the ML-KEM secret vector
is a function, the same for all secret keys, of the directions during decapsulations of 144 ciphertexts, which are the chosen
ML-KEM ciphertexts followed by any 32 bytes. -/
theorem C64_xwing_decapsulate_reads :
    ∃ skip, ∀ {sk : DecapsulationKey} {sm : MlKem.DecapsulationKey MlKem768Params} {sx px : Bytes 32}
      {pm : MlKem.EncapsulationKey MlKem768Params} (_ : sk.expand_key H X = .ok (sm, sx, pm, px)) (x : Bytes 32),
      readVector MlKem768Params skip (fun c => seen directions (Leaky.decapsulate H X sk ⟨c, x⟩)) = sm.dk_pke := by
  obtain ⟨n0, hn⟩ := fixed_length (v := directions) (f := fun sk => Leaky.expand_key H X sk) (expand_key_count H X)
  obtain ⟨skip, h⟩ := readVector_ok H (P := MlKem768Params) (.inr (.inl rfl))
  refine ⟨n0 + skip, fun {sk sm sx px pm} hk x => ?_⟩
  have hl := (Leaky.expand_key_res H X sk).trans hk
  have hd : DkReach H sm := by
    unfold DecapsulationKey.expand_key at hk
    obtain ⟨⟨dk, ek⟩, h1, hk⟩ := Res.bind_eq_ok.1 hk
    obtain ⟨rfl, -⟩ := Prod.mk.inj (Res.ok.inj hk)
    exact .generated h1
  have hs : ∀ c : MlKem768Params.EncodedCiphertext, ∃ more, seen directions (Leaky.decapsulate H X sk ⟨c, x⟩)
      = seen directions (Leaky.expand_key H X sk) ++ (seen directions (MlKem.Leaky.decapsulate H sm c) ++ more) := by
    intro c
    unfold Leaky.decapsulate
    rw [seen_bind hl]
    dsimp only
    obtain ⟨more, hm⟩ := seen_first directions (MlKem.Leaky.decapsulate H sm c) fun ss_m => do
      emit .curve
      let ss_x := X.x25519 sx x
      Leaky.combiner H ss_m ss_x x px
    exact ⟨more, congrArg _ hm⟩
  choose more hmore using hs
  have := h sm n0 (fun _ => seen directions (Leaky.expand_key H X sk)) more hd fun _ => hn _ _ hl
  rw [← this]
  exact congrArg _ (funext hmore)

/-! ### Cache lines -/

/-- **C64** X-Wing and cache lines: to who sees the 64-byte lines of the accesses to the noise table, and all that is not secret, a
secret key looks the same with every ciphertext, and a public key with every generator, if the table lies within one line. -/
theorem C64_xwing_cache_lines {o : Nat} (ho : o % 64 ≤ 32) :
    (∀ {sk : DecapsulationKey} {ct ct' : Ciphertext} {K K' : SharedSecret}, sk.decapsulate H X ct = .ok K →
      sk.decapsulate H X ct' = .ok K' →
      seen (cacheLine o) (Leaky.decapsulate H X sk ct) = seen (cacheLine o) (Leaky.decapsulate H X sk ct')) ∧
    ∀ {pk : EncapsulationKey} {rng rng' : Rng} {s : rng.State} {s' : rng'.State} {r : (Ciphertext × SharedSecret) × rng.State}
      {r' : (Ciphertext × SharedSecret) × rng'.State}, pk.encapsulate H X rng s = .ok r → pk.encapsulate H X rng' s' = .ok r' →
      seen (cacheLine o) (Leaky.encapsulate H X pk rng s) = seen (cacheLine o) (Leaky.encapsulate H X pk rng' s') := by
  obtain ⟨h1, h2⟩ := cacheLine_hides ho
  refine ⟨fun hd hd' => ?_, fun he he' => C64_xwing_encapsulate H X _ h1 h2 rfl he he'⟩
  obtain ⟨⟨sm, sx, pm, px⟩, hk, -⟩ := Res.bind_eq_ok.1 hd
  exact C64_xwing_decapsulate H X _ h1 h2 hk hk rfl hd hd'

/-- Every toy secret key expands, and its public key encapsulates. -/
example (sk : DecapsulationKey) (s : Nat) : ∃ sm sx pm px r, sk.expand_key Toy.S toyX = .ok (sm, sx, pm, px) ∧
    PkReach Toy.S toyX ⟨pm, px⟩ ∧ (EncapsulationKey.mk pm px).encapsulate Toy.S toyX Toy.rng s = .ok r := by
  obtain ⟨pk, pb, hk, -⟩ := C38_keygen Toy.S toyX toyX_base sk (Toy.seedOk _ _)
  obtain ⟨⟨sm, sx, pm, px⟩, hx, e⟩ := Res.bind_eq_ok.mp hk
  obtain rfl : EncapsulationKey.mk pm px = pk := Res.ok.inj e
  obtain ⟨_, -, h3⟩ := C38_encaps Toy.S toyX (.derived hk) (rng := Toy.rng) (s := s) rfl rfl
  obtain ⟨_, _, _, h4, -⟩ := h3 (Toy.seedOk _ _)
  exact ⟨sm, sx, pm, px, _, hx, .derived hk, h4⟩

end XWing
