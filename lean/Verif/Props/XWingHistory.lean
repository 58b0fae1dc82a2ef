import Verif.Model.XWingHistory
import Verif.Props.XWing
import Verif.Props.History
import Verif.Props.Builds
/-! C57: arbitrary histories of calls of X-Wing's API. -/
namespace XWing.History
open Rust MlKem Fips203 XWingSpec
open MlKem.History (Live Live.push Live.drop get_append getElem?_concat forall_append_single)

variable [Build]

variable (S : Sha3) (X : X25519) {rng : Rng}

/-- An observation is explained by the keys that were obtained at each index. -/
def Explains (ks : List DecapsulationKey) (kp : List EncapsulationKey) : Obs → Prop
  | .derived i j => ∃ sk pk, ks[i]? = some sk ∧ kp[j]? = some pk ∧ sk.encapsulation_key S X = .ok pk
  | .skBytes i b => ∃ sk, ks[i]? = some sk ∧ sk.as_bytes = b
  | .pkBytes j b => ∃ pk, kp[j]? = some pk ∧ pk.as_bytes = .ok b
  | .encaps j c ss => ∃ pk ct, kp[j]? = some pk ∧ ct.as_bytes = .ok c ∧
      ∃ (rng : Rng) (s s' : rng.State), pk.encapsulate S X rng s = .ok ((ct, ss), s')
  | .decaps i c ss => ∃ sk ct, ks[i]? = some sk ∧ Ciphertext.from_bytes c = .ok ct ∧
      sk.decapsulate S X ct = .ok ss

theorem Explains.append {ks : List DecapsulationKey} {kp : List EncapsulationKey} {o : Obs}
    (h : Explains S X ks kp o) (ks' kp') : Explains S X (ks ++ ks') (kp ++ kp') o := by
  cases o with
  | derived i j =>
    obtain ⟨sk, pk, h1, h2, h3⟩ := h
    exact ⟨sk, pk, get_append h1 _, get_append h2 _, h3⟩
  | skBytes i b => obtain ⟨k, h1, h2⟩ := h; exact ⟨k, get_append h1 _, h2⟩
  | pkBytes i b => obtain ⟨k, h1, h2⟩ := h; exact ⟨k, get_append h1 _, h2⟩
  | encaps j c K => obtain ⟨k, ct, h1, h2⟩ := h; exact ⟨k, ct, get_append h1 _, h2⟩
  | decaps i c K => obtain ⟨k, ct, h1, h2⟩ := h; exact ⟨k, ct, get_append h1 _, h2⟩

/-- The keys obtained so far explain the pool, and the public keys are keys a caller can hold. -/
structure Inv (w : World rng) (ks : List DecapsulationKey) (kp : List EncapsulationKey) : Prop where
  sks : Live w.sks ks
  pks : Live w.pks kp
  pk : ∀ k ∈ kp, PkReach S X k

theorem step_inv {w w' : World rng} {op : Op} {os} {ks kp} (hi : Inv S X w ks kp)
    (h : step S X w op = .ok (w', os)) :
    ∃ ks' kp', Inv S X w' (ks ++ ks') (kp ++ kp') ∧ ∀ o ∈ os, Explains S X (ks ++ ks') (kp ++ kp') o := by
  cases op with
  | generate =>
    simp only [step, Res.bind_eq_ok] at h
    obtain ⟨⟨⟨sk, pk⟩, st⟩, h1, h2⟩ := h
    simp only [Res.ok.injEq, Prod.mk.injEq] at h2
    obtain ⟨rfl, rfl⟩ := h2
    obtain ⟨-, -, -, hg⟩ := generated_derived S X h1
    refine ⟨[sk], [pk], ⟨hi.sks.push sk, hi.pks.push pk, forall_append_single hi.pk (.derived hg)⟩, ?_⟩
    intro o ho
    obtain rfl := List.mem_singleton.1 ho
    exact ⟨sk, pk, getElem?_concat hi.sks.1 _, getElem?_concat hi.pks.1 _, hg⟩
  | generateSk =>
    simp only [step, Res.bind_eq_ok] at h
    obtain ⟨⟨sk, st⟩, h1, h2⟩ := h
    simp only [Res.ok.injEq, Prod.mk.injEq] at h2
    obtain ⟨rfl, rfl⟩ := h2
    exact ⟨[sk], [], ⟨hi.sks.push sk, by simpa using hi.pks, by simpa using hi.pk⟩, by simp⟩
  | parseSk b =>
    simp only [step, Res.ok.injEq, Prod.mk.injEq] at h
    obtain ⟨rfl, rfl⟩ := h
    exact ⟨[.from_bytes b], [], ⟨hi.sks.push _, by simpa using hi.pks, by simpa using hi.pk⟩, by simp⟩
  | parsePk b =>
    simp only [step, Res.bind_eq_ok] at h
    obtain ⟨pk, h1, h2⟩ := h
    simp only [Res.ok.injEq, Prod.mk.injEq] at h2
    obtain ⟨rfl, rfl⟩ := h2
    exact ⟨[], [pk], ⟨by simpa using hi.sks, hi.pks.push pk, forall_append_single hi.pk (.parsed h1)⟩,
      by simp⟩
  | derive i =>
    simp only [step] at h
    split at h
    · rename_i sk hs
      rw [Res.bind_eq_ok] at h
      obtain ⟨pk, h1, h2⟩ := h
      simp only [Res.ok.injEq, Prod.mk.injEq] at h2
      obtain ⟨rfl, rfl⟩ := h2
      refine ⟨[], [pk], ⟨by simpa using hi.sks, hi.pks.push pk,
        forall_append_single hi.pk (.derived h1)⟩, ?_⟩
      intro o ho
      obtain rfl := List.mem_singleton.1 ho
      exact ⟨sk, pk, by simpa using hi.sks.2 i sk hs, getElem?_concat hi.pks.1 _, h1⟩
    · simp only [Res.ok.injEq, Prod.mk.injEq] at h
      obtain ⟨rfl, rfl⟩ := h
      exact ⟨[], [], by simpa using hi, by simp⟩
  | writeSk i =>
    simp only [step] at h
    split at h
    · rename_i sk hs
      simp only [Res.ok.injEq, Prod.mk.injEq] at h
      obtain ⟨rfl, rfl⟩ := h
      exact ⟨[], [], by simpa using hi, by simpa using ⟨sk, hi.sks.2 i sk hs, rfl⟩⟩
    · simp only [Res.ok.injEq, Prod.mk.injEq] at h
      obtain ⟨rfl, rfl⟩ := h
      exact ⟨[], [], by simpa using hi, by simp⟩
  | writePk i =>
    simp only [step] at h
    split at h
    · rename_i pk hs
      rw [Res.bind_eq_ok] at h
      obtain ⟨b, h1, h2⟩ := h
      simp only [Res.ok.injEq, Prod.mk.injEq] at h2
      obtain ⟨rfl, rfl⟩ := h2
      exact ⟨[], [], by simpa using hi, by simpa using ⟨pk, hi.pks.2 i pk hs, h1⟩⟩
    · simp only [Res.ok.injEq, Prod.mk.injEq] at h
      obtain ⟨rfl, rfl⟩ := h
      exact ⟨[], [], by simpa using hi, by simp⟩
  | encaps j =>
    simp only [step] at h
    split at h
    · rename_i pk hs
      rw [Res.bind_eq_ok] at h
      obtain ⟨⟨⟨ct, ss⟩, st⟩, h1, h⟩ := h
      dsimp only at h
      rw [Res.bind_eq_ok] at h
      obtain ⟨c, h2, h3⟩ := h
      simp only [Res.ok.injEq, Prod.mk.injEq] at h3
      obtain ⟨rfl, rfl⟩ := h3
      refine ⟨[], [], ⟨by simpa using hi.sks, by simpa using hi.pks, by simpa using hi.pk⟩, ?_⟩
      intro o ho
      obtain rfl := List.mem_singleton.1 ho
      exact ⟨pk, ct, by simpa using hi.pks.2 j pk hs, h2, rng, _, _, h1⟩
    · simp only [Res.ok.injEq, Prod.mk.injEq] at h
      obtain ⟨rfl, rfl⟩ := h
      exact ⟨[], [], by simpa using hi, by simp⟩
  | decaps i c =>
    simp only [step] at h
    split at h
    · rename_i sk hs
      rw [Res.bind_eq_ok] at h
      obtain ⟨ct, h1, h⟩ := h
      rw [Res.bind_eq_ok] at h
      obtain ⟨ss, h2, h3⟩ := h
      simp only [Res.ok.injEq, Prod.mk.injEq] at h3
      obtain ⟨rfl, rfl⟩ := h3
      refine ⟨[], [], by simpa using hi, ?_⟩
      intro o ho
      obtain rfl := List.mem_singleton.1 ho
      exact ⟨sk, ct, by simpa using hi.sks.2 i sk hs, h1, h2⟩
    · simp only [Res.ok.injEq, Prod.mk.injEq] at h
      obtain ⟨rfl, rfl⟩ := h
      exact ⟨[], [], by simpa using hi, by simp⟩
  | dropSk i =>
    simp only [step, Res.ok.injEq, Prod.mk.injEq] at h
    obtain ⟨rfl, rfl⟩ := h
    exact ⟨[], [], ⟨by simpa using hi.sks.drop i, by simpa using hi.pks, by simpa using hi.pk⟩, by simp⟩
  | dropPk i =>
    simp only [step, Res.ok.injEq, Prod.mk.injEq] at h
    obtain ⟨rfl, rfl⟩ := h
    exact ⟨[], [], ⟨by simpa using hi.sks, by simpa using hi.pks.drop i, by simpa using hi.pk⟩, by simp⟩

theorem run_inv {ops : List Op} {w w' : World rng} {log} {ks kp} (hi : Inv S X w ks kp)
    (h : run S X w ops = .ok (w', log)) :
    ∃ ks' kp', Inv S X w' (ks ++ ks') (kp ++ kp') ∧ ∀ o ∈ log, Explains S X (ks ++ ks') (kp ++ kp') o := by
  induction ops generalizing w log ks kp with
  | nil =>
    simp only [run, Res.ok.injEq, Prod.mk.injEq] at h
    obtain ⟨rfl, rfl⟩ := h
    exact ⟨[], [], by simpa using hi, by simp⟩
  | cons op ops ih =>
    simp only [run, Res.bind_eq_ok] at h
    obtain ⟨⟨w1, o⟩, h1, ⟨w2, os⟩, h2, h3⟩ := h
    simp only [Res.ok.injEq, Prod.mk.injEq] at h3
    obtain ⟨rfl, rfl⟩ := h3
    obtain ⟨ks1, kp1, hi1, ho1⟩ := step_inv S X hi h1
    obtain ⟨ks2, kp2, hi2, ho2⟩ := ih hi1 h2
    refine ⟨ks1 ++ ks2, kp1 ++ kp2, by simpa using hi2, ?_⟩
    intro x hx
    rcases List.mem_append.1 hx with hx | hx
    · simpa using (ho1 x hx).append S X ks2 kp2
    · simpa using ho2 x hx

theorem inv_start (st : rng.State) : Inv S X (start st) [] [] :=
  ⟨⟨rfl, by simp [start]⟩, ⟨rfl, by simp [start]⟩, by simp⟩

/-- Every history is explained by the keys obtained in it. -/
theorem explained {ops : List Op} {st : rng.State} {w log} (h : run S X (start st) ops = .ok (w, log)) :
    ∃ ks kp, (∀ k ∈ kp, PkReach S X k) ∧ ∀ o ∈ log, Explains S X ks kp o := by
  obtain ⟨ks, kp, hi, ho⟩ := run_inv S X (inv_start S X st) h
  exact ⟨_, _, hi.pk, ho⟩

/-- **C57** Whatever was called before, in between or after: a key's encoding never changes, decapsulating
the same ciphertext always gives the same result, and a secret key always yields the same public key. -/
theorem C57_stable {ops : List Op} {st : rng.State} {w log} (h : run S X (start st) ops = .ok (w, log)) :
    (∀ {i b b'}, .skBytes i b ∈ log → .skBytes i b' ∈ log → b = b') ∧
    (∀ {j b b'}, .pkBytes j b ∈ log → .pkBytes j b' ∈ log → b = b') ∧
    (∀ {i c ss ss'}, .decaps i c ss ∈ log → .decaps i c ss' ∈ log → ss = ss') ∧
    (∀ {i j j' b b'}, .derived i j ∈ log → .derived i j' ∈ log → .pkBytes j b ∈ log →
      .pkBytes j' b' ∈ log → b = b') := by
  obtain ⟨ks, kp, -, ho⟩ := explained S X h
  refine ⟨?_, ?_, ?_, ?_⟩
  · intro i b b' h1 h2
    obtain ⟨k, g1, g2⟩ := ho _ h1
    obtain ⟨k', g1', g2'⟩ := ho _ h2
    obtain rfl := Option.some.inj (g1.symm.trans g1')
    exact g2.symm.trans g2'
  · intro i b b' h1 h2
    obtain ⟨k, g1, g2⟩ := ho _ h1
    obtain ⟨k', g1', g2'⟩ := ho _ h2
    obtain rfl := Option.some.inj (g1.symm.trans g1')
    exact Res.ok.inj (g2.symm.trans g2')
  · intro i c K K' h1 h2
    obtain ⟨k, ct, g1, g2, g3⟩ := ho _ h1
    obtain ⟨k', ct', g1', g2', g3'⟩ := ho _ h2
    obtain rfl := Option.some.inj (g1.symm.trans g1')
    obtain rfl := Res.ok.inj (g2.symm.trans g2')
    exact Res.ok.inj (g3.symm.trans g3')
  · intro i j j' b b' h1 h2 h3 h4
    obtain ⟨sk, pk, e1, e2, e3⟩ := ho _ h1
    obtain ⟨sk', pk', f1, f2, f3⟩ := ho _ h2
    obtain ⟨k, g1, g2⟩ := ho _ h3
    obtain ⟨k', g1', g2'⟩ := ho _ h4
    obtain rfl := Option.some.inj (e1.symm.trans f1)
    obtain rfl := Res.ok.inj (e3.symm.trans f3)
    obtain rfl := Option.some.inj (e2.symm.trans g1)
    obtain rfl := Option.some.inj (f2.symm.trans g1')
    exact Res.ok.inj (g2.symm.trans g2')

/-- **C57** Every decapsulation seen in a history is the draft's on the key's encoding, and every derived
public key is the draft's, wherever in the history these encodings were seen. -/
theorem C57_decaps (hX : PublicKeyIsBase X) {ops : List Op} {st : rng.State} {w log}
    (h : run S X (start st) ops = .ok (w, log)) {i b} (hb : .skBytes i b ∈ log) :
    (∀ {c ss}, .decaps i c ss ∈ log → ss = Decapsulate S X.x25519 c.toList b.toList) ∧
    (∀ {j pb}, .derived i j ∈ log → .pkBytes j pb ∈ log →
      pb.toList = publicKey S X.x25519 b.toList) := by
  obtain ⟨ks, kp, -, ho⟩ := explained S X h
  obtain ⟨sk, g1, rfl⟩ := ho _ hb
  constructor
  · intro c ss hd
    obtain ⟨sk', ct, g1', g2, g3⟩ := ho _ hd
    obtain rfl := Option.some.inj (g1.symm.trans g1')
    have hs := (C43_implicit_rejection S X sk ct).2.1.1 ⟨_, g3⟩
    obtain ⟨ct', e1, e2⟩ := C38_decaps S X hX sk hs c
    obtain rfl := Res.ok.inj (g2.symm.trans e1)
    exact Res.ok.inj (g3.symm.trans e2)
  · intro j pb hd hp
    obtain ⟨sk', pk, e1, e2, e3⟩ := ho _ hd
    obtain ⟨pk', f1, f2⟩ := ho _ hp
    obtain rfl := Option.some.inj (g1.symm.trans e1)
    obtain rfl := Option.some.inj (e2.symm.trans f1)
    obtain ⟨sk_m, hg, -⟩ := derived_shape S X e3
    have hs : SkOk S sk.sk.toList := (C04_generate_outcome S supported_768 _ _).2.1 ⟨_, hg⟩
    obtain ⟨pk', b', d1, d2, d3⟩ := C38_keygen S X hX sk hs
    obtain rfl := Res.ok.inj (e3.symm.trans d1)
    obtain rfl := Res.ok.inj (f2.symm.trans d2)
    exact d3

/-- **C57** Every encapsulation seen in a history is the draft's on the key's encoding and some drawn
seed; and whoever decapsulates it with the secret key that public key was derived from sees the same
shared secret, whatever else happened, if the noise of the values used is in its window. -/
theorem C57_agree (hX : PublicKeyIsBase X) (hcomm : Commutes X) {ops : List Op} {st : rng.State} {w log}
    (h : run S X (start st) ops = .ok (w, log)) {j b c ss} (hb : .pkBytes j b ∈ log)
    (he : .encaps j c ss ∈ log) :
    ∃ m e : Bytes 32, ss = (EncapsulateDerand S X.x25519 b.toList (m.toList ++ e.toList)).1 ∧
      c.toList = (EncapsulateDerand S X.x25519 b.toList (m.toList ++ e.toList)).2 ∧
      ∀ {i sb ss'}, .derived i j ∈ log → .skBytes i sb ∈ log → .decaps i c ss' ∈ log →
        NoiseOk S ML_KEM_768 (seedD S sb.toList).toList m.toList
          (encapsRandomness S (pkM S sb.toList) m.toList) → ss' = ss := by
  obtain ⟨ks, kp, hpk, ho⟩ := explained S X h
  obtain ⟨pk, g1, g2⟩ := ho _ hb
  obtain ⟨pk', ct, g1', g3, rng', s, s', g4⟩ := ho _ he
  obtain rfl := Option.some.inj (g1.symm.trans g1')
  have hr := hpk pk (List.mem_of_getElem? g1)
  obtain ⟨m, s1, e, s2, ct_m, ss_m, d1, d2, d3, d4⟩ := ((C40_randomness S X rng' s).2 pk _).1 g4
  refine ⟨m, e, ?_⟩
  obtain ⟨pb, f1, f2⟩ := C38_encaps S X hr d1 d2
  obtain rfl := Res.ok.inj (g2.symm.trans f1)
  have hs : SeedOk S 3 (ekRho ML_KEM_768 (b.toList.take 1184)) := by
    obtain ⟨-, eb, e1, e2⟩ : _ ∧ ∃ eb : Bytes 1184, pk.pk_m.as_bytes = .ok eb ∧
        ((∃ r, pk.pk_m.encapsulate_deterministic S m = .ok r) ↔
          SeedOk S ML_KEM_768.k (ekRho ML_KEM_768 eb.toList)) :=
      C04_encaps_outcome S supported_768 (.reach (hr.ek S X)) m
    obtain rfl := Res.ok.inj (g2.symm.trans (ek_as_bytes pk e1))
    rw [cat_toList ek_size, List.take_left' eb.length_toList]
    exact e2.1 ⟨_, d3⟩
  obtain ⟨ct', ss', cb, f3, f4, f5, f6⟩ := f2 hs
  have f7 := Res.ok.inj (g4.symm.trans f3)
  simp only [Prod.mk.injEq] at f7
  obtain ⟨⟨rfl, rfl⟩, rfl⟩ := f7
  obtain rfl := Res.ok.inj (g3.symm.trans f4)
  refine ⟨f5, f6, ?_⟩
  intro i sb ss' h1 h2 h3 hn
  obtain ⟨sk, pk', k1, k2, k3⟩ := ho _ h1
  obtain ⟨sk', k4, rfl⟩ := ho _ h2
  obtain ⟨sk'', ct', k5, k6, k7⟩ := ho _ h3
  obtain rfl := Option.some.inj (k1.symm.trans k4)
  obtain rfl := Option.some.inj (k1.symm.trans k5)
  obtain rfl := Option.some.inj (g1.symm.trans k2)
  obtain ⟨e', r1, r2, -⟩ := (C39_ciphertext_roundtrip ct c).1
  obtain rfl := Res.ok.inj (g3.symm.trans r1)
  obtain rfl := Res.ok.inj (k6.symm.trans r2)
  obtain ⟨sk_m, hg, hx⟩ := derived_shape S X k3
  have hdec := C05_decaps_encaps S supported_768 (by decide) (by decide) hg d3 hn
  simp only [Prod.mk.injEq] at d4
  obtain ⟨⟨rfl, rfl⟩, -⟩ := d4
  have k8 := k7.symm.trans (decapsulate_eq S X sk ⟨ct_m, X.x25519 e basePoint⟩ hg hdec)
  rw [Res.ok.inj k8, hx, hX, hcomm]

omit [Build] in
theorem bind_np {α β : Type} {x : Res α} {f : α → Res β} (hx : x ≠ .panic) (hf : ∀ a, f a ≠ .panic) :
    x >>= f ≠ .panic := by
  cases x with
  | ok a => exact hf a
  | panic => exact absurd rfl hx
  | div => nofun

theorem derive_no_panic (sk : DecapsulationKey) : sk.encapsulation_key S X ≠ .panic := by
  unfold DecapsulationKey.encapsulation_key
  rw [expand_key_eq]
  exact bind_np (bind_np (C04_generate_outcome S supported_768 _ _).1 (by intro _; nofun))
    (by intro _; nofun)

theorem step_no_panic (hr : ∀ n s, rng.fill_bytes n s ≠ .panic) {w : World rng} {ks kp}
    (hi : Inv S X w ks kp) (op : Op) : step S X w op ≠ .panic := by
  cases op with
  | generate =>
    refine bind_np ?_ (by intro _; nofun)
    rw [key_pair_eq]
    exact bind_np (hr _ _) fun _ => bind_np (derive_no_panic S X _) (by intro _; nofun)
  | generateSk => exact bind_np (bind_np (hr _ _) (by intro _; nofun)) (by intro _; nofun)
  | parseSk b => nofun
  | parsePk b =>
    obtain ⟨pk, -, h, -⟩ := C39_public_canonical S b
    exact bind_np (by rw [h]; nofun) (by intro _; nofun)
  | derive i =>
    simp only [step]; split
    · exact bind_np (derive_no_panic S X _) (by intro _; nofun)
    · nofun
  | writeSk i => simp only [step]; split <;> nofun
  | writePk i =>
    simp only [step]; split
    · rename_i pk hp
      obtain ⟨b, hb, -⟩ := C39_public_roundtrip S X (hi.pk pk (List.mem_of_getElem? (hi.pks.2 i pk hp)))
      exact bind_np (by rw [hb]; nofun) (by intro _; nofun)
    · nofun
  | encaps i =>
    simp only [step]; split
    · rename_i pk hp
      have hk := hi.pk pk (List.mem_of_getElem? (hi.pks.2 i pk hp))
      refine bind_np ?_ ?_
      · unfold EncapsulationKey.encapsulate
        refine bind_np ?_ fun _ => bind_np (hr _ _) (by intro _; nofun)
        unfold MlKem.EncapsulationKey.encapsulate
        exact bind_np (hr _ _) fun _ =>
          bind_np (C04_encaps_outcome S supported_768 (.reach (hk.ek S X)) _).1 (by intro _; nofun)
      · rintro ⟨⟨ct, ss⟩, st⟩
        obtain ⟨c, hc⟩ : ∃ c, ct.as_bytes = .ok c := ⟨_, ct_as_bytes ct⟩
        dsimp only
        rw [hc]
        nofun
    · nofun
  | decaps i c =>
    simp only [step]; split
    · obtain ⟨ct, hc⟩ : ∃ ct, Ciphertext.from_bytes c = .ok ct := ⟨_, ct_from_bytes c⟩
      rename_i sk _
      refine bind_np (by rw [hc]; nofun) fun ct' => bind_np (C43_implicit_rejection S X sk ct').1 fun a => ?_
      nofun
    · nofun
  | dropSk i => nofun
  | dropPk i => nofun

/-- **C57** No history panics, if the random generator does not. -/
theorem C57_no_panic (hr : ∀ n s, rng.fill_bytes n s ≠ .panic) (ops : List Op) (st : rng.State) :
    run S X (start st) ops ≠ .panic := by
  suffices ∀ (w : World rng) ks kp, Inv S X w ks kp → run S X w ops ≠ .panic from
    this _ _ _ (inv_start S X st)
  induction ops with
  | nil => intro w ks kp _; nofun
  | cons op ops ih =>
    intro w ks kp hi hrun
    simp only [run] at hrun
    cases h1 : step S X w op with
    | panic => exact step_no_panic S X hr hi op h1
    | div => rw [h1] at hrun; nomatch hrun
    | ok r =>
      obtain ⟨w1, o⟩ := r
      rw [h1, Res.ok_bind] at hrun
      obtain ⟨ks', kp', hi', -⟩ := step_inv S X hi h1
      cases h2 : run S X w1 ops with
      | panic => exact ih _ _ _ hi' h2
      | div => dsimp only at hrun; rw [h2] at hrun; nomatch hrun
      | ok r => dsimp only at hrun; rw [h2] at hrun; nomatch hrun

/-! ### The hypotheses are satisfiable -/

theorem sample_history {sk pk st st' st'' sb pb ct c ss}
    (h1 : generate_key_pair S X rng st = .ok ((sk, pk), st')) (h2 : sk.as_bytes = sb)
    (h3 : pk.as_bytes = .ok pb) (h4 : pk.encapsulate S X rng st' = .ok ((ct, ss), st''))
    (h5 : ct.as_bytes = .ok c) (h6 : Ciphertext.from_bytes c = .ok ct)
    (h7 : sk.decapsulate S X ct = .ok ss) :
    run S X (start st) [.generate, .parseSk sb, .writeSk 0, .writePk 0, .encaps 0, .dropSk 1, .decaps 1 c,
      .decaps 0 c] = .ok (⟨[some sk, none], [some pk], st''⟩,
      [.derived 0 0, .skBytes 0 sb, .pkBytes 0 pb, .encaps 0 c ss, .decaps 0 c ss]) := by
  simp only [run, step, start, h1, h2, h3, h4, h5, h6, h7, Res.ok_bind, List.nil_append,
    List.cons_append, List.getElem?_cons_zero, List.getElem?_cons_succ, List.set_cons_succ,
    List.set_cons_zero, List.length_nil, List.append_nil]

/-- A history as in the theorems above, with the toy primitives and from any generator state: it runs to
the end, and everything asked for is seen. -/
example (s : Nat) : ∃ sb c ops w log pb ss, run Toy.S toyX (start (rng := Toy.rng) s) ops = .ok (w, log) ∧
    .derived 0 0 ∈ log ∧ .skBytes 0 sb ∈ log ∧ .pkBytes 0 pb ∈ log ∧ .encaps 0 c ss ∈ log ∧
    .decaps 0 c ss ∈ log := by
  obtain ⟨pk, b, h1, -⟩ := C38_keygen Toy.S toyX toyX_base
    (DecapsulationKey.from_bytes (Vector.ofFn fun i => UInt8.ofNat (s + i.val))) (Toy.seedOk _ _)
  have hgen := ((C40_randomness Toy.S toyX Toy.rng s).1 _).2 ⟨_, s + 1, pk, rfl, h1, rfl⟩
  obtain ⟨pb, h2, h3⟩ := C38_encaps Toy.S toyX (.derived h1) (rng := Toy.rng) (s := s + 1) rfl rfl
  obtain ⟨ct, ss, cb, h4, h5, -⟩ := h3 (Toy.seedOk _ _)
  obtain ⟨m, t1, -, h6⟩ := C37_agree Toy.S toyX toyX_base toyX_comm hgen h4
  obtain ⟨e', r1, r2, -⟩ := (C39_ciphertext_roundtrip ct cb).1
  obtain rfl := Res.ok.inj (h5.symm.trans r1)
  exact ⟨_, _, _, _, _, _, _, sample_history Toy.S toyX hgen rfl h2 h4 h5 r2
    (h6 (Toy.noiseOk (by simp) _ _ _)), .head _, .tail _ (.head _), .tail _ (.tail _ (.head _)),
    .tail _ (.tail _ (.tail _ (.head _))), .tail _ (.tail _ (.tail _ (.tail _ (.head _))))⟩

/-! ### Builds -/

omit [Build] in
theorem step_build (A B : Build) {w : World rng} {ks kp} (hi : @Inv A S X rng w ks kp) (op : Op) :
    @step A S X rng w op = @step B S X rng w op := by
  obtain ⟨hgen, hpk, hfrom, hdec, hek⟩ := C51_x_wing S X A B
  have hk : ∀ {i : Nat} {pk}, w.pks[i]? = some (some pk) → @PkReach A S X pk := fun hd =>
    @Inv.pk A S X rng w ks kp hi _ (List.mem_of_getElem? ((@Inv.pks A S X rng w ks kp hi).2 _ _ hd))
  cases op with
  | generate => simp only [step, hgen]
  | generateSk => rfl
  | parseSk b => rfl
  | parsePk b => simp only [step, hfrom]
  | derive i => simp only [step, hpk]
  | writeSk i => rfl
  | writePk i =>
    simp only [step]; split
    · rename_i hd; rw [(hek _ (hk hd)).2.1]
    · rfl
  | encaps i =>
    simp only [step]; split
    · rename_i hd; rw [(hek _ (hk hd)).2.2]
    · rfl
  | decaps i c => simp only [step, hdec]
  | dropSk i => rfl
  | dropPk i => rfl

omit [Build] in
/-- **C51** A program that uses X-Wing's API, whatever it calls and in whatever order, sees the same
results from a debug build as from a release build. -/
theorem C51_x_wing_history (A B : Build) (st : rng.State) (ops : List Op) :
    @run A S X rng (start st) ops = @run B S X rng (start st) ops := by
  suffices ∀ (w : World rng) ks kp, @Inv A S X rng w ks kp →
      @run A S X rng w ops = @run B S X rng w ops from this _ _ _ (@inv_start A S X rng st)
  induction ops with
  | nil => intro w ks kp _; rfl
  | cons op ops ih =>
    intro w ks kp hi
    simp only [run]
    rw [← step_build S X A B hi op]
    cases h1 : @step A S X rng w op with
    | panic => exact (Res.panic_bind _).trans (Res.panic_bind _).symm
    | div => exact (Res.div_bind _).trans (Res.div_bind _).symm
    | ok r =>
      obtain ⟨w1, o⟩ := r
      obtain ⟨ks', kp', hi', -⟩ := @step_inv A S X rng w w1 op o ks kp hi h1
      rw [Res.ok_bind, Res.ok_bind]
      dsimp only
      rw [ih _ _ _ hi']

end XWing.History

namespace XWing
open Rust MlKem Fips203 XWingSpec
variable [Build] (S : Sha3) (X : X25519)

/-- **C58** If the ML-KEM secret and error vectors expanded from a secret key are short enough, then
whatever is encapsulated to its public key, with whatever randomness, is decapsulated to the same
shared secret. -/
theorem C58_short_keys_never_fail (hX : PublicKeyIsBase X) (hcomm : Commutes X) {sk : DecapsulationKey}
    {pk : EncapsulationKey} (hpk : sk.encapsulation_key S X = .ok pk)
    (hshort : noiseBound S ML_KEM_768 (seedD S sk.as_bytes.toList).toList ≤ 831)
    {rng : Rng} {s s' : rng.State} {ct ss} (henc : pk.encapsulate S X rng s = .ok ((ct, ss), s')) :
    sk.decapsulate S X ct = .ok ss := by
  obtain ⟨sk_m, hg, hx⟩ := derived_shape S X hpk
  obtain ⟨m, s1, e, s2, ct_m, ss_m, h1, h2, h3, h4⟩ := ((C40_randomness S X rng s).2 pk _).1 henc
  simp only [Prod.mk.injEq] at h4
  obtain ⟨⟨rfl, rfl⟩, rfl⟩ := h4
  obtain ⟨c, K, h5, hdec⟩ := C49_short_keys_never_fail S supported_768 (by decide) (by decide) hg hshort m
  obtain ⟨rfl, rfl⟩ := Prod.mk.inj (Res.ok.inj (h3.symm.trans h5))
  rw [decapsulate_eq S X sk ⟨ct_m, X.x25519 e basePoint⟩ hg hdec, hx, hX, hcomm]

/-- The hypotheses of C58 hold for every secret key with the toy primitives. -/
example (sk : DecapsulationKey) (s : Nat) :
    noiseBound Toy.S ML_KEM_768 (seedD Toy.S sk.as_bytes.toList).toList ≤ 831 ∧
    ∃ pk ct ss s', sk.encapsulation_key Toy.S toyX = .ok pk ∧
      pk.encapsulate Toy.S toyX Toy.rng s = .ok ((ct, ss), s') := by
  obtain ⟨pk, b, h1, -⟩ := C38_keygen Toy.S toyX toyX_base sk (Toy.seedOk _ _)
  obtain ⟨pb, -, h3⟩ := C38_encaps Toy.S toyX (.derived h1) (rng := Toy.rng) (s := s) rfl rfl
  obtain ⟨ct, ss, -, h4, -⟩ := h3 (Toy.seedOk _ _)
  exact ⟨Toy.noiseBound_le (by simp) _, pk, ct, ss, _, h1, h4⟩

end XWing
