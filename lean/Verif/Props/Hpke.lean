import Verif.Proofs.Hkdf
import Verif.Model.Hpke
import Verif.Props.DhkemCurves
import Verif.Props.X25519All
/-! C76, C77: the crate's KEMs, with the extraction it leaves to its users, are the DHKEM of RFC 9180. -/
namespace Dhkem
open Rust MlKem Sec2 Rfc9180
open WeierstrassCurve.Affine (Point)

theorem encap_eq (G : Dh) (H : Hkdf.Hash) (kem_id Nsecret : Nat) (skE : G.Sk) (pkR : G.Pk) {o : Option (List UInt8)}
    (h : G.DH skE pkR = o) : Encap G H kem_id Nsecret skE pkR = o.map fun dh =>
      (ExtractAndExpand H kem_id Nsecret dh (G.SerializePublicKey (G.pk skE) ++ G.SerializePublicKey pkR),
        G.SerializePublicKey (G.pk skE)) := by
  subst h
  unfold Encap
  cases G.DH skE pkR <;> rfl

theorem decap_eq (G : Dh) (H : Hkdf.Hash) (kem_id Nsecret : Nat) (enc : List UInt8) (skR : G.Sk) {pkE : G.Pk}
    {o : Option (List UInt8)} (hd : G.DeserializePublicKey enc = some pkE) (h : G.DH skR pkE = o) :
    Decap G H kem_id Nsecret enc skR = o.map fun dh =>
      ExtractAndExpand H kem_id Nsecret dh (enc ++ G.SerializePublicKey (G.pk skR)) := by
  subst h
  unfold Decap
  rw [hd]
  show (G.DH skR pkE).bind _ = _
  cases G.DH skR pkE <;> rfl

section
variable {c : Named} (random : (rng : Rng) → rng.State → Res (Scalar c × rng.State))
variable (H : Hkdf.Hash) (kem_id Nsecret : Nat)

/-- RFC 9180's group on a named curve -/
noncomputable abbrev rfcGroup (c : Named) : Dh := Rfc9180.curve c.params (base c)

theorem sec1_length {P : c.params.curve.Point} (h : P ≠ 0) : (sec1 c.params P).length = 1 + 2 * c.params.size := by
  cases P with
  | zero => exact absurd rfl h
  | some x y hn =>
    simp only [sec1, List.length_cons, List.length_append, Vector.length_toList]
    omega

theorem sec1_inj {P Q : c.params.curve.Point} (hP : P ≠ 0) (hQ : Q ≠ 0) (h : sec1 c.params P = sec1 c.params Q) :
    P = Q := by
  have : NeZero c.params.p := ⟨(Fact.out : c.params.p.Prime).pos.ne'⟩
  cases P with
  | zero => exact absurd rfl hP
  | some x y hn => cases Q with
    | zero => exact absurd rfl hQ
    | some x' y' hn' =>
      simp only [sec1, List.cons.injEq, true_and] at h
      obtain ⟨h1, h2⟩ := List.append_inj h (by rw [Vector.length_toList, Vector.length_toList])
      have e : ∀ a b : ZMod c.params.p, (octets c.params.size a.val).toList = (octets c.params.size b.val).toList →
          a = b := fun a b h => ZMod.val_injective _ (octets_inj ((ZMod.val_lt a).trans (p_lt_octets c))
            ((ZMod.val_lt b).trans (p_lt_octets c)) (Vector.toList_inj.1 h))
      obtain rfl := e _ _ h1
      obtain rfl := e _ _ h2
      rfl

theorem parse_sec1 {P : c.params.curve.Point} (hP : P ≠ 0) : parse c.params (sec1 c.params P) = some P := by
  unfold parse
  have h : ∃ Q : c.params.curve.Point, Q ≠ 0 ∧ sec1 c.params Q = sec1 c.params P := ⟨P, hP, rfl⟩
  rw [dif_pos h]
  exact congrArg some (sec1_inj h.choose_spec.1 hP h.choose_spec.2)

theorem dh_eq (k : Scalar c) {P : c.params.curve.Point} (hP : P ≠ 0) :
    (rfcGroup c).DH k P = some (rawSecret c (k.val • P)).toList := by
  have h := secret_smul_ne_zero k hP
  show xOctets c.params (k.val • P) = _
  generalize k.val • P = Q at h ⊢
  cases Q with
  | zero => exact absurd rfl h
  | some x y hn => rfl

/-- **C76** Encapsulation to a key that can be parsed, followed by RFC 9180's extraction with the two encoded public keys
as context, is RFC 9180's `Encap` with the secret that was drawn: the same shared secret and the same `enc`, for every
curve, hash function and length. -/
theorem C76_encap {ek : DhEncapsulator c.params.curve.Point} (hek : ek.into_inner ≠ 0) {rng : Rng} {s s' : rng.State}
    {pk : c.params.curve.Point} {ss : Bytes c.params.size}
    (h : EcdhKem.encapsulate (named c random) ek rng s = .ok ((pk, ss), s')) :
    ∃ skE, random rng s = .ok (skE, s') ∧ Encap (rfcGroup c) H kem_id Nsecret skE ek.into_inner =
      some (ExtractAndExpand H kem_id Nsecret ss.toList (sec1 c.params pk ++ sec1 c.params ek.into_inner),
        sec1 c.params pk) := by
  obtain ⟨sk, t, h1, h2⟩ := ((C45_ephemeral (named c random) rng s).1 ek _).1 h
  simp only [Prod.mk.injEq] at h2
  obtain ⟨⟨rfl, rfl⟩, rfl⟩ := h2
  exact ⟨sk, h1, encap_eq (rfcGroup c) H kem_id Nsecret sk ek.into_inner (dh_eq sk hek)⟩

/-- **C76** Decapsulation of a key that can be parsed, followed by the extraction with the encoded key that was received
and the recipient's own, is RFC 9180's `Decap`. -/
theorem C76_decap (dk : DhDecapsulator (Scalar c)) {pk : c.params.curve.Point} (hpk : pk ≠ 0) :
    ∃ ss : Bytes c.params.size, EcdhKem.decapsulate (named c random) dk pk = .ok ss ∧
      Decap (rfcGroup c) H kem_id Nsecret (sec1 c.params pk) dk.into_inner =
        some (ExtractAndExpand H kem_id Nsecret ss.toList
          (sec1 c.params pk ++ sec1 c.params ((named c random).publicKey dk.into_inner))) := by
  exact ⟨rawSecret c (dk.into_inner.val • pk), rfl, decap_eq (rfcGroup c) H kem_id Nsecret _ dk.into_inner
    (parse_sec1 hpk) (dh_eq _ hpk)⟩

/-- **C76** The one key left out is the point at infinity. RFC 9180 refuses it, sent or received; the adapters, which
check nothing, return zeros. -/
theorem C76_infinity :
    (∀ dk : DhDecapsulator (Scalar c),
      EcdhKem.decapsulate (named c random) dk (0 : c.params.curve.Point) =
        .ok (Vector.replicate c.params.size (0 : UInt8) : Bytes c.params.size) ∧
      Decap (rfcGroup c) H kem_id Nsecret (sec1 c.params 0) dk.into_inner = none) ∧
    (∀ (rng : Rng) (s s' : rng.State) (pk : c.params.curve.Point) (ss : Bytes c.params.size),
      EcdhKem.encapsulate (named c random) (.from_ (0 : c.params.curve.Point)) rng s = .ok ((pk, ss), s') →
        ss = Vector.replicate c.params.size 0) ∧
    ∀ skE, Encap (rfcGroup c) H kem_id Nsecret skE (0 : c.params.curve.Point) = none := by
  have hz : ∀ k : Scalar c, rawSecret c (k.val • (0 : c.params.curve.Point)) = Vector.replicate c.params.size 0 := by
    intro k
    rw [nsmul_zero]
    rfl
  refine ⟨fun dk => ⟨congrArg Res.ok (hz dk.into_inner), ?_⟩, fun rng s s' pk ss h => ?_, fun skE => ?_⟩
  · unfold Decap
    have hp : (rfcGroup c).DeserializePublicKey (sec1 c.params 0) = none := by
      show parse c.params (sec1 c.params 0) = none
      unfold parse
      refine dif_neg ?_
      rintro ⟨P, hP, h⟩
      have h2 := congrArg List.length h
      rw [sec1_length hP] at h2
      have h3 : (sec1 c.params (0 : c.params.curve.Point)).length = 1 := rfl
      have : 0 < c.params.size := by cases c <;> decide +kernel
      omega
    rw [hp]
    rfl
  · obtain ⟨sk, t, h1, h2⟩ := ((C45_ephemeral (named c random) rng s).1 _ _).1 h
    exact (Prod.mk.inj (Prod.mk.inj h2).1).2.trans (hz sk)
  · refine encap_eq (rfcGroup c) H kem_id Nsecret skE (0 : c.params.curve.Point) (o := none) ?_
    show xOctets c.params (skE.val • (0 : c.params.curve.Point)) = none
    rw [nsmul_zero]
    rfl

/-- **C76** So RFC 9180's two sides agree for generated keys. -/
theorem C76_agree {rng rng' : Rng} {s s' : rng.State} {t t' : rng'.State} {dk ek} {pk : c.params.curve.Point}
    {ss : Bytes c.params.size} (hgen : EcdhKem.random_keypair (named c random) rng s = .ok ((dk, ek), s'))
    (henc : EcdhKem.encapsulate (named c random) ek rng' t = .ok ((pk, ss), t')) :
    ∃ skE K, random rng' t = .ok (skE, t') ∧
      Encap (rfcGroup c) H kem_id Nsecret skE ek.into_inner = some (K, sec1 c.params pk) ∧
      Decap (rfcGroup c) H kem_id Nsecret (sec1 c.params pk) dk.into_inner = some K := by
  have hek := (C72_valid_keys random rng s s').1 hgen
  have hpk := (C72_valid_keys random rng' t t').2 henc
  obtain ⟨skE, h1, h2⟩ := C76_encap random H kem_id Nsecret hek henc
  obtain ⟨ss', h3, h4⟩ := C76_decap random H kem_id Nsecret dk hpk
  obtain rfl : ss' = ss := Res.ok.inj (h3.symm.trans (C72_agree random hgen henc))
  refine ⟨skE, _, h1, h2, ?_⟩
  have : ek.into_inner = (named c random).publicKey dk.into_inner := by
    obtain ⟨sk, t, -, h6⟩ := ((C45_ephemeral (named c random) rng s).2.1 _).1 hgen
    simp only [Prod.mk.injEq] at h6
    obtain ⟨⟨rfl, rfl⟩, -⟩ := h6
    rfl
  exact h4.trans (congrArg (fun q : c.params.curve.Point =>
    some (ExtractAndExpand H kem_id Nsecret ss'.toList (sec1 c.params pk ++ sec1 c.params q))) this.symm)

/-- **C77** The raw secrets determine neither key (C73), the extracted ones do: if two decapsulations followed by the
extraction give the same RFC 9180 secret, of the length of the hash, then the decapsulation keys are equal and the
encapsulated keys are, or two of the strings hashed for the secrets are a collision. -/
theorem C77_binds (h0 : 0 < H.size) (dk dk' : DhDecapsulator (Scalar c)) {pk pk' : c.params.curve.Point} (hpk : pk ≠ 0)
    (hpk' : pk' ≠ 0) {ss ss' : Bytes c.params.size} (h : EcdhKem.decapsulate (named c random) dk pk = .ok ss)
    (h' : EcdhKem.decapsulate (named c random) dk' pk' = .ok ss')
    (he : Decap (rfcGroup c) H kem_id H.size (sec1 c.params pk) dk.into_inner =
      Decap (rfcGroup c) H kem_id H.size (sec1 c.params pk') dk'.into_inner) :
    (dk = dk' ∧ pk = pk') ∨
    Hkdf.CollideIn H
      (hashed H kem_id H.size ss.toList
        (sec1 c.params pk ++ sec1 c.params ((named c random).publicKey dk.into_inner)))
      (hashed H kem_id H.size ss'.toList
        (sec1 c.params pk' ++ sec1 c.params ((named c random).publicKey dk'.into_inner))) := by
  obtain ⟨s1, h1, e1⟩ := C76_decap random H kem_id H.size dk hpk
  obtain ⟨s2, h2, e2⟩ := C76_decap random H kem_id H.size dk' hpk'
  obtain rfl : s1 = ss := Res.ok.inj (h1.symm.trans h)
  obtain rfl : s2 = ss' := Res.ok.inj (h2.symm.trans h')
  rcases eae_inj h0 (Option.some.inj (e1.symm.trans (he.trans e2))) with ⟨-, h2⟩ | h2
  · left
    obtain ⟨h3, h4⟩ := List.append_inj h2 (by rw [sec1_length hpk, sec1_length hpk'])
    have hd : (named c random).publicKey dk.into_inner ≠ (0 : c.params.curve.Point) :=
      secret_smul_ne_zero _ (base_ne_zero c)
    have hd' : (named c random).publicKey dk'.into_inner ≠ (0 : c.params.curve.Point) :=
      secret_smul_ne_zero _ (base_ne_zero c)
    have h5 := sec1_inj hd hd' h4
    obtain ⟨k, -, hk⟩ := C72_every_key random _ hd
    refine ⟨?_, sec1_inj hpk hpk' h3⟩
    have : dk.into_inner = dk'.into_inner := (hk _ rfl).trans (hk _ h5.symm).symm
    exact congrArg DhDecapsulator.from_ this
  · exact Or.inr h2

/-- **C77** In particular the encapsulated keys `P` and `-P`, for which the adapter returns the same raw secret, do not
lead to the same RFC 9180 secret, short of a collision. -/
theorem C77_negated (h0 : 0 < H.size) (dk : DhDecapsulator (Scalar c)) {pk : c.params.curve.Point} (hpk : pk ≠ 0) :
    ∃ ss : Bytes c.params.size, EcdhKem.decapsulate (named c random) dk pk = .ok ss ∧
    EcdhKem.decapsulate (named c random) dk (-pk : c.params.curve.Point) = .ok ss ∧
    (Decap (rfcGroup c) H kem_id H.size (sec1 c.params pk) dk.into_inner =
        Decap (rfcGroup c) H kem_id H.size (sec1 c.params (-pk)) dk.into_inner →
      Hkdf.CollideIn H
        (hashed H kem_id H.size ss.toList
          (sec1 c.params pk ++ sec1 c.params ((named c random).publicKey dk.into_inner)))
        (hashed H kem_id H.size ss.toList
          (sec1 c.params (-pk) ++ sec1 c.params ((named c random).publicKey dk.into_inner)))) := by
  have hn : EcdhKem.decapsulate (named c random) dk (-pk : c.params.curve.Point) =
      .ok (rawSecret c (dk.into_inner.val • pk)) :=
    congrArg Res.ok ((rawSecret_eq_iff (secret_smul_ne_zero _ (neg_ne_zero.2 hpk)) (secret_smul_ne_zero _ hpk)).2
      (Or.inr (neg_nsmul _ _)))
  refine ⟨rawSecret c (dk.into_inner.val • pk), rfl, hn, fun he => ?_⟩
  refine (C77_binds random H kem_id h0 dk dk hpk (neg_ne_zero.2 hpk) rfl hn he).resolve_left fun h => ?_
  have h2 : (2 : Nat) • pk = 0 := by
    rw [two_nsmul]
    nth_rewrite 2 [h.2]
    exact add_neg_cancel pk
  rw [smul_eq_zero_iff hpk] at h2
  have := Nat.le_of_dvd (by norm_num) h2
  have := n_gt_two c
  omega

end

section
variable (H : Hkdf.Hash) (kem_id Nsecret : Nat)
open Rfc7748 (maskedInteger smallOrder)

theorem montgomery_encap (X : Bytes 32 → Bytes 32 → Bytes 32) (k u : Bytes 32) {q : Prop} [Decidable q]
    (hq : X k u = Vector.replicate 32 0 ↔ q) :
    Encap (montgomery X) H kem_id Nsecret k u = if q then none else
      some (ExtractAndExpand H kem_id Nsecret (X k u).toList ((X k XWingSpec.basePoint).toList ++ u.toList),
        (X k XWingSpec.basePoint).toList) := by
  rw [encap_eq (montgomery X) H kem_id Nsecret k u (o := nonzero (X k u)) rfl]
  unfold nonzero
  by_cases h : q
  · rw [if_pos h, if_pos (hq.2 h)]
    rfl
  · rw [if_neg h, if_neg (fun h' => h (hq.1 h'))]
    rfl

theorem montgomery_decap (X : Bytes 32 → Bytes 32 → Bytes 32) (k u : Bytes 32) {q : Prop} [Decidable q]
    (hq : X k u = Vector.replicate 32 0 ↔ q) :
    Decap (montgomery X) H kem_id Nsecret u.toList k = if q then none else
      some (ExtractAndExpand H kem_id Nsecret (X k u).toList (u.toList ++ (X k XWingSpec.basePoint).toList)) := by
  have hp : (montgomery X).DeserializePublicKey u.toList = some u := by
    show (if h : u.toList.length = 32 then some (⟨u.toList.toArray, _⟩ : Bytes 32) else none) = _
    rw [dif_pos Vector.length_toList]
    exact congrArg some (Vector.toArray_inj.1 (Array.toList_inj.1 rfl))
  rw [decap_eq (montgomery X) H kem_id Nsecret _ k hp (o := nonzero (X k u)) rfl]
  unfold nonzero
  by_cases h : q
  · rw [if_pos h, if_pos (hq.2 h)]
    rfl
  · rw [if_neg h, if_neg (fun h' => h (hq.1 h'))]
    rfl

theorem drawn (C : DhGroup) {ek : DhEncapsulator C.Public} {rng : Rng} {s s' : rng.State} {pk ss}
    (h : X25519Kem.encapsulate C ek rng s = .ok ((pk, ss), s')) :
    ∃ sk, C.random rng s = .ok (sk, s') ∧ pk = C.publicKey sk ∧ ss = C.diffieHellman sk ek.into_inner := by
  obtain ⟨sk, t, h1, h2⟩ := ((C45_ephemeral C rng s).2.2.1 ek _).1 h
  simp only [Prod.mk.injEq] at h2
  obtain ⟨⟨rfl, rfl⟩, rfl⟩ := h2
  exact ⟨sk, h1, rfl, rfl⟩

/-- **C76** The X25519 adapter, followed by the extraction, is RFC 9180's `Encap`, except that RFC 9180 has it fail for
the recipient keys of C74's list, where the adapter goes on with 32 zero bytes. -/
theorem C76_x25519_encap {ek : DhEncapsulator (Bytes 32)} {rng : Rng} {s s' : rng.State} {pk ss : Bytes 32}
    (h : X25519Kem.encapsulate Dhkem.x25519 ek rng s = .ok ((pk, ss), s')) :
    ∃ skE : Bytes 32, rng.fill_bytes 32 s = .ok (skE, s') ∧
      Encap Rfc9180.x25519 H kem_id Nsecret skE ek.into_inner =
        if maskedInteger ek.into_inner ∈ smallOrder then none
        else some (ExtractAndExpand H kem_id Nsecret ss.toList (pk.toList ++ ek.into_inner.toList), pk.toList) := by
  obtain ⟨sk, h1, h2, h3⟩ := drawn Dhkem.x25519 h
  rw [h2, h3]
  exact ⟨sk, h1, montgomery_encap H kem_id Nsecret Rfc7748.X25519 sk ek.into_inner (Rfc7748.C74_zero_iff _ _)⟩

/-- **C76** The same for `Decap`. -/
theorem C76_x25519_decap (dk : DhDecapsulator (Bytes 32)) (pk : Bytes 32) :
    ∃ ss : Bytes 32, X25519Kem.decapsulate Dhkem.x25519 dk pk = .ok ss ∧
      Decap Rfc9180.x25519 H kem_id Nsecret pk.toList dk.into_inner =
        if maskedInteger pk ∈ smallOrder then none
        else some (ExtractAndExpand H kem_id Nsecret ss.toList
          (pk.toList ++ (Rfc7748.X25519 dk.into_inner XWingSpec.basePoint).toList)) :=
  ⟨Rfc7748.X25519 dk.into_inner pk, (decapsulate_eq Dhkem.x25519 dk dk pk pk _).1.2 rfl,
    montgomery_decap H kem_id Nsecret Rfc7748.X25519 dk.into_inner pk (Rfc7748.C74_zero_iff _ _)⟩

/-- **C77** For X25519 the extracted secret determines the encapsulated key and the public key, byte for byte, although
the raw one does not (C75). -/
theorem C77_x25519_binds (h0 : 0 < H.size) (dk dk' : DhDecapsulator (Bytes 32)) (pk pk' ss ss' : Bytes 32)
    (h : X25519Kem.decapsulate Dhkem.x25519 dk pk = .ok ss)
    (h' : X25519Kem.decapsulate Dhkem.x25519 dk' pk' = .ok ss') (hpk : maskedInteger pk ∉ smallOrder)
    (he : Decap Rfc9180.x25519 H kem_id H.size pk.toList dk.into_inner =
      Decap Rfc9180.x25519 H kem_id H.size pk'.toList dk'.into_inner) :
    (pk = pk' ∧ Rfc7748.X25519 dk.into_inner XWingSpec.basePoint = Rfc7748.X25519 dk'.into_inner XWingSpec.basePoint ∧
      ss = ss') ∨
    Hkdf.CollideIn H
      (hashed H kem_id H.size ss.toList
        (pk.toList ++ (Rfc7748.X25519 dk.into_inner XWingSpec.basePoint).toList))
      (hashed H kem_id H.size ss'.toList
        (pk'.toList ++ (Rfc7748.X25519 dk'.into_inner XWingSpec.basePoint).toList)) := by
  obtain ⟨s1, h1, e1⟩ := C76_x25519_decap H kem_id H.size dk pk
  obtain ⟨s2, h2, e2⟩ := C76_x25519_decap H kem_id H.size dk' pk'
  obtain rfl : s1 = ss := Res.ok.inj (h1.symm.trans h)
  obtain rfl : s2 = ss' := Res.ok.inj (h2.symm.trans h')
  rw [e1, e2, if_neg hpk] at he
  split at he
  · exact absurd he (Option.some_ne_none _)
  · rcases eae_inj h0 (Option.some.inj he) with ⟨h1, h2⟩ | h2
    · left
      obtain ⟨h3, h4⟩ := List.append_inj h2 (by rw [Vector.length_toList, Vector.length_toList])
      exact ⟨Vector.toList_inj.1 h3, Vector.toList_inj.1 h4, Vector.toList_inj.1 h1⟩
    · exact Or.inr h2

end

namespace HpkeTest

/-- **C76** The extraction in the crate's own test is RFC 9180's for DHKEM(P-256, HKDF-SHA256), and does not panic. -/
theorem C76_extraction (H : Hkdf.Hash) (h0 : 0 < H.size) (dh : Bytes 32) (ctx : List UInt8) :
    extract_and_expand H dh ctx = .ok (ExtractAndExpand H 0x0010 32 dh.toList ctx) := by
  have h1 : ∀ salt label ikm, (labeled_extract H salt label ikm).length = H.size := fun _ _ _ => Vector.length_toList
  have e1 : labeled_extract H [] [0x65, 0x61, 0x65, 0x5f, 0x70, 0x72, 0x6b] dh.toList =
      LabeledExtract H 0x0010 [] "eae_prk" dh.toList := by
    unfold labeled_extract hkdfExtract LabeledExtract labeledIkm
    simp only [List.flatten_cons, List.flatten_nil, List.append_nil, ← List.append_assoc]
    rw [show ascii "HPKE-v1" ++ suiteId 16 ++ ascii "eae_prk" =
      [0x48, 0x50, 0x4b, 0x45, 0x2d, 0x76, 0x31] ++ [0x4b, 0x45, 0x4d, 0x00, 0x10] ++
        [0x65, 0x61, 0x65, 0x5f, 0x70, 0x72, 0x6b] by decide +kernel]
  unfold extract_and_expand labeled_expand hkdfExpand
  rw [if_neg (by rw [h1]; omega), if_neg (by
    show ¬ 255 * H.size < 32
    omega)]
  unfold ExtractAndExpand LabeledExpand labeledInfo
  dsimp only
  rw [e1]
  simp only [List.flatten_cons, List.flatten_nil, List.append_nil, ← List.append_assoc]
  rw [show i2osp 32 2 ++ ascii "HPKE-v1" ++ suiteId 16 ++ ascii "shared_secret" =
    [UInt8.ofNat ((32 : UInt16).toNat / 256), UInt8.ofNat ((32 : UInt16).toNat % 256)] ++
      [0x48, 0x50, 0x4b, 0x45, 0x2d, 0x76, 0x31] ++ [0x4b, 0x45, 0x4d, 0x00, 0x10] ++
      [0x73, 0x68, 0x61, 0x72, 0x65, 0x64, 0x5f, 0x73, 0x65, 0x63, 0x72, 0x65, 0x74] by decide +kernel]
  rfl

end HpkeTest
end Dhkem
