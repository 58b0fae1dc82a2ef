import Verif.Model.DhkemCurves
import Verif.Props.Dhkem
/-! C72, C73: the elliptic-curve KEMs on the named curves. -/
namespace Dhkem
open Rust MlKem Sec2
open WeierstrassCurve.Affine (Point)

theorem n_prime (c : Named) : c.params.n.Prime := by
  cases c
  · exact Pocklington.secp256k1_n
  · exact Pocklington.p256_n
  · exact Pocklington.p384_n
  · exact Pocklington.p521_n

theorem card_points (c : Named) : Nat.card c.params.curve.Point = c.params.n := by
  cases c
  · exact Weierstrass.card_eq (n_prime .secp256k1) Weierstrass.check_secp256k1
  · exact Weierstrass.card_eq (n_prime .p256) Weierstrass.check_p256
  · exact Weierstrass.card_eq (n_prime .p384) Weierstrass.check_p384
  · exact Weierstrass.card_eq (n_prime .p521) Weierstrass.check_p521

theorem n_gt_two (c : Named) : 2 < c.params.n := by cases c <;> decide +kernel

theorem p_lt_octets (c : Named) : c.params.p < 256 ^ c.params.size := by cases c <;> decide +kernel

theorem order_of_ne_zero {c : Named} {P : c.params.curve.Point} (h : P ≠ 0) : addOrderOf P = c.params.n := by
  have hd : addOrderOf P ∣ c.params.n := card_points c ▸ addOrderOf_dvd_natCard P
  rcases (Nat.dvd_prime (n_prime c)).1 hd with h1 | h1
  · exact absurd (AddMonoid.addOrderOf_eq_one_iff.1 h1) h
  · exact h1

theorem smul_eq_zero_iff {c : Named} {P : c.params.curve.Point} (h : P ≠ 0) (k : Nat) :
    k • P = 0 ↔ c.params.n ∣ k := by
  rw [← order_of_ne_zero h, addOrderOf_dvd_iff_nsmul_eq_zero]

theorem base_ne_zero (c : Named) : base c ≠ 0 := Point.some_ne_zero _

variable {c : Named}

theorem secret_smul_ne_zero (k : Scalar c) {P : c.params.curve.Point} (h : P ≠ 0) :
    k.val • P ≠ 0 := by
  rw [ne_eq, smul_eq_zero_iff h]
  exact fun hd => absurd (Nat.le_of_dvd k.2.1 hd) (by have := k.2.2; omega)

theorem smul_inj {P : c.params.curve.Point} (h : P ≠ 0) {k l : Nat} (hk : k < c.params.n) (hl : l < c.params.n)
    (he : k • P = l • P) : k = l := by
  have hinj := nsmul_injOn_Iio_addOrderOf (x := P)
  rw [order_of_ne_zero h] at hinj
  exact hinj hk hl he

theorem smul_surj {P : c.params.curve.Point} (h : P ≠ 0) (Q : c.params.curve.Point) :
    ∃ k < c.params.n, k • P = Q := by
  classical
  have := Fintype.ofFinite c.params.curve.Point
  have hinj : Function.Injective fun k : Fin c.params.n => k.val • P := fun k l he =>
    Fin.ext (smul_inj h k.2 l.2 he)
  have hsurj := (Fintype.bijective_iff_injective_and_card _).2
    ⟨hinj, by rw [Fintype.card_fin, ← Nat.card_eq_fintype_card, card_points]⟩
  obtain ⟨k, hk⟩ := hsurj.2 Q
  exact ⟨k.val, k.2, hk⟩

theorem octets_inj {size v w : Nat} (hv : v < 256 ^ size) (hw : w < 256 ^ size)
    (h : octets size v = octets size w) : v = w := by
  have key : ∀ m ≤ size, v % 256 ^ m = w % 256 ^ m := by
    intro m hm
    induction m with
    | zero => simp [Nat.mod_one]
    | succ m ih =>
      rw [Nat.mod_pow_succ, Nat.mod_pow_succ, ih (by omega)]
      have h1 : (octets size v)[size - 1 - m]'(by omega) = (octets size w)[size - 1 - m]'(by omega) := by rw [h]
      simp only [octets, Vector.getElem_ofFn] at h1
      have h2 := congrArg UInt8.toNat h1
      simp only [UInt8.toNat_ofNat', Nat.reducePow, Nat.mod_mod, show size - 1 - (size - 1 - m) = m by omega] at h2
      rw [h2]
  have := key size le_rfl
  rwa [Nat.mod_eq_of_lt hv, Nat.mod_eq_of_lt hw] at this

theorem rawSecret_eq_iff {P Q : c.params.curve.Point} (hP : P ≠ 0) (hQ : Q ≠ 0) :
    rawSecret c P = rawSecret c Q ↔ P = Q ∨ P = -Q := by
  have hp := (Fact.out : c.params.p.Prime).pos
  have : NeZero c.params.p := ⟨hp.ne'⟩
  cases P with
  | zero => exact absurd rfl hP
  | some x y h => cases Q with
    | zero => exact absurd rfl hQ
    | some x' y' h' =>
      rw [← Point.X_eq_iff]
      simp only [rawSecret]
      constructor
      · intro he
        have := octets_inj ((ZMod.val_lt x).trans (p_lt_octets c)) ((ZMod.val_lt x').trans (p_lt_octets c)) he
        exact ZMod.val_injective _ this
      · rintro rfl; rfl

theorem ne_neg_self {P : c.params.curve.Point} (h : P ≠ 0) : P ≠ -P := by
  intro he
  have h2 : 2 • P = 0 := by
    rw [two_nsmul]
    nth_rw 1 [he]
    exact neg_add_cancel P
  have := Nat.le_of_dvd (by norm_num) ((smul_eq_zero_iff h 2).1 h2)
  have := n_gt_two c
  omega

variable (random : (rng : Rng) → rng.State → Res (Scalar c × rng.State))

/-- **C72** Each named curve is a group of prime order: its field and its number of points are the published primes, and
every point except infinity has that order. -/
theorem C72_prime_order (c : Named) : c.params.p.Prime ∧ c.params.n.Prime ∧
    Nat.card c.params.curve.Point = c.params.n ∧
    ∀ P : c.params.curve.Point, P ≠ 0 → ∀ k : Nat, k • P = 0 ↔ c.params.n ∣ k :=
  ⟨Fact.out, n_prime c, card_points c, fun _ h k => smul_eq_zero_iff h k⟩

/-- **C72** Generated keys and encapsulated keys are never the point at infinity, whatever the generator produces and
whatever the recipient's key; so they pass the checks made on parsing. -/
theorem C72_valid_keys (rng : Rng) (s s' : rng.State) :
    (∀ {dk ek}, EcdhKem.random_keypair (named c random) rng s = .ok ((dk, ek), s') →
      ek.into_inner ≠ (0 : c.params.curve.Point)) ∧
    (∀ {ek pk ss}, EcdhKem.encapsulate (named c random) ek rng s = .ok ((pk, ss), s') →
      pk ≠ (0 : c.params.curve.Point)) := by
  obtain ⟨h1, h2, -, -⟩ := C45_ephemeral (named c random) rng s
  constructor
  · intro dk ek h
    obtain ⟨sk, t, -, h⟩ := (h2 _).1 h
    simp only [Prod.mk.injEq] at h
    obtain ⟨⟨-, rfl⟩, -⟩ := h
    exact secret_smul_ne_zero sk (base_ne_zero c)
  · intro ek pk ss h
    obtain ⟨sk, t, -, h⟩ := (h1 _ _).1 h
    simp only [Prod.mk.injEq] at h
    obtain ⟨⟨rfl, -⟩, -⟩ := h
    exact secret_smul_ne_zero sk (base_ne_zero c)

/-- **C72** No parsed key makes the secret degenerate: for every secret and every point except infinity, decapsulation
returns the x-coordinate of a point of the curve, the secret's multiple of the encapsulated key; so does encapsulation
with the recipient's key. -/
theorem C72_never_degenerate (dk : DhDecapsulator (Scalar c)) (P : c.params.curve.Point) (hP : P ≠ 0) :
    ∃ x y h, dk.into_inner.val • P = Point.some x y h ∧ y ^ 2 = x ^ 3 + c.params.a * x + c.params.b ∧
      EcdhKem.decapsulate (named c random) dk P = .ok (octets c.params.size x.val) ∧
      ∀ (rng : Rng) (s s' : rng.State), (named c random).random rng s = .ok (dk.into_inner, s') →
        EcdhKem.encapsulate (named c random) (.from_ P) rng s
          = .ok ((dk.into_inner.val • base c, octets c.params.size x.val), s') := by
  have h0 := secret_smul_ne_zero dk.into_inner hP
  have hd : EcdhKem.decapsulate (named c random) dk P = .ok (rawSecret c (dk.into_inner.val • P)) := rfl
  have he : ∀ (rng : Rng) (s s' : rng.State), (named c random).random rng s = .ok (dk.into_inner, s') →
      EcdhKem.encapsulate (named c random) (.from_ P) rng s
        = .ok ((dk.into_inner.val • base c, rawSecret c (dk.into_inner.val • P)), s') :=
    fun rng s s' h => ((C45_ephemeral (named c random) rng s).1 _ _).2 ⟨_, _, h, rfl⟩
  generalize dk.into_inner.val • P = R at h0 hd he
  cases R with
  | zero => exact absurd rfl h0
  | some x y h =>
    refine ⟨x, y, h, rfl, ?_, hd, he⟩
    have := (WeierstrassCurve.Affine.equation_iff _ _).1 h.1
    simp only [Params.curve] at this
    linear_combination this

/-- **C72** Encapsulation and decapsulation agree on the named curves. -/
theorem C72_agree {rng rng' : Rng} {s s' : rng.State} {t t' : rng'.State} {dk ek pk ss}
    (hgen : EcdhKem.random_keypair (named c random) rng s = .ok ((dk, ek), s'))
    (henc : EcdhKem.encapsulate (named c random) ek rng' t = .ok ((pk, ss), t')) :
    EcdhKem.decapsulate (named c random) dk pk = .ok ss :=
  (C44_agree _ (fun a b => by
    show rawSecret c (a.val • b.val • base c) = rawSecret c (b.val • a.val • base c)
    rw [smul_comm])).1 hgen henc

/-- **C72** Every key that can be parsed is the public key of exactly one secret. -/
theorem C72_every_key (P : c.params.curve.Point) (hP : P ≠ 0) :
    ∃! k : Scalar c, (named c random).publicKey k = P := by
  obtain ⟨k, hk, rfl⟩ := smul_surj (base_ne_zero c) P
  refine ⟨⟨k, ?_, hk⟩, rfl, fun l hl => Subtype.ext (smul_inj (base_ne_zero c) l.2.2 hk hl)⟩
  rcases Nat.eq_zero_or_pos k with rfl | h
  · exact absurd (zero_nsmul _) hP
  · exact h

/-- **C73** Under one secret two encapsulated keys give the same shared secret exactly when they are equal or each
other's negative, and no key is its own negative: besides the honest encapsulated key exactly one other works. -/
theorem C73_same_secret_iff (dk : DhDecapsulator (Scalar c)) (P Q : c.params.curve.Point)
    (hP : P ≠ 0) (hQ : Q ≠ 0) :
    (EcdhKem.decapsulate (named c random) dk P = EcdhKem.decapsulate (named c random) dk Q ↔ P = Q ∨ P = -Q) ∧
    -P ≠ P ∧ -P ≠ 0 := by
  refine ⟨?_, (ne_neg_self hP).symm, neg_ne_zero.2 hP⟩
  have h1 : EcdhKem.decapsulate (named c random) dk P = EcdhKem.decapsulate (named c random) dk Q ↔
      rawSecret c (dk.into_inner.val • P) = rawSecret c (dk.into_inner.val • Q) := by
    constructor
    · exact fun h => Res.ok.inj h
    · exact fun h => congrArg Res.ok h
  rw [h1, rawSecret_eq_iff (secret_smul_ne_zero _ hP) (secret_smul_ne_zero _ hQ), ← neg_nsmul]
  have hinj : ∀ R S : c.params.curve.Point, dk.into_inner.val • R = dk.into_inner.val • S ↔ R = S := by
    intro R S
    constructor
    · intro h
      by_contra hne
      refine secret_smul_ne_zero dk.into_inner (sub_ne_zero.2 hne) ?_
      rw [nsmul_sub, h, sub_self]
    · rintro rfl; rfl
  rw [hinj, hinj]

/-- **C73** From one encapsulated key two secrets derive the same shared secret exactly when they are equal or add up to
the order of the group. -/
theorem C73_same_key_iff (dk dk' : DhDecapsulator (Scalar c)) (P : c.params.curve.Point) (hP : P ≠ 0) :
    EcdhKem.decapsulate (named c random) dk P = EcdhKem.decapsulate (named c random) dk' P ↔
      dk = dk' ∨ dk.into_inner.val + dk'.into_inner.val = c.params.n := by
  have h1 : EcdhKem.decapsulate (named c random) dk P = EcdhKem.decapsulate (named c random) dk' P ↔
      rawSecret c (dk.into_inner.val • P) = rawSecret c (dk'.into_inner.val • P) := by
    constructor
    · exact fun h => Res.ok.inj h
    · exact fun h => congrArg Res.ok h
  rw [h1, rawSecret_eq_iff (secret_smul_ne_zero _ hP) (secret_smul_ne_zero _ hP)]
  obtain ⟨k, hk0, hk⟩ := dk
  obtain ⟨l, hl0, hl⟩ := dk'
  simp only [DhDecapsulator.into_inner, DhDecapsulator.mk.injEq, Subtype.mk.injEq]
  refine or_congr ⟨fun h => smul_inj hP hk hl h, fun h => by rw [h]⟩ ?_
  rw [eq_neg_iff_add_eq_zero, ← add_nsmul, smul_eq_zero_iff hP]
  constructor
  · rintro ⟨m, hm⟩
    have : m < 2 := by
      by_contra h2
      have : c.params.n * 2 ≤ c.params.n * m := Nat.mul_le_mul_left _ (by omega)
      omega
    have : m ≠ 0 := by rintro rfl; omega
    obtain rfl : m = 1 := by omega
    omega
  · rintro h; exact ⟨1, by omega⟩

/-- **C73** Each shared secret is derived from an encapsulated key by exactly two secrets. -/
theorem C73_two_secrets (dk : DhDecapsulator (Scalar c)) (P : c.params.curve.Point) (hP : P ≠ 0) :
    Nat.card {dk' : DhDecapsulator (Scalar c) //
      EcdhKem.decapsulate (named c random) dk' P = EcdhKem.decapsulate (named c random) dk P} = 2 := by
  have h0 := dk.into_inner.2
  let dk2 : DhDecapsulator (Scalar c) := ⟨⟨c.params.n - dk.into_inner.val, by omega, by omega⟩⟩
  have hodd : c.params.n % 2 = 1 := by
    rcases (n_prime c).eq_two_or_odd with h | h
    · have := n_gt_two c; omega
    · exact h
  have hne : dk ≠ dk2 := by
    intro h
    have : dk.into_inner.val = c.params.n - dk.into_inner.val := congrArg (fun d => d.into_inner.val) h
    omega
  have hs : {dk' : DhDecapsulator (Scalar c) |
      EcdhKem.decapsulate (named c random) dk' P = EcdhKem.decapsulate (named c random) dk P} = {dk, dk2} := by
    ext dk'
    rw [Set.mem_ofPred_eq, C73_same_key_iff random dk' dk P hP]
    simp only [Set.mem_insert_iff, Set.mem_singleton_iff]
    refine or_congr Iff.rfl ⟨fun h => ?_, ?_⟩
    · have : dk'.into_inner = dk2.into_inner := Subtype.ext (by
        show dk'.into_inner.val = c.params.n - dk.into_inner.val
        omega)
      exact congrArg DhDecapsulator.from_ this
    · rintro rfl
      show c.params.n - dk.into_inner.val + dk.into_inner.val = c.params.n
      omega
  show Nat.card ↥{dk' : DhDecapsulator (Scalar c) |
      EcdhKem.decapsulate (named c random) dk' P = EcdhKem.decapsulate (named c random) dk P} = 2
  rw [hs]
  exact Set.ncard_pair hne

theorem nonsingular_of_equation {x y : ZMod c.params.p}
    (h : y ^ 2 = x ^ 3 + c.params.a * x + c.params.b) : c.params.curve.Nonsingular x y := by
  have hr : ∀ α : ZMod c.params.p, α ^ 3 + c.params.a * α + c.params.b ≠ 0 := by
    cases c
    · exact Weierstrass.no_root (Bool.and_eq_true_iff.1 Weierstrass.check_secp256k1).2
    · exact Weierstrass.no_root (Bool.and_eq_true_iff.1 Weierstrass.check_p256).2
    · exact Weierstrass.no_root (Bool.and_eq_true_iff.1 Weierstrass.check_p384).2
    · exact Weierstrass.no_root (Bool.and_eq_true_iff.1 Weierstrass.check_p521).2
  have h2 : 2 < c.params.p := by cases c <;> decide +kernel
  rw [WeierstrassCurve.Affine.nonsingular_iff, WeierstrassCurve.Affine.equation_iff]
  simp only [Params.curve]
  refine ⟨by linear_combination h, Or.inr fun hy => ?_⟩
  have : (2 : ZMod c.params.p) * y = 0 := by linear_combination hy
  rcases mul_eq_zero.1 this with h3 | h3
  · exact Weierstrass.two_ne_zero' h2 h3
  · exact hr x (by rw [← h, h3]; ring)

/-- **C73** The shared secrets that can be derived from an encapsulated key are the x-coordinates of the points of the
curve, the same for every key, and there are half as many as secrets; so anyone can tell some strings not to be
shared secrets, and a key has to be extracted from them. -/
theorem C73_raw_secrets (P : c.params.curve.Point) (hP : P ≠ 0) :
    {ss : Bytes c.params.size | ∃ dk, EcdhKem.decapsulate (named c random) dk P = .ok ss}
      = {ss : Bytes c.params.size | ∃ x y : ZMod c.params.p, y ^ 2 = x ^ 3 + c.params.a * x + c.params.b ∧
          ss = octets c.params.size x.val} ∧
    Set.ncard {ss : Bytes c.params.size | ∃ dk, EcdhKem.decapsulate (named c random) dk P = .ok ss} = (c.params.n - 1) / 2 := by
  constructor
  · ext ss
    constructor
    · rintro ⟨dk, h⟩
      obtain ⟨x, y, -, -, he, h1, -⟩ := C72_never_degenerate random dk P hP
      exact ⟨x, y, he, (Res.ok.inj (h1.symm.trans h)).symm⟩
    · rintro ⟨x, y, he, rfl⟩
      obtain ⟨k, hk, hkP⟩ := smul_surj hP (.some x y (nonsingular_of_equation he))
      have hk0 : 0 < k := by
        rcases Nat.eq_zero_or_pos k with rfl | h
        · rw [zero_nsmul] at hkP
          exact absurd hkP.symm (Point.some_ne_zero _)
        · exact h
      refine ⟨⟨⟨k, hk0, hk⟩⟩, ?_⟩
      show Res.ok (rawSecret c (k • P)) = _
      rw [hkP]
      rfl
  · classical
    have : Finite (Scalar c) := Finite.of_injective
      (fun k : Scalar c => (⟨k.1, k.2.2⟩ : Fin c.params.n)) fun k l h => Subtype.ext (congrArg Fin.val h)
    have := Fintype.ofFinite (Scalar c)
    let f : Scalar c → Bytes c.params.size := fun k => rawSecret c (k.val • P)
    have hset : {ss : Bytes c.params.size | ∃ dk, EcdhKem.decapsulate (named c random) dk P = .ok ss}
        = ↑(Finset.univ.image f) := by
      ext ss
      simp only [Set.mem_ofPred_eq, Finset.coe_image, Finset.coe_univ, Set.image_univ, Set.mem_range]
      constructor
      · rintro ⟨dk, h⟩; exact ⟨dk.into_inner, Res.ok.inj h⟩
      · rintro ⟨k, rfl⟩; exact ⟨⟨k⟩, rfl⟩
    have hfib : ∀ b ∈ Finset.univ.image f, (Finset.univ.filter fun k => f k = b).card = 2 := by
      intro b hb
      obtain ⟨k, -, rfl⟩ := Finset.mem_image.1 hb
      have h2 := C73_two_secrets random ⟨k⟩ P hP
      rw [← h2, ← Fintype.card_subtype, ← Nat.card_eq_fintype_card]
      refine Nat.card_congr
        { toFun := fun l => ⟨⟨l.1⟩, congrArg Res.ok l.2⟩
          invFun := fun l => ⟨l.1.into_inner, Res.ok.inj l.2⟩
          left_inv := fun _ => rfl
          right_inv := fun _ => rfl }
    have hsum := Finset.card_eq_sum_card_image f Finset.univ
    rw [Finset.sum_congr rfl hfib, Finset.sum_const, smul_eq_mul, Finset.card_univ] at hsum
    have hcard : Fintype.card (Scalar c) = c.params.n - 1 := by
      have e : Scalar c ≃ Fin (c.params.n - 1) :=
        { toFun := fun k => ⟨k.1 - 1, by have := k.2; omega⟩
          invFun := fun i => ⟨i.1 + 1, by omega, by have := i.2; omega⟩
          left_inv := fun k => Subtype.ext (by have := k.2.1; simp only; omega)
          right_inv := fun i => Fin.ext (by simp) }
      rw [Fintype.card_congr e, Fintype.card_fin]
    rw [hset, Set.ncard_coe_finset]
    omega

/-! ### The hypotheses are satisfiable -/

/-- The published base point is a key as in these theorems, and a secret, 1, decapsulates it to its x-coordinate. -/
example : base c ≠ 0 ∧ ∃ dk : DhDecapsulator (Scalar c), EcdhKem.decapsulate (named c random) dk (base c)
    = .ok (octets c.params.size (c.params.gx : ZMod c.params.p).val) := by
  refine ⟨base_ne_zero c, .from_ ⟨1, Nat.one_pos, by have := n_gt_two c; omega⟩, ?_⟩
  have h : ∀ dk : DhDecapsulator (Scalar c), EcdhKem.decapsulate (named c random) dk (base c)
    = Res.ok (rawSecret c (dk.into_inner.val • base c)) := fun _ => rfl
  rw [h]
  simp only [DhDecapsulator.into_inner, DhDecapsulator.from_, one_nsmul]
  rfl

/-- A secret drawn as one byte of the generator, plus one -/
def drawByte (c : Named) (h : 256 < c.params.n) (rng : Rng) (s : rng.State) : Res (Scalar c × rng.State) := do
  let (b, s) ← rng.fill_bytes 1 s
  .ok (⟨b[0].toNat + 1, by omega, by have := b[0].toNat_lt; omega⟩, s)

/-- Key generation and encapsulation succeed with it. -/
example : ∃ dk ek pk ss,
    EcdhKem.random_keypair (named .p256 (drawByte .p256 (by decide +kernel))) Toy.rng (7 : Nat)
      = .ok ((dk, ek), (8 : Nat)) ∧
    EcdhKem.encapsulate (named .p256 (drawByte .p256 (by decide +kernel))) ek Toy.rng (9 : Nat)
      = .ok ((pk, ss), (10 : Nat)) :=
  ⟨_, _, _, _, rfl, rfl⟩

end Dhkem
