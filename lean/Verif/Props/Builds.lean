import Verif.Props.History
import Verif.Props.XWing
/-! C51: debug builds (overflow panics) and release builds (overflow wraps) behave the same on all platforms. -/
namespace MlKem
open Rust Fips203

variable (S : Sha3) {P : ParameterSet} {p : Params}

/-- The platforms differ, too, in general. -/
example : @Rust.addUsize ⟨true, 16, by decide⟩ 65535 1 = .panic ∧ @Rust.addUsize ⟨false, 16, by decide⟩ 65535 1 = .ok 0 ∧
    @Rust.addUsize ⟨true, 32, by decide⟩ 65535 1 = .ok 65536 := by decide

/-- The two builds do treat an overflow differently. -/
example : @Rust.add UInt8 _ ⟨true, 64, by decide⟩ 200 100 = .panic ∧ @Rust.add UInt8 _ ⟨false, 64, by decide⟩ 200 100 = .ok 44 := by
  decide

theorem generate_build (h : Supported P p) (A B : Build) (d z : B32) :
    @Kem.generate_deterministic A S P d z = @Kem.generate_deterministic B S P d z := by
  obtain rfl := h.eq
  by_cases hs : SeedOk S P.K (seeds S P.toParams d.toList).1
  · rw [@kem_generate_ok A S P h.valid d z hs, @kem_generate_ok B S P h.valid d z hs]
  · rw [@kem_generate_div A S P d z hs, @kem_generate_div B S P d z hs]

theorem generate_rng_build (h : Supported P p) (A B : Build) (rng : Rng) (s : rng.State) :
    @Kem.generate A S P rng s = @Kem.generate B S P rng s := by
  rw [@generate_rng_eq A, @generate_rng_eq B]
  simp only [generate_build S h A B]

theorem ek_from_bytes_build (A B : Build) (b : P.EncodedEncryptionKey) :
    @EncapsulationKey.from_bytes A S P b = @EncapsulationKey.from_bytes B S P b := by
  obtain ⟨t, rho, h1, h2, h3⟩ := @kem_ek_from_bytes A S P b
  obtain ⟨t', rho', h1', h2', h3'⟩ := @kem_ek_from_bytes B S P b
  obtain rfl : t = t' := funext fun i => (h1 i).trans (h1' i).symm
  obtain rfl : rho = rho' := bytes_ext (h2.trans h2'.symm)
  rw [h3, h3']

theorem dk_from_bytes_build (A B : Build) (b : P.EncodedDecapsulationKey) :
    @DecapsulationKey.from_bytes A P b = @DecapsulationKey.from_bytes B P b := by
  obtain ⟨s, t, rho, hh, z, h0, h1, h2, h3, h4, h5⟩ := @kem_dk_from_bytes A P b
  obtain ⟨s', t', rho', hh', z', h0', h1', h2', h3', h4', h5'⟩ := @kem_dk_from_bytes B P b
  obtain rfl : s = s' := funext fun i => (h0 i).trans (h0' i).symm
  obtain rfl : t = t' := funext fun i => (h1 i).trans (h1' i).symm
  obtain rfl : rho = rho' := bytes_ext (h2.trans h2'.symm)
  obtain rfl : hh = hh' := bytes_ext (h3.trans h3'.symm)
  obtain rfl : z = z' := bytes_ext (h4.trans h4'.symm)
  rw [h5, h5']

theorem ek_as_bytes_build (h : Supported P p) (A B : Build) {ek : EncapsulationKey P}
    (hk : @EkHeld A S P ek) :
    @EncapsulationKey.as_bytes A P ek = @EncapsulationKey.as_bytes B P ek := by
  obtain rfl := h.eq
  obtain ⟨t, rho, hh, rfl⟩ := @EkHeld.shape A S P h.valid ek hk
  rw [@kem_ek_as_bytes A, @kem_ek_as_bytes B]

theorem dk_as_bytes_build (h : Supported P p) (A B : Build) {dk : DecapsulationKey P}
    (hk : @DkReach A S P dk) :
    @DecapsulationKey.as_bytes A P dk = @DecapsulationKey.as_bytes B P dk := by
  obtain rfl := h.eq
  obtain ⟨s, t, rho, hh, z, rfl⟩ := @DkReach.shape A S P h.valid dk hk
  rw [@kem_dk_as_bytes A, @kem_dk_as_bytes B]

theorem encaps_build (h : Supported P p) (A B : Build) {ek : EncapsulationKey P}
    (hk : @EkHeld A S P ek) (m : B32) :
    @EncapsulationKey.encapsulate_deterministic A S P ek m
      = @EncapsulationKey.encapsulate_deterministic B S P ek m := by
  obtain rfl := h.eq
  obtain ⟨t, rho, hh, rfl⟩ := @EkHeld.shape A S P h.valid ek hk
  by_cases hs : SeedOk S P.K rho.toList
  · rw [@encaps_ok A S P h.valid t rho hh m hs, @encaps_ok B S P h.valid t rho hh m hs]
  · rw [@encaps_div A S P h.valid t rho hh m hs, @encaps_div B S P h.valid t rho hh m hs]

theorem encaps_rng_build (h : Supported P p) (A B : Build) {ek : EncapsulationKey P}
    (hk : @EkHeld A S P ek) (rng : Rng) (s : rng.State) :
    @EncapsulationKey.encapsulate A S P ek rng s = @EncapsulationKey.encapsulate B S P ek rng s := by
  unfold EncapsulationKey.encapsulate
  have e : ∀ m, @EncapsulationKey.encapsulate_deterministic_inner A S P ek m
      = @EncapsulationKey.encapsulate_deterministic_inner B S P ek m := encaps_build S h A B hk
  simp only [e]

theorem decaps_build (h : Supported P p) (A B : Build) {dk : DecapsulationKey P}
    (hk : @DkReach A S P dk) (c : P.EncodedCiphertext) :
    @DecapsulationKey.decapsulate A S P dk c = @DecapsulationKey.decapsulate B S P dk c := by
  obtain rfl := h.eq
  obtain ⟨s, t, rho, hh, z, rfl⟩ := @DkReach.shape A S P h.valid dk hk
  by_cases hs : SeedOk S P.K rho.toList
  · rw [@decaps_ok A S P h.valid s t rho hh z hs c, @decaps_ok B S P h.valid s t rho hh z hs c]
  · rw [@decaps_div A S P h.valid s t rho hh z hs c, @decaps_div B S P h.valid s t rho hh z hs c]

namespace History
variable {rng : Rng}

theorem step_build (h : Supported P p) (A B : Build) {w : World P rng} {kd ke}
    (hi : @Inv A S P rng w kd ke) (op : Op P) : @step A S P rng w op = @step B S P rng w op := by
  have hdk : ∀ {i : Nat} {dk}, w.dks[i]? = some (some dk) → @DkReach A S P dk := fun hd =>
    @Inv.dk A S P rng w kd ke hi _ (List.mem_of_getElem? ((@Inv.dks A S P rng w kd ke hi).2 _ _ hd))
  have hek : ∀ {i : Nat} {ek}, w.eks[i]? = some (some ek) → @EkHeld A S P ek := fun hd =>
    @Inv.ek A S P rng w kd ke hi _ (List.mem_of_getElem? ((@Inv.eks A S P rng w kd ke hi).2 _ _ hd))
  cases op with
  | generate => simp only [step, generate_rng_build S h A B]
  | generateDet d z => simp only [step, generate_build S h A B]
  | parseDk b => simp only [step, dk_from_bytes_build A B]
  | parseEk b => simp only [step, ek_from_bytes_build S A B]
  | extract i => rfl
  | writeDk i =>
    simp only [step]; split
    · rename_i hd; rw [dk_as_bytes_build S h A B (hdk hd)]
    · rfl
  | writeEk i =>
    simp only [step]; split
    · rename_i hd; rw [ek_as_bytes_build S h A B (hek hd)]
    · rfl
  | encaps i =>
    simp only [step]; split
    · rename_i hd; rw [encaps_rng_build S h A B (hek hd)]
    · rfl
  | encapsDet i m =>
    simp only [step]; split
    · rename_i hd; rw [encaps_build S h A B (hek hd)]
    · rfl
  | decaps i c =>
    simp only [step]; split
    · rename_i hd; rw [decaps_build S h A B (hdk hd)]
    · rfl
  | dropDk i => rfl
  | dropEk i => rfl

/-- **C51** A program that uses the ML-KEM API, whatever it calls and in whatever order, sees the same
results (values, non-termination, no panic) from a debug build as from a release build, and on platforms of every
pointer width. -/
theorem C51_ml_kem (h : Supported P p) (A B : Build) (st : rng.State) (ops : List (Op P)) :
    @run A S P rng (start st) ops = @run B S P rng (start st) ops := by
  suffices ∀ (w : World P rng) kd ke, @Inv A S P rng w kd ke →
      @run A S P rng w ops = @run B S P rng w ops from this _ _ _ (@inv_start A S P rng st)
  induction ops with
  | nil => intro w kd ke _; rfl
  | cons op ops ih =>
    intro w kd ke hi
    simp only [run]
    rw [← step_build S h A B hi op]
    cases h1 : @step A S P rng w op with
    | panic => exact (Res.panic_bind _).trans (Res.panic_bind _).symm
    | div => exact (Res.div_bind _).trans (Res.div_bind _).symm
    | ok r =>
      obtain ⟨w1, o⟩ := r
      obtain ⟨kd', ke', hi', -⟩ := @step_inv A S P rng w w1 op o kd ke hi h1
      rw [Res.ok_bind, Res.ok_bind]
      dsimp only
      rw [ih _ _ _ hi']

end History
end MlKem

namespace XWing
open Rust MlKem Fips203
variable (S : Sha3) (X : X25519)

/-- **C51** The same for every call of X-Wing's API. -/
theorem C51_x_wing (A B : Build) :
    (∀ rng s, @generate_key_pair A S X rng s = @generate_key_pair B S X rng s) ∧
    (∀ sk, @DecapsulationKey.encapsulation_key A S X sk
      = @DecapsulationKey.encapsulation_key B S X sk) ∧
    (∀ b, @EncapsulationKey.from_bytes A S b = @EncapsulationKey.from_bytes B S b) ∧
    (∀ sk ct, @DecapsulationKey.decapsulate A S X sk ct = @DecapsulationKey.decapsulate B S X sk ct) ∧
    (∀ pk, @PkReach A S X pk → @PkReach B S X pk ∧
      @EncapsulationKey.as_bytes A pk = @EncapsulationKey.as_bytes B pk ∧
      ∀ rng s, @EncapsulationKey.encapsulate A S X pk rng s
        = @EncapsulationKey.encapsulate B S X pk rng s) := by
  have hx : ∀ sk, @DecapsulationKey.expand_key A S X sk = @DecapsulationKey.expand_key B S X sk := by
    intro sk
    rw [@expand_key_eq A, @expand_key_eq B, generate_build S supported_768 A B]
  have hpk : ∀ sk, @DecapsulationKey.encapsulation_key A S X sk
      = @DecapsulationKey.encapsulation_key B S X sk := by
    intro sk
    unfold DecapsulationKey.encapsulation_key
    rw [hx]
  have hgen : ∀ rng s, @generate_key_pair A S X rng s = @generate_key_pair B S X rng s := by
    intro rng s
    unfold generate_key_pair
    simp only [hpk]
  have hfrom : ∀ b, @EncapsulationKey.from_bytes A S b = @EncapsulationKey.from_bytes B S b := by
    intro b
    rw [@ek_from_bytes A, @ek_from_bytes B]
    exact congrArg (fun r : Res (MlKem.EncapsulationKey MlKem768Params) => r >>= fun pk_m =>
      Res.ok (EncapsulationKey.mk pk_m (back 1184 32 b))) (ek_from_bytes_build S A B _)
  refine ⟨hgen, hpk, hfrom, ?_, ?_⟩
  · intro sk ct
    unfold DecapsulationKey.decapsulate
    rw [hx]
    have key : ∀ r, @DecapsulationKey.expand_key B S X sk = .ok r →
        @MlKem.DecapsulationKey.decapsulate A S MlKem768Params r.1 ct.ct_m
          = @MlKem.DecapsulationKey.decapsulate B S MlKem768Params r.1 ct.ct_m := by
      rintro ⟨sk_m, sk_x, pk_m, pk_x⟩ he
      rw [@expand_key_eq B, Res.bind_eq_ok] at he
      obtain ⟨⟨sk_m', pk_m'⟩, h1, h2⟩ := he
      simp only [Res.ok.injEq, Prod.mk.injEq] at h2
      obtain ⟨rfl, -, -, -⟩ := h2
      exact decaps_build S supported_768 A B (@DkReach.generated A S _ _ _ _ _
        ((generate_build S supported_768 A B _ _).trans h1)) _
    generalize @DecapsulationKey.expand_key B S X sk = e at key
    cases e with
    | panic => exact (Res.panic_bind _).trans (Res.panic_bind _).symm
    | div => exact (Res.div_bind _).trans (Res.div_bind _).symm
    | ok r =>
      have k := key r rfl
      rw [Res.ok_bind, Res.ok_bind]
      exact congrArg (fun x : Res B32 => x >>= fun ss_m =>
        Res.ok (combiner S ss_m (X.x25519 r.2.1 ct.ct_x) ct.ct_x r.2.2.2)) k
  · intro pk hk
    have he := @PkReach.ek A S X pk hk
    refine ⟨?_, ?_, ?_⟩
    · cases hk with
      | parsed h => exact .parsed ((hfrom _).symm.trans h)
      | derived h => exact .derived ((hpk _).symm.trans h)
      | generated h => exact .generated ((hgen _ _).symm.trans h)
    · have e : @MlKem.EncapsulationKey.as_bytes A MlKem768Params pk.pk_m
          = @MlKem.EncapsulationKey.as_bytes B MlKem768Params pk.pk_m :=
        ek_as_bytes_build S supported_768 A B (@EkHeld.reach A S _ _ he)
      exact congrArg (fun r : Res (Bytes 1184) => r >>= fun b => do
        let buf ← copyIntoRange (List.replicate ENCAPSULATION_KEY_SIZE 0) 0 1184 b.toList
        let buf ← copyIntoRange buf 1184 ENCAPSULATION_KEY_SIZE pk.pk_x.toList
        arrayOfList ENCAPSULATION_KEY_SIZE buf) e
    · intro rng s
      unfold EncapsulationKey.encapsulate
      rw [encaps_rng_build S supported_768 A B (@EkHeld.reach A S _ _ he)]

end XWing
