import Verif.Model.Locals
import Verif.Props.XWing
/-! C95: what calls leave in memory, with the feature `zeroize`. -/
namespace Rust.Locals
variable {α β γ : Type}

theorem run_pure (a : α) (m : Memory) : (pure a : Run α) m = .ok (a, m) := rfl
theorem run_bind (p : Run α) (f : α → Run β) (m : Memory) : (p >>= f) m = (p m >>= fun x => f x.1 x.2) := rfl
theorem run_lift (r : Res α) (m : Memory) : lift r m = (r >>= fun a => .ok (a, m)) := rfl

theorem var_bind [Stored α] (z : Bool) (n : String) (v : α) (f : α → Run β) (m : Memory) :
    (var z n v >>= f) m = f v ⟨⟨n, Stored.bits v, Stored.dropped z v⟩ :: m.frame, m.dead⟩ := rfl
theorem moved_bind (n : String) (f : Unit → Run β) (m : Memory) :
    (moved n >>= f) m = f () ⟨m.frame.eraseP fun s => s.name = n, m.dead⟩ := rfl
theorem erase_bind (n : String) (f : Unit → Run β) (m : Memory) :
    (erase n >>= f) m = f () ⟨update n (fun s =>
      { s with bits := List.replicate s.bits.length 0, dropped := List.replicate s.bits.length 0 }) m.frame, m.dead⟩ := rfl

/-- A computation with local variables returns what the plain one returns, panics and diverges when it does. -/
def Same (p : Run α) (r : Res α) : Prop := ∀ m, (p m >>= fun x => Res.ok x.1) = r

namespace Same

theorem ret (a : α) : Same (Pure.pure a) (.ok a) := fun _ => rfl

theorem lift (r : Res α) : Same (Locals.lift r) r := fun _ => by cases r <;> rfl

theorem seq {p : Run α} {r : Res α} {f : α → Run β} {g : α → Res β} (h : Same p r) (hf : ∀ a, Same (f a) (g a)) :
    Same (p >>= f) (r >>= g) := fun m => by
  rw [run_bind, ← h m]
  cases p m with
  | ok x => exact hf x.1 x.2
  | panic => rfl
  | div => rfl

theorem lift1 {x : Res α} {f : α → Run β} {g : α → Res β} (hf : ∀ a, Same (f a) (g a)) :
    Same (Locals.lift x >>= f) (x >>= g) := seq (lift x) hf

theorem lift2 {x : Res α} {y : α → Res β} {f : β → Run γ} {g : β → Res γ} (hf : ∀ a, Same (f a) (g a)) :
    Same (Locals.lift (x >>= y) >>= f) (x >>= fun a => y a >>= g) := by
  have h := seq (g := g) (lift (x >>= y)) hf
  rwa [bind_assoc] at h

theorem var [Stored α] {z : Bool} {n : String} {v : α} {f : α → Run β} {r : Res β} (h : Same (f v) r) :
    Same (Locals.var z n v >>= f) r := fun _ => h _

theorem assign [Stored α] {z : Bool} {n : String} {v : α} {f : α → Run β} {r : Res β} (h : Same (f v) r) :
    Same (Locals.assign z n v >>= f) r := fun _ => h _

theorem moved {n : String} {f : Unit → Run β} {r : Res β} (h : Same (f ()) r) : Same (Locals.moved n >>= f) r := fun _ => h _

theorem erase {n : String} {f : Unit → Run β} {r : Res β} (h : Same (f ()) r) : Same (Locals.erase n >>= f) r := fun _ => h _

theorem call {fn : String} {p : Run α} {r : Res α} (h : Same p r) : Same (Locals.call fn p) r := fun m => by
  rw [← h { frame := [], dead := m.dead }]
  unfold Locals.call
  cases p { frame := [], dead := m.dead } <;> rfl

theorem of_ok {p : Run α} {r : Res α} (h : Same p r) {m m' : Memory} {a : α} (h1 : p m = .ok (a, m')) : r = .ok a := by
  rw [← h m, h1]
  rfl

end Same

/-- Leaves only what variables of the functions `F` have left. -/
def Within (F : List String) (p : Run α) : Prop := ∀ m a m', p m = .ok (a, m') →
  ∃ L, m'.dead = L ++ m.dead ∧ ∀ r ∈ L, r.fn ∈ F

/-- And no variables in the frame -/
def Inside (F : List String) (p : Run α) : Prop := ∀ m a m', p m = .ok (a, m') →
  ∃ L, m' = ⟨m.frame, L ++ m.dead⟩ ∧ ∀ r ∈ L, r.fn ∈ F

theorem bind_ok {p : Run α} {f : α → Run β} {m : Memory} {b : β} {m' : Memory} (h : (p >>= f) m = .ok (b, m')) :
    ∃ a m1, p m = .ok (a, m1) ∧ f a m1 = .ok (b, m') := by
  obtain ⟨⟨a, m1⟩, h1, h2⟩ := Res.bind_eq_ok.1 h
  exact ⟨a, m1, h1, h2⟩

theorem lift_ok {r : Res α} {f : α → Run β} {m : Memory} {b : β} {m' : Memory} (h : (lift r >>= f) m = .ok (b, m')) :
    ∃ a, r = .ok a ∧ f a m = .ok (b, m') := by
  obtain ⟨a, m1, h1, h2⟩ := bind_ok h
  obtain ⟨a', h3, h4⟩ := Res.bind_eq_ok.1 h1
  obtain ⟨rfl, rfl⟩ := Prod.mk.inj (Res.ok.inj h4)
  exact ⟨_, h3, h2⟩

theorem call_ok {fn : String} {p : Run α} {m : Memory} {a : α} {m' : Memory} (h : call fn p m = .ok (a, m')) :
    ∃ m1, p ⟨[], m.dead⟩ = .ok (a, m1) ∧
      m' = ⟨m.frame, m1.frame.map (fun s => ⟨fn, s.name, s.dropped⟩) ++ m1.dead⟩ := by
  obtain ⟨⟨a', m1⟩, h1, h2⟩ := Res.bind_eq_ok.1 h
  obtain ⟨rfl, rfl⟩ := Prod.mk.inj (Res.ok.inj h2)
  exact ⟨m1, h1, rfl⟩

namespace Within
variable {F : List String}

theorem ret (a : α) : Within F (Pure.pure a) := fun _ _ _ h => by
  obtain ⟨rfl, rfl⟩ := Prod.mk.inj (Res.ok.inj h)
  exact ⟨[], rfl, by simp⟩

theorem lift (r : Res α) : Within F (Locals.lift r) := fun _ _ _ h => by
  obtain ⟨a, -, h⟩ := Res.bind_eq_ok.1 h
  obtain ⟨rfl, rfl⟩ := Prod.mk.inj (Res.ok.inj h)
  exact ⟨[], rfl, by simp⟩

theorem seq {p : Run α} {f : α → Run β} (h : Within F p) (hf : ∀ a, Within F (f a)) : Within F (p >>= f) := fun _ _ _ hb => by
  obtain ⟨a, m1, h1, h2⟩ := bind_ok hb
  obtain ⟨L1, e1, g1⟩ := h _ _ _ h1
  obtain ⟨L2, e2, g2⟩ := hf a _ _ _ h2
  refine ⟨L2 ++ L1, by rw [e2, e1, List.append_assoc], fun r hr => ?_⟩
  exact (List.mem_append.1 hr).elim (g2 r) (g1 r)

theorem lift1 {x : Res α} {f : α → Run β} (hf : ∀ a, Within F (f a)) : Within F (Locals.lift x >>= f) := seq (lift x) hf

theorem var [Stored α] {z : Bool} {n : String} {v : α} {f : α → Run β} (h : Within F (f v)) :
    Within F (Locals.var z n v >>= f) := fun m _ _ hb => h ⟨_ :: m.frame, m.dead⟩ _ _ hb

theorem assign [Stored α] {z : Bool} {n : String} {v : α} {f : α → Run β} (h : Within F (f v)) :
    Within F (Locals.assign z n v >>= f) := fun m _ _ hb => h ⟨update _ _ m.frame, m.dead⟩ _ _ hb

theorem moved {n : String} {f : Unit → Run β} (h : Within F (f ())) : Within F (Locals.moved n >>= f) :=
  fun m _ _ hb => h ⟨m.frame.eraseP _, m.dead⟩ _ _ hb

theorem call {fn : String} {p : Run α} (h : Within F p) (hfn : fn ∈ F) : Inside F (Locals.call fn p) := fun _ _ _ hb => by
  obtain ⟨m1, h1, rfl⟩ := call_ok hb
  obtain ⟨L, e, g⟩ := h _ _ _ h1
  refine ⟨m1.frame.map (fun s => ⟨fn, s.name, s.dropped⟩) ++ L, by rw [e, List.append_assoc], fun r hr => ?_⟩
  rcases List.mem_append.1 hr with hr | hr
  · obtain ⟨s, -, rfl⟩ := List.mem_map.1 hr
    exact hfn
  · exact g r hr

end Within

theorem Inside.within {F : List String} {p : Run α} (h : Inside F p) : Within F p := fun _ _ _ hb => by
  obtain ⟨L, rfl, g⟩ := h _ _ _ hb
  exact ⟨L, rfl, g⟩

theorem Inside.mono {F F' : List String} {p : Run α} (h : Inside F p) (hF : ∀ f ∈ F, f ∈ F') : Inside F' p := fun _ _ _ hb => by
  obtain ⟨L, rfl, g⟩ := h _ _ _ hb
  exact ⟨L, rfl, fun r hr => hF _ (g r hr)⟩

end Rust.Locals

open Rust Rust.Locals

namespace MlKem.Locals
variable [Build] (H : Sha3) (zeroize : Bool) {P : ParameterSet}

theorem same_pke_generate (d : B32) : Same (pke_generate H zeroize P d) (DecryptionKey.generate H P d) := by
  unfold pke_generate DecryptionKey.generate
  exact .call <| .var <| .var <| .lift1 fun _ => .var <| .lift1 fun _ => .var <| .lift1 fun _ => .var <| .lift1 fun _ =>
    .var <| .lift1 fun _ => .var <| .lift2 fun _ => .var <| .moved <| .moved <| .moved <| .ret _

theorem same_pke_decrypt (dk : DecryptionKey P) (c : P.EncodedCiphertext) :
    Same (pke_decrypt zeroize dk c) (dk.decrypt c) := by
  unfold pke_decrypt DecryptionKey.decrypt
  exact .call <| .lift1 fun _ => .var <| .lift1 fun _ => .assign <| .lift1 fun _ => .var <| .lift1 fun _ => .assign <|
    .lift1 fun _ => .var <| .lift2 fun _ => .var <| .lift1 fun _ => .var <| .lift1 fun _ => .assign <| .lift _

theorem same_pke_encrypt (ek : EncryptionKey P) (m r : B32) :
    Same (pke_encrypt H zeroize ek m r) (ek.encrypt H m r) := by
  unfold pke_encrypt EncryptionKey.encrypt
  exact .call <| .lift1 fun _ => .var <| .lift1 fun _ => .var <| .lift1 fun _ => .var <| .lift1 fun _ => .var <|
    .lift1 fun _ => .var <| .lift1 fun _ => .var <| .lift2 fun _ => .var <| .moved <| .moved <| .lift1 fun _ => .var <|
    .lift1 fun _ => .var <| .lift1 fun _ => .assign <| .lift2 fun _ => .var <| .lift2 fun _ => .var <|
    .lift1 fun _ => .assign <| .lift1 fun _ => .var <| .lift1 fun _ => .assign <| .lift1 fun _ => .var <|
    .moved <| .moved <| .ret _

theorem same_inner (ek : EncapsulationKey P) (m : B32) :
    Same (encapsulate_deterministic_inner H zeroize ek m) (ek.encapsulate_deterministic_inner H m) := by
  unfold encapsulate_deterministic_inner EncapsulationKey.encapsulate_deterministic_inner
  exact .call <| .var <| .var <| .seq (same_pke_encrypt _ _ _ _ _) fun _ => .var <| .moved <| .moved <| .ret _

theorem same_encapsulate (ek : EncapsulationKey P) (rng : Rng) (s : rng.State) :
    Same (encapsulate H zeroize ek rng s) (ek.encapsulate H rng s) := by
  unfold encapsulate EncapsulationKey.encapsulate
  exact .call <| .lift1 fun _ => .var <| .seq (same_inner _ _ _ _) fun _ => .ret _

theorem same_decapsulate (dk : DecapsulationKey P) (c : P.EncodedCiphertext) :
    Same (decapsulate H zeroize dk c) (dk.decapsulate H c) := by
  unfold decapsulate DecapsulationKey.decapsulate
  exact .call <| .seq (same_pke_decrypt _ _ _) fun _ => .var <| .var <| .var <| .var <| .seq (same_pke_encrypt _ _ _ _ _) fun _ =>
    .var <| .lift1 fun _ => .var <| .ret _

theorem same_generate_deterministic (d z : B32) :
    Same (generate_deterministic H zeroize P d z) (DecapsulationKey.generate_deterministic H P d z) := by
  unfold generate_deterministic DecapsulationKey.generate_deterministic
  exact .call <| .seq (same_pke_generate _ _ _) fun _ => .lift1 fun _ => .ret _

theorem same_generate (rng : Rng) (s : rng.State) :
    Same (generate H zeroize P rng s) (DecapsulationKey.generate H P rng s) := by
  unfold generate DecapsulationKey.generate
  exact .call <| .lift1 fun _ => .var <| .lift1 fun _ => .var <| .seq (same_generate_deterministic _ _ _ _) fun _ => .ret _

theorem same_kem_generate (rng : Rng) (s : rng.State) :
    Same (kem_generate H zeroize P rng s) (Kem.generate H P rng s) := by
  unfold kem_generate Kem.generate
  exact .seq (same_generate _ _ _ _) fun _ => .ret _

theorem same_kem_generate_deterministic (d z : B32) :
    Same (kem_generate_deterministic H zeroize P d z) (Kem.generate_deterministic H P d z) := by
  unfold kem_generate_deterministic Kem.generate_deterministic
  exact .seq (same_generate_deterministic _ _ _ _) fun _ => .ret _

theorem inside_decrypt (dk : DecryptionKey P) (c : P.EncodedCiphertext) :
    Inside ["DecryptionKey::decrypt"] (pke_decrypt zeroize dk c) := by
  unfold pke_decrypt
  exact Within.call (.lift1 fun _ => .var <| .lift1 fun _ => .assign <| .lift1 fun _ => .var <| .lift1 fun _ => .assign <|
    .lift1 fun _ => .var <| .lift1 fun _ => .var <| .lift1 fun _ => .var <| .lift1 fun _ => .assign <| .lift _) (by simp)

theorem inside_encrypt (ek : EncryptionKey P) (m r : B32) :
    Inside ["EncryptionKey::encrypt"] (pke_encrypt H zeroize ek m r) := by
  unfold pke_encrypt
  exact Within.call (.lift1 fun _ => .var <| .lift1 fun _ => .var <| .lift1 fun _ => .var <| .lift1 fun _ => .var <|
    .lift1 fun _ => .var <| .lift1 fun _ => .var <| .lift1 fun _ => .var <| .moved <| .moved <| .lift1 fun _ => .var <|
    .lift1 fun _ => .var <| .lift1 fun _ => .assign <| .lift1 fun _ => .var <| .lift1 fun _ => .var <|
    .lift1 fun _ => .assign <| .lift1 fun _ => .var <| .lift1 fun _ => .assign <| .lift1 fun _ => .var <|
    .moved <| .moved <| .ret _) (by simp)

/-- Generating a key for encryption leaves the secret and error vectors, and the seed of both. -/
theorem pke_generate_leaves {d : B32} {m m' : Memory} {dk : DecryptionKey P} {ek : EncryptionKey P}
    (h : pke_generate H zeroize P d m = .ok ((dk, ek), m')) :
    ∃ (A : NttMatrix P.K) (s e : PolynomialVector P.K) (e_hat : NttVector P.K),
      PolynomialVector.sample_cbd H P.K P.Eta1 (G H [d.toList, [UInt8.ofNat P.K]]).2 0 = .ok s ∧ s.ntt = .ok dk.s_hat ∧
      e.ntt = .ok e_hat ∧
      m' = ⟨m.frame, [⟨"DecryptionKey::generate", "e_hat", e_hat.bits⟩, ⟨"DecryptionKey::generate", "e", e.bits⟩,
        ⟨"DecryptionKey::generate", "s", s.bits⟩, ⟨"DecryptionKey::generate", "A_hat", Stored.bits A⟩,
        ⟨"DecryptionKey::generate", "sigma", (G H [d.toList, [UInt8.ofNat P.K]]).2.toList⟩] ++ m.dead⟩ := by
  unfold pke_generate at h
  obtain ⟨m1, h1, rfl⟩ := call_ok h
  simp only [var_bind] at h1
  obtain ⟨A, hA, h2⟩ := lift_ok h1
  simp only [var_bind] at h2
  obtain ⟨s, hs, h3⟩ := lift_ok h2
  simp only [var_bind] at h3
  obtain ⟨e, he, h4⟩ := lift_ok h3
  simp only [var_bind] at h4
  obtain ⟨s_hat, hs', h5⟩ := lift_ok h4
  simp only [var_bind] at h5
  obtain ⟨e_hat, he', h6⟩ := lift_ok h5
  simp only [var_bind] at h6
  obtain ⟨t_hat, ht, h7⟩ := lift_ok h6
  simp only [var_bind, moved_bind, run_pure] at h7
  obtain ⟨h8, rfl⟩ := Prod.mk.inj (Res.ok.inj h7)
  obtain ⟨rfl, rfl⟩ := Prod.mk.inj h8
  exact ⟨A, s, e, e_hat, hs, hs', he', by simp [Stored.dropped, Stored.bits, List.eraseP]⟩

omit [Build] in
theorem bytesZeroize_toList {n : Nat} (b : Bytes n) : (bytesZeroize b).toList = List.replicate n 0 := by
  rw [List.eq_replicate_iff]
  simp [bytesZeroize]

omit [Build] in
/-- What the destructor of the ML-KEM key leaves of it -/
theorem drop_bits (dk : DecapsulationKey P) :
    dk.drop.bits = List.replicate (512 * P.K) 0 ++ dk.ek.bits ++ List.replicate 32 0 := by
  obtain ⟨⟨⟨s⟩⟩, ek, z⟩ := dk
  have h1 : NttPolynomial.bits ∘ NttPolynomial.zeroize = fun _ => List.replicate 512 0 := by
    funext f
    have e : (Vector.map FieldElement.zeroize f.coeffs) = Vector.replicate 256 ⟨0⟩ := by
      apply Vector.ext; intro i hi; simp [FieldElement.zeroize]
    simp only [Function.comp, NttPolynomial.bits, NttPolynomial.zeroize, e]
    decide +kernel
  have h2 : (NttVector.zeroize ⟨s⟩ : NttVector P.K).bits = List.replicate (512 * P.K) 0 := by
    have h3 : ∀ l : List NttPolynomial, (l.map NttPolynomial.zeroize).flatMap NttPolynomial.bits =
        List.replicate (512 * l.length) 0 := by
      intro l
      induction l with
      | nil => rfl
      | cons f l ih =>
        rw [List.map_cons, List.flatMap_cons, ih, List.length_cons, Nat.mul_succ, Nat.add_comm, ← List.replicate_append_replicate]
        rw [show (f.zeroize).bits = List.replicate 512 0 from congrFun h1 f]
    have := h3 s.toList
    rw [Vector.length_toList] at this
    rw [← this, ← Vector.toList_map]
    rfl
  unfold DecapsulationKey.drop DecapsulationKey.bits DecryptionKey.zeroize
  rw [h2, bytesZeroize_toList]

theorem inside_generate (d z : B32) :
    Inside ["DecryptionKey::generate"] (kem_generate_deterministic H zeroize P d z) := by
  intro m a m' h
  obtain ⟨dk, m1, h1, h2⟩ := bind_ok h
  obtain ⟨-, rfl⟩ := Prod.mk.inj (Res.ok.inj h2)
  obtain ⟨m2, h3, rfl⟩ := call_ok h1
  obtain ⟨⟨dk', ek'⟩, m3, h4, h5⟩ := bind_ok h3
  obtain ⟨ek, h6, h7⟩ := lift_ok h5
  obtain ⟨-, rfl⟩ := Prod.mk.inj (Res.ok.inj h7)
  obtain ⟨A, s, e, e', -, -, -, rfl⟩ := pke_generate_leaves H zeroize h4
  exact ⟨_, rfl, by simp⟩

/-- **C95** Generating an ML-KEM key leaves the seeds `d` and `z` it was made from, with the feature and without. (And
the variables of the generation from `d` of the key for encryption.) -/
theorem C95_ml_kem_generate {rng : Rng} {s s' : rng.State} {dk : DecapsulationKey P} {ek : EncapsulationKey P} {m m' : Memory}
    (h : kem_generate H zeroize P rng s m = .ok (((dk, ek), s'), m')) :
    ∃ (d z : B32) (s1 : rng.State) (L : List Rest), rand rng 32 s = .ok (d, s1) ∧ rand rng 32 s1 = .ok (z, s') ∧
      Kem.generate_deterministic H P d z = .ok (dk, ek) ∧ (∀ r ∈ L, r.fn = "DecryptionKey::generate") ∧
      m' = ⟨m.frame, [⟨"DecapsulationKey::generate", "z", z.toList⟩, ⟨"DecapsulationKey::generate", "d", d.toList⟩] ++ L
        ++ m.dead⟩ := by
  obtain ⟨⟨dk', s1⟩, m1, h1, h2⟩ := bind_ok h
  obtain ⟨e1, rfl⟩ := Prod.mk.inj (Res.ok.inj h2)
  obtain ⟨e2, rfl⟩ := Prod.mk.inj e1
  obtain ⟨rfl, rfl⟩ := Prod.mk.inj e2
  obtain ⟨m2, h3, rfl⟩ := call_ok h1
  obtain ⟨⟨d, sd⟩, hd, h4⟩ := lift_ok h3
  simp only [var_bind] at h4
  obtain ⟨⟨z, sz⟩, hz, h5⟩ := lift_ok h4
  simp only [var_bind] at h5
  obtain ⟨dk'', m3, h6, h7⟩ := bind_ok h5
  obtain ⟨e3, rfl⟩ := Prod.mk.inj (Res.ok.inj h7)
  obtain ⟨rfl, rfl⟩ := Prod.mk.inj e3
  have h8 : kem_generate_deterministic H zeroize P d z ⟨[⟨"z", Stored.bits z, Stored.dropped zeroize z⟩,
      ⟨"d", Stored.bits d, Stored.dropped zeroize d⟩], m.dead⟩ = .ok ((dk'', dk''.encapsulation_key), m3) := by
    unfold kem_generate_deterministic
    rw [run_bind, h6]
    rfl
  obtain ⟨L, rfl, hL⟩ := inside_generate H zeroize d z _ _ _ h8
  refine ⟨d, z, sd, L, hd, hz, ?_, fun r hr => by simpa using hL r hr, by simp [Stored.dropped]⟩
  rw [← same_kem_generate_deterministic H zeroize d z, h8]
  rfl

/-- **C95** Encapsulating leaves the message, from which the shared key is computed, and the encryption randomness. -/
theorem C95_ml_kem_encapsulate {ek : EncapsulationKey P} {rng : Rng} {s s' : rng.State} {c : P.EncodedCiphertext}
    {K : SharedKey} {m m' : Memory} (h : encapsulate H zeroize ek rng s m = .ok (((c, K), s'), m')) :
    ∃ (msg : B32) (L : List Rest), rand rng 32 s = .ok (msg, s') ∧ K = (G H [msg.toList, ek.h.toList]).1 ∧
      (∀ r ∈ L, r.fn = "EncryptionKey::encrypt") ∧
      m' = ⟨m.frame, [⟨"EncapsulationKey::encapsulate", "m", msg.toList⟩,
        ⟨"EncapsulationKey::encapsulate_deterministic_inner", "r", (G H [msg.toList, ek.h.toList]).2.toList⟩] ++ L
          ++ m.dead⟩ := by
  obtain ⟨m1, h1, rfl⟩ := call_ok h
  obtain ⟨⟨msg, s1⟩, hm, h2⟩ := lift_ok h1
  simp only [var_bind] at h2
  obtain ⟨r, m2, h3, h4⟩ := bind_ok h2
  obtain ⟨e1, rfl⟩ := Prod.mk.inj (Res.ok.inj h4)
  obtain ⟨rfl, rfl⟩ := Prod.mk.inj e1
  obtain ⟨m3, h5, rfl⟩ := call_ok h3
  simp only [var_bind] at h5
  obtain ⟨c', m4, h6, h7⟩ := bind_ok h5
  obtain ⟨L, rfl, hL⟩ := inside_encrypt H zeroize _ _ _ _ _ _ h6
  simp only [var_bind, moved_bind, run_pure] at h7
  obtain ⟨e2, rfl⟩ := Prod.mk.inj (Res.ok.inj h7)
  obtain ⟨rfl, rfl⟩ := Prod.mk.inj e2
  exact ⟨msg, L, hm, rfl, fun r hr => by simpa using hL r hr, by simp [Stored.dropped, List.eraseP]⟩

/-- **C95** Decapsulating leaves the decrypted message, both candidates for the shared key, the randomness, the
re-encryption and the result of the comparison. -/
theorem C95_ml_kem_decapsulate {dk : DecapsulationKey P} {c : P.EncodedCiphertext} {K : SharedKey} {m m' : Memory}
    (h : decapsulate H zeroize dk c m = .ok (K, m')) :
    ∃ (mp : B32) (cp : P.EncodedCiphertext) (equal : UInt8) (L : List Rest), dk.dk_pke.decrypt c = .ok mp ∧
      K = ctSelect equal (G H [mp.toList, dk.ek.h.toList]).1 (J H [dk.z.toList, c.toList]) ∧
      (∀ r ∈ L, r.fn = "EncryptionKey::encrypt" ∨ r.fn = "DecryptionKey::decrypt") ∧
      m' = ⟨m.frame, [⟨"DecapsulationKey::decapsulate", "equal", [equal]⟩,
        ⟨"DecapsulationKey::decapsulate", "cp", cp.toList⟩,
        ⟨"DecapsulationKey::decapsulate", "Kbar", (J H [dk.z.toList, c.toList]).toList⟩,
        ⟨"DecapsulationKey::decapsulate", "rp", (G H [mp.toList, dk.ek.h.toList]).2.toList⟩,
        ⟨"DecapsulationKey::decapsulate", "Kp", (G H [mp.toList, dk.ek.h.toList]).1.toList⟩,
        ⟨"DecapsulationKey::decapsulate", "mp", mp.toList⟩] ++ L ++ m.dead⟩ := by
  obtain ⟨m1, h1, rfl⟩ := call_ok h
  obtain ⟨mp, m2, h2, h3⟩ := bind_ok h1
  have hmp := same_pke_decrypt zeroize dk.dk_pke c ⟨[], m.dead⟩
  rw [h2] at hmp
  obtain ⟨L, rfl, hL⟩ := inside_decrypt zeroize _ _ _ _ _ h2
  simp only [var_bind] at h3
  obtain ⟨cp, m3, h4, h5⟩ := bind_ok h3
  obtain ⟨L', rfl, hL'⟩ := inside_encrypt H zeroize _ _ _ _ _ _ h4
  simp only [var_bind] at h5
  obtain ⟨equal, h6, h7⟩ := lift_ok h5
  simp only [var_bind, run_pure] at h7
  obtain ⟨rfl, rfl⟩ := Prod.mk.inj (Res.ok.inj h7)
  refine ⟨mp, cp, equal, L' ++ L, hmp.symm, rfl, fun r hr => ?_, by simp [Stored.dropped]⟩
  rcases List.mem_append.1 hr with hr | hr
  · exact .inl (by simpa using hL' r hr)
  · exact .inr (by simpa using hL r hr)

theorem inside_decapsulate (dk : DecapsulationKey P) (c : P.EncodedCiphertext) :
    Inside ["DecapsulationKey::decapsulate", "EncryptionKey::encrypt", "DecryptionKey::decrypt"]
      (decapsulate H zeroize dk c) := by
  intro m K m' h
  obtain ⟨mp, cp, equal, L, -, -, hL, rfl⟩ := C95_ml_kem_decapsulate H zeroize h
  refine ⟨_ ++ L, rfl, fun r hr => ?_⟩
  rcases List.mem_append.1 hr with hr | hr
  · simp only [List.mem_cons, List.not_mem_nil, or_false] at hr
    rcases hr with rfl | rfl | rfl | rfl | rfl | rfl <;> exact List.mem_cons_self
  · rcases hL r hr with e | e <;> simp [e]

end MlKem.Locals

namespace XWing.Locals
open MlKem XWingSpec
variable [Build] (H : Sha3) (X : X25519) (zeroize : Bool)

theorem expanded (sk : DecapsulationKey) :
    Same (expand_key H X zeroize sk)
      (sk.expand_key H X >>= fun x => .ok (x.1, StaticSecret.mk x.2.1, x.2.2.1, x.2.2.2)) ∧
    sk.expand_key H X = ((sk.expand_key H X >>= fun x => .ok (x.1, StaticSecret.mk x.2.1, x.2.2.1, x.2.2.2)) >>=
      fun x => .ok (x.1, x.2.1.val, x.2.2.1, x.2.2.2)) := by
  constructor
  · unfold expand_key DecapsulationKey.expand_key
    rw [bind_assoc]
    exact .call <| .var <| .var <| .seq (MlKem.Locals.same_kem_generate_deterministic _ _ _ _) fun _ => .var <| .var <|
      .var <| .var <| .var <| .moved <| .moved <| .moved <| .ret _
  · cases sk.expand_key H X <;> rfl

theorem same_decapsulate (sk : DecapsulationKey) (ct : Ciphertext) :
    Same (decapsulate H X zeroize sk ct) (sk.decapsulate H X ct) := by
  unfold decapsulate DecapsulationKey.decapsulate
  have h := expanded H X zeroize sk
  refine .call ?_
  rw [h.2]
  rw [bind_assoc]
  refine .seq h.1 ?_
  rintro ⟨sk_m, sk_x, pk_m, pk_x⟩
  rw [Res.ok_bind]
  refine .var <| .var <| .var <| .var ?_
  refine .seq (MlKem.Locals.same_decapsulate H zeroize sk_m ct.ct_m) ?_
  intro ss_m
  refine .var <| .var <| .var ?_
  cases zeroize
  · exact .ret _
  · exact .var <| .erase <| .ret _

theorem same_encapsulate (ek : EncapsulationKey) (rng : Rng) (s : rng.State) :
    Same (encapsulate H X zeroize ek rng s) (ek.encapsulate H X rng s) := by
  unfold encapsulate EncapsulationKey.encapsulate
  refine .call <| .seq (MlKem.Locals.same_encapsulate _ _ _ _ _) fun _ => .var <| .var <| .lift1 fun _ => .var <| .var <|
    .var <| .var ?_
  cases zeroize
  · exact .moved <| .ret _
  · exact .var <| .erase <| .moved <| .ret _

theorem same_encapsulation_key (sk : DecapsulationKey) :
    Same (encapsulation_key H X zeroize sk) (sk.encapsulation_key H X) := by
  unfold encapsulation_key DecapsulationKey.encapsulation_key
  have h := expanded H X zeroize sk
  rw [h.2, bind_assoc]
  exact .call <| .seq h.1 fun _ => .var <| .var <| .var <| .var <| .moved <| .ret _

omit [Build] in
theorem same_generate (rng : Rng) (s : rng.State) :
    Same (generate zeroize rng s) (DecapsulationKey.generate rng s) := by
  unfold generate DecapsulationKey.generate
  exact .call <| .lift1 fun _ => .var <| .ret _

theorem same_generate_key_pair (rng : Rng) (s : rng.State) :
    Same (generate_key_pair H X zeroize rng s) (XWing.generate_key_pair H X rng s) := by
  unfold generate_key_pair XWing.generate_key_pair
  exact .call <| .seq (same_generate _ _ _) fun _ => .var <| .seq (same_encapsulation_key _ _ _ _) fun _ => .moved <| .ret _

/-- What `expand_key` leaves: all that it reads out of the secret key -/
theorem expand_key_leaves {sk : DecapsulationKey} {sk_m : MlKem.DecapsulationKey MlKem768Params} {sk_x : StaticSecret}
    {pk_m : MlKem.EncapsulationKey MlKem768Params} {pk_x : Bytes 32} {m m' : Memory}
    (h : expand_key H X zeroize sk m = .ok ((sk_m, sk_x, pk_m, pk_x), m')) :
    ∃ L : List Rest, Kem.generate_deterministic H MlKem768Params (seedD H sk.sk.toList) (seedZ H sk.sk.toList)
        = .ok (sk_m, pk_m) ∧
      sk_x.val = secretX H sk.sk.toList ∧ pk_x = X.publicKey (secretX H sk.sk.toList) ∧
      (∀ r ∈ L, r.fn = "DecryptionKey::generate") ∧
      m' = ⟨m.frame, [⟨"expand_key", "pk_x", pk_x.toList⟩,
        ⟨"expand_key", "sk_x", (secretX H sk.sk.toList).toList⟩,
        ⟨"expand_key", "z", (seedZ H sk.sk.toList).toList⟩,
        ⟨"expand_key", "d", (seedD H sk.sk.toList).toList⟩] ++ L ++ m.dead⟩ := by
  unfold seedD seedZ secretX
  rw [slice_expand H _ (by omega), slice_expand H _ (by omega), slice_expand H _ (by omega)]
  obtain ⟨m1, h1, rfl⟩ := call_ok h
  simp only [hashUpdate, read_from, read_chunks, List.nil_append, var_bind] at h1
  obtain ⟨⟨sk_m', pk_m'⟩, m2, h2, h3⟩ := bind_ok h1
  have hs := Same.of_ok (MlKem.Locals.same_kem_generate_deterministic H zeroize _ _) h2
  obtain ⟨L, rfl, hL⟩ := MlKem.Locals.inside_generate H zeroize _ _ _ _ _ h2
  simp only [var_bind, moved_bind, run_pure] at h3
  obtain ⟨e1, rfl⟩ := Prod.mk.inj (Res.ok.inj h3)
  obtain ⟨rfl, e2⟩ := Prod.mk.inj e1
  obtain ⟨rfl, e3⟩ := Prod.mk.inj e2
  obtain ⟨rfl, rfl⟩ := Prod.mk.inj e3
  refine ⟨L, hs, rfl, rfl, fun r hr => by simpa using hL r hr, ?_⟩
  simp [Stored.dropped, List.eraseP]

/-- **C95** With the feature `zeroize`, one decapsulation leaves the following, from the variable declared last to the
first. Zeros are in the copy of `ss_x`, in the object of type `StaticSecret` and in the secret parts of the ML-KEM key. All
else holds what it held: the two shared secrets that are combined, the combination and, in the arrays that the key was
expanded into, the seeds `d` and `z` of the ML-KEM key and the X25519 secret key. -/
theorem C95_xwing_decapsulate {sk : DecapsulationKey} {ct : Ciphertext} {ss : SharedSecret} {m m' : Memory}
    (h : decapsulate H X true sk ct m = .ok (ss, m')) :
    ∃ (sk_m : MlKem.DecapsulationKey MlKem768Params) (pk_m : MlKem.EncapsulationKey MlKem768Params) (ss_m : B32)
      (L1 L2 : List Rest),
      Kem.generate_deterministic H MlKem768Params (seedD H sk.sk.toList) (seedZ H sk.sk.toList) = .ok (sk_m, pk_m) ∧
      sk_m.decapsulate H ct.ct_m = .ok ss_m ∧
      (∀ r ∈ L1, r.fn ∈ ["DecapsulationKey::decapsulate", "EncryptionKey::encrypt", "DecryptionKey::decrypt"]) ∧
      (∀ r ∈ L2, r.fn = "DecryptionKey::generate") ∧
      m' = ⟨m.frame, [⟨"decapsulate", "ss_x", List.replicate 32 0⟩,
        ⟨"decapsulate", "ss", ss.toList⟩,
        ⟨"decapsulate", "ss_x", (X.x25519 (secretX H sk.sk.toList) ct.ct_x).toList⟩,
        ⟨"decapsulate", "ss_m", ss_m.toList⟩,
        ⟨"decapsulate", "pk_x", (X.publicKey (secretX H sk.sk.toList)).toList⟩,
        ⟨"decapsulate", "_pk_m", pk_m.bits⟩,
        ⟨"decapsulate", "sk_x", List.replicate 32 0⟩,
        ⟨"decapsulate", "sk_m", List.replicate 1536 0 ++ pk_m.bits ++ List.replicate 32 0⟩] ++ L1 ++
        [⟨"expand_key", "pk_x", (X.publicKey (secretX H sk.sk.toList)).toList⟩,
        ⟨"expand_key", "sk_x", (secretX H sk.sk.toList).toList⟩,
        ⟨"expand_key", "z", (seedZ H sk.sk.toList).toList⟩,
        ⟨"expand_key", "d", (seedD H sk.sk.toList).toList⟩] ++ L2 ++ m.dead⟩ := by
  obtain ⟨m1, h1, rfl⟩ := call_ok h
  obtain ⟨⟨sk_m, sk_x, pk_m, pk_x⟩, m2, h2, h3⟩ := bind_ok h1
  obtain ⟨L2, hg, hx, rfl, hL2, rfl⟩ := expand_key_leaves H X true h2
  simp only [var_bind] at h3
  obtain ⟨ss_m, m3, h4, h5⟩ := bind_ok h3
  have hs := Same.of_ok (MlKem.Locals.same_decapsulate H true _ _) h4
  obtain ⟨L1, rfl, hL1⟩ := MlKem.Locals.inside_decapsulate H true _ _ _ _ _ h4
  simp only [var_bind, if_true, erase_bind, run_pure] at h5
  obtain ⟨rfl, rfl⟩ := Prod.mk.inj (Res.ok.inj h5)
  have hek : sk_m.ek = pk_m := by
    unfold Kem.generate_deterministic at hg
    obtain ⟨dk, -, e⟩ := Res.bind_eq_ok.1 hg
    obtain ⟨rfl, rfl⟩ := Prod.mk.inj (Res.ok.inj e)
    rfl
  refine ⟨sk_m, pk_m, ss_m, L1, L2, hg, hs, hL1, hL2, ?_⟩
  have hz : Stored.dropped true sk_x = List.replicate 32 0 := MlKem.Locals.bytesZeroize_toList _
  have hd : Stored.dropped true sk_m = List.replicate 1536 0 ++ pk_m.bits ++ List.replicate 32 0 := by
    rw [← hek]
    exact MlKem.Locals.drop_bits sk_m
  have hu : ∀ b : Bytes 32, List.replicate (Stored.bits b).length (0 : UInt8) = List.replicate 32 0 := fun b => by
    rw [show (Stored.bits b).length = 32 from Vector.length_toList]
  simp only [update, if_true, hu, List.map_cons, List.map_nil, hz, hd, hx, List.append_assoc]
  rfl

omit [Build] in
theorem find_expanded {pre L : List Rest} (x s z d : List UInt8) (h : ∀ r ∈ pre, r.fn ≠ "expand_key") :
    ∀ p ∈ [("sk_x", s), ("z", z), ("d", d)],
      List.find? (fun r : Rest => r.fn = "expand_key" && r.name = p.1)
        (pre ++ [⟨"expand_key", "pk_x", x⟩, ⟨"expand_key", "sk_x", s⟩, ⟨"expand_key", "z", z⟩, ⟨"expand_key", "d", d⟩] ++ L)
          = some ⟨"expand_key", p.1, p.2⟩ := by
  have none : ∀ name, pre.find? (fun r => r.fn = "expand_key" && r.name = name) = none := by
    intro name
    rw [List.find?_eq_none]
    intro r hr
    simp [h r hr]
  simp [List.find?_append, none]

/-- **C95** And that is enough to decapsulate everything else: from what one decapsulation has left one can compute,
without the key, what the key makes of any other ciphertext. -/
theorem C95_xwing_recover : ∃ recover : List Rest → Ciphertext → Res SharedSecret,
    ∀ (sk : DecapsulationKey) (ct : Ciphertext) (ss : SharedSecret) (m m' : Memory),
      decapsulate H X true sk ct m = .ok (ss, m') → ∀ ct', recover m'.dead ct' = sk.decapsulate H X ct' := by
  let get : String → List Rest → Bytes 32 := fun name dead =>
    slice32 (((dead.find? fun r => r.fn = "expand_key" && r.name = name).map Rest.bits).getD []) 0
  have slice_self : ∀ b : Bytes 32, slice32 b.toList 0 = b := by
    intro b
    apply Vector.ext
    intro i hi
    simp only [slice32, Vector.getElem_ofFn, Nat.zero_add, List.getD_eq_getElem?_getD]
    rw [List.getElem?_eq_getElem (by simpa using hi), Option.getD_some, Vector.getElem_toList]
  refine ⟨fun dead ct' => do
    let (sk_m, _) ← Kem.generate_deterministic H MlKem768Params (get "d" dead) (get "z" dead)
    let ss_m ← sk_m.decapsulate H ct'.ct_m
    .ok (combiner H ss_m (X.x25519 (get "sk_x" dead) ct'.ct_x) ct'.ct_x (X.publicKey (get "sk_x" dead))),
    fun sk ct ss m m' h ct' => ?_⟩
  obtain ⟨sk_m, pk_m, ss_m, L1, L2, hg, -, hL1, -, hm'⟩ := C95_xwing_decapsulate H X h
  have hpre : ∀ r ∈ [Rest.mk "decapsulate" "ss_x" (List.replicate 32 0), ⟨"decapsulate", "ss", ss.toList⟩,
      ⟨"decapsulate", "ss_x", (X.x25519 (secretX H sk.sk.toList) ct.ct_x).toList⟩, ⟨"decapsulate", "ss_m", ss_m.toList⟩,
      ⟨"decapsulate", "pk_x", (X.publicKey (secretX H sk.sk.toList)).toList⟩, ⟨"decapsulate", "_pk_m", pk_m.bits⟩,
      ⟨"decapsulate", "sk_x", List.replicate 32 0⟩,
      ⟨"decapsulate", "sk_m", List.replicate 1536 0 ++ pk_m.bits ++ List.replicate 32 0⟩] ++ L1, r.fn ≠ "expand_key" := by
    intro r hr
    rcases List.mem_append.1 hr with hr | hr
    · simp only [List.mem_cons, List.not_mem_nil, or_false] at hr
      rcases hr with rfl | rfl | rfl | rfl | rfl | rfl | rfl | rfl <;> simp only [ne_eq, String.reduceEq, not_false_eq_true]
    · have := hL1 r hr
      simp only [List.mem_cons, List.not_mem_nil, or_false] at this
      rcases this with e | e | e <;> simp [e]
  have hfind := find_expanded (L := L2 ++ m.dead) (X.publicKey (secretX H sk.sk.toList)).toList
    (secretX H sk.sk.toList).toList (seedZ H sk.sk.toList).toList (seedD H sk.sk.toList).toList hpre
  rw [← List.append_assoc] at hfind
  have hdead := congrArg Memory.dead hm'
  dsimp only at hdead
  rw [← hdead] at hfind
  have hget : get "d" m'.dead = seedD H sk.sk.toList ∧ get "z" m'.dead = seedZ H sk.sk.toList ∧
      get "sk_x" m'.dead = secretX H sk.sk.toList := by
    dsimp only [get]
    have h1 := hfind ("d", (seedD H sk.sk.toList).toList) (by simp)
    have h2 := hfind ("z", (seedZ H sk.sk.toList).toList) (by simp)
    have h3 := hfind ("sk_x", (secretX H sk.sk.toList).toList) (by simp)
    dsimp only at h1 h2 h3
    rw [h1, h2, h3]
    simp only [Option.map_some, Option.getD_some, slice_self, and_self]
  dsimp only
  rw [hget.1, hget.2.1, hget.2.2]
  unfold DecapsulationKey.decapsulate
  rw [expand_key_eq, hg]
  simp only [Res.ok_bind]

/-- **C95** With the feature `zeroize`, one encapsulation leaves both secrets that are combined, their combination, the
X25519 secret key made for it and the message that was encrypted to the ML-KEM key. -/
theorem C95_xwing_encapsulate {ek : EncapsulationKey} {rng : Rng} {s s' : rng.State} {ct : Ciphertext} {ss : SharedSecret}
    {m m' : Memory} (h : encapsulate H X true ek rng s m = .ok (((ct, ss), s'), m')) :
    ∃ (msg : B32) (s1 : rng.State) (ek_x : Bytes 32) (L : List Rest),
      rand rng 32 s = .ok (msg, s1) ∧ XWing.generate rng 32 s1 = .ok (ek_x, s') ∧
      (∀ r ∈ L, r.fn = "EncryptionKey::encrypt") ∧
      m' = ⟨m.frame, [⟨"encapsulate", "ss_x", List.replicate 32 0⟩,
        ⟨"encapsulate", "ss", ss.toList⟩,
        ⟨"encapsulate", "ss_x", (X.x25519 ek_x ek.pk_x).toList⟩,
        ⟨"encapsulate", "ct_x", ct.ct_x.toList⟩,
        ⟨"encapsulate", "ek_x", ek_x.toList⟩,
        ⟨"encapsulate", "ss_m", (G H [msg.toList, ek.pk_m.h.toList]).1.toList⟩,
        ⟨"EncapsulationKey::encapsulate", "m", msg.toList⟩,
        ⟨"EncapsulationKey::encapsulate_deterministic_inner", "r", (G H [msg.toList, ek.pk_m.h.toList]).2.toList⟩] ++ L
          ++ m.dead⟩ := by
  obtain ⟨m1, h1, rfl⟩ := call_ok h
  obtain ⟨⟨⟨ct_m, ss_m⟩, s1⟩, m2, h2, h3⟩ := bind_ok h1
  obtain ⟨msg, L, hm, rfl, hL, rfl⟩ := MlKem.Locals.C95_ml_kem_encapsulate H true h2
  replace h3 := (var_bind true "ct_m" (ct_m : Bytes 1088) _ _).symm.trans h3
  simp only [var_bind] at h3
  obtain ⟨⟨ek_x, s2⟩, hx, h4⟩ := lift_ok h3
  simp only [var_bind, if_true, erase_bind, moved_bind, run_pure] at h4
  obtain ⟨e1, rfl⟩ := Prod.mk.inj (Res.ok.inj h4)
  obtain ⟨e2, rfl⟩ := Prod.mk.inj e1
  obtain ⟨rfl, rfl⟩ := Prod.mk.inj e2
  have hu : ∀ b : Bytes 32, List.replicate (Stored.bits b).length (0 : UInt8) = List.replicate 32 0 := fun b => by
    rw [show (Stored.bits b).length = 32 from Vector.length_toList]
  refine ⟨msg, s1, ek_x, L, hm, hx, hL, ?_⟩
  simp [update, hu, List.eraseP, Stored.dropped, -List.reduceReplicate]

/-- **C95** Generating a key leaves the key, in the array that was copied into it, and all that it was expanded into. -/
theorem C95_xwing_generate {rng : Rng} {s s' : rng.State} {sk : DecapsulationKey} {pk : EncapsulationKey} {m m' : Memory}
    (h : generate_key_pair H X true rng s m = .ok (((sk, pk), s'), m')) :
    ∃ L : List Rest, (∀ r ∈ L, r.fn = "DecryptionKey::generate") ∧
      m' = ⟨m.frame, [⟨"encapsulation_key", "pk_x", pk.pk_x.toList⟩,
        ⟨"encapsulation_key", "_sk_x", List.replicate 32 0⟩,
        ⟨"encapsulation_key", "_sk_m", List.replicate 1536 0 ++ pk.pk_m.bits ++ List.replicate 32 0⟩,
        ⟨"expand_key", "pk_x", pk.pk_x.toList⟩,
        ⟨"expand_key", "sk_x", (secretX H sk.sk.toList).toList⟩,
        ⟨"expand_key", "z", (seedZ H sk.sk.toList).toList⟩,
        ⟨"expand_key", "d", (seedD H sk.sk.toList).toList⟩] ++ L ++
        [⟨"DecapsulationKey::generate", "sk", sk.sk.toList⟩] ++ m.dead⟩ := by
  obtain ⟨m1, h1, rfl⟩ := call_ok h
  obtain ⟨⟨sk', s1⟩, m2, h2, h3⟩ := bind_ok h1
  obtain ⟨m3, h4, rfl⟩ := call_ok h2
  obtain ⟨⟨b, s2⟩, hb, h5⟩ := lift_ok h4
  simp only [var_bind, run_pure] at h5
  obtain ⟨e1, rfl⟩ := Prod.mk.inj (Res.ok.inj h5)
  obtain ⟨rfl, rfl⟩ := Prod.mk.inj e1
  simp only [var_bind] at h3
  obtain ⟨pk', m4, h6, h7⟩ := bind_ok h3
  obtain ⟨m5, h8, rfl⟩ := call_ok h6
  obtain ⟨⟨sk_m, sk_x, pk_m, pk_x⟩, m6, h9, h10⟩ := bind_ok h8
  obtain ⟨L, hg, hx, rfl, hL, rfl⟩ := expand_key_leaves H X true h9
  simp only [var_bind, moved_bind, run_pure] at h10
  obtain ⟨rfl, rfl⟩ := Prod.mk.inj (Res.ok.inj h10)
  simp only [moved_bind, run_pure] at h7
  obtain ⟨e2, rfl⟩ := Prod.mk.inj (Res.ok.inj h7)
  obtain ⟨e3, rfl⟩ := Prod.mk.inj e2
  obtain ⟨rfl, rfl⟩ := Prod.mk.inj e3
  have hek : sk_m.ek = pk_m := by
    unfold Kem.generate_deterministic at hg
    obtain ⟨dk, -, e⟩ := Res.bind_eq_ok.1 hg
    obtain ⟨rfl, rfl⟩ := Prod.mk.inj (Res.ok.inj e)
    rfl
  have hz : Stored.dropped true sk_x = List.replicate 32 0 := MlKem.Locals.bytesZeroize_toList _
  have hd : Stored.dropped true sk_m = List.replicate 1536 0 ++ pk_m.bits ++ List.replicate 32 0 := by
    rw [← hek]
    exact MlKem.Locals.drop_bits sk_m
  refine ⟨L, hL, ?_⟩
  simp only [List.eraseP, decide_true, cond_true, List.map_cons, hz, hd,
    List.append_assoc]
  rfl

/-- **C95** The functions with local variables return what the functions of the model return (and panic and diverge when
those do), whatever is in memory: with the feature and without. -/
theorem C95_same :
    (∀ (P : ParameterSet) (rng : Rng) (s : rng.State) (m : Memory),
      (MlKem.Locals.kem_generate H zeroize P rng s m >>= fun x => Res.ok x.1) = Kem.generate H P rng s) ∧
    (∀ (P : ParameterSet) (d z : B32) (m : Memory),
      (MlKem.Locals.kem_generate_deterministic H zeroize P d z m >>= fun x => Res.ok x.1) =
        Kem.generate_deterministic H P d z) ∧
    (∀ (P : ParameterSet) (ek : MlKem.EncapsulationKey P) (rng : Rng) (s : rng.State) (m : Memory),
      (MlKem.Locals.encapsulate H zeroize ek rng s m >>= fun x => Res.ok x.1) = ek.encapsulate H rng s) ∧
    (∀ (P : ParameterSet) (dk : MlKem.DecapsulationKey P) (c : P.EncodedCiphertext) (m : Memory),
      (MlKem.Locals.decapsulate H zeroize dk c m >>= fun x => Res.ok x.1) = dk.decapsulate H c) ∧
    (∀ (rng : Rng) (s : rng.State) (m : Memory),
      (generate_key_pair H X zeroize rng s m >>= fun x => Res.ok x.1) = XWing.generate_key_pair H X rng s) ∧
    (∀ (ek : EncapsulationKey) (rng : Rng) (s : rng.State) (m : Memory),
      (encapsulate H X zeroize ek rng s m >>= fun x => Res.ok x.1) = ek.encapsulate H X rng s) ∧
    (∀ (sk : DecapsulationKey) (ct : Ciphertext) (m : Memory),
      (decapsulate H X zeroize sk ct m >>= fun x => Res.ok x.1) = sk.decapsulate H X ct) ∧
    (∀ (sk : DecapsulationKey) (m : Memory),
      (encapsulation_key H X zeroize sk m >>= fun x => Res.ok x.1) = sk.encapsulation_key H X) :=
  ⟨fun _ => MlKem.Locals.same_kem_generate H zeroize, fun _ => MlKem.Locals.same_kem_generate_deterministic H zeroize,
    fun _ => MlKem.Locals.same_encapsulate H zeroize, fun _ => MlKem.Locals.same_decapsulate H zeroize,
    same_generate_key_pair H X zeroize, same_encapsulate H X zeroize, same_decapsulate H X zeroize,
    same_encapsulation_key H X zeroize⟩

end XWing.Locals

namespace XWing.Locals
open MlKem
variable [Build]

omit [Build] in
theorem of_same {α : Type} {p : Run α} {a : α} (h : Same p (.ok a)) (m : Memory) : ∃ m', p m = .ok (a, m') := by
  obtain ⟨⟨b, m'⟩, h1, h2⟩ := Res.bind_eq_ok.1 (h m)
  obtain rfl := Res.ok.inj h2
  exact ⟨m', h1⟩

/-- With the toy primitives all keys can be generated, used to encapsulate and to decapsulate, from any state of the
generator; so all theorems above apply. -/
example (s t : Nat) (m : Memory) : ∃ sk pk s' ct ss t' m1 m2 m3,
    generate_key_pair Toy.S toyX true Toy.rng s m = .ok (((sk, pk), s'), m1) ∧
    encapsulate Toy.S toyX true pk Toy.rng t m1 = .ok (((ct, ss), t'), m2) ∧
    decapsulate Toy.S toyX true sk ct m2 = .ok (ss, m3) := by
  obtain ⟨pk, b, h1, -⟩ := C38_keygen Toy.S toyX toyX_base
    (DecapsulationKey.from_bytes (Vector.ofFn fun i => UInt8.ofNat (s + i.val))) (Toy.seedOk _ _)
  have hgen := ((C40_randomness Toy.S toyX Toy.rng s).1 _).2 ⟨_, s + 1, pk, rfl, h1, rfl⟩
  obtain ⟨pb, -, h3⟩ := C38_encaps Toy.S toyX (.derived h1) (rng := Toy.rng) (s := t) rfl rfl
  obtain ⟨ct, ss, -, h4, -⟩ := h3 (Toy.seedOk _ _)
  obtain ⟨msg, t1, -, h5⟩ := C37_agree Toy.S toyX toyX_base toyX_comm hgen h4
  have h6 := h5 (Toy.noiseOk (by simp) _ _ _)
  obtain ⟨m1, g1⟩ := of_same (hgen ▸ same_generate_key_pair Toy.S toyX true Toy.rng s) m
  obtain ⟨m2, g2⟩ := of_same (h4 ▸ same_encapsulate Toy.S toyX true pk Toy.rng t) m1
  obtain ⟨m3, g3⟩ := of_same (h6 ▸ same_decapsulate Toy.S toyX true _ ct) m2
  exact ⟨_, pk, _, ct, ss, _, m1, m2, m3, g1, g2, g3⟩

/-- And ML-KEM keys can be generated. -/
example (s : Nat) (m : Memory) : ∃ dk ek s' m',
    MlKem.Locals.kem_generate Toy.S true MlKem512Params Toy.rng s m = .ok (((dk, ek), s'), m') := by
  obtain ⟨dk, ek, -, -, h1, -⟩ := C01_keygen_is_fips203 Toy.S supported_512
    (Vector.ofFn fun i => UInt8.ofNat (s + i.val)) (Vector.ofFn fun i => UInt8.ofNat (s + 1 + i.val)) (Toy.seedOk _ _)
  have h2 := (((C19_generate_randomness Toy.S MlKem512Params Toy.rng s).1 _ _ _ _ rfl rfl).1 _).2 ⟨_, h1, rfl⟩
  obtain ⟨m', g⟩ := of_same (h2 ▸ MlKem.Locals.same_kem_generate Toy.S true Toy.rng s) m
  exact ⟨dk, ek, _, m', g⟩

end XWing.Locals
