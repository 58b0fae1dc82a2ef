import Verif.Model.DhkemLocals
import Verif.Props.Locals
import Verif.Props.X25519
/-! C95 for the Diffie-Hellman adapters: which features erase what. -/
namespace Cargo

/-- What is on in a set that only its own members can turn on was asked for in that set. -/
theorem On.from {asked L : List Feature} (hc : ∀ e ∈ table, ∀ g ∈ e.2, g ∈ L → e.1 ∈ L) {f : Feature} (h : On asked f)
    (hf : f ∈ L) : ∃ a ∈ asked, a ∈ L := by
  induction h with
  | asked h => exact ⟨_, h, hf⟩
  | step _ hl hg ih => exact ih (hc _ hl _ hg hf)

theorem turned_on {asked : List Feature} {f g : Feature} (h : f ∈ asked) (he : ∃ e ∈ table, e.1 = f ∧ g ∈ e.2) :
    On asked g := by
  obtain ⟨e, he, rfl, hg⟩ := he
  exact .step (.asked h) he hg

/-- **C95** Whatever is asked of the three crates, x25519-dalek erases its secrets only if the feature `zeroize` of
x-wing is asked for. The feature `zeroize` of dhkem, which is on by default, does not do it. ML-KEM's feature `zeroize` is
on if asked for, there or in x-wing. And every build with x-wing in it makes ML-KEM's deterministic functions public. -/
theorem C95_features {asked : List Feature} (ha : ∀ f ∈ asked, f ∈ workspace) :
    (On asked ⟨"x25519-dalek", "zeroize"⟩ ↔ ⟨"x-wing", "zeroize"⟩ ∈ asked) ∧
    (On asked ⟨"dhkem", "zeroize"⟩ ↔ ⟨"dhkem", "zeroize"⟩ ∈ asked ∨ ⟨"dhkem", "default"⟩ ∈ asked) ∧
    (On asked ⟨"ml-kem", "zeroize"⟩ ↔ ⟨"ml-kem", "zeroize"⟩ ∈ asked ∨ ⟨"x-wing", "zeroize"⟩ ∈ asked) ∧
    (On asked ⟨"ml-kem", "deterministic"⟩ ↔ ⟨"ml-kem", "deterministic"⟩ ∈ asked ∨ ∃ f ∈ asked, f.crate = "x-wing") := by
  refine ⟨⟨fun h => ?_, fun h => ?_⟩, ⟨fun h => ?_, fun h => ?_⟩, ⟨fun h => ?_, fun h => ?_⟩, ⟨fun h => ?_, fun h => ?_⟩⟩
  · obtain ⟨a, h1, h2⟩ := h.from (L := [⟨"x-wing", "zeroize"⟩, ⟨"x25519-dalek", "zeroize"⟩, ⟨"x25519-dalek", "default"⟩])
      (by decide +kernel) (by decide +kernel)
    exact (show ∀ a ∈ workspace, _ → a = ⟨"x-wing", "zeroize"⟩ by decide +kernel) a (ha a h1) h2 ▸ h1
  · exact turned_on h (by decide +kernel)
  · obtain ⟨a, h1, h2⟩ := h.from (L := [⟨"dhkem", "zeroize"⟩, ⟨"dhkem", "default"⟩]) (by decide +kernel) (by decide +kernel)
    simp only [List.mem_cons, List.not_mem_nil, or_false] at h2
    rcases h2 with rfl | rfl
    · exact .inl h1
    · exact .inr h1
  · rcases h with h | h
    · exact .asked h
    · exact turned_on h (by decide +kernel)
  · obtain ⟨a, h1, h2⟩ := h.from (L := [⟨"ml-kem", "zeroize"⟩, ⟨"x-wing", "zeroize"⟩]) (by decide +kernel) (by decide +kernel)
    simp only [List.mem_cons, List.not_mem_nil, or_false] at h2
    rcases h2 with rfl | rfl
    · exact .inl h1
    · exact .inr h1
  · rcases h with h | h
    · exact .asked h
    · exact turned_on h (by decide +kernel)
  · obtain ⟨a, h1, h2⟩ := h.from (L := [⟨"ml-kem", "deterministic"⟩, ⟨"x-wing", ""⟩, ⟨"x-wing", "getrandom"⟩,
      ⟨"x-wing", "zeroize"⟩]) (by decide +kernel) (by decide +kernel)
    rcases List.mem_cons.1 h2 with h2 | h2
    · exact .inl (h2 ▸ h1)
    · exact .inr ⟨a, h1, (show ∀ a ∈ ([⟨"x-wing", ""⟩, ⟨"x-wing", "getrandom"⟩, ⟨"x-wing", "zeroize"⟩] : List Feature),
        a.crate = "x-wing" by decide +kernel) a h2⟩
  · rcases h with h | ⟨a, h, hx⟩
    · exact .asked h
    · have hm := (show ∀ a ∈ workspace, a.crate = "x-wing" → a = ⟨"x-wing", ""⟩ ∨
        ∃ e ∈ table, e.1 = a ∧ (⟨"x-wing", ""⟩ : Feature) ∈ e.2 by decide +kernel) a (ha a h) hx
      have hw : On asked ⟨"x-wing", ""⟩ := by
        rcases hm with rfl | ⟨e, he, rfl, hg⟩
        · exact .asked h
        · exact .step (.asked h) he hg
      obtain ⟨e, he, h1, hg⟩ := (show ∃ e ∈ table, e.1 = ⟨"x-wing", ""⟩ ∧ (⟨"ml-kem", "deterministic"⟩ : Feature) ∈ e.2 by
        decide +kernel)
      exact .step (h1.symm ▸ hw) he hg

/-- With all features of dhkem, nothing is erased by x25519-dalek; with x-wing's feature, it is. -/
example : ¬ On [⟨"dhkem", "default"⟩, ⟨"dhkem", "x25519"⟩, ⟨"dhkem", "zeroize"⟩] ⟨"x25519-dalek", "zeroize"⟩ ∧
    On [⟨"dhkem", "default"⟩, ⟨"dhkem", "x25519"⟩] ⟨"dhkem", "zeroize"⟩ ∧
    On [⟨"x-wing", "zeroize"⟩] ⟨"x25519-dalek", "zeroize"⟩ :=
  ⟨fun h => absurd ((C95_features (by decide +kernel)).1.1 h) (by decide +kernel),
    (C95_features (by decide +kernel)).2.1.2 (by decide +kernel), (C95_features (by decide +kernel)).1.2 (by decide +kernel)⟩

end Cargo

namespace Dhkem
open Rust Rust.Locals MlKem

/-- **C95** The functions with local variables return what the functions of the model return. -/
theorem C95_dhkem_same (C : DhGroup) (S : Stored C.Secret) (Q : Stored C.Public) (R : Stored C.Shared) (erasing : Bool) :
    (∀ (ek : DhEncapsulator C.Public) (rng : Rng) (s : rng.State) (m : Memory),
      (Locals.encapsulate C S Q R erasing ek rng s m >>= fun x => Res.ok x.1) = X25519Kem.encapsulate C ek rng s ∧
      X25519Kem.encapsulate C ek rng s = EcdhKem.encapsulate C ek rng s) ∧
    (∀ (dk : DhDecapsulator C.Secret) (pk : C.Public) (m : Memory),
      (Locals.decapsulate C R erasing dk pk m >>= fun x => Res.ok x.1) = X25519Kem.decapsulate C dk pk ∧
      X25519Kem.decapsulate C dk pk = EcdhKem.decapsulate C dk pk) ∧
    (∀ (rng : Rng) (s : rng.State) (m : Memory),
      (Locals.random_keypair C S Q erasing rng s m >>= fun x => Res.ok x.1) = X25519Kem.random_keypair C rng s ∧
      X25519Kem.random_keypair C rng s = EcdhKem.random_keypair C rng s) := by
  refine ⟨fun ek rng s m => ⟨?_, rfl⟩, fun dk pk m => ⟨rfl, rfl⟩, fun rng s m => ⟨?_, rfl⟩⟩
  · refine Same.call (r := X25519Kem.encapsulate C ek rng s) (Same.lift1 fun x => ?_) m
    exact fun _ => rfl
  · refine Same.call (r := X25519Kem.random_keypair C rng s) (Same.lift1 fun x => ?_) m
    exact fun _ => rfl

variable {C : DhGroup} {S : Stored C.Secret} {Q : Stored C.Public} {R : Stored C.Shared} {erasing : Bool}

theorem encapsulate_leaves {ek : DhEncapsulator C.Public} {rng : Rng} {s s' : rng.State} {pk ss} {m m' : Memory}
    (h : Locals.encapsulate C S Q R erasing ek rng s m = .ok (((pk, ss), s'), m')) :
    ∃ sk, C.random rng s = .ok (sk, s') ∧ pk = C.publicKey sk ∧ ss = C.diffieHellman sk ek.val ∧
      m' = ⟨m.frame, [⟨"encapsulate", "pk", Q.dropped erasing pk⟩, ⟨"encapsulate", "sk", S.dropped erasing sk⟩] ++ m.dead⟩ := by
  obtain ⟨m1, h1, rfl⟩ := call_ok h
  obtain ⟨⟨sk, s1⟩, h2, h3⟩ := lift_ok h1
  simp only [var_bind, moved_bind, run_pure] at h3
  obtain ⟨e1, rfl⟩ := Prod.mk.inj (Res.ok.inj h3)
  obtain ⟨e2, rfl⟩ := Prod.mk.inj e1
  obtain ⟨rfl, rfl⟩ := Prod.mk.inj e2
  exact ⟨sk, h2, rfl, rfl, by simp [List.eraseP]⟩

theorem random_keypair_leaves {rng : Rng} {s s' : rng.State} {dk ek} {m m' : Memory}
    (h : Locals.random_keypair C S Q erasing rng s m = .ok (((dk, ek), s'), m')) :
    C.random rng s = .ok (dk.val, s') ∧ ek.val = C.publicKey dk.val ∧
      m' = ⟨m.frame, [⟨"random_keypair", "pk", Q.dropped erasing ek.val⟩] ++ m.dead⟩ := by
  obtain ⟨m1, h1, rfl⟩ := call_ok h
  obtain ⟨⟨sk, s1⟩, h2, h3⟩ := lift_ok h1
  simp only [var_bind, moved_bind, run_pure] at h3
  obtain ⟨e1, rfl⟩ := Prod.mk.inj (Res.ok.inj h3)
  obtain ⟨e2, rfl⟩ := Prod.mk.inj e1
  obtain ⟨rfl, rfl⟩ := Prod.mk.inj e2
  exact ⟨h2, rfl, by simp [List.eraseP]⟩

/-- **C95** In every build that does not ask for x-wing's feature `zeroize`, with dhkem's feature `zeroize` or without:
encapsulating to an X25519 key leaves the ephemeral secret in memory, from which, with the recipient's public key, the
shared secret is computed; and dropping a decapsulator leaves its secret. -/
theorem C95_x25519_left {asked : List Cargo.Feature} (ha : ∀ f ∈ asked, f ∈ Cargo.workspace)
    (hx : ⟨"x-wing", "zeroize"⟩ ∉ asked) {erasing : Bool} (he : erasing = true ↔ Cargo.On asked ⟨"x25519-dalek", "zeroize"⟩) :
    (∀ (ek : DhEncapsulator (Bytes 32)) (rng : Rng) (s s' : rng.State) (pk ss : Bytes 32) (m m' : Memory),
      Locals.encapsulate x25519 reusableSecret montgomeryPoint montgomeryPoint erasing ek rng s m
          = .ok (((pk, ss), s'), m') →
        ∃ sk : Bytes 32, rng.fill_bytes 32 s = .ok (sk, s') ∧
          m' = ⟨m.frame, [⟨"encapsulate", "pk", pk.toList⟩, ⟨"encapsulate", "sk", sk.toList⟩] ++ m.dead⟩ ∧
          ss = Rfc7748.X25519 sk ek.val) ∧
    (∀ dk : DhDecapsulator (Bytes 32), (DhDecapsulator.stored reusableSecret).dropped erasing dk = dk.val.toList) := by
  obtain rfl : erasing = false := by
    cases erasing
    · rfl
    · exact absurd ((Cargo.C95_features ha).1.1 (he.1 rfl)) hx
  refine ⟨fun ek rng s s' pk ss m m' h => ?_, fun dk => rfl⟩
  obtain ⟨sk, h1, -, h3, h4⟩ := encapsulate_leaves h
  exact ⟨sk, h1, h4, h3⟩

/-- **C95** With x-wing's feature `zeroize` asked for anywhere in the build, both are erased. -/
theorem C95_x25519_erased {asked : List Cargo.Feature} (ha : ∀ f ∈ asked, f ∈ Cargo.workspace)
    (hx : ⟨"x-wing", "zeroize"⟩ ∈ asked) {erasing : Bool} (he : erasing = true ↔ Cargo.On asked ⟨"x25519-dalek", "zeroize"⟩) :
    (∀ (ek : DhEncapsulator (Bytes 32)) (rng : Rng) (s s' : rng.State) (pk ss : Bytes 32) (m m' : Memory),
      Locals.encapsulate x25519 reusableSecret montgomeryPoint montgomeryPoint erasing ek rng s m
          = .ok (((pk, ss), s'), m') →
        m' = ⟨m.frame, [⟨"encapsulate", "pk", pk.toList⟩, ⟨"encapsulate", "sk", List.replicate 32 0⟩] ++ m.dead⟩) ∧
    (∀ dk : DhDecapsulator (Bytes 32), (DhDecapsulator.stored reusableSecret).dropped erasing dk = List.replicate 32 0) := by
  obtain rfl := he.2 ((Cargo.C95_features ha).1.2 hx)
  refine ⟨fun ek rng s s' pk ss m m' h => ?_, fun dk => rfl⟩
  obtain ⟨sk, -, -, -, h4⟩ := encapsulate_leaves h
  exact h4

/-- **C95** On the named curves the ephemeral secret and a dropped decapsulator are erased in every build. -/
theorem C95_curve_erased (c : Sec2.Named) (random : (rng : Rng) → rng.State → Res (Scalar c × rng.State))
    (Q : Stored c.params.curve.Point) (R : Stored (Bytes c.params.size)) (erasing : Bool) :
    (∀ (ek : DhEncapsulator c.params.curve.Point) (rng : Rng) (s s' : rng.State) (pk : c.params.curve.Point)
      (ss : Bytes c.params.size) (m m' : Memory),
      Locals.encapsulate (named c random) (ephemeralSecret c) Q R erasing ek rng s m = .ok (((pk, ss), s'), m') →
        m' = ⟨m.frame, [⟨"encapsulate", "pk", Q.dropped erasing pk⟩,
          ⟨"encapsulate", "sk", List.replicate c.params.size 0⟩] ++ m.dead⟩) ∧
    (∀ dk : DhDecapsulator (Scalar c),
      (DhDecapsulator.stored (ephemeralSecret c)).dropped erasing dk = List.replicate c.params.size 0) := by
  refine ⟨fun ek rng s s' pk ss m m' h => ?_, fun dk => rfl⟩
  obtain ⟨sk, -, -, -, h4⟩ := encapsulate_leaves h
  exact h4

/-- **C95** Generating a key pair and decapsulating leave no secret, in every build. -/
theorem C95_dhkem_moved :
    (∀ (rng : Rng) (s s' : rng.State) (dk : DhDecapsulator C.Secret) (ek : DhEncapsulator C.Public) (m m' : Memory),
      Locals.random_keypair C S Q erasing rng s m = .ok (((dk, ek), s'), m') →
        m' = ⟨m.frame, ⟨"random_keypair", "pk", Q.dropped erasing ek.val⟩ :: m.dead⟩) ∧
    (∀ (dk : DhDecapsulator C.Secret) (pk : C.Public) (ss : C.Shared) (m m' : Memory),
      Locals.decapsulate C R erasing dk pk m = .ok (ss, m') → m' = m) := by
  refine ⟨fun rng s s' dk ek m m' h => (random_keypair_leaves h).2.2, fun dk pk ss m m' h => ?_⟩
  obtain ⟨m1, h1, rfl⟩ := call_ok h
  simp only [var_bind, moved_bind, run_pure] at h1
  obtain ⟨rfl, rfl⟩ := Prod.mk.inj (Res.ok.inj h1)
  simp [List.eraseP]

/-- An encapsulation from any state of a generator, in a build with all of dhkem's features -/
example (s : Nat) (ek : DhEncapsulator (Bytes 32)) (m : Memory) : ∃ pk ss m',
    Locals.encapsulate x25519 reusableSecret montgomeryPoint montgomeryPoint false ek Toy.rng s m
      = .ok (((pk, ss), s + 1), m') ∧
    (false = true ↔ Cargo.On [⟨"dhkem", "default"⟩, ⟨"dhkem", "x25519"⟩] ⟨"x25519-dalek", "zeroize"⟩) :=
  ⟨_, _, _, rfl, by simp, fun h => absurd ((Cargo.C95_features (by decide +kernel)).1.1 h) (by decide +kernel)⟩

end Dhkem
