/-! Model of the features in /repo/dhkem/Cargo.toml, /repo/x-wing/Cargo.toml and /repo/ml-kem/Cargo.toml, and of how
Cargo decides which are on: a feature is on for all users of a crate in a build if anything in the build asks for it. -/
namespace Cargo

/-- A feature of a crate (by the crate's own name, not what a dependent calls it). The feature with the empty name
stands for the crate being in the build. (as dhkem/Cargo.toml:29-37) -/
structure Feature where
  crate : String
  name : String
deriving DecidableEq

/-- What each feature asks for. A crate that is asked for comes with the `features` listed with the dependency and, unless
`default-features = false`, the feature `default`. Of external crates only what matters to x25519-dalek's erasing is
here: its `default` contains `zeroize` (external). (dhkem/Cargo.toml:15-37, x-wing/Cargo.toml:17-34,
ml-kem/Cargo.toml:18-29) -/
def table : List (Feature × List Feature) := [
  (⟨"dhkem", ""⟩, [⟨"kem", ""⟩, ⟨"kem", "default"⟩, ⟨"rand_core", ""⟩, ⟨"rand_core", "default"⟩]),
  (⟨"dhkem", "default"⟩, [⟨"dhkem", ""⟩, ⟨"dhkem", "zeroize"⟩]),
  (⟨"dhkem", "ecdh"⟩, [⟨"dhkem", ""⟩, ⟨"elliptic-curve", ""⟩, ⟨"elliptic-curve", "ecdh"⟩]),
  (⟨"dhkem", "k256"⟩, [⟨"dhkem", ""⟩, ⟨"k256", ""⟩, ⟨"k256", "arithmetic"⟩, ⟨"dhkem", "ecdh"⟩]),
  (⟨"dhkem", "p256"⟩, [⟨"dhkem", ""⟩, ⟨"p256", ""⟩, ⟨"p256", "arithmetic"⟩, ⟨"dhkem", "ecdh"⟩]),
  (⟨"dhkem", "p384"⟩, [⟨"dhkem", ""⟩, ⟨"p384", ""⟩, ⟨"p384", "arithmetic"⟩, ⟨"dhkem", "ecdh"⟩]),
  (⟨"dhkem", "p521"⟩, [⟨"dhkem", ""⟩, ⟨"p521", ""⟩, ⟨"p521", "arithmetic"⟩, ⟨"dhkem", "ecdh"⟩]),
  (⟨"dhkem", "x25519"⟩, [⟨"dhkem", ""⟩, ⟨"x25519-dalek", ""⟩, ⟨"x25519-dalek", "reusable_secrets"⟩]),
  (⟨"dhkem", "zeroize"⟩, [⟨"dhkem", ""⟩, ⟨"zeroize", ""⟩]),
  (⟨"x-wing", ""⟩, [⟨"rand_core", ""⟩, ⟨"x25519-dalek", ""⟩, ⟨"x25519-dalek", "static_secrets"⟩, ⟨"ml-kem", ""⟩,
    ⟨"ml-kem", "deterministic"⟩, ⟨"sha3", ""⟩, ⟨"kem", ""⟩, ⟨"kem", "default"⟩]),
  (⟨"x-wing", "getrandom"⟩, [⟨"x-wing", ""⟩, ⟨"rand_core", "getrandom"⟩]),
  (⟨"x-wing", "zeroize"⟩, [⟨"x-wing", ""⟩, ⟨"zeroize", ""⟩, ⟨"zeroize", "default"⟩, ⟨"zeroize", "zeroize_derive"⟩,
    ⟨"ml-kem", "zeroize"⟩, ⟨"x25519-dalek", "zeroize"⟩]),
  (⟨"ml-kem", ""⟩, [⟨"kem", ""⟩, ⟨"kem", "default"⟩, ⟨"hybrid-array", ""⟩, ⟨"hybrid-array", "default"⟩,
    ⟨"hybrid-array", "extra-sizes"⟩, ⟨"rand_core", ""⟩, ⟨"rand_core", "default"⟩, ⟨"sha3", ""⟩]),
  (⟨"ml-kem", "default"⟩, [⟨"ml-kem", ""⟩, ⟨"ml-kem", "std"⟩]),
  (⟨"ml-kem", "std"⟩, [⟨"ml-kem", ""⟩, ⟨"sha3", "std"⟩]),
  (⟨"ml-kem", "deterministic"⟩, [⟨"ml-kem", ""⟩]),
  (⟨"ml-kem", "zeroize"⟩, [⟨"ml-kem", ""⟩, ⟨"zeroize", ""⟩]),
  (⟨"x25519-dalek", "default"⟩, [⟨"x25519-dalek", "zeroize"⟩])]

/-- The features that a build can ask for of the three crates (dhkem/Cargo.toml:29-37, x-wing/Cargo.toml:17-19,
ml-kem/Cargo.toml:18-22) -/
def workspace : List Feature :=
  [⟨"dhkem", ""⟩, ⟨"dhkem", "default"⟩, ⟨"dhkem", "ecdh"⟩, ⟨"dhkem", "k256"⟩, ⟨"dhkem", "p256"⟩, ⟨"dhkem", "p384"⟩,
    ⟨"dhkem", "p521"⟩, ⟨"dhkem", "x25519"⟩, ⟨"dhkem", "zeroize"⟩, ⟨"x-wing", ""⟩, ⟨"x-wing", "getrandom"⟩,
    ⟨"x-wing", "zeroize"⟩, ⟨"ml-kem", ""⟩, ⟨"ml-kem", "default"⟩, ⟨"ml-kem", "std"⟩, ⟨"ml-kem", "deterministic"⟩,
    ⟨"ml-kem", "zeroize"⟩]

/-- The features that are on in a build that asks for `asked` (as dhkem/Cargo.toml:29-37) -/
inductive On (asked : List Feature) : Feature → Prop
  | asked {f} (h : f ∈ asked) : On asked f
  | step {f g l} (h : On asked f) (hl : (f, l) ∈ table) (hg : g ∈ l) : On asked g

end Cargo
