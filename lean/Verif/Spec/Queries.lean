import Verif.Spec.Layout
import Verif.Spec.XWing
/-!
Which hash computations FIPS 203 and X-Wing prescribe, and what each is for. Nothing here mentions the
model of the code.
-/
namespace Fips203
open MlKem (Sha3)

/-- The four functions of the SHA-3 family -/
inductive Fn | sha3_256 | sha3_512 | shake128 | shake256
deriving DecidableEq, Repr

/-- What a hash computation is for -/
inductive Role
  /-- `G(d ‖ k)` in key generation -/
  | keySeed
  /-- `XOF(ρ ‖ j ‖ i)`, an entry of the matrix -/
  | matrix
  /-- `PRF(s, b)`, a noise polynomial -/
  | noise
  /-- `H(ek)` -/
  | keyHash
  /-- `G(m ‖ h)`, the shared key and the encryption randomness -/
  | derive
  /-- `J(z ‖ c)`, the shared key of a rejected ciphertext -/
  | reject
  /-- X-Wing: `SHAKE128(sk)`, the expansion of the secret key -/
  | xwingSeed
  /-- X-Wing: the combiner -/
  | xwingCombine
deriving DecidableEq, Repr

/-- The function each role uses -/
def Role.fn : Role → Fn
  | .keySeed => .sha3_512
  | .matrix => .shake128
  | .noise => .shake256
  | .keyHash => .sha3_256
  | .derive => .sha3_512
  | .reject => .shake256
  | .xwingSeed => .shake128
  | .xwingCombine => .sha3_256

/-- The length of the string hashed in each role, for a parameter set -/
def inputLength (p : Params) : Role → Nat
  | .keySeed => 33
  | .matrix => 34
  | .noise => 33
  | .keyHash => 384 * p.k + 32
  | .derive => 64
  | .reject => 32 + 32 * (p.du * p.k + p.dv)
  | .xwingSeed => 32
  | .xwingCombine => 134

/-- One hash computation: its role, the string hashed and, for an extendable-output function, how many
output bytes are read (`none`: as many as needed) -/
structure Query where
  role : Role
  input : List UInt8
  out : Option Nat
deriving DecidableEq, Repr

/-- Two implementations of the SHA-3 family give the same answer to a query. -/
def Query.Same (S S' : Sha3) (q : Query) : Prop :=
  match q.role.fn with
  | .sha3_256 => S.sha3_256 q.input = S'.sha3_256 q.input
  | .sha3_512 => S.sha3_512 q.input = S'.sha3_512 q.input
  | .shake128 => ∀ n, (∀ N ∈ q.out, n < N) → S.shake128 q.input n = S'.shake128 q.input n
  | .shake256 => ∀ n, (∀ N ∈ q.out, n < N) → S.shake256 q.input n = S'.shake256 q.input n

/-- … to every query with one of the roles given, that is, on every string of that role's length. -/
def AgreeOn (S S' : Sha3) (p : Params) (roles : List Role) : Prop :=
  ∀ q : Query, q.role ∈ roles → q.input.length = inputLength p q.role → q.Same S S'

/-- … to every query of a list. -/
def Agree (S S' : Sha3) (qs : List Query) : Prop := ∀ q ∈ qs, q.Same S S'

/-- The `k²` entries of the matrix for `ρ` -/
def matrixQueries (k : Nat) (rho : List UInt8) : List Query :=
  (List.range k).flatMap fun i => (List.range k).map fun j =>
    ⟨.matrix, rho ++ [UInt8.ofNat j, UInt8.ofNat i], none⟩

/-- The noise polynomials with the nonces `lo, …, lo + n - 1` -/
def noiseQueries (eta : Nat) (s : List UInt8) (lo n : Nat) : List Query :=
  (List.range' lo n).map fun b => ⟨.noise, s ++ [UInt8.ofNat b], some (64 * eta)⟩

variable (S : Sha3) (p : Params)

/-- Key generation from the seed `d` -/
noncomputable def keygenQueries (d : List UInt8) : List Query :=
  ⟨.keySeed, d ++ [UInt8.ofNat p.k], none⟩ ::
    (matrixQueries p.k (seeds S p d).1 ++ noiseQueries p.eta1 (seeds S p d).2 0 (2 * p.k) ++
      [⟨.keyHash, (KPKE_KeyGen S p d).1, none⟩])

/-- Deriving `(K, r) = G(m ‖ h)` and encrypting `m` with `r` -/
def encryptQueries (rho h m : List UInt8) : List Query :=
  ⟨.derive, m ++ h, none⟩ ::
    (matrixQueries p.k rho ++ noiseQueries p.eta1 (G S (m ++ h)).2 0 p.k ++
      noiseQueries p.eta2 (G S (m ++ h)).2 p.k (p.k + 1))

/-- Encapsulating the message `m` to the key `ek`, whose hash is already known -/
def encapsQueries (ek m : List UInt8) : List Query := encryptQueries S p (ekRho p ek) (H S ek) m

/-- Decapsulating `c` with the key `dk` -/
noncomputable def decapsQueries (dk c : List UInt8) : List Query :=
  ⟨.reject, dkZ p dk ++ c, some 32⟩ ::
    encryptQueries S p (ekRho p (dkEk p dk)) (dkH p dk) (KPKE_Decrypt p (dk.take (384 * p.k)) c)

end Fips203

namespace XWingSpec
open MlKem (Sha3)
open Rust (Bytes)
open Fips203

variable (S : Sha3) (x25519 : Bytes 32 → Bytes 32 → Bytes 32)

/-- Expanding the secret key -/
noncomputable def expandQueries (sk : List UInt8) : List Query :=
  ⟨.xwingSeed, sk, some 96⟩ :: keygenQueries S ML_KEM_768 (seedD S sk).toList

/-- Encapsulating to `pk` with the seed `eseed` -/
noncomputable def encapsQueries (pk eseed : List UInt8) : List Query :=
  Fips203.encapsQueries S ML_KEM_768 (pk.take 1184) (eseed.take 32) ++
    [⟨.xwingCombine, combinerInput (Encaps_internal S ML_KEM_768 (pk.take 1184) (eseed.take 32)).1
      (x25519 (slice32 eseed 32) (slice32 pk 1184)).toList
      (x25519 (slice32 eseed 32) basePoint).toList (slice32 pk 1184).toList, none⟩]

/-- Decapsulating `ct` with `sk` -/
noncomputable def decapsQueries (ct sk : List UInt8) : List Query :=
  expandQueries S sk ++ Fips203.decapsQueries S ML_KEM_768 (skM S sk) (ct.take 1088) ++
    [⟨.xwingCombine, combinerInput (Decaps_internal S ML_KEM_768 (skM S sk) (ct.take 1088))
      (x25519 (secretX S sk) (slice32 ct 1088)).toList (slice32 ct 1088).toList
      (pkX S x25519 sk).toList, none⟩]

end XWingSpec

namespace Fips203
open MlKem (Sha3)
open Rust (Bytes)

/-- A hash computation that some call prescribes, for some arguments of the lengths the call takes -/
inductive Prescribed (S : Sha3) (x25519 : Bytes 32 → Bytes 32 → Bytes 32) : Params → Query → Prop
  | keygen {p q} {d : List UInt8} (hd : d.length = 32) (h : q ∈ keygenQueries S p d) :
      Prescribed S x25519 p q
  | parse {p q} {ek : List UInt8} (he : ek.length = 384 * p.k + 32) (h : q = ⟨.keyHash, ek, none⟩) :
      Prescribed S x25519 p q
  | encaps {p q} {ek m : List UInt8} (he : ek.length = 384 * p.k + 32) (hm : m.length = 32)
      (h : q ∈ encapsQueries S p ek m) : Prescribed S x25519 p q
  | decaps {p q} {dk c : List UInt8} (hd : dk.length = 768 * p.k + 96)
      (hc : c.length = 32 * (p.du * p.k + p.dv)) (h : q ∈ decapsQueries S p dk c) :
      Prescribed S x25519 p q
  | xwingExpand {q} {sk : List UInt8} (hs : sk.length = 32) (h : q ∈ XWingSpec.expandQueries S sk) :
      Prescribed S x25519 ML_KEM_768 q
  | xwingEncaps {q} {pk eseed : List UInt8} (hp : pk.length = 1216) (he : eseed.length = 64)
      (h : q ∈ XWingSpec.encapsQueries S x25519 pk eseed) : Prescribed S x25519 ML_KEM_768 q
  | xwingDecaps {q} {sk ct : List UInt8} (hs : sk.length = 32) (hc : ct.length = 1120)
      (h : q ∈ XWingSpec.decapsQueries S x25519 ct sk) : Prescribed S x25519 ML_KEM_768 q

end Fips203
