import Verif.Spec.Anonymity
/-!
Attacks on ML-KEM with two keys by an attacker that is told what the challenge decapsulates to with each of them. Nothing
here mentions the model of the code.
-/
namespace Fips203
open MlKem (Sha3)
open Rust (Bytes)

open Classical in
/-- The attacker as one on the key `b`, which also uses coins for the other key: it decapsulates the challenge with that
key, with one question for `G` and one for `J`, and takes the shared key it is given for the decapsulation with the key
`b`. -/
noncomputable def againstTold (S : Sha3) (p : Params) {N e n : Nat} {Ω : Type}
    (A : Ω → (Bytes 34 → Bytes (3 * N)) → (Bool → Bytes e) → Bytes n → (Bool → Bytes 32) → Attacker2 n) (b : Bool) :
    Ω × Bytes 32 × Bytes 32 → (Bytes 34 → Bytes (3 * N)) → Bytes e → Bytes n → Bytes 32 → Attacker n
  | (o, d, z), T, ek, c, K =>
    let keys := KPKE_KeyGen (withXof S T) p d.toList
    let m := bytes 32 (KPKE_Decrypt p keys.2 c.toList)
    .hashG m (bytes 32 (H (withXof S T) keys.1)) fun (K1, r) =>
      .hashJ z c fun K2 =>
        (A o T (fun i => if i = b then ek else bytes e keys.1) c
          (fun i => if i = b then K else if encrypt (withXof S T) p n keys.1 m r = c then K1 else K2)).withKey
            (withXof S T) p b d z c

end Fips203
