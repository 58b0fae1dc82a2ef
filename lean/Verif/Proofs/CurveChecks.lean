import Verif.Proofs.Weierstrass
namespace Weierstrass
open Sec2

theorem check_secp256k1 : check Named.secp256k1.params 256 (0x0,
    0x0,
    0x676072c51d36ab00c84deb078e4ba0feef17a1f9626d375046274e4ab01347c8) = true := by decide +kernel

theorem check_p256 : check Named.p256.params 256 (0xa969487079f1744798bf0de6fded091b66e9d328eb0645fe5d979d1339b7f47f,
    0xa4a08891884100c13323460107a8d28eede4387fa3e6e9bfebec9f6d72d0b5cc,
    0x4cde11cf86cb876cd59cf0115813c55af0ecd3cda667d98bb9a347a56aa74a6d) = true := by decide +kernel

theorem check_p384 : check Named.p384.params 384 (0x95adec811ebe8d4b9e2b41150d78f91a619189a415583b8f5e01888da3353b61765cde8cd6c12846310c3f0c10aae682,
    0x3581b884702fb0931c541a5cacefbe3bea864db86e01e048170560418dca3aa8689f246d9d11ccd2e145532dd48491af,
    0x4efcebfdccd7cb25d1b864228f0c32d3a83ec026134ae4753bdff5d3f1fa20b278b31dc3487beb792024fe436f36b43a) = true := by decide +kernel

theorem check_p521 : check Named.p521.params 521 (0x19e72e5691af1c1f1d3f2591c5ad09ec28f1c524714ca75db089cdb9151ca2289840d94ce56793c78b66ef3540572cc405cdc465d82e1a6f69d82c27053ff163aa6,
    0xc15e4c9246ef30c73585fc1a490df170ef8e757f1f37e7a6cde9349746d8493ebb31a91aea6f35b910d943c96ba37d442ea7bb6d45c60ec76150edba53d1fc8264,
    0x124521c5a63d25338751ea837916053183423f151d92bf4710ef90df9f8ccdf063f99af3ab0f0bd1843a16afc69f16b49b9890c324999f97e8e4650532aea382f92) = true := by decide +kernel

end Weierstrass
