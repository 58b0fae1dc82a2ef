{
 "ml-kem/src/algebra.rs `from` (361": "wraps an array in a newtype; the model has no separate array",
 "ml-kem/src/algebra.rs `from` (367": "unwraps the newtype; used in tests only",
 "x-wing/src/lib.rs `generate_from_os_rng`": "`generate` at the operating system's generator; the theorems about `generate` hold for every generator, failing ones included",
 "x-wing/src/lib.rs `generate_key_pair_from_os_rng`": "`generate_key_pair` at the operating system's generator; as above"
}