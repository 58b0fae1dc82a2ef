import Verif.Rust.Basic
import Verif.Rust.Extern
import Verif.Model.Util
import Verif.Model.Param
import Verif.Model.Crypto
import Verif.Model.Algebra
import Verif.Model.Encode
import Verif.Model.Sample
import Verif.Model.Pke
import Verif.Model.Kem
import Verif.Model.XWing
import Verif.Model.Dhkem
import Verif.Kat.Keccak
import Verif.Spec.Fips203
import Verif.Proofs.RustLemmas
import Verif.Proofs.Field
import Verif.Proofs.Tables
import Verif.Proofs.Ntt
import Verif.Proofs.NttSpec
import Verif.Proofs.Mul
import Verif.Proofs.Bits
import Verif.Proofs.Encode
import Verif.Proofs.Compress
import Verif.Proofs.Codec
import Verif.Proofs.Sample
import Verif.Proofs.Flatten
import Verif.Proofs.Vec
import Verif.Proofs.Pke
import Verif.Proofs.Kem
import Verif.Spec.Noise
import Verif.Proofs.Noise
import Verif.Proofs.NoiseBound
import Verif.Spec.Layout
import Verif.Proofs.Layout
import Verif.Props.Common
import Verif.Props.Toy
import Verif.Props.KemSpec
import Verif.Props.KemCorrect
import Verif.Props.KemKeys
import Verif.Spec.Ring
import Verif.Proofs.Ring
import Verif.Props.Repr
import Verif.Props.Algebra
import Verif.Props.Codec
import Verif.Props.Sampling
import Verif.Props.Util
import Verif.Spec.XWing
import Verif.Props.XWing
import Verif.Props.Dhkem
import Verif.Model.History
import Verif.Props.History
import Verif.Props.Builds
import Verif.Proofs.Dist
import Verif.Props.Dist
import Verif.Spec.Collision
import Verif.Props.Binding
import Verif.Model.XWingHistory
import Verif.Props.XWingHistory
import Verif.Spec.Queries
import Verif.Props.Queries
import Verif.Proofs.Average
import Verif.Proofs.CbdAverage
import Verif.Proofs.Tail
import Verif.Spec.Random
import Verif.Props.Failure
import Verif.Spec.Tape
import Verif.Props.Randomness
import Verif.Props.Hang
import Verif.Rust.Leak
import Verif.Model.Leak
import Verif.Spec.Leakage
import Verif.Proofs.Leak
import Verif.Proofs.Oblivious
import Verif.Proofs.Reveal
import Verif.Props.Leak
import Verif.Proofs.Prime25519
import Verif.Spec.Rfc7748
import Verif.Proofs.Montgomery
import Verif.Proofs.X25519
import Verif.Props.X25519
import Verif.Proofs.Fo
import Verif.Spec.Cca
import Verif.Props.Cca
import Verif.Spec.Mlwe
import Verif.Props.Mlwe
import Verif.Spec.XWingCca
import Verif.Props.XWingCca
import Verif.Proofs.Walk
import Verif.Spec.XWingDh
import Verif.Props.XWingDh
import Verif.Proofs.Pocklington
import Verif.Proofs.CurvePrimes
import Verif.Spec.Sec2
import Verif.Proofs.Weierstrass
import Verif.Proofs.CurveChecks
import Verif.Model.DhkemCurves
import Verif.Props.DhkemCurves
import Verif.Spec.SmallOrder
import Verif.Proofs.Order25519
import Verif.Proofs.Twist25519
import Verif.Proofs.Twist25519Count
import Verif.Proofs.X25519All
import Verif.Props.X25519All
import Verif.Spec.Hkdf
import Verif.Spec.Rfc9180
import Verif.Spec.Sha256
import Verif.Model.Hpke
import Verif.Proofs.Hkdf
import Verif.Props.Hpke
import Verif.Props.HpkeVector
import Verif.Model.Threads
import Verif.Proofs.Threads
import Verif.Props.Threads
import Verif.Props.ThreadsKem
import Verif.Spec.Fips203Algorithms
import Verif.Proofs.Algorithms
import Verif.Proofs.AlgorithmsKem
import Verif.Props.Algorithms
import Verif.Spec.Fips202
import Verif.Proofs.Fips202Eval
import Verif.Proofs.Fips203Eval
import Verif.Proofs.VectorsBase
import Verif.Proofs.Vectors512
import Verif.Proofs.Vectors768
import Verif.Proofs.Vectors1024
import Verif.Props.Vectors
import Verif.Props.VectorXWing
import Verif.Spec.Correctness
import Verif.Spec.MlweUniform
import Verif.Proofs.Reprogram
import Verif.Props.MlweUniform
import Verif.Spec.Pseudorandom
import Verif.Proofs.FoPseudorandom
import Verif.Props.Pseudorandom
import Verif.Spec.Anonymity
import Verif.Props.Anonymity
import Verif.Props.XWingUniform
import Verif.Props.FailureUniform
import Verif.Proofs.TailUniform
import Verif.Proofs.HitTable
import Verif.Proofs.UniformTables
import Verif.Props.Complete
import Verif.Props.Memory
import Verif.Props.Sessions
import Verif.Props.ManyUsers
import Verif.Props.XWingMany
import Verif.Props.XWingManyDh
import Verif.Proofs.Sparse
import Verif.Props.Told
import Verif.Props.XWingTold
import Verif.Spec.DhkemCca
import Verif.Props.DhkemCca
import Verif.Spec.DhkemMany
import Verif.Props.DhkemMany
import Verif.Rust.Locals
import Verif.Model.Locals
import Verif.Props.Locals
import Verif.Rust.Fmt
import Verif.Model.Debug
import Verif.Props.Debug
import Verif.Model.Compare
import Verif.Spec.Compare
import Verif.Props.Compare
import Verif.Model.Equality
import Verif.Model.Features
import Verif.Model.DhkemLocals
import Verif.Props.Equality
import Verif.Props.DhkemLocals
import Verif.Props.LocalsKey
import Verif.Props.LeakKey
import Verif.Props.LeakMessage
import Verif.Props.LeakXWing
import Verif.Spec.KeyTables
import Verif.Props.Unique
import Verif.Props.Reuse
