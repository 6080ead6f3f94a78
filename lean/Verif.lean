import Verif.Lemmas.AlgebraicProver
import Verif.Lemmas.AltBn128
import Verif.Lemmas.AltBn128Groups
import Verif.Lemmas.AltBn128Twist
import Verif.Lemmas.Bits
import Verif.Lemmas.Blake2b
import Verif.Lemmas.Blake2b2
import Verif.Lemmas.Blake2bEval
import Verif.Lemmas.Circuit
import Verif.Lemmas.CircuitReader
import Verif.Lemmas.CircuitReader2
import Verif.Lemmas.CircuitReader3
import Verif.Lemmas.CircuitReader4
import Verif.Lemmas.CircuitReader5
import Verif.Lemmas.CircuitRelease
import Verif.Lemmas.CircuitS
import Verif.Lemmas.CircuitText
import Verif.Lemmas.Commitment
import Verif.Lemmas.CurveEval
import Verif.Lemmas.EdDSA
import Verif.Lemmas.EdDSA2
import Verif.Lemmas.EvmAsm
import Verif.Lemmas.EvmMachine
import Verif.Lemmas.EvmMiMC
import Verif.Lemmas.EvmPoseidon
import Verif.Lemmas.EvmPoseidonProg
import Verif.Lemmas.Field2Bits
import Verif.Lemmas.FixedBase
import Verif.Lemmas.Frames
import Verif.Lemmas.Frames2
import Verif.Lemmas.Groth16
import Verif.Lemmas.Groth16b
import Verif.Lemmas.Groth16c
import Verif.Lemmas.Hex
import Verif.Lemmas.IncrementalTree
import Verif.Lemmas.Json
import Verif.Lemmas.Jubjub
import Verif.Lemmas.JubjubOrder
import Verif.Lemmas.JubjubParams
import Verif.Lemmas.JubjubTorsion
import Verif.Lemmas.KeccakEval
import Verif.Lemmas.KnowledgeAlgebra
import Verif.Lemmas.Merkle
import Verif.Lemmas.MiMC
import Verif.Lemmas.MontDouble
import Verif.Lemmas.Montgomery
import Verif.Lemmas.MuxCompress
import Verif.Lemmas.Pack
import Verif.Lemmas.Padding
import Verif.Lemmas.Pedersen
import Verif.Lemmas.Pedersen2
import Verif.Lemmas.PinocchioMain
import Verif.Lemmas.PinocchioTrace
import Verif.Lemmas.Poseidon
import Verif.Lemmas.PoseidonDefault
import Verif.Lemmas.PyCliSol
import Verif.Lemmas.PyContractSol
import Verif.Lemmas.PyExport
import Verif.Lemmas.PyJubjub
import Verif.Lemmas.PyMerkle
import Verif.Lemmas.PyMult
import Verif.Lemmas.PyNumberTheory
import Verif.Lemmas.PyVerifier
import Verif.Lemmas.Rfc8259
import Verif.Lemmas.SSA
import Verif.Lemmas.SageCurve
import Verif.Lemmas.SageScript
import Verif.Lemmas.ScalarMult
import Verif.Lemmas.Serialise
import Verif.Lemmas.Sha256C
import Verif.Lemmas.Sha256C2
import Verif.Lemmas.Sha256C3
import Verif.Lemmas.Sha256Gadgets
import Verif.Lemmas.Sha2Bits
import Verif.Lemmas.Sha2Eval
import Verif.Lemmas.ShortWeierstrass
import Verif.Lemmas.SolFiles
import Verif.Lemmas.SolJubjub
import Verif.Lemmas.SolMerkle
import Verif.Lemmas.SolMiMC
import Verif.Lemmas.SolVerifier
import Verif.Lemmas.SolWnaf
import Verif.Lemmas.SubAdd
import Verif.Lemmas.TestBases
import Verif.Lemmas.TwistPrime
import Verif.Lemmas.Utils
import Verif.Lemmas.Zcash
import Verif.Lemmas.ZcashGadget
import Verif.Lemmas.ZcashSpec
import Verif.Model.BaseField
import Verif.Model.Benchmarks
import Verif.Model.Blake2b
import Verif.Model.CircuitReader
import Verif.Model.CircuitRelease
import Verif.Model.CircuitText
import Verif.Model.EdDSA
import Verif.Model.Evm
import Verif.Model.Field
import Verif.Model.Field2Bits
import Verif.Model.Gmp
import Verif.Model.Groth16
import Verif.Model.Json
import Verif.Model.Jubjub
import Verif.Model.JubjubBench
import Verif.Model.Libsnark
import Verif.Model.Lookup
import Verif.Model.Merkle
import Verif.Model.MiMC
import Verif.Model.Montgomery
import Verif.Model.OneOfN
import Verif.Model.PinocchioMain
import Verif.Model.PinocchioTests
import Verif.Model.Points
import Verif.Model.Poseidon
import Verif.Model.PyAppendix
import Verif.Model.PyCliSol
import Verif.Model.PyContractSol
import Verif.Model.PyEdDSA
import Verif.Model.PyEdDSAScript
import Verif.Model.PyEvmAsm
import Verif.Model.PyExport
import Verif.Model.PyField
import Verif.Model.PyJubjub
import Verif.Model.PyMerkle
import Verif.Model.PyNumberTheory
import Verif.Model.PyPedersen
import Verif.Model.PyPolySolver
import Verif.Model.PyPoseidon
import Verif.Model.PyShamir
import Verif.Model.PySieve
import Verif.Model.PyUtils
import Verif.Model.PyVerifier
import Verif.Model.R1CS
import Verif.Model.RunExample
import Verif.Model.SageCurve
import Verif.Model.Serialise
import Verif.Model.Sha256C
import Verif.Model.Sha256Gadgets
import Verif.Model.Shamir
import Verif.Model.SnarkUtils
import Verif.Model.SolEdDSA
import Verif.Model.SolGenerated
import Verif.Model.SolJubjub
import Verif.Model.SolMerkle
import Verif.Model.SolMiMC
import Verif.Model.SolMigrations
import Verif.Model.SolVerifier
import Verif.Model.Streams
import Verif.Model.SubAdd
import Verif.Model.TestMains
import Verif.Model.TestPrograms
import Verif.Model.TestPyJubjub
import Verif.Model.TestPyLib
import Verif.Model.TestPyMisc
import Verif.Model.TestSha256
import Verif.Model.TestSol
import Verif.Model.TestVerify
import Verif.Model.Utils
import Verif.Props.AlgebraicProver
import Verif.Props.Appendix
import Verif.Props.Benchmarks
import Verif.Props.Blake2b
import Verif.Props.Circuit
import Verif.Props.Circuit2
import Verif.Props.Circuit3
import Verif.Props.Circuit4
import Verif.Props.CircuitFile
import Verif.Props.CircuitRelease
import Verif.Props.CircuitText
import Verif.Props.Cli
import Verif.Props.EdDSA
import Verif.Props.EdDSAOpen
import Verif.Props.Field2Bits
import Verif.Props.FixedBase
import Verif.Props.Frames
import Verif.Props.Groth16
import Verif.Props.JsonFormat
import Verif.Props.Jubjub
import Verif.Props.JubjubBench
import Verif.Props.JubjubOrder
import Verif.Props.Lookup
import Verif.Props.LowOrder
import Verif.Props.Merkle
import Verif.Props.MerkleIV
import Verif.Props.MiMC
import Verif.Props.Montgomery
import Verif.Props.Numerals
import Verif.Props.OneOfN
import Verif.Props.Pedersen
import Verif.Props.PinocchioMain
import Verif.Props.PinocchioMain2
import Verif.Props.PinocchioTests
import Verif.Props.PinocchioTests2
import Verif.Props.PinocchioTrace
import Verif.Props.Points
import Verif.Props.PolySolver
import Verif.Props.Poseidon
import Verif.Props.PoseidonDefault
import Verif.Props.PoseidonMDS
import Verif.Props.PoseidonSize
import Verif.Props.PyCliSol
import Verif.Props.PyContractSol
import Verif.Props.PyEdDSA
import Verif.Props.PyEdDSAScript
import Verif.Props.PyEncoding
import Verif.Props.PyEvmAsm
import Verif.Props.PyExport
import Verif.Props.PyField
import Verif.Props.PyJubjub
import Verif.Props.PyMerkle
import Verif.Props.PyMiMCContract
import Verif.Props.PyNonce
import Verif.Props.PyNumberTheory
import Verif.Props.PyPedersen
import Verif.Props.PyPoseidon
import Verif.Props.PyPoseidonContract
import Verif.Props.PyShamir
import Verif.Props.PyUtils
import Verif.Props.PyVerifier
import Verif.Props.RunExample
import Verif.Props.SageCurve
import Verif.Props.ScalarMult
import Verif.Props.Serialise
import Verif.Props.Sha256C
import Verif.Props.Sha256Gadgets
import Verif.Props.Shamir
import Verif.Props.Sieve
import Verif.Props.SnarkUtils
import Verif.Props.SolJubjub
import Verif.Props.SolMerkle
import Verif.Props.SolMiMC
import Verif.Props.SolMigrations
import Verif.Props.SolVerifier
import Verif.Props.Streams
import Verif.Props.SubAdd
import Verif.Props.TestMains
import Verif.Props.TestMains2
import Verif.Props.TestPrograms
import Verif.Props.TestPrograms2
import Verif.Props.TestPyEdDSA
import Verif.Props.TestPyJubjub
import Verif.Props.TestPyLib
import Verif.Props.TestPyMisc
import Verif.Props.TestSha256
import Verif.Props.TestSol
import Verif.Props.TestVerify
import Verif.Props.Utils
import Verif.Props.Zcash
import Verif.Spec.AlgebraicProver
import Verif.Spec.Bits
import Verif.Spec.Blake2b
import Verif.Spec.Circuit
import Verif.Spec.CircuitRelease
import Verif.Spec.CircuitText
import Verif.Spec.EdDSA
import Verif.Spec.Edwards
import Verif.Spec.EvmAsm
import Verif.Spec.EvmMachine
import Verif.Spec.Hex
import Verif.Spec.IncrementalTree
import Verif.Spec.JsonFormat
import Verif.Spec.Keccak
import Verif.Spec.Merkle
import Verif.Spec.MiMC
import Verif.Spec.Montgomery
import Verif.Spec.PackedWords
import Verif.Spec.Padding
import Verif.Spec.Pairing
import Verif.Spec.Pedersen
import Verif.Spec.PinocchioMain
import Verif.Spec.Poseidon
import Verif.Spec.Precompiles
import Verif.Spec.PyEcc
import Verif.Spec.Rfc8259
import Verif.Spec.Serialise
import Verif.Spec.Sha2
import Verif.Spec.Sha256Gadgets
import Verif.Spec.Sha2Bits
import Verif.Spec.SolStruct
import Verif.Spec.SolText
import Verif.Spec.Streams
import Verif.Audit
