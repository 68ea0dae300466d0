import Verif.Props.MerkleUniversal
import Verif.Props.MerkleProofs
import Verif.Props.MerkleAppend
import Verif.Props.MerkleRange
import Verif.Props.CircuitArith
import Verif.Props.CircuitLogic
import Verif.Props.CircuitRange
import Verif.Props.CircuitPublic
import Verif.Props.ReedSolomon
import Verif.Props.Conversion
import Verif.Props.Kzg
import Verif.Props.Fk23
import Verif.Props.Schnorr
import Verif.Props.SchnorrNonce
import Verif.Props.Bls
import Verif.Props.HashToCurve
import Verif.Props.ElGamal
import Verif.Props.Rescue
import Verif.Props.RescueSponge
import Verif.Props.RescueCircuit
import Verif.Props.Poseidon2
import Verif.Props.Poseidon2Sponge
import Verif.Props.Emulated
import Verif.Props.EmulatedAdd
import Verif.Props.EmulatedCmp
import Verif.Circuit.EmulatedCurve
import Verif.Props.EmulatedChain
import Verif.Props.EmulatedSwChain
import Verif.Props.EmulatedSw
import Verif.Props.EmulatedSwLaw
import Verif.Props.EmulatedHonest
import Verif.Props.EmulatedSwHonest
import Verif.Props.EmulatedSwProps
import Verif.Props.EmulatedTe
import Verif.Props.EmulatedTeProps
import Verif.Props.EmulatedPoints
import Verif.Util.SwToTe
import Verif.Util.WeierLadder
import Verif.Circuit.SwToTe
import Verif.Props.SwToTe
import Verif.Props.ModArith
import Verif.Props.Ecc
import Verif.Props.Msm
import Verif.Props.Glv
import Verif.Props.SchnorrCircuit
import Verif.Circuit.ElGamalGadget
import Verif.Props.ElGamalCircuit
import Verif.Props.MerkleCircuit
import Verif.Props.Multilinear
import Verif.Props.Finalize
import Verif.Props.CopyConstraints
import Verif.Props.LookupArgument
import Verif.Props.Merge
import Verif.Props.Lagrange
import Verif.Plonk.Verifier
import Verif.Plonk.ConstraintSpec
import Verif.Plonk.VerifierLemmas
import Verif.Props.Verifier
import Verif.Plonk.Keys
import Verif.Plonk.Degrees
import Verif.Props.EndToEnd
import Verif.Plonk.Transcript
import Verif.Plonk.Prover
import Verif.Plonk.ProverPoly
import Verif.Plonk.ProverQuot
import Verif.Plonk.ProverSplit
import Verif.Plonk.ProverOpen
import Verif.Plonk.ProverRun
import Verif.Plonk.ProverCircuit
import Verif.Props.Prover
import Verif.Plonk.ProverTotal
import Verif.Plonk.ProverOutcome
import Verif.Plonk.Hiding
import Verif.Props.ProverOutcome
import Verif.Props.Hiding
import Verif.Plonk.IdealSplit
import Verif.Plonk.Agree
import Verif.Plonk.HidingTurbo
import Verif.Props.HidingTurbo
import Verif.Circuit.VerifierPoly
import Verif.Circuit.VerifierSpec
import Verif.Circuit.VerifierEval
import Verif.Circuit.VerifierPi
import Verif.Circuit.VerifierConst
import Verif.Circuit.VerifierAdv
import Verif.Circuit.VerifierNative
import Verif.Props.VerifierCircuit
import Verif.Plonk.RescueTranscript
import Verif.Circuit.TranscriptVar
import Verif.Circuit.TranscriptSpec
import Verif.Props.TranscriptCircuit
import Verif.Props.TranscriptCounter
import Verif.Plonk.ByteTranscripts
import Verif.Plonk.TranscriptBinding
import Verif.Props.TranscriptBinding
import Verif.Plonk.BatchArg
import Verif.Circuit.VerifierAgg
import Verif.Circuit.VerifierAggSpec
import Verif.Circuit.VerifierAggEval
import Verif.Circuit.VerifierCombine
import Verif.Circuit.VerifierAggNative
import Verif.Circuit.VerifierAggKeys
import Verif.Props.VerifierPoints
import Verif.Props.VerifierPointsHash
import Verif.Props.VerifierPointsEx
import Verif.Props.VerifierInput
import Verif.Plonk.BatchArgProve
import Verif.Plonk.MergedKey
import Verif.Plonk.ProverMerged
import Verif.Props.BatchArg
import Verif.Circuit.RescueNonNative
import Verif.Circuit.RescueNonNativeSpec
import Verif.Circuit.RescueNonNativeAdv
import Verif.Props.RescueNonNative
import Verif.Merkle.Oracle
import Verif.Merkle.Hashes
import Verif.Props.MerkleHashes
import Verif.Merkle.Serde
import Verif.Props.MerkleSerde
import Verif.Merkle.SerdeRaw
import Verif.Props.MerkleSerdeRaw
import Verif.Plonk.Serde
import Verif.Props.PlonkSerde
import Verif.Props.CryptoSerde
import Verif.Props.Tagged
import Verif.Props.TaggedDerive
import Verif.Props.Dummy
import Verif.Props.DummyProver
import Verif.Plonk.ProofFields
import Verif.Props.ProofFields
import Verif.Pcs.IopTranscript
import Verif.Props.MlSound
import Verif.Sig.Aead
import Verif.Props.Aead
import Verif.Props.ProverRare
import Verif.Plonk.Snark
import Verif.Props.Snark
import Verif.Plonk.BuiltExt
import Verif.Circuit.Poe
import Verif.Props.Poe
import Verif.Props.TableBuilt
import Verif.Props.VerifierOuter
