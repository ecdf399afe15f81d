import Verif.Props.R1cs
import Verif.Props.Boolean
import Verif.Props.UInt32
import Verif.Props.Sha256
import Verif.Props.Blake2s
import Verif.Props.Mimc
import Verif.Props.Hashes
import Verif.Props.RescueExp
import Verif.Props.Lookup
import Verif.Props.RangeProof
import Verif.Props.Cbmt
import Verif.Props.Groth16
import Verif.Props.Bulletproofs
import Verif.Props.Tools
import Verif.Props.Asvc
import Verif.Props.Kzg
import Verif.Props.MarlinCs
import Verif.Props.MarlinPlace
import Verif.Props.Marlin
import Verif.Props.MarlinComplete
import Verif.Props.MarlinShape
import Verif.Props.PlonkComposer
import Verif.Props.PlonkComplete
import Verif.Props.Multilinear
import Verif.Props.SpartanR1cs
import Verif.Props.SpartanMemory
import Verif.Props.SpartanNizk
import Verif.Props.SpartanSound
import Verif.Props.SpartanTimestamps
import Verif.Props.SumCheck
import Verif.Props.Layered
import Verif.Props.LibraTables
import Verif.Props.LibraSound
import Verif.Props.Libra
import Verif.Model.CommitProofs
import Verif.Model.Hyrax
import Verif.Proof.CommitProofs
import Verif.Proof.CommitEval
import Verif.Props.CommitProofs
import Verif.Proof.Hyrax
import Verif.Props.Hyrax
import Verif.Props.HyraxSound
import Verif.Model.HyraxProver
import Verif.Model.LibraZk
import Verif.Proof.HyraxProve
import Verif.Proof.HyraxLayer
import Verif.Proof.HyraxRun
import Verif.Proof.HyraxZk
import Verif.Proof.HyraxLayers
import Verif.Proof.HyraxHonest
import Verif.Props.HyraxComplete
import Verif.Props.LibraZk
import Verif.Props.LibraShape
import Verif.Props.LibraZkSound
import Verif.Model.SpartanProver
import Verif.Proof.SpartanProver
import Verif.Props.SpartanComplete
import Verif.Props.SpartanSnarkSound
import Verif.Props.SpartanSnarkComplete
import Verif.Props.SpartanSnarkPartial
import Verif.Props.Digests
import Verif.Props.SpartanSetup
import Verif.Props.TestCs
import Verif.Props.Ristretto
import Verif.Props.GkrContracts
import Verif.Props.Groth16Sound
import Verif.Props.Groth16Zk
import Verif.Props.CommitHiding
import Verif.Props.BulletproofsZk
import Verif.Props.SpartanZk
import Verif.Props.LibraHiding
import Verif.Props.HyraxHiding
import Verif.Props.PlonkHiding
import Verif.Props.SpartanSnarkZk
import Verif.Props.HashTables
import Verif.Props.HashTablesUse
import Verif.Props.MarlinZk
import Verif.Props.IppExtract
import Verif.Props.BpExtract
import Verif.Props.HyraxChecked
import Verif.Props.HyraxInputs
import Verif.Props.DotProduct
import Verif.Props.Challenge
import Verif.Props.MarlinSoundCase
import Verif.Props.CliTool
import Verif.Props.Backends
import Verif.Props.InputCount
import Verif.Model.MerkleExample
import Verif.Props.MerkleExample
import Verif.Props.PlonkKey
import Verif.Props.MarlinBytes
import Verif.Props.Malleable
import Verif.Props.PlonkCosets
import Verif.Props.BulletproofsBound
import Verif.Props.Aborts
import Verif.Model.KzgRng
import Verif.Props.KzgRng
import Verif.Model.TestCircuits
import Verif.Props.TestCircuits
import Verif.Model.TestR1cs
import Verif.Props.TestR1cs
