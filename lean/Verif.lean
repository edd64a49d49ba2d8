import Verif.Base58
import Verif.Basic
import Verif.Model.Admin
import Verif.Model.Aqua
import Verif.Model.AquaApi
import Verif.Model.AquaProg
import Verif.Model.Certificate
import Verif.Model.Debug
import Verif.Model.DebugTrust
import Verif.Model.Der
import Verif.Model.Distro
import Verif.Model.DistroText
import Verif.Model.Dto
import Verif.Model.ErrorText
import Verif.Model.Example
import Verif.Model.Generate
import Verif.Model.Graph
import Verif.Model.Hashable
import Verif.Model.Instance
import Verif.Model.Json
import Verif.Model.Keypair
import Verif.Model.Libp2p
import Verif.Model.OnStart
import Verif.Model.PeerId
import Verif.Model.PeerIdSerde
import Verif.Model.SecretBytes
import Verif.Model.Serde
import Verif.Model.Service
import Verif.Model.Shipped
import Verif.Model.Sql
import Verif.Model.SqlStorage
import Verif.Model.Sqlite
import Verif.Model.Text
import Verif.Model.Trust
import Verif.Spec.Bootstrap
import Verif.Spec.CertText
import Verif.Spec.Check
import Verif.Spec.Conforms
import Verif.Spec.Contract
import Verif.Spec.Crypto
import Verif.Spec.Damage
import Verif.Spec.Db
import Verif.Spec.Der
import Verif.Spec.Ed25519
import Verif.Spec.ErrorText
import Verif.Spec.Gossip
import Verif.Spec.Graph
import Verif.Spec.History
import Verif.Spec.Import
import Verif.Spec.Interleaving
import Verif.Spec.Json
import Verif.Spec.Keys
import Verif.Spec.Machine
import Verif.Spec.Ops
import Verif.Spec.Renaming
import Verif.Spec.Serde
import Verif.Spec.Service
import Verif.Spec.ServiceLibrary
import Verif.Spec.ServiceMachine
import Verif.Spec.Sha2
import Verif.Spec.Speech
import Verif.Spec.SqlRun
import Verif.Spec.Submit
import Verif.Spec.Submits
import Verif.Spec.Toy
import Verif.Spec.Trail
import Verif.Spec.Weight
import Verif.Spec.Wire
import Verif.Proofs.Admissible
import Verif.Proofs.Bootstrap
import Verif.Proofs.Bundle
import Verif.Proofs.Certificate
import Verif.Proofs.Certs
import Verif.Proofs.Codec
import Verif.Proofs.Contract
import Verif.Proofs.Cost
import Verif.Proofs.Damage
import Verif.Proofs.Db
import Verif.Proofs.Effects
import Verif.Proofs.ErrorText
import Verif.Proofs.FailStop
import Verif.Proofs.Faults
import Verif.Proofs.Formats
import Verif.Proofs.Import
import Verif.Proofs.Interleaving
import Verif.Proofs.Json
import Verif.Proofs.Machine
import Verif.Proofs.Monad
import Verif.Proofs.Mono
import Verif.Proofs.NoTrap
import Verif.Proofs.Ops
import Verif.Proofs.Reach
import Verif.Proofs.Search
import Verif.Proofs.Serde
import Verif.Proofs.Service
import Verif.Proofs.ServiceLibrary
import Verif.Proofs.ServiceMachine
import Verif.Proofs.ServiceRun
import Verif.Proofs.Shipped
import Verif.Proofs.Simulation
import Verif.Proofs.SqlStorage
import Verif.Proofs.Statements
import Verif.Proofs.StatementsCalls
import Verif.Proofs.Update
import Verif.Proofs.Weight
import Verif.Props.Access
import Verif.Props.Agree
import Verif.Props.AgreeWitness
import Verif.Props.AquaFlow
import Verif.Props.AquaWitness
import Verif.Props.Blowup
import Verif.Props.BlowupWitness
import Verif.Props.Bootstrap
import Verif.Props.Carry
import Verif.Props.CarryAll
import Verif.Props.CarryAllWitness
import Verif.Props.CarryWitness
import Verif.Props.CertText
import Verif.Props.Certificates
import Verif.Props.Certs
import Verif.Props.CertsWitness
import Verif.Props.Chain
import Verif.Props.ChainLength
import Verif.Props.ChainLengthWitness
import Verif.Props.Change
import Verif.Props.ChangeService
import Verif.Props.ChangeWitness
import Verif.Props.Check
import Verif.Props.Coherent
import Verif.Props.CoherentService
import Verif.Props.CoherentWitness
import Verif.Props.Compare
import Verif.Props.CompareService
import Verif.Props.CompareServiceWitness
import Verif.Props.CompareWitness
import Verif.Props.Containment
import Verif.Props.ContainmentService
import Verif.Props.ContainmentWitness
import Verif.Props.Contract
import Verif.Props.ContractSqlite
import Verif.Props.ContractWitness
import Verif.Props.Cost
import Verif.Props.CutOffService
import Verif.Props.Damage
import Verif.Props.DamageWitness
import Verif.Props.Debug
import Verif.Props.DebugTrust
import Verif.Props.Demo
import Verif.Props.Depth
import Verif.Props.Distance
import Verif.Props.DistanceService
import Verif.Props.DistanceWitness
import Verif.Props.Distro
import Verif.Props.Effect
import Verif.Props.EffectWitness
import Verif.Props.ErrorNumber
import Verif.Props.ErrorPlace
import Verif.Props.ErrorText
import Verif.Props.Example
import Verif.Props.ExampleBoot
import Verif.Props.ExampleRun
import Verif.Props.ExampleRunWitness
import Verif.Props.ExampleWitness
import Verif.Props.ExportService
import Verif.Props.Formats
import Verif.Props.Generate
import Verif.Props.Gossip
import Verif.Props.GossipWitness
import Verif.Props.Growth
import Verif.Props.History
import Verif.Props.HistoryWitness
import Verif.Props.Import
import Verif.Props.ImportWitness
import Verif.Props.Interleaving
import Verif.Props.InterleavingSame
import Verif.Props.InterleavingWitness
import Verif.Props.KeyPairs
import Verif.Props.Keys
import Verif.Props.LabelWitness
import Verif.Props.Libp2p
import Verif.Props.Machine
import Verif.Props.MachineWitness
import Verif.Props.Mirror
import Verif.Props.MirrorWitness
import Verif.Props.NoOverflow
import Verif.Props.OnStart
import Verif.Props.Order
import Verif.Props.OrderWitness
import Verif.Props.OwnWeight
import Verif.Props.OwnWeightWitness
import Verif.Props.Panics
import Verif.Props.Pardon
import Verif.Props.PeerIdSerde
import Verif.Props.PeerIds
import Verif.Props.Provenance
import Verif.Props.ProvenanceWitness
import Verif.Props.Refusals
import Verif.Props.Relations
import Verif.Props.RelationsOnto
import Verif.Props.RelationsWitness
import Verif.Props.Reliance
import Verif.Props.RelianceWitness
import Verif.Props.Renaming
import Verif.Props.RenamingWitness
import Verif.Props.Repeat
import Verif.Props.RepeatWitness
import Verif.Props.Restart
import Verif.Props.Robust
import Verif.Props.SameContent
import Verif.Props.SameContentWitness
import Verif.Props.SecretBytes
import Verif.Props.SelfTalk
import Verif.Props.SelfTalkWitness
import Verif.Props.Serde
import Verif.Props.SerdeTimes
import Verif.Props.Service
import Verif.Props.ServiceAnswers
import Verif.Props.ServiceFlow
import Verif.Props.ServiceLibrary
import Verif.Props.ServiceLibraryWitness
import Verif.Props.ServiceMachine
import Verif.Props.ServiceMachineWitness
import Verif.Props.ServiceTraps
import Verif.Props.ServiceUpstream
import Verif.Props.ServiceUpstreamWitness
import Verif.Props.ServiceWitness
import Verif.Props.SetRoot
import Verif.Props.SetRootWitness
import Verif.Props.Shipped
import Verif.Props.ShippedWitness
import Verif.Props.ShutOut
import Verif.Props.ShutOutWitness
import Verif.Props.Speech
import Verif.Props.SpeechWitness
import Verif.Props.Sql
import Verif.Props.SqlWitness
import Verif.Props.StartWitness
import Verif.Props.Statements
import Verif.Props.StatementsAdd
import Verif.Props.StatementsCalls
import Verif.Props.StatementsCallsWitness
import Verif.Props.Stays
import Verif.Props.StaysWitness
import Verif.Props.Strangers
import Verif.Props.StrangersWitness
import Verif.Props.Subnetwork
import Verif.Props.TakenService
import Verif.Props.Updates
import Verif.Props.UpdatesWitness
import Verif.Props.Upstream
import Verif.Props.UpstreamWitness
import Verif.Props.UseWitness
import Verif.Props.WeightFactor
import Verif.Props.WeightFactorWitness
import Verif.Props.Weights
import Verif.Props.WeightsWitness
import Verif.Props.Wire
import Verif.Props.WrongClock
import Verif.Props.WrongClockWitness
import Verif.Props.X509
import Verif.Conformance.LibraryTests
import Verif.Conformance.ServiceTests
