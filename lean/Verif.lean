import Verif.Base.SMap
import Verif.Model.Json
import Verif.Model.Database
import Verif.Model.Memory
import Verif.Spec.Graph
import Verif.Proofs.Query
import Verif.Proofs.Container
import Verif.Proofs.MemoryReads
import Verif.Proofs.Memory
import Verif.Proofs.Answers
import Verif.Proofs.MemoryHistory
import Verif.Spec.Store
import Verif.Proofs.Store
import Verif.Proofs.MemoryStore
import Verif.Proofs.JsonLaws
import Verif.Props.Witness
import Verif.Props.Memory
import Verif.Props.MemoryBulk
import Verif.Spec.Checked
import Verif.Spec.RocksSem
import Verif.Proofs.Keys
import Verif.Proofs.Prog
import Verif.Proofs.RocksReads
import Verif.Proofs.RocksBatches
import Verif.Proofs.RocksWrites
import Verif.Proofs.RocksPuts
import Verif.Proofs.RocksIndex
import Verif.Proofs.RocksStore
import Verif.Proofs.RocksOnce
import Verif.Proofs.RocksHistory
import Verif.Props.RocksWitness
import Verif.Props.Rocks
import Verif.Props.RocksBulk
import Verif.Props.Keys
import Verif.Spec.Linear
import Verif.Proofs.Linear
import Verif.Proofs.MutexConc
import Verif.Props.MemoryConc
import Verif.Proofs.RocksCall
import Verif.Proofs.RocksConc
import Verif.Spec.RocksConc
import Verif.Proofs.RocksCrash
import Verif.Proofs.RocksSeq
import Verif.Proofs.RocksOpen
import Verif.Props.RocksConc
import Verif.Props.RocksRace
import Verif.Spec.Values
import Verif.Proofs.Values
import Verif.Props.Values
import Verif.Proofs.MemorySync
import Verif.Props.MemorySync
import Verif.Props.UuidV1
import Verif.Props.Proto
import Verif.Props.Closed
import Verif.Props.Server
import Verif.Props.PluginMap
import Verif.Props.Plugins
import Verif.Props.Agree
import Verif.Props.Observe
import Verif.Props.Cli
import Verif.Props.Kind
import Verif.Props.JsonOrder
import Verif.Props.ServerMain
import Verif.Props.RocksLife
import Verif.Props.Progress
import Verif.Props.RocksFaults
import Verif.Proofs.RocksCalm
import Verif.Props.RocksCalm
import Verif.Proofs.MemoryAny
import Verif.Proofs.MemoryCoherent
import Verif.Props.MemoryAny
import Verif.Props.MemoryAnySync
import Verif.Props.MemoryAnyConc
import Verif.Props.RawIdentifier
import Verif.Props.ReplyChannel
import Verif.Props.RocksComplete
import Verif.Props.RocksNames
import Verif.Props.RocksMeta
import Verif.Props.PluginTxn
import Verif.Props.ServerConc
import Verif.Props.RocksFill
import Verif.Props.Moments
import Verif.Props.ServerProgress
import Verif.Props.RocksApp
import Verif.Props.AppMoments
import Verif.Props.AppNames
import Verif.Props.RocksServer
import Verif.Props.SrvSched
import Verif.Props.RocksServerCases
import Verif.Props.RocksServerProgress
import Verif.Props.Unread
import Verif.Spec.AnyMoments
import Verif.Proofs.Mimic
import Verif.Proofs.AnyMoments
import Verif.Props.AnyMoments
import Verif.Props.BulkStream
import Verif.Props.SharedImage
import Verif.Model.GetStream
import Verif.Spec.GetStream
import Verif.Proofs.GetStream
import Verif.Props.GetStream
import Verif.Model.ServerStart
import Verif.Spec.ServerStart
import Verif.Props.ServerStart
import Verif.Spec.Truth
import Verif.Proofs.Truth
import Verif.Props.Truth
import Verif.Model.Equality
import Verif.Spec.Equality
import Verif.Proofs.Equality
import Verif.Props.Equality
import Verif.Spec.IndexPast
import Verif.Proofs.IndexPast
import Verif.Props.IndexPast
import Verif.Spec.RocksPast
import Verif.Proofs.RocksPast
import Verif.Props.RocksPast
import Verif.Model.Msgpack
import Verif.Spec.Msgpack
import Verif.Proofs.Msgpack
import Verif.Proofs.MemHolds
import Verif.Props.Msgpack
import Verif.Spec.ServerBytes
import Verif.Props.ServerBytes
import Verif.Spec.Failure
import Verif.Proofs.Failure
import Verif.Props.Failure
import Verif.Model.JsonText
import Verif.Spec.JsonText
import Verif.Proofs.JsonText
import Verif.Proofs.JsonUtf8
import Verif.Props.JsonText
import Verif.Model.JsonFloat
import Verif.Spec.JsonFloat
import Verif.Proofs.JsonFloat
import Verif.Props.JsonFloat
import Verif.Spec.JsonGrammar
import Verif.Proofs.JsonGrammar
import Verif.Proofs.JsonGrammarUtf8
import Verif.Props.JsonGrammar
import Verif.Spec.JsonAccuracy
import Verif.Proofs.JsonAccuracy
import Verif.Proofs.JsonAccuracy2
import Verif.Props.JsonAccuracy
import Verif.Model.Wire
import Verif.Model.WireCall
import Verif.Spec.Wire
import Verif.Proofs.Wire
import Verif.Proofs.Wire2
import Verif.Proofs.Wire3
import Verif.Proofs.Wire4
import Verif.Proofs.WireCall
import Verif.Proofs.WireLater
import Verif.Props.Wire
import Verif.Model.UuidText
import Verif.Spec.UuidText
import Verif.Proofs.UuidText
import Verif.Props.UuidText
import Verif.Model.Session
import Verif.Spec.Session
import Verif.Proofs.Session
import Verif.Props.Session
import Verif.Spec.Made
import Verif.Proofs.Made
import Verif.Props.Made
import Verif.Spec.Stays
import Verif.Proofs.Stays
import Verif.Props.Stays
import Verif.Spec.Gone
import Verif.Proofs.Gone
import Verif.Props.Gone
import Verif.Props.LifeAck
