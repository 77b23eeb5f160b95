import Verif.Props.Ids
import Verif.Props.Mem
import Verif.Props.Query
import Verif.Props.Set
import Verif.Props.SetExact
import Verif.Props.Results
import Verif.Props.U64Gen
import Verif.Props.Sled
import Verif.Props.SledCrash
import Verif.Props.SledConc
import Verif.Props.SledRecords
import Verif.Props.SledFrame
import Verif.Props.SledScan
import Verif.Props.SledLazy
import Verif.Props.SledWell
import Verif.Props.SledDebug
import Verif.Props.Index
import Verif.Props.IndexExact
import Verif.Props.Rdf
import Verif.Props.RdfEq
import Verif.Props.RdfSled
import Verif.Props.RdfSledConc
import Verif.Props.UlidGen
import Verif.Props.StoreEq
import Verif.Props.Conformance
import Verif.Props.RdfSplit
import Verif.Props.SledSelf
import Verif.Props.World
import Verif.Props.Closure
import Verif.Props.Bincode
import Verif.Props.Docs
import Verif.Props.Reads
import Verif.Props.SledRace
import Verif.Props.Repair
import Verif.Model.SledRemove
import Verif.Spec.SledRemove
import Verif.Spec.SledBulk
import Verif.Proof.LinearRely
import Verif.Proof.SledRemove
import Verif.Proof.SledBulk
import Verif.Props.SledRemove
import Verif.Props.SledBulk
import Verif.Spec.SledLoose
import Verif.Proof.LinearGhost
import Verif.Proof.SledLoose
import Verif.Proof.SledLooseRun
import Verif.Props.SledLoose
import Verif.Spec.SledSessions
import Verif.Proof.SledSessions
import Verif.Props.SledSessions
import Verif.Model.Bench
import Verif.Model.RdfSledRemove
import Verif.Spec.Bench
import Verif.Spec.RdfSledLoose
import Verif.Proof.Bench
import Verif.Proof.RdfSledFollow
import Verif.Proof.RdfSledDoes
import Verif.Proof.StepsB
import Verif.Proof.RdfSledSim
import Verif.Proof.RdfSledLoose
import Verif.Props.Bench
import Verif.Props.RdfSledLoose
import Verif.Model.RdfSledScan
import Verif.Model.RdfSledQuery
import Verif.Spec.RdfSledScan
import Verif.Spec.RdfSledQuery
import Verif.Proof.SledReadingP
import Verif.Proof.SledUses
import Verif.Proof.RdfSledScan
import Verif.Proof.RdfSledQuery
import Verif.Proof.RdfSledValues
import Verif.Props.RdfSledScan
import Verif.Props.RdfSledQuery
import Verif.Model.RdfWorld
import Verif.Spec.RdfWorld
import Verif.Proof.RdfWorld
import Verif.Model.RdfSelf
import Verif.Proof.RdfSelf
import Verif.Proof.RdfProgram
import Verif.Props.RdfWorld
import Verif.Props.SledRaceExact
import Verif.Props.SledReadExact
import Verif.Props.NameRace
import Verif.Props.History
import Verif.Model.SledTx
import Verif.Spec.SledTx
import Verif.Proof.SledTx
import Verif.Proof.SledTxCalls
import Verif.Props.SledTx
import Verif.Proof.HistoryLoose
import Verif.Props.HistoryLoose
import Verif.Proof.RdfHistory
import Verif.Props.RdfHistory
import Verif.Spec.Ends
import Verif.Proof.Ends
import Verif.Proof.EndsCalls
import Verif.Props.Ends
import Verif.Spec.Grows
import Verif.Proof.Grows
import Verif.Proof.GrowsCalls
import Verif.Props.Grows
import Verif.Spec.Places
import Verif.Proof.Places
import Verif.Props.Places
import Verif.Spec.RdfPlaces
import Verif.Proof.RdfPlaces
import Verif.Props.RdfPlaces
import Verif.Spec.Converge
import Verif.Proof.Converge
import Verif.Props.Converge
import Verif.Spec.Loss
import Verif.Proof.Loss
import Verif.Props.Loss
import Verif.Model.SledFeed
import Verif.Spec.SledFeed
import Verif.Proof.Simulate
import Verif.Proof.SledFeed
import Verif.Proof.SledFeedOwn
import Verif.Props.SledFeed
