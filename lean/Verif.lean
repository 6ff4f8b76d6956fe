import Verif.Abs.Inv
import Verif.Abs.Lemmas
import Verif.Abs.Protocol
import Verif.Basic
import Verif.Cluster.Core
import Verif.Cluster.Demo
import Verif.Cluster.LeaseInv
import Verif.Cluster.LeaseMain
import Verif.Cluster.Live
import Verif.Cluster.Main
import Verif.Cluster.ReadInv
import Verif.Cluster.Reads
import Verif.Cluster.ReadsMain
import Verif.Cluster.Rel
import Verif.Demo
import Verif.Dyn.Boot
import Verif.Dyn.BootDemo
import Verif.Dyn.BootLive
import Verif.Dyn.BootReads
import Verif.Dyn.Conf
import Verif.Dyn.Core
import Verif.Dyn.Demo
import Verif.Dyn.Home
import Verif.Dyn.Inv
import Verif.Dyn.LeaseMain
import Verif.Dyn.Lemmas
import Verif.Dyn.Live
import Verif.Dyn.LiveStep
import Verif.Dyn.Machine
import Verif.Dyn.Main
import Verif.Dyn.MidSafe
import Verif.Dyn.Own
import Verif.Dyn.OwnPath
import Verif.Dyn.Protocol
import Verif.Dyn.Reads
import Verif.Dyn.ReadsMain
import Verif.Dyn.Ready
import Verif.Dyn.ReadySafe
import Verif.Dyn.Rel
import Verif.Dyn.Safety
import Verif.Dyn.Status
import Verif.Dyn.Up
import Verif.Dyn.Works
import Verif.Model.ConfChange
import Verif.Model.Inflights
import Verif.Model.Log
import Verif.Model.PbConf
import Verif.Model.Progress
import Verif.Model.Quorum
import Verif.Model.Raft
import Verif.Model.RawNode
import Verif.Model.ReadOnly
import Verif.Model.Reuse
import Verif.Model.Status
import Verif.Model.Storage
import Verif.Model.StorageAlias
import Verif.Model.Tracker
import Verif.Model.Types
import Verif.Model.Unstable
import Verif.Model.Util
import Verif.Model.Wire
import Verif.Node.Append
import Verif.Node.Ask
import Verif.Node.Calls
import Verif.Node.Commit
import Verif.Node.Core
import Verif.Node.Deaf
import Verif.Node.Disk
import Verif.Node.Durable
import Verif.Node.Elect
import Verif.Node.Facts
import Verif.Node.Flow
import Verif.Node.From
import Verif.Node.Handed
import Verif.Node.History
import Verif.Node.Hush
import Verif.Node.Leader
import Verif.Node.LogInv
import Verif.Node.New
import Verif.Node.Plain
import Verif.Node.Prompt
import Verif.Node.ReadIndex
import Verif.Node.ReadyConf
import Verif.Node.ReadyLog
import Verif.Node.Send
import Verif.Node.Sim
import Verif.Node.Still
import Verif.Node.Terms
import Verif.Node.Transfer
import Verif.Node.Turn
import Verif.Node.Valid
import Verif.Node.Window
import Verif.Proofs.ConfChange
import Verif.Proofs.Inflights
import Verif.Proofs.Log
import Verif.Proofs.Quorum
import Verif.Proofs.Sets
import Verif.Proofs.Storage
import Verif.Proofs.Wire
import Verif.Proofs.WireEnv
import Verif.Proofs.WireMsgs
import Verif.Props.Boot
import Verif.Props.BootLive
import Verif.Props.BootReads
import Verif.Props.Cluster
import Verif.Props.ConfChange
import Verif.Props.ConfCheck
import Verif.Props.Crash
import Verif.Props.Cut
import Verif.Props.Flow
import Verif.Props.Given
import Verif.Props.Group
import Verif.Props.GroupDemo
import Verif.Props.Handed
import Verif.Props.Hist
import Verif.Props.HistUse
import Verif.Props.Inflights
import Verif.Props.Joiners
import Verif.Props.Lease
import Verif.Props.Live
import Verif.Props.Log
import Verif.Props.LogHistory
import Verif.Props.Machine
import Verif.Props.MachineLease
import Verif.Props.MachineReads
import Verif.Props.Members
import Verif.Props.MembersLease
import Verif.Props.MembersLive
import Verif.Props.MembersReads
import Verif.Props.NodeAsk
import Verif.Props.NodeCommit
import Verif.Props.NodeCore
import Verif.Props.NodeLeader
import Verif.Props.NodeLocal
import Verif.Props.NodePrompt
import Verif.Props.NodePropose
import Verif.Props.NodeReady
import Verif.Props.NodeRestart
import Verif.Props.NodeSend
import Verif.Props.NodeTimers
import Verif.Props.NodeTransfer
import Verif.Props.NodeTurn
import Verif.Props.NodeVote
import Verif.Props.Outbox
import Verif.Props.PbConf
import Verif.Props.Peers
import Verif.Props.Progress
import Verif.Props.Proto
import Verif.Props.Quorate
import Verif.Props.Quorum
import Verif.Props.Quota
import Verif.Props.ReadOnly
import Verif.Props.Reads
import Verif.Props.Recover
import Verif.Props.Reports
import Verif.Props.Restore
import Verif.Props.Reuse
import Verif.Props.Size
import Verif.Props.Status
import Verif.Props.Storage
import Verif.Props.Tally
import Verif.Props.Tended
import Verif.Props.Terms
import Verif.Props.Util
import Verif.Props.Wire
import Verif.Props.Works
import Verif.Recover.Can
import Verif.Recover.Elect
import Verif.Recover.Repl
import Verif.Recover.Rest
import Verif.Recover.Round
import Verif.Recover.Start
import Verif.Recover.Tame
import Verif.Recover.Vote
import Verif.Recover.Win
import Verif.Safe.Advance
import Verif.Safe.Basic
import Verif.Safe.Change
import Verif.Safe.Conf
import Verif.Safe.Handlers
import Verif.Safe.Leader
import Verif.Safe.Node
import Verif.Safe.Step
import Verif.Safe.Switch
import Verif.Safe.Total
import Verif.Spec.Boot
import Verif.Spec.BootLease
import Verif.Spec.BootLive
import Verif.Spec.Cluster
import Verif.Spec.ConfChange
import Verif.Spec.ConfEntry
import Verif.Spec.Crash
import Verif.Spec.Cut
import Verif.Spec.Flow
import Verif.Spec.Given
import Verif.Spec.Group
import Verif.Spec.Handed
import Verif.Spec.Hist
import Verif.Spec.Lease
import Verif.Spec.Live
import Verif.Spec.Log
import Verif.Spec.Machine
import Verif.Spec.MachineLease
import Verif.Spec.MachineReads
import Verif.Spec.Members
import Verif.Spec.MembersLease
import Verif.Spec.MembersLive
import Verif.Spec.MembersReads
import Verif.Spec.MembersSafe
import Verif.Spec.Node
import Verif.Spec.Outbox
import Verif.Spec.Proto
import Verif.Spec.Quorum
import Verif.Spec.Quota
import Verif.Spec.RaftLog
import Verif.Spec.Reads
import Verif.Spec.Recover
import Verif.Spec.Reports
import Verif.Spec.Requests
import Verif.Spec.Resume
import Verif.Spec.Size
import Verif.Spec.Status
import Verif.Spec.Terms
import Verif.Spec.Transfer
import Verif.Spec.Turn
import Verif.Spec.Wire
import Verif.Spec.Works
