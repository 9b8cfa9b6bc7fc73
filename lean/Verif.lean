import Verif.Buffer.Props
import Verif.Buffer.IO
import Verif.Buffer.PropsStream
import Verif.Codec.Props
import Verif.Codec.PropsDecode
import Verif.Rpc.Props
import Verif.LogStore.Props
import Verif.LogStore.Full
import Verif.LogStore.PropsFull
import Verif.LogStore.Disk
import Verif.LogStore.DiskLemmas
import Verif.LogStore.DiskSteps
import Verif.LogStore.PropsDisk
import Verif.LogStore.Cookie
import Verif.LogStore.Link
import Verif.Raft.PropsVote
import Verif.Raft.PropsLog
import Verif.Raft.PropsCommit
import Verif.Raft.PropsLeader
import Verif.Raft.Events
import Verif.Raft.PropsEvents
import Verif.Raft.PropsMember
import Verif.Raft.PropsApi
import Verif.Raft.Walk
import Verif.Raft.PropsMake
import Verif.Raft.PropsSnap
import Verif.Cluster.Complete
import Verif.Cluster.LocalAll
import Verif.Cluster.PropsCluster
import Verif.Cluster.PropsCalm
import Verif.Conc.PropsAsync
import Verif.Conc.PropsCommit
import Verif.Conc.CatchUp
import Verif.Conc.PropsCatchUp
import Verif.Conc.Stamp
import Verif.Conc.PropsStamp
import Verif.Raft.PropsBehind
import Verif.Conc.PropsTimer
import Verif.Conc.PeerTimer
import Verif.Conc.PropsPeerTimer
import Verif.Conc.PropsService
import Verif.Raft.Role
import Verif.Raft.PropsRace
import Verif.Raft.PropsCount
import Verif.Raft.PropsBusy
import Verif.Raft.PropsLife
import Verif.Conc.PropsClient
import Verif.Rpc.PropsEndpoint
import Verif.Raft.Idle
import Verif.Raft.Indep
import Verif.Cluster.Told
import Verif.Raft.Forward
import Verif.Raft.PropsForward
import Verif.Raft.Named
import Verif.Raft.PropsAddress
import Verif.Raft.PropsJoin
import Verif.Raft.Steady
import Verif.Raft.PropsLeave
import Verif.Raft.PropsChange
import Verif.Raft.PropsCatch
import Verif.Raft.Tell
import Verif.Raft.PropsAnnounce
import Verif.Raft.Waits
import Verif.Raft.Wait
import Verif.Raft.PropsWaits
import Verif.Raft.Own
import Verif.Raft.PropsOwn
import Verif.Raft.PropsProcess
import Verif.Raft.Free
import Verif.Raft.PropsFree
import Verif.Cluster.PropsCatch
import Verif.Conc.PropsShare
import Verif.Raft.Shape
import Verif.Link.Model
import Verif.Link.Props
import Verif.Link.PropsServer
import Verif.Raft.Few
import Verif.Link.PropsBatch
import Verif.Raft.Stand
import Verif.Raft.PropsStand
import Verif.Cluster.PropsStand
import Verif.Conc.Apply
import Verif.Conc.PropsApply
import Verif.Conc.Logger
import Verif.Conc.PropsLogger
import Verif.Conc.Listener
import Verif.Conc.PropsListener
import Verif.Conc.Locks
import Verif.Conc.LocksInv
import Verif.Conc.PropsLocks
import Verif.Raft.Held
import Verif.Raft.Crown
import Verif.Raft.Mute
import Verif.Cluster.Wide
import Verif.Cluster.WideInv
import Verif.Cluster.PropsWide
import Verif.Cluster.Change
import Verif.Cluster.ChangeInv
import Verif.Cluster.PropsChange
import Verif.Cluster.Spares
import Verif.Cluster.Elect
import Verif.Cluster.Poll
import Verif.Cluster.Gather
import Verif.Cluster.Progress
import Verif.Cluster.Lead
import Verif.Cluster.Collect
import Verif.Cluster.Finish
import Verif.Cluster.Alone
import Verif.Cluster.PropsProgress
import Verif.Cluster.Stall
import Verif.Raft.Settings
import Verif.Cluster.PropsSettings
import Verif.Text.Model
import Verif.Text.Props
import Verif.Raft.Blocks
import Verif.Raft.PropsRead
import Verif.Raft.Offsets
import Verif.Raft.PropsHoles
import Verif.Raft.Beat
import Verif.Raft.NoBeat
import Verif.Raft.PropsBeat
import Verif.Raft.NoRing
import Verif.Raft.PropsRing
import Verif.LogStore.PropsPack
import Verif.LogStore.PropsPackBytes
import Verif.Cluster.PropsPack
import Verif.Raft.Return
import Verif.Raft.PropsReturn
import Verif.Cluster.CutLocal
import Verif.Cluster.CutLead
import Verif.Cluster.CutVote
import Verif.Cluster.CutReq
import Verif.Cluster.CutAll
import Verif.Cluster.CutSpec
import Verif.Cluster.CutWorld
import Verif.Cluster.CutInv
import Verif.Cluster.CutCommit
import Verif.Cluster.CutWait
import Verif.Cluster.CutTold
import Verif.Cluster.CutPlay
import Verif.Cluster.PropsCut
import Verif.LogStore.Threads
import Verif.LogStore.PropsThreads
import Verif.Raft.Sender
import Verif.Raft.PropsSender
import Verif.Cluster.PropsSender
import Verif.LogStore.PropsCrash
import Verif.LogStore.PropsPackCrash
import Verif.LogStore.Close
import Verif.LogStore.PropsClose
import Verif.LogStore.FullPack
import Verif.LogStore.PropsFullPack
import Verif.LogStore.FullWrite
import Verif.LogStore.PropsFullWrite
