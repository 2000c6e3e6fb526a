import Verif.Model.Base
import Verif.Model.Lib
import Verif.Model.Prg
import Verif.Model.Vidpf
import Verif.Model.Merkle
import Verif.Model.Collect
import Verif.Model.Server
import Verif.Model.Driver
import Verif.Model.Main
import Verif.Spec.Abm
import Verif.Spec.Attack
import Verif.Spec.Batches
import Verif.Spec.Bound
import Verif.Spec.Certain
import Verif.Spec.Collect
import Verif.Spec.Collude
import Verif.Spec.Copies
import Verif.Spec.Crawl
import Verif.Spec.Decode
import Verif.Spec.Deviate
import Verif.Spec.Driver
import Verif.Spec.Effort
import Verif.Spec.Final
import Verif.Spec.Flat
import Verif.Spec.Forge
import Verif.Spec.Frames
import Verif.Spec.Inflate
import Verif.Spec.KeyHide
import Verif.Spec.Left
import Verif.Spec.Lengths
import Verif.Spec.Libprio
import Verif.Spec.Log2
import Verif.Spec.Main
import Verif.Spec.Metrics
import Verif.Spec.Modes
import Verif.Spec.Move
import Verif.Spec.Pm
import Verif.Spec.PmHide
import Verif.Spec.Prg
import Verif.Spec.Prio3
import Verif.Spec.Prio3Hide
import Verif.Spec.Recite
import Verif.Spec.Repeat
import Verif.Spec.Run
import Verif.Spec.RunHide
import Verif.Spec.Script
import Verif.Spec.Search
import Verif.Spec.Server
import Verif.Spec.Settings
import Verif.Spec.Split
import Verif.Spec.Spy
import Verif.Spec.Startup
import Verif.Spec.Tap
import Verif.Spec.Tests
import Verif.Spec.Typed
import Verif.Spec.Vidpf
import Verif.Spec.Weights
import Verif.Spec.Wire
import Verif.Lemmas.Abm
import Verif.Lemmas.AbmReplies
import Verif.Lemmas.AbmRun
import Verif.Lemmas.Batch
import Verif.Lemmas.Certain
import Verif.Lemmas.Collect
import Verif.Lemmas.Collude
import Verif.Lemmas.Copies
import Verif.Lemmas.Crawl
import Verif.Lemmas.Decode
import Verif.Lemmas.Deviate
import Verif.Lemmas.DeviateAbm
import Verif.Lemmas.DeviatePm
import Verif.Lemmas.Effort
import Verif.Lemmas.Engine
import Verif.Lemmas.ExRel
import Verif.Lemmas.Exec
import Verif.Lemmas.Face
import Verif.Lemmas.Final
import Verif.Lemmas.Flat
import Verif.Lemmas.Float
import Verif.Lemmas.Flp
import Verif.Lemmas.FlpInit
import Verif.Lemmas.Forge
import Verif.Lemmas.Frames
import Verif.Lemmas.History
import Verif.Lemmas.Inflate
import Verif.Lemmas.Interleave
import Verif.Lemmas.KeyHide
import Verif.Lemmas.Lengths
import Verif.Lemmas.Level
import Verif.Lemmas.LibLemmas
import Verif.Lemmas.Libprio
import Verif.Lemmas.LibprioRun
import Verif.Lemmas.Log2
import Verif.Lemmas.Main
import Verif.Lemmas.Merkle
import Verif.Lemmas.Metrics
import Verif.Lemmas.Move
import Verif.Lemmas.Peer
import Verif.Lemmas.PeerDriver
import Verif.Lemmas.PeerSheet
import Verif.Lemmas.Pm
import Verif.Lemmas.PmHide
import Verif.Lemmas.PmReplies
import Verif.Lemmas.PmRun
import Verif.Lemmas.Prg
import Verif.Lemmas.Prime
import Verif.Lemmas.Prio3
import Verif.Lemmas.Prio3Hide
import Verif.Lemmas.Prio3Spec
import Verif.Lemmas.Prio3Split
import Verif.Lemmas.Quiet
import Verif.Lemmas.Recite
import Verif.Lemmas.Repeat
import Verif.Lemmas.Replace
import Verif.Lemmas.Replies
import Verif.Lemmas.Run
import Verif.Lemmas.RunHide
import Verif.Lemmas.Script
import Verif.Lemmas.Search
import Verif.Lemmas.Serve
import Verif.Lemmas.Sessions
import Verif.Lemmas.Settings
import Verif.Lemmas.Shift
import Verif.Lemmas.Sim
import Verif.Lemmas.Small
import Verif.Lemmas.Split
import Verif.Lemmas.Spy
import Verif.Lemmas.Startup
import Verif.Lemmas.Sums
import Verif.Lemmas.System
import Verif.Lemmas.Tap
import Verif.Lemmas.Tests
import Verif.Lemmas.Toy
import Verif.Lemmas.ToySearch
import Verif.Lemmas.ToyServer
import Verif.Lemmas.Tree
import Verif.Lemmas.Twin
import Verif.Lemmas.TwinDriver
import Verif.Lemmas.Vec
import Verif.Lemmas.Vidpf
import Verif.Lemmas.Weights
import Verif.Lemmas.Whh
import Verif.Lemmas.Wire
import Verif.Lemmas.World
import Verif.Props.AbmCollude
import Verif.Props.AbmRun
import Verif.Props.Arch
import Verif.Props.Attack
import Verif.Props.Batches
import Verif.Props.Bound
import Verif.Props.Certain
import Verif.Props.Collect
import Verif.Props.Collude
import Verif.Props.Consistency
import Verif.Props.Copies
import Verif.Props.Decode
import Verif.Props.Deviate
import Verif.Props.DeviateAbm
import Verif.Props.DeviatePm
import Verif.Props.DeviateWhh
import Verif.Props.Driver
import Verif.Props.Effort
import Verif.Props.Final
import Verif.Props.Flat
import Verif.Props.Flp
import Verif.Props.Forge
import Verif.Props.Frames
import Verif.Props.Frontier
import Verif.Props.History
import Verif.Props.KeyHide
import Verif.Props.Left
import Verif.Props.Lengths
import Verif.Props.Level
import Verif.Props.Lib
import Verif.Props.Libprio
import Verif.Props.Log2
import Verif.Props.Main
import Verif.Props.Merkle
import Verif.Props.Metrics
import Verif.Props.Modes
import Verif.Props.Move
import Verif.Props.PlainHh
import Verif.Props.PmCollude
import Verif.Props.PmHide
import Verif.Props.PmRun
import Verif.Props.Prg
import Verif.Props.PrgMore
import Verif.Props.Prio3
import Verif.Props.Prio3Hide
import Verif.Props.Recite
import Verif.Props.Repeat
import Verif.Props.Replay
import Verif.Props.Run
import Verif.Props.RunHide
import Verif.Props.Script
import Verif.Props.Search
import Verif.Props.Sent
import Verif.Props.Serve
import Verif.Props.Settings
import Verif.Props.Shares
import Verif.Props.Sim
import Verif.Props.Small
import Verif.Props.Split
import Verif.Props.Spy
import Verif.Props.Startup
import Verif.Props.System
import Verif.Props.Tampered
import Verif.Props.Tap
import Verif.Props.Tests
import Verif.Props.Threshold
import Verif.Props.Tree
import Verif.Props.Typed
import Verif.Props.Vidpf
import Verif.Props.Weights
import Verif.Props.Whh
import Verif.Props.Wire
