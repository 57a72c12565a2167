import Verif.Checks.Javascript
import Verif.Checks.Programs
import Verif.Checks.Python
import Verif.Checks.Schema
import Verif.Checks.Std
import Verif.Checks.Tools
import Verif.Lemmas.Bands
import Verif.Lemmas.Bisim
import Verif.Lemmas.Buffers
import Verif.Lemmas.Built
import Verif.Lemmas.Codec
import Verif.Lemmas.Compose
import Verif.Lemmas.ComposeOut
import Verif.Lemmas.Composite
import Verif.Lemmas.Connect
import Verif.Lemmas.ConstRes
import Verif.Lemmas.Copy
import Verif.Lemmas.CopyMade
import Verif.Lemmas.CosRes
import Verif.Lemmas.Create
import Verif.Lemmas.CreateEnd
import Verif.Lemmas.Cut
import Verif.Lemmas.CutOut
import Verif.Lemmas.Damaged
import Verif.Lemmas.Debugger
import Verif.Lemmas.Declared
import Verif.Lemmas.Defined
import Verif.Lemmas.DefinedBuilt
import Verif.Lemmas.DefinedRun
import Verif.Lemmas.Demux
import Verif.Lemmas.DemuxRun
import Verif.Lemmas.Describe
import Verif.Lemmas.Double
import Verif.Lemmas.DoubleArith
import Verif.Lemmas.DoubleOps
import Verif.Lemmas.DoubleRsi
import Verif.Lemmas.DoubleSqrt
import Verif.Lemmas.Engine
import Verif.Lemmas.Factory
import Verif.Lemmas.FactoryBuffer
import Verif.Lemmas.Feed
import Verif.Lemmas.Finite
import Verif.Lemmas.Flatten
import Verif.Lemmas.Flow
import Verif.Lemmas.FlowOrder
import Verif.Lemmas.Frame
import Verif.Lemmas.Fuel
import Verif.Lemmas.Function
import Verif.Lemmas.Gate
import Verif.Lemmas.GridLoop
import Verif.Lemmas.HermRes
import Verif.Lemmas.JsRun
import Verif.Lemmas.Local
import Verif.Lemmas.LocalEnd
import Verif.Lemmas.Lockstep
import Verif.Lemmas.LockstepOut
import Verif.Lemmas.LockstepProg
import Verif.Lemmas.LockstepRun
import Verif.Lemmas.Loose
import Verif.Lemmas.Map
import Verif.Lemmas.Mapped
import Verif.Lemmas.Memory
import Verif.Lemmas.Mermaid
import Verif.Lemmas.Nearby
import Verif.Lemmas.NearbyExec
import Verif.Lemmas.NearbyProc
import Verif.Lemmas.Numeric
import Verif.Lemmas.Order
import Verif.Lemmas.OrderBase
import Verif.Lemmas.OrderConsume
import Verif.Lemmas.OrderResample
import Verif.Lemmas.OrderWindow
import Verif.Lemmas.Peaks
import Verif.Lemmas.Pipeline
import Verif.Lemmas.PortPipes
import Verif.Lemmas.PortRun
import Verif.Lemmas.PortSafe
import Verif.Lemmas.Ports
import Verif.Lemmas.Program
import Verif.Lemmas.PyOperators
import Verif.Lemmas.PyProgram
import Verif.Lemmas.PyRun
import Verif.Lemmas.Quiet
import Verif.Lemmas.QuietRun
import Verif.Lemmas.Recursive
import Verif.Lemmas.Redis
import Verif.Lemmas.RedisSchema
import Verif.Lemmas.Relabel
import Verif.Lemmas.RelabelExec
import Verif.Lemmas.RelabelProc
import Verif.Lemmas.Replace
import Verif.Lemmas.ReplaceMade
import Verif.Lemmas.ReplacePairs
import Verif.Lemmas.Report
import Verif.Lemmas.Ripple
import Verif.Lemmas.RsiEarly
import Verif.Lemmas.RsiPhases
import Verif.Lemmas.RsiProgram
import Verif.Lemmas.RsiSides
import Verif.Lemmas.RsiStart
import Verif.Lemmas.RsiStep
import Verif.Lemmas.RsiWave
import Verif.Lemmas.Run
import Verif.Lemmas.Schema
import Verif.Lemmas.SchemaFilter
import Verif.Lemmas.SchemaMake
import Verif.Lemmas.SchemaProg
import Verif.Lemmas.Selector
import Verif.Lemmas.Served
import Verif.Lemmas.ServedRun
import Verif.Lemmas.Server
import Verif.Lemmas.Shut
import Verif.Lemmas.Simple
import Verif.Lemmas.Snapshot
import Verif.Lemmas.Sync
import Verif.Lemmas.SyncOps
import Verif.Lemmas.SyncRun
import Verif.Lemmas.Terminate
import Verif.Lemmas.Times
import Verif.Lemmas.Timing
import Verif.Lemmas.TimingExec
import Verif.Lemmas.TimingProc
import Verif.Lemmas.Trail
import Verif.Lemmas.Units
import Verif.Lemmas.UnitsExec
import Verif.Lemmas.UnitsProc
import Verif.Lemmas.Variable
import Verif.Lemmas.Wave
import Verif.Lemmas.Window
import Verif.Lemmas.Wired
import Verif.Lemmas.Wiring
import Verif.Lemmas.Wrap
import Verif.Lemmas.WrapRun
import Verif.Lemmas.Write
import Verif.Model.Base
import Verif.Model.Codec
import Verif.Model.Composite
import Verif.Model.Create
import Verif.Model.Debugger
import Verif.Model.Double
import Verif.Model.Engine
import Verif.Model.Factory
import Verif.Model.Javascript
import Verif.Model.Json
import Verif.Model.Mermaid
import Verif.Model.Num
import Verif.Model.Operator
import Verif.Model.Process
import Verif.Model.Program
import Verif.Model.Python
import Verif.Model.Redis
import Verif.Model.Rust
import Verif.Model.Schema
import Verif.Model.Server
import Verif.Model.Wasm
import Verif.Model.Write
import Verif.Props.Bands
import Verif.Props.BandsReturn
import Verif.Props.Buffers
import Verif.Props.Codec
import Verif.Props.Compose
import Verif.Props.Composite
import Verif.Props.Copy
import Verif.Props.Create
import Verif.Props.Cut
import Verif.Props.Damaged
import Verif.Props.Debugger
import Verif.Props.Defined
import Verif.Props.DefinedComposite
import Verif.Props.Demux
import Verif.Props.Double
import Verif.Props.Factory
import Verif.Props.Flow
import Verif.Props.Function
import Verif.Props.Gate
import Verif.Props.Getters
import Verif.Props.Join
import Verif.Props.JoinTest
import Verif.Props.JsProgram
import Verif.Props.JsRun
import Verif.Props.Lockstep
import Verif.Props.Loose
import Verif.Props.Mermaid
import Verif.Props.Nearby
import Verif.Props.Order
import Verif.Props.PeakPrograms
import Verif.Props.Pipeline
import Verif.Props.Pointwise
import Verif.Props.Ports
import Verif.Props.PortsPipes
import Verif.Props.Program
import Verif.Props.ProgramOrder
import Verif.Props.PyOperators
import Verif.Props.PyParse
import Verif.Props.PyProgram
import Verif.Props.PyRun
import Verif.Props.ReceiveRun
import Verif.Props.Recursive
import Verif.Props.Redis
import Verif.Props.Relabel
import Verif.Props.Replace
import Verif.Props.Reports
import Verif.Props.Resample
import Verif.Props.Returns
import Verif.Props.Rewire
import Verif.Props.RewiredStreams
import Verif.Props.RsiAgree
import Verif.Props.RsiProgram
import Verif.Props.Rust
import Verif.Props.Schema
import Verif.Props.Selector
import Verif.Props.Served
import Verif.Props.Server
import Verif.Props.Snapshot
import Verif.Props.Synced
import Verif.Props.Terminate
import Verif.Props.Times
import Verif.Props.Timing
import Verif.Props.Units
import Verif.Props.Variable
import Verif.Props.Wasm
import Verif.Props.Windows
import Verif.Props.Wrap
import Verif.Props.Written
import Verif.Spec.Bands
import Verif.Spec.Built
import Verif.Spec.Codec
import Verif.Spec.Compose
import Verif.Spec.Composite
import Verif.Spec.Copy
import Verif.Spec.Create
import Verif.Spec.Cut
import Verif.Spec.Damaged
import Verif.Spec.Debugger
import Verif.Spec.Defined
import Verif.Spec.Demux
import Verif.Spec.Double
import Verif.Spec.Exact
import Verif.Spec.Examples
import Verif.Spec.Factory
import Verif.Spec.Flat
import Verif.Spec.Flow
import Verif.Spec.Gate
import Verif.Spec.Graph
import Verif.Spec.Grid
import Verif.Spec.Hermite
import Verif.Spec.Javascript
import Verif.Spec.Lockstep
import Verif.Spec.Loose
import Verif.Spec.Mermaid
import Verif.Spec.Nearby
import Verif.Spec.Numeric
import Verif.Spec.Order
import Verif.Spec.Pair
import Verif.Spec.Peaks
import Verif.Spec.Piecewise
import Verif.Spec.Program
import Verif.Spec.Python
import Verif.Spec.Quiet
import Verif.Spec.ReceiveRun
import Verif.Spec.Recursive
import Verif.Spec.Redis
import Verif.Spec.Relabel
import Verif.Spec.Replace
import Verif.Spec.Rewire
import Verif.Spec.RsiIndex
import Verif.Spec.RsiProgram
import Verif.Spec.Rust
import Verif.Spec.Schema
import Verif.Spec.Selector
import Verif.Spec.Served
import Verif.Spec.Server
import Verif.Spec.Snapshot
import Verif.Spec.Stream
import Verif.Spec.Sync
import Verif.Spec.Times
import Verif.Spec.Timing
import Verif.Spec.Toy
import Verif.Spec.Trail
import Verif.Spec.Units
import Verif.Spec.Variable
import Verif.Spec.Wasm
import Verif.Spec.Wilder
import Verif.Spec.Wiring
import Verif.Spec.Wrap
