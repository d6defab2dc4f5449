import Verif.Props.Integers
import Verif.Props.Types
import Verif.Props.Tuple
import Verif.Props.TypeList
import Verif.Model.Effect
import Verif.Model.Key
import Verif.Model.Action
import Verif.Model.Dispatcher
import Verif.Model.Buffered
import Verif.Props.Key
import Verif.Props.Action
import Verif.Props.Dispatcher
import Verif.Props.Buffered
import Verif.Props.BufferSafety
import Verif.Props.BufferedIO
import Verif.Props.BufferedMachine
import Verif.Lemmas.MachineExact
import Verif.Props.MachineExact
import Verif.Props.Throwing
import Verif.Spec.Caught
import Verif.Lemmas.Caught
import Verif.Props.Caught
import Verif.Props.Interrupt
import Verif.Props.InterruptExact
import Verif.Props.Ownership
import Verif.Props.Python
import Verif.Props.Replace
import Verif.Props.Custom
import Verif.Props.Session
import Verif.Props.Deferred
import Verif.Props.Slave
import Verif.Props.Iterator
import Verif.Props.Convert
import Verif.Props.Hook
import Verif.Props.Category
import Verif.Props.Live
import Verif.Props.Extension
import Verif.Props.Packet
import Verif.Model.Float
import Verif.Spec.Float
import Verif.Props.Float
import Verif.Props.Resync
import Verif.Model.PyNames
import Verif.Spec.PyNames
import Verif.Lemmas.PyNames
import Verif.Props.PyNames
import Verif.Model.Net
import Verif.Spec.Net
import Verif.Lemmas.Net
import Verif.Props.Net
import Verif.Spec.Version
import Verif.Lemmas.Version
import Verif.Props.Version
import Verif.Model.Transmission
import Verif.Spec.Transmission
import Verif.Lemmas.Transmission
import Verif.Props.Transmission
import Verif.Props.Macros
import Verif.Props.Exact
import Verif.Props.Framing
import Verif.Lemmas.Bounds
import Verif.Model.Multimaster
import Verif.Spec.Multimaster
import Verif.Lemmas.Multimaster
import Verif.Props.Multimaster
import Verif.Model.Pipeline
import Verif.Spec.Pipeline
import Verif.Lemmas.Pipeline
import Verif.Props.Pipeline
import Verif.Model.Signature
import Verif.Props.Signature
import Verif.Model.Import
import Verif.Props.Import
import Verif.Model.Layout
import Verif.Spec.Layout
import Verif.Props.Layout
import Verif.Model.Params
import Verif.Spec.Params
import Verif.Props.Params
import Verif.Model.RawBytes
import Verif.Spec.RawBytes
import Verif.Props.RawBytes
import Verif.Model.Copy
import Verif.Spec.Copy
import Verif.Props.Copy
import Verif.Model.Reentrant
import Verif.Spec.Reentrant
import Verif.Lemmas.Reentrant
import Verif.Props.Reentrant
import Verif.Spec.Sink
import Verif.Props.Sink
import Verif.Model.Package
import Verif.Props.Package
import Verif.Model.Streams
import Verif.Spec.Streams
import Verif.Lemmas.Streams
import Verif.Props.Streams
import Verif.Model.PyObjects
import Verif.Spec.PyObjects
import Verif.Lemmas.PyObjects
import Verif.Props.PyObjects
import Verif.Model.Preempt
import Verif.Props.Preempt
import Verif.Model.Overlap
import Verif.Props.Overlap
import Verif.Model.Target
import Verif.Spec.Target
import Verif.Lemmas.Target
import Verif.Props.Target
import Verif.Spec.Noise
import Verif.Props.Noise
import Verif.Model.Relay
import Verif.Spec.Relay
import Verif.Lemmas.Relay
import Verif.Props.Relay
import Verif.Model.Bindings
import Verif.Spec.Bindings
import Verif.Lemmas.Bindings
import Verif.Props.Bindings
import Verif.Model.Several
import Verif.Spec.Several
import Verif.Lemmas.Several
import Verif.Props.Several
import Verif.Model.Hub
import Verif.Spec.Hub
import Verif.Lemmas.Hub
import Verif.Props.Hub
import Verif.Model.Nested
import Verif.Spec.Nested
import Verif.Lemmas.Nested
import Verif.Props.Nested
import Verif.Tests.Basic
import Verif.Tests.Tuple
import Verif.Tests.Dispatch
import Verif.Tests.Buffered
import Verif.Tests.Python
import Verif.Model.Interchange
import Verif.Spec.Interchange
import Verif.Lemmas.Interchange
import Verif.Props.Interchange
import Verif.Model.Lifetime
import Verif.Spec.Lifetime
import Verif.Lemmas.Lifetime
import Verif.Props.Lifetime
import Verif.Spec.Sizes
import Verif.Props.Sizes
import Verif.Model.Forward
import Verif.Spec.Forward
import Verif.Lemmas.Forward
import Verif.Props.Forward
import Verif.Spec.Observe
import Verif.Lemmas.Observe
import Verif.Lemmas.Probe
import Verif.Props.Observe
import Verif.Spec.Shortest
import Verif.Lemmas.Shortest
import Verif.Props.Shortest
import Verif.Props.ShortestResponse
import Verif.Model.Line
import Verif.Spec.Line
import Verif.Lemmas.Line
import Verif.Props.Line
import Verif.Model.Message
import Verif.Spec.Message
import Verif.Lemmas.Message
import Verif.Props.Message
import Verif.Model.Retry
import Verif.Spec.Retry
import Verif.Lemmas.Retry
import Verif.Props.Retry
import Verif.Model.Tower
import Verif.Spec.Tower
import Verif.Lemmas.Tower
import Verif.Props.Tower
import Verif.Model.Async
import Verif.Spec.Async
import Verif.Lemmas.Async
import Verif.Props.Async
import Verif.Model.Grid
import Verif.Spec.Grid
import Verif.Lemmas.Grid
import Verif.Props.Grid
import Verif.Spec.Course
import Verif.Lemmas.Course
import Verif.Props.Course
import Verif.Model.AnyIterator
import Verif.Spec.AnyIterator
import Verif.Lemmas.AnyIterator
import Verif.Props.AnyIterator
import Verif.Model.Real
import Verif.Spec.Real
import Verif.Lemmas.Real
import Verif.Props.Real
import Verif.Model.Arena
import Verif.Model.ArenaServe
import Verif.Spec.Arena
import Verif.Lemmas.Arena
import Verif.Props.Arena
import Verif.Props.ArenaServe
import Verif.Model.Pool
import Verif.Spec.Pool
import Verif.Props.Pool
