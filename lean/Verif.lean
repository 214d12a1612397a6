import Verif.Model.Packet
import Verif.Props.VarInt
import Verif.Props.Prim
import Verif.Props.Codes
import Verif.Proof.Property
import Verif.Proof.Layout
import Verif.Proof.ReadBack
import Verif.Proof.Sizes
import Verif.Props.Codec
import Verif.Proof.Exact
import Verif.Proof.ExactSize
import Verif.Props.CodecExact
import Verif.Props.Framing
import Verif.Props.Robust
import Verif.Props.Sections
import Verif.Props.Session
import Verif.Props.Resume
import Verif.Props.Receiver
import Verif.Props.Errors
import Verif.Props.Client
import Verif.Props.Options
import Verif.Model.Net
import Verif.Model.Tokio
import Verif.Model.Smol
import Verif.Spec.Network
import Verif.Props.Network
import Verif.Spec.KeepAlive
import Verif.Props.KeepAlive
import Verif.Props.Connecting
import Verif.Props.Bytes
import Verif.Spec.Discipline
import Verif.Props.Discipline
import Verif.Spec.Progress
import Verif.Props.Progress
import Verif.Spec.Legal
import Verif.Props.Legal
import Verif.Model.Topics
import Verif.Conformance.Equality
import Verif.Conformance.Packets
import Verif.Conformance.Bodies
import Verif.Conformance.Session
import Verif.Spec.Wire
import Verif.Proof.Wire
import Verif.Proof.WireRead
import Verif.Props.Wire
import Verif.Proof.Strict
import Verif.Spec.Handler
import Verif.Props.Queue
import Verif.Spec.Args
import Verif.Props.Args
import Verif.Proof.Connects
import Verif.Props.Connects
import Verif.Spec.Sender
import Verif.Proof.Sender
import Verif.Props.Sender
import Verif.Spec.EndToEnd
import Verif.Proof.EndToEnd
import Verif.Props.EndToEnd
import Verif.Spec.Origin
import Verif.Proof.Origin
import Verif.Props.Origin
import Verif.Spec.Limits
import Verif.Proof.Limits
import Verif.Props.Limits
import Verif.Spec.Inbound
import Verif.Proof.Inbox
import Verif.Proof.Inbound
import Verif.Props.Inbound
import Verif.Spec.Order
import Verif.Proof.Order
import Verif.Props.Order
import Verif.Spec.Sequence
import Verif.Proof.Sequence
import Verif.Props.Sequence
import Verif.Model.Drop
import Verif.Spec.Written
import Verif.Proof.Unambiguous
import Verif.Proof.Written
import Verif.Proof.Dropped
import Verif.Proof.Cuts
import Verif.Props.Dropped
import Verif.Model.Handlers
import Verif.Spec.PingPong
import Verif.Proof.PingPong
import Verif.Props.Examples
import Verif.Model.Clock
import Verif.Props.Clock
import Verif.Proof.DropConnect
import Verif.Props.DroppedConnect
import Verif.Props.Display
import Verif.Props.Senders
import Verif.Props.Buffer
import Verif.Spec.Reuse
import Verif.Proof.Reuse
import Verif.Props.Reuse
import Verif.Spec.Requests
import Verif.Proof.Requests
import Verif.Props.Recognised
import Verif.Proof.Silent
import Verif.Props.Silent
import Verif.Spec.Reconnect
import Verif.Proof.Reconnect
import Verif.Props.Reconnect
import Verif.Spec.Memory
import Verif.Proof.Small
import Verif.Props.Memory
import Verif.Proof.Fair
import Verif.Spec.Complete
import Verif.Proof.Complete
import Verif.Props.Complete
import Verif.Spec.Goodbye
import Verif.Proof.Goodbye
import Verif.Props.Goodbye
import Verif.Spec.Patience
import Verif.Proof.Patience
import Verif.Props.Patience
import Verif.Spec.Told
import Verif.Props.Told
import Verif.Props.OnlyOnce
import Verif.Spec.Shown
import Verif.Proof.Shown
import Verif.Props.Shown
import Verif.Spec.Answers
import Verif.Proof.Answers
import Verif.Props.Answers
import Verif.Spec.Auth
import Verif.Proof.Auth
import Verif.Props.Auth
import Verif.Spec.Interrupt
import Verif.Proof.Interrupt
import Verif.Props.Interrupt
import Verif.Spec.Partway
import Verif.Proof.Partway
import Verif.Props.Partway
import Verif.Spec.Heard
import Verif.Proof.Heard
import Verif.Props.Heard
import Verif.Spec.Liberty
import Verif.Proof.Liberty
import Verif.Proof.LibertyStream
import Verif.Proof.LibertyExact
import Verif.Props.Liberty
import Verif.Proof.WireExact
import Verif.Props.WireExact
import Verif.Spec.Understood
import Verif.Proof.Understood
import Verif.Props.Understood
import Verif.Spec.Truncated
import Verif.Proof.RobustExact
import Verif.Props.RobustExact
import Verif.Spec.Header
import Verif.Proof.Header
import Verif.Props.FramingExact
import Verif.Spec.Calm
import Verif.Proof.Calm
import Verif.Props.Calm
import Verif.Spec.Verdict
import Verif.Proof.Verdict
import Verif.Props.Verdict
import Verif.Spec.Blame
import Verif.Proof.Blame
import Verif.Proof.BlamePackets
import Verif.Props.Blame
import Verif.Spec.Portable
import Verif.Proof.Portable
import Verif.Proof.PortableBack
import Verif.Props.Portable
import Verif.Spec.Reasons
import Verif.Proof.Reasons
import Verif.Props.Reasons
import Verif.Model.ErrorText
import Verif.Spec.Refusals
import Verif.Proof.Refusals
import Verif.Proof.ErrorText
import Verif.Props.Refusals
import Verif.Props.ErrorText
import Verif.Proof.Accepted
import Verif.Props.Accepted
import Verif.Spec.ErrorText
import Verif.Proof.ErrorParts
import Verif.Spec.DeadEnd
import Verif.Proof.DeadEnd
import Verif.Proof.Encoded
import Verif.Props.DeadEnd
import Verif.Proof.Offence
import Verif.Props.Offence
import Verif.Spec.Panic
import Verif.Proof.NoEof
import Verif.Proof.Panic
import Verif.Props.Panic
import Verif.Spec.Reorder
import Verif.Proof.Reorder
import Verif.Props.Reorder
import Verif.Spec.Content
import Verif.Proof.Content
import Verif.Props.Content
import Verif.Spec.Later
import Verif.Proof.Later
import Verif.Props.Later
import Verif.Spec.Identity
import Verif.Proof.Identity
import Verif.Props.Identity
import Verif.Proof.Release
import Verif.Props.Release
import Verif.Spec.Limit
import Verif.Proof.Limit
import Verif.Props.Limit
import Verif.Spec.Untimed
import Verif.Proof.Untimed
import Verif.Props.Untimed
import Verif.Spec.Pieces
import Verif.Proof.Pieces
import Verif.Props.Pieces
import Verif.Proof.IdentityDrop
import Verif.Props.IdentityDrop
import Verif.Spec.LaterDrop
import Verif.Proof.LaterDrop
import Verif.Props.LaterDrop
import Verif.Proof.LimitDrop
import Verif.Props.LimitDrop
import Verif.Spec.Possible
import Verif.Proof.ReleaseDrop
import Verif.Props.ReleaseDrop
import Verif.Proof.VerdictDrop
import Verif.Props.VerdictDrop
import Verif.Proof.PanicDrop
import Verif.Props.PanicDrop
import Verif.Proof.DeadEndDrop
import Verif.Props.DeadEndDrop
import Verif.Proof.ConnectsDrop
import Verif.Props.ConnectsDrop
import Verif.Proof.ReconnectDrop
import Verif.Props.ReconnectDrop
import Verif.Proof.ProgressDrop
import Verif.Props.ProgressDrop
import Verif.Proof.KeepAliveDrop
import Verif.Props.KeepAliveDrop
import Verif.Proof.StartDrop
import Verif.Props.StartDrop
import Verif.Proof.HandlerDrop
import Verif.Props.HandlerDrop
import Verif.Proof.StatusDrop
import Verif.Props.StatusDrop
import Verif.Spec.DisciplineDrop
import Verif.Proof.DisciplineDrop
import Verif.Props.DisciplineDrop
import Verif.Proof.CompleteDrop
import Verif.Props.CompleteDrop
import Verif.Proof.SilenceDrop
import Verif.Props.SilenceDrop
