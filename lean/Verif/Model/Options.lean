import Verif.Model.Packet
import Verif.Model.System
/-!
# Connect options

Source: `/repo/mqrstt/src/connect_options.rs` and the builders in `/repo/mqrstt/src/lib.rs` 150-237.

A `Duration` is a number of nanoseconds.
-/

namespace Mqrstt

/-- nanoseconds per second: unit of the model's clock, no code: `Duration` of connect_options.rs 21 -/
def nanos : Nat := 1000000000

/-- `Duration::as_secs` (std): whole seconds, connect_options.rs 202 -/
def asSecs (d : Nat) : Nat := d / nanos

/-- `Duration::from_secs` (std), connect_options.rs 202; tokio/network.rs 65, smol/network.rs 73 -/
def fromSecs (n : Nat) : Nat := n * nanos

/-- `MAXIMUM_PACKET_SIZE`, util/constants.rs 2 -/
def maximumPacketSize : Nat := 268435455

/-- `DEFAULT_RECEIVE_MAXIMUM`, util/constants.rs 1 -/
def defaultReceiveMaximum : UInt16 := 65535

/-- `ConnectOptions`, connect_options.rs 17-47 -/
structure Options where
  clientId : Str
  /-- `keep_alive_interval`, nanoseconds -/
  keepAlive : Nat
  cleanStart : Bool
  username : Option Str
  password : Option Str
  sessionExpiry : Option UInt32
  receiveMax : Option UInt16
  sendMax : Option UInt16
  maxPacketSize : Option UInt32
  topicAliasMax : Option UInt16
  requestResponse : Option UInt8
  requestProblem : Option UInt8
  users : List (Str × Str)
  authMethod : Option Str
  authData : Option Bytes
  lastWill : Option LastWill

/-- `ConnectOptionsError`, connect_options.rs 9-13 -/
inductive OptionsErr where
  | maximumPacketSizeExceeded (n : UInt32)
  deriving DecidableEq, Repr

/-- the setters, connect_options.rs 142-242 -/
inductive Setter where
  | clientId (s : Str)
  | cleanStart (b : Bool)
  | username (s : Str)
  | password (s : Str)
  | sessionExpiry (n : UInt32)
  | keepAlive (d : Nat)
  | lastWill (w : LastWill)
  | receiveMax (n : UInt16)
  | maxPacketSize (n : UInt32)
  | sendMax (n : UInt16)

namespace Options

/-- `ConnectOptions::new`, connect_options.rs 82-102 (`default`, 49-70, is `new` with the client id
`ChangeClientId_MQRSTT`) -/
def new (clientId : Str) : Options :=
  ⟨clientId, fromSecs 60, true, none, none, none, none, none, none, none, none, none, [], none, none, none⟩

/-- a setter and what it returns, connect_options.rs 142-242 -/
def set (o : Options) : Setter → Options × Except OptionsErr Unit
  | .clientId s => ({ o with clientId := s }, .ok ())
  | .cleanStart b => ({ o with cleanStart := b }, .ok ())
  | .username s => ({ o with username := some s }, .ok ())
  | .password s => ({ o with password := some s }, .ok ())
  | .sessionExpiry n => ({ o with sessionExpiry := some n }, .ok ())
  | .keepAlive d => ({ o with keepAlive := fromSecs (asSecs d) }, .ok ())
  | .lastWill w => ({ o with lastWill := some w }, .ok ())
  | .receiveMax n => ({ o with receiveMax := some n }, .ok ())
  | .maxPacketSize n =>
    if n.toNat > maximumPacketSize then (o, .error (.maximumPacketSizeExceeded n))
    else ({ o with maxPacketSize := some n }, .ok ())
  | .sendMax n => ({ o with sendMax := some n }, .ok ())

/-- options made with `new` and a sequence of setter calls, connect_options.rs 82-236 -/
def build (clientId : Str) (calls : List Setter) : Options :=
  calls.foldl (fun o c => (o.set c).1) (new clientId)

/-- `receive_maximum()`, connect_options.rs 218-220 -/
def receiveMaximum (o : Options) : UInt16 := o.receiveMax.getD defaultReceiveMaximum

/-- `send_maximum()`, connect_options.rs 238-240 -/
def sendMaximum (o : Options) : UInt16 := o.sendMax.getD defaultReceiveMaximum

/-- `maximum_packet_size()`, connect_options.rs 230-232 -/
def maximumPacketSize (o : Options) : Nat :=
  (o.maxPacketSize.map UInt32.toNat).getD Mqrstt.maximumPacketSize

/-- the connect properties, connect_options.rs 105-115 -/
def connectProps (o : Options) : Props :=
  { val := fun
      | .sessionExpiryInterval => o.sessionExpiry
      | .receiveMaximum => o.receiveMax
      | .maximumPacketSize => o.maxPacketSize
      | .topicAliasMaximum => o.topicAliasMax
      | .requestResponseInformation => o.requestResponse
      | .requestProblemInformation => o.requestProblem
      | .authenticationMethod => o.authMethod
      | .authenticationData => o.authData
      | _ => none
    subIds := []
    users := o.users }

/-- `create_connect_from_options`, connect_options.rs 104-129; `as u16` keeps the lower 16 bits -/
def connectPacket (o : Options) : Packet :=
  .connect {
    clientId := o.clientId
    cleanStart := o.cleanStart
    keepAlive := UInt16.ofNat (asSecs o.keepAlive)
    username := o.username
    password := o.password
    props := o.connectProps
    lastWill := o.lastWill }

/-- the clients and the network built from options, `tokio_network`, `smol_network`, lib.rs 176-237,
with `StateHandler::new`, state_handler.rs 31-37 -/
def sys (o : Options) : Sys :=
  Sys.init o.sendMaximum o.receiveMaximum o.maximumPacketSize o.cleanStart

end Options
end Mqrstt
