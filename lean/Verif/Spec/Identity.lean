import Verif.Model.Tokio
import Verif.Model.Smol
/-!
# Another name, other credentials, another last will (C121)
-/

namespace Mqrstt.Spec

/-- The two configurations agree in keep-alive, clean start and the three limits. They may differ in the client identifier, user
name, password, last will, authentication, session expiry, topic alias maximum, user properties and what information is
requested. -/
structure SameManner (o o' : Options) : Prop where
  keepAlive : o.keepAlive = o'.keepAlive
  cleanStart : o.cleanStart = o'.cleanStart
  receiveMax : o.receiveMax = o'.receiveMax
  sendMax : o.sendMax = o'.sendMax
  maxPacketSize : o.maxPacketSize = o'.maxPacketSize

/-- a CONNECT with this keep-alive time -/
def withKeepAlive (k : UInt16) : Packet → Packet
  | .connect c => .connect { c with keepAlive := k }
  | p => p

/-- the same observation where CONNECT is that of the other configuration (with the keep-alive time it had) -/
def asIf (o' : Options) : Obs → Obs
  | .wrote (.connect c) start stop => .wrote (withKeepAlive c.keepAlive o'.connectPacket) start stop
  | x => x

end Mqrstt.Spec
