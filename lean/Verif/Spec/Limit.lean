import Verif.Spec.Identity
/-!
# A limit that is not reached (C123)
-/

namespace Mqrstt.Spec

/-- The two configurations agree in keep-alive, clean start, receive and send maximum; the second allows packets at least as large
as the first. -/
structure Roomier (o o' : Options) : Prop where
  keepAlive : o.keepAlive = o'.keepAlive
  cleanStart : o.cleanStart = o'.cleanStart
  receiveMax : o.receiveMax = o'.receiveMax
  sendMax : o.sendMax = o'.sendMax
  limit : o.maximumPacketSize ≤ o'.maximumPacketSize

/-- no call was refused because its packet would be too large -/
def NoneTooLarge (tr : List Obs) : Prop := ∀ q id n, .user (.rejected q id (.validation (.maxPacketSize n))) ∉ tr

end Mqrstt.Spec
