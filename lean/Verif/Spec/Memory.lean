import Verif.Model.System
/-!
# What the client keeps in memory (C91)

Everything that a `Network` and its clients hold between two steps and that grows with the history: counted in packets and
identifiers.
-/

namespace Mqrstt.Spec

/-- packets that calls have handed over and the network has not taken -/
def waitingPackets (s : Sys) : Nat := s.queue.length

/-- messages kept for retransmission -/
def keptMessages (s : Sys) : Nat := (s.handler.state.slots.filterMap id).length

/-- places for messages kept for retransmission, used or not -/
def places (s : Sys) : Nat := s.handler.state.slots.length

/-- identifiers remembered for operations of the client: messages in the order sent, messages the server has accepted, subscribes
and unsubscribes -/
def rememberedIds (s : Sys) : Nat :=
  s.handler.state.order.length + s.handler.state.rel.length + s.handler.state.sub.length + s.handler.state.unsub.length

/-- identifiers in the channel from which calls take them -/
def freeIds (s : Sys) : Nat := s.handler.state.pool.queue.length

/-- identifiers remembered of QoS 2 messages of the server -/
def seenIds (s : Sys) : Nat := s.handler.state.incoming.length

/-- all of it -/
def memory (s : Sys) : Nat := waitingPackets s + places s + rememberedIds s + freeIds s + seenIds s

end Mqrstt.Spec
