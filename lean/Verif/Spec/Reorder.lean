import Verif.Spec.Session
/-!
# The order of the server's packets (C118)
-/

namespace Mqrstt.Spec

/-- What a packet of the server belongs to: a request of the client (PUBACK, PUBREC, PUBCOMP, SUBACK, UNSUBACK) or a message of
the server (PUBLISH, PUBREL), by identifier. Messages without an identifier all belong together. -/
inductive Talk where
  | mine (id : UInt16)
  | theirs (id : Option UInt16)
  | other
  deriving DecidableEq

def talk : Packet → Talk
  | .pubAck a | .pubRec a | .pubComp a => .mine a.id
  | .subAck a | .unsubAck a => .mine a.id
  | .publish p => .theirs p.pkid
  | .pubRel a => .theirs (some a.id)
  | _ => .other

/-- the same packets; those that belong together come in the same order -/
def Reordered (ps qs : List Packet) : Prop := ∀ k, ps.filter (talk · = k) = qs.filter (talk · = k)

/-- a packet, the answer the client gives, and whether the user's handler gets it -/
abbrev Reaction := Packet × Option Packet × Bool

/-- the packets arrive one after the other and are all accepted -/
def receiveAll (s : Sys) : List Packet → Option (Sys × List Reaction)
  | [] => some (s, [])
  | p :: ps =>
    match s.step (.receive p) with
    | some (s', .received _ reply shown) => (receiveAll s' ps).map fun r => (r.1, (p, reply, shown) :: r.2)
    | _ => none

/-- the same but for the order in which the free identifiers will be used -/
structure SameButFree (s s' : Sys) : Prop where
  free : s.pool.queue.Perm s'.pool.queue
  rest : s' = s.withPool { s.pool with queue := s'.pool.queue }

end Mqrstt.Spec
