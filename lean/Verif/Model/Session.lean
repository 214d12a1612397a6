import Verif.Model.Packet
/-!
# Packet identifier pool, session state and state handler

Source: `/repo/mqrstt/src/{available_packet_ids,state,state_handler,error}.rs`.

The mutexes of `State` are never held across an `await` and `StateHandler` is only used by the network
task, so every method is one atomic step here. A panic while a mutex is held poisons it; in the model
a panic is the result `HFail.panic`, after which nothing more is claimed.
-/

namespace Mqrstt

/-- `HandlerError`, error.rs 65-89 (only the variants `StateHandler` constructs) -/
inductive HErr where
  | missingPacketId
  | packetIdChannelError (id : UInt16)
  | packetIdCollision (id : UInt16)
  | unsolicited (id : UInt16) (t : PacketType)
  | unexpectedPacket (t : PacketType)
  deriving DecidableEq, Repr

/-- how a handler method can fail: with an error value or by a panic, the results of state_handler.rs 47-243; panics of
state.rs 57-120 and available_packet_ids.rs 34-40 -/
inductive HFail where
  | err (e : HErr)
  | panic
  deriving DecidableEq, Repr

/-- `AvailablePacketIds` and the receiving ends in the clients: a bounded first-in-first-out channel
of capacity `cap`; it is closed once every client has been dropped. available_packet_ids.rs 8-11 -/
structure Pool where
  cap : Nat
  queue : List UInt16
  closed : Bool
  deriving DecidableEq, Repr

namespace Pool

/-- `AvailablePacketIds::new`, available_packet_ids.rs 14-23: a channel of capacity `n` filled with
1..=n. (`n = 0` panics in `async_channel::bounded`; the model starts only from `n > 0`.) -/
def new (n : UInt16) : Pool := ⟨n.toNat, (List.range n.toNat).map (fun i => UInt16.ofNat (i + 1)), false⟩

/-- `mark_available`, available_packet_ids.rs 25-43: `try_send`; a full channel is `unreachable!()`. -/
def markAvailable (p : Pool) (id : UInt16) : Pool × Except HFail Unit :=
  if p.closed then (p, .error (.err (.packetIdChannelError id)))
  else if p.queue.length < p.cap then ({ p with queue := p.queue ++ [id] }, .ok ())
  else (p, .error .panic)

/-- a client's `available_packet_ids_r.recv()`: the identifier at the front; `none` while the channel is
empty (the call waits), client.rs 78, 139, 183, 254, 305, 373 -/
def take (p : Pool) : Option (UInt16 × Pool) :=
  match p.queue with
  | [] => none
  | id :: rest => some (id, { p with queue := rest })

end Pool

/-! ## `BTreeSet<u16>` as an ascending list -/

namespace IdSet

/-- `BTreeSet::insert`; the flag says whether the element was new, state.rs 57-60, 95-98, 104-107, 113-116 -/
def insert (id : UInt16) : List UInt16 → List UInt16 × Bool
  | [] => ([id], true)
  | x :: xs =>
    if id < x then (id :: x :: xs, true)
    else if id = x then (x :: xs, false)
    else let (ys, new) := insert id xs; (x :: ys, new)

/-- `BTreeSet::remove`; the flag says whether the element was there, state.rs 62-64, 100-102, 109-111, 118-120 -/
def remove (id : UInt16) (s : List UInt16) : List UInt16 × Bool := (s.erase id, s.contains id)

end IdSet

/-- `State`, state.rs 15-33. `slots` is `outgoing_pub`, indexed by identifier minus one. -/
structure State where
  pool : Pool
  sub : List UInt16
  unsub : List UInt16
  slots : List (Option Publish)
  order : List UInt16
  rel : List UInt16
  incoming : List UInt16

namespace State

/-- `State::new`, state.rs 36-49 -/
def new (receiveMaximum : UInt16) (pool : Pool) : State :=
  ⟨pool, [], [], List.replicate receiveMaximum.toNat none, [], [], []⟩

/-- `make_pkid_available`, state.rs 51-53 -/
def makePkidAvailable (s : State) (id : UInt16) : State × Except HFail Unit :=
  let (pool, r) := s.pool.markAvailable id
  ({ s with pool := pool }, r)

/-- `add_incoming_pub`, state.rs 57-59 -/
def addIncomingPub (s : State) (id : UInt16) : State × Bool :=
  let (l, new) := IdSet.insert id s.incoming
  ({ s with incoming := l }, new)

/-- `remove_incoming_pub`, state.rs 62-64 -/
def removeIncomingPub (s : State) (id : UInt16) : State × Bool :=
  let (l, was) := IdSet.remove id s.incoming
  ({ s with incoming := l }, was)

/-- the index of an identifier in `outgoing_pub`: `(pkid - 1) as usize` (state.rs 68), `pkid as usize - 1`
(91). For identifier 0 the subtraction overflows: a panic with overflow checks, otherwise an index
beyond any vector, hence a panic as well; `none` stands for that. -/
def slotIndex (s : State) (id : UInt16) : Option Nat :=
  if id = 0 then none else if id.toNat - 1 < s.slots.length then some (id.toNat - 1) else none

/-- `add_outgoing_pub`, state.rs 66-77: the slot is replaced first; if it was occupied this is an error
and the order is left as it is. -/
def addOutgoingPub (s : State) (id : UInt16) (p : Publish) : State × Except HFail Unit :=
  match s.slotIndex id with
  | none => (s, .error .panic)
  | some i =>
    match s.slots[i]? with
    | some (some _) => ({ s with slots := s.slots.set i (some p) }, .error (.err (.packetIdCollision id)))
    | _ => ({ s with slots := s.slots.set i (some p), order := s.order ++ [id] }, .ok ())

/-- `remove_outgoing_pub`, state.rs 79-93: first the first occurrence in the order, then the slot. -/
def removeOutgoingPub (s : State) (id : UInt16) : State × Except HFail (Option Publish) :=
  let s := { s with order := s.order.erase id }
  match s.slotIndex id with
  | none => (s, .error .panic)
  | some i =>
    match s.slots[i]? with
    | some (some p) => ({ s with slots := s.slots.set i none }, .ok (some p))
    | _ => (s, .ok none)

/-- `add_outgoing_rel`, state.rs 95-97 -/
def addOutgoingRel (s : State) (id : UInt16) : State × Bool :=
  let (l, new) := IdSet.insert id s.rel
  ({ s with rel := l }, new)

/-- `remove_outgoing_rel`, state.rs 100-102 -/
def removeOutgoingRel (s : State) (id : UInt16) : State × Bool :=
  let (l, was) := IdSet.remove id s.rel
  ({ s with rel := l }, was)

/-- `add_outgoing_sub`, state.rs 104-106 -/
def addOutgoingSub (s : State) (id : UInt16) : State × Bool :=
  let (l, new) := IdSet.insert id s.sub
  ({ s with sub := l }, new)

/-- `remove_outgoing_sub`, state.rs 109-111 -/
def removeOutgoingSub (s : State) (id : UInt16) : State × Bool :=
  let (l, was) := IdSet.remove id s.sub
  ({ s with sub := l }, was)

/-- `add_outgoing_unsub`, state.rs 113-115 -/
def addOutgoingUnsub (s : State) (id : UInt16) : State × Bool :=
  let (l, new) := IdSet.insert id s.unsub
  ({ s with unsub := l }, new)

/-- `remove_outgoing_unsub`, state.rs 118-120 -/
def removeOutgoingUnsub (s : State) (id : UInt16) : State × Bool :=
  let (l, was) := IdSet.remove id s.unsub
  ({ s with unsub := l }, was)

/-- `PubRel::new`, `PubRec::new`, `PubComp::new`: success without properties
(pubrel/mod.rs 28-34, pubrec/mod.rs 29-35, pubcomp/mod.rs 29-35) -/
def successAck (id : UInt16) : Ack := ⟨id, .success, .empty⟩

/-- the stored publish for retransmission, `outgoing_pub[i - 1].clone().unwrap()` with `dup = true`,
state.rs 151-153; `none` is the panic of the index or of `unwrap` -/
def stored (s : State) (id : UInt16) : Option Publish :=
  match s.slotIndex id with
  | none => none
  | some i => (s.slots[i]?).join

/-- the publishes in retransmission order, state.rs 150-154 -/
def republish (s : State) : List UInt16 → Option (List Packet)
  | [] => some []
  | id :: ids =>
    match s.stored id with
    | none => none
    | some p =>
      match s.republish ids with
      | none => none
      | some ps => some (.publish { p with dup := true } :: ps)

/-- `reset`, state.rs 123-172: the identifiers that can be freed and the packets to send again. -/
def reset (s : State) (retransmission : Bool) : State × Except HFail (List UInt16 × List Packet) :=
  let freeable := s.sub ++ s.unsub
  if retransmission then
    match s.republish s.order with
    | none => (s, .error .panic)
    | some pubs =>
      ({ s with sub := [], unsub := [], incoming := [] },
        .ok (freeable, pubs ++ s.rel.map fun id => .pubRel (successAck id)))
  else
    ({ s with sub := [], unsub := [], incoming := [], slots := List.replicate s.slots.length none,
              order := [], rel := [] },
      .ok (freeable ++ s.order, []))

end State

/-- `StateHandler`, state_handler.rs 22-25 -/
structure Handler where
  state : State
  cleanStart : Bool

namespace Handler

/-- give the identifier back, then no reply (state_handler.rs 91-92, 135-136, 146-147, 157-158) -/
def release (s : State) (id : UInt16) : State × Except HFail (Option Packet) :=
  let (s, r) := s.makePkidAvailable id
  match r with
  | .error e => (s, .error e)
  | .ok () => (s, .ok none)

/-- `handle_incoming_publish`, state_handler.rs 62-85 -/
def incomingPublish (s : State) (p : Publish) : State × Except HFail (Option Packet × Bool) :=
  match p.qos with
  | .atMostOnce => (s, .ok (none, true))
  | .atLeastOnce =>
    match p.pkid with
    | none => (s, .error (.err .missingPacketId))
    | some id => (s, .ok (some (.pubAck ⟨id, .success, .empty⟩), true))
  | .exactlyOnce =>
    match p.pkid with
    | none => (s, .error (.err .missingPacketId))
    | some id =>
      let (s, new) := s.addIncomingPub id
      (s, .ok (some (.pubRec (State.successAck id)), new && !p.dup))

/-- `handle_incoming_puback`, state_handler.rs 87-98 -/
def incomingPubAck (s : State) (a : Ack) : State × Except HFail (Option Packet) :=
  let (s, r) := s.removeOutgoingPub a.id
  match r with
  | .error e => (s, .error e)
  | .ok (some _) => release s a.id
  | .ok none => (s, .error (.err (.unsolicited a.id .pubAck)))

/-- `handle_incoming_pubrec`, state_handler.rs 100-121 -/
def incomingPubRec (s : State) (a : Ack) : State × Except HFail (Option Packet) :=
  let (s, r) := s.removeOutgoingPub a.id
  match r with
  | .error e => (s, .error e)
  | .ok (some _) =>
    if a.reason = .success ∨ a.reason = .noMatchingSubscribers then
      ((s.addOutgoingRel a.id).1, .ok (some (.pubRel (State.successAck a.id))))
    else (s, .ok none)
  | .ok none => (s, .error (.err (.unsolicited a.id .pubRec)))

/-- `handle_incoming_pubrel`, state_handler.rs 123-131 -/
def incomingPubRel (s : State) (a : Ack) : State × Except HFail (Option Packet) :=
  ((s.removeIncomingPub a.id).1, .ok (some (.pubComp (State.successAck a.id))))

/-- `handle_incoming_pubcomp`, state_handler.rs 133-142 -/
def incomingPubComp (s : State) (a : Ack) : State × Except HFail (Option Packet) :=
  let (s, was) := s.removeOutgoingRel a.id
  if was then release s a.id else (s, .error (.err (.unsolicited a.id .pubComp)))

/-- `handle_incoming_suback`, state_handler.rs 144-153 -/
def incomingSubAck (s : State) (a : CodesAck) : State × Except HFail (Option Packet) :=
  let (s, was) := s.removeOutgoingSub a.id
  if was then release s a.id else (s, .error (.err (.unsolicited a.id .subAck)))

/-- `handle_incoming_unsuback`, state_handler.rs 155-164 -/
def incomingUnsubAck (s : State) (a : CodesAck) : State × Except HFail (Option Packet) :=
  let (s, was) := s.removeOutgoingUnsub a.id
  if was then release s a.id else (s, .error (.err (.unsolicited a.id .unsubAck)))

/-- `Ok((reply_packet, true))` after `?`, state_handler.rs 57-59 -/
def shown (r : State × Except HFail (Option Packet)) : State × Except HFail (Option Packet × Bool) :=
  match r with
  | (s, .ok reply) => (s, .ok (reply, true))
  | (s, .error e) => (s, .error e)

/-- `handle_incoming_packet`, state_handler.rs 47-60: the reply and whether the user's handler sees the
packet -/
def incomingState (s : State) : Packet → State × Except HFail (Option Packet × Bool)
  | .publish p => incomingPublish s p
  | .pubAck a => shown (incomingPubAck s a)
  | .pubRec a => shown (incomingPubRec s a)
  | .pubRel a => shown (incomingPubRel s a)
  | .pubComp a => shown (incomingPubComp s a)
  | .subAck a => shown (incomingSubAck s a)
  | .unsubAck a => shown (incomingUnsubAck s a)
  | p => (s, .error (.err (.unexpectedPacket p.type)))

/-- `handle_incoming_packet`, state_handler.rs 47-60 -/
def incoming (h : Handler) (p : Packet) : Handler × Except HFail (Option Packet × Bool) :=
  let (s, r) := incomingState h.state p
  ({ h with state := s }, r)

/-- the loop of `handle_incoming_connack`, state_handler.rs 171-173: stops at the first error -/
def freeAll (s : State) : List UInt16 → State × Except HFail Unit
  | [] => (s, .ok ())
  | id :: ids =>
    match s.makePkidAvailable id with
    | (s, .error e) => (s, .error e)
    | (s, .ok ()) => freeAll s ids

/-- `handle_incoming_connack`, state_handler.rs 166-178 -/
def connAck (h : Handler) (c : ConnAck) : Handler × Except HFail (Option (List Packet)) :=
  if c.reason = .success then
    match h.state.reset (c.sessionPresent && !h.cleanStart) with
    | (s, .error e) => ({ h with state := s }, .error e)
    | (s, .ok (freeable, republish)) =>
      match freeAll s freeable with
      | (s, .error e) => ({ h with state := s }, .error e)
      | (s, .ok ()) => ({ h with state := s }, .ok (some republish))
  else (h, .ok none)

/-- `handle_outgoing_publish`, state_handler.rs 197-219; a publish of QoS 1 or 2 without an identifier
panics in `unwrap` -/
def outgoingPublish (s : State) (p : Publish) : State × Except HFail Unit :=
  match p.qos with
  | .atMostOnce => (s, .ok ())
  | _ =>
    match p.pkid with
    | none => (s, .error .panic)
    | some id => s.addOutgoingPub id p

/-- `handle_outgoing_packet`, state_handler.rs 180-195, with `handle_outgoing_subscribe` 221-229,
`handle_outgoing_unsubscribe` 231-237 and `handle_outgoing_disconnect` 239-241 -/
def outgoingState (s : State) : Packet → State × Except HFail Unit
  | .publish p => outgoingPublish s p
  | .subscribe p => ((s.addOutgoingSub p.id).1, .ok ())
  | .unsubscribe p => ((s.addOutgoingUnsub p.id).1, .ok ())
  | _ => (s, .ok ())

/-- `handle_outgoing_packet`, state_handler.rs 180-195 -/
def outgoing (h : Handler) (p : Packet) : Handler × Except HFail Unit :=
  let (s, r) := outgoingState h.state p
  ({ h with state := s }, r)

end Handler
end Mqrstt
