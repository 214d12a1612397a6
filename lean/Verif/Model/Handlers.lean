import Verif.Model.System
/-!
# The handlers that come with the crate

Source: `/repo/mqrstt/src/event_handlers.rs` 30-117, module `example_handlers`. What they print is not modelled (`println!`
panics if standard output is gone). `NOP` (34-46) does nothing.
-/

namespace Mqrstt

/-! ## `PingResp`, 48-76 -/

/-- event_handlers.rs 47-51, without the client, which `handle` does not use -/
structure PingRespHandler where
  pingRespReceived : UInt32

/-- event_handlers.rs 61-67; `none` is the panic of `+=` where overflow is checked -/
def PingRespHandler.handle (checks : Bool) (h : PingRespHandler) : Packet → Option PingRespHandler
  | .pingResp => if checks && h.pingRespReceived == 0xFFFFFFFF then none else some ⟨h.pingRespReceived + 1⟩
  | _ => some h

/-! ## `PingPong`, 78-116 -/

/-- `str::to_lowercase`, as far as a search for "ping" can tell: the capital letters of ASCII, and U+0130 which becomes an `i`
and a combining dot. Simplified: of all other characters only U+212A becomes an ASCII letter, namely `k`; they are kept. In
valid UTF-8 the bytes C4 B0 are always the character U+0130. event_handlers.rs 97. -/
def lowercase : Bytes → Bytes
  | 0xC4 :: 0xB0 :: r => 0x69 :: 0xCC :: 0x87 :: lowercase r
  | b :: r => (if 0x41 ≤ b ∧ b ≤ 0x5A then b + 0x20 else b) :: lowercase r
  | [] => []

/-- `contains("ping")`, event_handlers.rs 97 -/
def containsPing : Bytes → Bool
  | [] => false
  | b :: r => (b :: r).take 4 == [0x70, 0x69, 0x6E, 0x67] || containsPing r

/-- `str::is_char_boundary` for an index up to the length: the end, or not in the middle of a character. The slice of
event_handlers.rs 96 panics elsewhere -/
def isBoundary (b : Bytes) (i : Nat) : Bool :=
  match b[i]? with
  | none => true
  | some x => !(0x80 ≤ x && x ≤ 0xBF)

/-- event_handlers.rs 79-82; the client is the one of the session the handler works in -/
structure PingPong where
  number : UInt16

/-- what one call of event_handlers.rs 91-114 does -/
inductive HandlerStep where
  | returns
  | panics
  /-- `client.publish(…).await.unwrap()` -/
  | publishes (q : Request)

/-- `handle` up to the call of `publish`, event_handlers.rs 90-97: the text is cut after ten bytes (93-94) before anything is
looked for in it -/
def PingPong.begin : Packet → HandlerStep
  | .publish p =>
    if validUtf8 p.payload then
      if isBoundary p.payload (min p.payload.length 10) then
        if containsPing (lowercase p.payload) then
          .publishes (.publish p.topic p.qos p.retain [0x70, 0x6F, 0x6E, 0x67] .empty)
        else .returns
      else .panics
    else .returns
  | _ => .returns

/-- after the call, event_handlers.rs 96-104; `none` is the panic of `unwrap` or of `add_assign` -/
def PingPong.finish (checks : Bool) (h : PingPong) (retain ok : Bool) : Option PingPong :=
  if ok then
    if retain then some h
    else if checks && h.number == 0xFFFF then none else some ⟨h.number + 1⟩
  else none

/-- The whole call, if it need not wait, neither for an identifier nor for room in the queue; `none` if it has to (C62 says when
that is). The second component is `none` for a panic. event_handlers.rs 91-114. -/
def PingPong.handle (checks : Bool) (h : PingPong) (s : Sys) (p : Packet) : Option (Sys × Option PingPong) :=
  match begin p with
  | .returns => some (s, some h)
  | .panics => some (s, none)
  | .publishes q =>
    let retain := match q with | .publish _ _ r _ _ => r | _ => false
    match s.step (.call q) with
    | some (s, .called _ _ _) =>
      match s.step (.submit (s.pending.length - 1)) with
      | some (s, .submitted _) => some (s, h.finish checks retain true)
      | some (s, _) => some (s, h.finish checks retain false)
      | none => none
    | some (s, _) => some (s, h.finish checks retain false)
    | none => none

end Mqrstt
