import Verif.Model.Tokio
import Verif.Model.Smol
/-!
# The end of the clock

Source: `/repo/mqrstt/src/tokio/network.rs` 121-126, `/repo/mqrstt/src/smol/network.rs` 132-140. Every turn of `run` starts by adding
the keep-alive interval to an `Instant`. `Instant + Duration` (std) panics if the sum is later than the last instant there is;
`Instant - Instant` does not. `Tokio.lean` and `Smol.lean` add without a limit.
-/

namespace Mqrstt

/-- `Instant + Duration`, std; `latest` is the last instant of the platform (the clock of the model starts anywhere); `none` is
the panic, as used in tokio/network.rs 123, 125 and smol/network.rs 137, 139 -/
def addInstant (latest t d : Nat) : Option Nat := if t + d ≤ latest then some (t + d) else none

/-- does the turn that `run` is about to make get past tokio/network.rs 121-126: the sum is computed whether or not keep-alive
is on -/
def Tokio.sleepComputed (latest : Nat) (s : Tokio) (await : Option Nat) : Bool :=
  match await with
  | some t => (addInstant latest t s.options.keepAlive).isSome
  | none => (addInstant latest s.lastAction s.options.keepAlive).isSome

/-- the same for smol/network.rs 133-140 -/
def Smol.sleepComputed (latest : Nat) (s : Smol) : Bool :=
  if s.perform = false then true
  else match s.await with
    | some t => (addInstant latest t s.keepAlive).isSome
    | none => (addInstant latest s.lastAction s.keepAlive).isSome

end Mqrstt
