import Verif.Model.Options
import Verif.Spec.WellFormed
/-!
# What a CONNECT should say, given the setter calls
-/

namespace Spec
open Mqrstt

/-- what the last of the calls that concern a value set it to -/
def lastCall {α : Type} (f : Setter → Option α) (calls : List Setter) : Option α :=
  calls.reverse.findSome? f

def clientIdOf : Setter → Option Str | .clientId s => some s | _ => none
def cleanStartOf : Setter → Option Bool | .cleanStart b => some b | _ => none
def usernameOf : Setter → Option Str | .username s => some s | _ => none
def passwordOf : Setter → Option Str | .password s => some s | _ => none
def sessionExpiryOf : Setter → Option UInt32 | .sessionExpiry n => some n | _ => none
def lastWillOf : Setter → Option LastWill | .lastWill w => some w | _ => none
def receiveMaxOf : Setter → Option UInt16 | .receiveMax n => some n | _ => none
def sendMaxOf : Setter → Option UInt16 | .sendMax n => some n | _ => none
/-- a keep-alive time counts in whole seconds ("The granularity is in seconds!"); 10^9 ns = 1 s -/
def keepAliveOf : Setter → Option Nat | .keepAlive d => some (d / 1000000000) | _ => none
/-- a maximum packet size above 268,435,455 is refused and has no effect -/
def maxPacketSizeOf : Setter → Option UInt32
  | .maxPacketSize n => if n.toNat ≤ 268435455 then some n else none
  | _ => none

/-- the keep-alive seconds configured; 60 unless set -/
def keepAliveSeconds (calls : List Setter) : Nat :=
  match lastCall keepAliveOf calls with
  | some n => n
  | none => 60

/-- everything in the CONNECT but the keep-alive time is as configured -/
structure SaysConfigured (id : Str) (calls : List Setter) (c : Connect) : Prop where
  clientId : c.clientId = (match lastCall clientIdOf calls with | some s => s | none => id)
  cleanStart : c.cleanStart = (match lastCall cleanStartOf calls with | some b => b | none => true)
  username : c.username = lastCall usernameOf calls
  password : c.password = lastCall passwordOf calls
  lastWill : c.lastWill = lastCall lastWillOf calls
  sessionExpiry : c.props.val .sessionExpiryInterval = lastCall sessionExpiryOf calls
  receiveMax : c.props.val .receiveMaximum = lastCall receiveMaxOf calls
  maxPacketSize : c.props.val .maximumPacketSize = lastCall maxPacketSizeOf calls
  /-- there is nothing else in it -/
  others : ∀ p, p ≠ .sessionExpiryInterval → p ≠ .receiveMaximum → p ≠ .maximumPacketSize →
    c.props.val p = none
  noIds : c.props.subIds = []
  noUsers : c.props.users = []

/-- the value of a bit -/
def bitAt (i : Nat) (b : Bool) : Nat := if b then 2 ^ i else 0

/-- QoS as a number -/
def qosNumber : QoS → Nat | .atMostOnce => 0 | .atLeastOnce => 1 | .exactlyOnce => 2

/-- the connect flags byte, MQTT v5 3.1.2.3: user name, password, will retain, will QoS (2 bits), will,
clean start, reserved -/
def connectFlagsByte (c : Connect) : Nat :=
  bitAt 7 c.username.isSome + bitAt 6 c.password.isSome +
  (match c.lastWill with
   | some w => bitAt 5 w.retain + 8 * qosNumber w.qos + 4
   | none => 0) +
  bitAt 1 c.cleanStart

/-- the wire form of CONNECT up to the keep-alive, MQTT v5 3.1.1-3.1.2.10: first byte, body length,
protocol name, version 5, flags, keep alive -/
def ConnectHead (c : Connect) (bs : Bytes) : Prop :=
  ∃ len flags hi lo tail,
    bs = 0x10 :: (len ++ ([0, 4, 77, 81, 84, 84, 5, flags, hi, lo] ++ tail)) ∧
    flags.toNat = connectFlagsByte c ∧ hi.toNat * 256 + lo.toNat = c.keepAlive.toNat

end Spec
