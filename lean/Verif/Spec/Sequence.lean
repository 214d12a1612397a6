import Verif.Spec.EndToEnd
/-!
# The order in which messages arrive

What it means that messages are handed on in the order in which they were sent (MQTT v5, 4.6), although QoS 1 messages may be
handed on again.
-/

namespace Mqrstt.Spec

/-- `all` is `firsts` with repetitions: each message in it either is the next one in `firsts` or has been there before; only
QoS 1 messages are repeated -/
inductive Repeats : List Publish → List Publish → Prop where
  | nil : Repeats [] []
  | first {firsts all : List Publish} {p : Publish} (h : Repeats firsts all) : Repeats (firsts ++ [p]) (all ++ [p])
  | again {firsts all : List Publish} {p : Publish} (h : Repeats firsts all) (hp : p ∈ firsts) (hq : p.qos = .atLeastOnce) :
      Repeats firsts (all ++ [p])

/-- repetitions aside, everything in `handed` comes in the order of `sent` -/
def InOrder (sent handed : List Publish) : Prop := ∃ firsts, Repeats firsts handed ∧ firsts.Sublist sent

/-- in this step the server takes a message and neither hands it on nor has handed it on before -/
def World.Refuses (w w' : World) : Prop :=
  ∃ p rest, w.toServer = .publish p :: rest ∧ p.qos ≠ .atMostOnce ∧ w'.toServer = rest ∧ w'.handed = w.handed ∧
    ∀ i, p.pkid = some i → i ∉ w'.held

/-- a story in which the server refuses no message -/
inductive World.Willing (keeps : Bool) : List Obs → World → Prop where
  | start : Willing keeps [] World.start
  | client {tr w x w'} (h : Willing keeps tr w) (hs : World.Client w x w') : Willing keeps (tr ++ [x]) w'
  | server {tr w w'} (h : Willing keeps tr w) (hs : World.Server keeps w w') (hr : ¬ w.Refuses w') : Willing keeps tr w'

/-- What is sent again on a resumed session is sent again completely: each time the next one, and `connect` succeeds only
when nothing is left. -/
def ResentInFull (cleanStart : Bool) (tr : List Obs) : Prop :=
  (∀ pre p a b post, tr = pre ++ .wrote (.publish p) a b :: post → p.qos ≠ .atMostOnce → p.dup = true →
    ∃ q rest, (sender cleanStart pre).again = q :: rest ∧ p = { q with dup := true }) ∧
  (∀ pre c t post, tr = pre ++ .connected c t :: post → (sender cleanStart pre).again = [])

end Mqrstt.Spec
