import Verif.Model.System
/-!
# Arguments of `subscribe` and `unsubscribe`, and the calls without properties

Source: `/repo/mqrstt/src/packets/{subscribe,unsubscribe}/mod.rs`, `/repo/mqrstt/src/client.rs`.

Rust accepts many types here (`&str`, `String`, `&String`, `Box<str>`, tuples by value and by reference, arrays,
slices, vectors); those that carry the same data are one constructor in the model.
-/

namespace Mqrstt

/-- one element accepted by `subscribe`: the types with `IntoSingleSubscription`, subscribe/mod.rs 277-336 -/
inductive SubArg where
  /-- `&str`, `&String`, `String`, `Box<str>` -/
  | topic (t : Str)
  /-- `(T, QoS)`, `&(T, QoS)` -/
  | withQoS (t : Str) (qos : QoS)
  /-- `(T, SubscriptionOptions)`, `&(T, SubscriptionOptions)` -/
  | withOptions (t : Str) (o : SubOptions)

/-- `IntoSingleSubscription::into`, subscribe/mod.rs 277-336 -/
def SubArg.into : SubArg → Str × SubOptions
  | .topic t => (t, .default)
  | .withQoS t qos => (t, { SubOptions.default with qos := qos })
  | .withOptions t o => (t, o)

/-- what can be converted to `SubscribeTopics`, subscribe/mod.rs 338-411: one element, or an array, slice or vector -/
inductive SubArgs where
  | one (a : SubArg)
  | many (as : List SubArg)

/-- `SubscribeTopics::from`, subscribe/mod.rs 338-411 -/
def SubArgs.topics : SubArgs → List (Str × SubOptions)
  | .one a => [a.into]
  | .many as => as.map SubArg.into

/-- what can be converted to `UnsubscribeTopics`, unsubscribe/mod.rs 147-252: one topic or a list -/
inductive UnsubArgs where
  | one (t : Str)
  | many (ts : List Str)

/-- unsubscribe/mod.rs 177-252 -/
def UnsubArgs.topics : UnsubArgs → List Str
  | .one t => [t]
  | .many ts => ts

/-- the methods of `MqttClient`; the blocking ones build the same packets (client.rs 482-490, 540-551, 584-604,
656-674, 710-721, 773-784, 800-808, 834-838) -/
inductive Method where
  /-- `subscribe`, client.rs 77-87 -/
  | subscribe (a : SubArgs)
  /-- `subscribe_with_properties`, client.rs 138-148 -/
  | subscribeWith (a : SubArgs) (props : Props)
  /-- `publish`, client.rs 180-200 -/
  | publish (topic : Str) (qos : QoS) (retain : Bool) (payload : Bytes)
  /-- `publish_with_properties`, client.rs 251-269 -/
  | publishWith (topic : Str) (qos : QoS) (retain : Bool) (payload : Bytes) (props : Props)
  /-- `unsubscribe`, client.rs 304-315 -/
  | unsubscribe (a : UnsubArgs)
  /-- `unsubscribe_with_properties`, client.rs 372-383 -/
  | unsubscribeWith (a : UnsubArgs) (props : Props)
  /-- `disconnect`, client.rs 402-409 -/
  | disconnect
  /-- `disconnect_with_properties`, client.rs 436-440 -/
  | disconnectWith (reason : Reason) (props : Props)

/-- the request a method makes. `Subscribe::new` (subscribe/mod.rs 26-34) and `Unsubscribe::new` use the default
properties, `disconnect` the reason code `NormalDisconnection` (client.rs 403-406). -/
def Method.request : Method → Request
  | .subscribe a => .subscribe a.topics .empty
  | .subscribeWith a props => .subscribe a.topics props
  | .publish topic qos retain payload => .publish topic qos retain payload .empty
  | .publishWith topic qos retain payload props => .publish topic qos retain payload props
  | .unsubscribe a => .unsubscribe a.topics .empty
  | .unsubscribeWith a props => .unsubscribe a.topics props
  | .disconnect => .disconnect .normalDisconnection .empty
  | .disconnectWith reason props => .disconnect reason props

end Mqrstt
