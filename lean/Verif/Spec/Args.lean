import Verif.Model.Topics
import Verif.Spec.Wire
/-! # What the arguments of `subscribe` and `unsubscribe` mean -/

namespace Spec
open Mqrstt

/-- the topic filter in an argument -/
def argFilter : SubArg → Str
  | .topic t => t
  | .withQoS t _ => t
  | .withOptions t _ => t

/-- the options byte an argument asks for (3.8.3.1): a topic alone asks for QoS 0 and no options, a QoS for that QoS and no
options -/
def argOptions : SubArg → Nat
  | .topic _ => 0
  | .withQoS _ q => qosNumber q
  | .withOptions _ o => subOptionsByte o

/-- the arguments of a call, one after the other -/
def subArgs : SubArgs → List SubArg
  | .one a => [a]
  | .many as => as

def unsubArgs : UnsubArgs → List Str
  | .one t => [t]
  | .many ts => ts

/-- an argument in the payload of SUBSCRIBE -/
def ArgSays (a : SubArg) (bs : Bytes) : Prop :=
  ∃ topic o, bs = topic ++ [o] ∧ StrSays (argFilter a) topic ∧ o.toNat = argOptions a

/-- a SUBSCRIBE with identifier `id` and properties `P` for these arguments, on the wire -/
def SubscribeSays (id : UInt16) (P : Props) (as : List SubArg) (bs : Bytes) : Prop :=
  ∃ len idb sec topics, bs = 0x82 :: (len ++ (idb ++ sec ++ topics)) ∧ LenBytes (idb ++ sec ++ topics).length len ∧
    U16Says id idb ∧ SectionSays .subscribe P sec ∧ ListSays ArgSays as topics

/-- an UNSUBSCRIBE on the wire -/
def UnsubscribeSays (id : UInt16) (P : Props) (ts : List Str) (bs : Bytes) : Prop :=
  ∃ len idb sec topics, bs = 0xA2 :: (len ++ (idb ++ sec ++ topics)) ∧ LenBytes (idb ++ sec ++ topics).length len ∧
    U16Says id idb ∧ SectionSays .unsubscribe P sec ∧ ListSays StrSays ts topics

end Spec
