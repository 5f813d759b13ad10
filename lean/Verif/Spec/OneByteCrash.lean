import Verif.Spec.Stream
/-! # A receiver that panics -/

namespace Verif.Spec
open Codec

/-- `Receive` delivers some messages and then panics. -/
def PanicsAfter {E : Type} (C : BodyCodec E) (key : Option DecKey) (endErr : Err) (s : RecvState) : Prop :=
  ∃ ds : List (Message E), (receiveMany C key endErr (ds.length + 1) s).1 = ds.map .ok ++ [.panic]

end Verif.Spec
