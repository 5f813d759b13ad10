import Verif.Spec.Receive
import Verif.Spec.Accepts
/-! # Which frames the server understands -/

namespace Verif.Spec

/-- The header announces the length of the body, and the body, decrypted if need be, is one of a message with the id of the header. -/
def Understood (env : Env) (key : Option DecKey) (h : Header) (body : Bytes) : Prop :=
  body.length % 65536 = sizeField h.property.toNat ∧ ∃ plain, Decrypted key h body plain ∧ Accepts env h.msgID plain

end Verif.Spec
