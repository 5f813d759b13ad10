import Verif.Model.Codec
import Verif.Model.Handler
/-! # A connection: the receive loop of a session on top of the codec -/

namespace Verif.Handler

/-- session_handler.go:34-113 with `session.Receive()` (session_handler.go:36) being protocol.go:101-133 on the bytes of the connection: what
happens in the course of the loop. `turns` holds for every turn the steps of other goroutines while the loop waits, and what happens around the
message. The list ends with the first error or panic of `Receive`, since the loop returns then, or when the turns under consideration are used up. -/
def inputs (env : Env) (key : Option DecKey) (endErr : Err) : List (List Outside × Around) → RecvState → List Input
  | [], _ => []
  | (o, a) :: turns, s =>
    let (r, s) := Codec.receive (entityCodec env) key endErr s
    o.map .outside ++ .receive r a ::
      match r with
      | .ok _ => inputs env key endErr turns s
      | _ => []

/-- session_handler.go:34-113: the course of a session whose connection delivers `reads`, until the loop returns or the turns are used up. -/
def serve (env : Env) (key : Option DecKey) (endErr : Err) (auto : Bool) (turns : List (List Outside × Around)) (reads : List Bytes) :
    Res (Loop × List Act) :=
  ({} : Loop).run auto (inputs env key endErr turns ⟨[], reads⟩)

end Verif.Handler
