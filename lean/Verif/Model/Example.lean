import Verif.Model.Entity
import Verif.Model.Message
/-! # example/client/client.go: the upload of a file in parts -/

namespace Verif.Example

/-- Rounded up, as in client.go:146-153; the second argument is not 0 there. -/
def parts (n limit : Nat) : Nat := n / limit + if n % limit > 0 then 1 else 0

/-- example/client/client.go:137-192: the loop that cuts the file into parts, from the state `offset`, `limit` of the two variables: packet information
and content of the parts, in order. A division by 0 (lines 146, 150) and a slice beyond the capacity (line 181; `make` of line 136 gives exactly the
length) panic. Left out: encoding and writing every message within the loop (lines 155-190), so that the parts sent before a panic do not appear. -/
def upload (media : Bytes) (offset limit : Nat) : Res (List (Packet × Bytes)) :=
  if h : media.length ≤ offset then .ok []
  else
    let limit' := if media.length < offset + limit then offset + limit - media.length else limit
    if h0 : limit' = 0 then .panic
    else if media.length < offset + limit' then .panic
    else
      match upload media (offset + limit') limit' with
      | .ok rest =>
        .ok ((⟨UInt16.ofNat (parts media.length limit'), UInt16.ofNat (parts (offset + limit') limit')⟩, (media.drop offset).take limit') :: rest)
      | .err e => .err e
      | .panic => .panic
termination_by media.length - offset
decreasing_by omega

/-- example/client/client.go:155-182: the message for a part. The terminal number and the media data (without content) are parameters; the serial number
is 3 for every part, as in the source. -/
def message (icc : UInt64) (b : T0801) (part : Packet × Bytes) : Message Entity :=
  { header := { iccID := icc, serial := 3, packet := some part.1 }, body := .val (.m0801 { b with packet := some part.2 }) }

/-- example/client/client.go:133-192: the messages for the file, in order. -/
def messages (icc : UInt64) (b : T0801) (media : Bytes) : Res (List (Message Entity)) :=
  match upload media 0 512 with
  | .ok ps => .ok (ps.map (message icc b))
  | .err e => .err e
  | .panic => .panic

end Verif.Example
