import Verif.Model.Codec
/-! # Concrete values used in the examples beside the theorems -/

namespace Verif.Sample

/-- An environment whose text encoding is the identity on ASCII and whose compression adds a marker byte;
local time is UTC+8. -/
def env : Env where
  gbEnc s := if s.all (· < 128) then some s else none
  gbDec s := if s.all (· < 128) then some s else none
  gzip s := some (31 :: s)
  gunzip s := match s with | 31 :: t => some t | _ => none
  tz := 28800

/-- A header with terminal number 13800138000 and serial 7. -/
def header : Header := { msgID := 0, property := 0, iccID := 13800138000, serial := 7, packet := none }

/-- The same header with packet information "part 2 of 3". -/
def packedHeader : Header := { header with packet := some ⟨3, 2⟩ }

/-- A body whose bytes need escaping. -/
def body : Entity := .m0700 { replySerial := 0x7e7d, cmd := 0x7d, data := [0x7e, 0x01, 0x02, 0x7d] }

/-- A message to be sent. -/
def message : Message Entity := { header := header, body := .val body }

/-- The codec of all registered body types in the sample environment. -/
abbrev codec : BodyCodec Entity := entityCodec env

end Verif.Sample
