import Verif.Model.Entity
/-! What a body keeps of the value it had before, when it is decoded into a used value. -/

namespace Verif.Spec

/-- `carried old n new`: the value a used body `old` has after decoding `n` bytes that give the value `new` when decoded
into a fresh body of the same type.

- Eight types append the received list to the list they had (0x8003, 0x8301, 0x8302, 0x8303, 0x8401, 0x8606, 0x8607,
  0x8800). 0x0801 keeps its extras and its packet whatever is received.
- Four keep their text when the bytes end before it (0x0100, 0x8100, 0x8105, 0x8300).
- A location report keeps its extras when none are received.
- A polygon keeps its times, its speed limit and its duration when attribute bit 0 is not set.
- All others keep nothing. -/
def carried (old : Entity) (n : Nat) (new : Entity) : Entity :=
  match old, new with
  | .m0100 o, .m0100 v => .m0100 (if n = 37 then { v with licenseNo := o.licenseNo } else v)
  | .m8100 o, .m8100 v => .m8100 (if n = 3 then { v with authKey := o.authKey } else v)
  | .m8105 o, .m8105 v => .m8105 (if n = 1 then { v with text := o.text } else v)
  | .m8300 o, .m8300 v => .m8300 (if n = 1 then { v with text := o.text } else v)
  | .m0200 o, .m0200 v => .m0200 (if v.extras = [] then { v with extras := o.extras } else v)
  | .m0801 o, .m0801 v => .m0801 { v with packet := o.packet, location := { v.location with extras := o.location.extras } }
  | .m8003 o, .m8003 v => .m8003 { v with packetIDs := o.packetIDs ++ v.packetIDs }
  | .m8301 o, .m8301 v => .m8301 { v with events := o.events ++ v.events }
  | .m8302 o, .m8302 v => .m8302 { v with answers := o.answers ++ v.answers }
  | .m8303 o, .m8303 v => .m8303 { v with items := o.items ++ v.items }
  | .m8401 o, .m8401 v => .m8401 { v with contacts := o.contacts ++ v.contacts }
  | .m8606 o, .m8606 v => .m8606 { v with points := o.points ++ v.points }
  | .m8607 o, .m8607 v => .m8607 { v with ids := o.ids ++ v.ids }
  | .m8800 o, .m8800 v => .m8800 { v with retryIDs := o.retryIDs ++ v.retryIDs }
  | .m8604 o, .m8604 v => .m8604 (if v.attr &&& 1 = 0 then
      { v with startTime := o.startTime, endTime := o.endTime, maxSpeed := o.maxSpeed, duration := o.duration } else v)
  | _, new => new

end Verif.Spec
