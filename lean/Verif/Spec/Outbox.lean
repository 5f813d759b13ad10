import Verif.Model.Outbox
/-! # Specification of what leaves a connection -/

namespace Verif.Spec

open Outbox

variable {E : Type}

/-- The messages for which `Send` returned nil, in the order in which they were accepted. -/
def acceptedItems (o : List (Obs E)) : List (Item E) := o.filterMap fun x => match x with | .accepted _ y => some y | _ => none

/-- The frame a message is due, with the body it had when `Send` was called. -/
def Due.Frame (C : BodyCodec E) (key : Option EncKey) (x : Item E) (f : Bytes) : Prop :=
  Codec.sendBytes C key { header := x.header, body := x.given } = .ok f

/-- A call of `Send` with the object `r` was accepted, or may still be, and the message was not yet written. -/
def Waiting (s : State E) (r : Nat) : Prop :=
  (∃ i x, s.place i = some (.checked x) ∧ x.arg = .obj r) ∨ ∃ x ∈ s.queue, x.arg = .obj r

/-- The program does not change a body while a message with it is waiting to be written, and does not send media messages. (Other sessions may send
the same body at the same time.) -/
def Calm (C : BodyCodec E) (key : Option EncKey) : State E → List (Event E) → Prop
  | _, [] => True
  | s, ev :: evs =>
    (match ev with
      | .write r _ => ¬ Waiting s r
      | .enter _ _ (.obj r) => C.msgID (s.heap r) ≠ 0x0801
      | _ => True) ∧ Calm C key (s.step C key ev).1 evs

/-- The objects as the program assigned them last. -/
def lastAssigned (heap : Nat → E) : List (Event E) → Nat → E
  | [] => heap
  | .write r e :: evs => lastAssigned (fun q => if q = r then e else heap q) evs
  | _ :: evs => lastAssigned heap evs

end Verif.Spec

namespace Verif.Outbox

/-- The messages given to the codec, in order. -/
def handledItems {E : Type} (o : List (Obs E)) : List (Item E) := o.filterMap fun x => match x with | .handled y _ _ _ => some y | _ => none

/-- The calling goroutine a step belongs to. -/
def caller {E : Type} : Event E → Option Nat
  | .enter i _ _ => some i
  | .enqueue i => some i
  | .giveUp i => some i
  | _ => none

end Verif.Outbox
