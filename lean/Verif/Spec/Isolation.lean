import Verif.Spec.Handler
/-! # What a session shows, and what concerns it -/

namespace Verif.Spec
open Handler

/-- Does the step of another goroutine concern the session with the uploads `own`? Storing and merging other uploads does not. -/
def relevant (own : Upload → Bool) : Outside → Bool
  | .write f _ _ _ => own ⟨f.icc, f.msgID, f.tag⟩
  | .merge f _ => own ⟨f.icc, f.msgID, f.tag⟩
  | _ => true

/-- The same course of events without the other uploads. -/
def withoutOthers (own : Upload → Bool) : List Input → List Input
  | [] => []
  | .outside x :: is => if relevant own x then .outside x :: withoutOthers own is else withoutOthers own is
  | .receive r a :: is =>
    .receive r { a with
      afterWrite := a.afterWrite.filter (relevant own)
      afterCheck := a.afterCheck.filter (relevant own)
      afterMerge := a.afterMerge.filter (relevant own)
      beforeDispatch := a.beforeDispatch.filter (relevant own) } :: withoutOthers own is

/-- The same for the turns of a connection: for every turn what others do while the loop waits, and what happens around the message. -/
def quietTurns (own : Upload → Bool) (turns : List (List Outside × Around)) : List (List Outside × Around) :=
  turns.map fun t => (t.1.filter (relevant own), { t.2 with
    afterWrite := t.2.afterWrite.filter (relevant own)
    afterCheck := t.2.afterCheck.filter (relevant own)
    afterMerge := t.2.afterMerge.filter (relevant own)
    beforeDispatch := t.2.beforeDispatch.filter (relevant own) })

/-- What the terminal and the program see of a session: everything but the work on files. -/
def visible : Act → Bool
  | .wrote .. => false
  | .merged .. => false
  | _ => true

/-- The parts of uploads that are received belong to these uploads. -/
def Uploads (auto : Bool) (own : Upload → Bool) (is : List Input) : Prop :=
  ∀ m a, Input.receive (.ok m) a ∈ is → ∀ u p data, partOf auto m = some (u, p, data) → own u = true

end Verif.Spec
