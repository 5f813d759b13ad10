import Verif.Model.HangUp
import Verif.Spec.Stream
/-! # What it means that a session is closed by its handlers -/

namespace Verif.Spec
open HangUp

variable {σ : Type}

/-- The session is closed: by a handler or callback, by the connection when it refuses a message, or because receiving failed. -/
def ends : HangUp.Ev → Bool
  | .closes _ | .does (.refused _) | .does .closed => true
  | _ => false

/-- The messages received, in order. -/
def takenIn (log : List HangUp.Ev) : List (Message Entity) :=
  log.filterMap fun
    | .does (.received m) => some m
    | _ => none

/-- The messages given to handlers, in order. -/
def workedOn (log : List HangUp.Ev) : List (Message Entity) :=
  log.filterMap fun
    | .does (.handled _ m) => some m
    | _ => none

/-- The messages are those of the frames that follow each other at the start of the bytes (not necessarily of all of them). -/
inductive FramesOf (C : BodyCodec Entity) (key : Option DecKey) : Bytes → List (Message Entity) → Prop where
  | nil (bytes : Bytes) : FramesOf C key bytes []
  | cons {f bytes : Bytes} {m : Message Entity} {ms : List (Message Entity)} : Delimited f → Message.decode C key {} f = .ok m → FramesOf C key bytes ms →
      FramesOf C key (f ++ bytes) (m :: ms)

/-- What is left of a piece that was read after at least one byte of it was used. -/
def LeftOf (reads : List Bytes) (rest : Bytes) : Prop := rest = [] ∨ ∃ piece ∈ reads, rest <:+ piece ∧ rest.length < piece.length

/-! ## The session of `Model/Converse.lean` that does the same

There no handler can close the session. The results of `Close` become data of the program. -/

/-- What happens apart from the calls of `Close`. -/
def plain (log : List HangUp.Ev) : List Converse.Ev :=
  log.filterMap fun
    | .does e => some e
    | .closes _ => none

/-- Which messages were accepted by the connection, in order. -/
def answers (log : List HangUp.Ev) : List Bool :=
  log.filterMap fun
    | .does (.sent _) => some true
    | .does (.refused _) => some false
    | _ => none

/-- The results of the calls of `Close`, in order. -/
def closings (log : List HangUp.Ev) : List Bool :=
  log.filterMap fun
    | .closes b => some b
    | _ => none

/-- The code without the calls of `Close`: their results are taken from a list. -/
def withoutClose : Code σ → List Bool → Converse.Code (σ × List Bool)
  | .returns u, bs => .returns (u, bs)
  | .panics u, bs => .panics (u, bs)
  | .send e next, bs => .send e fun n => withoutClose (next n) bs
  | .request e cb next, bs => .request e cb fun n => withoutClose (next n) bs
  | .close next, bs => withoutClose (next (bs.headD false)) bs.tail

/-- The program without the calls of `Close`. -/
def staying (P : HangUp.Program σ) : Converse.Program (σ × List Bool) where
  handlers := P.handlers
  handler h u m := withoutClose (P.handler h u.1 m) u.2
  callback cb u m := withoutClose (P.callback cb u.1 m) u.2

/-- The session for it: `acc` are the results of the coming calls of the connection's `Send`, `bs` those of the coming calls of `Close`. -/
def stays (s : HangUp.State σ) (acc bs : List Bool) : Converse.State (σ × List Bool) :=
  { next := s.session.next, icc := s.session.icc, requests := s.session.requests, fs := s.session.fs, accepts := acc, user := (s.session.user, bs) }

end Verif.Spec
