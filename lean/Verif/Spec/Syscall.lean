import Verif.Model.Syscall
import Verif.Spec.Files
import Verif.Spec.System
import Verif.Spec.Cipher
/-! # What handlers are given when system calls interleave -/

namespace Verif.Spec
open Handler Syscall

/-- What the loops did. -/
def actsIn (log : List Item) : List (Nat × Act) :=
  log.filterMap fun
    | .act k a => some (k, a)
    | .file _ => none

/-- What happened in calls on files. -/
def filesIn (log : List Item) : List Files.Obs :=
  log.filterMap fun
    | .file o => some o
    | .act _ _ => none

/-- What a handler was given: the message, what it has read from the merged file, and whether it has read to its end. -/
structure Got where
  handler : Nat
  message : Message Entity
  read : Bytes := []
  toEnd : Bool := false
  deriving DecidableEq, Repr

/-- One more observation; the handler called last comes first. -/
def gotNext (k : Nat) (l : List Got) : Item → List Got
  | .act j (.handle h m) => if j = k then { handler := h, message := m } :: l else l
  | .file (.got j chunk) => if j = k then match l with | g :: l => { g with read := g.read ++ chunk } :: l | [] => [] else l
  | .file (.eof j) => if j = k then match l with | g :: l => { g with toEnd := true } :: l | [] => [] else l
  | _ => l

/-- What the handlers of connection `k` were given, the latest first. -/
def gotBy (k : Nat) (log : List Item) : List Got := log.foldl (gotNext k) []

/-- The handlers that were called for connection `k`, with the messages, the latest first. -/
def handledBy (k : Nat) (log : List (Nat × Act)) : List (Nat × Message Entity) :=
  (log.filterMap fun
    | (j, .handle h m) => if j = k then some (h, m) else none
    | _ => none).reverse

/-- `m` is the merged upload `m'`, with the merged file as reader in place of the content `c`. -/
def Unread (m m' : Message Entity) (c : Bytes) : Prop :=
  ∃ b : T0801, m.body = .val (.m0801 { b with packet := none }) ∧ m' = { m with body := .val (.m0801 { b with packet := some c }) }

/-- The same message, but the content of a merged upload has to be read from the merged file. -/
def SameToRead (auto : Bool) (m m' : Message Entity) : Prop := isPart auto m' = false ∧ m = m' ∨ isPart auto m' = true ∧ ∃ c, Unread m m' c

/-- The same act. -/
inductive SameAct (auto : Bool) : Nat × Act → Nat × Act → Prop where
  | same (k : Nat) (a : Act) : offered [a] = [] → SameAct auto (k, a) (k, a)
  | handle (k h : Nat) {m m' : Message Entity} : SameToRead auto m m' → SameAct auto (k, .handle h m) (k, .handle h m')
  | unhandled (k : Nat) {m m' : Message Entity} : SameToRead auto m m' → SameAct auto (k, .unhandled m) (k, .unhandled m')

/-- The handler was given the message, and of a merged upload nothing but the content can be read, all of it if it is read to the end. -/
def Told (auto : Bool) (g : Got) (x : Nat × Message Entity) : Prop :=
  g.handler = x.1 ∧ (isPart auto x.2 = false ∧ g.message = x.2 ∧ g.read = [] ∧ g.toEnd = false ∨
    isPart auto x.2 = true ∧ ∃ c, Unread g.message x.2 c ∧ g.read <+: c ∧ (g.toEnd = true → g.read = c))

/-- Parts of an upload arrive on one connection only. -/
def OwnUploads (env : Env) (key : Option DecKey) (endErr : Err) (auto : Bool) (reads : Nat → List Bytes) : Prop :=
  ∀ j k u m m', ArrivesOn env key endErr (reads j) m → ArrivesOn env key endErr (reads k) m' → belongs auto u m = true → belongs auto u m' = true → j = k

/-- The directories could be read whenever they were. -/
def AllListed (log : List Item) : Prop := ∀ k m, .file (.unlisted k m) ∉ log

end Verif.Spec
