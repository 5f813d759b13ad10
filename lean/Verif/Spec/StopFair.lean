import Verif.Spec.Shutdown
import Verif.Spec.Endless
/-! # A server that is stopped, in the long run -/

namespace Verif.Spec.Stop
open Shutdown

/-- The goroutines that have to do with closing sessions are given turns again and again: the one that called `Stop`, and for every session the one that
`Close` starts. Close handlers may take as long as they like and may panic, but every one comes to its end at some time. What else happens, and when, is open. -/
structure Fair (ev : Nat → Shutdown.Event) : Prop where
  lock : Again ev (· = .lock)
  unlock : Again ev (· = .unlock)
  closes : ∀ k, Again ev (· = .closeNext k)
  finish : Again ev (· = .finish)
  callbacks : ∀ k, Again ev (· = .world (.move k .callbacks))
  delete : ∀ k, Again ev (· = .world (.move k .delete))
  remove : ∀ k, Again ev (· = .world (.move k .remove))
  handler : ∀ k, Again ev fun e => ∃ u, e = .world (.move k (.handler u))
  release : ∀ k, Again ev (· = .release k)

/-- The goroutine of session `k` is given turns again and again, wherever it is in session_handler.go:19-114: handlers and callbacks come to their end at some time,
and receiving comes back. The latter is something the client can delay as long as the session is open; from a closed connection nothing is awaited. -/
structure Runs (ev : Nat → Shutdown.Event) (k : Nat) : Prop where
  register : Again ev (· = .world (.move k .register))
  restart : Again ev fun e => ∃ now, e = .world (.move k (.restart now))
  cancel : Again ev (· = .world (.move k .cancel))
  arm : Again ev (· = .world (.move k .arm))
  closedYet : Again ev (· = .world (.move k .check))
  attach : Again ev (· = .world (.move k .attach))
  receive : Again ev (· = .world (.receive k))
  process : Again ev fun e => ∃ o u, e = .world (.process k o u)
  check : Again ev (· = .world (.check k))
  merge : Again ev fun e => ∃ o, e = .world (.merge k o)
  note : Again ev fun e => ∃ u, e = .world (.note k u)
  dispatch : Again ev fun e => ∃ now, e = .world (.dispatch k now)
  call : Again ev (· = .world (.call k))
  finish : Again ev fun e => ∃ u, e = .world (.finish k u)

end Verif.Spec.Stop
