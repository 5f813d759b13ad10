import Verif.Model.Syscall
/-! # One server process after the other on the same files

A server process can end at any moment: it is killed, the machine's owner stops it, or it panics. Sessions, handlers and requests are gone then; the files
in the temporary directory are not, and the next process works on them (multipart.go:90-94 makes the same path from the same numbers). -/

namespace Verif.Syscall

/-- One process: what its connections deliver, and its steps until it ends. After any of them it may end, also in the middle of a call. A step that panics
changes no file, so a process that panics is one that ends before this step (server.go:62-79, session_handler.go:34-113). -/
structure Life where
  reads : Nat → List Bytes
  events : List Event

/-- Processes one after the other; what each of them did. The next one finds the files the one before left (multipart.go:90-94). That the operating system
goes on is assumed: what was written is not lost. -/
def lives (env : Env) (key : Option DecKey) (endErr : Err) (auto : Bool) (fs : FS) : List Life → Res (FS × List (List Item))
  | [] => .ok (fs, [])
  | l :: ls => do
    let (s, log) ← (startOn fs l.reads).run env key endErr auto l.events
    let (fs', logs) ← lives env key endErr auto s.files.fs ls
    .ok (fs', log :: logs)

end Verif.Syscall
