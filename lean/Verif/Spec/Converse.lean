import Verif.Model.Converse
import Verif.Spec.Session
import Verif.Spec.Handler
import Verif.Spec.Transfer
/-! # What a session should do whose handlers use it

The specification knows no counters, lists of requests or files: it goes by the number of messages sent so far, the requests that wait for an answer and
the history of stored parts. -/

namespace Verif.Spec
open Session Handler Converse

variable {σ : Type}

/-- The `n`-th message of a session, counted from 0, to the terminal with number `icc`. -/
def outgoing (icc : UInt64) (n : Nat) (e : Entity) : Message Entity :=
  { header := { msgID := e.msgID, property := 0, iccID := icc, serial := serialOf n, packet := none }, body := .val e }

/-- `Performs icc n t code x n' t' u`: the code makes the calls `x`, in this order, and leaves the data `u`. The messages go to terminal `icc` and are
numbered from `n` on, up to `n'`; a call gets the number of its message as result, or an error if the connection refuses the message. `t` are the requests
that wait for an answer before, `t'` those after. -/
inductive Performs (icc : UInt64) : Nat → Table → Code σ → List Ev → Nat → Table → σ → Prop where
  | returns (n : Nat) (t : Table) (u : σ) : Performs icc n t (.returns u) [] n t u
  | panics (n : Nat) (t : Table) (u : σ) : Performs icc n t (.panics u) [] n t u
  | sent {n n' : Nat} {t t' : Table} {e : Entity} {next : Option UInt16 → Code σ} {x : List Ev} {u : σ} :
      Performs icc (n + 1) t (next (some (serialOf n))) x n' t' u → Performs icc n t (.send e next) (.sent (outgoing icc n e) :: x) n' t' u
  | refused {n n' : Nat} {t t' : Table} {e : Entity} {next : Option UInt16 → Code σ} {x : List Ev} {u : σ} :
      Performs icc (n + 1) t (next none) x n' t' u → Performs icc n t (.send e next) (.refused (outgoing icc n e) :: x) n' t' u
  | requested {n n' : Nat} {t t' : Table} {e : Entity} {cb : Nat} {next : Option UInt16 → Code σ} {x : List Ev} {u : σ} :
      Performs icc (n + 1) (t.put e.msgID (some (serialOf n, cb))) (next (some (serialOf n))) x n' t' u →
      Performs icc n t (.request e cb next) (.sent (outgoing icc n e) :: .requested ⟨e.msgID, serialOf n, cb⟩ :: x) n' t' u
  | requestRefused {n n' : Nat} {t t' : Table} {e : Entity} {cb : Nat} {next : Option UInt16 → Code σ} {x : List Ev} {u : σ} :
      Performs icc (n + 1) t (next none) x n' t' u → Performs icc n t (.request e cb next) (.refused (outgoing icc n e) :: x) n' t' u

/-- What there is to know about a session: the number of messages it has sent, the number of its terminal, the requests that wait for an answer, the calls on
the storage (latest first), the data of the program. -/
structure Knows (σ : Type) where
  count : Nat := 0
  icc : UInt64 := 0
  table : Table := fun _ => none
  files : List FileOp := []
  user : σ

/-- The message answers the request with the number `n`. -/
def Answers (m : Message Entity) (n : UInt16) : Prop := ∃ e, m.body = .val e ∧ answered e = some n ∧ n ≠ 0

/-- The terminal number of a message is remembered, unless it is 0. -/
def Knows.learn (k : Knows σ) (m : Message Entity) : Knows σ := if m.header.iccID = 0 then k else { k with icc := m.header.iccID }

/-- The first half of the delivery of a message: if it answers a waiting request, then the code of the callback is performed, and the request does not wait any
longer; otherwise nothing happens. -/
inductive Noted (P : Program σ) (k : Knows σ) (m : Message Entity) : List Ev → Knows σ → Prop where
  | ran {n id : UInt16} {cb n' : Nat} {x : List Ev} {t' : Table} {u : σ} (ha : Answers m n) (hw : k.table id = some (n, cb))
      (hc : Performs (k.learn m).icc k.count (k.table.put id none) (P.callback cb k.user m) x n' t' u) :
      Noted P k m (.ran cb m :: x) { k.learn m with count := n', table := t', user := u }
  | none (h : ∀ n id cb, Answers m n → k.table id ≠ some (n, cb)) : Noted P k m [] (k.learn m)

/-- The second half: the code of the handler of the message id is performed, if there is one. -/
inductive Dispatched (P : Program σ) (k : Knows σ) (m : Message Entity) : List Ev → Knows σ → Prop where
  | handled {h n' : Nat} {x : List Ev} {t' : Table} {u : σ} (hh : P.handlers m.header.msgID = some h)
      (hc : Performs k.icc k.count k.table (P.handler h k.user m) x n' t' u) :
      Dispatched P k m (.handled h m :: x) { k with count := n', table := t', user := u }
  | unhandled (hh : P.handlers m.header.msgID = none) : Dispatched P k m [.unhandled m] k

/-- The server answers a message itself, with the result given. -/
inductive Replied (k : Knows σ) (m : Message Entity) (result : UInt8) : List Ev → Knows σ → Prop where
  | sent : Replied k m result [.replies m.header.serial m.header.msgID result,
      .sent (outgoing k.icc k.count (.m8001 { replySerial := m.header.serial, replyID := m.header.msgID, result := result }))]
      { k with count := k.count + 1 }
  | refused : Replied k m result [.replies m.header.serial m.header.msgID result,
      .refused (outgoing k.icc k.count (.m8001 { replySerial := m.header.serial, replyID := m.header.msgID, result := result }))]
      { k with count := k.count + 1 }

/-- After a part was stored: parts of the upload are missing. -/
def Missing (files : List FileOp) (u : Upload) (p : Packet) : Prop :=
  p.seq ≠ p.sum ∨ ∃ i : UInt16, 1 ≤ i.toNat ∧ i.toNat ≤ p.sum.toNat ∧ latestIn u i files = none

/-- The file of an upload, as it appears in the log. -/
def Upload.file (u : Upload) (p : Packet) : Multipart := { icc := u.icc, msgID := u.msgID, tag := u.tag, sum := p.sum }

/-- One turn of the loop for a received message. `o` is what the operating system does to the write and the merge the message may lead to. -/
inductive Turn (auto : Bool) (P : Program σ) (k : Knows σ) (m : Message Entity) (o : Outcome × Outcome) : List Ev → Knows σ → Prop where
  /-- A message without body is answered with "unsupported". -/
  | unsupported {x : List Ev} {k' : Knows σ} (hb : hasBody m = false) (hr : Replied k m 3 x k') : Turn auto P k m o x k'
  /-- A message that is not a part goes to the callback of its request and to the handler of its id. -/
  | ordinary {x y : List Ev} {k' k'' : Knows σ} (hb : hasBody m = true) (hp : isPart auto m = false) (hn : Noted P k m x k') (hd : Dispatched P k' m y k'') :
      Turn auto P k m o (x ++ y) k''
  /-- A part that cannot be stored is answered with "failure". -/
  | lost {u : Upload} {p : Packet} {data : Bytes} {x : List Ev} {k' : Knows σ} (hp : partOf auto m = some (u, p, data)) (ho : o.1 ≠ .ok)
      (hr : Replied { k with files := .write u p.seq data o.1 :: k.files } m 1 x k') :
      Turn auto P k m o (.stored (u.file p) p.seq data o.1 :: x) k'
  /-- A stored part is answered with "success". Nothing more happens as long as it is not the last one or others are missing. -/
  | stored {u : Upload} {p : Packet} {data : Bytes} {x : List Ev} {k' : Knows σ} (hp : partOf auto m = some (u, p, data)) (ho : o.1 = .ok)
      (hr : Replied { k with files := .write u p.seq data .ok :: k.files } m 0 x k') (hm : Missing k'.files u p) :
      Turn auto P k m o (.stored (u.file p) p.seq data o.1 :: x) k'
  /-- The last part of a complete upload, but merging fails. -/
  | unmerged {u : Upload} {p : Packet} {data : Bytes} {x : List Ev} {k' : Knows σ} (hp : partOf auto m = some (u, p, data)) (ho : o.1 = .ok)
      (hr : Replied { k with files := .write u p.seq data .ok :: k.files } m 0 x k') (hm : ¬ Missing k'.files u p) (hf : o.2 ≠ .ok) :
      Turn auto P k m o (.stored (u.file p) p.seq data o.1 :: (x ++ [.merged (u.file p) o.2])) { k' with files := .merge u o.2 :: k'.files }
  /-- The last part of a complete upload: the message is delivered with the merged content. -/
  | merged {u : Upload} {p : Packet} {data content : Bytes} {b : T0801} {x y z : List Ev} {k' k'' k''' : Knows σ}
      (hp : partOf auto m = some (u, p, data)) (hb : m.body = .val (.m0801 b)) (ho : o.1 = .ok)
      (hr : Replied { k with files := .write u p.seq data .ok :: k.files } m 0 x k') (hm : ¬ Missing k'.files u p) (hf : o.2 = .ok)
      (hc : mergedIn u (.merge u .ok :: k'.files) = some content)
      (hn : Noted P { k' with files := .merge u .ok :: k'.files } (mergedMessage m b content) y k'')
      (hd : Dispatched P k'' (mergedMessage m b content) z k''') :
      Turn auto P k m o (.stored (u.file p) p.seq data o.1 :: (x ++ .merged (u.file p) o.2 :: (y ++ z))) k'''

/-- The course of a session: its turns, one after the other. -/
inductive Talk (auto : Bool) (P : Program σ) : Knows σ → List (Message Entity × Outcome × Outcome) → List Ev → Knows σ → Prop where
  | nil (k : Knows σ) : Talk auto P k [] [] k
  | cons {k k' k'' : Knows σ} {m : Message Entity} {o : Outcome × Outcome} {x y : List Ev} {ms : List (Message Entity × Outcome × Outcome)} :
      Turn auto P k m o x k' → Talk auto P k' ms y k'' → Talk auto P k ((m, o) :: ms) (.received m :: (x ++ y)) k''

/-- The messages that were accepted for sending, in order. -/
def sentIn (log : List Ev) : List (Message Entity) :=
  log.filterMap fun
    | .sent m => some m
    | _ => none

/-- The messages that were handed to the connection, accepted or not, in order. -/
def attempted (log : List Ev) : List (Message Entity) :=
  log.filterMap fun
    | .sent m => some m
    | .refused m => some m
    | _ => none

/-- The request `r` was made and waits for its answer: since then no callback was called with an answer to it, and no request was made with its message
id. -/
def Awaits (r : Pending) (log : List Ev) : Prop :=
  ∃ l1 l2, log = l1 ++ .requested r :: l2 ∧ (∀ r', .requested r' ∈ l2 → r'.msgID ≠ r.msgID) ∧ ∀ cb m, .ran cb m ∈ l2 → ¬ Answers m r.serial

end Verif.Spec
