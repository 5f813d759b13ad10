import Verif.Spec.Handler
/-! # Which files an upload in parts results in

The server looks at the stored parts only when a part with the highest number arrives. So what it delivers is a function of the parts received so far,
as calls on the storage, the latest first. -/

namespace Verif.Spec
open Handler

/-- All parts 1..n of the upload are stored. -/
def allStored (u : Upload) (n : Nat) (h : List FileOp) : Bool := (List.range' 1 n).all fun i => (latestIn u (UInt16.ofNat i) h).isSome

/-- The part just stored has the highest number and completes the upload; `h` includes it. -/
def completes (u : Upload) (p : Packet) (a : Around) (h : List FileOp) : Bool := a.write == .ok && p.seq == p.sum && allStored u p.sum.toNat h

/-- The message with another content. -/
def withContent (m : Message Entity) (content : Bytes) : Message Entity :=
  match m.body with
  | .val (.m0801 b) => mergedMessage m b content
  | _ => m

/-- The files of an upload that a session gives to the handlers for the messages it receives, in order. When a part arrives, it is stored; if it has the
highest number and all others are stored as well, the parts are merged, and the message with the merged content is delivered unless merging failed. -/
def deliveries (auto : Bool) (u : Upload) : List FileOp → List (Message Entity × Around) → List (Message Entity)
  | _, [] => []
  | h, (m, a) :: ms =>
    match partOf auto m with
    | none => deliveries auto u h ms
    | some (u', p, data) =>
      if u' ≠ u then deliveries auto u h ms
      else if completes u p a (.write u p.seq data a.write :: h) then
        let h' := .merge u a.merge :: .write u p.seq data a.write :: h
        (if a.merge = .ok then [withContent m ((mergedIn u h').getD [])] else []) ++ deliveries auto u h' ms
      else deliveries auto u (.write u p.seq data a.write :: h) ms

/-- The numbers of the parts of an upload among the received messages, in order. -/
def partNumbers (auto : Bool) (u : Upload) (ms : List (Message Entity × Around)) : List UInt16 :=
  ms.filterMap fun x => (partOf auto x.1).bind fun t => if t.1 = u then some t.2.1.seq else none

/-- How often the part with the highest number `n` arrives when all others have arrived before; `seen` have arrived already. -/
def completions (n : UInt16) : List UInt16 → List UInt16 → Nat
  | _, [] => 0
  | seen, s :: rest =>
    (if s = n ∧ (List.range' 1 (n.toNat - 1)).all (fun i => seen.contains (UInt16.ofNat i)) then 1 else 0) + completions n (s :: seen) rest

end Verif.Spec
