import Verif.Lemmas.Delivery
import Verif.Props.Converse
/-! # C94: what handlers and callbacks do has no influence on what is received, stored and delivered -/

namespace Verif
open Spec Codec Session Handler Converse

variable {σ τ : Type}

/-- C94: two programs with handlers for the same message ids receive the same messages. Whatever their handlers and callbacks do with the session, whatever they
keep, and whatever the connection refuses: the same messages go to the same handlers, the same answers are attempted, and the same is stored and merged, in
the same order. Neither crashes. -/
theorem C94_same_deliveries (auto : Bool) (P : Program σ) (Q : Program τ) (hPQ : P.handlers = Q.handlers) (u : σ) (v : τ) (accepts accepts' : List Bool)
    (ms : List (Message Entity × Outcome × Outcome)) (hd : ∀ x ∈ ms, Delivered x.1) :
    ∃ s log s' log', ({ user := u, accepts := accepts } : Converse.State σ).run auto P ms = .ok (s, log) ∧
      ({ user := v, accepts := accepts' } : Converse.State τ).run auto Q ms = .ok (s', log') ∧ handed log = handed log' ∧ s.fs = s'.fs := by
  obtain ⟨s, log, -, h, -, -⟩ := C76_conversation auto P u accepts ms hd
  obtain ⟨s', log', -, h', -, -⟩ := C76_conversation auto Q v accepts' ms hd
  have := Delivery.run_alike auto hPQ (s := { user := u, accepts := accepts }) (t := { user := v, accepts := accepts' }) rfl ms
  rw [h, h'] at this
  exact ⟨s, log, s', log', h, h', this.2, this.1⟩

/-- The same from the bytes of the connection, for all bytes: the sessions end alike. -/
theorem C94_same_from_bytes (env : Env) (key : Option DecKey) (endErr : Err) (auto : Bool) (P : Program σ) (Q : Program τ) (hPQ : P.handlers = Q.handlers)
    (u : σ) (v : τ) (accepts accepts' : List Bool) (os : List (Outcome × Outcome)) (reads : List Bytes) :
    SameWork (({ user := u, accepts := accepts } : Converse.State σ).serve env key endErr auto P os ⟨[], reads⟩)
      (({ user := v, accepts := accepts' } : Converse.State τ).serve env key endErr auto Q os ⟨[], reads⟩) :=
  Delivery.serve_alike env key endErr auto hPQ rfl os _

/-- The message ids that have handlers do matter. -/
theorem C94_handlers_matter : ∃ (P Q : Program Unit) (ms : List (Message Entity × Outcome × Outcome)) (s s' : Converse.State Unit) (log log' : List Ev),
    (∀ x ∈ ms, Delivered x.1) ∧ ({ user := () } : Converse.State Unit).run true P ms = .ok (s, log) ∧
      ({ user := () } : Converse.State Unit).run true Q ms = .ok (s', log') ∧ handed log ≠ handed log' := by
  refine ⟨⟨fun _ => some 0, fun _ _ _ => .returns (), fun _ _ _ => .returns ()⟩, ⟨fun _ => none, fun _ _ _ => .returns (), fun _ _ _ => .returns ()⟩,
    talk.take 1, _, _, _, _, ?_, rfl, rfl, by decide⟩
  intro x hx
  simp only [talk, List.take_succ_cons, List.take_zero, List.mem_cons, List.not_mem_nil, or_false] at hx
  subst hx
  exact ⟨by simp [Entity.msgID], by simp [packetFlag], by simp⟩

/-- C94: a session in which handlers and callbacks have code is a course of the receive loop of C32, in which they have none. That loop gets the handlers of
the program first, and then receives the same messages, and the operating system does the same; in addition it gets, from outside, exactly the requests that the
code makes. Everything else is the same: the answers, the callbacks, the handlers, the parts and the merged uploads, in their order, and what is left in the
storage, the waiting requests and the number of the terminal. So what is proved about that loop, whatever comes from outside, holds for sessions with code. -/
theorem C94_code_is_outside (auto : Bool) (P : Program σ) (u : σ) (accepts : List Bool) (ms : List (Message Entity × Outcome × Outcome))
    (hd : ∀ x ∈ ms, Delivered x.1) {s : Converse.State σ} {log : List Ev}
    (h : ({ user := u, accepts := accepts } : Converse.State σ).run auto P ms = .ok (s, log)) :
    ∃ regs is, ({} : Loop).run auto (registering regs ++ is) =
        .ok ({ handlers := P.handlers, fs := s.fs, requests := s.requests, icc := s.icc }, regs.map (fun r => .registered r.1 r.2) ++ log.flatMap asActs) ∧
      (∀ i ∈ is, Arrived i) ∧ metIn is = ms ∧ othersIn is = (asked log).map .addRequest := by
  obtain ⟨is, h1, h2, h3, h4, -⟩ := Delivery.run_loop P h hd
  refine ⟨Delivery.allOf P.handlers, is, ?_, h4, h2, h3⟩
  rw [Handler.run_append, Delivery.registering_all]
  simp only [Res.bind]
  have h1' : ({ handlers := P.handlers } : Loop).run auto is = .ok ({ handlers := P.handlers, fs := s.fs, requests := s.requests, icc := s.icc },
    log.flatMap asActs) := h1
  rw [h1']

/-- An example of this: C32 for sessions with code. -/
theorem C94_each_once_in_order (auto : Bool) (P : Program σ) (u : σ) (accepts : List Bool) (ms : List (Message Entity × Outcome × Outcome))
    (hd : ∀ x ∈ ms, Delivered x.1) : ∃ s log, ({ user := u, accepts := accepts } : Converse.State σ).run auto P ms = .ok (s, log) ∧
      (offeredIn log).filter (fun m => !isPart auto m) = (ms.map (·.1)).filter (fun m => hasBody m && !isPart auto m) := by
  obtain ⟨s, log, -, h, -, -⟩ := C76_conversation auto P u accepts ms hd
  refine ⟨s, log, h, ?_⟩
  obtain ⟨regs, is, h1, h2, rfl, -⟩ := C94_code_is_outside auto P u accepts ms hd h
  obtain ⟨L, acts, g1, g2⟩ := C32_each_once_in_order auto (registering regs ++ is) (by
    intro i hi
    rcases List.mem_append.mp hi with hi | hi
    · obtain ⟨r, -, rfl⟩ := List.mem_map.mp hi
      trivial
    · exact h2 i hi)
  rw [h1] at g1
  cases g1
  have e1 : offered (regs.map (fun r => Act.registered r.1 r.2) ++ log.flatMap asActs) = offeredIn log := by
    rw [← Delivery.offered_asActs]
    simp [offered]
  have e2 : receivedIn (registering regs ++ is) = receivedIn is := by
    have : registering regs = (regs.map fun r => Outside.addHandler r.1 (some r.2)).map Input.outside := by simp [registering]
    rw [this, Delivery.receivedIn_outside]
  rw [e1, e2] at g2
  rw [g2]
  simp [metIn, List.map_map, Function.comp_def]

/-! ## Non-trivial cases -/

/-- Handlers for the same message ids as the example server, which do nothing but panic. -/
def Sample.panicking : Program Unit where
  handlers := (Programs.server none).handlers
  handler _ u _ := .panics u
  callback _ u _ := .panics u

/-- The example server and the panicking handlers, with the connection refusing everything: both get the authentication and the merged picture. -/
example : ∃ s log s' log',
    ({ user := none, accepts := [] } : Converse.State (Option PubKey)).run true (Programs.server none) talk = .ok (s, log) ∧
    ({ user := (), accepts := [false, false, false, false, false] } : Converse.State Unit).run true Sample.panicking talk = .ok (s', log') ∧
    (sentIn log).length = 5 ∧ sentIn log' = [] ∧ handed log = handed log' ∧
    (handed log').filterMap (fun | .handled h m => some (h, m.body) | _ => none) =
      [(0, .val (.m0102 { authKey := [49, 50] })), (2, .val (.m0801 { mediaID := 5, packet := some [1, 2, 3] }))] :=
  ⟨_, _, _, _, rfl, rfl, by decide, by decide, by decide, by decide⟩

/-- The hypotheses of `C94_code_is_outside` hold for the example server. Its loop gets the request from outside that the handler makes. -/
example : ∃ s log, ({ user := none, accepts := [] } : Converse.State (Option PubKey)).run true (Programs.server none) talk = .ok (s, log) ∧
    asked log = [⟨0x8104, 2, 0⟩] ∧ (log.flatMap asActs).length = 12 := ⟨_, _, rfl, by decide, by decide⟩

end Verif
