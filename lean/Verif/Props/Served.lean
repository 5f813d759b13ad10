import Verif.Lemmas.Served
import Verif.Props.Split
import Verif.Props.Readme
/-! # C04 for a server with its handlers -/

namespace Verif
open Spec Codec Converse

/-- **C04 for a server.** Whatever handlers and callbacks a server has, whatever messages its client sends (each of a size the receiver accepts) and
whichever byte of the stream changes on the way: if the server survives, then over the whole session the i-th message it receives is the i-th message sent, or has
no body. (That it does not survive exactly one kind of change says `C51_one_byte_exact_partial`.) -/
theorem C04_served_partial {σ : Type} (env : Env) (key : Option DecKey) (endErr : Err) (auto : Bool) (P : Program σ) (u : σ) (accepts : List Bool)
    (os : List (Outcome × Outcome)) (ms : List (Bytes × Message Entity))
    (hms : ∀ x ∈ ms, (∃ ekey m m', Message.encode (entityCodec env) ekey m = .ok (x.1, m')) ∧ x.1.length ≤ 65407 ∧
      Message.decode (entityCodec env) key {} x.1 = .ok x.2)
    (reads : List Bytes) (hr : ∀ c ∈ reads, c.length ≤ 128) (hs : OneByteChanged (ms.flatMap (·.1)) reads.flatten) (s : State σ) (log : List Ev)
    (hserve : ({ user := u, accepts := accepts } : State σ).serve env key endErr auto P os ⟨[], reads⟩ = .ok (s, log))
    (i : Nat) (d : Message Entity) (hi : (receivedOf log)[i]? = some d) : d.body = .nil ∨ (ms[i]?).map (·.2) = some d :=
  C04_registered_stream_partial env key endErr ms hms reads hr hs _ _ (serve_receives hserve) i d hi

/-- **C12 for a server.** Without a change, the messages a server receives over the whole session are those sent, in order, as many as it has turns for. -/
theorem C12_served {σ : Type} (env : Env) (key : Option DecKey) (endErr : Err) (auto : Bool) (P : Program σ) (u : σ) (accepts : List Bool)
    (os : List (Outcome × Outcome)) (ms : List (Bytes × Message Entity))
    (hms : ∀ x ∈ ms, Delimited x.1 ∧ x.1.length ≤ 65408 ∧ Message.decode (entityCodec env) key {} x.1 = .ok x.2)
    (reads : List Bytes) (hr : ∀ c ∈ reads, c.length ≤ 128) (hs : reads.flatten = ms.flatMap (·.1)) (s : State σ) (log : List Ev)
    (hserve : ({ user := u, accepts := accepts } : State σ).serve env key endErr auto P os ⟨[], reads⟩ = .ok (s, log)) :
    receivedOf log <+: ms.map (·.2) := by
  have h1 := serve_receives hserve
  have h2 := C12_reassembly (entityCodec env) key endErr ms hms reads hr hs (receivedOf log).length
  rw [show ms.length + (receivedOf log).length = (receivedOf log).length + ms.length by omega, receiveMany_append] at h2
  simp only [h1] at h2
  generalize receivedOf log = r at *
  have h3 := congrArg (List.take r.length) h2
  rw [List.take_left' (by simp)] at h3
  by_cases hle : r.length ≤ ms.length
  · rw [List.take_append_of_le_length (by simpa using hle), ← List.map_take] at h3
    refine ⟨(ms.map (·.2)).drop r.length, ?_⟩
    have : r = (ms.map (·.2)).take r.length := by
      rw [← List.map_take]
      refine (List.map_inj_right (f := (Res.ok : Message Entity → Res (Message Entity))) (fun _ _ h => by cases h; rfl)).1 ?_
      rw [h3, List.map_map]
      rfl
    conv => lhs; lhs; rw [this]
    exact List.take_append_drop _ _
  · exfalso
    have h4 : (.err endErr : Res (Message Entity)) ∈ r.map Res.ok := by
      rw [h3, List.take_append, List.take_replicate]
      refine List.mem_append_right _ (List.mem_replicate.2 ⟨?_, rfl⟩)
      simp
      omega
    simp at h4

/-- Non-trivial case: the first server of the README receives a message and then one whose body is lost by a change. -/
example : ∃ s log, ({ user := {}, accepts := [true, true] } : Converse.State Readme.Seen).serve Sample.env none .eof false Readme.first
      [(.ok, .ok), (.ok, .ok)] ⟨[],
        [[0x7e, 0x07, 0x00, 0x00, 0x03, 0x01, 0x38, 0x00, 0x13, 0x80, 0x00, 0x00, 0x07, 0x00, 0x01],
          [0x01, 0xa9, 0x7e, 0x7e, 0x07, 0x00, 0x00, 0x03, 0x01, 0x38, 0x00, 0x13, 0x80, 0x00, 0x00, 0x07, 0xa9, 0x7e, 0x01, 0x00, 0x7e]]⟩ = .ok (s, log) ∧
    (receivedOf log).map (·.body) = [.val (.m0700 { replySerial := 1, cmd := 0x01, data := [] }), .nil] := ⟨_, _, rfl, rfl⟩

end Verif
