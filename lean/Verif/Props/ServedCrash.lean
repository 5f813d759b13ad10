import Verif.Lemmas.ServedCrash
import Verif.Props.OneByteCrash
import Verif.Props.Readme
/-! # C51 for a server with its handlers: which changes of one byte crash it -/

namespace Verif
open Spec Codec Converse

/-- **C51 for a server.** Whatever handlers and callbacks a server has, whatever messages its client sends (each of a size the receiver accepts) and
whichever byte of the stream changes on the way, the server crashes, once it has had enough turns, if and only if the byte is the second one behind the
opening delimiter of some message and becomes a delimiter. -/
theorem C51_served_exact_partial {σ : Type} (env : Env) (key : Option DecKey) (hkey : ∀ k, key = some k → 0 < k.size) (endErr : Err) (auto : Bool)
    (P : Program σ) (u : σ) (accepts : List Bool) (ms : List (Bytes × Message Entity))
    (hms : ∀ x ∈ ms, (∃ ekey m m', Message.encode (entityCodec env) ekey m = .ok (x.1, m')) ∧ x.1.length ≤ 65407 ∧
      Message.decode (entityCodec env) key {} x.1 = .ok x.2)
    (reads : List Bytes) (hr : ∀ c ∈ reads, c.length ≤ 128) (a b : Bytes) (x y : UInt8) (hxy : x ≠ y) (hs : ms.flatMap (·.1) = a ++ x :: b)
    (hs' : reads.flatten = a ++ y :: b) :
    let crashes := fun os => ({ user := u, accepts := accepts } : State σ).serve env key endErr auto P os ⟨[], reads⟩ = .panic
    let hit := y = 0x7e ∧ ∃ before m after, ms = before ++ m :: after ∧ a.length = (before.flatMap (·.1)).length + 2
    (hit → ∃ n, ∀ os, n < os.length → crashes os) ∧ (¬ hit → ∀ os, ¬ crashes os) := by
  have exact := C51_one_byte_exact_partial (entityCodec env) (fun id b => C15_message_body_never_panics env id b) key hkey endErr ms hms reads hr a b x y hxy
    hs hs'
  intro crashes hit
  constructor
  · intro h
    obtain ⟨ds, h⟩ := exact.2 h
    exact ⟨ds.length, fun os ho => (serve_panic_iff (shows_fresh u accepts)).2 ⟨ds, ho, h⟩⟩
  · intro h os hc
    obtain ⟨ds, -, hd⟩ := (serve_panic_iff (shows_fresh u accepts)).1 hc
    exact h (exact.1 ⟨ds, hd⟩)

/-- The first server of the README, hit in the second message. -/
example : ({ user := {}, accepts := [true, true] } : Converse.State Readme.Seen).serve Sample.env none .eof false Readme.first
    [(.ok, .ok), (.ok, .ok)] ⟨[],
      [[0x7e, 0x07, 0x00, 0x00, 0x03, 0x01, 0x38, 0x00, 0x13, 0x80, 0x00, 0x00, 0x07, 0x00, 0x01, 0x01, 0xa9, 0x7e],
        [0x7e, 0x07, 0x7e, 0x00, 0x03, 0x01, 0x38, 0x00, 0x13, 0x80, 0x00, 0x00, 0x07, 0x00, 0x01, 0x01, 0xa9, 0x7e]]⟩ = .panic := rfl

end Verif
