import Verif.Lemmas.ServedFiles
import Verif.Props.Served
/-! # C04 for the storage of a server -/

namespace Verif
open Spec Codec Converse

/-- **C04 for the storage.** Whatever handlers a server has, whatever messages its client sends (each of a size the receiver accepts) and whichever byte
of the stream changes on the way: if the server survives, then every part of an upload that it writes is a part that was sent, under the number and for
the file it was sent for, with the content it was sent with. A changed byte never gets into a stored file. -/
theorem C04_stored_partial {σ : Type} (env : Env) (key : Option DecKey) (endErr : Err) (auto : Bool) (P : Program σ) (u : σ) (accepts : List Bool)
    (os : List (Outcome × Outcome)) (ms : List (Bytes × Message Entity))
    (hms : ∀ x ∈ ms, (∃ ekey m m', Message.encode (entityCodec env) ekey m = .ok (x.1, m')) ∧ x.1.length ≤ 65407 ∧
      Message.decode (entityCodec env) key {} x.1 = .ok x.2)
    (reads : List Bytes) (hr : ∀ c ∈ reads, c.length ≤ 128) (hs : OneByteChanged (ms.flatMap (·.1)) reads.flatten) (s : State σ) (log : List Ev)
    (hserve : ({ user := u, accepts := accepts } : State σ).serve env key endErr auto P os ⟨[], reads⟩ = .ok (s, log))
    (f : Multipart) (n : UInt16) (data : Bytes) (hf : (f, n, data) ∈ storedOf log) :
    ∃ x ∈ ms, ∃ u p, partOf auto x.2 = some (u, p, data) ∧ f = u.file p ∧ n = p.seq := by
  obtain ⟨m, hm, u', p, h1, h2, h3⟩ := serve_stores hserve _ hf
  obtain ⟨i, hi⟩ := List.mem_iff_getElem?.1 hm
  rcases C04_served_partial env key endErr auto P u accepts os ms hms reads hr hs s log hserve i m hi with hb | hb
  · exfalso
    unfold partOf at h1
    rw [hb] at h1
    simp at h1
  · obtain ⟨x, hx, rfl⟩ := Option.map_eq_some_iff.1 hb
    exact ⟨x, List.mem_of_getElem? hx, u', p, h1, h2, h3⟩

/-- Non-trivial case: an upload of two parts to the third server of the README. A byte of the content of the second part changes; only the first part is stored. -/
example : ∃ (ms : List (Bytes × Message Entity)) (reads : List Bytes),
    (∀ x ∈ ms, (∃ ekey m m', Message.encode Sample.codec ekey m = .ok (x.1, m')) ∧ x.1.length ≤ 65407 ∧ Message.decode Sample.codec none {} x.1 = .ok x.2) ∧
    (∀ c ∈ reads, c.length ≤ 128) ∧ OneByteChanged (ms.flatMap (·.1)) reads.flatten ∧
    (match ({ user := {}, accepts := [] } : Converse.State Readme.Seen).serve Sample.env none .eof true (Readme.third 10) [(.ok, .ok), (.ok, .ok)] ⟨[], reads⟩ with
      | .ok (_, log) => some ((storedOf log).map (·.2))
      | _ => none) = some [(1, [1, 2])] :=
  ⟨[([0x7e, 0x08, 0x01, 0x20, 0x26, 0x01, 0x38, 0x00, 0x00, 0x00, 0x00, 0x00, 0x02, 0x00, 0x02, 0x00, 0x01, 0x00, 0x00, 0x04, 0x00, 0x01, 0x00, 0x0d, 0x1c, 0x00, 0x00, 0x09, 0x26, 0x00, 0x00, 0x00, 0x08, 0x01, 0x67, 0x88, 0x69, 0x07, 0xa6, 0x0e, 0x33, 0x09, 0x29, 0x00, 0xa0, 0x00, 0x48, 0x23, 0x11, 0x15, 0x06, 0x13, 0x20, 0x01, 0x02, 0xc6, 0x7e], _),
      ([0x7e, 0x08, 0x01, 0x20, 0x25, 0x01, 0x38, 0x00, 0x00, 0x00, 0x00, 0x00, 0x03, 0x00, 0x02, 0x00, 0x02, 0x00, 0x00, 0x04, 0x00, 0x01, 0x00, 0x0d, 0x1c, 0x00, 0x00, 0x09, 0x26, 0x00, 0x00, 0x00, 0x08, 0x01, 0x67, 0x88, 0x69, 0x07, 0xa6, 0x0e, 0x33, 0x09, 0x29, 0x00, 0xa0, 0x00, 0x48, 0x23, 0x11, 0x15, 0x06, 0x13, 0x20, 0x03, 0xc7, 0x7e], _)],
    [[0x7e, 0x08, 0x01, 0x20, 0x26, 0x01, 0x38, 0x00, 0x00, 0x00, 0x00, 0x00, 0x02, 0x00, 0x02, 0x00, 0x01, 0x00, 0x00, 0x04, 0x00, 0x01, 0x00, 0x0d, 0x1c, 0x00, 0x00, 0x09, 0x26, 0x00, 0x00, 0x00, 0x08, 0x01, 0x67, 0x88, 0x69, 0x07, 0xa6, 0x0e, 0x33, 0x09, 0x29, 0x00, 0xa0, 0x00, 0x48, 0x23, 0x11, 0x15, 0x06, 0x13, 0x20, 0x01, 0x02, 0xc6, 0x7e],
      [0x7e, 0x08, 0x01, 0x20, 0x25, 0x01, 0x38, 0x00, 0x00, 0x00, 0x00, 0x00, 0x03, 0x00, 0x02, 0x00, 0x02, 0x00, 0x00, 0x04, 0x00, 0x01, 0x00, 0x0d, 0x1c, 0x00, 0x00, 0x09, 0x26, 0x00, 0x00, 0x00, 0x08, 0x01, 0x67, 0x88, 0x69, 0x07, 0xa6, 0x0e, 0x33, 0x09, 0x29, 0x00, 0xa0, 0x00, 0x48, 0x23, 0x11, 0x15, 0x06, 0x13, 0x20, 0x04, 0xc7, 0x7e]],
    by
      intro x hx
      simp only [List.mem_cons, List.not_mem_nil, or_false] at hx
      rcases hx with rfl | rfl
      · exact ⟨⟨none, { header := { msgID := 0x0801, iccID := 13800000000, serial := 2, property := 0x2000, packet := some ⟨2, 1⟩ }, body := .val (.m0801 { Sample.media with packet := some [1, 2] }) }, _, rfl⟩, by decide, rfl⟩
      · exact ⟨⟨none, { header := { msgID := 0x0801, iccID := 13800000000, serial := 3, property := 0x2000, packet := some ⟨2, 2⟩ }, body := .val (.m0801 { Sample.media with packet := some [3] }) }, _, rfl⟩, by decide, rfl⟩,
    by decide, ⟨[0x7e, 0x08, 0x01, 0x20, 0x26, 0x01, 0x38, 0x00, 0x00, 0x00, 0x00, 0x00, 0x02, 0x00, 0x02, 0x00, 0x01, 0x00, 0x00, 0x04, 0x00, 0x01, 0x00, 0x0d, 0x1c, 0x00, 0x00, 0x09, 0x26, 0x00, 0x00, 0x00, 0x08, 0x01, 0x67, 0x88, 0x69, 0x07, 0xa6, 0x0e, 0x33, 0x09, 0x29, 0x00, 0xa0, 0x00, 0x48, 0x23, 0x11, 0x15, 0x06, 0x13, 0x20, 0x01, 0x02, 0xc6, 0x7e, 0x7e, 0x08, 0x01, 0x20, 0x25, 0x01, 0x38, 0x00, 0x00, 0x00, 0x00, 0x00, 0x03, 0x00, 0x02, 0x00, 0x02, 0x00, 0x00, 0x04, 0x00, 0x01, 0x00, 0x0d, 0x1c, 0x00, 0x00, 0x09, 0x26, 0x00, 0x00, 0x00, 0x08, 0x01, 0x67, 0x88, 0x69, 0x07, 0xa6, 0x0e, 0x33, 0x09, 0x29, 0x00, 0xa0, 0x00, 0x48, 0x23, 0x11, 0x15, 0x06, 0x13, 0x20],
      0x03, 0x04, [0xc7, 0x7e], by decide, rfl, rfl⟩, by decide +kernel⟩

end Verif
