import Verif.Lemmas.FleetMedia
import Verif.Props.Fleet
/-! # C86: exactly what goes out of a media message that is sent several times -/

namespace Verif
open Spec

/-- **C86, media messages, exactly.** Object `r` is a media message, and the program does not assign to it any more. However many messages with it wait or
are sent from now on, in whatever sessions, and however their send loops take turns: the first one that a send loop works on is written with the
content, whether its frame reaches the connection or not, and all others are written like the same message without content. -/
theorem C86_media_exact_partial (env : Env) (keys : Nat → Option EncKey) (s : Fleet.State Entity) (evs : List (Fleet.Event Entity)) (r : Nat) (m : T0801)
    (hm : s.heap r = .m0801 m) (hno : ∀ e, Fleet.Event.write r e ∉ evs) (n k : Nat) (x : Outbox.Item Entity) (w : Bytes)
    (h : (handledFor r (s.run (entityCodec env) keys evs).2)[n]? = some (k, x, w, true)) :
    Codec.sendBytes (entityCodec env) (keys k) { header := x.header, body := .val (.m0801 (if n = 0 then m else { m with packet := none })) } = .ok w := by
  obtain ⟨b, b', m', m'', h1, h2, h3, -⟩ := T0801.encode_emptied env m
  have e1 : (entityCodec env).encode (.m0801 m) = .ok (b, .m0801 m') := by
    show Entity.encode env (.m0801 m) = _
    simp only [Entity.encode, h1, Entity.wrapEnc]
  have e2 : (entityCodec env).encode (.m0801 m') = .ok (b', .m0801 m') := by
    show Entity.encode env (.m0801 m') = _
    simp only [Entity.encode, h2, Entity.wrapEnc]
  have e3 : (entityCodec env).encode (.m0801 { m with packet := none }) = .ok (b', .m0801 m'') := by
    show Entity.encode env (.m0801 { m with packet := none }) = _
    simp only [Entity.encode, h3, Entity.wrapEnc]
  have := Fleet.once_run (entityCodec env) keys r _ _ b b' e1 e2 evs hm hno n _ h rfl
  by_cases hn : n = 0
  · simpa only [if_pos hn] using this
  · simp only [if_neg hn] at this ⊢
    have ha : Outbox.Alike (entityCodec env) (.m0801 m') (.m0801 { m with packet := none }) := ⟨rfl, by rw [e2, e3]; rfl⟩
    rw [← ha.sendBytes]
    exact this

/-- Non-trivial case: the media message of `C86_refuted` is worked on by two send loops. -/
example : (handledFor 0 ((Fleet.State.init Sample.mediaHeap).run Sample.codec (fun _ => none) Sample.twoCopies).2).map (fun y => (y.1, y.2.2.1.length, y.2.2.2)) =
      [(1, 54, true), (2, 51, true)] ∧ (∀ e, Fleet.Event.write 0 e ∉ Sample.twoCopies) := by
  refine ⟨by decide +kernel, ?_⟩
  intro e
  simp [Sample.twoCopies]

end Verif
