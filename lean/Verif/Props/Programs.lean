import Verif.Lemmas.ExampleCourse
import Verif.Props.RoundTrip
/-! # C77: the example server and the example client, connected -/

namespace Verif
open Spec Programs Converse Codec

variable {env : Env} {now : Nat → Time} {pkey own : PubKey} {file : Bytes}

theorem ran_spec (env : Env) : [(0, Body.val (Entity.m0104 (params env)))] = exampleRan env := by
  unfold exampleRan params Param.setString
  rw [if_neg (by decide)]
  cases env.gbEnc plate <;> rfl

/-- C77, at every moment: whatever pieces arrive and in whatever order at the two ends, neither program crashes, and the server has sent nothing but the first
messages of the expected ones. -/
theorem C77_at_every_moment (h : ExampleOK env now pkey own file) (key : Option DecKey) (pub : Option EncKey) (ec es : Err) (tc ts : Nat) (hc : 10 < tc) (hs : 8 < ts)
    {up down : List Bytes} (hr : Reach (clientSends env now pkey file ec tc) (serverSends env key pub (some own) es ts) up down) :
    (∃ s log, ({ user := none } : Converse.State Data).serve env key es true (server (some own)) (List.replicate ts (.ok, .ok)) ⟨[], up⟩ = .ok (s, log) ∧
      sentIn log <+: exampleMessages own) ∧
    ∃ b, clientSends env now pkey file ec tc down = .ok b := by
  obtain ⟨xs, ys, c⟩ := course h key
  obtain ⟨h1, -, ⟨b, h3, h4, h5⟩, -⟩ := reach_invariant (c.bounded h pub ec es tc ts hc hs) hr
  obtain ⟨n, s, log, -, -, g1, g2, -⟩ := c.server h pub es ts hs h1 (h4.trans h5)
  refine ⟨⟨s, _, g1, ?_⟩, b, h3⟩
  unfold sentIn at g2 ⊢
  rw [List.filterMap_append]
  simpa using g2

/-- C77: from every moment on, what is under way can arrive, and then nothing is under way any more. -/
theorem C77_can_complete (h : ExampleOK env now pkey own file) (key : Option DecKey) (pub : Option EncKey) (ec es : Err) (tc ts : Nat) (hc : 10 < tc) (hs : 8 < ts)
    {up down : List Bytes} (hr : Reach (clientSends env now pkey file ec tc) (serverSends env key pub (some own) es ts) up down) :
    ∃ up' down', Reach (clientSends env now pkey file ec tc) (serverSends env key pub (some own) es ts) (up ++ up') (down ++ down') ∧
      Settled (clientSends env now pkey file ec tc) (serverSends env key pub (some own) es ts) (up ++ up') (down ++ down') := by
  obtain ⟨xs, ys, c⟩ := course h key
  exact reach_settles (c.bounded h pub ec es tc ts hc hs) hr

/-- C77, in the end: when nothing is under way any more, however it came to this, the server has sent exactly the expected messages; its handlers were called
with the contents the client sent, the one for uploads once with the whole file; the callback was called with the parameters the client answered; the session
has the key of the client; and the client received exactly what the server sent. -/
theorem C77_in_the_end (h : ExampleOK env now pkey own file) (key : Option DecKey) (pub : Option EncKey) (ec es : Err) (tc ts : Nat) (hc : 10 < tc) (hs : 8 < ts)
    {up down : List Bytes} (hr : Reach (clientSends env now pkey file ec tc) (serverSends env key pub (some own) es ts) up down)
    (hq : Settled (clientSends env now pkey file ec tc) (serverSends env key pub (some own) es ts) up down) :
    (∃ s log, ({ user := none } : Converse.State Data).serve env key es true (server (some own)) (List.replicate ts (.ok, .ok)) ⟨[], up⟩ = .ok (s, log) ∧
      sentIn log = exampleMessages own ∧ handledIn log = exampleHandled now pkey file ∧ ranIn log = exampleRan env ∧ s.user = some pkey) ∧
    ∃ ds, listen env ec tc ⟨[], down⟩ = .ok ds ∧ ds.length = 10 ∧
      ∀ p ∈ (exampleMessages own).zip ds, ∃ e, p.1.body = .val e ∧ Carries p.1 e p.2 := by
  obtain ⟨xs, ys, c⟩ := course h key
  have hb := c.bounded h pub ec es tc ts hc hs
  obtain ⟨h1, h2, ⟨b, h3, h4, h5⟩, ⟨b', h6, h7, h8⟩⟩ := reach_invariant hb hr
  obtain ⟨n, s, log, g1, g2, g3, g4, g5, g6, g7⟩ := c.server h pub es ts hs h1 (h4.trans h5)
  obtain ⟨j, k1, k2, k3⟩ := c.client h ec tc hc h2 (h7.trans h8)
  obtain ⟨q1, q2⟩ := hq
  rw [q1] at k3
  rw [q2] at g7
  have e1 := Res.ok.inj k3
  have e2 := Res.ok.inj g7
  -- the client has sent at least its first messages, so the server has answered all of them
  have n7 : 7 ≤ n := g1.at_least (by rw [c.lx]; omega) (by rw [e1]; exact joinedFrames_mono xs (by split <;> omega))
  have e3 : down.flatten = joinedFrames ys := by
    rw [e2, g5 n7, List.take_of_length_le (by rw [c.ly]; simp [exampleMessages])]
  have j10 : 10 ≤ j := k1.at_least (by rw [c.ly]; omega) (by rw [e3, List.take_of_length_le (by rw [c.ly]; omega)]; omega)
  have e4 : up.flatten = joinedFrames xs := by
    rw [e1, if_pos (by omega), List.take_of_length_le (by rw [c.lx]; omega)]
  have n8 : 8 ≤ n := g1.at_least (by rw [c.lx]; omega) (by rw [e4, List.take_of_length_le (by rw [c.lx]; omega)]; omega)
  have hd := g6 n8
  constructor
  · refine ⟨s, _, g3, ?_, ?_, ?_, hd.user⟩
    · have := hd.sent
      unfold sentIn at this ⊢
      rw [List.filterMap_append, this]
      rfl
    · have := hd.handled
      unfold handledIn at this ⊢
      rw [List.filterMap_append, this]
      rfl
    · have := hd.ran
      rw [ran_spec] at this
      unfold ranIn at this ⊢
      rw [List.filterMap_append, this]
      rfl
  · rw [List.take_of_length_le (by rw [c.ly]; omega)] at k2
    refine ⟨_, k2, by simp [c.ly], ?_⟩
    have hl : (replyPairs own).length = (ys.map (·.2)).length := by rw [List.length_map, c.ly]; rfl
    intro p hp
    rw [← replyPairs_fst, List.zip_map_left] at hp
    obtain ⟨q, hq, rfl⟩ := List.mem_map.1 hp
    have hs := reply_sendable (env := env) h.own q.1 (List.of_mem_zip (a := q.1) (b := q.2) hq).1
    exact ⟨q.1.2, hs.body, c.cy q hq⟩

/-- C77 in the long run: in every course of events in which what was sent arrives at some time, in whatever pieces, the conversation comes to its end, with the
outcome of `C77_in_the_end`. -/
theorem C77_fair (h : ExampleOK env now pkey own file) (key : Option DecKey) (pub : Option EncKey) (ec es : Err) (tc ts : Nat) (hc : 10 < tc) (hs : 8 < ts)
    (up down : Nat → List Bytes) (hf : AllArrives (clientSends env now pkey file ec tc) (serverSends env key pub (some own) es ts) up down) :
    ∃ N, ∀ n, N ≤ n →
      (∃ s log, ({ user := none } : Converse.State Data).serve env key es true (server (some own)) (List.replicate ts (.ok, .ok)) ⟨[], up n⟩ = .ok (s, log) ∧
        sentIn log = exampleMessages own ∧ handledIn log = exampleHandled now pkey file ∧ ranIn log = exampleRan env ∧ s.user = some pkey) ∧
      ∃ ds, listen env ec tc ⟨[], down n⟩ = .ok ds ∧ ds.length = 10 ∧
        ∀ p ∈ (exampleMessages own).zip ds, ∃ e, p.1.body = .val e ∧ Carries p.1 e p.2 := by
  obtain ⟨xs, ys, c⟩ := course h key
  obtain ⟨N, hN⟩ := course_settles (c.bounded h pub ec es tc ts hc hs) hf
  exact ⟨N, fun n hn => C77_in_the_end h key pub ec es tc ts hc hs (hf.reach n) (hN n hn)⟩

/-! The hypotheses are satisfied by the values of the source. -/

theorem example_ok : ExampleOK Sample.env (fun i => 1700000000 + i) ⟨some (2 ^ 1023 + 1), 65537⟩ ⟨some (2 ^ 1023 + 3), 65537⟩ (List.replicate 2048 0) where
  auth := sample_text _ _ (by decide) (by decide) (by decide)
  plate := by intro b hb; exact absurd hb (by rw [show Sample.env.gbEnc plate = none by decide]; simp)
  times := by
    intro i hi
    have h1 : (unix2010 : Int) = 1262304000 := by decide
    have h2 : (unix2100 : Int) = 4102444800 := by decide
    have h3 : (unix2010 : Int) ≤ 1700000000 + (i : Int) + 28800 ∧ 1700000000 + (i : Int) + 28800 < (unix2100 : Int) := by
      rw [h1, h2]
      omega
    exact h3
  key := ⟨_, _, rfl, by decide +kernel, by decide, by decide⟩
  own := ⟨_, _, rfl, by decide +kernel, by decide, by decide⟩
  file := List.length_replicate

/-- So there is a course of events in which everything arrives. -/
example : ∃ up down s log, Reach (clientSends Sample.env (fun i => 1700000000 + i) ⟨some (2 ^ 1023 + 1), 65537⟩ (List.replicate 2048 0) .other 11)
      (serverSends Sample.env none none (some ⟨some (2 ^ 1023 + 3), 65537⟩) .other 9) up down ∧
    ({ user := none } : Converse.State Data).serve Sample.env none .other true (server (some ⟨some (2 ^ 1023 + 3), 65537⟩)) (List.replicate 9 (.ok, .ok)) ⟨[], up⟩ = .ok (s, log) ∧
    (sentIn log).length = 10 ∧ (handledIn log).length = 4 := by
  obtain ⟨up, down, hr, hq⟩ := C77_can_complete example_ok none none .other .other 11 9 (by omega) (by omega) .start
  obtain ⟨⟨s, log, h1, h2, h3, -⟩, -⟩ := C77_in_the_end example_ok none none .other .other 11 9 (by omega) (by omega) hr hq
  exact ⟨_, _, s, log, hr, h1, by rw [h2]; rfl, by rw [h3]; rfl⟩

/-- There is such a course without end, from the beginning on. -/
example : ∃ up down, AllArrives (clientSends Sample.env (fun i => 1700000000 + i) ⟨some (2 ^ 1023 + 1), 65537⟩ (List.replicate 2048 0) .other 11)
    (serverSends Sample.env none none (some ⟨some (2 ^ 1023 + 3), 65537⟩) .other 9) up down ∧ up 0 = [] ∧ down 0 = [] := by
  obtain ⟨xs, ys, c⟩ := course example_ok none
  exact course_exists (c.bounded example_ok none .other .other 11 9 (by omega) (by omega))

end Verif
