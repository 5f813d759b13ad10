import Verif.Lemmas.ExampleBytes
import Verif.Lemmas.Network
/-! # The course of the conversation of the example programs, byte by byte -/

namespace Verif.Programs
open Session Handler Spec Converse Codec

/-- The frames of both sides, with what they are decoded to. -/
structure Course (env : Env) (key : Option DecKey) (now : Nat → Time) (pkey own : PubKey) (file : Bytes) (xs ys : List (Bytes × Message Entity)) : Prop where
  lx : xs.length = 8
  ly : ys.length = 10
  fx : Frames env key xs
  fy : Frames env none ys
  bx : (firstPairs now pkey file ++ [answerPair env]).map (fun x => sendBytes (entityCodec env) none x.1) = xs.map fun x => .ok x.1
  by' : (replyPairs own).map (fun x => sendBytes (entityCodec env) none x.1) = ys.map fun x => .ok x.1
  cx : ∀ p ∈ (firstPairs now pkey file ++ [answerPair env]).zip (xs.map (·.2)), Carries p.1.1 p.1.2 p.2
  cy : ∀ p ∈ (replyPairs own).zip (ys.map (·.2)), Carries p.1.1 p.1.2 p.2

theorem course {env : Env} {now : Nat → Time} {pkey own : PubKey} {file : Bytes} (h : ExampleOK env now pkey own file) (key : Option DecKey) :
    ∃ xs ys, Course env key now pkey own file xs ys := by
  have hs : ∀ x ∈ firstPairs now pkey file ++ [answerPair env], Sendable env x.1 x.2 := by
    intro x hx
    rcases List.mem_append.1 hx with hx | hx
    · exact first_sendable h x hx
    · simp only [List.mem_singleton] at hx
      rw [hx]
      exact answer_sendable h
  obtain ⟨xs, h1, h2, h3, h4⟩ := sendable_frames env key _ hs
  obtain ⟨ys, g1, g2, g3, g4⟩ := sendable_frames env none _ (reply_sendable (env := env) h.own)
  exact ⟨xs, ys, h1, g1, h3, g3, h2, g2, h4, g4⟩

variable {env : Env} {now : Nat → Time} {pkey own : PubKey} {file : Bytes} {key : Option DecKey} {xs ys : List (Bytes × Message Entity)}

/-- The first seven messages, as the server receives them, and the last. -/
theorem Course.arrival (c : Course env key now pkey own file xs ys) :
    ∃ d1 d2 d3 d4 d5 d6 d7 d8, xs.map (·.2) = [d1, d2, d3, d4, d5, d6, d7, d8] ∧
      Arrival now pkey (chunk file 0) (chunk file 1) (chunk file 2) (chunk file 3) d1 d2 d3 d4 d5 d6 d7 ∧
      d8.body = .val (.m0104 (params env)) ∧ d8.header.msgID = 0x0104 := by
  have hl : (xs.map (·.2)).length = 8 := by simp [c.lx]
  have hc := c.cx
  generalize xs.map (·.2) = ds at hl hc
  match ds, hl with
  | [d1, d2, d3, d4, d5, d6, d7, d8], _ =>
    simp only [firstPairs, List.cons_append, List.nil_append, List.zip_cons_cons, List.zip_nil_right, List.mem_cons, List.not_mem_nil, or_false, forall_eq_or_imp, forall_eq] at hc
    obtain ⟨c1, c2, c3, c4, c5, c6, c7, c8⟩ := hc
    have p4 := partOf_carries (x := partPair now file 0) c4
    have p5 := partOf_carries (x := partPair now file 1) c5
    have p6 := partOf_carries (x := partPair now file 2) c6
    have p7 := partOf_carries (x := partPair now file 3) c7
    obtain ⟨a1, a2, a3, a4, -⟩ := c1
    obtain ⟨b1, b2, b3, b4, -⟩ := c2
    obtain ⟨e1, e2, e3, e4, -⟩ := c3
    obtain ⟨f1, f2, f3, f4, -⟩ := c4
    obtain ⟨g1, g2, g3, g4, -⟩ := c5
    obtain ⟨h1, h2, h3, h4, -⟩ := c6
    obtain ⟨i1, i2, i3, i4, -⟩ := c7
    obtain ⟨j1, j2, j3, j4, -⟩ := c8
    exact ⟨d1, d2, d3, d4, d5, d6, d7, d8, rfl, ⟨a1, b1, e1, f1, g1, h1, i1, a2, b2, e2, f2, g2, h2, i2, a4, b4, e4, f4, g4, h4, i4, a3, b3, e3, f3, g3, h3, i3,
      p4, p5, p6, p7⟩, j1, j2⟩

/-- The messages as the loop of the server takes them. -/
def turns (xs : List (Bytes × Message Entity)) : List (Message Entity × Outcome × Outcome) := xs.map fun x => (x.2, .ok, .ok)

/-- What the server does in all. -/
structure Done (env : Env) (now : Nat → Time) (pkey own : PubKey) (file : Bytes) (s : Converse.State Data) (log : List Ev) : Prop where
  sent : sentIn log = exampleMessages own
  ran : ranIn log = [(0, .val (.m0104 (params env)))]
  handled : handledIn log = [(0, .val (.m0102 { authKey := authKey })), (1, .val (.m0200 (fixed (now 0)))), (3, .val (.m0a00 { publicKey := some pkey })),
      (2, .val (.m0801 { fixedMedia (now 4) with packet := some file }))]
  user : s.user = some pkey

theorem Course.run (c : Course env key now pkey own file xs ys) (hf : file.length = 2048) :
    ∃ s7 log7 s x, ({ user := none } : Converse.State Data).run true (server (some own)) (turns (xs.take 7)) = .ok (s7, log7) ∧ sentIn log7 = exampleMessages own ∧
      s7.run true (server (some own)) (turns (xs.drop 7)) = .ok (s, x) ∧ Done env now pkey own file s (log7 ++ x) := by
  obtain ⟨d1, d2, d3, d4, d5, d6, d7, d8, hd, ha, hb, hi⟩ := c.arrival
  have t7 : turns (xs.take 7) = [d1, d2, d3, d4, d5, d6, d7].map fun d => (d, .ok, .ok) := by
    unfold turns
    rw [show (fun x : Bytes × Message Entity => (x.2, Outcome.ok, Outcome.ok)) = (fun d => (d, .ok, .ok)) ∘ (·.2) from rfl, ← List.map_map, List.map_take, hd]
    rfl
  have t8 : turns (xs.drop 7) = [(d8, .ok, .ok)] := by
    unfold turns
    rw [show (fun x : Bytes × Message Entity => (x.2, Outcome.ok, Outcome.ok)) = (fun d => (d, .ok, .ok)) ∘ (·.2) from rfl, ← List.map_map, List.map_drop, hd]
    rfl
  have hdel : ∀ x ∈ turns xs, Delivered x.1 := by
    intro x hx
    obtain ⟨y, hy, rfl⟩ := List.mem_map.1 hx
    exact C49_decoded_messages_are_delivered env key _ _ (c.fx y hy).2.2
  obtain ⟨s7, log7, k7, r1, r2, r3⟩ := run_spec true (server (some own)) (turns (xs.take 7)) (shows_fresh none [])
    (fun x hx => hdel x (by
      obtain ⟨y, hy, rfl⟩ := List.mem_map.1 hx
      exact List.mem_map.2 ⟨y, List.mem_of_mem_take hy, rfl⟩))
  obtain ⟨s, x, k, q1, q2, q3⟩ := run_spec true (server (some own)) (turns (xs.drop 7)) r3
    (fun x hx => hdel x (by
      obtain ⟨y, hy, rfl⟩ := List.mem_map.1 hx
      exact List.mem_map.2 ⟨y, List.mem_of_mem_drop hy, rfl⟩))
  have href := run_accepts true (server (some own)) (turns (xs.take 7)) _ rfl r1
  rw [t7] at r2
  obtain ⟨e1, e2, e3, e4, e5⟩ := example_talk ha r2 href
  rw [chunks_file hf] at e3
  rw [t8] at q2
  cases q2 with
  | cons t ht =>
    cases ht with
    | nil =>
      obtain ⟨rfl, hu⟩ := example_answer hb rfl hi e4 t
      refine ⟨s7, log7, s, _, r1, e1, q1, ?_, ?_, ?_, ?_⟩
      · unfold sentIn at e1 ⊢
        simp [List.filterMap_append, e1]
      · unfold ranIn at e2 ⊢
        simp [List.filterMap_append, e2, hb]
      · unfold handledIn at e3 ⊢
        simp [List.filterMap_append, e3]
      · rw [q3.user, hu, e5]

theorem take_of_prefix {α : Type} {l m : List α} (h : l <+: m) : l = m.take l.length := by
  obtain ⟨t, rfl⟩ := h
  simp

/-- The bytes of the first messages of the server. -/
theorem Course.wire (c : Course env key now pkey own file xs ys) (h : KeyOK (some own)) (pub : Option EncKey) {l : List (Message Entity)} (hl : l <+: exampleMessages own) :
    Converse.wire env pub l = joinedFrames (ys.take l.length) := by
  have h1 : l = ((replyPairs own).take l.length).map (·.1) := by
    rw [List.map_take, replyPairs_fst]
    exact take_of_prefix hl
  have h2 := wire_sendable env pub ((replyPairs own).take l.length) ((ys.take l.length).map (·.1)) (fun x hx => reply_sendable h x (List.mem_of_mem_take hx)) (by
    rw [List.map_take, c.by', List.map_take, List.map_take, List.map_map]
    rfl)
  rw [← h1] at h2
  rw [h2, joinedFrames, List.flatMap_def]

/-- What the server has done after `n` messages. -/
theorem Course.after (c : Course env key now pkey own file xs ys) (hf : file.length = 2048) (n : Nat) :
    ∃ s log, ({ user := none } : Converse.State Data).run true (server (some own)) (turns (xs.take n)) = .ok (s, log) ∧ sentIn log <+: exampleMessages own ∧
      (7 ≤ n → sentIn log = exampleMessages own) ∧ (8 ≤ n → Done env now pkey own file s log) := by
  obtain ⟨s7, log7, s, x, r1, r2, r3, r4⟩ := c.run hf
  have split : ∀ a b, turns (xs.take (a + b)) = turns (xs.take a) ++ turns ((xs.drop a).take b) := by
    intro a b
    unfold turns
    rw [← List.map_append, ← List.take_add]
  have all : ({ user := none } : Converse.State Data).run true (server (some own)) (turns xs) = .ok (s, log7 ++ x) := by
    rw [show turns xs = turns (xs.take 7) ++ turns (xs.drop 7) by unfold turns; rw [← List.map_append, List.take_append_drop], Converse.run_append, r1]
    simp only [Res.bind, r3]
  by_cases h8 : 8 ≤ n
  · rw [List.take_of_length_le (by rw [c.lx]; exact h8)]
    exact ⟨s, log7 ++ x, all, by rw [r4.sent]; exact List.prefix_refl _, fun _ => r4.sent, fun _ => r4⟩
  by_cases h7 : 7 ≤ n
  · obtain rfl : n = 7 := by omega
    exact ⟨s7, log7, r1, by rw [r2]; exact List.prefix_refl _, fun _ => r2, fun h => absurd h h8⟩
  have := Converse.run_append true (server (some own)) ({ user := none } : Converse.State Data) (turns (xs.take n)) (turns ((xs.drop n).take (7 - n)))
  rw [← split, show n + (7 - n) = 7 by omega, r1] at this
  cases hr : ({ user := none } : Converse.State Data).run true (server (some own)) (turns (xs.take n)) with
  | err e => rw [hr] at this; cases this
  | panic => rw [hr] at this; cases this
  | ok r =>
    rw [hr] at this
    simp only [Res.bind] at this
    obtain ⟨s1, l1⟩ := r
    refine ⟨s1, l1, rfl, ?_, fun h => absurd h h7, fun h => absurd h h8⟩
    cases hr2 : s1.run true (server (some own)) (turns ((xs.drop n).take (7 - n))) with
    | err e => rw [hr2] at this; cases this
    | panic => rw [hr2] at this; cases this
    | ok q =>
      rw [hr2] at this
      simp only [Res.ok.injEq, Prod.mk.injEq] at this
      rw [← r2, this.2]
      unfold sentIn
      rw [List.filterMap_append]
      exact List.prefix_append _ _

/-- The number of messages of the server after `n` messages of the client does not decrease. -/
theorem Course.after_mono (n n' : Nat) (hn : n ≤ n') {s s' : Converse.State Data} {log log' : List Ev} {P : Program Data} {s0 : Converse.State Data}
    (h : s0.run true P (turns (xs.take n)) = .ok (s, log)) (h' : s0.run true P (turns (xs.take n')) = .ok (s', log')) : sentIn log <+: sentIn log' := by
  obtain ⟨k, rfl⟩ : ∃ k, n' = n + k := ⟨n' - n, by omega⟩
  rw [show turns (xs.take (n + k)) = turns (xs.take n) ++ turns ((xs.drop n).take k) by unfold turns; rw [← List.map_append, ← List.take_add],
    Converse.run_append, h] at h'
  simp only [Res.bind] at h'
  cases hr : s.run true P (turns ((xs.drop n).take k)) with
  | err e => rw [hr] at h'; cases h'
  | panic => rw [hr] at h'; cases h'
  | ok q =>
    rw [hr] at h'
    simp only [Res.ok.injEq, Prod.mk.injEq] at h'
    rw [← h'.2]
    unfold sentIn
    rw [List.filterMap_append]
    exact List.prefix_append _ _

/-- `n` messages are complete when the given number of bytes has arrived. -/
structure Complete (xs : List (Bytes × Message Entity)) (len n : Nat) : Prop where
  le : n ≤ xs.length
  enough : (joinedFrames (xs.take n)).length ≤ len
  next : n < xs.length → len < (joinedFrames (xs.take (n + 1))).length

theorem joinedFrames_mono (xs : List (Bytes × Message Entity)) {a b : Nat} (hab : a ≤ b) : (joinedFrames (xs.take a)).length ≤ (joinedFrames (xs.take b)).length := by
  have h := (joinedFrames_take (xs.take b) a).length_le
  rwa [List.take_take, Nat.min_eq_left hab] at h

theorem Complete.mono {xs : List (Bytes × Message Entity)} {len len' n n' : Nat} (h : Complete xs len n) (h' : Complete xs len' n') (hl : len ≤ len') : n ≤ n' := by
  apply Nat.le_of_not_lt
  intro hlt
  have h1 := h'.next (by have := h.le; omega)
  have h2 := joinedFrames_mono xs (show n' + 1 ≤ n by omega)
  have h3 := h.enough
  omega

theorem Complete.at_least {xs : List (Bytes × Message Entity)} {len n k : Nat} (h : Complete xs len n) (hk : k ≤ xs.length) (hl : (joinedFrames (xs.take k)).length ≤ len) :
    k ≤ n := by
  apply Nat.le_of_not_lt
  intro hlt
  have h1 := h.next (by omega)
  have h2 := joinedFrames_mono xs (show n + 1 ≤ k by omega)
  omega

/-- The server, when `n` messages of the client are complete. -/
theorem Course.server (c : Course env key now pkey own file xs ys) (h : ExampleOK env now pkey own file) (pub : Option EncKey) (endErr : Err) (ts : Nat) (ht : 8 < ts)
    {reads : List Bytes} (hr : ∀ x ∈ reads, x.length ≤ 128) (hp : reads.flatten <+: joinedFrames xs) :
    ∃ n s log, Complete xs reads.flatten.length n ∧ ({ user := none } : Converse.State Data).run true (server (some own)) (turns (xs.take n)) = .ok (s, log) ∧
      ({ user := none } : Converse.State Data).serve env key endErr true (server (some own)) (List.replicate ts (.ok, .ok)) ⟨[], reads⟩ = .ok (s, log ++ [.closed]) ∧
      sentIn log <+: exampleMessages own ∧ (7 ≤ n → sentIn log = exampleMessages own) ∧ (8 ≤ n → Done env now pkey own file s log) ∧
      serverSends env key pub (some own) endErr ts reads = .ok (joinedFrames (ys.take (sentIn log).length)) := by
  obtain ⟨n, n1, n2, n3, n4⟩ := serve_prefix env key endErr (Programs.server (some own)) { user := none } xs c.fx reads hr hp ts (by rw [c.lx]; exact ht)
  obtain ⟨s, log, r1, r2, r3, r4⟩ := c.after h.file n
  have hserve := n4
  rw [show ((xs.take n).map fun x => (x.2, Outcome.ok, Outcome.ok)) = turns (xs.take n) from rfl, r1] at hserve
  refine ⟨n, s, log, ⟨n1, n2, n3⟩, r1, hserve, r2, r3, r4, ?_⟩
  unfold serverSends
  rw [hserve]
  simp only [Res.bind, Res.ok_bind]
  rw [← c.wire h.own pub r2]
  unfold sentIn
  simp only [List.filterMap_append, List.filterMap_cons, List.filterMap_nil, List.append_nil]
  rfl

/-- The client, when `n` messages of the server are complete. -/
theorem Course.client (c : Course env key now pkey own file xs ys) (h : ExampleOK env now pkey own file) (endErr : Err) (ts : Nat) (ht : 10 < ts)
    {reads : List Bytes} (hr : ∀ x ∈ reads, x.length ≤ 128) (hp : reads.flatten <+: joinedFrames ys) :
    ∃ n, Complete ys reads.flatten.length n ∧ listen env endErr ts ⟨[], reads⟩ = .ok ((ys.take n).map (·.2)) ∧
      clientSends env now pkey file endErr ts reads = .ok (joinedFrames (xs.take (if 2 ≤ n then 8 else 7))) := by
  obtain ⟨n, n1, n2, n3, n4⟩ := listen_prefix env endErr ys c.fy reads hr hp ts (by rw [c.ly]; exact ht)
  refine ⟨n, ⟨n1, n2, n3⟩, n4, ?_⟩
  obtain ⟨ms, m1, m2⟩ := opening_bytes env now pkey h.file
  have hans : ((ys.take n).map (·.2)).filterMap (answer env) = if 2 ≤ n then [(answerPair env).1] else [] := by
    have hl : (ys.map (·.2)).length = 10 := by simp [c.ly]
    have hc := c.cy
    rw [List.map_take]
    generalize ys.map (·.2) = ds at hl hc
    match ds, hl with
    | [d1, d2, d3, d4, d5, d6, d7, d8, d9, d10], _ =>
      simp only [replyPairs, exampleMessages, outgoing, List.filterMap_cons, List.filterMap_nil, List.zip_cons_cons, List.zip_nil_right, List.mem_cons, List.not_mem_nil,
        or_false, forall_eq_or_imp, forall_eq] at hc
      obtain ⟨c1, c2, c3, c4, c5, c6, c7, c8, c9, c10⟩ := hc
      have a2 : answer env d2 = some (answerPair env).1 := by
        unfold answer
        rw [if_pos (show d2.header.msgID = 0x8104 from c2.2.1), show d2.header.serial = 2 from c2.2.2.1]
        rfl
      have no : ∀ {m e d}, Carries m e d → e.msgID ≠ 0x8104 → answer env d = none := by
        intro m e d hc he
        unfold answer
        rw [hc.2.1, if_neg he]
      have a1 := no c1 (show (0x8001 : UInt16) ≠ 0x8104 by decide)
      have a3 := no c3 (show (0x8001 : UInt16) ≠ 0x8104 by decide)
      have a4 := no c4 (show (0x8001 : UInt16) ≠ 0x8104 by decide)
      have a5 := no c5 (show (0x8a00 : UInt16) ≠ 0x8104 by decide)
      have a6 := no c6 (show (0x8001 : UInt16) ≠ 0x8104 by decide)
      have a7 := no c7 (show (0x8001 : UInt16) ≠ 0x8104 by decide)
      have a8 := no c8 (show (0x8001 : UInt16) ≠ 0x8104 by decide)
      have a9 := no c9 (show (0x8001 : UInt16) ≠ 0x8104 by decide)
      have a10 := no c10 (show (0x8800 : UInt16) ≠ 0x8104 by decide)
      have hrest : ∀ k, ([d3, d4, d5, d6, d7, d8, d9, d10].take k).filterMap (answer env) = [] := by
        intro k
        rw [List.filterMap_eq_nil_iff]
        intro d hd
        have hd := List.mem_of_mem_take hd
        simp only [List.mem_cons, List.not_mem_nil, or_false] at hd
        rcases hd with rfl | rfl | rfl | rfl | rfl | rfl | rfl | rfl <;> assumption
      match n with
      | 0 => rfl
      | 1 => simp [a1]
      | n + 2 =>
        rw [if_pos (by omega)]
        simp only [List.take_succ_cons, List.filterMap_cons, a1, a2, hrest]
  have hb : encodeAll env (ms ++ if 2 ≤ n then [(answerPair env).1] else []) = .ok (joinedFrames (xs.take (if 2 ≤ n then 8 else 7))) := by
    have := encodeAll_frames env (ms ++ if 2 ≤ n then [(answerPair env).1] else []) ((xs.take (if 2 ≤ n then 8 else 7)).map (·.1)) (by
      have hb := c.bx
      rw [List.map_map, List.map_take, show (Res.ok ∘ fun x : Bytes × Message Entity => x.1) = fun x => Res.ok x.1 from rfl, ← hb]
      split
      · rw [List.map_append, m2, List.take_of_length_le (by simp [firstPairs]), List.map_append]
        rfl
      · rw [List.append_nil, m2]
        rfl)
    rw [this, joinedFrames, List.flatMap_def]
  unfold clientSends
  rw [m1, n4]
  simp only [Res.ok_bind, hans]
  exact hb

/-- The two programs stay within the bytes of the messages. -/
theorem Course.bounded (c : Course env key now pkey own file xs ys) (h : ExampleOK env now pkey own file) (pub : Option EncKey) (ec es : Err) (tc ts : Nat) (hc : 10 < tc)
    (ht : 8 < ts) : Bounded (clientSends env now pkey file ec tc) (serverSends env key pub (some own) es ts) (joinedFrames xs) (joinedFrames ys) where
  clientRuns down hd hp := by
    obtain ⟨n, -, -, h1⟩ := c.client h ec tc hc hd hp
    exact ⟨_, h1, joinedFrames_take _ _⟩
  serverRuns up hu hp := by
    obtain ⟨n, s, log, -, -, -, -, -, -, h1⟩ := c.server h pub es ts ht hu hp
    exact ⟨_, h1, joinedFrames_take _ _⟩
  clientMono down x b b' hd hp e e' := by
    have hd0 : ∀ y ∈ down, y.length ≤ 128 := fun y hy => hd y (by simp [hy])
    have hp0 : down.flatten <+: (down ++ [x]).flatten := by rw [List.flatten_append]; exact List.prefix_append _ _
    obtain ⟨n, g1, -, g2⟩ := c.client h ec tc hc hd0 (hp0.trans hp)
    obtain ⟨n', g1', -, g2'⟩ := c.client h ec tc hc hd hp
    rw [e] at g2
    rw [e'] at g2'
    obtain rfl := Res.ok.inj g2
    obtain rfl := Res.ok.inj g2'
    have hn := g1.mono g1' hp0.length_le
    have hle : (if 2 ≤ n then 8 else 7) ≤ if 2 ≤ n' then 8 else 7 := by split <;> split <;> omega
    have := joinedFrames_take (xs.take (if 2 ≤ n' then 8 else 7)) (if 2 ≤ n then 8 else 7)
    rwa [List.take_take, Nat.min_eq_left hle] at this
  serverMono up x b b' hu hp e e' := by
    have hu0 : ∀ y ∈ up, y.length ≤ 128 := fun y hy => hu y (by simp [hy])
    have hp0 : up.flatten <+: (up ++ [x]).flatten := by rw [List.flatten_append]; exact List.prefix_append _ _
    obtain ⟨n, s, log, g1, g2, -, -, -, -, g3⟩ := c.server h pub es ts ht hu0 (hp0.trans hp)
    obtain ⟨n', s', log', g1', g2', -, -, -, -, g3'⟩ := c.server h pub es ts ht hu hp
    rw [e] at g3
    rw [e'] at g3'
    obtain rfl := Res.ok.inj g3
    obtain rfl := Res.ok.inj g3'
    have hle := (Course.after_mono n n' (g1.mono g1' hp0.length_le) g2 g2').length_le
    have := joinedFrames_take (ys.take (sentIn log').length) (sentIn log).length
    rwa [List.take_take, Nat.min_eq_left hle] at this

end Verif.Programs
