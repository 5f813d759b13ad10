import Verif.Lemmas.ConnectionExact
import Verif.Props.Handler
import Verif.Props.Stream
/-! # C51: the bytes of a client cannot crash the server; C32 from the wire to the handlers -/

namespace Verif

open Handler Spec Codec

/-- The results of `Receive` in the course of a connection are possible inputs of the loop, unless a single byte stands between two delimiters. -/
theorem inputs_arrived (env : Env) (key : Option DecKey) (hkey : ∀ k, key = some k → 0 < k.size) (endErr : Err)
    (turns : List (List Outside × Around)) (s : RecvState) (h : ∀ x, ¬ [0x7e, x, 0x7e] <:+: s.buffer ++ s.reads.flatten) :
    ∀ i ∈ inputs env key endErr turns s, Arrived i := by
  induction turns generalizing s with
  | nil => intro i hi; simp [inputs] at hi
  | cons t turns ih =>
    obtain ⟨o, a⟩ := t
    obtain ⟨f1, f2, f3⟩ := receive_facts (C := entityCodec env) (key := key) (endErr := endErr) s
    intro i hi
    simp only [inputs, List.mem_append, List.mem_map, List.mem_cons] at hi
    rcases hi with ⟨x, -, rfl⟩ | rfl | hi
    · exact trivial
    · cases hr : (receive (entityCodec env) key endErr s).1 with
      | ok m =>
        obtain ⟨f, hf⟩ := f2 m hr
        exact C49_decoded_messages_are_delivered env key f m hf
      | err e => exact trivial
      | panic =>
        obtain ⟨f, hin, hf⟩ := f3 hr
        obtain ⟨x, rfl⟩ := (C05_registered_panics_iff_partial env key hkey {} f).1 hf
        exact absurd hin (h x)
    · cases hr : (receive (entityCodec env) key endErr s).1 with
      | ok m =>
        rw [hr] at hi
        refine ih _ ?_ i hi
        intro x hx
        exact h x (hx.trans f1.isInfix)
      | err e => rw [hr] at hi; simp at hi
      | panic => rw [hr] at hi; simp at hi

/-- C51, partial: whatever bytes a client sends, in whatever pieces, with whatever handlers, callbacks and other goroutines doing what they like, the
session ends without a panic of the server — unless the client sends a single byte between two delimiters. -/
theorem C51_no_crash_partial (env : Env) (key : Option DecKey) (hkey : ∀ k, key = some k → 0 < k.size) (endErr : Err) (auto : Bool)
    (turns : List (List Outside × Around)) (reads : List Bytes) (h : ∀ x, ¬ [0x7e, x, 0x7e] <:+: reads.flatten) :
    serve env key endErr auto turns reads ≠ .panic := by
  obtain ⟨s, log, hr, -⟩ := C49_loop_goes_on auto _ (inputs_arrived env key hkey endErr turns ⟨[], reads⟩ (by simpa using h))
  rw [serve, hr]
  simp

/-- Non-trivial case: an empty frame, a frame that is too short and an unfinished one, in pieces that cut the frames. -/
example : ∀ x, ¬ [0x7e, x, 0x7e] <:+: ([[0x7e], [0x7e, 1, 2, 3], [4, 0x7e, 0x7e, 1], [2, 0x7d]] : List Bytes).flatten := by
  intro x ⟨s, t, h⟩
  rcases s with _ | ⟨_, _ | ⟨_, _ | ⟨_, _ | ⟨_, _ | ⟨_, _ | ⟨_, _ | ⟨_, _ | ⟨_, _ | ⟨_, _ | ⟨_, _ | ⟨_, s⟩⟩⟩⟩⟩⟩⟩⟩⟩⟩⟩ <;> simp at h

/-- C51 fails: three bytes from a client that has just connected crash the server, whatever its configuration. -/
theorem C51_refuted (env : Env) (key : Option DecKey) (endErr : Err) (auto : Bool) (a : Around) :
    serve env key endErr auto [([], a)] [[0x7e, 0x00, 0x7e]] = .panic := by
  have hd : Message.decode (entityCodec env) key {} [0x7e, 0x00, 0x7e] = .panic := by
    rw [Message.decode_eq, (decodeEnvelope_panic_iff _).2 ⟨0, rfl⟩]
    rfl
  have hr : readFromBuffer (entityCodec env) key [0x7e, 0x00, 0x7e] = (.panic, [0x7e, 0x00, 0x7e]) := by
    simp [readFromBuffer, hd]
  have h0 : readFromBuffer (entityCodec env) key [] = (.ok none, []) := rfl
  simp [serve, inputs, receive, recvLoop, h0, hr, Loop.run, Loop.step, bind, Res.bind]

/-- The inputs of the loop for a stream: a panic of `Receive` at the end if the stream is of the crashing kind, none otherwise. -/
theorem inputs_crash (env : Env) (key : Option DecKey) (hkey : ∀ k, key = some k → 0 < k.size) (endErr : Err)
    (fs : List (Bytes × Bytes)) (j t : Bytes) (hfs : ∀ x ∈ fs, Junk x.1 ∧ Delimited x.2 ∧ x.2.length ≤ 65408) (hj : Junk j) (ht : Unfinished t)
    (hl : t.length ≤ 65408) (turns : List (List Outside × Around)) (hn : fs.length < turns.length) (s : RecvState)
    (h : Holds s (fs.flatMap (fun x => x.1 ++ x.2) ++ (j ++ t)) 65408) :
    (Crashes (entityCodec env) key fs → ∃ is a, inputs env key endErr turns s = is ++ [.receive .panic a] ∧ (∀ i ∈ is, Arrived i) ∧
      ∀ e a, Input.receive (.err e) a ∉ is) ∧
    (¬ Crashes (entityCodec env) key fs → ∀ i ∈ inputs env key endErr turns s, Arrived i) := by
  have stop : ∀ (turns : List (List Outside × Around)) (s : RecvState) (e : Err), (receive (entityCodec env) key endErr s).1 = .err e →
      ∀ i ∈ inputs env key endErr turns s, Arrived i := by
    intro turns s e he i hi
    cases turns with
    | nil => simp [inputs] at hi
    | cons u turns =>
      simp only [inputs, he, List.mem_append, List.mem_map, List.mem_cons, List.not_mem_nil, or_false] at hi
      rcases hi with ⟨x, -, rfl⟩ | rfl <;> exact trivial
  induction fs generalizing s turns with
  | nil =>
    refine ⟨fun hc => (nomatch hc), fun _ => ?_⟩
    simp only [List.flatMap_nil, List.nil_append] at h
    by_cases h0 : j = []
    · subst h0
      exact stop turns s endErr (by rw [receive_end h ht hl (Nat.le_refl _)])
    · obtain ⟨s', j', r, -⟩ := receive_junk (C := entityCodec env) (key := key) (endErr := endErr) h h0 hj (by
        rcases ht with h | ⟨w, h, -⟩
        · exact .inl h
        · exact .inr ⟨w, h⟩)
      exact stop turns s _ (by rw [r])
  | cons x fs ih =>
    obtain ⟨jx, f⟩ := x
    obtain ⟨a1, a2, a3⟩ := hfs (jx, f) (by simp)
    have hfs' : ∀ x ∈ fs, Junk x.1 ∧ Delimited x.2 ∧ x.2.length ≤ 65408 := fun x hx => hfs x (by simp [hx])
    simp only at a1 a2 a3
    by_cases h0 : jx = []
    · subst h0
      have h' : Holds s (f ++ (fs.flatMap (fun x => x.1 ++ x.2) ++ (j ++ t))) 65408 := by simpa using h
      obtain ⟨⟨o, a⟩, turns, rfl⟩ := List.exists_cons_of_ne_nil (l := turns) (by rintro rfl; simp at hn)
      cases hd : Message.decode (entityCodec env) key {} f with
      | panic =>
        have hr := receive_frame_panic (endErr := endErr) h' a2 hd a3 (Nat.le_refl _)
        refine ⟨fun _ => ⟨o.map .outside, a, by simp only [inputs, hr], ?_, by simp⟩, fun hc => ?_⟩
        · intro i hi
          obtain ⟨x, -, rfl⟩ := List.mem_map.1 hi
          exact trivial
        · obtain ⟨x, rfl⟩ := (C05_registered_panics_iff_partial env key hkey {} f).1 hd
          exact absurd .here hc
      | err e =>
        obtain ⟨s', hr, -⟩ := receive_frame (endErr := endErr) h' a2 (by rw [hd]; simp) a3 (Nat.le_refl _)
        refine ⟨fun hc => ?_, fun _ => stop _ s e (by rw [hr, hd])⟩
        cases hc with
        | here => rw [(C05_registered_panics_iff_partial env key hkey {} _).2 ⟨_, rfl⟩] at hd; cases hd
        | later hm _ => rw [hd] at hm; cases hm
      | ok m =>
        obtain ⟨s', hr, hs'⟩ := receive_frame (endErr := endErr) h' a2 (by rw [hd]; simp) a3 (Nat.le_refl _)
        have hin : inputs env key endErr ((o, a) :: turns) s = o.map .outside ++ .receive (.ok m) a :: inputs env key endErr turns s' := by
          simp only [inputs, hr, hd]
        have harr : ∀ i ∈ o.map Input.outside ++ [.receive (.ok m) a], Arrived i := by
          intro i hi
          simp only [List.mem_append, List.mem_map, List.mem_cons, List.not_mem_nil, or_false] at hi
          rcases hi with ⟨x, -, rfl⟩ | rfl
          · exact trivial
          · exact C49_decoded_messages_are_delivered env key f m hd
        obtain ⟨i1, i2⟩ := ih hfs' turns (by simp at hn; omega) s' hs'
        rw [hin]
        constructor
        · intro hc
          cases hc with
          | here => rw [(C05_registered_panics_iff_partial env key hkey {} _).2 ⟨_, rfl⟩] at hd; cases hd
          | later _ hc =>
            obtain ⟨is, a', e1, e2, e3⟩ := i1 hc
            refine ⟨(o.map .outside ++ [.receive (.ok m) a]) ++ is, a', by rw [e1]; simp, ?_, ?_⟩
            · intro i hi
              rcases List.mem_append.1 hi with hi | hi
              · exact harr i hi
              · exact e2 i hi
            · intro e b hi
              rcases List.mem_append.1 hi with hi | hi
              · simp at hi
              · exact e3 e b hi
        · intro hc i hi
          rw [show o.map Input.outside ++ .receive (.ok m) a :: inputs env key endErr turns s' =
            (o.map .outside ++ [.receive (.ok m) a]) ++ inputs env key endErr turns s' by simp] at hi
          rcases List.mem_append.1 hi with hi | hi
          · exact harr i hi
          · exact i2 (fun hc' => hc (.later hd hc')) i hi
    · obtain ⟨s', j', r, -⟩ := receive_junk (C := entityCodec env) (key := key) (endErr := endErr)
        (rest := f ++ (fs.flatMap (fun x => x.1 ++ x.2) ++ (j ++ t))) (by simpa using h) h0 a1 (by
          obtain ⟨w, rfl, -⟩ := a2
          exact .inr ⟨_, rfl⟩)
      refine ⟨fun hc => ?_, fun _ => stop turns s _ (by rw [r])⟩
      cases hc <;> exact absurd rfl h0

/-- C51 exactly, for streams whose frames fit into the buffer: the server crashes if and only if the first frame that is not a message is a single
byte between two delimiters with nothing before it. Neither the pieces in which the bytes arrive nor the handlers make a difference. -/
theorem C51_crashes_iff_partial (env : Env) (key : Option DecKey) (hkey : ∀ k, key = some k → 0 < k.size) (endErr : Err) (auto : Bool)
    (p : Parsed) (hp : p.OK 65408) (reads : List Bytes) (hr : ∀ c ∈ reads, c.length ≤ 128) (hs : reads.flatten = p.bytes)
    (turns : List (List Outside × Around)) (hn : p.frames.length < turns.length) :
    serve env key endErr auto turns reads = .panic ↔ Crashes (entityCodec env) key p.frames := by
  obtain ⟨h1, h2, h3, h4⟩ := hp
  obtain ⟨c1, c2⟩ := inputs_crash env key hkey endErr p.frames p.junk p.rest h1 h2 h3 h4 turns hn ⟨[], reads⟩
    ⟨by simpa [Parsed.bytes] using hs, hr, by simp⟩
  constructor
  · intro h
    apply Classical.byContradiction
    intro hc
    obtain ⟨s, log, hrun, -⟩ := C49_loop_goes_on auto _ (c2 hc)
    rw [serve, hrun] at h
    cases h
  · intro hc
    obtain ⟨is, a, e1, e2, e3⟩ := c1 hc
    obtain ⟨s, log, hrun, hgo⟩ := C49_loop_goes_on auto is e2
    rw [serve, e1, Handler.run_append, hrun]
    have := hgo e3
    simp [Loop.run, Loop.step, this, bind, Res.bind]

/-- Non-trivial case: a message, then the three bytes; and a stream that does not crash the server although it contains them. -/
example : (∃ f, Crashes (entityCodec Sample.env) none [([], f), ([], [0x7e, 5, 0x7e])]) ∧
    ¬ Crashes (entityCodec Sample.env) none [([1], [0x7e, 5, 0x7e])] := by
  have h : ∃ f d, Message.decode Sample.codec none {} f = .ok d :=
    ⟨_, _, C10_header_always_delivered Sample.codec none _ [1, 0x7e, 2] 0x1234 3 9 42 none (by decide) (by decide) rfl
      (by decide) rfl ⟨_, rfl, stuffed_escape _⟩⟩
  obtain ⟨f, d, h⟩ := h
  exact ⟨⟨f, .later h .here⟩, fun h => nomatch h⟩

/-- Either the loop gets only possible inputs, or the stream begins badly. -/
theorem inputs_begin (env : Env) (key : Option DecKey) (hkey : ∀ k, key = some k → 0 < k.size) (endErr : Err) (turns : List (List Outside × Around))
    (s : RecvState) (hb : s.buffer.length ≤ 65535) :
    (∀ i ∈ inputs env key endErr turns s, Arrived i) ∨ BeginsBadly (entityCodec env) key 65535 turns.length (s.buffer ++ s.reads.flatten) := by
  induction turns generalizing s with
  | nil => exact .inl (by simp [inputs])
  | cons t turns ih =>
    obtain ⟨o, a⟩ := t
    obtain ⟨c1, c2⟩ := receive_cut (C := entityCodec env) (key := key) (endErr := endErr) s hb
    have hout : ∀ i ∈ o.map Input.outside, Arrived i := by
      intro i hi
      obtain ⟨x, -, rfl⟩ := List.mem_map.1 hi
      exact trivial
    cases hr : receive (entityCodec env) key endErr s with
    | mk r s' =>
      cases r with
      | ok m =>
        obtain ⟨f, a1, a2, a3, a4, a5, -⟩ := c1 m s' hr
        rcases ih s' a5 with h | ⟨fs, x, rest, b1, b0, b2, b3⟩
        · left
          intro i hi
          simp only [inputs, hr, List.mem_append, List.mem_cons] at hi
          rcases hi with hi | rfl | hi
          · exact hout i hi
          · exact C49_decoded_messages_are_delivered env key f m a3
          · exact h i hi
        · right
          refine ⟨f :: fs, x, rest, by rw [a4, b1]; simp, b0, by simpa using b2, ?_⟩
          intro g hg
          rcases List.mem_cons.mp hg with rfl | hg
          · exact ⟨a1, a2, m, a3⟩
          · exact b3 g hg
      | err e =>
        left
        intro i hi
        simp only [inputs, hr, List.mem_append, List.mem_cons, List.not_mem_nil, or_false] at hi
        rcases hi with hi | rfl
        · exact hout i hi
        · exact trivial
      | panic =>
        right
        obtain ⟨f, r, a1, a2, a3⟩ := c2 (by rw [hr])
        obtain ⟨x, rfl⟩ := (C05_registered_panics_iff_partial env key hkey {} f).1 a2
        refine ⟨[], x, r, by simpa using a3, ?_, by simp, by simp⟩
        obtain ⟨w, hw, hn⟩ := a1
        match w, hw with
        | [y], hw =>
          simp only [List.cons_append, List.nil_append, List.cons.injEq, and_true, true_and] at hw
          subst hw
          exact fun h => hn (by simp [h])
        | [], hw => simp at hw
        | _ :: _ :: w, hw => simp at hw

/-- C51: whatever bytes arrive in whatever pieces, the server crashes only if the stream begins with messages, followed by a single byte between two
delimiters. The single byte elsewhere in the stream is harmless. -/
theorem C51_crash_needs_partial (env : Env) (key : Option DecKey) (hkey : ∀ k, key = some k → 0 < k.size) (endErr : Err) (auto : Bool)
    (turns : List (List Outside × Around)) (reads : List Bytes) (h : serve env key endErr auto turns reads = .panic) :
    BeginsBadly (entityCodec env) key 65535 turns.length reads.flatten := by
  rcases inputs_begin env key hkey endErr turns ⟨[], reads⟩ (by simp) with hin | hin
  · obtain ⟨s, log, hrun, -⟩ := C49_loop_goes_on auto _ hin
    rw [serve, hrun] at h
    cases h
  · simpa using hin

/-- The loop of a stream that begins badly gets messages and then the panic. -/
theorem inputs_badly (env : Env) (key : Option DecKey) (hkey : ∀ k, key = some k → 0 < k.size) (endErr : Err) (fs : List Bytes) (x : UInt8) (rest : Bytes)
    (hxf : x ≠ 0x7e) (hfs : ∀ f ∈ fs, Delimited f ∧ f.length ≤ 65408 ∧ ∃ m, Message.decode (entityCodec env) key {} f = .ok m)
    (turns : List (List Outside × Around)) (hn : fs.length < turns.length) (s : RecvState)
    (h : Holds s (fs.flatten ++ ([0x7e, x, 0x7e] ++ rest)) 65408) :
    ∃ is a, inputs env key endErr turns s = is ++ [.receive .panic a] ∧ (∀ i ∈ is, Arrived i) ∧ ∀ e a, Input.receive (.err e) a ∉ is := by
  have hx : Message.decode (entityCodec env) key {} [0x7e, x, 0x7e] = .panic := (C05_registered_panics_iff_partial env key hkey {} _).2 ⟨_, rfl⟩
  induction fs generalizing s turns with
  | nil =>
    obtain ⟨⟨o, a⟩, turns, rfl⟩ := List.exists_cons_of_ne_nil (l := turns) (by rintro rfl; simp at hn)
    have hd : Delimited [0x7e, x, 0x7e] := ⟨[x], rfl, by simpa using fun h => hxf h.symm⟩
    have hr := receive_frame_panic (endErr := endErr) (by simpa using h) hd hx (by simp) (Nat.le_refl _)
    refine ⟨o.map .outside, a, by simp only [inputs, hr], ?_, by simp⟩
    intro i hi
    obtain ⟨y, -, rfl⟩ := List.mem_map.1 hi
    exact trivial
  | cons f fs ih =>
    obtain ⟨⟨o, a⟩, turns, rfl⟩ := List.exists_cons_of_ne_nil (l := turns) (by rintro rfl; simp at hn)
    obtain ⟨a1, a2, m, a3⟩ := hfs f (by simp)
    have h' : Holds s (f ++ (fs.flatten ++ ([0x7e, x, 0x7e] ++ rest))) 65408 := by simpa using h
    obtain ⟨s', hr, hs'⟩ := receive_frame (endErr := endErr) h' a1 (by rw [a3]; simp) a2 (Nat.le_refl _)
    obtain ⟨is, b, e1, e2, e3⟩ := ih (fun g hg => hfs g (by simp [hg])) turns (by simpa using hn) s' hs'
    refine ⟨(o.map .outside ++ [.receive (.ok m) a]) ++ is, b, by simp only [inputs, hr, a3, e1]; simp, ?_, ?_⟩
    · intro i hi
      simp only [List.mem_append, List.mem_map, List.mem_cons, List.not_mem_nil, or_false] at hi
      rcases hi with (⟨y, -, rfl⟩ | rfl) | hi
      · exact trivial
      · exact C49_decoded_messages_are_delivered env key f m a3
      · exact e2 i hi
    · intro e c hi
      rcases List.mem_append.1 hi with hi | hi
      · simp at hi
      · exact e3 e c hi

/-- C51: and then it does crash, if the messages before are no longer than 65408 bytes, whatever follows and in whatever pieces it arrives. (Whether a
frame of 65409 to 65535 bytes is received depends on the pieces.) -/
theorem C51_crash_suffices_partial (env : Env) (key : Option DecKey) (hkey : ∀ k, key = some k → 0 < k.size) (endErr : Err) (auto : Bool)
    (turns : List (List Outside × Around)) (reads : List Bytes) (hr : ∀ c ∈ reads, c.length ≤ 128)
    (h : BeginsBadly (entityCodec env) key 65408 turns.length reads.flatten) : serve env key endErr auto turns reads = .panic := by
  obtain ⟨fs, x, rest, b1, b0, b2, b3⟩ := h
  obtain ⟨is, a, e1, e2, e3⟩ := inputs_badly env key hkey endErr fs x rest b0 b3 turns b2 ⟨[], reads⟩ ⟨by simpa using b1, hr, by simp⟩
  obtain ⟨s, log, hrun, hgo⟩ := C49_loop_goes_on auto is e2
  rw [serve, e1, Handler.run_append, hrun]
  have := hgo e3
  simp [Loop.run, Loop.step, this, bind, Res.bind]

/-- Non-trivial case: a message, the three bytes, and a long unfinished frame. -/
example : ∃ f : Bytes, ∀ n, BeginsBadly (entityCodec Sample.env) none 65408 2 (f ++ [0x7e, 5, 0x7e] ++ 0x7e :: List.replicate n 1) := by
  have h : ∃ f d, Delimited f ∧ f.length ≤ 65408 ∧ Message.decode Sample.codec none {} f = .ok d := by
    have := C10_header_always_delivered Sample.codec none _ [1, 2] 0x1234 2 9 42 none (by decide) (by decide) rfl (by decide) rfl ⟨_, rfl, stuffed_escape _⟩
    exact ⟨_, _, ⟨_, rfl, by decide⟩, by decide, this⟩
  obtain ⟨f, d, h1, h2, h3⟩ := h
  exact ⟨f, fun n => ⟨[f], 5, 0x7e :: List.replicate n 1, by simp, by decide, Nat.lt_succ_self 1, by simpa using ⟨h1, h2, d, h3⟩⟩⟩

/-! ## From the wire to the handlers -/

theorem receivedIn_outsides (o : List Outside) (is : List Input) : receivedIn (o.map .outside ++ is) = receivedIn is := by
  induction o with
  | nil => rfl
  | cons x o ih => simpa [receivedIn] using ih

/-- The loop receives what successive calls of `Receive` return, up to the first error. -/
theorem inputs_received (env : Env) (key : Option DecKey) (endErr : Err) (turns : List (List Outside × Around)) (s : RecvState)
    (ds : List (Message Entity)) (k : Nat) (hl : turns.length = ds.length + k)
    (h : (receiveMany (entityCodec env) key endErr (ds.length + k) s).1 = ds.map .ok ++ List.replicate k (.err endErr)) :
    (receivedIn (inputs env key endErr turns s)).map (·.1) = ds ∧ (∀ i ∈ inputs env key endErr turns s, Arrived i) ∧
      (0 < k → ∃ a, .receive (.err endErr) a ∈ inputs env key endErr turns s) := by
  induction turns generalizing s ds with
  | nil =>
    obtain rfl : ds = [] := List.length_eq_zero_iff.1 (by simp at hl; omega)
    obtain rfl : k = 0 := by simp at hl; omega
    simp [inputs, receivedIn]
  | cons t turns ih =>
    obtain ⟨o, a⟩ := t
    obtain ⟨-, f2, -⟩ := receive_facts (C := entityCodec env) (key := key) (endErr := endErr) s
    cases ds with
    | nil =>
      obtain ⟨k, rfl⟩ : ∃ j, k = j + 1 := ⟨turns.length, by simp at hl; omega⟩
      rw [show ([] : List (Message Entity)).length + (k + 1) = k + 1 by simp] at h
      simp only [receiveMany, List.map_nil, List.nil_append, List.replicate_succ, List.cons.injEq] at h
      simp only [inputs, h.1]
      refine ⟨by rw [receivedIn_outsides]; rfl, ?_, fun _ => ⟨a, by simp⟩⟩
      intro i hi
      simp only [List.mem_append, List.mem_map, List.mem_cons, List.not_mem_nil, or_false] at hi
      rcases hi with ⟨x, -, rfl⟩ | rfl <;> exact trivial
    | cons d ds =>
      rw [show (d :: ds).length + k = (ds.length + k) + 1 by simp; omega] at h
      simp only [receiveMany, List.map_cons, List.cons_append, List.cons.injEq] at h
      obtain ⟨i1, i2, i3⟩ := ih _ ds (by simp at hl; omega) h.2
      simp only [inputs, h.1]
      refine ⟨?_, ?_, ?_⟩
      · rw [receivedIn_outsides]
        simp only [receivedIn, List.map_cons, i1]
      · intro i hi
        simp only [List.mem_append, List.mem_map, List.mem_cons] at hi
        rcases hi with ⟨x, -, rfl⟩ | rfl | hi
        · exact trivial
        · obtain ⟨f, hf⟩ := f2 d h.1
          exact C49_decoded_messages_are_delivered env key f d hf
        · exact i2 i hi
      · intro hk
        obtain ⟨a', ha⟩ := i3 hk
        exact ⟨a', by simp [ha]⟩

/-- C32 from end to end: a terminal writes messages with registered bodies, they arrive in arbitrary pieces, and the server offers to its handlers
messages with the same contents, in the order they were sent, each exactly once (apart from the parts of an upload that it puts together). -/
theorem C32_end_to_end (env : Env) (key : Option DecKey) (endErr : Err) (auto : Bool) (ms : List (Message Entity × Entity))
    (hms : ∀ x ∈ ms, Spec.Sendable env x.1 x.2) :
    ∃ sent : List Bytes, ms.map (fun x => sendBytes (entityCodec env) none x.1) = sent.map .ok ∧
      ∀ (reads : List Bytes), (∀ c ∈ reads, c.length ≤ 128) → reads.flatten = sent.flatten →
        ∀ turns : List (List Outside × Around), ms.length ≤ turns.length →
          ∃ (ds : List (Message Entity)) (s : Loop) (log : List Act), ds.length = ms.length ∧ (∀ p ∈ ms.zip ds, Spec.Carries p.1.1 p.1.2 p.2) ∧
            serve env key endErr auto turns reads = .ok (s, log) ∧
            (offered log).filter (fun m => !isPart auto m) = ds.filter (fun m => !isPart auto m) := by
  obtain ⟨sent, h1, h2⟩ := C12_end_to_end env key endErr ms hms
  refine ⟨sent, h1, ?_⟩
  intro reads hr hs turns ht
  obtain ⟨ds, e1, e2, e3⟩ := h2 reads hr hs (turns.length - ms.length)
  obtain ⟨j1, j2, -⟩ := inputs_received env key endErr turns ⟨[], reads⟩ ds (turns.length - ms.length) (by omega) (by rw [e1]; exact e3)
  obtain ⟨s, log, l1, l2⟩ := C32_each_once_in_order auto _ j2
  refine ⟨ds, s, log, e1, e2, l1, ?_⟩
  rw [l2, j1]
  apply List.filter_congr
  intro d hd
  obtain ⟨i, hi, rfl⟩ := List.mem_iff_getElem.1 hd
  have hc := e2 (ms[i]'(by omega), ds[i]) (List.mem_iff_getElem.2 ⟨i, by simp; omega, by simp⟩)
  have hb : hasBody ds[i] = true := by unfold hasBody; rw [hc.1]
  rw [hb, Bool.true_and]

/-- Non-trivial case: a list of sendable messages (`Props/Stream.lean` shows that the sample message is one), and more turns than messages. -/
example (h : Spec.Sendable Sample.env Sample.message Sample.body) (a : Around) :
    (∀ x ∈ [(Sample.message, Sample.body), (Sample.message, Sample.body)], Spec.Sendable Sample.env x.1 x.2) ∧
      [(Sample.message, Sample.body), (Sample.message, Sample.body)].length ≤ [([Outside.addHandler 2 none], a), ([], a), ([], a)].length :=
  ⟨by simp [h], by simp⟩

end Verif
