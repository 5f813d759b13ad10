import Verif.Lemmas.SyncHanded
import Verif.Lemmas.SyncFair
/-! # C84 and C85: goroutines, data races and deadlocks

C84: goroutines may use the server, its sessions and its timer at the same time: nothing they share is used in a data race. (Refuted for what
`Run`, `Stop`, `SetPublicKey`, `Register` and the encoding of a body touch; proved for everything else, and for these under the conditions of
`Spec/Sync.lean`.)

C85: handlers, callbacks and close handlers may call everything, and no goroutine waits for ever. (Refuted for a close handler that calls
`Stop`; proved without that.) -/

namespace Verif
open Sync Spec

namespace Sample

/-- A server with a heartbeat handler that sets the key of its terminal and answers, a program that broadcasts a body to sessions 1 and 2 and
registers own types late, and a send loop that marks the body. -/
def busySystem : System where
  programs n := match n with
    | 0 => [.newServer, .addHandler, .go 1, .run false true [1, 2]]
    | 1 => [.broadcast 0 [(1, 0, .queued), (2, 0, .queued)], .register, .registerExtra, .stop true [1, 2]]
    | _ => []
  ticks := [⟨[]⟩, ⟨[(2, true)]⟩]
  turns s := (false, if s = 1 then [(⟨1, some 1⟩, .delivered ⟨true, none, some (true, [.setPublicKey 1, .send 1 0 7 .queued])⟩)] else [], ⟨0, none⟩)
  sendings s := if s = 1 then [⟨0, true, .marks⟩] else if s = 2 then [⟨0, false, .marks⟩] else []
  closing _ := some (true, some [.getSession])

/-- A server whose close handler stops it. -/
def stoppingSystem : System where
  programs n := match n with
    | 0 => [.newServer, .run false true [1]]
    | _ => []
  ticks := []
  turns _ := (false, [], ⟨0, none⟩)
  sendings _ := []
  closing _ := some (true, some [.stop true [1]])

/-- A server that observes the conditions: own types first, one goroutine that runs and stops, a handler that sets the key before it answers. -/
def carefulSystem : System where
  programs n := match n with
    | 0 => [.register, .registerExtra, .newServer, .addHandler, .run false true [1], .stop true [1]]
    | _ => []
  ticks := [⟨[(1, true)]⟩]
  turns s := (false, if s = 1 then [(⟨1, some 1⟩, .delivered ⟨true, some none, some (true, [.setPublicKey 1, .change 7, .send 1 0 7 .queued])⟩)] else [], ⟨0, none⟩)
  sendings s := if s = 1 then [⟨7, true, .marks⟩] else []
  closing _ := some (true, some [.getSession])

/-- What happens if the goroutines make so many steps each, in this order. -/
def syncHistory (S : System) (turns : List (Goroutine × Nat)) : History :=
  ((S.init.run (turns.flatMap fun (g, n) => List.replicate n g)).map (·.1)).getD []

/-- They can. -/
def possible (S : System) (turns : List (Goroutine × Nat)) : Bool := (S.init.run (turns.flatMap fun (g, n) => List.replicate n g)).isSome

theorem possible_happened {S : System} {turns : List (Goroutine × Nat)} (h : possible S turns = true) :
    ∃ σ, Happened S (syncHistory S turns) σ := by
  unfold possible at h
  unfold syncHistory
  cases hr : S.init.run (turns.flatMap fun (g, n) => List.replicate n g) with
  | none => rw [hr] at h; cases h
  | some p => exact ⟨p.2, _, hr⟩

/-- `Run` has stored the server; another goroutine comes to `Stop`. -/
def runningRace : List (Goroutine × Nat) := [(.program 0, 4), (.program 1, 14)]
/-- The send loop looks at the key for a broadcast message; the handler sets it. -/
def keyRace : List (Goroutine × Nat) := [(.program 0, 7), (.receiver 1, 30), (.program 1, 11), (.sender 1, 2), (.receiver 1, 1)]
/-- A message is decoded; the program registers a type. -/
def bodyTypesRace : List (Goroutine × Nat) := [(.program 0, 7), (.program 1, 11), (.receiver 1, 15), (.program 1, 1)]
/-- The same with a type of extras. -/
def extraTypesRace : List (Goroutine × Nat) := [(.program 0, 7), (.program 1, 12), (.receiver 1, 16), (.program 1, 1)]
/-- Two send loops encode the body of a broadcast message. -/
def bodyRace : List (Goroutine × Nat) :=
  [(.program 0, 7), (.receiver 1, 1), (.receiver 2, 1), (.program 1, 11), (.sender 1, 5), (.sender 2, 3)]

/-- A program that changes a body, broadcasts it to two sessions and looks at it again. -/
def sharingSystem : System where
  programs n := match n with
    | 0 => [.newServer, .go 1, .run false true [1, 2]]
    | 1 => [.change 0, .broadcast 0 [(1, 0, .queued), (2, 3, .queued)], .look 0]
    | _ => []
  ticks := []
  turns _ := (false, [], ⟨0, none⟩)
  sendings s := if s = 1 ∨ s = 2 then [⟨0, false, .reads⟩] else []
  closing _ := none

theorem sharingSystem_shared : SharedUnchanged sharingSystem 0 := by
  have hs : ∀ s, sharingSystem.acts (.sender s) =
      (if s = 1 ∨ s = 2 then [.take s 0, .read (.publicKey s), .read (.body 0)] else []) ++ [.start (.closer s)] := by
    intro s
    by_cases h : s = 1 ∨ s = 2 <;> simp [System.acts, sharingSystem, senderActs, h, Sending.acts, Sync.encode]
  refine ⟨.program 1, ?_, ?_, ?_, ?_⟩
  · intro g h1 h2
    cases g with
    | program n =>
      match n with
      | 0 => simp [System.acts, sharingSystem, calls, Call.acts, runServer, Uses]
      | 1 => exact absurd rfl h1
      | n + 2 => simp [System.acts, sharingSystem, calls]
    | ticker => simp [System.acts, sharingSystem]
    | receiver s => simp [System.acts, sharingSystem, receiverActs, timerUpdate, timerRemove, Receiving.acts, Sync.decode, Uses]
    | sender s => exact absurd rfl (h2 s)
    | closer s => simp [System.acts, sharingSystem]
  · intro g h1 s
    cases g with
    | program n =>
      match n with
      | 0 => simp [System.acts, sharingSystem, calls, Call.acts, runServer]
      | 1 => exact absurd rfl h1
      | n + 2 => simp [System.acts, sharingSystem, calls]
    | ticker => simp [System.acts, sharingSystem]
    | receiver s => simp [System.acts, sharingSystem, receiverActs, timerUpdate, timerRemove, Receiving.acts, Sync.decode]
    | sender s => rw [hs]; split <;> simp
    | closer s => simp [System.acts, sharingSystem]
  · simp [NotAfter, System.acts, sharingSystem, calls, Call.acts, Sync.broadcast, Sync.send, nextID, Changes, List.replicate]
  · intro s
    rw [hs]
    split <;> simp [Changes]

/-- The whole life of the careful server. -/
def carefulLife : List (Goroutine × Nat) := [(.program 0, 10), (.ticker, 9), (.receiver 1, 42), (.sender 1, 6), (.closer 1, 11), (.program 0, 2)]
/-- The handler of the careful server answers, and the answer is sent. -/
def carefulTurns : List (Goroutine × Nat) := [(.program 0, 7), (.receiver 1, 39), (.sender 1, 5)]

theorem careful_receiver (s : Nat) : carefulSystem.acts (.receiver s) = [.start (.sender s), .lock .server, .write .sessions, .unlock .server] ++
    timerUpdate false ++ (if s = 1 then (⟨1, some 1⟩ : Receiving).acts 1 ++ [.atomicRead (.iccID 1), .atomicWrite (.iccID 1)] ++ takeRequest 1 false ++
      timerUpdate true ++ [.enter, .write (.publicKey 1), .write (.body 7), .atomicRead (.iccID 1), .atomicRead (.next 1), .atomicWrite (.next 1),
        .put 1 7] else []) ++ [.read (.received s), .write (.received s), .start (.closer s)] := by
  by_cases hs : s = 1
  · subst hs; rfl
  · simp [System.acts, carefulSystem, receiverActs, hs, Receiving.acts, Sync.decode]

theorem careful_sender (s : Nat) : carefulSystem.acts (.sender s) =
    (if s = 1 then [.take 1 7, .read (.publicKey 1), .read (.publicKey 1), .read (.body 7), .write (.body 7)] else []) ++ [.start (.closer s)] := by
  by_cases hs : s = 1
  · subst hs; rfl
  · simp [System.acts, carefulSystem, senderActs, hs]

theorem careful_program (n : Nat) : carefulSystem.acts (.program n) =
    if n = 0 then [.write .bodyTypes, .write .extraTypes, .start .ticker, .read .running, .write .running, .read .running, .start (.receiver 1),
      .read .running, .read .running, .start (.closer 1), .join (.closer 1), .write .running] else [] := by
  cases n <;> rfl

theorem careful_ticker : carefulSystem.acts .ticker =
    [.lock .timer, .read .queue, .write .queue, .read .queue, .unlock .timer, .lock .server, .read .sessions, .unlock .server,
      .start (.closer 1)] := rfl

theorem careful_closer (s : Nat) : carefulSystem.acts (.closer s) =
    [.lock .server, .write .sessions, .unlock .server, .lock .timer, .read .queue, .write .queue, .unlock .timer, .enter,
      .lock .server, .read .sessions, .unlock .server] := rfl

theorem carefulSystem_careful : Careful carefulSystem where
  running := ⟨.program 0, by
    intro g hg
    cases g with
    | program n =>
      have : n ≠ 0 := fun e => hg (by rw [e])
      simp [careful_program, this]
    | ticker => simp [careful_ticker, Uses]
    | receiver s =>
      rw [careful_receiver]
      split <;> simp [timerUpdate, timerRemove, takeRequest, Receiving.acts, Sync.decode, Uses]
    | sender s =>
      rw [careful_sender]
      split <;> simp [Uses]
    | closer s => simp [careful_closer, Uses]⟩
  bodyTypes := ⟨by
    intro g hg
    cases g with
    | program n =>
      have : n ≠ 0 := fun e => hg (by rw [e])
      simp [careful_program, this]
    | ticker => simp [careful_ticker, Changes]
    | receiver s =>
      rw [careful_receiver]
      split <;> simp [timerUpdate, timerRemove, takeRequest, Receiving.acts, Sync.decode, Changes]
    | sender s =>
      rw [careful_sender]
      split <;> simp [Changes]
    | closer s => simp [careful_closer, Changes], by simp [NotAfter, careful_program, Changes]⟩
  extraTypes := ⟨by
    intro g hg
    cases g with
    | program n =>
      have : n ≠ 0 := fun e => hg (by rw [e])
      simp [careful_program, this]
    | ticker => simp [careful_ticker, Changes]
    | receiver s =>
      rw [careful_receiver]
      split <;> simp [timerUpdate, timerRemove, takeRequest, Receiving.acts, Sync.decode, Changes]
    | sender s =>
      rw [careful_sender]
      split <;> simp [Changes]
    | closer s => simp [careful_closer, Changes], by simp [NotAfter, careful_program, Changes]⟩
  keys := by
    intro s
    by_cases hs : s = 1
    · subst hs
      refine .inl ⟨.receiver 1, ?_, ?_, ?_⟩
      · intro g h1 h2
        cases g with
        | program n => rw [careful_program]; split <;> simp [Uses]
        | ticker => simp [careful_ticker, Uses]
        | receiver s =>
          have : s ≠ 1 := fun e => h1 (by rw [e])
          simp [careful_receiver, this, timerUpdate, timerRemove, Uses]
        | sender s =>
          have : s ≠ 1 := fun e => h2 (by rw [e])
          simp [careful_sender, this, Uses]
        | closer s => simp [careful_closer, Uses]
      · intro g h1 b
        cases g with
        | program n => rw [careful_program]; split <;> simp
        | ticker => simp [careful_ticker]
        | receiver s =>
          have : s ≠ 1 := fun e => h1 (by rw [e])
          simp [careful_receiver, this, timerUpdate, timerRemove]
        | sender s => rw [careful_sender]; split <;> simp
        | closer s => simp [careful_closer]
      · simp [NotAfter, careful_receiver, timerUpdate, timerRemove, takeRequest, Receiving.acts, Sync.decode, Changes]
    · right
      intro g
      cases g with
      | program n => rw [careful_program]; split <;> simp [Changes]
      | ticker => simp [careful_ticker, Changes]
      | receiver t =>
        rw [careful_receiver]
        split <;> simp [timerUpdate, timerRemove, takeRequest, Receiving.acts, Sync.decode, Changes]
        exact fun e => hs e.symm
      | sender s => rw [careful_sender]; split <;> simp [Changes]
      | closer s => simp [careful_closer, Changes]
  bodies := by
    intro b
    right
    refine ⟨.receiver 1, 1, ?_, ?_, ?_⟩
    · intro g h1 h2
      cases g with
      | program n => rw [careful_program]; split <;> simp [Uses]
      | ticker => simp [careful_ticker, Uses]
      | receiver s =>
        have : s ≠ 1 := fun e => h1 (by rw [e])
        simp [careful_receiver, this, timerUpdate, timerRemove, Uses]
      | sender s =>
        have : s ≠ 1 := fun e => h2 (by rw [e])
        simp [careful_sender, this, Uses]
      | closer s => simp [careful_closer, Uses]
    · intro g h1
      cases g with
      | program n => rw [careful_program]; split <;> simp
      | ticker => simp [careful_ticker]
      | receiver s =>
        have : s ≠ 1 := fun e => h1 (by rw [e])
        simp [careful_receiver, this, timerUpdate, timerRemove]
      | sender s => rw [careful_sender]; split <;> simp
      | closer s => simp [careful_closer]
    · simp [NotAfter, careful_receiver, timerUpdate, timerRemove, takeRequest, Receiving.acts, Sync.decode, Uses]

/-- `main` is in `Stop` while the close handler looks up a session; the send loop waits for a message. -/
def carefulStop : List (Goroutine × Nat) := [(.program 0, 7), (.receiver 1, 1), (.program 0, 3), (.closer 1, 9)]

/-- The server whose close handler stops it waits for that handler. -/
def stoppingTurns : List (Goroutine × Nat) := [(.program 0, 5), (.receiver 1, 15), (.closer 1, 11)]

end Sample

/-! ## Data races -/

/-- **C84, what holds without any condition.** Whatever goroutines a program has and whatever they call, however they are scheduled: the sessions of
the server, the queue and the period of the timer, and of every session the serial numbers, the terminal number, the table of requests and
the receive buffer are never used in a data race. -/
theorem C84_partial {S : System} {τ : History} {σ : State} (h : Happened S τ σ) (s : Nat) :
    ¬ Race τ .sessions ∧ ¬ Race τ .queue ∧ ¬ Race τ .seconds ∧ ¬ Race τ (.next s) ∧ ¬ Race τ (.iccID s) ∧ ¬ Race τ (.requests s) ∧
      ¬ Race τ (.received s) := by
  have hg : ∀ {c m}, guard c = some m → ¬ Race τ c := by
    rintro c m hc ⟨i, j, g, k, a, b, hij, hi, hj, ha, hb, _, _, hn⟩
    exact hn (guarded_ordered h hc hij hi hj ha hb)
  have ha : ∀ {c}, isAtomic c = true → ¬ Race τ c := by
    rintro c hc ⟨i, j, g, k, a, b, hij, hi, hj, ha, hb, _, hna, _⟩
    obtain ⟨σ₁, _, h1, h2, _⟩ := h.at hi
    obtain ⟨σ₂, _, h3, h4, _⟩ := h.at hj
    obtain ⟨_, _, ht1, _, _⟩ := step_some h2
    obtain ⟨_, _, ht2, _, _⟩ := step_some h4
    exact hna ⟨use_atomic h1 ht1 ha hc, use_atomic h3 ht2 hb hc⟩
  refine ⟨hg rfl, hg rfl, ha rfl, ha rfl, ha rfl, hg rfl, ?_⟩
  exact one_user h (g₀ := .receiver s) fun g hne a hm hu => hne (received_receiver hm hu)

/-- **C84, `Run` and `Stop`.** If only one goroutine calls them, the field that says whether the server runs is not used in a data race. Missing: calls from
several goroutines, for which it is (`C84_refuted`, 1). -/
theorem C84_run_stop_partial {S : System} (hS : OneRunner S) {τ : History} {σ : State} (h : Happened S τ σ) : ¬ Race τ .running := by
  obtain ⟨g₀, hg⟩ := hS
  exact one_user h hg

/-- **C84, `Register`.** If types are registered only by `main` and before it starts goroutines, the tables of types are not used in a data race. Missing:
later registrations (`C84_refuted`, 3 and 4). -/
theorem C84_register_partial {S : System} {types : Cell} (hS : RegistersFirst S types) {τ : History} {σ : State} (h : Happened S τ σ) :
    ¬ Race τ types := by
  rintro ⟨i, j, g, k, a, b, hij, hi, hj, ha, hb, hch, _, hn⟩
  have hmain : ∀ {g a} {i : Nat}, τ[i]? = some (g, a) → Changes types a → g = .program 0 := fun hi hc =>
    Decidable.byContradiction fun he => hS.1 _ he _ (acts_mem h hi) hc
  by_cases hgk : g = k
  · subst hgk; exact hn (.order hij hi hj)
  rcases hch with hch | hch
  · have hg := hmain hi hch
    subst hg
    obtain ⟨p, f, hp, hpf, hpj⟩ := after_go h hj fun e => hgk e.symm
    rcases Nat.lt_trichotomy i p with h1 | h1 | h1
    · exact hn (.trans (.order h1 hi hpf) hpj)
    · subst h1
      rw [hi] at hpf
      cases hpf
      exact ha
    · exact not_after h hS.2 h1 hpf hi ⟨f, rfl⟩ hch
  · have hk := hmain hj hch
    subst hk
    obtain ⟨p, f, hp, hpf, _⟩ := after_go h hi hgk
    exact not_after h hS.2 (Nat.lt_trans hp hij) hpf hj ⟨f, rfl⟩ hch

/-- **C84, `SetPublicKey`.** If one goroutine sets the key and sends all messages of the session, and sets the key before it sends the first, or if nobody sets
it, the key is not used in a data race. Missing: a key that is set after a message was sent, or by another goroutine (`C84_refuted`, 2). -/
theorem C84_key_partial {S : System} {s : Nat} (hS : KeyFirst S s ∨ ∀ g, ∀ a ∈ S.acts g, ¬ Changes (.publicKey s) a) {τ : History} {σ : State}
    (h : Happened S τ σ) : ¬ Race τ (.publicKey s) := by
  rintro ⟨i, j, g, k, a, b, hij, hi, hj, ha, hb, hch, _, hn⟩
  rcases hS with ⟨g₀, h1, h2, h3⟩ | hS
  · have hwho : ∀ {g a} {i : Nat}, τ[i]? = some (g, a) → Uses (.publicKey s) a → g ≠ g₀ → g = .sender s := fun hi hu hne =>
      Decidable.byContradiction fun he => h1 _ hne he _ (acts_mem h hi) hu
    have hput : ∀ {k : Goroutine} {p b : Nat}, τ[p]? = some (k, Act.put s b) → k = g₀ := fun hp =>
      Decidable.byContradiction fun he => h2 _ he _ (acts_mem h hp)
    by_cases hgk : g = k
    · subst hgk; exact hn (.order hij hi hj)
    by_cases hg : g = g₀
    · subst hg
      have hk := hwho hj hb fun e => hgk e.symm
      subst hk
      obtain ⟨p, f, c, hp, hpf, hpj, _⟩ := sender_use h hj (.inl hb)
      have hf := hput hpf
      subst hf
      rcases hch with hch | hch
      · rcases Nat.lt_trichotomy i p with h4 | h4 | h4
        · exact hn (.trans (.order h4 hi hpf) hpj)
        · subst h4
          rw [hi] at hpf
          cases hpf
          exact ha
        · exact not_after h h3 h4 hpf hi ⟨c, rfl⟩ hch
      · exact sender_keeps_key (acts_mem h hj) hch
    · have hs := hwho hi ha hg
      subst hs
      have hk : k = g₀ := Decidable.byContradiction fun he => hgk (hwho hj hb he).symm
      subst hk
      rcases hch with hch | hch
      · exact sender_keeps_key (acts_mem h hi) hch
      · obtain ⟨p, f, c, hp, hpf, _, _⟩ := sender_use h hi (.inl ha)
        have hf := hput hpf
        subst hf
        exact not_after h h3 (Nat.lt_trans hp hij) hpf hj ⟨c, rfl⟩ hch
  · rcases hch with hch | hch
    · exact hS g a (acts_mem h hi) hch
    · exact hS k b (acts_mem h hj) hch

/-- **C84, bodies.** If one goroutine uses a body and sends it, and either nobody changes it any more (encoding included), or it goes to one session and is not
touched afterwards, then it is not used in a data race. Missing: bodies that encoding changes and that go to several sessions (`C84_refuted`, 5). -/
theorem C84_body_partial {S : System} {b : Nat} (hS : SharedUnchanged S b ∨ HandedOver S b) {τ : History} {σ : State} (h : Happened S τ σ) :
    ¬ Race τ (.body b) := by
  rintro ⟨i, j, g, k, a, x, hij, hi, hj, ha, hx, hch, _, hn⟩
  by_cases hgk : g = k
  · subst hgk; exact hn (.order hij hi hj)
  rcases hS with ⟨g₀, h1, h2, h3, h4⟩ | ⟨g₀, s, h1, h2, h3⟩
  · have hwho : ∀ {g a} {i : Nat}, τ[i]? = some (g, a) → Uses (.body b) a → g ≠ g₀ → ∃ s, g = .sender s := fun hi hu hne =>
      Classical.byContradiction fun he => h1 _ hne (fun s e => he ⟨s, e⟩) _ (acts_mem h hi) hu
    by_cases hg : g = g₀
    · subst hg
      obtain ⟨s, rfl⟩ := hwho hj hx fun e => hgk e.symm
      obtain ⟨p, f, c, hp, hpf, hpj, hc⟩ := sender_use h hj (.inr ⟨b, hx⟩)
      have := hc b hx
      subst this
      have hf : f = g := Decidable.byContradiction fun he => h2 _ he s (acts_mem h hpf)
      subst hf
      rcases hch with hch | hch
      · rcases Nat.lt_trichotomy i p with h5 | h5 | h5
        · exact hn (.trans (.order h5 hi hpf) hpj)
        · subst h5
          rw [hi] at hpf
          cases hpf
          exact ha
        · exact not_after h h3 h5 hpf hi ⟨s, rfl⟩ hch
      · exact h4 s x (acts_mem h hj) hch
    · obtain ⟨s, rfl⟩ := hwho hi ha hg
      rcases hch with hch | hch
      · exact h4 s a (acts_mem h hi) hch
      · by_cases hk : k = g₀
        · subst hk
          obtain ⟨p, f, c, hp, hpf, _, hc⟩ := sender_use h hi (.inr ⟨b, ha⟩)
          have := hc b ha
          subst this
          have hf : f = k := Decidable.byContradiction fun he => h2 _ he s (acts_mem h hpf)
          subst hf
          exact not_after h h3 (Nat.lt_trans hp hij) hpf hj ⟨s, rfl⟩ hch
        · obtain ⟨t, rfl⟩ := hwho hj hx hk
          exact h4 t x (acts_mem h hj) hch
  · have hwho : ∀ {g a} {i : Nat}, τ[i]? = some (g, a) → Uses (.body b) a → g ≠ g₀ → g = .sender s := fun hi hu hne =>
      Decidable.byContradiction fun he => h1 _ hne he _ (acts_mem h hi) hu
    by_cases hg : g = g₀
    · subst hg
      have hk := hwho hj hx fun e => hgk e.symm
      subst hk
      obtain ⟨p, f, c, hp, hpf, hpj, hc⟩ := sender_use h hj (.inr ⟨b, hx⟩)
      have := hc b hx
      subst this
      have hf : f = g := Decidable.byContradiction fun he => h2 _ he (acts_mem h hpf)
      subst hf
      rcases Nat.lt_trichotomy i p with h5 | h5 | h5
      · exact hn (.trans (.order h5 hi hpf) hpj)
      · subst h5
        rw [hi] at hpf
        cases hpf
        exact ha
      · exact not_after h h3 h5 hpf hi rfl ha
    · have hs := hwho hi ha hg
      subst hs
      have hk : k = g₀ := Decidable.byContradiction fun he => hgk (hwho hj hx he).symm
      subst hk
      obtain ⟨p, f, c, hp, hpf, _, hc⟩ := sender_use h hi (.inr ⟨b, ha⟩)
      have := hc b ha
      subst this
      have hf : f = k := Decidable.byContradiction fun he => h2 _ he (acts_mem h hpf)
      subst hf
      exact not_after h h3 (Nat.lt_trans hp hij) hpf hj rfl hx

/-- **C84, a careful program**, which meets the conditions above, has no data races at all. -/
theorem C84_careful_partial {S : System} (hS : Careful S) {τ : History} {σ : State} (h : Happened S τ σ) (c : Cell) : ¬ Race τ c := by
  cases c with
  | running => exact C84_run_stop_partial hS.running h
  | sessions => exact (C84_partial h 0).1
  | queue => exact (C84_partial h 0).2.1
  | seconds => exact (C84_partial h 0).2.2.1
  | next s => exact (C84_partial h s).2.2.2.1
  | iccID s => exact (C84_partial h s).2.2.2.2.1
  | requests s => exact (C84_partial h s).2.2.2.2.2.1
  | received s => exact (C84_partial h s).2.2.2.2.2.2
  | publicKey s => exact C84_key_partial (hS.keys s) h
  | bodyTypes => exact C84_register_partial hS.bodyTypes h
  | extraTypes => exact C84_register_partial hS.extraTypes h
  | body b => exact C84_body_partial (hS.bodies b) h

/-- The hypotheses of the theorems above are met: a handler sets the key, changes a body and sends it, and the send loop uses both. -/
example : ∃ σ, Happened Sample.carefulSystem (Sample.syncHistory Sample.carefulSystem Sample.carefulTurns) σ ∧
    (Sample.syncHistory Sample.carefulSystem Sample.carefulTurns).drop 40 =
      [(.receiver 1, .write (.publicKey 1)), (.receiver 1, .write (.body 7)), (.receiver 1, .atomicRead (.iccID 1)),
        (.receiver 1, .atomicRead (.next 1)), (.receiver 1, .atomicWrite (.next 1)), (.receiver 1, .put 1 7), (.sender 1, .take 1 7),
        (.sender 1, .read (.publicKey 1)), (.sender 1, .read (.publicKey 1)), (.sender 1, .read (.body 7)), (.sender 1, .write (.body 7))] := by
  obtain ⟨σ, h⟩ := Sample.possible_happened (S := Sample.carefulSystem) (turns := Sample.carefulTurns) (by decide +kernel)
  exact ⟨σ, h, by decide +kernel⟩

/-- A broadcast body: two send loops read it while the program looks at it. -/
example : SharedUnchanged Sample.sharingSystem 0 ∧
    Sample.possible Sample.sharingSystem [(.program 0, 7), (.receiver 1, 1), (.receiver 2, 1), (.program 1, 18), (.sender 1, 3), (.sender 2, 3),
      (.program 1, 1)] = true := ⟨Sample.sharingSystem_shared, by decide +kernel⟩

example : Careful Sample.carefulSystem := Sample.carefulSystem_careful

/-- **C84 is refuted**: (1) `Stop` looks at what `Run` stores; (2) the send loop looks at the key that a handler sets; (3) (4) a type is registered
while a message is decoded; (5) two send loops set bits in the body of a broadcast message. -/
theorem C84_refuted : ∃ S : System,
    (∃ τ σ, Happened S τ σ ∧ Race τ .running) ∧ (∃ τ σ, Happened S τ σ ∧ Race τ (.publicKey 1)) ∧
    (∃ τ σ, Happened S τ σ ∧ Race τ .bodyTypes) ∧ (∃ τ σ, Happened S τ σ ∧ Race τ .extraTypes) ∧
    ∃ τ σ, Happened S τ σ ∧ Race τ (.body 0) := by
  open Sample in
  have hrace : ∀ (turns : List (Goroutine × Nat)) (c : Cell) (i j : Nat) (g k : Goroutine) (a b : Act), possible busySystem turns = true → i < j →
      (syncHistory busySystem turns)[i]? = some (g, a) → (syncHistory busySystem turns)[j]? = some (k, b) → Uses c a → Uses c b →
      (Changes c a ∨ Changes c b) → ¬ (Atomically a ∧ Atomically b) → quiet (syncHistory busySystem turns) i = true →
      ∃ τ σ, Happened busySystem τ σ ∧ Race τ c := by
    intro turns c i j g k a b hp hij hi hj ha hb hch hna hq
    obtain ⟨σ, hσ⟩ := possible_happened hp
    exact ⟨_, σ, hσ, i, j, g, k, a, b, hij, hi, hj, ha, hb, hch, hna, quiet_last hq j⟩
  open Sample in
  exact ⟨busySystem,
    hrace runningRace _ 3 17 (.program 0) (.program 1) (.write .running) (.read .running) (by decide +kernel) (by decide) (by decide +kernel)
      (by decide +kernel) rfl rfl (.inl rfl) (fun h => h.1) (by decide +kernel),
    hrace keyRace _ 49 50 (.sender 1) (.receiver 1) (.read (.publicKey 1)) (.write (.publicKey 1)) (by decide +kernel) (by decide)
      (by decide +kernel) (by decide +kernel) rfl rfl (.inr rfl) (fun h => h.1) (by decide +kernel),
    hrace bodyTypesRace _ 32 33 (.receiver 1) (.program 1) (.read .bodyTypes) (.write .bodyTypes) (by decide +kernel) (by decide)
      (by decide +kernel) (by decide +kernel) rfl rfl (.inr rfl) (fun h => h.1) (by decide +kernel),
    hrace extraTypesRace _ 34 35 (.receiver 1) (.program 1) (.read .extraTypes) (.write .extraTypes) (by decide +kernel) (by decide)
      (by decide +kernel) (by decide +kernel) rfl rfl (.inr rfl) (fun h => h.1) (by decide +kernel),
    hrace bodyRace _ 24 27 (.sender 1) (.sender 2) (.write (.body 0)) (.read (.body 0)) (by decide +kernel) (by decide)
      (by decide +kernel) (by decide +kernel) rfl rfl (.inl rfl) (fun h => h.1) (by decide +kernel)⟩

/-! ## Deadlocks -/

/-- **C85, application code.** When a handler, a callback or the close handler is called, the calling goroutine holds no lock of the library; and a
goroutine never waits for a lock, a message or another goroutine while it holds one. -/
theorem C85_no_lock_held {S : System} {τ : History} {σ : State} (h : Happened S τ σ) {g : Goroutine} {a : Act} {rest : List Act}
    (ht : σ.todo g = a :: rest)
    (ha : a = .enter ∨ (∃ m, a = .lock m) ∨ (∃ s b, a = .take s b) ∨ ∃ k, a = .join k) (m : Mutex) : σ.holder m ≠ some g := by
  intro hm
  obtain ⟨l, l', h1, _, h3⟩ := lockStep_next h ht
  rw [(h3 m).mp hm] at h1
  rcases ha with rfl | ⟨n, rfl⟩ | ⟨s, b, rfl⟩ | ⟨k, rfl⟩ <;> simp [lockStep] at h1

/-- **C85, locks.** A goroutine that holds a lock can make its next step at any time, and alone, without the others, comes to release the lock. -/
theorem C85_released {S : System} {τ : History} {σ : State} (h : Happened S τ σ) {g : Goroutine} {m : Mutex} (hm : σ.holder m = some g) :
    (σ.step g).isSome = true ∧ ∃ n τ' σ', σ.run (List.replicate n g) = some (τ', σ') ∧ σ'.holder m = none := by
  obtain ⟨a, rest, hst, ht, hr, _⟩ := holder_goes h hm
  obtain ⟨n, τ', σ', h1, h2, _⟩ := release h hm
  exact ⟨by rw [step_of hst ht hr]; rfl, n, τ', σ', h1, h2⟩

/-- **C85, what holds if no close handler calls `Stop`.** In whatever state the goroutines are, each of them can come to the end of everything it has
to do, except the send loops, which can wait for the next message. -/
theorem C85_partial {S : System} (hS : CloseWithoutStop S) {τ : History} {σ : State} (h : Happened S τ σ) {g : Goroutine}
    (hst : σ.started g = true) (hg : ∀ s, g ≠ .sender s) :
    ∃ order τ' σ', σ.run order = some (τ', σ') ∧ σ'.todo g = [] := by
  refine finish hg ?_ h hst
  intro k τ σ hk hσ hks
  obtain ⟨p, q, hpq⟩ := List.append_of_mem hk
  obtain ⟨_, _, s, _, he⟩ := joinOK_acts S g p _ q hpq ⟨k, rfl⟩
  cases he
  refine finish (by intros; simp) ?_ hσ hks
  intro f _ _ hf
  exact absurd ⟨f, rfl⟩ (noJoin_closer (hS s) _ hf)

/-- **C85, send loops** wait for nothing but the next message. -/
theorem C85_sender {S : System} {τ : History} {σ : State} (h : Happened S τ σ) {s : Nat} (hw : Stuck σ (.sender s)) :
    ∃ b rest, σ.todo (.sender s) = .take s b :: rest ∧ (σ.channel s).head? ≠ some b := by
  obtain ⟨hst, hne, hstep⟩ := hw
  cases ht : σ.todo (.sender s) with
  | nil => exact absurd ht hne
  | cons a rest =>
    have hm : a ∈ S.acts (.sender s) := by rw [← done_todo h, ht]; simp
    have hr : σ.ready a = false := by
      cases hr : σ.ready a with
      | false => rfl
      | true => rw [step_of hst ht hr] at hstep; cases hstep
    rcases sender_acts S s a hm with ⟨b, rfl⟩ | rfl | ⟨b, rfl | rfl⟩ | rfl
    · simp only [State.ready, beq_eq_false_iff_ne] at hr
      exact ⟨b, rest, rfl, hr⟩
    all_goals cases hr

/-- **C85, deadlocks.** If nobody can make a step any more, then all have come to their end, except send loops that wait for a message. -/
theorem C85_no_deadlock_partial {S : System} (hS : CloseWithoutStop S) {τ : History} {σ : State} (h : Happened S τ σ)
    (hn : ∀ g, σ.step g = none) {g : Goroutine} (hst : σ.started g = true) (hg : ∀ s, g ≠ .sender s) : σ.todo g = [] := by
  obtain ⟨order, τ', σ', h1, h2⟩ := C85_partial hS h hst hg
  cases order with
  | nil => cases h1; exact h2
  | cons k order => simp only [State.run, hn k] at h1; cases h1

/-- **C85, in the long run.** If the scheduler and the locks are fair, every goroutine that was started really does come to the end of everything it
has to do, in whatever order the goroutines make their steps. -/
theorem C85_fair_partial {S : System} (hS : CloseWithoutStop S) (c : Course S) (hf : c.Fair) {g : Goroutine} {t : Nat}
    (hst : (c.state t).started g = true) (hg : ∀ s, g ≠ .sender s) : ∃ u, t ≤ u ∧ (c.state u).todo g = [] := by
  refine course_finish hf hg ?_ hst
  intro k t hk hks
  obtain ⟨p, q, hpq⟩ := List.append_of_mem hk
  obtain ⟨_, _, s, _, he⟩ := joinOK_acts S g p _ q hpq ⟨k, rfl⟩
  cases he
  refine course_finish hf (by intros; simp) ?_ hks
  intro f _ hf
  exact absurd ⟨f, rfl⟩ (noJoin_closer (hS s) _ hf)

/-- **C85, locks in the long run.** No lock of the library is held for ever; this needs no condition on the program. -/
theorem C85_fair_locks {S : System} (c : Course S) (hf : c.Fair) (m : Mutex) (t : Nat) : ∃ u, t ≤ u ∧ (c.state u).holder m = none :=
  course_released hf m t

/-- **C85 is refuted**: a close handler that calls `Stop` waits for its own end, whatever the others do. -/
theorem C85_refuted : ∃ S τ σ g, Happened S τ σ ∧ σ.started g = true ∧ (∀ s, g ≠ .sender s) ∧
    ∀ order τ' σ', σ.run order = some (τ', σ') → σ'.todo g ≠ [] := by
  have hp : Sample.possible Sample.stoppingSystem Sample.stoppingTurns = true := by decide +kernel
  have ht : ((Sample.stoppingSystem.init.run (Sample.stoppingTurns.flatMap fun (g, n) => List.replicate n g)).map fun p =>
      (p.2.todo (.closer 1), p.2.started (.closer 1))) = some ([.join (.closer 1), .write .running], true) := by decide +kernel
  unfold Sample.possible at hp
  cases hr : Sample.stoppingSystem.init.run (Sample.stoppingTurns.flatMap fun (g, n) => List.replicate n g) with
  | none => rw [hr] at hp; cases hp
  | some p =>
    obtain ⟨τ, σ⟩ := p
    rw [hr] at ht
    simp only [Option.map_some, Option.some.injEq, Prod.mk.injEq] at ht
    refine ⟨_, τ, σ, .closer 1, ⟨_, hr⟩, ht.2, by intros; simp, fun order τ' σ' h => ?_⟩
    rw [waits_for_itself ht.1 h]
    simp

/-- The hypotheses are met: with `Stop` called by `main` while the close handler of session 1 is about to look up a session. -/
example : CloseWithoutStop Sample.carefulSystem ∧
    ∃ σ, Happened Sample.carefulSystem (Sample.syncHistory Sample.carefulSystem Sample.carefulStop) σ ∧
      σ.todo (.program 0) = [.join (.closer 1), .write .running] ∧ σ.started (.program 0) = true ∧ σ.holder .server = some (.closer 1) ∧
      Stuck σ (.sender 1) := by
  refine ⟨?_, ?_⟩
  · intro s found cs h r o
    simp only [Sample.carefulSystem, Option.some.injEq, Prod.mk.injEq] at h
    rw [← h.2]
    simp
  · have ht : ((Sample.carefulSystem.init.run (Sample.carefulStop.flatMap fun (g, n) => List.replicate n g)).map fun p =>
        (p.2.todo (.program 0), p.2.started (.program 0), p.2.holder .server, p.2.started (.sender 1), p.2.todo (.sender 1) != [],
          (p.2.step (.sender 1)).isNone)) =
        some ([.join (.closer 1), .write .running], true, some (.closer 1), true, true, true) := by decide +kernel
    cases hr : Sample.carefulSystem.init.run (Sample.carefulStop.flatMap fun (g, n) => List.replicate n g) with
    | none => rw [hr] at ht; cases ht
    | some p =>
      obtain ⟨τ, σ⟩ := p
      rw [hr] at ht
      simp only [Option.map_some, Option.some.injEq, Prod.mk.injEq, bne_iff_ne, Option.isNone_iff_eq_none] at ht
      refine ⟨σ, ⟨_, by unfold Sample.syncHistory; rw [hr]; rfl⟩, ht.1, ht.2.1, ht.2.2.1, ht.2.2.2.1, ht.2.2.2.2.1, ht.2.2.2.2.2⟩

/-- There are fair runs: the whole life of the careful server, with a handled message, `Stop` and the close handler. At first nobody but `main` runs;
at the end everyone has come to the end. -/
example : ∃ c : Course Sample.carefulSystem, c.Fair ∧ (c.state 0).started (.receiver 1) = false ∧ (c.state 10).started (.receiver 1) = true ∧
    (c.state 10).todo (.receiver 1) ≠ [] ∧ (c.state 11).holder .timer = some .ticker ∧ ∀ g, (c.state 80).step g = none := by
  have ht : ((Sample.carefulSystem.init.run (Sample.carefulLife.flatMap fun (g, n) => List.replicate n g)).map fun p =>
      (p.1.filterMap (fun (_, a) => match a with | .start g => some g | _ => none)).all (fun g => p.2.todo g == []) && p.2.todo (.program 0) == []) =
      some true := by decide +kernel
  have hl : (Sample.carefulLife.flatMap fun (g, n) => List.replicate n g).length = 80 := by decide +kernel
  have h10 : ((Sample.carefulSystem.init.run ((Sample.carefulLife.flatMap fun (g, n) => List.replicate n g).take 10)).map fun p =>
      (p.2.started (.receiver 1), p.2.todo (.receiver 1) != [])) = some (true, true) := by decide +kernel
  have h11 : ((Sample.carefulSystem.init.run ((Sample.carefulLife.flatMap fun (g, n) => List.replicate n g).take 11)).map fun p =>
      p.2.holder .timer) = some (some .ticker) := by decide +kernel
  cases hr : Sample.carefulSystem.init.run (Sample.carefulLife.flatMap fun (g, n) => List.replicate n g) with
  | none => rw [hr] at ht; cases ht
  | some p =>
    obtain ⟨τ, σ⟩ := p
    rw [hr] at ht
    simp only [Option.map_some, Option.some.injEq, Bool.and_eq_true, List.all_eq_true, beq_iff_eq] at ht
    have hend : ∀ g, σ.step g = none := by
      intro g
      cases hs : σ.started g with
      | false => simp [State.step, hs]
      | true =>
        have h0 : σ.todo g = [] := by
          rcases started_why ⟨_, hr⟩ g hs with rfl | ⟨k, hk⟩
          · exact ht.2
          · exact ht.1 g (List.mem_filterMap.mpr ⟨_, hk, rfl⟩)
        simp [State.step, hs, h0]
    obtain ⟨c, hf, hc, hat⟩ := course_of_run hr hend
    rw [hl] at hc
    refine ⟨c, hf, by rw [c.first]; rfl, ?_, ?_, ?_, by rw [hc]; exact hend⟩
    all_goals rw [hat]
    · cases h : Sample.carefulSystem.init.run ((Sample.carefulLife.flatMap fun (g, n) => List.replicate n g).take 10) with
      | none => rw [h] at h10; cases h10
      | some q => rw [h] at h10; simp at h10; simpa using h10.1
    · cases h : Sample.carefulSystem.init.run ((Sample.carefulLife.flatMap fun (g, n) => List.replicate n g).take 10) with
      | none => rw [h] at h10; cases h10
      | some q => rw [h] at h10; simp at h10; simpa using h10.2
    · cases h : Sample.carefulSystem.init.run ((Sample.carefulLife.flatMap fun (g, n) => List.replicate n g).take 11) with
      | none => rw [h] at h11; cases h11
      | some q => rw [h] at h11; simpa using h11

end Verif
