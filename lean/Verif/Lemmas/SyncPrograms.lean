import Verif.Lemmas.SyncRace
/-! Lemmas for data races and deadlocks: what is in the program of every goroutine, and in which order. -/

namespace Verif.Sync
open Spec

/-- Not something that only the loops of a session do. -/
def plain : Act → Bool
  | .take _ _ => false
  | .read (.received _) | .write (.received _) | .atomicRead (.received _) | .atomicWrite (.received _) => false
  | _ => true

theorem all_append {P : Act → Prop} {xs ys : List Act} (hx : ∀ a ∈ xs, P a) (hy : ∀ a ∈ ys, P a) : ∀ a ∈ xs ++ ys, P a := by
  intro a ha
  rcases List.mem_append.mp ha with h | h
  · exact hx a h
  · exact hy a h

theorem all_flatMap {α : Type} {P : Act → Prop} {f : α → List Act} {xs : List α} (h : ∀ x ∈ xs, ∀ a ∈ f x, P a) : ∀ a ∈ xs.flatMap f, P a := by
  intro a ha
  obtain ⟨x, hx, hax⟩ := List.mem_flatMap.mp ha
  exact h x hx a hax

theorem all_replicate {P : Act → Prop} {xs : List Act} (h : ∀ a ∈ xs, P a) (n : Nat) : ∀ a ∈ (List.replicate n xs).flatten, P a := by
  intro a ha
  obtain ⟨l, hl, hal⟩ := List.mem_flatten.mp ha
  rw [(List.mem_replicate.mp hl).2] at hal
  exact h a hal

theorem all_ite {P : Act → Prop} {c : Prop} [Decidable c] {xs ys : List Act} (hx : ∀ a ∈ xs, P a) (hy : ∀ a ∈ ys, P a) :
    ∀ a ∈ (if c then xs else ys), P a := by
  split <;> assumption

/-- The lists whose actions are all plain. -/
abbrev Plain (l : List Act) : Prop := ∀ a ∈ l, plain a = true

theorem plain_timerRemove (b : Bool) : Plain (timerRemove b) := by cases b <;> simp [Plain, timerRemove, plain]
theorem plain_timerUpdate (b : Bool) : Plain (timerUpdate b) := by cases b <;> simp [Plain, timerUpdate, timerRemove, plain]
theorem plain_getSession : Plain getSession := by simp [Plain, getSession, plain]

theorem plain_send (s n b : Nat) (e : SendEnd) : Plain (send s n b e) := by
  unfold send
  refine all_append (all_append (by simp [plain]) (all_replicate (by simp [plain]) _)) ?_
  cases e <;> simp [plain]

theorem plain_takeRequest (s : Nat) (b : Bool) : Plain (takeRequest s b) := by cases b <;> simp [Plain, takeRequest, plain]

theorem plain_encode (b : Nat) (e : Encoding) : Plain (encode b e) := by cases e <;> simp [Plain, encode, plain]

theorem plain_decode (t : Option Nat) : Plain (decode t) := by
  cases t with
  | none => simp [Plain, decode]
  | some n =>
    refine all_append (by simp [plain]) fun a ha => ?_
    rw [(List.mem_replicate.mp ha).2]
    rfl

theorem plain_call (c : Call) : Plain c.acts := by
  cases c with
  | run a l acc =>
    refine all_append (by simp [plain]) (all_ite (all_append (by simp [plain]) ?_) (by simp))
    intro a ha
    obtain ⟨s, _, rfl⟩ := List.mem_map.mp ha
    rfl
  | stop r o =>
    refine all_append (by simp [plain]) (all_ite (all_append (all_append (all_append (by simp [plain]) ?_) ?_) (by simp [plain])) (by simp))
    all_goals
      intro a ha
      obtain ⟨s, _, rfl⟩ := List.mem_map.mp ha
      rfl
  | broadcast b f => exact all_append (by simp [plain]) (all_flatMap fun x _ => plain_send _ _ _ _)
  | send s n b e => exact plain_send _ _ _ _
  | request s n b e cb => exact all_append (plain_send _ _ _ _) (all_ite (by simp [addRequest, plain]) (by simp))
  | timerUpdate b => exact plain_timerUpdate b
  | timerRemove b => exact plain_timerRemove b
  | setExpiration b => cases b <;> simp [Plain, Call.acts, setExpiration, plain]
  | encode b e => exact plain_encode b e
  | decode t => exact plain_decode t
  | getSession => exact plain_getSession
  | _ => simp [Plain, Call.acts, plain]

theorem plain_calls (cs : List Call) : Plain (calls cs) := all_flatMap fun c _ => plain_call c

theorem plain_tick (t : Tick) : Plain t.acts := by
  unfold Tick.acts
  refine all_append (all_append (all_append (by simp [plain]) (all_flatMap fun x _ => by simp [plain])) (by simp [plain])) ?_
  exact all_flatMap fun x _ => all_append plain_getSession (all_ite (by simp [plain]) (by simp))

theorem plain_delivery (s : Nat) (d : Delivery) : Plain (d.acts s) := by
  unfold Delivery.acts
  refine all_append (all_append (all_ite (by simp [plain]) (by simp)) ?_) ?_
  · split
    · simp
    · exact plain_takeRequest _ _
    · exact all_append (all_append (plain_takeRequest _ _) (by simp [plain])) (plain_calls _)
  · split
    · simp
    · exact all_append (all_append (plain_timerUpdate _) (by simp [plain])) (plain_calls _)

theorem plain_turn (s : Nat) (t : Turn) : Plain (t.acts s) := by
  cases t with
  | unsupported n b e => exact plain_send _ _ _ _
  | delivered d => exact plain_delivery s d
  | part n b e d =>
    refine all_append (plain_send _ _ _ _) ?_
    cases d with
    | none => simp
    | some d => exact plain_delivery s d

theorem plain_closer (S : System) (s : Nat) : Plain (S.acts (.closer s)) := by
  show Plain (match S.closing s with | none => [] | some (found, handler) => handleClose found handler)
  split
  · simp [Plain]
  · next found handler _ =>
    refine all_append (all_append (by simp [plain]) (plain_timerRemove _)) ?_
    cases handler with
    | none => simp
    | some cs => exact all_append (by simp [plain]) (plain_calls cs)

/-- What the receive loop does is plain or uses its own buffer. -/
theorem receiver_acts (S : System) (s : Nat) : ∀ a ∈ S.acts (.receiver s), plain a = true ∨ Uses (.received s) a := by
  have hp : ∀ {l : List Act}, Plain l → ∀ a ∈ l, plain a = true ∨ Uses (.received s) a := fun h a ha => .inl (h a ha)
  have hx : ∀ x : Receiving, ∀ a ∈ x.acts s, plain a = true ∨ Uses (.received s) a := by
    intro x
    refine all_append (all_append (all_replicate ?_ _) (hp (plain_decode _))) ?_ <;> simp [Uses]
  refine all_append (all_append (all_append (all_append ?_ (hp (plain_timerUpdate _))) (all_flatMap fun x _ => ?_)) (hx _)) ?_
  · simp [plain]
  · exact all_append (hx _) (hp (plain_turn s _))
  · simp [plain]

/-- What the send loop does. -/
theorem sender_acts (S : System) (s : Nat) : ∀ a ∈ S.acts (.sender s),
    (∃ b, a = .take s b) ∨ a = .read (.publicKey s) ∨ (∃ b, a = .read (.body b) ∨ a = .write (.body b)) ∨ a = .start (.closer s) := by
  refine all_append (all_flatMap fun x _ => all_append (all_append ?_ (all_ite ?_ ?_)) ?_) ?_
  · simp
  · simp
  · simp
  · cases x.encoding <;> simp [encode]
  · simp

theorem take_sender {S : System} {g : Goroutine} {s b : Nat} (h : Act.take s b ∈ S.acts g) : g = .sender s := by
  cases g with
  | program n => exact absurd (plain_calls _ _ h) (by simp [plain])
  | ticker => exact absurd (all_flatMap (fun t _ => plain_tick t) _ h) (by simp [plain])
  | receiver t => rcases receiver_acts S t _ h with h | h <;> simp [plain, Uses] at h
  | sender t =>
    rcases sender_acts S t _ h with ⟨c, h⟩ | h | ⟨c, h⟩ | h <;> simp at h
    rw [h.1]
  | closer t => exact absurd (plain_closer S t _ h) (by simp [plain])

theorem received_receiver {S : System} {g : Goroutine} {a : Act} (h : a ∈ S.acts g) {s : Nat} (hu : Uses (.received s) a) : g = .receiver s := by
  have hp : plain a = false := by
    cases a <;> simp only [Uses] at hu <;> subst hu <;> rfl
  cases g with
  | program n => rw [plain_calls _ _ h] at hp; cases hp
  | ticker => rw [all_flatMap (fun t _ => plain_tick t) _ h] at hp; cases hp
  | receiver t =>
    rcases receiver_acts S t _ h with h | h
    · rw [h] at hp; cases hp
    · have : t = s := by
        cases a <;> simp only [Uses] at hu h <;> subst hu <;> cases h <;> rfl
      rw [this]
  | sender t =>
    rcases sender_acts S t _ h with ⟨c, rfl⟩ | rfl | ⟨c, rfl | rfl⟩ | rfl <;> simp [Uses] at hu
  | closer t => rw [plain_closer S t _ h] at hp; cases hp

/-! ## What comes before -/

/-- Before everything that is of kind `N` comes something that fits. -/
def Preceded (N : Act → Prop) (R : Act → Act → Prop) (l : List Act) : Prop :=
  ∀ p a q, l = p ++ a :: q → N a → ∃ t ∈ p, R t a

theorem Preceded.append {N : Act → Prop} {R : Act → Act → Prop} {xs ys : List Act} (hx : Preceded N R xs) (hy : Preceded N R ys) :
    Preceded N R (xs ++ ys) := by
  intro p a q h ha
  rcases List.append_eq_append_iff.mp h with ⟨z, h1, h2⟩ | ⟨z, h1, h2⟩
  · obtain ⟨t, ht, hr⟩ := hy z a q h2 ha
    exact ⟨t, by rw [h1]; exact List.mem_append_right _ ht, hr⟩
  · cases z with
    | nil =>
      simp only [List.append_nil] at h1
      obtain ⟨t, ht, _⟩ := hy [] a q h2.symm ha
      cases ht
    | cons c z =>
      simp only [List.cons_append, List.cons.injEq] at h2
      obtain ⟨rfl, rfl⟩ := h2
      exact hx p a z h1 ha

theorem Preceded.flatMap {α : Type} {N : Act → Prop} {R : Act → Act → Prop} {f : α → List Act} {xs : List α}
    (h : ∀ x ∈ xs, Preceded N R (f x)) : Preceded N R (xs.flatMap f) := by
  induction xs with
  | nil => intro p a q h0; simp at h0
  | cons x xs ih =>
    rw [List.flatMap_cons]
    exact (h x (by simp)).append (ih fun y hy => h y (by simp [hy]))

theorem Preceded.none {N : Act → Prop} {R : Act → Act → Prop} {l : List Act} (h : ∀ a ∈ l, ¬ N a) : Preceded N R l := by
  intro p a q h1 ha
  exact absurd ha (h a (by rw [h1]; simp))

theorem Preceded.after {N : Act → Prop} {R : Act → Act → Prop} {xs ys : List Act} (hx : ∀ a ∈ xs, ¬ N a)
    (hy : ∀ a ∈ ys, N a → ∃ t ∈ xs, R t a) : Preceded N R (xs ++ ys) := by
  intro p a q h ha
  rcases List.append_eq_append_iff.mp h with ⟨z, h1, h2⟩ | ⟨z, h1, h2⟩
  · obtain ⟨t, ht, hr⟩ := hy a (by rw [h2]; simp) ha
    exact ⟨t, by rw [h1]; exact List.mem_append_left _ ht, hr⟩
  · cases z with
    | nil =>
      simp only [List.append_nil] at h1
      obtain ⟨t, ht, hr⟩ := hy a (by simp only [List.nil_append] at h2; rw [← h2]; simp) ha
      exact ⟨t, by rw [← h1]; exact ht, hr⟩
    | cons c z =>
      simp only [List.cons_append, List.cons.injEq] at h2
      obtain ⟨rfl, rfl⟩ := h2
      exact absurd ha (hx a (by rw [h1]; simp))

/-- Before something that needs it a goroutine has done what it needs. -/
theorem preceded_at {S : System} {τ : History} {σ : State} (h : Happened S τ σ) {N : Act → Prop} {R : Act → Act → Prop} {g : Goroutine}
    (hp : Preceded N R (S.acts g)) {j : Nat} {a : Act} (hj : τ[j]? = some (g, a)) (ha : N a) :
    ∃ i t, i < j ∧ τ[i]? = some (g, t) ∧ R t a := by
  obtain ⟨rest, hr⟩ := acts_split h hj
  obtain ⟨t, ht, hta⟩ := hp _ _ _ hr ha
  obtain ⟨i, hi, hi2⟩ := mem_doneBy ht
  exact ⟨i, t, hi, hi2, hta⟩

/-- The send loop uses the key and bodies only for a message that it has taken. -/
theorem sender_preceded (S : System) (s : Nat) :
    Preceded (fun a => Uses (.publicKey s) a ∨ ∃ b, Uses (.body b) a)
      (fun t a => ∃ b, t = .take s b ∧ ∀ c, Uses (.body c) a → c = b) (S.acts (.sender s)) := by
  refine .append (.flatMap fun x _ => ?_) (.none ?_)
  · unfold Sending.acts
    have : [Act.take s x.b, .read (.publicKey s)] ++ (if x.keyed then [.read (.publicKey s)] else []) ++ encode x.b x.encoding =
        [.take s x.b] ++ ([.read (.publicKey s)] ++ (if x.keyed then [.read (.publicKey s)] else []) ++ encode x.b x.encoding) := by simp
    rw [this]
    refine .after (by simp [Uses]) fun a ha _ => ⟨_, List.mem_singleton.mpr rfl, x.b, rfl, ?_⟩
    revert a
    refine all_append (all_append ?_ (all_ite ?_ ?_)) ?_
    · simp [Uses]
    · simp [Uses]
    · simp
    · cases x.encoding <;> simp [encode, Uses]
  · simp [Uses]

/-! ## Waiting for a goroutine -/

/-- It waits for a goroutine. -/
def IsJoin (a : Act) : Prop := ∃ k, a = .join k

/-- It has started the goroutine for which it waits, and that runs a close callback. -/
def JoinOK : List Act → Prop := Preceded IsJoin fun t a => ∃ s, t = .start (.closer s) ∧ a = .join (.closer s)

theorem noJoin_send (s n b : Nat) (e : SendEnd) : ∀ a ∈ send s n b e, ¬ IsJoin a := by
  unfold send
  refine all_append (all_append (by simp [IsJoin]) (all_replicate (by simp [IsJoin]) _)) ?_
  cases e <;> simp [IsJoin]

theorem noJoin_timerUpdate (b : Bool) : ∀ a ∈ timerUpdate b, ¬ IsJoin a := by cases b <;> simp [timerUpdate, timerRemove, IsJoin]
theorem noJoin_timerRemove (b : Bool) : ∀ a ∈ timerRemove b, ¬ IsJoin a := by cases b <;> simp [timerRemove, IsJoin]
theorem noJoin_takeRequest (s : Nat) (b : Bool) : ∀ a ∈ takeRequest s b, ¬ IsJoin a := by cases b <;> simp [takeRequest, IsJoin]

theorem noJoin_decode (t : Option Nat) : ∀ a ∈ decode t, ¬ IsJoin a := by
  cases t with
  | none => simp [decode]
  | some n =>
    refine all_append (by simp [IsJoin]) fun a ha => ?_
    rw [(List.mem_replicate.mp ha).2]
    simp [IsJoin]

theorem noJoin_call (c : Call) (hc : ∀ r o, c ≠ .stop r o) : ∀ a ∈ c.acts, ¬ IsJoin a := by
  cases c with
  | run a l acc =>
    refine all_append (by simp [IsJoin]) (all_ite (all_append (by simp [IsJoin]) ?_) (by simp))
    intro a ha
    obtain ⟨s, _, rfl⟩ := List.mem_map.mp ha
    simp [IsJoin]
  | stop r o => exact absurd rfl (hc r o)
  | broadcast b f => exact all_append (by simp [IsJoin]) (all_flatMap fun x _ => noJoin_send _ _ _ _)
  | send s n b e => exact noJoin_send _ _ _ _
  | request s n b e cb => exact all_append (noJoin_send _ _ _ _) (all_ite (by simp [addRequest, IsJoin]) (by simp))
  | timerUpdate b => exact noJoin_timerUpdate b
  | timerRemove b => exact noJoin_timerRemove b
  | setExpiration b => cases b <;> simp [Call.acts, setExpiration, IsJoin]
  | encode b e => cases e <;> simp [Call.acts, encode, IsJoin]
  | decode t => exact noJoin_decode t
  | _ => simp [Call.acts, getSession, IsJoin]

theorem joinOK_call (c : Call) : JoinOK c.acts := by
  by_cases hc : ∃ r o, c = .stop r o
  · obtain ⟨r, o, rfl⟩ := hc
    cases r with
    | false => exact .none (by simp [Call.acts, stopServer, IsJoin])
    | true =>
      have h : (Call.stop true o).acts = ([Act.read .running, .read .running] ++ o.map fun s => .start (.closer s)) ++
          ((o.map fun s => .join (.closer s)) ++ [.write .running]) := by simp [Call.acts, stopServer]
      rw [h]
      refine .after (all_append (by simp [IsJoin]) ?_) (all_append ?_ (by simp [IsJoin]))
      · intro a ha
        obtain ⟨s, _, rfl⟩ := List.mem_map.mp ha
        simp [IsJoin]
      · intro a ha _
        obtain ⟨s, hs, rfl⟩ := List.mem_map.mp ha
        exact ⟨_, List.mem_append_right _ (List.mem_map.mpr ⟨s, hs, rfl⟩), s, rfl, rfl⟩
  · exact .none (noJoin_call c fun r o h => hc ⟨r, o, h⟩)

theorem joinOK_calls (cs : List Call) : JoinOK (calls cs) := .flatMap fun c _ => joinOK_call c

theorem joinOK_delivery (s : Nat) (d : Delivery) : JoinOK (d.acts s) := by
  unfold Delivery.acts
  refine .append (.append (.none (all_ite (by simp [IsJoin]) (by simp))) ?_) ?_
  · split
    · exact .none (by simp)
    · exact .none (noJoin_takeRequest _ _)
    · exact .append (.none (all_append (noJoin_takeRequest _ _) (by simp [IsJoin]))) (joinOK_calls _)
  · split
    · exact .none (by simp)
    · exact .append (.none (all_append (noJoin_timerUpdate _) (by simp [IsJoin]))) (joinOK_calls _)

theorem joinOK_turn (s : Nat) (t : Turn) : JoinOK (t.acts s) := by
  cases t with
  | unsupported n b e => exact .none (noJoin_send _ _ _ _)
  | delivered d => exact joinOK_delivery s d
  | part n b e d =>
    refine .append (.none (noJoin_send _ _ _ _)) ?_
    cases d with
    | none => exact .none (by simp)
    | some d => exact joinOK_delivery s d

/-- A goroutine waits only for goroutines that run a close callback and that it has started. -/
theorem joinOK_acts (S : System) (g : Goroutine) : JoinOK (S.acts g) := by
  have hx : ∀ s, ∀ x : Receiving, ∀ a ∈ x.acts s, ¬ IsJoin a := by
    intro s x
    refine all_append (all_append (all_replicate ?_ _) (noJoin_decode _)) ?_ <;> simp [IsJoin]
  cases g with
  | program n => exact joinOK_calls _
  | ticker =>
    refine .flatMap fun t _ => .none ?_
    refine all_append (all_append (all_append (by simp [IsJoin]) (all_flatMap fun x _ => by simp [IsJoin])) (by simp [IsJoin])) ?_
    exact all_flatMap fun x _ => all_append (by simp [getSession, IsJoin]) (all_ite (by simp [IsJoin]) (by simp))
  | receiver s =>
    refine .append (.append (.append (.none (all_append (by simp [IsJoin]) (noJoin_timerUpdate _))) (.flatMap fun x _ => ?_)) (.none (hx s _)))
      (.none (by simp [IsJoin]))
    exact .append (.none (hx s _)) (joinOK_turn s _)
  | sender s =>
    refine .none fun a ha => ?_
    rcases sender_acts S s a ha with ⟨c, rfl⟩ | rfl | ⟨c, rfl | rfl⟩ | rfl <;> simp [IsJoin]
  | closer s =>
    show JoinOK (match S.closing s with | none => [] | some (found, handler) => handleClose found handler)
    split
    · exact .none (by simp)
    · next found handler _ =>
      refine .append (.none (all_append (by simp [IsJoin]) (noJoin_timerRemove _))) ?_
      cases handler with
      | none => exact .none (by simp)
      | some cs => exact .append (.none (by simp [IsJoin])) (joinOK_calls cs)

/-- A close handler that does not call `Stop` waits for no goroutine. -/
theorem noJoin_closer {S : System} {s : Nat} (h : ∀ found cs, S.closing s = some (found, some cs) → ∀ r o, Call.stop r o ∉ cs) :
    ∀ a ∈ S.acts (.closer s), ¬ IsJoin a := by
  show ∀ a ∈ (match S.closing s with | none => [] | some (found, handler) => handleClose found handler), ¬ IsJoin a
  split
  · simp
  · next found handler hc =>
    refine all_append (all_append (by simp [IsJoin]) (noJoin_timerRemove _)) ?_
    cases handler with
    | none => simp
    | some cs =>
      refine all_append (by simp [IsJoin]) (all_flatMap fun c hm => noJoin_call c fun r o he => ?_)
      subst he
      exact h found cs hc r o hm

end Verif.Sync
