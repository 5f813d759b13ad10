import Verif.Lemmas.CrowdEnds
import Verif.Lemmas.Endless
import Verif.Spec.CrowdFair
/-! # Lemmas: a loop that is given turns again and again gets done with what has arrived -/

namespace Verif.Crowd
open Converse Session Handler Spec

variable {σ : Type} {env : Env} {key : Option DecKey} {endErr : Err} {auto : Bool} {P : Program σ}

/-- The steps of the loop in the middle of a message. -/
inductive Next : Place σ → Place σ → Prop where
  | passed (m : Message Entity) : Next (.received m) (.passing m)
  | refused (m : Message Entity) : Next (.received m) .waiting
  | wrote (m : Message Entity) (b : T0801) (p : Packet) (done : Bool) : Next (.received m) (.written m b p done)
  | answered (m : Message Entity) (b : T0801) (p : Packet) (done : Bool) : Next (.written m b p done) (.stored m b p)
  | failed (m : Message Entity) (b : T0801) (p : Packet) (done : Bool) : Next (.written m b p done) .waiting
  | checked (m : Message Entity) (b : T0801) (p : Packet) : Next (.stored m b p) (.full m b p)
  | missing (m : Message Entity) (b : T0801) (p : Packet) : Next (.stored m b p) .waiting
  | merged (m m' : Message Entity) (b : T0801) (p : Packet) : Next (.full m b p) (.passing m')
  | torn (m : Message Entity) (b : T0801) (p : Packet) : Next (.full m b p) .waiting
  | quiet (m : Message Entity) : Next (.passing m) (.noted m)
  | called (m : Message Entity) (code : Code σ) : Next (.passing m) (.running code (some m))
  | sent (e : Entity) (next : Option UInt16 → Code σ) (b : Option UInt16) (after : Option (Message Entity)) : Next (.running (.send e next) after) (.running (next b) after)
  | asked (e : Entity) (cb : Nat) (next : Option UInt16 → Code σ) (b : Option UInt16) (after : Option (Message Entity)) :
      Next (.running (.request e cb next) after) (.running (next b) after)
  | back (code : Code σ) (m : Message Entity) : Next (.running code (some m)) (.noted m)
  | over (code : Code σ) : Next (.running code none) .waiting
  | unhandled (m : Message Entity) : Next (.noted m) .waiting
  | handled (m : Message Entity) (code : Code σ) : Next (.noted m) (.running code none)

theorem next_acc (p : Place σ) : Acc (fun a b : Place σ => Next b a) p := by
  have waiting : Acc (fun a b : Place σ => Next b a) .waiting := ⟨_, fun q h => nomatch h⟩
  have ended : Acc (fun a b : Place σ => Next b a) .ended := ⟨_, fun q h => nomatch h⟩
  have handler : ∀ code, Acc (fun a b : Place σ => Next b a) (.running code none) := by
    intro code
    induction code with
    | returns u => exact ⟨_, fun q h => by cases h; exact waiting⟩
    | panics u => exact ⟨_, fun q h => by cases h; exact waiting⟩
    | send e next ih =>
      refine ⟨_, fun q h => ?_⟩
      cases h
      · exact ih _
      · exact waiting
    | request e cb next ih =>
      refine ⟨_, fun q h => ?_⟩
      cases h
      · exact ih _
      · exact waiting
  have noted : ∀ m, Acc (fun a b : Place σ => Next b a) (.noted m) := by
    intro m
    refine ⟨_, fun q h => ?_⟩
    cases h
    · exact waiting
    · exact handler _
  have callback : ∀ m code, Acc (fun a b : Place σ => Next b a) (.running code (some m)) := by
    intro m code
    induction code with
    | returns u => exact ⟨_, fun q h => by cases h; exact noted m⟩
    | panics u => exact ⟨_, fun q h => by cases h; exact noted m⟩
    | send e next ih =>
      refine ⟨_, fun q h => ?_⟩
      cases h
      · exact ih _
      · exact noted m
    | request e cb next ih =>
      refine ⟨_, fun q h => ?_⟩
      cases h
      · exact ih _
      · exact noted m
  have passing : ∀ m, Acc (fun a b : Place σ => Next b a) (.passing m) := by
    intro m
    refine ⟨_, fun q h => ?_⟩
    cases h
    · exact noted m
    · exact callback m _
  have full : ∀ m b p, Acc (fun a b : Place σ => Next b a) (.full m b p) := by
    intro m b p
    refine ⟨_, fun q h => ?_⟩
    cases h
    · exact passing _
    · exact waiting
  have stored : ∀ m b p, Acc (fun a b : Place σ => Next b a) (.stored m b p) := by
    intro m b p
    refine ⟨_, fun q h => ?_⟩
    cases h
    · exact full _ _ _
    · exact waiting
  have written : ∀ m b p done, Acc (fun a b : Place σ => Next b a) (.written m b p done) := by
    intro m b p done
    refine ⟨_, fun q h => ?_⟩
    cases h
    · exact stored _ _ _
    · exact waiting
  cases p with
  | waiting => exact waiting
  | ended => exact ended
  | passing m => exact passing m
  | full m b p => exact full m b p
  | stored m b p => exact stored m b p
  | written m b p done => exact written m b p done
  | noted m => exact noted m
  | running code after => cases after <;> first | exact handler _ | exact callback _ _
  | received m =>
    refine ⟨_, fun q h => ?_⟩
    cases h
    · exact passing m
    · exact waiting
    · exact written _ _ _ _

theorem turn_next {o : Outcome} {fs : FS} {c : Conn σ} {r : FS × Conn σ × List Ev} (h : c.turn env key endErr auto P o fs = .ok r) (h1 : c.place ≠ .waiting)
    (h2 : c.place ≠ .ended) : Next c.place r.2.1.place ∧ r.2.1.recv = c.recv := by
  refine ⟨?_, (c.turn_rest env key endErr auto P o h h1 h2).1⟩
  obtain ⟨place, recv, gone, sess⟩ := c
  unfold Conn.turn at h
  cases place with
  | waiting => exact absurd rfl h1
  | ended => exact absurd rfl h2
  | received m =>
    simp only at h
    split at h
    · split at h
      · cases h; exact .passed m
      · split at h
        · split at h
          · cases h; exact .wrote _ _ _ _
          · cases h
        · cases h; exact .passed m
    · cases h; exact .refused m
  | written m b p done =>
    cases h
    cases done
    · exact .failed m b p _
    · exact .answered m b p _
  | stored m b p =>
    simp only at h
    split at h
    · cases h; exact .missing m b p
    · obtain ⟨full, -, h⟩ := Res.bind_ok h
      cases h
      cases full
      · exact .missing m b p
      · exact .checked m b p
  | full m b p =>
    simp only at h
    obtain ⟨q, -, h⟩ := Res.bind_ok h
    split at h
    · cases h; exact .torn m b p
    · cases h; exact .merged _ _ _ _
  | passing m =>
    simp only at h
    obtain ⟨serial, -, h⟩ := Res.bind_ok h
    split at h
    · cases h; exact .quiet m
    · split at h
      · cases h; exact .quiet m
      · cases h; exact .called m _
  | running code after =>
    cases code with
    | returns u => cases h; cases after <;> first | exact .over _ | exact .back _ _
    | panics u => cases h; cases after <;> first | exact .over _ | exact .back _ _
    | send e next => cases h; exact .sent _ _ _ _
    | request e cb next => cases h; exact .asked _ _ _ _ _
  | noted m =>
    simp only at h
    split at h
    · cases h; exact .unhandled m
    · cases h; exact .handled m _

/-- How many bytes are not used yet. -/
def Conn.unused (c : Conn σ) : Nat := (c.recv.buffer ++ c.recv.reads.flatten).length

theorem turn_waiting {o : Outcome} {fs : FS} {c : Conn σ} {r : FS × Conn σ × List Ev} (h : c.turn env key endErr auto P o fs = .ok r) (hw : c.place = .waiting)
    (hn : ¬ NothingToDo env key c) : r.2.1.place = .ended ∨ r.2.1.unused < c.unused := by
  unfold Conn.turn at h
  rw [hw] at h
  simp only at h
  split at h
  · rename_i hst
    simp only [Bool.and_eq_true, Bool.not_eq_true'] at hst
    exact absurd (.inr ⟨hw, hst.1, fun e => receive_starved e hst.2⟩) hn
  · split at h
    · rename_i m q hq
      cases h
      refine .inr ?_
      obtain ⟨used, f, hu, hf, -, -, hlen⟩ := HangUp.receive_ok hq
      show (q.buffer ++ q.reads.flatten).length < (c.recv.buffer ++ c.recv.reads.flatten).length
      rw [hu]
      simp only [List.length_append, List.flatten_append]
      rcases hlen with ⟨rfl, hb⟩ | ⟨-, piece, hp, -, hlt⟩
      · have := congrArg List.length hb
        have hfl : 0 < f.length := by
          obtain ⟨w, rfl, -⟩ := hf
          simp
        simp only [List.length_append, List.flatten_nil, List.length_nil] at this ⊢
        omega
      · have : piece.length ≤ used.flatten.length := by
          obtain ⟨a, b, rfl⟩ := List.append_of_mem hp
          simp only [List.flatten_append, List.flatten_cons, List.length_append]
          omega
        omega
    · cases h; exact .inl rfl
    · cases h

theorem turn_nothing {o : Outcome} {fs : FS} {c : Conn σ} {r : FS × Conn σ × List Ev} (h : c.turn env key endErr auto P o fs = .ok r)
    (hn : NothingToDo env key c) : r = (fs, c, []) := by
  rcases hn with he | ⟨hw, hg, hs⟩
  · unfold Conn.turn at h
    rw [he] at h
    cases h
    rfl
  · unfold Conn.turn at h
    rw [hw] at h
    simp only [hg, notStarved hs, Bool.not_false, Bool.and_self, if_true] at h
    cases h
    rfl

/-- The same for the loop: where it is, what has arrived for it, whether the terminal has hung up. -/
def Same (c d : Conn σ) : Prop := d.place = c.place ∧ d.recv = c.recv ∧ d.gone = c.gone

theorem Same.nothing {c d : Conn σ} (h : Same c d) (hn : NothingToDo env key c) : NothingToDo env key d := by
  obtain ⟨h1, h2, h3⟩ := h
  unfold NothingToDo at *
  rwa [h1, h2, h3]

/-- An infinite run of a server. -/
structure Endless (env : Env) (key : Option DecKey) (endErr : Err) (auto : Bool) (P : Program σ) (ev : Nat → Event) (st : Nat → State σ) : Prop where
  step : ∀ n, ∃ r, ((st n).conns (ev n).conn).step env key endErr auto P (ev n) (st n).fs = .ok r ∧
    st (n + 1) = { fs := r.1, conns := fun j => if j = (ev n).conn then r.2.1 else (st n).conns j }

/-- What nothing arrives on stays the same but for turns. -/
theorem Endless.aside {ev : Nat → Event} {st : Nat → State σ} (h : Endless env key endErr auto P ev st) {k n : Nat} (h1 : ∀ o, ev n ≠ .turn k o)
    (h2 : ∀ b, ev n ≠ .arrive k b) (h3 : ev n = .hangUp k → ((st n).conns k).gone = true) : Same ((st n).conns k) ((st (n + 1)).conns k) := by
  obtain ⟨r, hr, hst⟩ := h.step n
  rw [hst]
  by_cases hk : k = (ev n).conn
  · show Same _ (if k = (ev n).conn then r.2.1 else (st n).conns k)
    rw [if_pos hk]
    rw [← hk] at hr
    cases he : ev n with
    | arrive j b => rw [he] at hk; cases hk; exact absurd he (h2 b)
    | turn j o => rw [he] at hk; cases hk; exact absurd he (h1 o)
    | hangUp j =>
      rw [he] at hk hr
      cases hk
      cases hr
      exact ⟨rfl, rfl, (h3 he).symm⟩
    | send j e => rw [he] at hr; cases hr; exact ⟨rfl, rfl, rfl⟩
    | request j e cb => rw [he] at hr; cases hr; exact ⟨rfl, rfl, rfl⟩
  · show Same _ (if k = (ev n).conn then r.2.1 else (st n).conns k)
    rw [if_neg hk]
    exact ⟨rfl, rfl, rfl⟩

theorem Endless.turned {ev : Nat → Event} {st : Nat → State σ} (h : Endless env key endErr auto P ev st) {k n : Nat} {o : Outcome} (he : ev n = .turn k o) :
    ∃ r, ((st n).conns k).turn env key endErr auto P o (st n).fs = .ok r ∧ (st (n + 1)).conns k = r.2.1 := by
  obtain ⟨r, hr, hst⟩ := h.step n
  rw [he] at hr hst
  refine ⟨r, hr, ?_⟩
  rw [hst]
  exact if_pos rfl

/-- Conditions on the events of a connection from a time on. -/
structure NoMore (ev : Nat → Event) (st : Nat → State σ) (k N : Nat) : Prop where
  arrived : ∀ n, N ≤ n → ∀ b, ev n ≠ .arrive k b
  gone : ∀ n, N ≤ n → ev n = .hangUp k → ((st n).conns k).gone = true
  turns : ∀ n, ∃ m, n ≤ m ∧ ∃ o, ev m = .turn k o

theorem Endless.nothing {ev : Nat → Event} {st : Nat → State σ} (h : Endless env key endErr auto P ev st) {k N : Nat} (hs : NoMore ev st k N) {n : Nat} (hn : N ≤ n)
    (h0 : NothingToDo env key ((st n).conns k)) (d : Nat) : NothingToDo env key ((st (n + d)).conns k) := by
  induction d with
  | zero => exact h0
  | succ d ih =>
    by_cases ht : ∃ o, ev (n + d) = .turn k o
    · obtain ⟨o, ht⟩ := ht
      obtain ⟨r, hr, he⟩ := h.turned ht
      show NothingToDo env key ((st (n + d + 1)).conns k)
      rw [he, turn_nothing hr ih]
      exact ih
    · exact (h.aside (fun o ho => ht ⟨o, ho⟩) (hs.arrived _ (by omega)) (hs.gone _ (by omega))).nothing ih

theorem Endless.until_turn {ev : Nat → Event} {st : Nat → State σ} (h : Endless env key endErr auto P ev st) {k N : Nat} (hs : NoMore ev st k N) {n : Nat}
    (hn : N ≤ n) : ∃ m o, n ≤ m ∧ ev m = .turn k o ∧ Same ((st n).conns k) ((st m).conns k) := by
  obtain ⟨m, hm, o, ho⟩ := hs.turns n
  -- the first one
  have hfirst : ∀ d, ∀ n, N ≤ n → n + d = m → ∃ m o, n ≤ m ∧ ev m = .turn k o ∧ Same ((st n).conns k) ((st m).conns k) := by
    intro d
    induction d with
    | zero => intro n _ hd; exact ⟨n, o, Nat.le_refl _, by rw [show n = m by omega]; exact ho, rfl, rfl, rfl⟩
    | succ d ih =>
      intro n hn hd
      by_cases ht : ∃ o, ev n = .turn k o
      · obtain ⟨o, ht⟩ := ht
        exact ⟨n, o, Nat.le_refl _, ht, rfl, rfl, rfl⟩
      · obtain ⟨m', o', g1, g2, g3, g4, g5⟩ := ih (n + 1) (by omega) (by omega)
        obtain ⟨a1, a2, a3⟩ := h.aside (fun o ho => ht ⟨o, ho⟩) (hs.arrived _ hn) (hs.gone _ hn)
        exact ⟨m', o', by omega, g2, g3.trans a1, g4.trans a2, g5.trans a3⟩
  exact hfirst (m - n) n hn (by omega)

theorem Endless.rests {ev : Nat → Event} {st : Nat → State σ} (h : Endless env key endErr auto P ev st) {k N : Nat} (hs : NoMore ev st k N) :
    ∃ M, N ≤ M ∧ ∀ n, M ≤ n → NothingToDo env key ((st n).conns k) := by
  have main : ∀ b : Nat, ∀ p : Place σ, ∀ n, N ≤ n → ((st n).conns k).unused = b → ((st n).conns k).place = p →
      ∃ M, N ≤ M ∧ NothingToDo env key ((st M).conns k) := by
    intro b
    induction b using Nat.strongRecOn with
    | _ b ihb =>
      intro p
      induction next_acc p with
      | intro p _ ihp =>
        intro n hn hb hp
        obtain ⟨m, o, hm, ho, s1, s2, s3⟩ := h.until_turn hs hn
        by_cases h0 : NothingToDo env key ((st m).conns k)
        · exact ⟨m, by omega, h0⟩
        obtain ⟨r, hr, he⟩ := h.turned ho
        have hb' : ((st m).conns k).unused = b := by unfold Conn.unused; rw [s2]; exact hb
        by_cases hw : ((st m).conns k).place = .waiting
        · rcases turn_waiting hr hw h0 with g | g
          · exact ⟨m + 1, by omega, .inl (by rw [he]; exact g)⟩
          · exact ihb r.2.1.unused (by rw [← hb']; exact g) _ (m + 1) (by omega) (by rw [he]) rfl
        · obtain ⟨g1, g2⟩ := turn_next hr hw (fun hx => h0 (.inl hx))
          rw [s1, hp] at g1
          refine ihp _ g1 (m + 1) (by omega) ?_ (by rw [he])
          rw [he]
          unfold Conn.unused
          rw [g2]
          exact hb'
  obtain ⟨M, hM, h0⟩ := main _ _ N (Nat.le_refl _) rfl rfl
  refine ⟨M, hM, ?_⟩
  intro n hn
  have := h.nothing hs hM h0 (n - M)
  rwa [show M + (n - M) = n by omega] at this

theorem endless_of_runs {ev : Nat → Event} {s0 : State σ} {st : Nat → State σ} {log : Nat → List (Nat × Ev)}
    (h : ∀ n, s0.run env key endErr auto P (firsts ev n) = .ok (st n, log n)) : Endless env key endErr auto P ev st := by
  refine ⟨fun n => ?_⟩
  have h1 := h (n + 1)
  rw [firsts_succ] at h1
  obtain ⟨s1, x, y, g1, g2, -⟩ := run_before h1
  rw [h n] at g1
  simp only [Res.ok.injEq, Prod.mk.injEq] at g1
  obtain ⟨rfl, rfl⟩ := g1
  unfold State.run at g2
  obtain ⟨r, e1, g2⟩ := Res.bind_ok g2
  obtain ⟨q, e2, g2⟩ := Res.bind_ok g2
  cases e2
  simp only [Res.ok.injEq, Prod.mk.injEq] at g2
  exact ⟨r, e1, g2.1.symm⟩

theorem Endless.gone_stays {ev : Nat → Event} {st : Nat → State σ} (h : Endless env key endErr auto P ev st) {k n : Nat} (hg : ((st n).conns k).gone = true) (d : Nat) :
    ((st (n + d)).conns k).gone = true := by
  induction d with
  | zero => exact hg
  | succ d ih =>
    obtain ⟨r, hr, hst⟩ := h.step (n + d)
    show ((st (n + d + 1)).conns k).gone = true
    rw [hst]
    show (if k = (ev (n + d)).conn then r.2.1 else (st (n + d)).conns k).gone = true
    by_cases hk : k = (ev (n + d)).conn
    · rw [if_pos hk]
      rw [← hk] at hr
      cases he : ev (n + d) with
      | arrive j b => rw [he] at hr; cases hr; exact ih
      | turn j o => rw [he] at hr; exact (turn_gone hr).trans ih
      | hangUp j => rw [he] at hr; cases hr; rfl
      | send j e => rw [he] at hr; cases hr; exact ih
      | request j e cb => rw [he] at hr; cases hr; exact ih
    · rw [if_neg hk]; exact ih

/-- In a run without end the loop of a connection gets done, whether or not the terminal hangs up. -/
theorem Endless.done {ev : Nat → Event} {st : Nat → State σ} (h : Endless env key endErr auto P ev st) {k N : Nat} (hs : Served k ev)
    (ha : ∀ n, N ≤ n → ∀ b, ev n ≠ .arrive k b) : ∃ M, N ≤ M ∧ ∀ n, M ≤ n → NothingToDo env key ((st n).conns k) := by
  by_cases hh : ∃ n, ev n = .hangUp k
  · obtain ⟨n0, hn0⟩ := hh
    have hg : ((st (n0 + 1)).conns k).gone = true := by
      obtain ⟨r, hr, hst⟩ := h.step n0
      rw [hn0] at hr hst
      cases hr
      rw [hst]
      show (if k = k then _ else _ : Conn σ).gone = true
      rw [if_pos rfl]
    obtain ⟨M, h1, h2⟩ := h.rests (N := max N (n0 + 1)) ⟨fun n hn => ha n (by omega), fun n hn _ => by
      have := h.gone_stays hg (n - (n0 + 1))
      rwa [show n0 + 1 + (n - (n0 + 1)) = n by omega] at this, hs⟩
    exact ⟨M, by omega, h2⟩
  · exact h.rests ⟨ha, fun n _ hx => absurd ⟨n, hx⟩ hh, hs⟩

/-! ## The example client -/

/-- Numbers with a bound have a greatest one among them. -/
theorem exists_greatest {f : Nat → Nat} {b : Nat} (h : ∀ n, f n ≤ b) : ∃ T, ∀ n, f n ≤ f T := by
  induction b with
  | zero => exact ⟨0, fun n => by have := h n; have := h 0; omega⟩
  | succ b ih =>
    by_cases hx : ∃ T, f T = b + 1
    · obtain ⟨T, hT⟩ := hx
      exact ⟨T, fun n => by rw [hT]; exact h n⟩
    · exact ih fun n => by
        have := h n
        have : f n ≠ b + 1 := fun he => hx ⟨n, he⟩
        omega

theorem wire_prefix (env : Env) (pub : Option EncKey) {a b : List (Message Entity)} (h : a <+: b) : Converse.wire env pub a <+: Converse.wire env pub b := by
  obtain ⟨c, rfl⟩ := h
  induction a with
  | nil => exact List.nil_prefix
  | cons m ms ih =>
    rw [List.cons_append]
    unfold Converse.wire
    split
    · exact (List.prefix_append_right_inj _).2 ih
    · exact List.prefix_refl _

/-- What has arrived at the client was sent. -/
theorem crowded_down {bytes : List (Message Entity) → Bytes} (hb : ∀ {a b}, a <+: b → bytes a <+: bytes b) {client : List Bytes → Res Bytes} {k : Nat} {s0 : State σ}
    {es : List Event} {down : List Bytes} (hj : Crowded (s0.run env key endErr auto P) bytes client k es down) :
    ∀ {s log}, s0.run env key endErr auto P es = .ok (s, log) → down.flatten <+: bytes (sentIn (logOf k log)) := by
  have more : ∀ {es es' : List Event} {down : List Bytes}, (∀ {s log}, s0.run env key endErr auto P es = .ok (s, log) → down.flatten <+: bytes (sentIn (logOf k log))) →
      ∀ {s log}, s0.run env key endErr auto P (es ++ es') = .ok (s, log) → down.flatten <+: bytes (sentIn (logOf k log)) := by
    intro es es' down ih s log hr
    obtain ⟨s1, x, y, r1, -, rfl⟩ := run_before hr
    rw [logOf_append, sentIn_append]
    exact (ih r1).trans (hb (List.prefix_append _ _))
  induction hj with
  | start => intro s log _; exact List.nil_prefix
  | other _ _ ih => exact more ih
  | turn _ ih => exact more ih
  | toServer _ _ _ _ ih => exact more ih
  | toClient _ hrun _ hp _ =>
    intro s log hr
    rw [hrun] at hr
    cases hr
    exact hp

theorem logOf_firsts {s0 : State σ} {ev : Nat → Event} {st : Nat → State σ} {log : Nat → List (Nat × Ev)}
    (h : ∀ n, s0.run env key endErr auto P (firsts ev n) = .ok (st n, log n)) (k : Nat) {n m : Nat} (hm : n ≤ m) : sentIn (logOf k (log n)) <+: sentIn (logOf k (log m)) := by
  obtain ⟨x, hx⟩ := firsts_prefix ev hm
  have h1 := h m
  rw [← hx] at h1
  obtain ⟨s1, y, z, g1, -, g3⟩ := run_before h1
  rw [h n] at g1
  simp only [Res.ok.injEq, Prod.mk.injEq] at g1
  obtain ⟨-, rfl⟩ := g1
  rw [g3, logOf_append, sentIn_append]
  exact List.prefix_append _ _

/-- Everything comes to rest between a client and a server if both have only so much to say. -/
theorem fair_settles {bytes : List (Message Entity) → Bytes} (hb : ∀ {a b}, a <+: b → bytes a <+: bytes b) {client : List Bytes → Res Bytes} {k : Nat} {s0 : State σ}
    {ev : Nat → Event} {down : Nat → List Bytes} (hf : Fair (s0.run env key endErr auto P) bytes client k ev down) {st : Nat → State σ}
    {log : Nat → List (Nat × Ev)} (hr : ∀ n, s0.run env key endErr auto P (firsts ev n) = .ok (st n, log n)) {bound : Nat}
    (hs : ∀ n, (sentIn (logOf k (log n))).length ≤ bound)
    (hc : ∀ n, ∃ b, client (down n) = .ok b ∧ (arrivedOn k (firsts ev n)).flatten <+: b ∧ b.length ≤ bound) :
    ∃ M, ∀ n, M ≤ n → AllArrived env key bytes client k (firsts ev n) (down n) (st n) (log n) := by
  -- the server says nothing new from some time on
  obtain ⟨T1, hT1⟩ := exists_greatest hs
  have sent : ∀ n, T1 ≤ n → sentIn (logOf k (log n)) = sentIn (logOf k (log T1)) := fun n hn =>
    ((logOf_firsts hr k hn).eq_of_length_le (hT1 n)).symm
  obtain ⟨m1, hm1⟩ := hf.down T1 _ _ (hr T1)
  have downs : ∀ {n m}, n ≤ m → (down n).flatten <+: (down m).flatten := by
    intro n m hnm
    induction m with
    | zero => rw [Nat.le_zero.1 hnm]; exact List.prefix_refl _
    | succ m ih =>
      rcases Nat.lt_or_eq_of_le hnm with h | rfl
      · obtain ⟨x, hx⟩ := hf.grows m
        refine (ih (by omega)).trans ?_
        rw [← hx, List.flatten_append]
        exact List.prefix_append _ _
      · exact List.prefix_refl _
  have arrived : ∀ n, max T1 m1 ≤ n → bytes (sentIn (logOf k (log n))) = (down n).flatten := by
    intro n hn
    have h1 := crowded_down hb (hf.along n) (hr n)
    refine (h1.eq_of_length_le ?_).symm
    rw [sent n (by omega)]
    exact (hm1.trans (downs (by omega))).length_le
  -- nor does the client
  obtain ⟨b, hb'⟩ : ∃ b : Nat → Bytes, ∀ n, client (down n) = .ok (b n) ∧ (arrivedOn k (firsts ev n)).flatten <+: b n ∧ (b n).length ≤ bound :=
    ⟨fun n => (hc n).choose, fun n => (hc n).choose_spec⟩
  obtain ⟨T2, hT2⟩ := exists_greatest fun n => (hb' n).2.2
  obtain ⟨m2, hm2⟩ := hf.up T2 _ (hb' T2).1
  have ups : ∀ {n m}, n ≤ m → (arrivedOn k (firsts ev n)).flatten <+: (arrivedOn k (firsts ev m)).flatten := by
    intro n m hnm
    obtain ⟨x, hx⟩ := firsts_prefix ev hnm
    rw [← hx, arrivedOn_append, List.flatten_append]
    exact List.prefix_append _ _
  have up : ∀ n, m2 ≤ n → client (down n) = .ok (arrivedOn k (firsts ev n)).flatten := by
    intro n hn
    rw [(hb' n).1, (hb' n).2.1.eq_of_length_le]
    exact Nat.le_trans (hT2 n) ((hm2.trans (ups hn)).length_le)
  -- so nothing arrives any more
  obtain ⟨N0, hN0⟩ := hf.filled
  have quiet : ∀ n, max m2 N0 ≤ n → ∀ p, ev n ≠ .arrive k p := by
    intro n hn p hp
    have h1 : (arrivedOn k (firsts ev (n + 1))).flatten.length ≤ (arrivedOn k (firsts ev n)).flatten.length := by
      refine Nat.le_trans ((hb' (n + 1)).2.1.length_le) (Nat.le_trans (hT2 _) ?_)
      exact (hm2.trans (ups (by omega))).length_le
    rw [firsts_succ, arrivedOn_append, List.flatten_append, hp] at h1
    have h2 : arrivedOn k [.arrive k p] = [p] := by simp [arrivedOn]
    rw [h2] at h1
    simp only [List.flatten_cons, List.flatten_nil, List.append_nil, List.length_append] at h1
    have : p = [] := List.eq_nil_of_length_eq_zero (by omega)
    rw [this] at hp
    exact hN0 n (by omega) hp
  obtain ⟨M, h1, h2⟩ := (endless_of_runs hr).done hf.served quiet
  refine ⟨max M (max T1 m1), fun n hn => ⟨up n (by omega), arrived n (by omega), h2 n (by omega)⟩⟩

/-- The pieces that had arrived at the client before each event. -/
theorem crowded_chain {run : List Event → Res (Crowd.State σ × List (Nat × Ev))} {bytes : List (Message Entity) → Bytes} {client : List Bytes → Res Bytes} {k : Nat}
    {es : List Event} {down : List Bytes} (hj : Crowded run bytes client k es down) :
    ∃ f : Nat → List Bytes, (∀ n, n ≤ es.length → Crowded run bytes client k (es.take n) (f n)) ∧ (∀ n, f n <+: f (n + 1)) ∧ ∀ n, es.length ≤ n → f n = down := by
  have one : ∀ {es : List Event} {down : List Bytes} {e : Event}, Crowded run bytes client k (es ++ [e]) down →
      (∃ f : Nat → List Bytes, (∀ n, n ≤ es.length → Crowded run bytes client k (es.take n) (f n)) ∧ (∀ n, f n <+: f (n + 1)) ∧ ∀ n, es.length ≤ n → f n = down) →
      ∃ f : Nat → List Bytes, (∀ n, n ≤ (es ++ [e]).length → Crowded run bytes client k ((es ++ [e]).take n) (f n)) ∧ (∀ n, f n <+: f (n + 1)) ∧
        ∀ n, (es ++ [e]).length ≤ n → f n = down := by
    rintro es down e hj ⟨f, h1, h2, h3⟩
    refine ⟨f, ?_, h2, ?_⟩
    · intro n hn
      rw [List.length_append, List.length_singleton] at hn
      rcases Nat.lt_or_eq_of_le hn with hlt | rfl
      · rw [List.take_append_of_le_length (by omega)]
        exact h1 n (by omega)
      · rw [List.take_of_length_le (by simp), h3 _ (by omega)]
        exact hj
    · intro n hn
      rw [List.length_append] at hn
      exact h3 n (by omega)
  induction hj with
  | start => exact ⟨fun _ => [], fun n _ => by rw [List.take_nil]; exact .start, fun _ => List.prefix_refl _, fun _ _ => rfl⟩
  | other h he ih => exact one (.other h he) ih
  | turn h ih => exact one (.turn h) ih
  | toServer h hb hl hp ih => exact one (.toServer h hb hl hp) ih
  | @toClient es down s log c h hr hl hp ih =>
    obtain ⟨f, h1, h2, h3⟩ := ih
    refine ⟨fun n => if n < es.length then f n else down ++ [c], ?_, ?_, ?_⟩
    · intro n hn
      by_cases hlt : n < es.length
      · simp only [hlt, if_true]; exact h1 n hn
      · simp only [hlt, if_false]
        rw [List.take_of_length_le (by omega)]
        exact .toClient h hr hl hp
    · intro n
      by_cases hlt : n + 1 < es.length
      · simp only [hlt, show n < es.length by omega, if_true]; exact h2 n
      · by_cases hlt' : n < es.length
        · simp only [hlt, hlt', if_true, if_false]
          refine (h2 n).trans ?_
          rw [h3 _ (by omega)]
          exact List.prefix_append _ _
        · simp only [hlt, hlt', if_false]; exact List.prefix_refl _
    · intro n hn
      simp only [show ¬ n < es.length by omega, if_false]

theorem run_idle {s : State σ} {k : Nat} (hn : NothingToDo env key (s.conns k)) (hs : ∃ r, (s.conns k).turn env key endErr auto P .ok s.fs = .ok r) (n : Nat) :
    s.run env key endErr auto P (List.replicate n (.turn k .ok)) = .ok (s, []) := by
  induction n with
  | zero => rfl
  | succ n ih =>
    obtain ⟨r, hr⟩ := hs
    obtain rfl := turn_nothing hr hn
    rw [List.replicate_succ]
    show ((s.conns k).turn env key endErr auto P .ok s.fs >>= fun r => State.run env key endErr auto P
      { fs := r.1, conns := fun j => if j = k then r.2.1 else s.conns j } (List.replicate n (.turn k .ok)) >>= fun q => .ok (q.1, r.2.2.map (fun x => (k, x)) ++ q.2)) = _
    rw [hr, Res.ok_bind]
    have : (fun j => if j = k then s.conns k else s.conns j) = s.conns := by
      funext j
      by_cases hj : j = k <;> simp [hj]
    rw [this, ih]
    rfl

theorem nothing_turns {fs : FS} {c : Conn σ} (hn : NothingToDo env key c) : c.turn env key endErr auto P .ok fs = .ok (fs, c, []) := by
  rcases hn with he | ⟨hw, hg, hs⟩
  · unfold Conn.turn
    rw [he]
  · unfold Conn.turn
    rw [hw]
    simp only [hg, notStarved hs, Bool.not_false, Bool.and_self, if_true]

/-- The events, and then turns of the connection for ever. -/
def thenTurns (k : Nat) (es : List Event) (n : Nat) : Event := (es[n]?).getD (.turn k .ok)

theorem firsts_thenTurns (k : Nat) (es : List Event) (n : Nat) : firsts (thenTurns k es) n = es.take n ++ List.replicate (n - es.length) (.turn k .ok) := by
  induction n with
  | zero => simp [firsts]
  | succ n ih =>
    rw [firsts_succ, ih]
    by_cases hlt : n < es.length
    · rw [show n - es.length = 0 by omega, show n + 1 - es.length = 0 by omega, List.take_succ]
      simp [thenTurns, hlt]
    · rw [List.take_of_length_le (by omega), List.take_of_length_le (by omega), show n + 1 - es.length = (n - es.length) + 1 by omega, List.replicate_succ',
        List.append_assoc]
      simp [thenTurns, List.getElem?_eq_none (show es.length ≤ n by omega)]

theorem run_thenTurns {s0 s : State σ} {k : Nat} {es : List Event} {log : List (Nat × Ev)} (hr : s0.run env key endErr auto P es = .ok (s, log))
    (hn : NothingToDo env key (s.conns k)) (n : Nat) : ∃ s' log', s0.run env key endErr auto P (firsts (thenTurns k es) n) = .ok (s', log') := by
  rw [firsts_thenTurns]
  rcases Nat.le_total n es.length with h | h
  · rw [show n - es.length = 0 by omega, List.replicate_zero, List.append_nil]
    rw [← List.take_append_drop n es] at hr
    obtain ⟨s1, x, y, g1, -, -⟩ := run_before hr
    exact ⟨s1, x, g1⟩
  · rw [List.take_of_length_le h]
    refine ⟨s, log ++ [], ?_⟩
    rw [run_append', hr]
    show (s.run env key endErr auto P _).bind _ = _
    rw [run_idle hn ⟨_, nothing_turns hn⟩]
    rfl

/-- A finite run that has come to its end goes on as a fair one. -/
theorem fair_after {bytes : List (Message Entity) → Bytes} (hb : ∀ {a b}, a <+: b → bytes a <+: bytes b) {client : List Bytes → Res Bytes} {k : Nat} {s0 s : State σ}
    {es : List Event} {down : List Bytes} {log : List (Nat × Ev)} (hj : Crowded (s0.run env key endErr auto P) bytes client k es down)
    (hr : s0.run env key endErr auto P es = .ok (s, log)) (hq : AllArrived env key bytes client k es down s log)
    (hmono : ∀ d b, d <+: down → client d = .ok b → b <+: (arrivedOn k es).flatten) :
    ∃ f, Fair (s0.run env key endErr auto P) bytes client k (thenTurns k es) f ∧
      ∀ n s' log', s0.run env key endErr auto P (firsts (thenTurns k es) n) = .ok (s', log') → log' <+: log := by
  obtain ⟨f, f1, f2, f3⟩ := crowded_chain hj
  have long : ∀ n, es.length ≤ n → firsts (thenTurns k es) n = es ++ List.replicate (n - es.length) (.turn k .ok) := by
    intro n hn
    rw [firsts_thenTurns, List.take_of_length_le hn]
  have short : ∀ n, n ≤ es.length → firsts (thenTurns k es) n = es.take n := by
    intro n hn
    rw [firsts_thenTurns, show n - es.length = 0 by omega, List.replicate_zero, List.append_nil]
  have hlog : ∀ n s' log', s0.run env key endErr auto P (firsts (thenTurns k es) n) = .ok (s', log') → log' <+: log := by
    intro n s' log' h
    rcases Nat.le_total n es.length with hn | hn
    · rw [short n hn] at h
      have h2 := hr
      rw [← List.take_append_drop n es] at h2
      obtain ⟨s1, x, y, g1, -, rfl⟩ := run_before h2
      rw [h] at g1
      cases g1
      exact List.prefix_append _ _
    · rw [long n hn] at h
      obtain ⟨s1, x, y, g1, g2, rfl⟩ := run_before h
      rw [hr] at g1
      cases g1
      rw [run_idle hq.loop ⟨_, nothing_turns hq.loop⟩] at g2
      cases g2
      rw [List.append_nil]
      exact List.prefix_refl _
  have hf : ∀ n, f n <+: down := by
    intro n
    have h : ∀ d n, f n <+: f (n + d) := by
      intro d
      induction d with
      | zero => intro n; exact List.prefix_refl _
      | succ d ih => intro n; exact (ih n).trans (f2 (n + d))
    have := h es.length n
    rwa [f3 (n + es.length) (by omega)] at this
  refine ⟨f, ⟨?_, f2, ?_, ?_, ?_, ?_⟩, hlog⟩
  · intro n
    rcases Nat.le_total n es.length with hn | hn
    · rw [short n hn]; exact f1 n hn
    · rw [long n hn, f3 n hn]; exact Crowded.turns hj _
  · intro n
    refine ⟨max n es.length, by omega, .ok, ?_⟩
    unfold thenTurns
    rw [List.getElem?_eq_none (by omega)]
    rfl
  · refine ⟨es.length, fun n hn => ?_⟩
    unfold thenTurns
    rw [List.getElem?_eq_none hn]
    simp
  · intro n b h
    refine ⟨es.length, ?_⟩
    rw [short _ (Nat.le_refl _), List.take_length]
    exact hmono _ b (hf n) h
  · intro n s' log' h
    refine ⟨es.length, ?_⟩
    rw [f3 _ (Nat.le_refl _), ← hq.down]
    obtain ⟨x, rfl⟩ := hlog n s' log' h
    rw [logOf_append, sentIn_append]
    exact hb (List.prefix_append _ _)

end Verif.Crowd
