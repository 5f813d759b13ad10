import Verif.Lemmas.World
/-! # The whole server: what a step means for one session -/

namespace Verif.World
open Handler Session Spec

/-- Where the goroutine of session `k` is. -/
def placeOf (s : Server.State) (k : Nat) : Option Server.Place := (s.sessions k).map (·.place)

/-- The observation is not one of those followed below for session `k`. -/
def Quiet (k : Nat) : Obs → Prop
  | .server (.restart j _) | .server (.armed j) | .server (.left j) => j ≠ k
  | .act j (.handle _ _) => j ≠ k
  | .received j _ | .called j _ _ | .returned j _ _ => j ≠ k
  | _ => True

/-- Changes of the place that are not followed below. -/
inductive Minor : Option Server.Place → Option Server.Place → Prop where
  | same (p) : Minor p p
  | accept : Minor none (some .accepted)
  | register : Minor (some .accepted) (some .registered)
  | cancelFirst : Minor (some (.starting false)) (some (.starting true))
  | cancel : Minor (some (.updating false)) (some (.updating true))
  | check : Minor (some .timed) (some .checked)
  | skip : Minor (some .timed) (some .looping)
  | attach : Minor (some .checked) (some .looping)

theorem onTimer_sessions {s t : Server.State} {e : Option (Timer.Event Nat)} (h : s.onTimer e = .ok t) : t.sessions = s.sessions := by
  unfold Server.State.onTimer at h
  split at h
  · cases h; rfl
  · obtain ⟨⟨c, _⟩, -, h2⟩ := Res.bind_ok h
    cases h2
    rfl

theorem move_none {s : Server.State} {k : Nat} {m : Server.Move} (h : ∀ x, s.sessions k = some x → x.step k m = none) {t : Server.State}
    {o : List Server.Obs} (hs : s.step (.move k m) = .ok (t, o)) : t = s ∧ o = [] := by
  simp only [Server.State.step] at hs
  split at hs
  · cases hs; exact ⟨rfl, rfl⟩
  · rename_i x hx
    rw [h x hx] at hs
    cases hs
    exact ⟨rfl, rfl⟩

theorem move_some {s t : Server.State} {k : Nat} {m : Server.Move} {o : List Server.Obs} {x y : Server.Sess} {o' : List Server.Obs}
    (hx : s.sessions k = some x) (hy : x.step k m = some (y, o')) (hs : s.step (.move k m) = .ok (t, o)) :
    o = o' ∧ t.sessions = fun j => if j = k then some y else s.sessions j := by
  simp only [Server.State.step, hx, hy] at hs
  obtain ⟨u, h1, h2⟩ := Res.bind_ok hs
  cases h2
  refine ⟨rfl, ?_⟩
  simp [Server.State.put, onTimer_sessions h1]

theorem move_cases {s t : Server.State} {k : Nat} {m : Server.Move} {o : List Server.Obs} (hs : s.step (.move k m) = .ok (t, o)) :
    (t = s ∧ o = []) ∨ ∃ x y, s.sessions k = some x ∧ x.step k m = some (y, o) ∧ t.sessions = fun j => if j = k then some y else s.sessions j := by
  cases hx : s.sessions k with
  | none => exact .inl (move_none (by simp [hx]) hs)
  | some x =>
    cases hy : x.step k m with
    | none => exact .inl (move_none (by simp [hx, hy]) hs)
    | some r =>
      obtain ⟨y, o'⟩ := r
      obtain ⟨rfl, h2⟩ := move_some hx hy hs
      exact .inr ⟨x, y, rfl, hy, h2⟩

theorem close_place (k : Nat) (x : Server.Sess) : (x.close k).1.place = x.place := by
  unfold Server.Sess.close
  split <;> rfl

theorem close_quiet (k j : Nat) (x : Server.Sess) : ∀ o ∈ (x.close k).2, Quiet j (.server o) := by
  unfold Server.Sess.close
  split <;> simp [Quiet]

/-- Observations of other sessions are quiet. -/
theorem quiet_about {j k : Nat} (h : j ≠ k) {o : List Server.Obs} (ho : ∀ a ∈ o, Server.about a = some j) : ∀ a ∈ o, Quiet k (.server a) := by
  intro a ha
  have := ho a ha
  cases a <;> simp_all [Server.about, Quiet]

/-- The three moves that are followed below. -/
def Major : Server.Move → Bool
  | .restart _ | .arm | .leave => true
  | _ => false

theorem minor_move {k : Nat} {x y : Server.Sess} {m : Server.Move} {o : List Server.Obs} (hm : Major m = false) (h : x.step k m = some (y, o)) :
    Minor (some x.place) (some y.place) ∧ ∀ a ∈ o, Quiet k (.server a) := by
  cases m <;> simp only [Server.Sess.step, Server.call_recovered] at h
  case restart => cases hm
  case arm => cases hm
  case leave => cases hm
  case close =>
    simp only [Option.some.injEq] at h
    rw [← show (x.close k).1 = y by rw [h], ← show (x.close k).2 = o by rw [h], close_place]
    exact ⟨.same _, close_quiet k k x⟩
  all_goals
    repeat' split at h
    all_goals first
      | (simp at h; done)
      | (simp only [Option.some.injEq, Prod.mk.injEq] at h; obtain ⟨rfl, rfl⟩ := h; simp_all [Quiet]; done)
      | (simp only [Option.some.injEq, Prod.mk.injEq] at h; obtain ⟨rfl, rfl⟩ := h; rename_i hp; refine ⟨?_, by simp [Quiet]⟩; rw [hp]; first | constructor | (split <;> constructor))
      | (simp only [Option.some.injEq, Prod.mk.injEq] at h; obtain ⟨rfl, rfl⟩ := h; rename_i hp _; refine ⟨?_, by simp [Quiet]⟩; rw [hp]; constructor)
      | (simp only [Option.some.injEq, Prod.mk.injEq] at h; obtain ⟨rfl, rfl⟩ := h; exact ⟨.same _, by simp [Quiet]⟩)

/-- What a step of the life of sessions means for session `k`. -/
theorem minor_step {s t : Server.State} {e : Server.Event} {o : List Server.Obs} (k : Nat) (hn : s.sessions (s.count + 1) = none)
    (he : ∀ m, e = .move k m → Major m = false) (h : s.step e = .ok (t, o)) :
    Minor (placeOf s k) (placeOf t k) ∧ ∀ a ∈ o, Quiet k (.server a) := by
  cases e with
  | accept =>
    cases h
    refine ⟨?_, by simp [Quiet]⟩
    unfold placeOf
    by_cases hk : k = s.count + 1
    · subst hk
      simp only [hn, Server.State.put, if_true, Option.map_none, Option.map_some]
      exact .accept
    · simp only [Server.State.put, hk, if_false]
      exact .same _
  | move j m =>
    rcases move_cases h with ⟨rfl, rfl⟩ | ⟨x, y, hx, hy, ht⟩
    · exact ⟨.same _, by simp⟩
    · by_cases hj : j = k
      · subst hj
        obtain ⟨h1, h2⟩ := minor_move (he m rfl) hy
        refine ⟨?_, h2⟩
        simp only [placeOf, ht, hx, if_true, Option.map_some]
        exact h1
      · refine ⟨?_, quiet_about hj (Server.step_about hy)⟩
        simp only [placeOf, ht, Ne.symm hj, if_false]
        exact .same _
  | tick n =>
    simp only [Server.State.step] at h
    split at h
    · obtain ⟨⟨c, ks⟩, -, h2⟩ := Res.bind_ok h
      cases h2
      exact ⟨.same _, by simp [Quiet]⟩
    · cases h
      exact ⟨.same _, by simp⟩
  | lookup =>
    simp only [Server.State.step] at h
    split at h <;> cases h <;> exact ⟨.same _, by simp⟩
  | closeFound =>
    simp only [Server.State.step] at h
    split at h
    · rename_i j hj
      cases h
      unfold Server.State.close
      split
      · exact ⟨.same _, by simp [Quiet]⟩
      · rename_i x hx
        refine ⟨?_, ?_⟩
        · unfold placeOf
          by_cases hk : k = j
          · subst hk
            simp only [Server.State.put, if_true, hx, Option.map_some, close_place]
            exact .same _
          · simp only [Server.State.put, hk, if_false]
            exact .same _
        · intro a ha
          rcases List.mem_cons.1 ha with rfl | ha
          · trivial
          · exact close_quiet j k x a ha
    · cases h
      exact ⟨.same _, by simp⟩

theorem restart_step {s t : Server.State} {k : Nat} {n : Int} {o : List Server.Obs} (h : s.step (.move k (.restart n)) = .ok (t, o)) :
    (t = s ∧ o = [] ∧ placeOf s k ≠ some .registered ∧ placeOf s k ≠ some .looping) ∨
    (placeOf s k = some .registered ∧ placeOf t k = some (.starting false) ∧ o = [.restart k n]) ∨
    (placeOf s k = some .looping ∧ placeOf t k = some (.updating false) ∧ o = [.restart k n]) := by
  cases hx : s.sessions k with
  | none =>
    obtain ⟨rfl, rfl⟩ := move_none (by simp [hx]) h
    exact .inl ⟨rfl, rfl, by simp [placeOf, hx], by simp [placeOf, hx]⟩
  | some x =>
    by_cases h1 : x.place = .registered
    · obtain ⟨rfl, ht⟩ := move_some (y := { x with place := .starting false }) (o' := [.restart k n]) hx (by simp [Server.Sess.step, h1]) h
      exact .inr (.inl ⟨by simp [placeOf, hx, h1], by simp [placeOf, ht], rfl⟩)
    by_cases h2 : x.place = .looping
    · obtain ⟨rfl, ht⟩ := move_some (y := { x with place := .updating false }) (o' := [.restart k n]) hx (by simp [Server.Sess.step, h2]) h
      exact .inr (.inr ⟨by simp [placeOf, hx, h2], by simp [placeOf, ht], rfl⟩)
    obtain ⟨rfl, rfl⟩ := move_none (by simp [hx, Server.Sess.step, h1, h2]) h
    exact .inl ⟨rfl, rfl, by simp [placeOf, hx, h1], by simp [placeOf, hx, h2]⟩

theorem arm_step {s t : Server.State} {k : Nat} {o : List Server.Obs} (h : s.step (.move k .arm) = .ok (t, o)) :
    (t = s ∧ o = []) ∨
    (placeOf s k = some (.starting true) ∧ placeOf t k = some .timed ∧ o = [.armed k]) ∨
    (placeOf s k = some (.updating true) ∧ placeOf t k = some .looping ∧ o = [.armed k]) := by
  cases hx : s.sessions k with
  | none => exact .inl (move_none (by simp [hx]) h)
  | some x =>
    by_cases h1 : x.place = .starting true
    · obtain ⟨rfl, ht⟩ := move_some (y := { x with place := .timed }) (o' := [.armed k]) hx (by simp [Server.Sess.step, h1]) h
      exact .inr (.inl ⟨by simp [placeOf, hx, h1], by simp [placeOf, ht], rfl⟩)
    by_cases h2 : x.place = .updating true
    · obtain ⟨rfl, ht⟩ := move_some (y := { x with place := .looping }) (o' := [.armed k]) hx (by simp [Server.Sess.step, h2]) h
      exact .inr (.inr ⟨by simp [placeOf, hx, h2], by simp [placeOf, ht], rfl⟩)
    exact .inl (move_none (by simp [hx, Server.Sess.step, h1, h2]) h)

theorem leave_step {s t : Server.State} {k : Nat} {o : List Server.Obs} (h : s.step (.move k .leave) = .ok (t, o))
    (hp : placeOf s k = some .looping) : placeOf t k = some .ended ∧ (o = [.left k] ∨ o = [.closing k, .left k]) ∧
    (o = [.closing k, .left k] ↔ isClosed s k = false) := by
  cases hx : s.sessions k with
  | none => simp [placeOf, hx] at hp
  | some x =>
    have h1 : x.place = .looping := by simpa [placeOf, hx] using hp
    obtain ⟨rfl, ht⟩ := move_some (y := { (x.close k).1 with place := .ended }) (o' := (x.close k).2 ++ [.left k]) hx (by simp [Server.Sess.step, h1]) h
    refine ⟨by simp [placeOf, ht], ?_⟩
    unfold Server.Sess.close
    split <;> simp_all [isClosed]

theorem inLoop_iff (s : Server.State) (k : Nat) : inLoop s k = true ↔ placeOf s k = some .looping := by
  unfold inLoop placeOf
  cases s.sessions k <;> simp

/-- The goroutine of the loop is neither waiting for a message nor at its end. -/
def Mid (p : System.Place) : Prop := p ≠ .waiting ∧ p ≠ .ended

/-- How the parts of the state of session `k` fit together. -/
structure Fits (k : Nat) (s : State) : Prop where
  idle : s.busy k = .idle → ∀ c, placeOf s.server k ≠ some (.updating c)
  mid : Mid (s.sys.conns k).place → placeOf s.server k = some .looping ∧ s.busy k = .idle
  ended : (s.sys.conns k).place = .ended ↔ placeOf s.server k = some .ended
  chosen : ∀ h m, s.busy k = .chosen h m → (placeOf s.server k = some .looping ∨ ∃ c, placeOf s.server k = some (.updating c))
  running : ∀ h m, s.busy k = .running h m → placeOf s.server k = some .looping

/-- What a step of the whole server means for session `k`. -/
inductive Shape (env : Env) (key : Option DecKey) (endErr : Err) (k : Nat) (s s' : State) : List Obs → Prop where
  | quiet {y : List Obs} : (∀ o ∈ y, Quiet k o) → Minor (placeOf s.server k) (placeOf s'.server k) → s'.busy k = s.busy k →
      (s'.sys.conns k).recv = (s.sys.conns k).recv → (Mid (s'.sys.conns k).place → Mid (s.sys.conns k).place) →
      ((s'.sys.conns k).place = .ended ↔ (s.sys.conns k).place = .ended) → Shape env key endErr k s s' y
  | first (n : Int) : placeOf s.server k = some .registered → placeOf s'.server k = some (.starting false) → s'.busy = s.busy → s'.sys = s.sys →
      Shape env key endErr k s s' [.server (.restart k n)]
  | armFirst : placeOf s.server k = some (.starting true) → placeOf s'.server k = some .timed → s'.busy = s.busy → s'.sys = s.sys →
      Shape env key endErr k s s' [.server (.armed k)]
  | arm : placeOf s.server k = some (.updating true) → placeOf s'.server k = some .looping → s'.busy = s.busy → s'.sys = s.sys →
      Shape env key endErr k s s' [.server (.armed k)]
  | receive (m : Message Entity) : placeOf s.server k = some .looping → s'.server = s.server → s.busy k = .idle → s'.busy = s.busy →
      Codec.receive (entityCodec env) key endErr (if isClosed s.server k then ⟨(s.sys.conns k).recv.buffer, []⟩ else (s.sys.conns k).recv) =
        (.ok m, (s'.sys.conns k).recv) → (s'.sys.conns k).place = .received m → Shape env key endErr k s s' [.received k m]
  | leave (o : List Server.Obs) : placeOf s.server k = some .looping → placeOf s'.server k = some .ended → s.busy k = .idle → s'.busy = s.busy →
      (s'.sys.conns k).place = .ended → o = [.left k] ∨ o = [.closing k, .left k] →
      (∃ e r, Codec.receive (entityCodec env) key endErr (if isClosed s.server k then ⟨(s.sys.conns k).recv.buffer, []⟩ else (s.sys.conns k).recv) = (.err e, r)) →
      (o = [.closing k, .left k] ↔ isClosed s.server k = false) → Shape env key endErr k s s' (.act k .closed :: o.map .server)
  | dispatch (n : Int) (h : Nat) (m : Message Entity) : placeOf s.server k = some .looping → placeOf s'.server k = some (.updating false) →
      s.busy k = .idle → s'.busy k = .chosen h m → (s.sys.conns k).place = .noted m → (s'.sys.conns k).place = .waiting →
      (s'.sys.conns k).recv = (s.sys.conns k).recv →
      Shape env key endErr k s s' [.server (.restart k n), .act k .touch, .act k (.handle h m)]
  | call (h : Nat) (m : Message Entity) : placeOf s.server k = some .looping → s'.server = s.server → s.busy k = .chosen h m →
      s'.busy k = .running h m → s'.sys = s.sys → Shape env key endErr k s s' [.called k h m]
  | finish (h : Nat) (m : Message Entity) (u : UserCode) : s'.server = s.server → s.busy k = .running h m → s'.busy k = .idle → s'.sys = s.sys →
      Shape env key endErr k s s' [.returned k h u]

section
variable {env : Env} {key : Option DecKey} {endErr : Err} {auto : Bool}

theorem fits_shape {k : Nat} {s s' : State} {y : List Obs} (hf : Fits k s) (h : Shape env key endErr k s s' y) : Fits k s' := by
  obtain ⟨h1, h2, h3, h4, h5⟩ := hf
  cases h with
  | quiet _ hm hb hr hmid hend =>
    constructor
    all_goals
      generalize placeOf s'.server k = p' at hm ⊢
      generalize placeOf s.server k = p at *
    · rw [hb]
      intro hi c
      have := h1 hi
      cases hm with
      | same => exact this c
      | _ => simp_all
    · intro hm'
      obtain ⟨g1, g2⟩ := h2 (hmid hm')
      subst g1
      cases hm
      exact ⟨rfl, by rw [hb]; exact g2⟩
    · rw [hend, h3]
      cases hm <;> simp
    · intro h m hc
      rw [hb] at hc
      rcases h4 h m hc with g | ⟨c, g⟩ <;> subst g <;> cases hm <;> simp
    · intro h m hc
      rw [hb] at hc
      have g := h5 h m hc
      subst g
      cases hm
      rfl
  | first n a b c d =>
    constructor <;> simp_all
  | armFirst a b c d => constructor <;> simp_all
  | arm a b c d =>
    constructor
    · intro hi; rw [b]; simp
    · intro hm; rw [d] at hm; have := (h2 hm).1; rw [a] at this; cases this
    · rw [d, h3, a, b]; simp
    · intro h m hc; exact .inl b
    · intro h m hc; exact b
  | receive m a b c d e f => constructor <;> simp_all
  | leave o a b c d e => constructor <;> simp_all [Mid]
  | dispatch n h m a b c d e f => constructor <;> simp_all [Mid]
  | call h m a b c d e => constructor <;> simp_all
  | finish h m u b c d e =>
    have := h5 h m c
    constructor <;> simp_all

theorem quiet_acts {k j : Nat} {x : List (Nat × Act)} (hj : j ≠ k) (h : ∀ a ∈ x, a.1 = j) :
    ∀ o ∈ x.map (fun a => Obs.act a.1 a.2), Quiet k o := by
  intro o ho
  obtain ⟨⟨i, a⟩, ha, rfl⟩ := List.mem_map.1 ho
  have := h _ ha
  simp only at this
  subst this
  cases a <;> simp [Quiet, hj]

theorem quiet_acts_own {k : Nat} {x : List (Nat × Act)} (h : ∀ a ∈ x, ∀ i m, a.2 ≠ .handle i m) :
    ∀ o ∈ x.map (fun a => Obs.act a.1 a.2), Quiet k o := by
  intro o ho
  obtain ⟨⟨i, a⟩, ha, rfl⟩ := List.mem_map.1 ho
  have := h _ ha
  cases a <;> simp_all [Quiet]

/-- A step of another loop, or of no loop, means nothing for session `k`. -/
theorem other_shape {s s' : State} {e : System.Event} {x : List Obs} {k : Nat} (he : System.at? e ≠ some k)
    (h : s.onSystem env key endErr auto e = .ok (s', x)) : Shape env key endErr k s s' x := by
  obtain ⟨t, o, h1, rfl, rfl⟩ := onSystem_inv h
  obtain ⟨xs, hl, -⟩ := System.elsewhere he h1
  refine .quiet ?_ (.same _) rfl (by rw [hl]) (by rw [hl]; exact id) (by rw [hl])
  cases ha : System.at? e with
  | some j => exact quiet_acts (fun hj => he (by rw [ha, hj])) (System.acts_tag ha h1)
  | none =>
    apply quiet_acts_own
    cases e <;> simp only [System.at?, reduceCtorEq] at ha
    case addHandler id h' =>
      cases h' <;> cases h1 <;> simp
    case addRequest j r =>
      cases h1
      simp

theorem message_quiet {s t : System.State} {k : Nat} {u : UserCode} {m : Message Entity} {x : List (Nat × Act)} (h : s.message k u m = .ok (t, x)) :
    (t.conns k).recv = (s.conns k).recv ∧ (t.conns k).place = .noted m ∧ ∀ a ∈ x, ∀ i m, a.2 ≠ .handle i m := by
  unfold System.State.message at h
  obtain ⟨⟨l, y⟩, h1, h2⟩ := Res.bind_ok h
  cases h2
  refine ⟨by simp [System.State.put], by simp [System.State.put], ?_⟩
  intro a ha i m'
  obtain ⟨b, hb, rfl⟩ := List.mem_map.1 ha
  unfold Loop.message at h1
  simp only at h1
  generalize (if m.header.iccID > 0 then { s.view k with icc := m.header.iccID } else s.view k) = s0 at h1
  obtain ⟨serial, -, h1⟩ := Res.bind_ok h1
  split at h1
  · cases h1; cases hb
  · split at h1
    · cases h1; cases hb
    · obtain ⟨-, -, h2⟩ := Res.bind_ok h1
      cases h2
      simp at hb
      subst hb
      simp

/-- The steps of a loop between receiving and dispatching. -/
def Between (k : Nat) : System.Event → Prop
  | .process j _ _ | .check j | .merge j _ | .note j _ => j = k
  | _ => False

theorem between_step {s t : System.State} {e : System.Event} {x : List (Nat × Act)} {k : Nat} (he : Between k e)
    (h : s.step env key endErr auto e = .ok (t, x)) :
    (t.conns k).recv = (s.conns k).recv ∧ (t = s ∨ (Mid (s.conns k).place ∧ (t.conns k).place ≠ .ended)) ∧ ∀ a ∈ x, ∀ i m, a.2 ≠ .handle i m := by
  have nothing : Res.ok (s, ([] : List (Nat × Act))) = .ok (t, x) →
      (t.conns k).recv = (s.conns k).recv ∧ (t = s ∨ (Mid (s.conns k).place ∧ (t.conns k).place ≠ .ended)) ∧ ∀ a ∈ x, ∀ i m, a.2 ≠ .handle i m := by
    intro h; cases h; exact ⟨rfl, .inl rfl, by simp⟩
  have msg : ∀ {u m}, Mid (s.conns k).place → s.message k u m = .ok (t, x) →
      (t.conns k).recv = (s.conns k).recv ∧ (t = s ∨ (Mid (s.conns k).place ∧ (t.conns k).place ≠ .ended)) ∧ ∀ a ∈ x, ∀ i m, a.2 ≠ .handle i m := by
    intro u m hm h
    obtain ⟨h1, h2, h3⟩ := message_quiet h
    exact ⟨h1, .inr ⟨hm, by rw [h2]; simp⟩, h3⟩
  cases e <;> simp only [Between] at he <;> subst he <;> simp only [System.State.step] at h
  case process j o u =>
    split at h
    · rename_i m hp
      have hm : Mid (s.conns j).place := by rw [hp]; exact ⟨by simp, by simp⟩
      split at h
      · split at h
        · exact msg hm h
        · split at h
          · split at h
            · simp only [Res.ok.injEq, System.State.store] at h
              split at h <;>
              · obtain ⟨rfl, rfl⟩ := Prod.mk.inj h
                exact ⟨by simp [System.State.goto, System.State.put], .inr ⟨hm, by simp [System.State.goto, System.State.put]⟩, by simp [System.State.acts]⟩
            · cases h
          · exact msg hm h
      · cases h
        exact ⟨by simp [System.State.goto, System.State.put], .inr ⟨hm, by simp [System.State.goto, System.State.put]⟩, by simp⟩
    · exact nothing h
  case check j =>
    split at h
    · rename_i m b p hp
      have hm : Mid (s.conns j).place := by rw [hp]; exact ⟨by simp, by simp⟩
      split at h
      · cases h
        exact ⟨by simp [System.State.goto, System.State.put], .inr ⟨hm, by simp [System.State.goto, System.State.put]⟩, by simp⟩
      · obtain ⟨full, -, h⟩ := Res.bind_ok h
        split at h <;>
        · cases h
          exact ⟨by simp [System.State.goto, System.State.put], .inr ⟨hm, by simp [System.State.goto, System.State.put]⟩, by simp⟩
    · exact nothing h
  case merge j o =>
    split at h
    · rename_i m b p hp
      have hm : Mid (s.conns j).place := by rw [hp]; exact ⟨by simp, by simp⟩
      obtain ⟨⟨f, content⟩, -, h⟩ := Res.bind_ok h
      cases content <;>
      · cases h
        exact ⟨by simp [System.State.goto, System.State.put], .inr ⟨hm, by simp [System.State.goto, System.State.put]⟩, by simp⟩
    · exact nothing h
  case note j u =>
    split at h
    · rename_i m hp
      exact msg (by rw [hp]; exact ⟨by simp, by simp⟩) h
    · exact nothing h

theorem between_shape {s s' : State} {e : System.Event} {x : List Obs} {k : Nat} (he : Between k e)
    (h : s.onSystem env key endErr auto e = .ok (s', x)) : Shape env key endErr k s s' x := by
  obtain ⟨t, o, h1, rfl, rfl⟩ := onSystem_inv h
  obtain ⟨h2, h3, h4⟩ := between_step he h1
  refine .quiet (quiet_acts_own h4) (.same _) rfl h2 ?_ ?_
  · rcases h3 with rfl | ⟨h3, -⟩
    · exact id
    · exact fun _ => h3
  · rcases h3 with rfl | ⟨h3, h5⟩
    · exact Iff.rfl
    · exact ⟨fun h => absurd h h5, fun h => absurd h h3.2⟩

theorem dispatch_acts {s t : System.State} {x : List (Nat × Act)} {k : Nat} {m : Message Entity} (hp : (s.conns k).place = .noted m)
    (h : s.step env key endErr auto (.dispatch k .returns) = .ok (t, x)) :
    (t.conns k).recv = (s.conns k).recv ∧ (t.conns k).place = .waiting ∧
      ((s.handlers m.header.msgID = none ∧ x = [(k, .unhandled m)]) ∨
       ∃ hd, s.handlers m.header.msgID = some hd ∧ x = [(k, .touch), (k, .handle hd m)]) := by
  simp only [System.State.step, hp] at h
  obtain ⟨⟨l, y⟩, h1, h2⟩ := Res.bind_ok h
  cases h2
  refine ⟨by simp [System.State.goto, System.State.put], by simp [System.State.goto, System.State.put], ?_⟩
  unfold Loop.dispatch at h1
  rw [show (s.view k).handlers = s.handlers from rfl] at h1
  split at h1
  · rename_i hn
    cases h1
    exact .inl ⟨hn, rfl⟩
  · rename_i hd hn
    obtain ⟨-, -, h2⟩ := Res.bind_ok h1
    cases h2
    exact .inr ⟨hd, hn, rfl⟩

theorem receive_acts {s t : System.State} {x : List (Nat × Act)} {k : Nat} (hp : (s.conns k).place = .waiting)
    (h : s.step env key endErr auto (.receive k) = .ok (t, x)) :
    (∃ m, Codec.receive (entityCodec env) key endErr (s.conns k).recv = (.ok m, (t.conns k).recv) ∧ (t.conns k).place = .received m ∧ x = []) ∨
    ((t.conns k).place = .ended ∧ x = [(k, .closed)] ∧ ∃ e r, Codec.receive (entityCodec env) key endErr (s.conns k).recv = (.err e, r)) := by
  simp only [System.State.step, hp] at h
  split at h
  · rename_i m r hr
    cases h
    exact .inl ⟨m, by simp [System.State.put, hr], by simp [System.State.put], rfl⟩
  · rename_i e r hr
    cases h
    exact .inr ⟨by simp [System.State.put], rfl, e, r, hr⟩
  · cases h

theorem server_shape {s s' : State} {e : Server.Event} {x : List Obs} {k : Nat} (hn : s.server.sessions (s.server.count + 1) = none)
    (he : ∀ m, e = .move k m → Major m = false) (h : s.onServer e = .ok (s', x)) : Shape env key endErr k s s' x := by
  obtain ⟨t, o, h1, rfl, rfl⟩ := onServer_inv h
  obtain ⟨h2, h3⟩ := minor_step k hn he h1
  refine .quiet ?_ h2 rfl rfl id Iff.rfl
  intro o ho
  obtain ⟨a, ha, rfl⟩ := List.mem_map.1 ho
  exact h3 a ha

theorem nothing_shape {s : State} {k : Nat} : Shape env key endErr k s s [] := .quiet (by simp) (.same _) rfl rfl id Iff.rfl

theorem between_or_other {s s' : State} {e : System.Event} {x : List Obs} {j k : Nat} (he : Between j e) (ha : System.at? e = some j)
    (h : s.onSystem env key endErr auto e = .ok (s', x)) : Shape env key endErr k s s' x := by
  by_cases hj : j = k
  · subst hj
    exact between_shape he h
  · exact other_shape (by rw [ha]; simpa using hj) h

theorem receive_shape {s s' : State} {x : List Obs} {j k : Nat} (hn : s.server.sessions (s.server.count + 1) = none)
    (hl : placeOf s.server j = some .looping) (hb : s.busy j = .idle) (hp : (s.sys.conns j).place = .waiting)
    (h : s.receive env key endErr auto j = .ok (s', x)) : Shape env key endErr k s s' x := by
  obtain ⟨t, u, o, ht, h1, h2⟩ := receive_inv h
  have htp : (t.conns j).place = .waiting := by
    rw [ht]
    split
    · simp [hangUp, System.State.put, hp]
    · exact hp
  have htr : (t.conns j).recv = if isClosed s.server j then ⟨(s.sys.conns j).recv.buffer, []⟩ else (s.sys.conns j).recv := by
    rw [ht]
    split
    · simp [hangUp, System.State.put]
    · rfl
  have hto : ∀ i, i ≠ j → t.conns i = s.sys.conns i := by
    intro i hi
    rw [ht]
    split
    · simp [hangUp, System.State.put, hi]
    · rfl
  have h3 := receive_acts htp h1
  by_cases hj : j = k
  · subst hj
    rcases h3 with ⟨m, g1, g2, rfl⟩ | ⟨g2, rfl, g7⟩
    · rcases h2 with ⟨m', g3, rfl, rfl⟩ | ⟨g3, -⟩ | ⟨g3, -⟩
      · rw [g2] at g3
        cases g3
        exact .receive m hl rfl hb rfl (by rw [← htr]; exact g1) g2
      · rw [g2] at g3; cases g3
      · exact absurd g2 (g3 m)
    · rcases h2 with ⟨m', g3, -⟩ | ⟨-, v, p, g4, rfl, rfl⟩ | ⟨-, g3, -⟩
      · rw [g2] at g3; cases g3
      · obtain ⟨g5, g6, g8⟩ := leave_step g4 hl
        exact .leave p hl g5 hb rfl g2 g6 (by rw [← htr]; exact g7) g8
      · exact absurd g2 g3
  · have hu : (u.conns k).recv = (s.sys.conns k).recv ∧ (u.conns k).place = (s.sys.conns k).place := by
      obtain ⟨xs, hl, -⟩ := System.elsewhere (k := k) (by simpa [System.at?] using hj) h1
      rw [hl]
      exact ⟨by rw [hto k (Ne.symm hj)], by rw [hto k (Ne.symm hj)]⟩
    have hq : ∀ a ∈ o.map (fun a => Obs.act a.1 a.2), Quiet k a := quiet_acts hj (System.acts_tag (j := j) rfl h1)
    rcases h2 with ⟨m', -, rfl, rfl⟩ | ⟨-, v, p, g4, rfl, rfl⟩ | ⟨-, -, rfl, rfl⟩
    · refine .quiet ?_ (.same _) rfl hu.1 (by rw [show (State.sys _).conns k = u.conns k from rfl, hu.2]; exact id) (by rw [hu.2])
      intro a ha
      rcases List.mem_append.1 ha with ha | ha
      · exact hq a ha
      · simp at ha
        subst ha
        exact hj
    · obtain ⟨g5, g6⟩ := minor_step k hn (by intro m hm; cases hm; exact absurd rfl hj) g4
      refine .quiet ?_ g5 rfl hu.1 (by rw [show (State.sys _).conns k = u.conns k from rfl, hu.2]; exact id) (by rw [hu.2])
      intro a ha
      rcases List.mem_append.1 ha with ha | ha
      · exact hq a ha
      · obtain ⟨b, hb, rfl⟩ := List.mem_map.1 ha
        exact g6 b hb
    · exact .quiet hq (.same _) rfl hu.1 (by rw [show (State.sys _).conns k = u.conns k from rfl, hu.2]; exact id) (by rw [hu.2])

theorem dispatch_shape {s s' : State} {x : List Obs} {j k : Nat} {n : Int} {m : Message Entity}
    (hn : s.server.sessions (s.server.count + 1) = none) (hl : placeOf s.server j = some .looping) (hb : s.busy j = .idle)
    (hp : (s.sys.conns j).place = .noted m) (h : s.dispatch env key endErr auto j n m = .ok (s', x)) : Shape env key endErr k s s' x := by
  obtain ⟨u, o, h1, h2⟩ := dispatch_inv h
  obtain ⟨h3, h4, h5⟩ := dispatch_acts hp h1
  by_cases hj : j = k
  · subst hj
    rcases h2 with ⟨g1, rfl, rfl⟩ | ⟨hd, v, p, g1, g2, rfl, rfl⟩
    · rcases h5 with ⟨-, rfl⟩ | ⟨hd, g2, -⟩
      · refine .quiet (by simp [Quiet]) (.same _) rfl h3 ?_ ?_
        · intro hm; exact absurd h4 hm.1
        · rw [h4, hp]; simp
      · rw [g1] at g2; cases g2
    · rcases h5 with ⟨g3, -⟩ | ⟨hd', g3, rfl⟩
      · rw [g1] at g3; cases g3
      · rw [g1] at g3
        cases g3
        rcases restart_step g2 with ⟨-, -, -, g4⟩ | ⟨g4, -⟩ | ⟨-, g4, rfl⟩
        · exact absurd hl g4
        · rw [hl] at g4; cases g4
        · exact .dispatch n hd m hl g4 hb (by simp) hp h4 h3
  · have hu : (u.conns k).recv = (s.sys.conns k).recv ∧ (u.conns k).place = (s.sys.conns k).place := by
      obtain ⟨xs, hl, -⟩ := System.elsewhere (k := k) (by simpa [System.at?] using hj) h1
      rw [hl]
      exact ⟨rfl, rfl⟩
    have hq : ∀ a ∈ o.map (fun a => Obs.act a.1 a.2), Quiet k a := quiet_acts hj (System.acts_tag (j := j) rfl h1)
    rcases h2 with ⟨-, rfl, rfl⟩ | ⟨hd, v, p, -, g2, rfl, rfl⟩
    · exact .quiet hq (.same _) rfl hu.1 (by rw [show (State.sys _).conns k = u.conns k from rfl, hu.2]; exact id) (by rw [hu.2])
    · obtain ⟨g5, g6⟩ := minor_step k hn (by intro m hm; cases hm; exact absurd rfl hj) g2
      refine .quiet ?_ g5 (by simp [Ne.symm hj]) hu.1 (by rw [show (State.sys _).conns k = u.conns k from rfl, hu.2]; exact id) (by rw [hu.2])
      intro a ha
      rcases List.mem_append.1 ha with ha | ha
      · obtain ⟨b, hb, rfl⟩ := List.mem_map.1 ha
        exact g6 b hb
      · exact hq a ha

/-- Every step means one of these things. -/
theorem step_shape {s s' : State} {e : Event} {x : List Obs} (k : Nat) (hn : s.server.sessions (s.server.count + 1) = none) (hf : ∀ k, Fits k s)
    (h : s.step env key endErr auto e = .ok (s', x)) : Shape env key endErr k s s' x := by
  cases e with
  | accept => exact server_shape hn (by simp) h
  | tick n => exact server_shape hn (by simp) h
  | lookup => exact server_shape hn (by simp) h
  | closeFound => exact server_shape hn (by simp) h
  | move j m =>
    by_cases hm : Major m = true ∧ j = k
    · obtain ⟨hm, rfl⟩ := hm
      cases m <;> simp only [Major, Bool.false_eq_true] at hm
      case leave => cases h; exact nothing_shape
      case restart n =>
        simp only [State.step] at h
        split at h
        · cases h; exact nothing_shape
        · rename_i hl
          rw [inLoop_iff] at hl
          obtain ⟨t, o, h1, rfl, rfl⟩ := onServer_inv h
          rcases restart_step h1 with ⟨rfl, rfl, -⟩ | ⟨g1, g2, rfl⟩ | ⟨g1, -⟩
          · exact nothing_shape
          · exact .first n g1 g2 rfl rfl
          · exact absurd g1 hl
      case arm =>
        obtain ⟨t, o, h1, rfl, rfl⟩ := onServer_inv h
        rcases arm_step h1 with ⟨rfl, rfl⟩ | ⟨g1, g2, rfl⟩ | ⟨g1, g2, rfl⟩
        · exact nothing_shape
        · exact .armFirst g1 g2 rfl rfl
        · exact .arm g1 g2 rfl rfl
    · have he : ∀ m', Server.Event.move j m = .move k m' → Major m' = false := by
        intro m' he
        cases he
        simpa using hm
      cases m
      case leave => cases h; exact nothing_shape
      case restart n =>
        simp only [State.step] at h
        split at h
        · cases h; exact nothing_shape
        · exact server_shape hn he h
      all_goals exact server_shape hn he h
  | receive j =>
    simp only [State.step] at h
    split at h
    · rename_i hc
      exact receive_shape hn ((inLoop_iff _ _).1 hc.1) hc.2.1 hc.2.2 h
    · cases h; exact nothing_shape
  | process j o u => exact between_or_other (e := .process j o u) rfl rfl h
  | check j => exact between_or_other (e := .check j) rfl rfl h
  | merge j o => exact between_or_other (e := .merge j o) rfl rfl h
  | note j u => exact between_or_other (e := .note j u) rfl rfl h
  | dispatch j n =>
    simp only [State.step] at h
    split at h
    · rename_i m hp
      obtain ⟨h1, h2⟩ := (hf j).mid (by rw [hp]; exact ⟨by simp, by simp⟩)
      exact dispatch_shape hn h1 h2 hp h
    · cases h; exact nothing_shape
  | call j =>
    simp only [State.step] at h
    split at h
    · rename_i hd m hb
      split at h
      · rename_i hl
        cases h
        by_cases hj : j = k
        · subst hj
          exact .call hd m ((inLoop_iff _ _).1 hl) rfl hb (by simp) rfl
        · exact .quiet (by simp [Quiet, hj]) (.same _) (by simp [Ne.symm hj]) rfl id Iff.rfl
      · cases h; exact nothing_shape
    · cases h; exact nothing_shape
  | finish j u =>
    simp only [State.step] at h
    split at h
    · rename_i hd m hb
      obtain ⟨-, -, h⟩ := Res.bind_ok h
      cases h
      by_cases hj : j = k
      · subst hj
        exact .finish hd m u rfl hb (by simp) rfl
      · exact .quiet (by simp [Quiet, hj]) (.same _) (by simp [Ne.symm hj]) rfl id Iff.rfl
    · cases h; exact nothing_shape
  | addHandler id h' => exact other_shape (e := .addHandler id h') (by simp [System.at?]) h
  | addRequest j r => exact other_shape (e := .addRequest j r) (by simp [System.at?]) h

end
end Verif.World
