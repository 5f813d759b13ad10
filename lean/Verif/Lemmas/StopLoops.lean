import Verif.Lemmas.StopFair
import Verif.Lemmas.HangUp
/-! # Lemmas: the loops of the sessions in the long run -/

namespace Verif.World
open Handler Session Spec
variable {env : Env} {key : Option DecKey} {endErr : Err} {auto : Bool}

/-- How many bytes are not used yet. -/
def unused (c : RecvState) : Nat := (c.buffer ++ c.reads.flatten).length

theorem receive_uses {c q : RecvState} {m : Message Entity} (h : Codec.receive (entityCodec env) key endErr c = (.ok m, q)) : unused q < unused c := by
  obtain ⟨used, f, hu, hf, -, -, hlen⟩ := HangUp.receive_ok h
  show (q.buffer ++ q.reads.flatten).length < (c.buffer ++ c.reads.flatten).length
  rw [hu]
  simp only [List.length_append, List.flatten_append]
  rcases hlen with ⟨rfl, hb⟩ | ⟨-, piece, hp, -, hlt⟩
  · have := congrArg List.length hb
    have hfl : 0 < f.length := by
      obtain ⟨w, rfl, -⟩ := hf
      simp
    simp only [List.length_append, List.flatten_nil, List.length_nil] at this ⊢
    omega
  · have : piece.length ≤ used.flatten.length := by
      obtain ⟨a, b, rfl⟩ := List.append_of_mem hp
      simp only [List.flatten_append, List.flatten_cons, List.length_append]
      omega
    omega

/-- What is left before the loop. -/
def startup : Option Server.Place → Nat
  | some .accepted => 6
  | some .registered => 5
  | some (.starting false) => 4
  | some (.starting true) => 3
  | some .timed => 2
  | some .checked => 1
  | _ => 0

/-- What is left of the work on a message. -/
def sysRank : System.Place → Nat
  | .received _ => 10
  | .stored .. => 9
  | .full .. => 8
  | .merged _ => 7
  | .noted _ => 6
  | _ => 0

/-- The same, with the handler. -/
def pos (q : Option Server.Place) (p : System.Place) : Busy → Nat
  | .idle => sysRank p
  | .chosen .. => match q with | some (.updating false) => 5 | some (.updating true) => 4 | _ => 3
  | .running .. => 2

/-- What is left for the goroutine of session `k`. -/
def remains (s : State) (k : Nat) : Nat :=
  if placeOf s.server k = some .ended then 0
  else 1 + startup (placeOf s.server k) + 16 * unused (s.sys.conns k).recv + pos (placeOf s.server k) (s.sys.conns k).place (s.busy k)

theorem sysRank_mid {p : System.Place} : 0 < sysRank p ↔ Mid p := by cases p <;> simp [sysRank, Mid]

theorem message_rank {s t : System.State} {j : Nat} {u : UserCode} {m : Message Entity} {x : List (Nat × Act)} (h : s.message j u m = .ok (t, x)) (k : Nat) :
    (k = j → (t.conns k).place = .noted m) ∧ (k ≠ j → t.conns k = s.conns k) := by
  unfold System.State.message at h
  obtain ⟨⟨l, y⟩, -, h2⟩ := Res.bind_ok h
  cases h2
  constructor
  · rintro rfl; simp [System.State.put]
  · intro hk; simp [System.State.put, hk]

theorem goto_place (s : System.State) (j k : Nat) (p : System.Place) : ((s.goto j p).conns k).place = if k = j then p else (s.conns k).place := by
  simp only [System.State.goto, System.State.put]
  split <;> rfl

/-- The work on a message goes on in one direction. -/
theorem sys_rank {s t : System.State} {e : System.Event} {x : List (Nat × Act)} (h : s.step env key endErr auto e = .ok (t, x)) {k : Nat}
    (hmid : Mid (t.conns k).place → Mid (s.conns k).place) (hend : (t.conns k).place = .ended → (s.conns k).place = .ended) :
    (t.conns k).place = (s.conns k).place ∨ sysRank (t.conns k).place < sysRank (s.conns k).place := by
  have msg : ∀ {j u m x} {p : System.Place}, (s.conns j).place = p → 6 < sysRank p → s.message j u m = .ok (t, x) →
      (t.conns k).place = (s.conns k).place ∨ sysRank (t.conns k).place < sysRank (s.conns k).place := by
    intro j u m x p hp hr hm
    obtain ⟨g1, g2⟩ := message_rank hm k
    by_cases hk : k = j
    · right; rw [g1 hk]; subst hk; rw [hp]; exact hr
    · left; rw [g2 hk]
  have go : ∀ {s' : System.State} {j : Nat} {p : System.Place}, s'.conns = s.conns → sysRank p < sysRank (s.conns j).place →
      ((s'.goto j p).conns k).place = (s.conns k).place ∨ sysRank ((s'.goto j p).conns k).place < sysRank (s.conns k).place := by
    intro s' j p h1 h2
    rw [goto_place]
    split
    · rename_i hk; right; rw [hk]; exact h2
    · left; rw [h1]
  cases e with
  | receive j =>
    by_cases hj : k = j
    · subst hj
      by_cases hw : (s.conns k).place = .waiting
      · have hnm : ¬ Mid (t.conns k).place := fun hm => (hmid hm).1 hw
        have hne : (t.conns k).place ≠ .ended := fun he => by rw [hend he] at hw; cases hw
        left
        rw [hw]
        exact Decidable.byContradiction fun hn => hnm ⟨hn, hne⟩
      · left
        simp only [System.State.step] at h
        cases h
        rfl
    · left
      simp only [System.State.step] at h
      repeat' split at h
      all_goals first
        | (cases h; done)
        | (cases h; simp [System.State.put, hj])
  | process j o u =>
    simp only [System.State.step] at h
    split at h
    · rename_i m hp
      have h10 : sysRank (s.conns j).place = 10 := by rw [hp]; rfl
      split at h
      · split at h
        · exact msg hp (by simp [sysRank]) h
        · split at h
          · split at h
            · unfold System.State.store at h
              simp only at h
              split at h <;> cases h <;> exact go rfl (by rw [h10]; simp [sysRank])
            · cases h
          · exact msg hp (by simp [sysRank]) h
      · cases h; exact go rfl (by rw [h10]; simp [sysRank])
    · cases h; exact .inl rfl
  | check j =>
    simp only [System.State.step] at h
    split at h
    · rename_i m b q hp
      have h9 : sysRank (s.conns j).place = 9 := by rw [hp]; rfl
      split at h
      · cases h; exact go rfl (by rw [h9]; simp [sysRank])
      · obtain ⟨full, -, h2⟩ := Res.bind_ok h
        split at h2 <;> cases h2 <;> exact go rfl (by rw [h9]; simp [sysRank])
    · cases h; exact .inl rfl
  | merge j o =>
    simp only [System.State.step] at h
    split at h
    · rename_i m b q hp
      have h9 : sysRank (s.conns j).place = 8 := by rw [hp]; rfl
      obtain ⟨r, -, h2⟩ := Res.bind_ok h
      split at h2 <;> cases h2 <;> exact go rfl (by rw [h9]; simp [sysRank])
    · cases h; exact .inl rfl
  | note j u =>
    simp only [System.State.step] at h
    split at h
    · rename_i m hp
      exact msg hp (by simp [sysRank]) h
    · cases h; exact .inl rfl
  | dispatch j u =>
    simp only [System.State.step] at h
    split at h
    · rename_i m hp
      obtain ⟨⟨a, y⟩, -, h2⟩ := Res.bind_ok h
      cases h2
      exact go rfl (by rw [hp]; simp [sysRank])
    · cases h; exact .inl rfl
  | addHandler id hd =>
    cases hd <;> (simp only [System.State.step] at h; cases h; exact .inl rfl)
  | addRequest j r =>
    simp only [System.State.step] at h
    cases h
    left
    by_cases hk : k = j
    · subst hk; simp [System.State.put]
    · simp [System.State.put, hk]

/-- The goroutine of session `k` is where it was. -/
def Still (k : Nat) (s s' : State) : Prop :=
  placeOf s'.server k = placeOf s.server k ∧ s'.busy k = s.busy k ∧ (s'.sys.conns k).place = (s.sys.conns k).place

theorem before_place {s : State} {t : System.State} (h : Before s t) (k : Nat) : (t.conns k).place = (s.sys.conns k).place := by
  rcases h with rfl | ⟨j, rfl⟩
  · rfl
  · by_cases hk : k = j
    · subst hk; simp [hangUp, System.State.put]
    · simp [hangUp, System.State.put, hk]

theorem world_rank {p : Int} {s s' : State} {e : Event} {log x : List Obs} (hg : Good p s log) (h : s.step env key endErr auto e = .ok (s', x)) {k : Nat}
    (hk : placeOf s.server k ≠ none) : remains s' k < remains s k ∨ (Still k s s' ∧ remains s' k = remains s k ∧ ∀ o ∈ x, Quiet k o) := by
  have hf := hg.fits k
  have hs := good_shape hg h k
  have hl := (step_parts h).2
  cases hs with
  | quiet hq hm hb hr hmid hend =>
    have hp : (s'.sys.conns k).place = (s.sys.conns k).place ∨ sysRank (s'.sys.conns k).place < sysRank (s.sys.conns k).place := by
      rcases hl with ⟨h1, -⟩ | ⟨t, e, h1, h2⟩
      · rw [h1]; exact .inl rfl
      · rw [← before_place h1] at hmid hend ⊢
        exact sys_rank h2 hmid hend.1
    have hf' := fits_shape hf (good_shape hg h k)
    obtain ⟨f1, f2, f3, f4, f5⟩ := hf
    rw [← sysRank_mid] at f2
    unfold remains Still
    rw [hb, hr]
    generalize placeOf s'.server k = q' at hm ⊢
    generalize placeOf s.server k = q at *
    generalize (s'.sys.conns k).place = r' at *
    generalize (s.sys.conns k).place = r at *
    generalize s.busy k = b at *
    generalize unused (s.sys.conns k).recv = u
    cases hm with
    | accept => exact absurd rfl hk
    | same =>
      rcases hp with rfl | hp
      · exact .inr ⟨⟨rfl, rfl, rfl⟩, rfl, hq⟩
      · obtain ⟨g1, g2⟩ := f2 (by omega)
        subst g1 g2
        left
        simp [pos]
        omega
    | cancel =>
      left
      cases b with
      | idle => exact absurd rfl (f1 rfl false)
      | running a m => have := f5 a m rfl; simp at this
      | chosen a m => simp [pos, startup]
    | _ =>
      left
      have hb0 : b = .idle := by
        cases b with
        | idle => rfl
        | running a m => have := f5 a m rfl; simp at this
        | chosen a m => have := f4 a m rfl; simp at this
      subst hb0
      have hle : sysRank r' ≤ sysRank r := by rcases hp with rfl | hp <;> omega
      simp [pos, startup]
      omega
  | first n a b c d =>
    left
    have hbi : pos (some (.starting false)) (s.sys.conns k).place (s.busy k) ≤ pos (some .registered) (s.sys.conns k).place (s.busy k) := by
      cases s.busy k <;> simp [pos]
    simp only [remains, a, b, c, d, startup]
    simp
    omega
  | armFirst a b c d =>
    left
    have hbi : pos (some .timed) (s.sys.conns k).place (s.busy k) ≤ pos (some (.starting true)) (s.sys.conns k).place (s.busy k) := by
      cases s.busy k <;> simp [pos]
    simp only [remains, a, b, c, d, startup]
    simp
    omega
  | arm a b c d =>
    left
    have hbi : pos (some .looping) (s.sys.conns k).place (s.busy k) < pos (some (.updating true)) (s.sys.conns k).place (s.busy k) := by
      cases hx : s.busy k with
      | idle => exact absurd a (hf.idle hx true)
      | running i m => have := hf.running i m hx; rw [a] at this; simp at this
      | chosen i m => simp [pos]
    simp only [remains, a, b, c, d, startup]
    simp
    omega
  | receive m a b c d f g =>
    left
    have hu : unused (s'.sys.conns k).recv < unused (s.sys.conns k).recv := by
      refine Nat.lt_of_lt_of_le (receive_uses f) ?_
      split
      · simp [unused]
      · exact Nat.le_refl _
    simp only [remains, b, a, c, d, g, pos, sysRank, startup]
    simp
    omega
  | leave o a b c d f g =>
    left
    simp [remains, a, b]
    omega
  | dispatch n i m a b c d f g r =>
    left
    simp [remains, a, b, c, d, f, g, r, pos, sysRank, startup]
  | call i m a b c d f =>
    left
    simp [remains, a, b, c, d, f, pos, startup]
  | finish i m u a b c d =>
    left
    have hp := hf.running i m b
    have h0 : sysRank (s.sys.conns k).place = 0 := by
      have : ¬ 0 < sysRank (s.sys.conns k).place := fun h => by have := (hf.mid (sysRank_mid.1 h)).2; rw [b] at this; cases this
      omega
    simp [remains, a, b, c, d, pos, startup, hp, h0]

theorem place_stays {p : Int} {s s' : State} {e : Event} {log x : List Obs} (hg : Good p s log) (h : s.step env key endErr auto e = .ok (s', x)) {k : Nat}
    (hk : placeOf s.server k ≠ none) : placeOf s'.server k ≠ none := by
  cases good_shape hg h k with
  | quiet hq hm hb hr hmid hend =>
    generalize placeOf s'.server k = q' at hm ⊢
    generalize placeOf s.server k = q at *
    cases hm <;> simp_all
  | first n a b => rw [b]; simp
  | armFirst a b => rw [b]; simp
  | arm a b => rw [b]; simp
  | receive m a b => rw [b]; exact hk
  | leave o a b => rw [b]; simp
  | dispatch n i m a b => rw [b]; simp
  | call i m a b => rw [b]; exact hk
  | finish i m u a => rw [a]; exact hk

theorem rank_run {p : Int} {s s' : State} {es : List Event} {log x : List Obs} (hg : Good p s log) (h : s.run env key endErr auto es = .ok (s', x)) {k : Nat}
    (hk : placeOf s.server k ≠ none) : remains s' k < remains s k ∨ (Still k s s' ∧ remains s' k = remains s k ∧ ∀ o ∈ x, Quiet k o) := by
  induction es generalizing s log x with
  | nil => cases h; exact .inr ⟨⟨rfl, rfl, rfl⟩, rfl, by simp⟩
  | cons e es ih =>
    obtain ⟨t, y, z, h1, h2, rfl⟩ := run_cons_inv h
    have g1 := world_rank hg h1 hk
    have g2 := ih (good_step hg h1) h2 (place_stays hg h1 hk)
    rcases g1 with g1 | ⟨⟨a1, a2, a3⟩, g1, q1⟩ <;> rcases g2 with g2 | ⟨⟨b1, b2, b3⟩, g2, q2⟩
    · left; omega
    · left; omega
    · left; omega
    · exact .inr ⟨⟨b1.trans a1, b2.trans a2, b3.trans a3⟩, by omega, fun o ho => (List.mem_append.1 ho).elim (q1 o) (q2 o)⟩

theorem place_stays_run {p : Int} {s s' : State} {es : List Event} {log x : List Obs} (hg : Good p s log) (h : s.run env key endErr auto es = .ok (s', x)) {k : Nat}
    (hk : placeOf s.server k ≠ none) : placeOf s'.server k ≠ none := by
  induction es generalizing s log x with
  | nil => cases h; exact hk
  | cons e es ih =>
    obtain ⟨t, y, z, h1, h2, rfl⟩ := run_cons_inv h
    exact ih (good_step hg h1) h2 (place_stays hg h1 hk)

/-! ## The turns -/

theorem moved {s t : Server.State} {k : Nat} {m : Server.Move} {o : List Server.Obs} {q : Server.Place} (h : s.step (.move k m) = .ok (t, o))
    (hq : placeOf s k = some q) (hs : ∀ x : Server.Sess, x.place = q → ∃ y o, x.step k m = some (y, o) ∧ y.place ≠ q) : placeOf t k ≠ placeOf s k := by
  unfold placeOf at hq
  obtain ⟨x, hx, rfl⟩ := Option.map_eq_some_iff.1 hq
  obtain ⟨y, o', hy, hne⟩ := hs x rfl
  obtain ⟨-, ht⟩ := move_some hx hy h
  simp [placeOf, ht, hx, hne]

theorem server_turn {s s' : State} {k : Nat} {m : Server.Move} {x : List Obs} {q : Server.Place} (h : s.onServer (.move k m) = .ok (s', x))
    (hq : placeOf s.server k = some q) (hs : ∀ x : Server.Sess, x.place = q → ∃ y o, x.step k m = some (y, o) ∧ y.place ≠ q) : ¬ Still k s s' := by
  obtain ⟨t, o, h1, rfl, rfl⟩ := onServer_inv h
  exact fun hst => moved h1 hq hs hst.1

theorem onSystem_turn {s s' : State} {k : Nat} {e : System.Event} {x : List Obs} (h : s.onSystem env key endErr auto e = .ok (s', x))
    (hs : ∀ t y, s.sys.step env key endErr auto e = .ok (t, y) → (t.conns k).place ≠ (s.sys.conns k).place) : ¬ Still k s s' := by
  obtain ⟨t, o, h1, rfl, rfl⟩ := onSystem_inv h
  exact fun hst => hs _ _ h1 hst.2.2

theorem in_loop {s : Server.State} {k : Nat} : inLoop s k = true ↔ placeOf s k = some .looping := by
  unfold inLoop placeOf
  cases s.sessions k <;> simp

theorem process_turn {s t : System.State} {k : Nat} {o : Outcome} {u : UserCode} {m : Message Entity} {x : List (Nat × Act)} (hp : (s.conns k).place = .received m)
    (h : s.step env key endErr auto (.process k o u) = .ok (t, x)) : (t.conns k).place ≠ (s.conns k).place := by
  rw [hp]
  simp only [System.State.step, hp] at h
  split at h
  · split at h
    · rw [(message_rank h k).1 rfl]; simp
    · split at h
      · split at h
        · unfold System.State.store at h
          simp only at h
          split at h <;> cases h <;> simp [goto_place]
        · cases h
      · rw [(message_rank h k).1 rfl]; simp
  · cases h; simp [goto_place]

theorem check_turn {s t : System.State} {k : Nat} {m : Message Entity} {b : T0801} {p : Packet} {x : List (Nat × Act)} (hp : (s.conns k).place = .stored m b p)
    (h : s.step env key endErr auto (.check k) = .ok (t, x)) : (t.conns k).place ≠ (s.conns k).place := by
  rw [hp]
  simp only [System.State.step, hp] at h
  split at h
  · cases h; simp [goto_place]
  · obtain ⟨full, -, h2⟩ := Res.bind_ok h
    split at h2 <;> cases h2 <;> simp [goto_place]

theorem merge_turn {s t : System.State} {k : Nat} {m : Message Entity} {b : T0801} {p : Packet} {o : Outcome} {x : List (Nat × Act)}
    (hp : (s.conns k).place = .full m b p) (h : s.step env key endErr auto (.merge k o) = .ok (t, x)) : (t.conns k).place ≠ (s.conns k).place := by
  rw [hp]
  simp only [System.State.step, hp] at h
  obtain ⟨r, -, h2⟩ := Res.bind_ok h
  split at h2 <;> cases h2 <;> simp [goto_place]

theorem note_turn {s t : System.State} {k : Nat} {m : Message Entity} {u : UserCode} {x : List (Nat × Act)} (hp : (s.conns k).place = .merged m)
    (h : s.step env key endErr auto (.note k u) = .ok (t, x)) : (t.conns k).place ≠ (s.conns k).place := by
  rw [hp]
  simp only [System.State.step, hp] at h
  rw [(message_rank h k).1 rfl]
  simp

theorem dispatch_turn {s t : System.State} {k : Nat} {m : Message Entity} {u : UserCode} {x : List (Nat × Act)} (hp : (s.conns k).place = .noted m)
    (h : s.step env key endErr auto (.dispatch k u) = .ok (t, x)) : (t.conns k).place ≠ (s.conns k).place := by
  rw [hp]
  simp only [System.State.step, hp] at h
  obtain ⟨r, -, h2⟩ := Res.bind_ok h
  cases h2
  simp [goto_place]

theorem receive_turn {s t : System.State} {k : Nat} {x : List (Nat × Act)} (hp : (s.conns k).place = .waiting)
    (h : s.step env key endErr auto (.receive k) = .ok (t, x)) : (t.conns k).place ≠ .waiting := by
  simp only [System.State.step, hp] at h
  split at h <;> cases h <;> simp [System.State.put]

end Verif.World

namespace Verif.Shutdown
open Handler Session Spec Spec.Stop World
variable {env : Env} {key : Option DecKey} {endErr : Err} {auto : Bool} {p : Int} {ev : Nat → Event} {st : Nat → State} {log : Nat → List Obs}

/-- A turn brings the goroutine of session `k` closer to its end. -/
theorem Endless.less (h : Endless env key endErr auto p ev st log) {k n : Nat} (hk : placeOf (st n).world.server k ≠ none) {q : Event → Prop} (hq : Again ev q)
    (hgo : ∀ s s' x e, Still k (st n).world s → World.State.step env key endErr auto s e = .ok (s', x) → q (.world e) → ¬ Still k s s')
    (hw : ∀ e, q e → ∃ e', e = .world e' ∧ e' ≠ .accept) :
    ∃ m, n ≤ m ∧ remains (st m).world k < remains (st n).world k := by
  have still {j : Nat} (hj : Still k (st n).world (st j).world) : placeOf (st j).world.server k ≠ none := by rw [hj.1]; exact hk
  have one {j : Nat} (hj : Still k (st n).world (st j).world) (hr : remains (st j).world k = remains (st n).world k) :
      (Still k (st j).world (st (j + 1)).world ∧ Still k (st n).world (st (j + 1)).world ∧ remains (st (j + 1)).world k = remains (st n).world k) ∨
        remains (st (j + 1)).world k < remains (st n).world k := by
    obtain ⟨x, hx, -⟩ := h.step j
    obtain ⟨evs, h1⟩ := world_step hx
    rcases rank_run (h.inv j).good h1 (still hj) with g | ⟨⟨b1, b2, b3⟩, g, -⟩
    · right; omega
    · exact .inl ⟨⟨b1, b2, b3⟩, ⟨b1.trans hj.1, b2.trans hj.2.1, b3.trans hj.2.2⟩, by omega⟩
  refine hq.until (Q := fun j => Still k (st n).world (st j).world ∧ remains (st j).world k = remains (st n).world k) ⟨⟨rfl, rfl, rfl⟩, rfl⟩ ?_ ?_
  · rintro j - ⟨h1, h2⟩
    rcases one h1 h2 with ⟨-, g⟩ | g
    · exact .inl g
    · exact .inr g
  · rintro j - ⟨h1, h2⟩ he
    rcases one h1 h2 with ⟨g, -⟩ | g
    · exfalso
      obtain ⟨x, hx, -⟩ := h.step j
      obtain ⟨e, he', hne⟩ := hw _ he
      rw [he'] at hx he
      have hx : (st j).onWorld env key endErr auto e = .ok (st (j + 1), x) := by
        rw [← hx]
        cases e <;> first | rfl | exact absurd rfl hne
      unfold State.onWorld at hx
      obtain ⟨⟨w, y⟩, h3, h4⟩ := Res.bind_ok hx
      simp only [Res.ok.injEq, Prod.mk.injEq] at h4
      rw [← h4.1] at g
      exact hgo _ _ _ _ h1 h3 he g
    · exact g

theorem Endless.less_move (h : Endless env key endErr auto p ev st log) {k n : Nat} (hk : placeOf (st n).world.server k ≠ none) {q : Server.Place} {mv : Server.Move}
    (hp : placeOf (st n).world.server k = some q) (ha : Again ev (· = .world (.move k mv))) (h1 : ∀ now, mv ≠ .restart now) (h2 : mv ≠ .leave)
    (hs : ∀ x : Server.Sess, x.place = q → ∃ y o, x.step k mv = some (y, o) ∧ y.place ≠ q) :
    ∃ m, n ≤ m ∧ remains (st m).world k < remains (st n).world k := by
  refine h.less hk ha ?_ (fun e he => ⟨_, he, by simp⟩)
  intro s s' x e hst hstep he
  cases he
  have hstep : s.onServer (.move k mv) = .ok (s', x) := by
    rw [← hstep]
    cases mv <;> first | rfl | exact absurd rfl (h1 _) | exact absurd rfl h2
  exact server_turn hstep (hst.1.trans hp) hs

theorem Endless.less_restart (h : Endless env key endErr auto p ev st log) {k n : Nat} (hk : placeOf (st n).world.server k ≠ none)
    (hp : placeOf (st n).world.server k = some .registered) (ha : Again ev fun e => ∃ now, e = .world (.move k (.restart now))) :
    ∃ m, n ≤ m ∧ remains (st m).world k < remains (st n).world k := by
  refine h.less hk ha ?_ (fun e he => by obtain ⟨now, rfl⟩ := he; exact ⟨_, rfl, by simp⟩)
  rintro s s' x e hst hstep ⟨now, he⟩
  cases he
  have hl : ¬ inLoop s.server k = true := by rw [in_loop, hst.1, hp]; simp
  simp only [World.State.step, if_neg hl] at hstep
  exact server_turn hstep (hst.1.trans hp) fun x hx => ⟨_, _, by simp [Server.Sess.step, hx]; exact ⟨rfl, rfl⟩, by simp⟩

/-- The loop of a session that was made ends. -/
theorem Endless.leaves (h : Endless env key endErr auto p ev st log) {k : Nat} (hf : Runs ev k) {n : Nat} (hk : placeOf (st n).world.server k ≠ none) :
    ∃ m, n ≤ m ∧ placeOf (st m).world.server k = some .ended := by
  generalize hr : remains (st n).world k = r
  induction r using Nat.strongRecOn generalizing n with
  | ind r ih =>
    by_cases hend : placeOf (st n).world.server k = some .ended
    · exact ⟨n, Nat.le_refl _, hend⟩
    obtain ⟨m, h1, h2⟩ : ∃ m, n ≤ m ∧ remains (st m).world k < remains (st n).world k := by
      have hfit := (h.inv n).good.fits k
      cases hp : placeOf (st n).world.server k with
      | none => exact absurd hp hk
      | some q =>
        cases q with
        | accepted => exact h.less_move hk hp hf.register (by simp) (by simp) fun x hx => ⟨_, _, by simp [Server.Sess.step, hx]; exact ⟨rfl, rfl⟩, by simp⟩
        | registered =>
          exact h.less_restart hk hp hf.restart
        | starting c =>
          cases c
          · exact h.less_move hk hp hf.cancel (by simp) (by simp) fun x hx => ⟨_, _, by simp [Server.Sess.step, hx]; exact ⟨rfl, rfl⟩, by simp⟩
          · exact h.less_move hk hp hf.arm (by simp) (by simp) fun x hx => ⟨_, _, by simp [Server.Sess.step, hx]; exact ⟨rfl, rfl⟩, by simp⟩
        | timed => exact h.less_move hk hp hf.closedYet (by simp) (by simp) fun x hx => ⟨_, _, by simp [Server.Sess.step, hx]; exact ⟨rfl, rfl⟩, by simp; split <;> simp⟩
        | checked => exact h.less_move hk hp hf.attach (by simp) (by simp) fun x hx => ⟨_, _, by simp [Server.Sess.step, hx]; exact ⟨rfl, rfl⟩, by simp⟩
        | updating c =>
          cases c
          · exact h.less_move hk hp hf.cancel (by simp) (by simp) fun x hx => ⟨_, _, by simp [Server.Sess.step, hx]; exact ⟨rfl, rfl⟩, by simp⟩
          · exact h.less_move hk hp hf.arm (by simp) (by simp) fun x hx => ⟨_, _, by simp [Server.Sess.step, hx]; exact ⟨rfl, rfl⟩, by simp⟩
        | ended => exact absurd hp hend
        | looping =>
          have busy {s : World.State} (hst : Still k (st n).world s) : inLoop s.server k = true := by rw [in_loop, hst.1, hp]
          cases hb : (st n).world.busy k with
          | chosen i m =>
            refine h.less hk hf.call ?_ (fun e he => ⟨_, he, by simp⟩)
            intro s s' x e hst hstep he
            cases he
            have hb' := hst.2.1.trans hb
            simp only [World.State.step, hb', busy hst, if_true] at hstep
            cases hstep
            intro g
            have := g.2.1
            simp [hb'] at this
          | running i m =>
            refine h.less hk hf.finish ?_ (fun e he => by obtain ⟨u, rfl⟩ := he; exact ⟨_, rfl, by simp⟩)
            rintro s s' x e hst hstep ⟨u, he⟩
            cases he
            have hb' := hst.2.1.trans hb
            simp only [World.State.step, hb'] at hstep
            obtain ⟨-, -, hstep⟩ := Res.bind_ok hstep
            cases hstep
            intro g
            have := g.2.1
            simp [hb'] at this
          | idle =>
            have sys {q : Event → Prop} (ha : Again ev q) (hq : ∀ e, q e → ∃ e' f, e = .world e' ∧ e' ≠ .accept ∧
                (∀ s : World.State, s.step env key endErr auto e' = s.onSystem env key endErr auto f) ∧
                ∀ s t x, (s.conns k).place = ((st n).world.sys.conns k).place → System.State.step env key endErr auto s f = .ok (t, x) →
                  (t.conns k).place ≠ (s.conns k).place) : ∃ m, n ≤ m ∧ remains (st m).world k < remains (st n).world k := by
              refine h.less hk ha ?_ (fun e he => by obtain ⟨e', f, rfl, h1, -⟩ := hq e he; exact ⟨e', rfl, h1⟩)
              intro s s' x e hst hstep he
              obtain ⟨e', f, he', -, h2, h3⟩ := hq _ he
              cases he'
              rw [h2] at hstep
              exact onSystem_turn hstep fun t y ht => h3 _ _ _ hst.2.2 ht
            cases hpl : ((st n).world.sys.conns k).place with
            | ended => exact absurd (hfit.ended.1 hpl) hend
            | waiting =>
              refine h.less hk hf.receive ?_ (fun e he => ⟨_, he, by simp⟩)
              intro s s' x e hst hstep he
              cases he
              have hw := hst.2.2.trans hpl
              simp only [World.State.step, busy hst, hst.2.1.trans hb, hw, and_self, if_true] at hstep
              obtain ⟨t, u, o, ht, g1, g2⟩ := receive_inv hstep
              have htw : (t.conns k).place = .waiting := by
                rw [← hw]
                refine before_place ?_ k
                rw [ht]
                split
                · exact .inr ⟨_, rfl⟩
                · exact .inl rfl
              have hne := receive_turn htw g1
              intro g
              have g3 := g.2.2
              rw [hw] at g3
              rcases g2 with ⟨m, -, rfl, -⟩ | ⟨-, v, p', -, rfl, -⟩ | ⟨-, -, rfl, -⟩ <;> exact hne g3
            | received m =>
              refine sys hf.process fun e he => ?_
              obtain ⟨o, u, rfl⟩ := he
              exact ⟨_, _, rfl, by simp, fun s => rfl, fun s t x h1 h2 => process_turn (h1.trans hpl) h2⟩
            | stored m b pk =>
              exact sys hf.check fun e he => ⟨_, _, he, by simp, fun s => rfl, fun s t x h1 h2 => check_turn (h1.trans hpl) h2⟩
            | full m b pk =>
              refine sys hf.merge fun e he => ?_
              obtain ⟨o, rfl⟩ := he
              exact ⟨_, _, rfl, by simp, fun s => rfl, fun s t x h1 h2 => merge_turn (h1.trans hpl) h2⟩
            | merged m =>
              refine sys hf.note fun e he => ?_
              obtain ⟨o, rfl⟩ := he
              exact ⟨_, _, rfl, by simp, fun s => rfl, fun s t x h1 h2 => note_turn (h1.trans hpl) h2⟩
            | noted m =>
              refine h.less hk hf.dispatch ?_ (fun e he => by obtain ⟨u, rfl⟩ := he; exact ⟨_, rfl, by simp⟩)
              rintro s s' x e hst hstep ⟨now, he⟩
              cases he
              have hw := hst.2.2.trans hpl
              simp only [World.State.step, hw] at hstep
              obtain ⟨u, o, g1, g2⟩ := dispatch_inv hstep
              have hne := dispatch_turn hw g1
              intro g
              have g3 := g.2.2
              rcases g2 with ⟨-, rfl, -⟩ | ⟨hd, v, p', -, -, rfl, -⟩ <;> exact hne g3
    have hk' : placeOf (st m).world.server k ≠ none := by
      have stay : ∀ d, placeOf (st (n + d)).world.server k ≠ none := by
        intro d
        induction d with
        | zero => exact hk
        | succ d ihd =>
          obtain ⟨x, hx, -⟩ := h.step (n + d)
          obtain ⟨evs, h1⟩ := world_step hx
          exact World.place_stays_run (h.inv (n + d)).good h1 ihd
      have := stay (m - n)
      rwa [show n + (m - n) = m by omega] at this
    obtain ⟨m', h3, h4⟩ := ih _ (by rw [← hr]; exact h2) hk' rfl
    exact ⟨m', by omega, h4⟩

theorem made_place {s : State} {l : List Obs} (hi : Inv p s l) {k : Nat} : made k ∈ l ↔ placeOf s.world.server k ≠ none := by
  refine ⟨fun hm hn => ?_, unmade_place hi⟩
  have hl := hi.good.server.life k
  have hx : s.world.server.sessions k = none := by simpa [placeOf] using hn
  rw [hx] at hl
  have f : Server.only k _ = [] := Server.life_facts hl
  have : Server.Obs.accepted k ∈ Server.only k ((l.filterMap worldView).filterMap serverView) :=
    (Server.mem_only rfl).2 (World.mem_server.2 (mem_world.2 hm))
  rw [f] at this
  cases this

theorem ended_place {s : State} {l : List Obs} (hi : Inv p s l) {k : Nat} : loopEnded k ∈ l ↔ placeOf s.world.server k = some .ended := by
  have hl := hi.good.server.life k
  have hm : loopEnded k ∈ l ↔ Server.Obs.left k ∈ Server.only k ((l.filterMap worldView).filterMap serverView) :=
    ⟨fun h => (Server.mem_only rfl).2 (World.mem_server.2 (mem_world.2 h)), fun h => mem_world.1 (World.mem_server.1 ((Server.mem_only rfl).1 h))⟩
  rw [hm]
  unfold placeOf
  cases hx : s.world.server.sessions k with
  | none =>
    rw [hx] at hl
    have f : Server.only k _ = [] := Server.life_facts hl
    rw [f]
    simp
  | some x =>
    rw [hx] at hl
    have f : Server.Facts k x _ := Server.life_facts hl
    rw [f.left]
    simp

theorem Endless.longer (h : Endless env key endErr auto p ev st log) {n m : Nat} (hm : n ≤ m) : ∃ later, log m = log n ++ later := by
  obtain ⟨d, rfl⟩ : ∃ d, m = n + d := ⟨m - n, by omega⟩
  clear hm
  induction d with
  | zero => exact ⟨[], by simp⟩
  | succ d ih =>
    obtain ⟨y, hy⟩ := ih
    obtain ⟨x, -, hx⟩ := h.step (n + d)
    exact ⟨y ++ x, by rw [← Nat.add_assoc, hx, hy, List.append_assoc]⟩

end Verif.Shutdown
