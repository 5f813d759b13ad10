import Verif.Lemmas.Lives
/-! # Lemmas: the answer "success" is sent when a part has been stored -/

namespace Verif.Syscall
open Handler Session Spec Codec
open Files (Rests)

variable {env : Env} {key : Option DecKey} {endErr : Err} {auto : Bool} {reads : Nat → List Bytes} {fs0 : FS}

/-- No answer "success" is sent. -/
def Unanswered (x : List Item) : Prop := ∀ k serial id, .act k (.reply serial id 0) ∉ x

theorem unanswered_file (l : List Files.Obs) : Unanswered (l.map .file) := by
  intro k serial id h
  obtain ⟨o, -, h⟩ := List.mem_map.1 h
  cases h

theorem message_unanswered {s s' : State} {k : Nat} {u : UserCode} {m : Message Entity} {x : List Item} (h : s.message k u m = .ok (s', x)) : Unanswered x := by
  unfold State.message at h
  obtain ⟨⟨l, y⟩, h1, h⟩ := Res.bind_ok h
  cases h
  have hy : ∀ serial id, Act.reply serial id 0 ∉ y := by
    unfold Loop.message at h1
    obtain ⟨serial, -, h1⟩ := Res.bind_ok h1
    split at h1
    · cases h1; simp
    · split at h1
      · cases h1; simp
      · obtain ⟨_, -, h1⟩ := Res.bind_ok h1
        cases h1; simp
  intro k' serial id hm
  obtain ⟨a, ha, hx⟩ := List.mem_map.1 hm
  cases hx
  exact hy _ _ ha

theorem call_unanswered {s s' : State} {k : Nat} {p : Place} {c : Files.Call} {x : List Item} (h : s.call k p c = .ok (s', x)) : Unanswered x := by
  unfold State.call at h
  obtain ⟨⟨f, l⟩, -, h⟩ := Res.bind_ok h
  cases h
  exact unanswered_file l

theorem finish_unanswered {s s' : State} {k : Nat} {y x : List Item} (hy : Unanswered y) (h : s.finish k y = .ok (s', x)) : Unanswered x := by
  unfold State.finish at h
  obtain ⟨⟨f, l⟩, -, h⟩ := Res.bind_ok h
  cases h
  intro k' serial id hm
  rcases List.mem_append.1 hm with hm | hm
  · exact hy _ _ _ hm
  · exact unanswered_file l _ _ _ hm

/-- Only a system call makes the server send "success". -/
theorem step_unanswered {s s' : State} {e : Event} {x : List Item} (he : ∀ k a, e ≠ .sys k a) (h : s.step env key endErr auto e = .ok (s', x)) : Unanswered x := by
  have none : Unanswered ([] : List Item) := by intro k serial id; simp
  have same : Res.ok (s, ([] : List Item)) = .ok (s', x) → Unanswered x := by intro h; cases h; exact none
  cases e with
  | receive k =>
    simp only [State.step] at h
    split at h
    · split at h <;> cases h
      · exact none
      · intro k serial id; simp
    · exact same h
  | process k u =>
    simp only [State.step] at h
    split at h
    · split at h
      · split at h
        · exact message_unanswered h
        · split at h
          · split at h
            · exact call_unanswered h
            · cases h
          · exact message_unanswered h
      · cases h; intro k serial id; simp
    · exact same h
  | check k =>
    simp only [State.step] at h
    split at h
    · split at h
      · cases h; exact none
      · exact call_unanswered h
    · exact same h
  | merge k =>
    simp only [State.step] at h
    split at h
    · exact call_unanswered h
    · exact same h
  | sys k a => exact absurd rfl (he k a)
  | note k u =>
    simp only [State.step] at h
    split at h
    · exact message_unanswered h
    · exact same h
  | dispatch k =>
    simp only [State.step] at h
    split at h
    · split at h
      · exact finish_unanswered (by intro k serial id; simp) h
      · cases h; intro k serial id; simp
    · exact same h
  | read k n =>
    simp only [State.step] at h
    split at h
    · obtain ⟨⟨f, l⟩, -, h⟩ := Res.bind_ok h
      cases h
      exact unanswered_file l
    · exact same h
  | ret k u =>
    simp only [State.step] at h
    split at h
    · obtain ⟨_, -, h⟩ := Res.bind_ok h
      exact finish_unanswered none h
    · exact same h
  | addHandler id g =>
    cases g with
    | none => exact same h
    | some g => simp only [State.step] at h; cases h; intro k serial id; simp
  | addRequest k r => simp only [State.step] at h; cases h; intro k serial id; simp

/-- A part of an upload that arrived on connection `k` with this serial number and identifier has been stored, and nothing but this and the answer comes last. -/
def Answers (env : Env) (key : Option DecKey) (endErr : Err) (auto : Bool) (reads : Nat → List Bytes) (k : Nat) (serial id : UInt16) (x : List Item) : Prop :=
  ∃ m p d f x0, ArrivesOn env key endErr (reads k) m ∧ m.header.serial = serial ∧ m.header.msgID = id ∧ partOf auto m = some (uploadOf f, p, d) ∧
    x = x0 ++ [.file (.wrote k f p.seq d .ok), .act k (.wrote f p.seq d .ok), .act k (.reply serial id 0)]

theorem step_answers {s s' : State} {log x : List Item} {t : System.State} {alog : List (Nat × Act)} {e : Event}
    (h : Sim env key endErr auto reads fs0 s log t alog) (hs : s.step env key endErr auto e = .ok (s', x)) {k : Nat} {serial id : UInt16}
    (hm : .act k (.reply serial id 0) ∈ x) : Answers env key endErr auto reads k serial id x ∧ Unanswered x.dropLast := by
  by_cases he : ∃ k' a, e = .sys k' a
  · obtain ⟨k', a, rfl⟩ := he
    simp only [State.step] at hs
    obtain ⟨⟨f', l⟩, hstep, hs⟩ := Res.bind_ok hs
    cases hs
    have hb := h.basic
    replace hm : .act k (.reply serial id 0) ∈ (({ s with files := f' } : State).returned k' l).2.map (Item.act k') := by
      rcases List.mem_append.1 hm with hm | hm
      · exact absurd hm (unanswered_file l _ _ _)
      · exact hm
    cases hj : s.files.job k' with
    | none =>
      simp only [Files.State.step, hj] at hstep
      cases hstep
      simp [State.returned] at hm
    | some j =>
      have hr : s.files.reader k' = none := hb.one k' (by rw [hj]; simp)
      have hadv : s.files.advance k' a j = .ok (f', l) := by simpa only [Files.State.step, hj] using hstep
      have hout := Files.advance_outcomes hj hr hadv
      have hdo : s.files.doing k' = some j.call := by simp [Files.State.doing, hj]
      have hp := h.place k'
      have hat := atPart h k'
      cases hout with
      | on h1 h2 => rw [result_none _ _ _ h1] at hm; simp at hm
      | checked b h1 h2 h3 =>
        rw [result_last] at hm
        unfold State.result at hm
        split at hm <;> first | (split at hm <;> simp at hm) | simp at hm
        all_goals simp_all
      | failed o h1 h2 h3 h4 =>
        rw [result_last] at hm
        unfold State.result at hm
        split at hm <;> first | (split at hm <;> simp at hm) | simp at hm
        all_goals simp_all
      | merged h1 h2 h3 =>
        rw [result_last] at hm
        unfold State.result at hm
        split at hm <;> first | (split at hm <;> simp at hm) | simp at hm
        all_goals simp_all
      | @wrote l0 mf sq d o h1 h2 h3 =>
        rw [result_last] at hm ⊢
        unfold State.result at hm ⊢
        have hplace : ({ s with files := f' } : State).conns k' = s.conns k' := rfl
        rw [hplace] at hm ⊢
        generalize hsp : (s.conns k').place = sp at hp hm ⊢
        generalize (t.conns k').place = tp at hp hat
        cases hp with
        | @storing m b p data g1 g2 g3 g4 g5 =>
          rw [hdo, h1] at g1
          simp only [Option.some.injEq, Files.Call.write.injEq] at g1
          obtain ⟨rfl, rfl, rfl⟩ := g1
          have hpart : isPart auto m = true := by
            have := part_flagged (flagged g5) b
            rwa [show ({ m with body := .val (.m0801 b) } : Message Entity) = m by rw [← g2]] at this
          by_cases ho : o = .ok
          · subst ho
            simp only [if_true, List.map_cons, List.map_nil, List.mem_cons, Item.act.injEq, reduceCtorEq, and_false, List.not_mem_nil, or_false, false_or,
              Act.reply.injEq, and_true] at hm
            obtain ⟨rfl, rfl, rfl⟩ := hm
            refine ⟨⟨m, p, d, Loop.partFile m b p, l0.map .file, hat, rfl, rfl, ?_, by simp⟩, ?_⟩
            · unfold partOf
              rw [if_pos hpart]
              simp only [g2, g3, g4, Option.map_some]
              rfl
            · intro k2 n2 i2 hx
              simp at hx
          · simp [ho] at hm
        | _ => simp at hm
  · exact absurd hm (step_unanswered (fun k' a hx => he ⟨k', a, hx⟩) hs _ _ _)

/-- Every answer "success" of a run comes when the part it answers has been stored. -/
theorem run_answers {s s' : State} {log x : List Item} {t : System.State} {alog : List (Nat × Act)} {es : List Event} (hown : OwnUploads env key endErr auto reads)
    (h : Sim env key endErr auto reads fs0 s log t alog) (hs : s.run env key endErr auto es = .ok (s', x)) (hlist : AllListed (log ++ x))
    {k : Nat} {serial id : UInt16} {before after : List Item} (hx : x = before ++ .act k (.reply serial id 0) :: after) :
    Answers env key endErr auto reads k serial id (before ++ [.act k (.reply serial id 0)]) := by
  induction es generalizing s log t alog x before with
  | nil => cases hs; simp at hx
  | cons e es ih =>
    obtain ⟨⟨s1, a⟩, h1, hs⟩ := Res.bind_ok hs
    obtain ⟨⟨s2, b⟩, h2, hs⟩ := Res.bind_ok hs
    cases hs
    rw [← List.append_assoc] at hlist
    by_cases hlt : before.length < a.length
    · -- the answer is sent in the first step
      have hpre : before ++ [.act k (.reply serial id 0)] <+: a := by
        refine List.prefix_of_prefix_length_le (l₃ := a ++ b) ⟨after, by rw [hx]; simp⟩ ⟨b, rfl⟩ ?_
        simp only [List.length_append, List.length_singleton]; omega
      obtain ⟨c, hc⟩ := hpre
      obtain ⟨g1, g2⟩ := step_answers h h1 (k := k) (serial := serial) (id := id) (by rw [← hc]; simp)
      have : c = [] := by
        rcases List.eq_nil_or_concat c with hn | ⟨c', z, rfl⟩
        · exact hn
        · refine absurd ?_ (g2 k serial id)
          rw [← hc]
          simp [← List.append_assoc, -List.append_assoc]
      subst this
      rw [List.append_nil] at hc
      rw [hc]
      exact g1
    · obtain ⟨t1, y1, g1⟩ := h.step hown h1 (fun k m hm => hlist k m (List.mem_append_left _ hm))
      have hpre : a <+: before := by
        refine List.prefix_of_prefix_length_le (l₃ := a ++ b) ⟨b, rfl⟩ ⟨.act k (.reply serial id 0) :: after, by rw [hx]⟩ (by omega)
      obtain ⟨before', rfl⟩ := hpre
      rw [List.append_assoc] at hx
      obtain ⟨m, p, d, f, x0, e1, e2, e3, e4, e5⟩ := ih g1 h2 hlist (List.append_cancel_left hx)
      exact ⟨m, p, d, f, a ++ x0, e1, e2, e3, e4, by rw [List.append_assoc, e5, List.append_assoc]⟩

theorem lives_length {ls : List Life} {fs : FS} {logs : List (List Item)} (h : lives env key endErr auto fs0 ls = .ok (fs, logs)) : logs.length = ls.length := by
  induction ls generalizing fs0 logs with
  | nil => cases h; rfl
  | cons l ls ih =>
    obtain ⟨⟨s, log⟩, h1, h⟩ := Res.bind_ok h
    obtain ⟨⟨fs', logs'⟩, h2, h⟩ := Res.bind_ok h
    cases h
    simp [ih h2]

/-- Each of the processes ran on the files the ones before it left. -/
theorem lives_at {ops : List FileOp} {ls : List Life} (h0 : Rests fs0 ops) (hown : ∀ l ∈ ls, OwnUploads env key endErr auto l.reads) {fs : FS}
    {logs : List (List Item)} (h : lives env key endErr auto fs0 ls = .ok (fs, logs)) (hlist : ∀ log ∈ logs, AllListed log)
    {earlier later : List (Life × List Item)} {l : Life} {log : List Item} (hx : ls.zip logs = earlier ++ (l, log) :: later) :
    logs = earlier.map (·.2) ++ log :: later.map (·.2) ∧ l ∈ ls ∧
      ∃ fs1 ops1 s, Rests fs1 ops1 ∧ (startOn fs1 l.reads).run env key endErr auto l.events = .ok (s, log) := by
  induction ls generalizing fs0 ops logs earlier with
  | nil => simp at hx
  | cons l' ls ih =>
    obtain ⟨⟨s, log'⟩, h1, h⟩ := Res.bind_ok h
    obtain ⟨⟨fs', logs'⟩, h2, h⟩ := Res.bind_ok h
    cases h
    obtain ⟨new, g1, -⟩ := life_rests h0 (hown l' (by simp)) h1 (hlist log' (by simp))
    cases earlier with
    | nil =>
      rw [List.zip_cons_cons, List.nil_append, List.cons.injEq] at hx
      obtain ⟨hx, rfl⟩ := hx
      cases hx
      refine ⟨?_, by simp, fs0, ops, s, h0, h1⟩
      rw [List.map_nil, List.nil_append, List.map_snd_zip (Nat.le_of_eq (lives_length h2))]
    | cons y ys =>
      rw [List.zip_cons_cons, List.cons_append, List.cons.injEq] at hx
      obtain ⟨rfl, hx⟩ := hx
      obtain ⟨e1, e2, e3⟩ := ih g1 (fun l hl => hown l (by simp [hl])) h2 (fun x hx => hlist x (by simp [hx])) hx
      exact ⟨by rw [List.map_cons, List.cons_append, ← e1], by simp [e2], e3⟩

/-- The part that was answered with "success" is kept. -/
theorem answered_kept {ops : List FileOp} {ls : List Life} (h0 : Rests fs0 ops) (hown : ∀ l ∈ ls, OwnUploads env key endErr true l.reads) {fs : FS}
    {logs : List (List Item)} (h : lives env key endErr true fs0 ls = .ok (fs, logs)) (hlist : ∀ log ∈ logs, AllListed log) {u : Upload} {i : UInt16}
    (ha : Answered env key endErr u i ls logs) :
    ∃ d, Kept u i d logs ∧ ∃ l ∈ ls, ∃ k m p, ArrivesOn env key endErr (l.reads k) m ∧ partOf true m = some (u, p, d) ∧ p.seq = i := by
  obtain ⟨earlier, l, log, later, hx, ⟨before, k, serial, after, hlog, hser, hno⟩, hlater⟩ := ha
  obtain ⟨e1, e2, fs1, ops1, s, e3, e4⟩ := lives_at h0 hown h hlist hx
  have hl : AllListed log := hlist log (by rw [e1]; simp)
  obtain ⟨m, p, d, f, x0, g1, g2, g3, g4, g5⟩ := run_answers (hown l e2) (rests_sim (env := env) (key := key) (endErr := endErr) (auto := true) e3) e4
    (allListed_rests hl) hlog
  obtain ⟨p', d', g6, g7⟩ := hser m g1 g2
  rw [g4] at g6
  simp only [Option.some.injEq, Prod.mk.injEq] at g6
  obtain ⟨rfl, rfl, rfl⟩ := g6
  subst g7
  refine ⟨d, ⟨earlier.map (·.2), log, later.map (·.2), e1, ⟨x0, k, f, .act k (.wrote f p.seq d .ok) :: .act k (.reply serial 0x0801 0) :: after, ?_, rfl, ?_⟩, ?_⟩,
    l, e2, k, m, p, g1, g4, rfl⟩
  · have : log = (before ++ [.act k (.reply serial 0x0801 0)]) ++ after := by rw [hlog]; simp
    rw [this, g5]
    simp
  · intro x hx
    simp only [List.mem_cons] at hx
    rcases hx with rfl | rfl | hx
    · exact id
    · exact id
    · exact hno x hx
  · intro y hy
    obtain ⟨z, hz, rfl⟩ := List.mem_map.1 hy
    exact hlater z hz

end Verif.Syscall
