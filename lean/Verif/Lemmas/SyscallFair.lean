import Verif.Lemmas.SyscallSafe
import Verif.Lemmas.StopLoops
import Verif.Spec.SyscallFair
/-! # Lemmas: the receive loops in the long run, system call by system call -/

namespace Verif.Files
open Spec

/-- What is left of a call: the stages before its end, then the files or bytes left in a stage. `total` is the size of all parts together. -/
def Job.rank (total : Nat) : Job → Nat × Nat × Nat
  | .mkdir .. => (8, 0, 0)
  | .create .. => (7, 0, 0)
  | .put _ _ data done => (6, data.length - done, 0)
  | .shut .. => (5, 0, 0)
  | .stat .. => (8, 0, 0)
  | .list .. => (7, 0, 0)
  | .visit _ _ todo _ => (6, 2 * todo.length, 0)
  | .openPart _ _ _ todo _ => (6, 2 * todo.length + 1, 0)
  | .createFull .. => (5, 0, 0)
  | .copy _ _ todo _ out => (4, todo.length, total - out)
  | .reopen .. => (3, 0, 0)

/-- Less is left. -/
def Less : Nat × Nat × Nat → Nat × Nat × Nat → Prop := Prod.Lex (· < ·) (Prod.Lex (· < ·) (· < ·))

theorem less_wf : WellFounded Less := (Prod.lex ⟨(· < ·), Nat.lt_wfRel.wf⟩ (Prod.lex ⟨(· < ·), Nat.lt_wfRel.wf⟩ ⟨(· < ·), Nat.lt_wfRel.wf⟩)).wf

theorem Less.stage {a a' b b' c c' : Nat} (h : a' < a) : Less (a', b', c') (a, b, c) := .left _ _ h
theorem Less.files {a b b' c c' : Nat} (h : b' < b) : Less (a, b', c') (a, b, c) := .right _ (.left _ _ h)
theorem Less.bytes {a b c c' : Nat} (h : c' < c) : Less (a, b, c') (a, b, c) := .right _ (.right _ h)

/-- A call comes nearer to its end with every system call that makes it go on. -/
theorem advance_rank {total : Nat} {s s' : State} {k : Nat} {a : Answer} {j j' : Job} {l : List Obs} (hj : s.job k = some j) (h : s.advance k a j = .ok (s', l))
    (hj' : s'.job k = some j') (hne : j' ≠ j) (hT : ∀ m f t p out, j' = .copy m f t p out → out ≤ total) : Less (j'.rank total) (j.rank total) := by
  have same : s = s' ∧ [] = l → Less (j'.rank total) (j.rank total) := by
    rintro ⟨rfl, rfl⟩
    rw [hj] at hj'
    exact absurd (Option.some.inj hj').symm hne
  have on : ∀ {fs : FS} {i : Job} {l' : List Obs}, { s with fs := fs }.goto k (some i) = s' ∧ l' = l → (i ≠ j → (∀ m f t p out, i = .copy m f t p out → out ≤ total) → Less (i.rank total) (j.rank total)) →
      Less (j'.rank total) (j.rank total) := by
    rintro fs i l' ⟨rfl, -⟩ hl
    rw [goto_job_self] at hj'
    cases hj'
    exact hl hne hT
  have done : ∀ {l' : List Obs}, s.goto k none = s' ∧ l' = l → Less (j'.rank total) (j.rank total) := by
    rintro l' ⟨rfl, -⟩
    rw [goto_job_self] at hj'
    cases hj'
  have walk : ∀ {m : Multipart} {g : Bool} {found : List (UInt16 × Bytes)} {l' : List Obs}, walked s k m g found = (s', l') → 5 < (j.rank total).1 → Less (j'.rank total) (j.rank total) := by
    intro m g found l' hw h6
    unfold walked at hw
    split at hw
    · cases hw
      rw [goto_job_self] at hj'
      cases hj'
      exact .left _ _ h6
    · cases hw
      rw [goto_job_self] at hj'
      cases hj'
  cases j with
  | mkdir m seq data =>
    cases a <;> simp only [State.advance, Res.ok.injEq, Prod.mk.injEq] at h <;> try exact same h
    · exact on h fun _ _ => .stage (by omega)
    · exact done h
  | create m seq data =>
    cases a <;> simp only [State.advance, Res.ok.injEq, Prod.mk.injEq] at h <;> try exact same h
    · exact on h fun _ _ => .stage (by omega)
    · exact done h
  | put m seq data pos =>
    simp only [State.advance] at h
    split at h
    · simp only [Res.ok.injEq, Prod.mk.injEq] at h
      exact on h fun _ _ => .stage (by omega)
    · rename_i hlt
      cases a <;> simp only [Res.ok.injEq, Prod.mk.injEq] at h <;> try exact same h
      · exact on h fun _ _ => .stage (by omega)
      · rename_i n
        refine on h fun hx _ => .files ?_
        have : ((data.drop pos).take n).length ≠ 0 := fun h0 => hx (by rw [h0]; rfl)
        omega
  | shut m seq data pos ok =>
    cases a <;> simp only [State.advance, Res.ok.injEq, Prod.mk.injEq] at h <;> first | exact same h | exact done h
  | stat m g =>
    cases a <;> simp only [State.advance] at h
    · split at h
      · cases h
      · simp only [Res.ok.injEq, Prod.mk.injEq] at h
        exact on h fun _ _ => .stage (by omega)
    · cases h
    all_goals simp only [Res.ok.injEq, Prod.mk.injEq] at h; exact same h
  | list m g before =>
    cases a <;> simp only [State.advance] at h
    · simp only [Res.ok.injEq, Prod.mk.injEq] at h; exact same h
    · generalize hw : walked s k m g [] = w at h
      obtain ⟨w1, w2⟩ := w
      simp only [Res.ok.injEq, Prod.mk.injEq] at h
      obtain ⟨rfl, -⟩ := h
      exact walk hw (by simp [Job.rank])
    · simp only [Res.ok.injEq, Prod.mk.injEq] at h; exact same h
    · split at h <;> simp only [Res.ok.injEq, Prod.mk.injEq] at h
      · exact on h fun _ _ => .stage (by omega)
      · exact same h
  | visit m g todo found =>
    cases todo with
    | nil =>
      simp only [State.advance, Res.ok.injEq] at h
      exact walk h (by simp [Job.rank])
    | cons n todo =>
      cases a <;> simp only [State.advance] at h
      · split at h
        · simp only [Res.ok.injEq, Prod.mk.injEq] at h
          exact on h fun _ _ => .files (by simp)
        · split at h <;> simp only [Res.ok.injEq, Prod.mk.injEq] at h
          · exact on h fun _ _ => .files (by simp; omega)
          · exact on h fun _ _ => .files (by simp)
      · cases h
      all_goals simp only [Res.ok.injEq, Prod.mk.injEq] at h; exact same h
  | openPart m seq n todo found =>
    cases a <;> simp only [State.advance, Res.ok.injEq, Prod.mk.injEq] at h <;> try exact same h
    · exact on h fun _ _ => .files (by omega)
    · exact done h
  | createFull m found =>
    cases a <;> simp only [State.advance, Res.ok.injEq, Prod.mk.injEq] at h <;> try exact same h
    · exact on h fun _ _ => .stage (by omega)
    · exact done h
  | copy m found todo pos out =>
    cases todo with
    | nil =>
      simp only [State.advance, Res.ok.injEq, Prod.mk.injEq] at h
      exact on h fun _ _ => .stage (by omega)
    | cons p todo =>
      obtain ⟨seq, n⟩ := p
      cases a <;> simp only [State.advance] at h
      · simp only [Res.ok.injEq, Prod.mk.injEq] at h; exact same h
      · simp only [Res.ok.injEq, Prod.mk.injEq] at h
        obtain ⟨rfl, -⟩ := h
        rw [goto_job_self] at hj'
        cases hj'
      · rename_i b
        split at h <;> simp only [Res.ok.injEq, Prod.mk.injEq] at h
        · exact on h fun _ _ => .files (by simp)
        · generalize (((content s.fs (m.icc, n)).getD []).drop pos).take b = chunk at h
          refine on h fun hx ht => .bytes ?_
          have h0 : chunk.length ≠ 0 := fun h0 => hx (by rw [h0]; rfl)
          have := ht _ _ _ _ _ rfl
          omega
      · simp only [Res.ok.injEq, Prod.mk.injEq] at h; exact same h
  | reopen m found out =>
    cases a <;> simp only [State.advance, Res.ok.injEq, Prod.mk.injEq] at h <;> try exact same h
    · obtain ⟨rfl, -⟩ := h
      simp [State.setReader, State.goto] at hj'
    · obtain ⟨rfl, -⟩ := h
      rw [goto_job_self] at hj'
      cases hj'

/-- A step that ends a call observes its result, last. -/
theorem advance_ends {s s' : State} {k : Nat} {a : Answer} {j : Job} {l : List Obs} (hj : s.job k = some j) (h : s.advance k a j = .ok (s', l))
    (hj' : s'.job k = none) : ∃ o ∈ l, ¬ Ongoing o := by
  have same : s = s' ∧ [] = l → ∃ o ∈ l, ¬ Ongoing o := by
    rintro ⟨rfl, rfl⟩
    rw [hj] at hj'
    cases hj'
  have on : ∀ {fs : FS} {i : Job} {l' : List Obs}, { s with fs := fs }.goto k (some i) = s' ∧ l' = l → ∃ o ∈ l, ¬ Ongoing o := by
    rintro fs i l' ⟨rfl, -⟩
    rw [goto_job_self] at hj'
    cases hj'
  have done : ∀ {t : State} {l' l'' : List Obs} {o : Obs}, t = s' ∧ l' = l → l' = l'' ++ [o] → ¬ Ongoing o → ∃ o ∈ l, ¬ Ongoing o := by
    rintro t l' l'' o ⟨rfl, rfl⟩ hl ho
    exact ⟨o, by rw [hl]; simp, ho⟩
  have walk : ∀ {m : Multipart} {g : Bool} {found : List (UInt16 × Bytes)} {l' : List Obs}, walked s k m g found = (s', l') → ∃ o ∈ l', ¬ Ongoing o := by
    intro m g found l' hw
    unfold walked at hw
    split at hw
    · cases hw
      rw [goto_job_self] at hj'
      cases hj'
    · cases hw
      exact ⟨_, List.mem_singleton_self _, id⟩
  cases j with
  | mkdir m seq data =>
    cases a <;> simp only [State.advance, Res.ok.injEq, Prod.mk.injEq] at h <;> try exact same h
    · exact on h
    · exact done (l'' := []) h rfl id
  | create m seq data =>
    cases a <;> simp only [State.advance, Res.ok.injEq, Prod.mk.injEq] at h <;> try exact same h
    · exact on h
    · exact done (l'' := []) h rfl id
  | put m seq data pos =>
    simp only [State.advance] at h
    split at h
    · simp only [Res.ok.injEq, Prod.mk.injEq] at h
      exact on h
    · cases a <;> simp only [Res.ok.injEq, Prod.mk.injEq] at h <;> first | exact same h | exact on h
  | shut m seq data pos ok =>
    cases a <;> simp only [State.advance, Res.ok.injEq, Prod.mk.injEq] at h <;> try exact same h
    all_goals exact done (l'' := [_]) h rfl id
  | stat m g =>
    cases a <;> simp only [State.advance] at h
    · split at h
      · cases h
      · simp only [Res.ok.injEq, Prod.mk.injEq] at h
        exact on h
    · cases h
    all_goals simp only [Res.ok.injEq, Prod.mk.injEq] at h; exact same h
  | list m g before =>
    cases a <;> simp only [State.advance] at h
    · simp only [Res.ok.injEq, Prod.mk.injEq] at h; exact same h
    · generalize hw : walked s k m g [] = w at h
      obtain ⟨w1, w2⟩ := w
      simp only [Res.ok.injEq, Prod.mk.injEq] at h
      obtain ⟨rfl, rfl⟩ := h
      obtain ⟨o, h1, h2⟩ := walk hw
      exact ⟨o, List.mem_cons_of_mem _ h1, h2⟩
    · simp only [Res.ok.injEq, Prod.mk.injEq] at h; exact same h
    · split at h <;> simp only [Res.ok.injEq, Prod.mk.injEq] at h
      · exact on h
      · exact same h
  | visit m g todo found =>
    cases todo with
    | nil =>
      simp only [State.advance, Res.ok.injEq] at h
      exact walk h
    | cons n todo =>
      cases a <;> simp only [State.advance] at h
      · split at h
        · simp only [Res.ok.injEq, Prod.mk.injEq] at h
          exact on h
        · split at h <;> simp only [Res.ok.injEq, Prod.mk.injEq] at h <;> exact on h
      · cases h
      all_goals simp only [Res.ok.injEq, Prod.mk.injEq] at h; exact same h
  | openPart m seq n todo found =>
    cases a <;> simp only [State.advance, Res.ok.injEq, Prod.mk.injEq] at h <;> try exact same h
    · exact on h
    · exact done h rfl id
  | createFull m found =>
    cases a <;> simp only [State.advance, Res.ok.injEq, Prod.mk.injEq] at h <;> try exact same h
    · exact on h
    · exact done h rfl id
  | copy m found todo pos out =>
    cases todo with
    | nil =>
      simp only [State.advance, Res.ok.injEq, Prod.mk.injEq] at h
      exact on h
    | cons p todo =>
      obtain ⟨seq, n⟩ := p
      cases a <;> simp only [State.advance] at h
      · simp only [Res.ok.injEq, Prod.mk.injEq] at h; exact same h
      · simp only [Res.ok.injEq, Prod.mk.injEq] at h
        exact done (l'' := .closed k (fullFile m) :: closeParts k m found) h rfl id
      · split at h <;> simp only [Res.ok.injEq, Prod.mk.injEq] at h <;> exact on h
      · simp only [Res.ok.injEq, Prod.mk.injEq] at h; exact same h
  | reopen m found out =>
    cases a <;> simp only [State.advance, Res.ok.injEq, Prod.mk.injEq] at h <;> try exact same h
    · exact done (l'' := .opened k (fullFile m) :: .closed k (fullFile m) :: closeParts k m found) h rfl id
    · exact done (l'' := .closed k (fullFile m) :: closeParts k m found) h rfl id

/-- A step of another goroutine. -/
theorem job_other {s s' : State} {log l : List Obs} {i k : Nat} {ev : Event} (hb : Basic s log) (hi : By i ev) (hk : k ≠ i) (h : s.step ev = .ok (s', l)) :
    s'.job k = s.job k := by
  cases ev with
  | call j c =>
    cases (show j = i from hi)
    simp only [State.step] at h
    split at h <;> cases h
    · exact goto_job_other _ _ _ _ hk
    · rfl
  | step j a =>
    cases (show j = i from hi)
    simp only [State.step] at h
    split at h
    · rename_i jb hj
      exact (advance_facts hj (hb.one _ (by rw [hj]; simp)) h).jobs k hk
    · cases h; rfl
  | read j n =>
    simp only [State.step] at h
    repeat' split at h
    all_goals cases h; rfl
  | release j =>
    simp only [State.step] at h
    split at h <;> cases h <;> rfl

/-- Without errors, writing succeeds. -/
theorem advance_shut {s s' : State} {k : Nat} {a : Answer} {j : Job} {l : List Obs} (hj : s.job k = some j) (h : s.advance k a j = .ok (s', l)) (ha : a ≠ .fail)
    (hok : ∀ m q d n ok, j = .shut m q d n ok → ok = true) :
    (∀ m q d n ok, s'.job k = some (.shut m q d n ok) → ok = true) ∧ (∀ i m q d o, .wrote i m q d o ∈ l → o = .ok) ∧ ∀ i m o, .merged i m o ∈ l → o = .ok := by
  have quiet : ∀ {l : List Obs}, (∀ o ∈ l, Ongoing o) → (∀ i m q d o, .wrote i m q d o ∈ l → o = .ok) ∧ ∀ i m o, .merged i m o ∈ l → o = .ok :=
    fun hl => ⟨fun i m q d o hm => (hl _ hm).elim, fun i m o hm => (hl _ hm).elim⟩
  have same : s = s' ∧ [] = l → (∀ m q d n ok, s'.job k = some (.shut m q d n ok) → ok = true) ∧ (∀ i m q d o, .wrote i m q d o ∈ l → o = .ok) ∧ ∀ i m o, .merged i m o ∈ l → o = .ok := by
    rintro ⟨rfl, rfl⟩
    refine ⟨fun m q d n ok hx => ?_, by simp, by simp⟩
    rw [hj] at hx
    exact hok m q d n ok (Option.some.inj hx)
  have on : ∀ {fs : FS} {i : Job} {l' : List Obs}, { s with fs := fs }.goto k (some i) = s' ∧ l' = l → (∀ o ∈ l', Ongoing o) → (∀ m q d n ok, i = .shut m q d n ok → ok = true) →
      (∀ m q d n ok, s'.job k = some (.shut m q d n ok) → ok = true) ∧ (∀ i m q d o, .wrote i m q d o ∈ l → o = .ok) ∧ ∀ i m o, .merged i m o ∈ l → o = .ok := by
    rintro fs i l' ⟨rfl, rfl⟩ hl hi
    refine ⟨fun m q d n ok hx => ?_, quiet hl⟩
    rw [goto_job_self] at hx
    exact hi m q d n ok (Option.some.inj hx)
  have walk : ∀ {m : Multipart} {g : Bool} {found : List (UInt16 × Bytes)}, walked s k m g found = (s', l) →
      (∀ m q d n ok, s'.job k = some (.shut m q d n ok) → ok = true) ∧ (∀ i m q d o, .wrote i m q d o ∈ l → o = .ok) ∧ ∀ i m o, .merged i m o ∈ l → o = .ok := by
    intro m g found hw
    unfold walked at hw
    split at hw <;> cases hw <;> refine ⟨fun m q d n ok hx => ?_, by simp, by simp⟩ <;> rw [goto_job_self] at hx <;> cases hx
  have one : ∀ {f : File}, ∀ o ∈ [Obs.opened k f], Ongoing o := by intro f o ho; rw [List.mem_singleton.1 ho]; trivial
  have non : ∀ o ∈ ([] : List Obs), Ongoing o := by intro o ho; cases ho
  cases j with
  | mkdir m seq data =>
    cases a <;> simp only [State.advance, Res.ok.injEq, Prod.mk.injEq] at h <;> first | exact same h | exact absurd rfl ha | exact on h non (fun _ _ _ _ _ hx => by cases hx)
  | create m seq data =>
    cases a <;> simp only [State.advance, Res.ok.injEq, Prod.mk.injEq] at h <;> first | exact same h | exact absurd rfl ha | exact on h one (fun _ _ _ _ _ hx => by cases hx)
  | put m seq data pos =>
    simp only [State.advance] at h
    split at h
    · simp only [Res.ok.injEq, Prod.mk.injEq] at h
      exact on h non (fun _ _ _ _ _ hx => by cases hx; rfl)
    · cases a <;> simp only [Res.ok.injEq, Prod.mk.injEq] at h <;> first | exact same h | exact absurd rfl ha | exact on h non (fun _ _ _ _ _ hx => by cases hx)
  | shut m seq data pos ok =>
    cases a <;> simp only [State.advance, Res.ok.injEq, Prod.mk.injEq] at h <;> try exact same h
    · obtain ⟨rfl, rfl⟩ := h
      refine ⟨fun m q d n ok hx => ?_, ?_, by simp⟩
      · rw [goto_job_self] at hx; cases hx
      · simp [hok _ _ _ _ _ rfl]
    · exact absurd rfl ha
  | stat m g =>
    cases a <;> simp only [State.advance] at h
    · split at h
      · cases h
      · simp only [Res.ok.injEq, Prod.mk.injEq] at h
        exact on h non (fun _ _ _ _ _ hx => by cases hx)
    · cases h
    all_goals simp only [Res.ok.injEq, Prod.mk.injEq] at h; exact same h
  | list m g before =>
    cases a <;> simp only [State.advance] at h
    · simp only [Res.ok.injEq, Prod.mk.injEq] at h; exact same h
    · exact absurd rfl ha
    · simp only [Res.ok.injEq, Prod.mk.injEq] at h; exact same h
    · split at h <;> simp only [Res.ok.injEq, Prod.mk.injEq] at h
      · exact on h non (fun _ _ _ _ _ hx => by cases hx)
      · exact same h
  | visit m g todo found =>
    cases todo with
    | nil =>
      simp only [State.advance, Res.ok.injEq] at h
      exact walk h
    | cons n todo =>
      cases a <;> simp only [State.advance] at h
      · split at h
        · simp only [Res.ok.injEq, Prod.mk.injEq] at h
          exact on h non (fun _ _ _ _ _ hx => by cases hx)
        · split at h <;> simp only [Res.ok.injEq, Prod.mk.injEq] at h <;> exact on h non (fun _ _ _ _ _ hx => by cases hx)
      · cases h
      all_goals simp only [Res.ok.injEq, Prod.mk.injEq] at h; exact same h
  | openPart m seq n todo found =>
    cases a <;> simp only [State.advance, Res.ok.injEq, Prod.mk.injEq] at h <;> first | exact same h | exact absurd rfl ha | exact on h one (fun _ _ _ _ _ hx => by cases hx)
  | createFull m found =>
    cases a <;> simp only [State.advance, Res.ok.injEq, Prod.mk.injEq] at h <;> first | exact same h | exact absurd rfl ha | exact on h one (fun _ _ _ _ _ hx => by cases hx)
  | copy m found todo pos out =>
    cases todo with
    | nil =>
      simp only [State.advance, Res.ok.injEq, Prod.mk.injEq] at h
      exact on h non (fun _ _ _ _ _ hx => by cases hx)
    | cons p todo =>
      obtain ⟨seq, n⟩ := p
      cases a <;> simp only [State.advance] at h
      · simp only [Res.ok.injEq, Prod.mk.injEq] at h; exact same h
      · exact absurd rfl ha
      · split at h <;> simp only [Res.ok.injEq, Prod.mk.injEq] at h <;> exact on h non (fun _ _ _ _ _ hx => by cases hx)
      · simp only [Res.ok.injEq, Prod.mk.injEq] at h; exact same h
  | reopen m found out =>
    cases a <;> simp only [State.advance, Res.ok.injEq, Prod.mk.injEq] at h <;> try exact same h
    · obtain ⟨rfl, rfl⟩ := h
      refine ⟨fun m q d n ok hx => ?_, fun i m' q d o hm => ?_, fun i m' o hm => ?_⟩
      · simp [State.setReader, State.goto] at hx
      · simp [closeParts] at hm
      · simp [closeParts] at hm; exact hm.2.2
    · exact absurd rfl ha

end Verif.Files

namespace Verif.Syscall
open Handler Session Spec Codec Calls
open Files (By Basic Ongoing opsOf_append)
variable {env : Env} {key : Option DecKey} {endErr : Err} {auto : Bool} {reads : Nat → List Bytes} {fs0 : FS}

/-- What is left of the work on a message. -/
def Place.rank : Place → Nat
  | .received _ => 9
  | .storing .. => 8
  | .stored .. => 7
  | .checking .. => 6
  | .full .. => 5
  | .merging .. => 4
  | .merged _ => 3
  | .noted _ => 2
  | .handling => 1
  | .waiting => 0
  | .ended => 0

/-- What is left for the loop of a connection. -/
def remains (c : Conn) : Nat := if c.place = .ended then 0 else 1 + 10 * World.unused c.recv + c.place.rank

/-- The loop goes on in one direction, from place to place. -/
def Onward (c c' : Conn) : Prop := c'.place = c.place ∧ c'.recv = c.recv ∨ remains c' < remains c

theorem Onward.same (c : Conn) : Onward c c := .inl ⟨rfl, rfl⟩

theorem onward_to {c : Conn} {p : Place} (hp : p ≠ .ended) (h : p.rank < c.place.rank) {c' : Conn} (h1 : c'.place = p) (h2 : c'.recv = c.recv) : Onward c c' := by
  right
  unfold remains
  have : c.place ≠ .ended := fun hx => by rw [hx] at h; simp [Place.rank] at h
  rw [h1, h2, if_neg hp, if_neg this]
  omega

theorem put_conn (s : State) (j k : Nat) (c : Conn) : (s.put j c).conns k = if k = j then c else s.conns k := rfl

theorem goto_onward (s s0 : State) (j k : Nat) (p : Place) (hc : s.conns = s0.conns) (hp : p ≠ .ended) (h : p.rank < (s0.conns j).place.rank) :
    Onward (s0.conns k) ((s.goto j p).conns k) := by
  unfold State.goto
  rw [put_conn]
  split
  · rename_i hk
    subst hk
    rw [hc]
    exact onward_to hp h rfl rfl
  · rw [hc]; exact .same _

theorem call_conns {s s' : State} {j : Nat} {p : Place} {c : Files.Call} {x : List Item} (h : s.call j p c = .ok (s', x)) :
    ∃ f l, s.files.step (.call j c) = .ok (f, l) ∧ s' = ({ s with files := f } : State).goto j p ∧ x = l.map .file := by
  obtain ⟨⟨f, l⟩, h1, h2⟩ := Res.bind_ok h
  cases h2
  exact ⟨f, l, h1, rfl, rfl⟩

theorem finish_conns {s s' : State} {j : Nat} {y x : List Item} (h : s.finish j y = .ok (s', x)) :
    ∃ f l, s.files.step (.release j) = .ok (f, l) ∧ s' = ({ s with files := f } : State).goto j .waiting ∧ x = y ++ l.map .file := by
  obtain ⟨⟨f, l⟩, h1, h2⟩ := Res.bind_ok h
  cases h2
  exact ⟨f, l, h1, rfl, rfl⟩

theorem message_conns {s s' : State} {j : Nat} {u : UserCode} {m : Message Entity} {x : List Item} (h : s.message j u m = .ok (s', x)) :
    ∃ (q : List Pending) (i : UInt64) (y : List Act), s' = s.put j { s.conns j with place := .noted m, requests := q, icc := i } ∧ x = y.map (.act j) ∧ ∀ a ∈ y, Succeeded a := by
  obtain ⟨⟨l, y⟩, h1, h2⟩ := Res.bind_ok h
  cases h2
  refine ⟨l.requests, l.icc, y, rfl, rfl, ?_⟩
  unfold Loop.message at h1
  obtain ⟨serial, -, h1⟩ := Res.bind_ok h1
  split at h1
  · cases h1; simp
  · split at h1
    · cases h1; simp
    · obtain ⟨_, -, h1⟩ := Res.bind_ok h1
      cases h1
      simp [Succeeded]

theorem message_onward {s s' : State} {j : Nat} {u : UserCode} {m : Message Entity} {x : List Item} (h : s.message j u m = .ok (s', x))
    (hr : 2 < (s.conns j).place.rank) (k : Nat) : Onward (s.conns k) (s'.conns k) := by
  obtain ⟨q, i, y, rfl, -⟩ := message_conns h
  rw [put_conn]
  split
  · rename_i hk
    subst hk
    exact onward_to (p := .noted m) (by simp) hr rfl rfl
  · exact .same _

theorem result_cases (s : State) (k : Nat) (o : Files.Obs) :
    s.result k o = (s, []) ∨
      ∃ p a, s.result k o = (s.goto k p, a) ∧ p ≠ .ended ∧ p.rank < (s.conns k).place.rank ∧
        ((∀ m b q, p ≠ .storing m b q) ∧ (∀ m b q, p ≠ .checking m b q) ∧ ∀ m b q, p ≠ .merging m b q) := by
  unfold State.result
  split
  · rename_i m b p f seq data o hp
    rw [hp]
    right
    split <;> exact ⟨_, _, rfl, by simp, by simp [Place.rank], by simp⟩
  · rename_i m b p f full hp
    rw [hp]
    right
    refine ⟨_, _, rfl, ?_, ?_, ?_⟩ <;> split <;> simp [Place.rank]
  · rename_i m b p f o hp
    rw [hp]
    right
    refine ⟨_, _, rfl, ?_, ?_, ?_⟩ <;> split <;> simp [Place.rank]
  · exact .inl rfl

theorem returned_cases (s : State) (k : Nat) (l : List Files.Obs) :
    s.returned k l = (s, []) ∨
      ∃ p a, s.returned k l = (s.goto k p, a) ∧ p ≠ .ended ∧ p.rank < (s.conns k).place.rank ∧
        ((∀ m b q, p ≠ .storing m b q) ∧ (∀ m b q, p ≠ .checking m b q) ∧ ∀ m b q, p ≠ .merging m b q) := by
  unfold State.returned
  split
  · exact result_cases s k _
  · exact .inl rfl

/-- Every step takes the loop of every connection onward, or leaves it where it is. -/
theorem step_onward {s s' : State} {e : Event} {x : List Item} (h : s.step env key endErr auto e = .ok (s', x)) (k : Nat) : Onward (s.conns k) (s'.conns k) := by
  have same : Res.ok (s, ([] : List Item)) = .ok (s', x) → Onward (s.conns k) (s'.conns k) := by
    intro h; cases h; exact .same _
  cases e with
  | receive j =>
    simp only [State.step] at h
    split at h
    · rename_i hp
      split at h
      · rename_i m r hr
        cases h
        rw [put_conn]
        split
        · rename_i hk
          subst hk
          right
          have := World.receive_uses hr
          simp only [remains, hp, Place.rank]
          simp
          omega
        · exact .same _
      · cases h
        rw [put_conn]
        split
        · rename_i hk
          subst hk
          right
          simp only [remains, hp, Place.rank]
          simp
          omega
        · exact .same _
      · cases h
    · exact same h
  | process j u =>
    simp only [State.step] at h
    split at h
    · rename_i m hp
      split at h
      · split at h
        · exact message_onward h (by rw [hp]; simp [Place.rank]) k
        · split at h
          · split at h
            · obtain ⟨f, l, -, rfl, -⟩ := call_conns h
              exact goto_onward _ s _ _ _ rfl (by simp) (by rw [hp]; simp [Place.rank])
            · cases h
          · exact message_onward h (by rw [hp]; simp [Place.rank]) k
      · cases h
        exact goto_onward _ s _ _ _ rfl (by simp) (by rw [hp]; simp [Place.rank])
    · exact same h
  | check j =>
    simp only [State.step] at h
    split at h
    · rename_i m b p hp
      split at h
      · cases h
        exact goto_onward _ s _ _ _ rfl (by simp) (by rw [hp]; simp [Place.rank])
      · obtain ⟨f, l, -, rfl, -⟩ := call_conns h
        exact goto_onward _ s _ _ _ rfl (by simp) (by rw [hp]; simp [Place.rank])
    · exact same h
  | merge j =>
    simp only [State.step] at h
    split at h
    · rename_i m b p hp
      obtain ⟨f, l, -, rfl, -⟩ := call_conns h
      exact goto_onward _ s _ _ _ rfl (by simp) (by rw [hp]; simp [Place.rank])
    · exact same h
  | sys j a =>
    simp only [State.step] at h
    obtain ⟨⟨f, l⟩, h1, h2⟩ := Res.bind_ok h
    cases h2
    simp only
    rcases returned_cases ({ s with files := f } : State) j l with hr | ⟨p, a, hr, h3, h4, -⟩ <;> rw [hr]
    · exact .same _
    · exact goto_onward _ s _ _ _ rfl h3 h4
  | note j u =>
    simp only [State.step] at h
    split at h
    · rename_i m hp
      exact message_onward h (by rw [hp]; simp [Place.rank]) k
    · exact same h
  | dispatch j =>
    simp only [State.step] at h
    split at h
    · rename_i m hp
      split at h
      · obtain ⟨f, l, -, rfl, -⟩ := finish_conns h
        exact goto_onward _ s _ _ _ rfl (by simp) (by rw [hp]; simp [Place.rank])
      · cases h
        exact goto_onward _ s _ _ _ rfl (by simp) (by rw [hp]; simp [Place.rank])
    · exact same h
  | read j n =>
    simp only [State.step] at h
    split at h
    · obtain ⟨⟨f, l⟩, h1, h2⟩ := Res.bind_ok h
      cases h2
      exact .same _
    · exact same h
  | ret j u =>
    simp only [State.step] at h
    split at h
    · rename_i hp
      obtain ⟨_, -, h2⟩ := Res.bind_ok h
      obtain ⟨f, l, -, rfl, -⟩ := finish_conns h2
      exact goto_onward _ s _ _ _ rfl (by simp) (by rw [hp]; simp [Place.rank])
    · exact same h
  | addHandler id hd => cases hd <;> (simp only [State.step] at h; cases h; exact .same _)
  | addRequest j r =>
    simp only [State.step] at h
    cases h
    rw [put_conn]
    split
    · rename_i hk; subst hk; exact .inl ⟨rfl, rfl⟩
    · exact .same _

/-- A turn of the goroutine takes it from its place, except in a call on files. -/
def TurnAt (k : Nat) : Place → Event → Prop
  | .waiting, e => e = .receive k
  | .received _, e => ∃ u, e = .process k u
  | .stored .., e => e = .check k
  | .full .., e => e = .merge k
  | .merged _, e => ∃ u, e = .note k u
  | .noted _, e => e = .dispatch k
  | .handling, e => ∃ u, e = .ret k u
  | _, _ => False

theorem goto_place (s : State) (k : Nat) (p : Place) : ((s.goto k p).conns k).place = p := by simp [State.goto, State.put]

theorem turn_leaves {s s' : State} {k : Nat} {e : Event} {x : List Item} (ht : TurnAt k (s.conns k).place e) (h : s.step env key endErr auto e = .ok (s', x)) :
    (s'.conns k).place ≠ (s.conns k).place := by
  cases hp : (s.conns k).place with
  | waiting =>
    rw [hp] at ht
    cases (show e = _ from ht)
    simp only [State.step, hp] at h
    split at h
    · cases h; simp [State.put]
    · cases h; simp [State.put]
    · cases h
  | received m =>
    rw [hp] at ht
    obtain ⟨u, rfl⟩ := ht
    simp only [State.step, hp] at h
    split at h
    · split at h
      · obtain ⟨q, i, y, rfl, -⟩ := message_conns h; simp [State.put]
      · split at h
        · split at h
          · obtain ⟨f, l, -, rfl, -⟩ := call_conns h; rw [goto_place]; simp
          · cases h
        · obtain ⟨q, i, y, rfl, -⟩ := message_conns h; simp [State.put]
    · cases h; rw [goto_place]; simp
  | stored m b p =>
    rw [hp] at ht
    cases (show e = _ from ht)
    simp only [State.step, hp] at h
    split at h
    · cases h; rw [goto_place]; simp
    · obtain ⟨f, l, -, rfl, -⟩ := call_conns h; rw [goto_place]; simp
  | full m b p =>
    rw [hp] at ht
    cases (show e = _ from ht)
    simp only [State.step, hp] at h
    obtain ⟨f, l, -, rfl, -⟩ := call_conns h; rw [goto_place]; simp
  | merged m =>
    rw [hp] at ht
    obtain ⟨u, rfl⟩ := ht
    simp only [State.step, hp] at h
    obtain ⟨q, i, y, rfl, -⟩ := message_conns h; simp [State.put]
  | noted m =>
    rw [hp] at ht
    cases (show e = _ from ht)
    simp only [State.step, hp] at h
    split at h
    · obtain ⟨f, l, -, rfl, -⟩ := finish_conns h; rw [goto_place]; simp
    · cases h; rw [goto_place]; simp
  | handling =>
    rw [hp] at ht
    obtain ⟨u, rfl⟩ := ht
    simp only [State.step, hp] at h
    obtain ⟨_, -, h2⟩ := Res.bind_ok h
    obtain ⟨f, l, -, rfl, -⟩ := finish_conns h2; rw [goto_place]; simp
  | storing m b p => rw [hp] at ht; exact ht.elim
  | checking m b p => rw [hp] at ht; exact ht.elim
  | merging m b p => rw [hp] at ht; exact ht.elim
  | ended => rw [hp] at ht; exact ht.elim

/-- The connection is in a call on files. -/
def Place.Calling : Place → Prop
  | .storing .. | .checking .. | .merging .. => True
  | _ => False

/-- The step on files in a step of the loops, if any. -/
theorem step_on_files {s s' : State} {e : Event} {x : List Item} (h : s.step env key endErr auto e = .ok (s', x)) :
    (s'.files = s.files ∧ filesIn x = []) ∨ ∃ i ev l, By i ev ∧ s.files.step ev = .ok (s'.files, l) ∧ filesIn x = l ∧ ∀ j a, ev = .step j a → e = .sys j a := by
  have same : Res.ok (s, ([] : List Item)) = .ok (s', x) → s'.files = s.files ∧ filesIn x = [] := by
    intro h; cases h; exact ⟨rfl, rfl⟩
  have msg : ∀ {j u m}, s.message j u m = .ok (s', x) → s'.files = s.files ∧ filesIn x = [] := by
    intro j u m h
    obtain ⟨q, i, y, rfl, rfl, -⟩ := message_conns h
    exact ⟨rfl, filesIn_act _ _⟩
  have call : ∀ {j p c}, s.call j p c = .ok (s', x) → ∃ i ev l, By i ev ∧ s.files.step ev = .ok (s'.files, l) ∧ filesIn x = l ∧ ∀ j a, ev = .step j a → e = .sys j a := by
    intro j p c h
    obtain ⟨f, l, h1, rfl, rfl⟩ := call_conns h
    exact ⟨j, .call j c, l, rfl, h1, filesIn_file _, by simp⟩
  have fin : ∀ {j y}, s.finish j y = .ok (s', x) → filesIn y = [] → ∃ i ev l, By i ev ∧ s.files.step ev = .ok (s'.files, l) ∧ filesIn x = l ∧ ∀ j a, ev = .step j a → e = .sys j a := by
    intro j y h hy
    obtain ⟨f, l, h1, rfl, rfl⟩ := finish_conns h
    exact ⟨j, .release j, l, rfl, h1, by rw [filesIn_append, hy, filesIn_file, List.nil_append], by simp⟩
  cases e with
  | receive j =>
    left
    simp only [State.step] at h
    repeat' split at h
    all_goals first
      | (cases h; exact ⟨rfl, rfl⟩)
      | cases h
  | process j u =>
    simp only [State.step] at h
    split at h
    · split at h
      · split at h
        · exact .inl (msg h)
        · split at h
          · split at h
            · exact .inr (call h)
            · cases h
          · exact .inl (msg h)
      · cases h; exact .inl ⟨rfl, rfl⟩
    · exact .inl (same h)
  | check j =>
    simp only [State.step] at h
    split at h
    · split at h
      · cases h; exact .inl ⟨rfl, rfl⟩
      · exact .inr (call h)
    · exact .inl (same h)
  | merge j =>
    simp only [State.step] at h
    split at h
    · exact .inr (call h)
    · exact .inl (same h)
  | sys j a =>
    right
    simp only [State.step] at h
    obtain ⟨⟨f, l⟩, h1, h2⟩ := Res.bind_ok h
    cases h2
    refine ⟨j, .step j a, l, rfl, ?_, ?_, by rintro _ _ ⟨⟩; rfl⟩
    · rw [h1]
      simp only
      rcases returned_cases ({ s with files := f } : State) j l with hr | ⟨p, a, hr, -⟩ <;> rw [hr] <;> rfl
    · rw [filesIn_append, filesIn_file, filesIn_act, List.append_nil]
  | note j u =>
    simp only [State.step] at h
    split at h
    · exact .inl (msg h)
    · exact .inl (same h)
  | dispatch j =>
    simp only [State.step] at h
    split at h
    · split at h
      · exact .inr (fin h rfl)
      · cases h; exact .inl ⟨rfl, rfl⟩
    · exact .inl (same h)
  | read j n =>
    simp only [State.step] at h
    split at h
    · obtain ⟨⟨f, l⟩, h1, h2⟩ := Res.bind_ok h
      cases h2
      exact .inr ⟨j, .read j n, l, rfl, h1, filesIn_file _, by simp⟩
    · exact .inl (same h)
  | ret j u =>
    simp only [State.step] at h
    split at h
    · obtain ⟨_, -, h2⟩ := Res.bind_ok h
      exact .inr (fin h2 rfl)
    · exact .inl (same h)
  | addHandler id hd => left; cases hd <;> (simp only [State.step] at h; cases h; exact ⟨rfl, rfl⟩)
  | addRequest j r => left; simp only [State.step] at h; cases h; exact ⟨rfl, rfl⟩

/-- A call on files goes on only by its own system calls. -/
theorem job_step {s s' : State} {e : Event} {log x : List Item} {k : Nat} {j : Files.Job} (hb : Basic s.files (filesIn log)) (hj : s.files.job k = some j)
    (h : s.step env key endErr auto e = .ok (s', x)) (hne : s'.files.job k ≠ some j) : ∃ a l, e = .sys k a ∧ s.files.advance k a j = .ok (s'.files, l) := by
  rcases step_on_files h with ⟨h1, -⟩ | ⟨i, ev, l, hi, h1, -, h2⟩
  · rw [h1] at hne; exact absurd hj hne
  · by_cases hk : k = i
    · subst hk
      cases ev with
      | call i c =>
        cases (show i = k from hi)
        simp only [Files.State.step, hj] at h1
        injection h1 with h1
        rw [← (Prod.mk.inj h1).1] at hne
        exact absurd hj hne
      | step i a =>
        cases (show i = k from hi)
        simp only [Files.State.step, hj] at h1
        exact ⟨a, l, h2 _ _ rfl, h1⟩
      | read i n =>
        simp only [Files.State.step] at h1
        repeat' split at h1
        all_goals
          injection h1 with h1
          rw [← (Prod.mk.inj h1).1] at hne
          exact absurd hj hne
      | release i =>
        simp only [Files.State.step] at h1
        split at h1
        all_goals
          injection h1 with h1
          rw [← (Prod.mk.inj h1).1] at hne
          exact absurd hj hne
    · rw [Files.job_other hb hi hk h1] at hne
      exact absurd hj hne

theorem result_storing {s : State} {k : Nat} {m : Message Entity} {b : T0801} {p : Packet} (hp : (s.conns k).place = .storing m b p) (i : Nat) (f : Multipart) (q : UInt16)
    (d : Bytes) (o : Outcome) : ¬ (((s.result k (.wrote i f q d o)).1.conns k).place).Calling := by
  simp only [State.result, hp]
  split <;> rw [goto_place] <;> exact id

theorem result_checking {s : State} {k : Nat} {m : Message Entity} {b : T0801} {p : Packet} (hp : (s.conns k).place = .checking m b p) (i : Nat) (f : Multipart) (o : Bool) :
    ¬ (((s.result k (.checked i f o)).1.conns k).place).Calling := by
  simp only [State.result, hp]
  rw [goto_place]
  split <;> exact id

theorem result_merging {s : State} {k : Nat} {m : Message Entity} {b : T0801} {p : Packet} (hp : (s.conns k).place = .merging m b p) (i : Nat) (f : Multipart) (o : Outcome) :
    ¬ (((s.result k (.merged i f o)).1.conns k).place).Calling := by
  simp only [State.result, hp]
  rw [goto_place]
  split <;> exact id

/-- A call on files is made from outside of one. -/
theorem step_calling {s s' : State} {e : Event} {x : List Item} {k : Nat} (h : s.step env key endErr auto e = .ok (s', x)) (hc : (s'.conns k).place.Calling) :
    (s'.conns k).place = (s.conns k).place ∨
      (∃ p c, s.call k p c = .ok (s', x)) ∧ ((∃ m, (s.conns k).place = .received m) ∨ (∃ m b p, (s.conns k).place = .stored m b p) ∨ ∃ m b p, (s.conns k).place = .full m b p) := by
  have same : Res.ok (s, ([] : List Item)) = .ok (s', x) → (s'.conns k).place = (s.conns k).place := by
    intro h; cases h; rfl
  have go : ∀ {t : State} {j : Nat} {p : Place}, t.conns = s.conns → s' = t.goto j p → ¬ p.Calling → (s'.conns k).place = (s.conns k).place := by
    rintro t j p ht rfl hp
    unfold State.goto at hc ⊢
    rw [put_conn] at hc ⊢
    split at hc
    · exact absurd hc hp
    · rename_i hk; rw [if_neg hk, ht]
  have msg : ∀ {j u m}, s.message j u m = .ok (s', x) → (s'.conns k).place = (s.conns k).place := by
    intro j u m h
    obtain ⟨q, i, y, rfl, -⟩ := message_conns h
    rw [put_conn] at hc ⊢
    split at hc
    · exact hc.elim
    · rename_i hk; rw [if_neg hk]
  have fin : ∀ {j y}, s.finish j y = .ok (s', x) → (s'.conns k).place = (s.conns k).place := by
    intro j y h
    obtain ⟨f, l, -, h1, -⟩ := finish_conns h
    exact go (t := { s with files := f }) rfl h1 id
  have call : ∀ {j p c}, s.call j p c = .ok (s', x) → (s'.conns k).place = (s.conns k).place ∨ k = j ∧ s.call k p c = .ok (s', x) := by
    intro j p c h
    by_cases hk : k = j
    · subst hk; exact .inr ⟨rfl, h⟩
    · obtain ⟨f, l, -, rfl, -⟩ := call_conns h
      left
      simp [State.goto, State.put, hk]
  cases e with
  | receive j =>
    simp only [State.step] at h
    split at h
    · split at h
      · cases h
        rw [put_conn] at hc ⊢
        split at hc
        · exact hc.elim
        · rename_i hk; rw [if_neg hk]; exact .inl rfl
      · cases h
        rw [put_conn] at hc ⊢
        split at hc
        · exact hc.elim
        · rename_i hk; rw [if_neg hk]; exact .inl rfl
      · cases h
    · exact .inl (same h)
  | process j u =>
    simp only [State.step] at h
    split at h
    · rename_i m hp
      split at h
      · split at h
        · exact .inl (msg h)
        · split at h
          · split at h
            · rcases call h with h1 | ⟨rfl, h1⟩
              · exact .inl h1
              · exact .inr ⟨⟨_, _, h1⟩, .inl ⟨m, hp⟩⟩
            · cases h
          · exact .inl (msg h)
      · injection h with h
        exact .inl (go rfl (Prod.mk.inj h).1.symm id)
    · exact .inl (same h)
  | check j =>
    simp only [State.step] at h
    split at h
    · rename_i m b p hp
      split at h
      · injection h with h
        exact .inl (go rfl (Prod.mk.inj h).1.symm id)
      · rcases call h with h1 | ⟨rfl, h1⟩
        · exact .inl h1
        · exact .inr ⟨⟨_, _, h1⟩, .inr (.inl ⟨m, b, p, hp⟩)⟩
    · exact .inl (same h)
  | merge j =>
    simp only [State.step] at h
    split at h
    · rename_i m b p hp
      rcases call h with h1 | ⟨rfl, h1⟩
      · exact .inl h1
      · exact .inr ⟨⟨_, _, h1⟩, .inr (.inr ⟨m, b, p, hp⟩)⟩
    · exact .inl (same h)
  | sys j a =>
    left
    simp only [State.step] at h
    obtain ⟨⟨f, l⟩, h1, h2⟩ := Res.bind_ok h
    injection h2 with h2
    have h3 := (Prod.mk.inj h2).1.symm
    simp only at h3
    rcases returned_cases ({ s with files := f } : State) j l with hr | ⟨p, a, hr, -, -, g1, g2, g3⟩ <;> rw [hr] at h3
    · rw [h3]
    · refine go (t := { s with files := f }) rfl h3 ?_
      intro hx
      cases p <;> first | exact hx | exact g1 _ _ _ rfl | exact g2 _ _ _ rfl | exact g3 _ _ _ rfl
  | note j u =>
    simp only [State.step] at h
    split at h
    · exact .inl (msg h)
    · exact .inl (same h)
  | dispatch j =>
    simp only [State.step] at h
    split at h
    · split at h
      · exact .inl (fin h)
      · injection h with h
        exact .inl (go rfl (Prod.mk.inj h).1.symm id)
    · exact .inl (same h)
  | read j n =>
    simp only [State.step] at h
    split at h
    · obtain ⟨⟨f, l⟩, h1, h2⟩ := Res.bind_ok h
      cases h2
      exact .inl rfl
    · exact .inl (same h)
  | ret j u =>
    simp only [State.step] at h
    split at h
    · obtain ⟨_, -, h2⟩ := Res.bind_ok h
      exact .inl (fin h2)
    · exact .inl (same h)
  | addHandler id hd => left; cases hd <;> (simp only [State.step] at h; cases h; rfl)
  | addRequest j r =>
    left
    simp only [State.step] at h
    cases h
    rw [put_conn]
    split
    · rename_i hk; rw [hk]
    · rfl

/-- A connection that is in a call on files has a system call before it. -/
theorem Sim.calling {s s' : State} {e : Event} {log x : List Item} {t : System.State} {alog : List (Nat × Act)} {k : Nat}
    (h : Sim env key endErr auto reads fs0 s log t alog) (hc : (s.conns k).place.Calling → s.files.job k ≠ none) (hs : s.step env key endErr auto e = .ok (s', x)) :
    (s'.conns k).place.Calling → s'.files.job k ≠ none := by
  intro hc' hn
  have hl := h.place k
  rcases step_calling hs hc' with hp | ⟨⟨p, c, hcall⟩, hat⟩
  · rw [hp] at hc'
    obtain ⟨j, hj⟩ := Option.ne_none_iff_exists'.1 (hc hc')
    obtain ⟨a, l, rfl, hadv⟩ := job_step h.basic hj hs (by rw [hn]; simp)
    have hr : s.files.reader k = none := h.basic.one k (by rw [hj]; simp)
    have hdo : s.files.doing k = some j.call := by simp [Files.State.doing, hj]
    obtain ⟨o, ho, hno⟩ := Files.advance_ends hj hadv hn
    have hout := Files.advance_outcomes hj hr hadv
    have hs' : s' = (({ s with files := s'.files } : State).returned k l).1 := by
      simp only [State.step, Files.State.step, hj, hadv, Res.ok_bind] at hs
      injection hs with hs
      exact (Prod.mk.inj hs).1.symm
    have hpl : (s'.conns k).place.Calling := by rw [hp]; exact hc'
    generalize hsp : (s.conns k).place = sp at hl hc'
    generalize (t.conns k).place = tp at hl
    cases hl with
    | waiting g1 => exact hc'
    | received m g1 => exact hc'
    | storing g1 =>
      rw [hdo] at g1
      cases hout with
      | on g2 _ => exact hno (g2 o ho)
      | wrote o g2 g3 g4 => rw [hs', result_last] at hpl; exact result_storing (s := { s with files := s'.files }) hsp _ _ _ _ _ hpl
      | checked o g2 _ => rw [g2] at g1; cases g1
      | failed o g2 _ _ => rw [g2] at g1; cases g1
      | merged g2 _ => rw [g2] at g1; cases g1
    | stored m b p g1 => exact hc'
    | checking g1 g2 =>
      rw [hdo] at g1
      cases hout with
      | on g2 _ => exact hno (g2 o ho)
      | wrote o g2 g3 g4 => rw [g2] at g1; cases g1
      | checked o g2 _ => rw [hs', result_last] at hpl; exact result_checking (s := { s with files := s'.files }) hsp _ _ _ hpl
      | failed o g2 _ _ => rw [g2] at g1; cases g1
      | merged g2 _ => rw [g2] at g1; cases g1
    | full m b p g1 => exact hc'
    | merging g1 g2 =>
      rw [hdo] at g1
      cases hout with
      | on g2 _ => exact hno (g2 o ho)
      | wrote o g2 g3 g4 => rw [g2] at g1; cases g1
      | checked o g2 _ => rw [g2] at g1; cases g1
      | failed o g2 _ _ => rw [hs', result_last] at hpl; exact result_merging (s := { s with files := s'.files }) hsp _ _ _ hpl
      | merged g2 _ => rw [hs', result_last] at hpl; exact result_merging (s := { s with files := s'.files }) hsp _ _ _ hpl
    | merged g1 g2 => exact hc'
    | noted m g1 => exact hc'
    | notedUpload g1 g2 => exact hc'
    | handling g1 => exact hc'
    | handlingUpload g1 g2 => exact hc'
    | ended g1 => exact hc'
  · have hd : s.files.doing k = none := by
      generalize (t.conns k).place = tp at hl
      rcases hat with ⟨m, hp⟩ | ⟨m, b, p, hp⟩ | ⟨m, b, p, hp⟩ <;> rw [hp] at hl <;> cases hl <;> assumption
    obtain ⟨h1, h2⟩ := doing_none.1 hd
    obtain ⟨f, l, hf, rfl, -⟩ := call_conns hcall
    simp only [Files.State.step, h1, h2] at hf
    injection hf with hf
    have : f.job k = none := hn
    rw [← (Prod.mk.inj hf).1, Files.goto_job_self] at this
    cases this

/-- The files are as the completed calls left them, for every upload. -/
theorem Sim.turn {s : State} {log : List Item} {t : System.State} {alog : List (Nat × Act)} (hown : OwnUploads env key endErr auto reads)
    (h : Sim env key endErr auto reads fs0 s log t alog) (hlist : AllListed log) (u : Upload) : Files.Turn u s.files (filesIn log) := by
  obtain ⟨log0, evs, la, h0, he, hl⟩ := h.files
  have hturn : InTurn u (log0 ++ la) := inTurn_of_owner h0 he hown (fun k c hx => by rw [← hl] at hx; exact h.owner k c hx) u
  have := (h0.turn u).run h0.basic he hturn (by
    intro j m hx
    rw [← hl] at hx
    obtain ⟨w, hw, hx⟩ := List.mem_filterMap.1 hx
    cases w with
    | act j a => cases hx
    | file o => cases hx; exact absurd hw (hlist j m))
  rw [hl]
  exact this.1

/-- While a connection merges, the parts stay as they are. -/
theorem Sim.parts_stay {s s' : State} {e : Event} {log x : List Item} {t : System.State} {alog : List (Nat × Act)} {k : Nat} {file : Multipart} (hown : OwnUploads env key endErr auto reads)
    (h : Sim env key endErr auto reads fs0 s log t alog) (hd : s.files.doing k = some (.merge file)) (hs : s.step env key endErr auto e = .ok (s', x)) :
    latest (opsOf (filesIn (log ++ x))) (uploadOf file) = latest (opsOf (filesIn log)) (uploadOf file) := by
  funext sq
  apply Classical.byContradiction
  intro hne
  rw [filesIn_append] at hne
  have hb := h.basic
  rcases step_on_files hs with ⟨-, h1⟩ | ⟨i, ev, l, hi, h1, h2, -⟩
  · rw [h1, List.append_nil] at hne; exact hne rfl
  · have el := Files.elsewhere hb hi h1
    rw [h2] at hne
    have owns : ∀ {i c}, s.files.doing i = some c → Owns env key endErr auto reads i (callUpload c) := fun hx =>
      h.owner _ _ (Files.inProgress_began ((hb.prog _).trans hx))
    cases hdi : s.files.doing i with
    | none =>
      have : opsOf l = [] := by
        rw [List.eq_nil_iff_forall_not_mem]
        intro op hop
        obtain ⟨c, hc, -⟩ := el.ops op hop
        rw [hdi] at hc
        cases hc
      rw [opsOf_append, this, List.append_nil] at hne
      exact hne rfl
    | some c =>
      obtain ⟨m, d, rfl, hm⟩ := Files.ops_latest (c := c) (fun op hop => by
        obtain ⟨c', hc, ho⟩ := el.ops op hop
        rw [hdi] at hc
        cases hc
        exact ho) _ _ hne
      obtain ⟨m1, a1, b1⟩ := owns hdi
      obtain ⟨m2, a2, b2⟩ := owns hd
      have hik := hown i k (uploadOf file) m1 m2 a1 a2 (by rw [← hm]; exact b1) b2
      subst hik
      rw [hd] at hdi
      cases hdi

/-- How much `Merge` has written is bounded by the size of all parts. -/
theorem Sim.copied {s : State} {log : List Item} {t : System.State} {alog : List (Nat × Act)} {k : Nat} (hown : OwnUploads env key endErr auto reads)
    (h : Sim env key endErr auto reads fs0 s log t alog) (hlist : AllListed log) {m : Multipart} {found todo : List (UInt16 × Bytes)} {pos out : Nat}
    (hj : s.files.job k = some (.copy m found todo pos out)) : out ≤ (joined (latest (opsOf (filesIn log)) (uploadOf m)) 0 65536).length := by
  have := (h.turn hown hlist (uploadOf m)).jobs k _ hj rfl
  obtain ⟨h1, -, pre, h2, h3, h4, h5⟩ := this
  rw [← Files.seen_joined h1, h2, List.flatMap_append, List.length_append, h5]
  cases todo with
  | nil => rw [h3 rfl]; omega
  | cons p t =>
    have := h4 p t rfl
    rw [List.flatMap_cons, List.length_append]
    omega

/-- A run without end. -/
structure Endless (env : Env) (key : Option DecKey) (endErr : Err) (auto : Bool) (reads : Nat → List Bytes) (fs0 : FS) (ev : Nat → Event) (st : Nat → State)
    (log : Nat → List Item) : Prop where
  sim : ∀ n, ∃ t alog, Sim env key endErr auto reads fs0 (st n) (log n) t alog
  listed : ∀ n, AllListed (log n)
  next : ∀ n, ∃ x, (st n).step env key endErr auto (ev n) = .ok (st (n + 1), x) ∧ log (n + 1) = log n ++ x
  calling : ∀ k n, ((st n).conns k).place.Calling → (st n).files.job k ≠ none

variable {ev : Nat → Event} {st : Nat → State} {log : Nat → List Item}

theorem run_before {s t : State} {es es' : List Event} {x : List Item} (h : s.run env key endErr auto (es ++ es') = .ok (t, x)) :
    ∃ s1 y z, s.run env key endErr auto es = .ok (s1, y) ∧ s1.run env key endErr auto es' = .ok (t, z) ∧ x = y ++ z := by
  induction es generalizing s x with
  | nil => exact ⟨s, [], x, rfl, h, rfl⟩
  | cons e es ih =>
    obtain ⟨⟨s1, a⟩, h1, h⟩ := Res.bind_ok h
    obtain ⟨⟨s2, b⟩, h2, h⟩ := Res.bind_ok h
    cases h
    obtain ⟨s3, y, z, g1, g2, rfl⟩ := ih h2
    refine ⟨s3, a ++ y, z, ?_, g2, by simp⟩
    rw [State.run, h1, Res.ok_bind]
    simp only [g1, Res.ok_bind]

theorem endless_of_sim {s0 : State} {pre : List Item} {t0 : System.State} {alog0 : List (Nat × Act)} (hown : OwnUploads env key endErr auto reads)
    (h0 : Sim env key endErr auto reads fs0 s0 pre t0 alog0) (hc : ∀ k, ¬ (s0.conns k).place.Calling)
    (h : ∀ n, s0.run env key endErr auto (firsts ev n) = .ok (st n, log n)) (hlist : ∀ n, AllListed (pre ++ log n)) :
    Endless env key endErr auto reads fs0 ev st (fun n => pre ++ log n) := by
  have sims : ∀ n, ∃ t alog, Sim env key endErr auto reads fs0 (st n) (pre ++ log n) t alog := by
    intro n
    obtain ⟨t, y, g⟩ := h0.run hown (h n) (hlist n)
    exact ⟨t, _, g⟩
  have nexts : ∀ n, ∃ x, (st n).step env key endErr auto (ev n) = .ok (st (n + 1), x) ∧ log (n + 1) = log n ++ x := by
    intro n
    have h1 := h (n + 1)
    rw [firsts_succ] at h1
    obtain ⟨s1, y, z, g1, g2, g3⟩ := run_before h1
    rw [h n] at g1
    simp only [Res.ok.injEq, Prod.mk.injEq] at g1
    obtain ⟨rfl, rfl⟩ := g1
    obtain ⟨⟨s2, a⟩, e1, e2⟩ := Res.bind_ok g2
    cases e2
    exact ⟨a, e1, by rw [g3]; simp⟩
  refine ⟨sims, hlist, fun n => ?_, fun k n => ?_⟩
  · obtain ⟨x, g1, g2⟩ := nexts n
    exact ⟨x, g1, by rw [g2, List.append_assoc]⟩
  induction n with
  | zero =>
    have h0 := h 0
    simp only [firsts, List.range_zero, List.map_nil, State.run, Res.ok.injEq, Prod.mk.injEq] at h0
    rw [← h0.1]
    exact fun hx => (hc k hx).elim
  | succ n ih =>
    obtain ⟨t, alog, g⟩ := sims n
    obtain ⟨x, g1, -⟩ := nexts n
    exact g.calling ih g1

theorem endless_of_runs (hown : OwnUploads env key endErr auto reads)
    (h : ∀ n, (start reads).run env key endErr auto (firsts ev n) = .ok (st n, log n)) (hlist : ∀ n, AllListed (log n)) :
    Endless env key endErr auto reads (fun _ => none) ev st log :=
  endless_of_sim (pre := []) hown sim_start (fun _ hx => hx.elim) h hlist

theorem Endless.onward (h : Endless env key endErr auto reads fs0 ev st log) (k : Nat) {n m : Nat} (hm : n ≤ m) : remains ((st m).conns k) ≤ remains ((st n).conns k) := by
  induction hm with
  | refl => exact Nat.le_refl _
  | @step m hm ih =>
    show remains ((st (m + 1)).conns k) ≤ _
    obtain ⟨x, h1, -⟩ := h.next m
    rcases step_onward h1 k with ⟨h2, h3⟩ | h2
    · have : remains ((st (m + 1)).conns k) = remains ((st m).conns k) := by unfold remains; rw [h2, h3]
      omega
    · omega

/-- At some time the loop of a connection stays where it is. -/
theorem Endless.settles (h : Endless env key endErr auto reads fs0 ev st log) (k : Nat) (n : Nat) :
    ∃ N, n ≤ N ∧ ∀ m, N ≤ m → ((st m).conns k).place = ((st N).conns k).place := by
  generalize hr : remains ((st n).conns k) = r
  induction r using Nat.strongRecOn generalizing n with
  | _ r ih =>
    by_cases hex : ∃ m, n ≤ m ∧ remains ((st m).conns k) < r
    · obtain ⟨m, h1, h2⟩ := hex
      obtain ⟨N, h3, h4⟩ := ih _ h2 m rfl
      exact ⟨N, by omega, h4⟩
    · have all : ∀ m, n ≤ m → remains ((st m).conns k) = r := by
        intro m hm
        have := h.onward k hm
        have : ¬ remains ((st m).conns k) < r := fun hx => hex ⟨m, hm, hx⟩
        omega
      refine ⟨n, Nat.le_refl _, fun m hm => ?_⟩
      induction hm with
      | refl => rfl
      | @step m hm ih2 =>
        obtain ⟨x, h1, -⟩ := h.next m
        rcases step_onward h1 k with ⟨h2, -⟩ | h2
        · rw [h2, ih2]
        · have := all m hm
          have := all (m + 1) (Nat.le_succ_of_le hm)
          omega

theorem first_change {α : Type} {f : Nat → α} {n m : Nat} {a : α} (hn : f n = a) (hm : n ≤ m) (hne : f m ≠ a) : ∃ i, n ≤ i ∧ f i = a ∧ f (i + 1) ≠ a := by
  induction hm with
  | refl => exact absurd hn hne
  | @step m hm ih =>
    by_cases hx : f m = a
    · exact ⟨m, hm, hx, hne⟩
    · exact ih hx

/-- The sizes of the parts a goroutine merges, if it merges. -/
def sizes (s : State) (log : List Item) (k : Nat) : Nat :=
  match s.files.doing k with
  | some (.merge m) => (joined (latest (opsOf (filesIn log)) (uploadOf m)) 0 65536).length
  | _ => 0

/-- A call on files comes to its end. -/
theorem Endless.call_ends (h : Endless env key endErr auto reads fs0 ev st log) (hown : OwnUploads env key endErr auto reads) {k : Nat} (hb : ComesBack st k) (n : Nat) :
    ∃ m, n ≤ m ∧ (st m).files.job k = none := by
  apply Classical.byContradiction
  intro hno
  have busy : ∀ m, n ≤ m → ∃ j, (st m).files.job k = some j := fun m hm =>
    Option.ne_none_iff_exists'.1 fun hx => hno ⟨m, hm, hx⟩
  -- the call stays the same, and so do the sizes
  have step : ∀ m, n ≤ m → (st (m + 1)).files.doing k = (st m).files.doing k ∧ sizes (st (m + 1)) (log (m + 1)) k = sizes (st m) (log m) k := by
    intro m hm
    obtain ⟨t, alog, g⟩ := h.sim m
    obtain ⟨x, h1, h2⟩ := h.next m
    obtain ⟨j, hj⟩ := busy m hm
    obtain ⟨j', hj'⟩ := busy (m + 1) (by omega)
    have hd : (st m).files.doing k = some j.call := by simp [Files.State.doing, hj]
    have hd' : (st (m + 1)).files.doing k = (st m).files.doing k := by
      by_cases hne : (st (m + 1)).files.job k = some j
      · simp [Files.State.doing, hne, hj]
      · obtain ⟨a, l, -, hadv⟩ := job_step g.basic hj h1 hne
        have f := Files.advance_facts hj (g.basic.one k (by rw [hj]; simp)) hadv
        rcases f.goesOn with hx | hx
        · rw [(doing_none.1 hx).1] at hj'; cases hj'
        · rw [hx, hd]
    refine ⟨hd', ?_⟩
    unfold sizes
    rw [hd']
    split
    · rename_i file hf
      rw [h2, g.parts_stay hown hf h1]
    · rfl
  have doing : ∀ m, n ≤ m → sizes (st m) (log m) k = sizes (st n) (log n) k := by
    intro m hm
    induction hm with
    | refl => rfl
    | @step m hm ih => rw [(step m hm).2, ih]
  have main : ∀ r m j, n ≤ m → (st m).files.job k = some j → j.rank (sizes (st n) (log n) k) = r → False := by
    intro r
    induction r using Files.less_wf.induction with
    | _ r ih =>
      intro m j hm hj hr
      obtain ⟨m', h1, h2⟩ := hb m j hj
      obtain ⟨i, h3, h4, h5⟩ := first_change (f := fun i => (st i).files.job k) hj h1 h2
      obtain ⟨j', hj'⟩ := busy (i + 1) (by omega)
      obtain ⟨t, alog, g⟩ := h.sim i
      obtain ⟨x, g1, -⟩ := h.next i
      obtain ⟨a, l, -, hadv⟩ := job_step g.basic h4 g1 h5
      refine ih _ ?_ (i + 1) j' (by omega) hj' rfl
      rw [← hr]
      refine Files.advance_rank h4 hadv hj' (fun hx => h5 (by rw [← hx]; exact hj')) ?_
      rintro mp fd td ps out rfl
      obtain ⟨t', alog', g'⟩ := h.sim (i + 1)
      have := g'.copied hown (h.listed _) hj'
      rw [← doing (i + 1) (by omega)]
      unfold sizes
      simpa [Files.State.doing, hj', Files.Job.call] using this
  obtain ⟨j, hj⟩ := busy n (Nat.le_refl _)
  exact main _ n j (Nat.le_refl _) hj rfl

/-- The loop of a connection comes to its end. -/
theorem Endless.ends (h : Endless env key endErr auto reads fs0 ev st log) (hown : OwnUploads env key endErr auto reads) {k : Nat} (ht : Turns ev k) (hb : ComesBack st k) :
    ∃ N, ∀ n, N ≤ n → ((st n).conns k).place = .ended := by
  obtain ⟨N, -, hN⟩ := h.settles k 0
  have stuck : ∀ {p : Event → Prop}, Again ev p → (∀ e, p e → TurnAt k ((st N).conns k).place e) → False := by
    intro p hp hat
    obtain ⟨m, h1, h2⟩ := hp N
    obtain ⟨x, g1, -⟩ := h.next m
    have := turn_leaves (k := k) (by rw [hN m h1]; exact hat _ h2) g1
    rw [hN m h1, hN (m + 1) (by omega)] at this
    exact this rfl
  have call : ¬ ((st N).conns k).place.Calling := by
    intro hc
    obtain ⟨m, h1, h2⟩ := h.call_ends hown hb N
    exact h.calling k m (by rw [hN m h1]; exact hc) h2
  refine ⟨N, fun n hn => ?_⟩
  rw [hN n hn]
  generalize ((st N).conns k).place = p at stuck call
  cases p with
  | waiting => exact (stuck ht.receive fun e he => he).elim
  | received m => exact (stuck ht.process fun e he => he).elim
  | storing m b p => exact absurd trivial call
  | stored m b p => exact (stuck ht.check fun e he => he).elim
  | checking m b p => exact absurd trivial call
  | full m b p => exact (stuck ht.merge fun e he => he).elim
  | merging m b p => exact absurd trivial call
  | merged m => exact (stuck ht.note fun e he => he).elim
  | noted m => exact (stuck ht.dispatch fun e he => he).elim
  | handling => exact (stuck ht.ret fun e he => he).elim
  | ended => rfl

theorem returned_acts (s : State) (k : Nat) (l : List Files.Obs) (h1 : ∀ i m q d o, .wrote i m q d o ∈ l → o = .ok) (h2 : ∀ i m o, .merged i m o ∈ l → o = .ok) :
    ∀ a ∈ (s.returned k l).2, Succeeded a := by
  unfold State.returned
  split
  · rename_i o ho
    have hm := List.mem_of_getLast? ho
    unfold State.result
    split
    · have := h1 _ _ _ _ _ hm
      subst this
      simp [Succeeded]
    · simp
    · have := h2 _ _ _ hm
      subst this
      simp [Succeeded]
    · simp
  · simp

theorem step_acts {s s' : State} {e : Event} {x : List Item} {k : Nat} (h : s.step env key endErr auto e = .ok (s', x)) :
    (∀ a, .act k a ∈ x → Succeeded a) ∨ ∃ b f l, e = .sys k b ∧ s.files.step (.step k b) = .ok (f, l) ∧
      x = l.map .file ++ (({ s with files := f } : State).returned k l).2.map (.act k) ∧ s'.files = f := by
  have same : Res.ok (s, ([] : List Item)) = .ok (s', x) → ∀ a, .act k a ∈ x → Succeeded a := by
    intro h; cases h; simp
  have msg : ∀ {j u m}, s.message j u m = .ok (s', x) → ∀ a, .act k a ∈ x → Succeeded a := by
    intro j u m h a ha
    obtain ⟨q, i, y, -, rfl, hy⟩ := message_conns h
    obtain ⟨b, hb, hx⟩ := List.mem_map.1 ha
    cases hx
    exact hy a hb
  have call : ∀ {j p c}, s.call j p c = .ok (s', x) → ∀ a, .act k a ∈ x → Succeeded a := by
    intro j p c h a ha
    obtain ⟨f, l, -, -, rfl⟩ := call_conns h
    simp at ha
  have fin : ∀ {j y}, s.finish j y = .ok (s', x) → (∀ a, .act k a ∈ y → Succeeded a) → ∀ a, .act k a ∈ x → Succeeded a := by
    intro j y h hy a ha
    obtain ⟨f, l, -, -, rfl⟩ := finish_conns h
    refine hy a ?_
    simpa using ha
  cases e with
  | receive j =>
    left
    simp only [State.step] at h
    repeat' split at h
    all_goals first
      | (cases h; simp [Succeeded]; done)
      | cases h
  | process j u =>
    left
    simp only [State.step] at h
    split at h
    · split at h
      · split at h
        · exact msg h
        · split at h
          · split at h
            · exact call h
            · cases h
          · exact msg h
      · cases h
        rintro a ha
        have := (List.mem_singleton.1 ha)
        cases this
        trivial
    · exact same h
  | check j =>
    left
    simp only [State.step] at h
    split at h
    · split at h
      · cases h; simp
      · exact call h
    · exact same h
  | merge j =>
    left
    simp only [State.step] at h
    split at h
    · exact call h
    · exact same h
  | sys j b =>
    simp only [State.step] at h
    obtain ⟨⟨f, l⟩, h1, h2⟩ := Res.bind_ok h
    injection h2 with h2
    obtain ⟨h3, h4⟩ := Prod.mk.inj h2
    by_cases hk : k = j
    · subst hk
      refine .inr ⟨b, f, l, rfl, h1, h4.symm, ?_⟩
      rw [← h3]
      simp only
      rcases returned_cases ({ s with files := f } : State) k l with hr | ⟨p, a, hr, -⟩ <;> rw [hr] <;> rfl
    · left
      intro a ha
      rw [← h4] at ha
      simp [Ne.symm hk] at ha
  | note j u =>
    left
    simp only [State.step] at h
    split at h
    · exact msg h
    · exact same h
  | dispatch j =>
    left
    simp only [State.step] at h
    split at h
    · split at h
      · refine fin h ?_
        rintro a ha
        have := (List.mem_singleton.1 ha)
        cases this
        trivial
      · cases h
        rintro a ha
        simp only [List.mem_cons, List.not_mem_nil, or_false, Item.act.injEq] at ha
        rcases ha with ⟨-, rfl⟩ | ⟨-, rfl⟩ <;> trivial
    · exact same h
  | read j n =>
    left
    simp only [State.step] at h
    split at h
    · obtain ⟨⟨f, l⟩, h1, h2⟩ := Res.bind_ok h
      cases h2
      simp
    · exact same h
  | ret j u =>
    left
    simp only [State.step] at h
    split at h
    · obtain ⟨_, -, h2⟩ := Res.bind_ok h
      exact fin h2 (by simp)
    · exact same h
  | addHandler id hd =>
    left
    cases hd <;> (simp only [State.step] at h; cases h)
    · simp
    · rintro a ha
      have := (List.mem_singleton.1 ha)
      cases this
      trivial
  | addRequest j r =>
    left
    simp only [State.step] at h
    cases h
    rintro a ha
    have := (List.mem_singleton.1 ha)
    cases this
    trivial

/-- If no system call of a connection fails, then storing and merging succeed for it. -/
theorem Endless.succeeds (h : Endless env key endErr auto reads fs0 ev st log) {k : Nat} (h0 : ∀ a, .act k a ∉ log 0) (h0' : (st 0).files.job = fun _ => none) (hf : ∀ n, ev n ≠ .sys k .fail) (n : Nat) :
    (∀ m q d i ok, (st n).files.job k = some (.shut m q d i ok) → ok = true) ∧ ∀ a, .act k a ∈ log n → Succeeded a := by
  induction n with
  | zero =>
    rw [h0']
    exact ⟨by simp, fun a ha => absurd ha (h0 a)⟩
  | succ n ih =>
    obtain ⟨x, h1, h2⟩ := h.next n
    obtain ⟨t, alog, g⟩ := h.sim n
    have adv : ∀ {b j f l}, ev n = .sys k b → (st n).files.job k = some j → (st n).files.advance k b j = .ok (f, l) →
        (∀ m q d i ok, f.job k = some (.shut m q d i ok) → ok = true) ∧ (∀ i m q d o, .wrote i m q d o ∈ l → o = .ok) ∧ ∀ i m o, .merged i m o ∈ l → o = .ok := by
      intro b j f l he hj ha
      refine Files.advance_shut hj ha ?_ ?_
      · rintro rfl; exact hf n he
      · rintro m q d i ok rfl; exact ih.1 m q d i ok hj
    constructor
    · intro m q d i ok hx
      by_cases hy : (st n).files.job k = some (.shut m q d i ok)
      · exact ih.1 m q d i ok hy
      · cases hj : (st n).files.job k with
        | none =>
          -- a call that begins does not begin with closing a file
          rcases step_on_files h1 with ⟨e1, -⟩ | ⟨i', e', l, hi, e1, -, -⟩
          · rw [e1, hj] at hx; cases hx
          · by_cases hk : k = i'
            · subst hk
              cases e' with
              | call i'' c =>
                cases (show i'' = k from hi)
                simp only [Files.State.step, hj] at e1
                split at e1
                · injection e1 with e1
                  rw [← (Prod.mk.inj e1).1, Files.goto_job_self] at hx
                  cases c <;> cases hx
                · injection e1 with e1
                  rw [← (Prod.mk.inj e1).1, hj] at hx
                  cases hx
              | step i'' a =>
                cases (show i'' = k from hi)
                simp only [Files.State.step, hj] at e1
                injection e1 with e1
                rw [← (Prod.mk.inj e1).1, hj] at hx
                cases hx
              | read i'' a =>
                simp only [Files.State.step] at e1
                repeat' split at e1
                all_goals
                  injection e1 with e1
                  rw [← (Prod.mk.inj e1).1] at hx
                  simp only [Files.State.setReader, hj] at hx
                  cases hx
              | release i'' =>
                simp only [Files.State.step] at e1
                split at e1
                all_goals
                  injection e1 with e1
                  rw [← (Prod.mk.inj e1).1] at hx
                  simp only [Files.State.setReader, hj] at hx
                  cases hx
            · rw [Files.job_other g.basic hi hk e1, hj] at hx
              cases hx
        | some j =>
          obtain ⟨b, l, he, ha⟩ := job_step g.basic hj h1 (by rw [hx]; rintro hz; exact hy (hj.trans hz.symm))
          exact (adv he hj ha).1 m q d i ok hx
    · intro a ha
      rw [h2] at ha
      rcases List.mem_append.1 ha with ha | ha
      · exact ih.2 a ha
      · rcases step_acts (k := k) h1 with h3 | ⟨b, f, l, he, h3, rfl, rfl⟩
        · exact h3 a ha
        · have ha : a ∈ (({ st n with files := (st (n + 1)).files } : State).returned k l).2 := by simpa using ha
          cases hj : (st n).files.job k with
          | none =>
            simp only [Files.State.step, hj] at h3
            injection h3 with h3
            rw [← (Prod.mk.inj h3).2] at ha
            cases ha
          | some j =>
            simp only [Files.State.step, hj] at h3
            have := adv he hj h3
            exact returned_acts _ _ _ this.2.1 this.2.2 a ha

end Verif.Syscall
