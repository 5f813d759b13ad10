import Verif.Lemmas.Isolation
import Verif.Model.Connection
import Verif.Props.Handler
/-! # C69: sessions do not disturb each other -/

namespace Verif
open Handler Spec

theorem withoutOthers_receive (own : Upload → Bool) (is : List Input) (r : Res (Message Entity)) :
    (∃ a, Input.receive r a ∈ is) ↔ ∃ a, Input.receive r a ∈ withoutOthers own is := by
  induction is with
  | nil => simp [withoutOthers]
  | cons i is ih =>
    cases i with
    | outside x =>
      unfold withoutOthers
      split <;> simp [ih]
    | receive r' a' =>
      unfold withoutOthers
      constructor
      · rintro ⟨a, ha⟩
        rcases List.mem_cons.1 ha with h | h
        · cases h; exact ⟨_, List.mem_cons_self ..⟩
        · obtain ⟨b, hb⟩ := ih.1 ⟨a, h⟩
          exact ⟨b, List.mem_cons_of_mem _ hb⟩
      · rintro ⟨a, ha⟩
        rcases List.mem_cons.1 ha with h | h
        · simp only [Input.receive.injEq] at h
          exact ⟨a', by rw [h.1]; simp⟩
        · obtain ⟨b, hb⟩ := ih.2 ⟨a, h⟩
          exact ⟨b, List.mem_cons_of_mem _ hb⟩

theorem uploads_transfer {auto : Bool} {own : Upload → Bool} {is is' : List Input} (h : withoutOthers own is = withoutOthers own is')
    (hu : Uploads auto own is) : Uploads auto own is' := by
  intro m a hm
  obtain ⟨b, hb⟩ := (withoutOthers_receive own is' (.ok m)).1 ⟨a, hm⟩
  rw [← h] at hb
  obtain ⟨c, hc⟩ := (withoutOthers_receive own is (.ok m)).2 ⟨b, hb⟩
  exact hu m c hc

/-- C69: let `own` be uploads to which all received parts belong. If two courses of events differ only in what is stored and merged of other uploads, by
whichever session and at whatever moment, then the session does the same in both: it answers, calls handlers and callbacks with the same
messages and restarts its period in the same order, its requests, handlers and terminal number come out the same, and it crashes in neither or both. -/
theorem C69_isolation (own : Upload → Bool) (auto : Bool) (s : Loop) (is is' : List Input) (hu : Uploads auto own is)
    (h : withoutOthers own is = withoutOthers own is') :
    (s.run auto is = .panic ↔ s.run auto is' = .panic) ∧
    ∀ t l, s.run auto is = .ok (t, l) → ∃ t' l', s.run auto is' = .ok (t', l') ∧ l.filter visible = l'.filter visible ∧
      t.handlers = t'.handlers ∧ t.requests = t'.requests ∧ t.icc = t'.icc ∧ t.running = t'.running := by
  have ha : Loop.Alike own s s := ⟨⟨fun _ => rfl, fun _ _ => rfl, fun _ => id⟩, rfl, rfl, rfl, rfl⟩
  have h1 := Loop.run_same ha auto is hu
  have h2 := Loop.run_same ha auto is' (uploads_transfer h hu)
  rw [← h] at h2
  cases e : s.run auto (withoutOthers own is) with
  | err x =>
    rw [e] at h1 h2
    cases e1 : s.run auto is <;> rw [e1] at h1 <;> cases e2 : s.run auto is' <;> rw [e2] at h2 <;> first | exact h1.elim | exact h2.elim | simp
  | panic =>
    rw [e] at h1 h2
    cases e1 : s.run auto is <;> rw [e1] at h1 <;> cases e2 : s.run auto is' <;> rw [e2] at h2 <;> first | exact h1.elim | exact h2.elim | simp
  | ok r =>
    rw [e] at h1 h2
    cases e1 : s.run auto is with
    | err x => rw [e1] at h1; exact h1.elim
    | panic => rw [e1] at h1; exact h1.elim
    | ok r1 =>
      cases e2 : s.run auto is' with
      | err x => rw [e2] at h2; exact h2.elim
      | panic => rw [e2] at h2; exact h2.elim
      | ok r2 =>
        rw [e1] at h1
        rw [e2] at h2
        refine ⟨by simp, ?_⟩
        intro t l ht
        cases ht
        exact ⟨r2.1, r2.2, rfl, h1.2.trans h2.2.symm, h1.1.handlers.trans h2.1.handlers.symm, h1.1.requests.trans h2.1.requests.symm,
          h1.1.icc.trans h2.1.icc.symm, h1.1.running.trans h2.1.running.symm⟩

theorem inputs_quiet (env : Env) (key : Option DecKey) (endErr : Err) (own : Upload → Bool) (turns : List (List Outside × Around)) (s : RecvState) :
    withoutOthers own (inputs env key endErr turns s) = inputs env key endErr (quietTurns own turns) s := by
  have app : ∀ (o : List Outside) (is : List Input), withoutOthers own (o.map .outside ++ is) = (o.filter (relevant own)).map .outside ++ withoutOthers own is := by
    intro o is
    induction o with
    | nil => rfl
    | cons x o ih =>
      show withoutOthers own (.outside x :: (o.map .outside ++ is)) = _
      rw [withoutOthers, ih]
      cases hx : relevant own x with
      | true => rw [if_pos rfl, List.filter_cons_of_pos hx]; rfl
      | false => rw [if_neg (by simp), List.filter_cons_of_neg (by simp [hx])]
  induction turns generalizing s with
  | nil => rfl
  | cons t turns ih =>
    obtain ⟨o, a⟩ := t
    show withoutOthers own (inputs env key endErr ((o, a) :: turns) s) = inputs env key endErr ((_, _) :: quietTurns own turns) s
    simp only [inputs]
    rw [app, withoutOthers]
    cases hr : (Codec.receive (entityCodec env) key endErr s).1 with
    | ok m => simp only [ih]
    | err e => rfl
    | panic => rfl

/-- C69 for a connection: what the server does for a connection that delivers `reads` is determined by these bytes, the calls of the program and the
uploads it takes part in; what other sessions store and merge makes no difference, whenever it happens. -/
theorem C69_connection (env : Env) (key : Option DecKey) (endErr : Err) (own : Upload → Bool) (auto : Bool) (turns turns' : List (List Outside × Around))
    (reads : List Bytes) (hu : Uploads auto own (inputs env key endErr turns ⟨[], reads⟩)) (h : quietTurns own turns = quietTurns own turns') :
    (serve env key endErr auto turns reads = .panic ↔ serve env key endErr auto turns' reads = .panic) ∧
    ∀ t l, serve env key endErr auto turns reads = .ok (t, l) → ∃ t' l', serve env key endErr auto turns' reads = .ok (t', l') ∧
      l.filter visible = l'.filter visible ∧ t.handlers = t'.handlers ∧ t.requests = t'.requests ∧ t.icc = t'.icc ∧ t.running = t'.running :=
  C69_isolation own auto {} _ _ hu (by rw [inputs_quiet, inputs_quiet, h])

/-- Two parts of an upload; meanwhile another terminal and another upload of the same terminal are stored and merged. -/
def Sample.crowded : List Input :=
  [.outside (.addHandler 0x0801 (some 1)), .receive (.ok (Sample.part 2 1 [1, 2])) {}, .outside (.write ⟨13800138000, 0x0801, 8, 2⟩ 2 [9] .ok),
    .outside (.write ⟨124, 0x0801, 7, 2⟩ 1 [9] .ok),
    .receive (.ok (Sample.part 2 2 [3])) { afterWrite := [.merge ⟨13800138000, 0x0801, 8, 2⟩ .ok], afterCheck := [.write ⟨124, 0x0801, 7, 2⟩ 2 [9] (.torn 0)] }]

/-- The same two parts alone. -/
def Sample.alone : List Input :=
  [.outside (.addHandler 0x0801 (some 1)), .receive (.ok (Sample.part 2 1 [1, 2])) {}, .receive (.ok (Sample.part 2 2 [3])) {}]

/-- Non-trivial case: the two histories differ in other uploads only, and the upload is delivered. -/
example : Uploads true (· == Sample.video) Sample.crowded ∧
    withoutOthers (· == Sample.video) Sample.crowded = withoutOthers (· == Sample.video) Sample.alone ∧
    ∃ t l, ({} : Loop).run true Sample.crowded = .ok (t, l) ∧ Act.handle 1 (mergedMessage (Sample.part 2 2 [3]) { mediaID := 7, channelID := 1 } [1, 2, 3]) ∈ l := by
  refine ⟨?_, by decide, _, _, rfl, by decide⟩
  intro m a hm u p data hp
  simp only [Sample.crowded, List.mem_cons, List.not_mem_nil, or_false, Input.receive.injEq, Res.ok.injEq, reduceCtorEq, false_or] at hm
  rcases hm with ⟨rfl, -⟩ | ⟨rfl, -⟩ <;> (cases hp; decide)

/-- The limit of C69: a session that stores a part under the same terminal number, message id and media id does make a difference. Nothing ties a
terminal number to a connection, so any client can do so: here the first part is replaced by another client before the second arrives. -/
theorem C69_same_upload_matters : ∃ (first second : Input) (t t' : Loop) (l l' : List Act),
    ({} : Loop).run true [first, .outside (.write ⟨13800138000, 0x0801, 7, 2⟩ 1 [66] .ok), second] = .ok (t, l) ∧
    ({} : Loop).run true [first, second] = .ok (t', l') ∧
    offered l = [mergedMessage (Sample.part 2 2 [3]) { mediaID := 7, channelID := 1 } [66, 3]] ∧
    offered l' = [mergedMessage (Sample.part 2 2 [3]) { mediaID := 7, channelID := 1 } [1, 2, 3]] :=
  ⟨.receive (.ok (Sample.part 2 1 [1, 2])) {}, .receive (.ok (Sample.part 2 2 [3])) {}, _, _, _, _, rfl, rfl, by decide, by decide⟩

end Verif
