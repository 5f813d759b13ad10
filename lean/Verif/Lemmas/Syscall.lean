import Verif.Lemmas.SyscallFiles
import Verif.Lemmas.SystemParts
/-! # Lemmas: system calls that interleave, and calls made at once -/

namespace Verif
open Handler Session Spec Codec

/-! ## Steps of one goroutine on files -/

namespace Files

/-- The files are as if the calls in `log` had been made one after the other, and none is under way. -/
structure Founded (fs : FS) (log : List Obs) : Prop where
  basic : Basic { fs := fs } log
  turn : ∀ u, Turn u { fs := fs } log
  dirs : Dirs { fs := fs } log
  after : ∀ k c, .began k c ∉ log

theorem founded_empty : Founded (fun _ => none) [] := ⟨basic_empty, turn_empty, dirs_empty, by simp⟩

/-- The step is one of goroutine `k`. -/
def By (k : Nat) : Event → Prop
  | .call j _ | .step j _ | .read j _ | .release j => j = k

theorem run_snoc {s t t' : State} {evs : List Event} {ev : Event} {l l' : List Obs} (h : s.run evs = .ok (t, l)) (h' : t.step ev = .ok (t', l')) :
    s.run (evs ++ [ev]) = .ok (t', l ++ l') := by
  induction evs generalizing s l with
  | nil =>
    cases h
    show (t.step ev >>= fun r => r.1.run [] >>= fun q => .ok (q.1, r.2 ++ q.2)) = _
    rw [h']
    show Res.ok (t', l' ++ []) = _
    simp
  | cons e evs ih =>
    obtain ⟨s1, a, b, h1, h2, rfl⟩ := run_cons h
    show (s.step e >>= fun r => r.1.run (evs ++ [ev]) >>= fun q => .ok (q.1, r.2 ++ q.2)) = _
    rw [h1]
    show (s1.run (evs ++ [ev]) >>= fun q => .ok (q.1, a ++ q.2)) = _
    rw [ih h2]
    show Res.ok (t', a ++ (b ++ l')) = _
    rw [List.append_assoc]

/-- What a step of goroutine `k` does not do to another one. -/
structure Elsewhere (s s' : State) (k : Nat) (l : List Obs) : Prop where
  doing : ∀ i, i ≠ k → s'.doing i = s.doing i
  reader : ∀ i, i ≠ k → s'.reader i = s.reader i
  hear : ∀ i, i ≠ k → ∀ x, l.foldl (hear i) x = x
  got : ∀ i c, .got i c ∈ l → i = k
  eof : ∀ i, .eof i ∈ l → i = k
  ops : ∀ op ∈ opsOf l, ∃ c, s.doing k = some c ∧ OpFor c op

theorem Elsewhere.none (s : State) (k : Nat) : Elsewhere s s k [] :=
  ⟨fun _ _ => rfl, fun _ _ => rfl, fun _ _ _ => rfl, by simp, by simp, by simp [opsOf]⟩

theorem Ongoing.quiet {l : List Obs} (h : ∀ o ∈ l, Ongoing o) : (∀ i c, .got i c ∉ l) ∧ (∀ i, .eof i ∉ l) ∧ (∀ i c, .began i c ∉ l) ∧ opsOf l = [] := by
  refine ⟨fun i c hm => h _ hm, fun i hm => h _ hm, fun i c hm => h _ hm, ?_⟩
  unfold opsOf
  rw [List.filterMap_eq_nil_iff]
  intro o ho
  have := h o ho
  cases o <;> first | rfl | exact absurd this id

theorem Outcomes.quiet {s' : State} {k : Nat} {c : Call} {l : List Obs} (h : Outcomes s' k c l) :
    (∀ i c, .got i c ∉ l) ∧ (∀ i, .eof i ∉ l) ∧ ∀ i c, .began i c ∉ l := by
  cases h with
  | on h1 h2 => exact ⟨(Ongoing.quiet h1).1, (Ongoing.quiet h1).2.1, (Ongoing.quiet h1).2.2.1⟩
  | wrote o h1 h2 h3 => obtain ⟨a, b, c, -⟩ := Ongoing.quiet h2; refine ⟨?_, ?_, ?_⟩ <;> simp [a, b, c]
  | checked o h1 h2 h3 => obtain ⟨a, b, c, -⟩ := Ongoing.quiet h2; refine ⟨?_, ?_, ?_⟩ <;> simp [a, b, c]
  | failed o h1 h2 h3 h4 => obtain ⟨a, b, c, -⟩ := Ongoing.quiet h3; refine ⟨?_, ?_, ?_⟩ <;> simp [a, b, c]
  | merged h1 h2 h3 => obtain ⟨a, b, c, -⟩ := Ongoing.quiet h2; refine ⟨?_, ?_, ?_⟩ <;> simp [a, b, c]

theorem elsewhere {s s' : State} {log l : List Obs} {k : Nat} {ev : Event} (hb : Basic s log) (hk : By k ev) (h : s.step ev = .ok (s', l)) :
    Elsewhere s s' k l := by
  have same : Res.ok (s, ([] : List Obs)) = .ok (s', l) → Elsewhere s s' k l := by
    intro h; cases h; exact .none s k
  cases ev with
  | call j c =>
    cases (show j = k from hk)
    simp only [State.step] at h
    split at h
    · cases h
      refine ⟨fun i hi => by simp [State.doing, State.goto, hi], fun _ _ => rfl, fun i _ x => rfl, by simp, by simp, by simp [opsOf, opOf]⟩
    · exact same h
  | step j a =>
    cases (show j = k from hk)
    simp only [State.step] at h
    split at h
    · rename_i jb hj
      have hr : s.reader k = none := hb.one k (by rw [hj]; simp)
      have f := advance_facts hj hr h
      have o := (advance_outcomes hj hr h).quiet
      refine ⟨fun i hi => doing_other (f.jobs i hi) (f.readers i hi), f.readers, f.silent, fun i c hx => absurd hx (o.1 i c),
        fun i hx => absurd hx (o.2.1 i), fun op hop => ⟨jb.call, by simp [State.doing, hj], f.ops op hop⟩⟩
    · exact same h
  | read j n =>
    cases (show j = k from hk)
    simp only [State.step] at h
    split at h
    · split at h
      · cases h
        refine ⟨fun _ _ => rfl, fun _ _ => rfl, fun i _ x => rfl, by simp, by simp, by simp [opsOf, opOf]⟩
      · cases h
        refine ⟨fun i hi => by simp [State.doing, State.setReader, hi], fun i hi => by simp [State.setReader, hi],
          fun i hi x => by simp [Spec.hear, Ne.symm hi], by simp, by simp, by simp [opsOf, opOf]⟩
    · exact same h
  | release j =>
    cases (show j = k from hk)
    simp only [State.step] at h
    split at h
    · cases h
      refine ⟨fun i hi => by simp [State.doing, State.setReader, hi], fun i hi => by simp [State.setReader, hi],
        fun i hi x => rfl, by simp, by simp, by simp [opsOf, opOf]⟩
    · exact same h

end Files

/-! ## Lists of observations -/

theorem filesIn_append (x y : List Syscall.Item) : filesIn (x ++ y) = filesIn x ++ filesIn y := List.filterMap_append
theorem actsIn_append (x y : List Syscall.Item) : actsIn (x ++ y) = actsIn x ++ actsIn y := List.filterMap_append

theorem filesIn_file (l : List Files.Obs) : filesIn (l.map .file) = l := by
  induction l with
  | nil => rfl
  | cons o l ih => rw [List.map_cons]; show o :: filesIn _ = _; rw [ih]

theorem filesIn_act (k : Nat) (l : List Act) : filesIn (l.map (.act k)) = [] := by
  induction l with
  | nil => rfl
  | cons o l ih => rw [List.map_cons]; exact ih

theorem actsIn_file (l : List Files.Obs) : actsIn (l.map .file) = [] := by
  induction l with
  | nil => rfl
  | cons o l ih => rw [List.map_cons]; exact ih

theorem actsIn_act (k : Nat) (l : List Act) : actsIn (l.map (.act k)) = System.State.acts k l := by
  induction l with
  | nil => rfl
  | cons o l ih => rw [List.map_cons]; show (k, o) :: actsIn _ = _; rw [ih]; rfl

theorem gotBy_append (k : Nat) (x y : List Syscall.Item) : gotBy k (x ++ y) = y.foldl (gotNext k) (gotBy k x) := List.foldl_append

theorem handledBy_append (k : Nat) (x y : List (Nat × Act)) : handledBy k (x ++ y) = handledBy k y ++ handledBy k x := by
  unfold handledBy; rw [List.filterMap_append, List.reverse_append]

theorem each_refl {α : Type} {R : α → α → Prop} (h : ∀ a, R a a) : ∀ l : List α, Each R l l
  | [] => .nil
  | a :: l => .cons (h a) (each_refl h l)

theorem each_append {α β : Type} {R : α → β → Prop} {x y : List α} {x' y' : List β} (h : Each R x x') (h' : Each R y y') : Each R (x ++ y) (x' ++ y') := by
  induction h with
  | nil => exact h'
  | cons h _ ih => exact .cons h ih

/-- Observations of goroutine `k` leave what the handlers of others were given. -/
theorem got_other {i k : Nat} (hi : i ≠ k) {x : List Syscall.Item} (ha : ∀ j a, .act j a ∈ x → j = k) (hg : ∀ j c, .got j c ∈ filesIn x → j = k)
    (he : ∀ j, .eof j ∈ filesIn x → j = k) (l : List Got) : x.foldl (gotNext i) l = l := by
  induction x generalizing l with
  | nil => rfl
  | cons y x ih =>
    rw [List.foldl_cons]
    have step : gotNext i l y = l := by
      cases y with
      | act j a =>
        have hj : j = k := ha j a (by simp)
        cases a <;> simp [gotNext, hj, Ne.symm hi]
      | file o =>
        have hm : o ∈ filesIn (.file o :: x) := by simp [filesIn]
        cases o <;> simp only [gotNext]
        · rename_i j c; have := hg j c hm; simp [this, Ne.symm hi]
        · rename_i j; have := he j hm; simp [this, Ne.symm hi]
    rw [step]
    have sub : ∀ o, o ∈ filesIn x → o ∈ filesIn (y :: x) := by
      intro o ho
      cases y with
      | act j a => exact ho
      | file o' => exact List.mem_cons_of_mem _ ho
    exact ih (fun j a h => ha j a (by simp [h])) (fun j c h => hg j c (sub _ h)) (fun j h => he j (sub _ h)) l

/-- Observations of files only, none about reading. -/
theorem got_still (k : Nat) (x : List Syscall.Item) (h1 : ∀ j h m, .act j (.handle h m) ∉ x) (h2 : ∀ j c, .got j c ∉ filesIn x) (h3 : ∀ j, .eof j ∉ filesIn x)
    (l : List Got) : x.foldl (gotNext k) l = l := by
  induction x generalizing l with
  | nil => rfl
  | cons y x ih =>
    rw [List.foldl_cons]
    have step : gotNext k l y = l := by
      cases y with
      | act j a => cases a <;> first | rfl | exact absurd (List.mem_cons_self ..) (h1 j _ _)
      | file o =>
        have hm : o ∈ filesIn (.file o :: x) := by simp [filesIn]
        cases o <;> first | rfl | exact absurd hm (h2 _ _) | exact absurd hm (h3 _)
    have sub : ∀ o, o ∈ filesIn x → o ∈ filesIn (y :: x) := by
      intro o ho
      cases y with
      | act j a => exact ho
      | file o' => exact List.mem_cons_of_mem _ ho
    rw [step]
    exact ih (fun j h m hx => h1 j h m (by simp [hx])) (fun j c h => h2 j c (sub _ h)) (fun j h => h3 j (sub _ h)) l

theorem handled_other {i k : Nat} (hi : i ≠ k) {y : List (Nat × Act)} (h : ∀ z ∈ y, z.1 = k) : handledBy i y = [] := by
  unfold handledBy
  rw [List.reverse_eq_nil_iff, List.filterMap_eq_nil_iff]
  intro z hz
  have := h z hz
  obtain ⟨j, a⟩ := z
  cases a <;> simp_all [Ne.symm hi]

theorem handled_none {k : Nat} {y : List (Nat × Act)} (h : ∀ j g m, (j, Act.handle g m) ∉ y) : handledBy k y = [] := by
  unfold handledBy
  rw [List.reverse_eq_nil_iff, List.filterMap_eq_nil_iff]
  intro z hz
  obtain ⟨j, a⟩ := z
  cases a <;> first | rfl | exact absurd hz (h _ _ _)

theorem each_tag {auto : Bool} {k : Nat} {x y : List (Nat × Act)} (h : Each (SameAct auto) x y) (hx : ∀ z ∈ x, z.1 = k) : ∀ z ∈ y, z.1 = k := by
  induction h with
  | nil => simp
  | cons h _ ih =>
    intro z hz
    rcases List.mem_cons.1 hz with rfl | hz
    · have := hx _ (List.mem_cons_self ..)
      cases h <;> exact this
    · exact ih (fun w hw => hx w (List.mem_cons_of_mem _ hw)) z hz

/-! ## Runs of the system in which calls are made at once -/

namespace System

variable {env : Env} {key : Option DecKey} {endErr : Err} {auto : Bool} {fs0 : FS}

theorem run_snoc {s t t' : State} {es : List Event} {e : Event} {l l' : List (Nat × Act)} (h : s.run env key endErr auto es = .ok (t, l))
    (h' : t.step env key endErr auto e = .ok (t', l')) : s.run env key endErr auto (es ++ [e]) = .ok (t', l ++ l') := by
  induction es generalizing s l with
  | nil =>
    cases h
    show (t.step env key endErr auto e >>= fun r => r.1.run env key endErr auto [] >>= fun q => .ok (q.1, r.2 ++ q.2)) = _
    rw [h']
    show Res.ok (t', l' ++ []) = _
    simp
  | cons e0 es ih =>
    obtain ⟨⟨s1, a⟩, h1, h⟩ := Res.bind_ok h
    obtain ⟨⟨s2, b⟩, h2, h⟩ := Res.bind_ok h
    cases h
    show (s.step env key endErr auto e0 >>= fun r => r.1.run env key endErr auto (es ++ [e]) >>= fun q => .ok (q.1, r.2 ++ q.2)) = _
    rw [h1]
    show (s1.run env key endErr auto (es ++ [e]) >>= fun q => .ok (q.1, a ++ q.2)) = _
    rw [ih h2]
    show Res.ok (t', a ++ (b ++ l')) = _
    rw [List.append_assoc]

theorem own_place {k : Nat} {reads : List Bytes} {s s' : State} {es : List Event} {log x : List (Nat × Act)} (hi : Inv env key endErr auto fs0 k reads s log)
    (hp : AtPart env key endErr auto reads (s.conns k).place) (hs : s.run env key endErr auto es = .ok (s', x)) :
    AtPart env key endErr auto reads (s'.conns k).place := by
  induction es generalizing s log x with
  | nil => cases hs; exact hp
  | cons e es ih =>
    obtain ⟨⟨s1, y⟩, h1, hs⟩ := Res.bind_ok hs
    obtain ⟨⟨s2, z⟩, h2, hs⟩ := Res.bind_ok hs
    cases hs
    exact ih (hi.step h1) (own_step hi hp h1).1 h2

end System
end Verif
