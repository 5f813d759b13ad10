import Verif.Props.Server
import Verif.Lemmas.ServerExact
/-! # C36, C37: which closed sessions are forgotten, and whose close handler runs -/

namespace Verif
open Server Spec

variable {ka : Int} {key : Option Nat} {s0 s : State} {evs : List Event} {log : List Obs}

private theorem inv_of (h0 : newServer ka key = .ok s0) (h : s0.run evs = .ok (s, log)) : Inv (keepalivePeriod ka) s log := by
  obtain ⟨s', o, h1, h2⟩ := run_inv (new_inv h0) evs
  rw [h] at h1
  simp only [Res.ok.injEq, Prod.mk.injEq] at h1
  obtain ⟨rfl, rfl⟩ := h1
  simpa using h2

private theorem state_of (h0 : newServer ka key = .ok s0) (h : s0.run evs = .ok (s, log)) {k : Nat} (hm : .closeDone k ∈ log) :
    ∃ x, s.sessions k = some x ∧ Facts k x (only k log) ∧ (AttachedBeforeEnd k log ↔ x.closer = .done) := by
  have hl := (inv_of h0 h).life k
  cases hx : s.sessions k with
  | none =>
    rw [hx] at hl
    have : only k log = [] := life_facts hl
    have := (mem_only (k := k) (o := .closeDone k) rfl).2 hm
    simp_all
  | some x =>
    rw [hx] at hl
    exact ⟨x, rfl, life_facts hl, beforeEnd_only.symm.trans (life_beforeEnd hl x rfl)⟩

/-- C36, exactly: a session that was registered and whose close has completed is forgotten if and only if its close callback was in place when the closing
goroutine had come to its end; otherwise it is found for ever. Missing: the property for the latter. -/
theorem C36_exact_partial (h0 : newServer ka key = .ok s0) (h : s0.run evs = .ok (s, log)) {k : Nat} (hr : .registered k ∈ log) (hd : .closeDone k ∈ log) :
    (s.getSession k = false ↔ AttachedBeforeEnd k log) ∧
      (¬ AttachedBeforeEnd k log → ∀ more s' log', s.run more = .ok (s', log') → s'.getSession k = true) := by
  obtain ⟨x, hx, f, hb⟩ := state_of h0 h hd
  have hi := inv_of h0 h
  have hdone := f.done.1 ((mem_only (k := k) rfl).2 hd)
  have hp := f.registered.1 ((mem_only (k := k) rfl).2 hr)
  refine ⟨?_, fun hn more s' log' hmore => ?_⟩
  · rw [← Bool.not_eq_true, C36_registry h0 h, hb]
    simp only [hr, true_and, Classical.not_not]
    rw [← mem_only (k := k) rfl, f.deleted]
    rcases hdone with hd | hd <;> simp [hd]
  · have hsk : x.closer = .skipped := hdone.resolve_left fun e => hn (hb.2 e)
    have ho : Orphan s k := ⟨(hi.ids k (by simp [hx])).2, x, hx, hsk, f.closed.2 (by simp [hsk]), f.inMap.2 ⟨hp, by simp [hsk], by simp [hsk], by simp [hsk]⟩, hp⟩
    obtain ⟨⟨_, y, hy, _, _, hmap, _⟩, _⟩ := orphan_run hi ho hmore
    simp [State.getSession, hy, hmap]

/-- C37, exactly: when the close of a session has completed, its close handler has run once if and only if its close callback was in place when the closing
goroutine had come to its end; otherwise it has not run, and, for a registered session, never will. Missing: the property for the latter. -/
theorem C37_exact_partial (h0 : newServer ka key = .ok s0) (h : s0.run evs = .ok (s, log)) {k : Nat} (hd : .closeDone k ∈ log) :
    (log.count (.closeHandler k) = 1 ↔ AttachedBeforeEnd k log) ∧
      (¬ AttachedBeforeEnd k log → log.count (.closeHandler k) = 0 ∧
        (.registered k ∈ log → ∀ more s' log', s.run more = .ok (s', log') → .closeHandler k ∉ log')) := by
  obtain ⟨x, hx, f, hb⟩ := state_of h0 h hd
  have hi := inv_of h0 h
  have hdone := f.done.1 ((mem_only (k := k) rfl).2 hd)
  have hc : log.count (.closeHandler k) = if x.closer = .done then 1 else 0 := by
    rw [← f.handled]
    unfold only
    rw [List.count_filter (by simp [about])]
  refine ⟨?_, fun hn => ⟨?_, fun hr more s' log' hmore => ?_⟩⟩
  · rw [hc, hb]
    split <;> simp_all
  · rw [hc, if_neg fun e => hn (hb.2 e)]
  · have hp := f.registered.1 ((mem_only (k := k) rfl).2 hr)
    have hsk : x.closer = .skipped := hdone.resolve_left fun e => hn (hb.2 e)
    have ho : Orphan s k := ⟨(hi.ids k (by simp [hx])).2, x, hx, hsk, f.closed.2 (by simp [hsk]), f.inMap.2 ⟨hp, by simp [hsk], by simp [hsk], by simp [hsk]⟩, hp⟩
    exact (orphan_run hi ho hmore).2

namespace Sample
/-- Another goroutine closes the session between the question whether it is closed and the entry of the close callback. -/
def closedBetween : List Event :=
  [.accept, .move 1 .register, .move 1 (.restart 0), .move 1 .cancel, .move 1 .arm, .move 1 .check, .move 1 .close, .move 1 .attach, .move 1 .callbacks,
    .move 1 .delete, .move 1 .remove, .move 1 (.handler .returns)]
end Sample

/-- Both cases occur; in the first one the callback was not yet in place when `Close` took effect, but when it mattered. -/
example : (Obs.registered 1 ∈ Sample.logOf Sample.closedBetween ∧ Obs.closeDone 1 ∈ Sample.logOf Sample.closedBetween ∧
      AttachedBeforeEnd 1 (Sample.logOf Sample.closedBetween) ∧ (Sample.logOf Sample.closedBetween).count (.closeHandler 1) = 1) ∧
    Obs.registered 1 ∈ Sample.logOf Sample.closedEarly ∧ Obs.closeDone 1 ∈ Sample.logOf Sample.closedEarly ∧
      Obs.attached 1 ∉ Sample.logOf Sample.closedEarly :=
  ⟨⟨by decide +kernel, by decide +kernel,
    ⟨(Sample.logOf Sample.closedBetween).take 10, [], by decide +kernel, by decide +kernel⟩, by decide +kernel⟩,
    by decide +kernel, by decide +kernel, by decide +kernel⟩

end Verif
