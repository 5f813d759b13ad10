import Verif.Props.Server
/-! # C50: exactly when the keepalive closes a session too early -/

namespace Verif
open Server Spec

variable {ka : Int} {key : Option Nat} {s0 s : State} {evs : List Event}

private theorem fold_none {k : Nat} (b : List Obs) (h : .armed k ∉ b) : ∀ a : Option Int × Option Int, (b.foldl (restartNext k) a).2 = a.2 := by
  induction b with
  | nil => intro a; rfl
  | cons o b ih =>
    intro a
    rw [List.foldl_cons, ih fun hm => h (List.mem_cons_of_mem _ hm)]
    cases o with
    | restart k' now => simp only [restartNext]; split <;> rfl
    | armed k' =>
      have : k' ≠ k := by rintro rfl; exact h List.mem_cons_self
      simp only [restartNext, if_neg this]
    | _ => rfl

private theorem fold_armed {k : Nat} (b : List Obs) (h : .armed k ∈ b) : ∀ (p x y : Option Int),
    (b.foldl (restartNext k) (p, x)).2 = (b.foldl (restartNext k) (p, y)).2 := by
  induction b with
  | nil => cases h
  | cons o b ih =>
    intro p x y
    simp only [List.foldl_cons]
    by_cases ho : o = .armed k
    · subst ho
      simp only [restartNext, if_true]
    · have hb : .armed k ∈ b := (List.mem_cons.1 h).resolve_left fun e => ho e.symm
      cases o with
      | restart k' now => simp only [restartNext]; split <;> exact ih hb _ _ _
      | armed k' =>
        have : k' ≠ k := by rintro rfl; exact ho rfl
        simp only [restartNext, if_neg this]; exact ih hb _ _ _
      | _ => exact ih hb _ _ _

/-- The last completed restart of the period, over a tick at which none is under way. -/
private theorem lastRestart_over {k : Nat} (a b : List Obs) (n : Int) (ks : List Nat) (hr : restarting k a = none) :
    lastRestart k (a ++ .ticked n ks :: b) = if .armed k ∈ b then lastRestart k b else lastRestart k a := by
  have e : (a.foldl (restartNext k) (none, none)) = (none, lastRestart k a) := Prod.ext hr rfl
  unfold lastRestart
  rw [List.foldl_append, List.foldl_cons, e]
  show (b.foldl (restartNext k) (none, lastRestart k a)).2 = _
  split
  · next h => exact fold_armed b h none _ _
  · next h => exact fold_none b h _

/-- **C50, exactly.** The keepalive closes session `k` after the tick at time `n`; `b` is what happened between the tick and this. Then fewer seconds than
the period had passed at the tick since the last message that was dispatched (or its accept), if and only if a message was dispatched in `b`: after the tick
had found the session expired. (No message of the session is being dispatched at the moment of the tick, the clock does not go back, and clock and period
fit 64 bits together; for the latter see `C50_refuted_overflow`.) -/
theorem C50_early_exact_partial (h0 : newServer ka key = .ok s0) {a b l2 : List Obs} {n : Int} {ks : List Nat} {k : Nat}
    (h : s0.run evs = .ok (s, (a ++ .ticked n ks :: b) ++ .timeout k :: l2)) (hlast : ∀ n' ks', .ticked n' ks' ∉ b)
    (hf : ∀ t, .restart k t ∈ a → t + keepalivePeriod ka < 2 ^ 63) (hr : restarting k a = none) (hc : ∀ t, .restart k t ∈ b → n ≤ t) :
    (∃ t, lastRestart k (a ++ .ticked n ks :: b) = some t ∧ n < t + keepalivePeriod ka) ↔ ∃ t, lastRestart k b = some t := by
  have hk : k ∈ ks := by
    obtain ⟨a', n', ks', b', e, h1, h2⟩ := C50_only_expired h0 h
    rcases List.append_eq_append_iff.1 e with ⟨c, rfl, hcc⟩ | ⟨c, rfl, hcc⟩
    · cases c with
      | nil => cases hcc; exact h1
      | cons o c =>
        rw [List.cons_append] at hcc
        cases hcc
        exact absurd (List.mem_append_right _ List.mem_cons_self) (hlast n' ks')
    · cases c with
      | nil => cases hcc; exact h1
      | cons o c =>
        rw [List.cons_append] at hcc
        cases hcc
        exact absurd (List.mem_append_right _ List.mem_cons_self) (h2 n ks)
  obtain ⟨t0, g1, g2⟩ := C50_never_early_partial h0 (l1 := a) (l2 := b ++ .timeout k :: l2) (by simpa using h) hf hk
  have hp : 0 < keepalivePeriod ka := by unfold keepalivePeriod; split <;> omega
  rw [lastRestart_over a b n ks hr]
  constructor
  · rintro ⟨t, h1, h2⟩
    split at h1
    · exact ⟨t, h1⟩
    · rw [g1] at h1
      cases h1
      omega
  · rintro ⟨t, ht⟩
    have harm : Obs.armed k ∈ b := by
      apply Classical.byContradiction
      intro hn
      have : lastRestart k b = none := fold_none b hn _
      rw [this] at ht
      cases ht
    rw [if_pos harm]
    have := hc t (lastRestart_mem _ ht)
    exact ⟨t, ht, by omega⟩

/-- Both cases occur: in the race of `C50_refuted` a message is dispatched after the tick, otherwise none. -/
example : (∃ a b, Sample.logOf Sample.raced = (a ++ .ticked 60 [1] :: b) ++ .timeout 1 :: [.closing 1] ∧ restarting 1 a = none ∧ lastRestart 1 b = some 60) ∧
    (∃ a b, Sample.logOf (Sample.opened ++ [.tick 59, .tick 60, .lookup, .closeFound, .tick 61]) =
      (a ++ .ticked 60 [1] :: b) ++ .timeout 1 :: [.closing 1, .ticked 61 []] ∧ restarting 1 a = none ∧ lastRestart 1 b = none) :=
  ⟨⟨[.accepted 1, .registered 1, .restart 1 0, .cancelled 1, .armed 1, .attached 1, .ticked 59 []], [.restart 1 60, .cancelled 1, .armed 1],
    by decide +kernel, by decide +kernel, by decide +kernel⟩,
    ⟨[.accepted 1, .registered 1, .restart 1 0, .cancelled 1, .armed 1, .attached 1, .ticked 59 []], [], by decide +kernel, by decide +kernel,
      by decide +kernel⟩⟩

end Verif
