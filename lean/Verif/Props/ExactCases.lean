import Verif.Props.Encode
import Verif.Props.Location
import Verif.Props.Timer
/-! # C19, C34, C53: exactly when they hold -/

namespace Verif
open Spec

/-- C53, exactly: a body that can be encoded gives the same bytes however often it is encoded if and only if it is not a media message with content.
Missing: the property for those. -/
theorem C53_exact_partial (env : Env) (e e' : Entity) (b : Bytes) (h : Entity.encode env e = .ok (b, e')) :
    (∀ n, sends env n e = List.replicate n (.ok b)) ↔ ∀ x, e = .m0801 x → x.packet.getD [] = [] := by
  by_cases hid : e.msgID = 0x0801
  · obtain ⟨x, rfl⟩ : ∃ x, e = .m0801 x := by
      cases e <;> first | exact ⟨_, rfl⟩ | (revert hid; simp [Entity.msgID])
    constructor
    · intro ha y hy
      cases hy
      obtain ⟨base, h1, h2⟩ := C53_media env x e' b 1 h
      rw [ha] at h2
      simp only [List.replicate, List.cons.injEq, Res.ok.injEq, and_true, true_and] at h2
      rw [h2] at h1
      simpa using h1
    · intro hx n
      cases n with
      | zero => rfl
      | succ n =>
        obtain ⟨base, h1, h2⟩ := C53_media env x e' b n h
        rw [hx x rfl, List.append_nil] at h1
        rw [h2, h1]
        rfl
  · refine ⟨fun _ x hx => ?_, fun _ n => C53_same_bytes_partial env e e' b n h hid⟩
    subst hx
    exact absurd rfl hid

/-- Both cases: a media message with content and one without. -/
example : (∃ b e', Entity.encode Sample.env (.m0801 { mediaID := 1, location := { time := 1700000000 }, packet := some [] }) = .ok (b, e') ∧
      ∀ n, sends Sample.env n (.m0801 { mediaID := 1, location := { time := 1700000000 }, packet := some [] }) = List.replicate n (.ok b)) ∧
    ∃ b e', Entity.encode Sample.env (.m0801 { mediaID := 1, location := { time := 1700000000 }, packet := some [7] }) = .ok (b, e') ∧
      ¬ ∀ n, sends Sample.env n (.m0801 { mediaID := 1, location := { time := 1700000000 }, packet := some [7] }) = List.replicate n (.ok b) :=
  ⟨⟨_, _, rfl, (C53_exact_partial Sample.env _ _ _ rfl).2 (by rintro x ⟨⟩; rfl)⟩,
    ⟨_, _, rfl, fun h => absurd ((C53_exact_partial Sample.env _ _ _ rfl).1 h _ rfl) (by decide)⟩⟩

/-- C19, exactly: a report that was received and is passed on is read as the same report if and only if it has no extras. Missing: the property for
reports with extras. -/
theorem C19_exact_partial (env : Env) (e : T0200) (h : LocationOK env e) :
    ∃ b d n b2 d2, T0200.encode env e = .ok (b, e) ∧ T0200.decode env {} b = .ok (d, n) ∧ T0200.encode env d = .ok (b2, d2) ∧
      ((∃ n2, T0200.decode env {} b2 = .ok (d, n2)) ↔ e.extras = []) := by
  by_cases hx : e.extras = []
  · obtain ⟨b, d, n, h1, h2, h3, h4⟩ := C19_forward_without_extras_partial env e h.1 hx
    exact ⟨b, d, n, b, d, h1, h2, h4, fun _ => hx, fun _ => ⟨n, h2⟩⟩
  · obtain ⟨b, d, n, b2, d2, h1, h2, h3, h4⟩ := C19_refuted env e h hx
    refine ⟨b, d, n, b2, d2, h1, h2, h3, ?_, fun h => absurd h hx⟩
    rintro ⟨n2, h5⟩
    rw [h4] at h5
    cases h5

/-- Both cases: a report without extras and one with the mileage. -/
example : ∀ xs ∈ [[], [some (Extra.new (.x01 5))]], LocationOK Sample.env { status := 4, lat := ⟨-33868820, -6⟩, lng := ⟨151209290, -6⟩, time := 1700000000, extras := xs } := by
  have hbase : BaseOK Sample.env { status := 4, lat := ⟨-33868820, -6⟩, lng := ⟨151209290, -6⟩, time := 1700000000 } :=
    ⟨⟨rfl, by decide⟩, ⟨rfl, by decide⟩, ⟨fun _ => rfl, fun _ => by decide⟩, ⟨fun h => absurd h (by decide), fun h => absurd h (by decide)⟩,
    by simp [TimeOK, Sample.env, Spec.unix2010, Spec.unix2100]⟩
  intro xs hxs
  refine ⟨hbase, fun x hx => ⟨.x01 5, trivial, ?_⟩⟩
  simp only [List.mem_cons, List.not_mem_nil, or_false] at hxs
  rcases hxs with rfl | rfl
  · cases hx
  · simpa using hx

open Timer

/-- C34, exactly: the key given to `Update` fires at the next tick if its period has ended and not if it has not, whenever that tick comes, if and only if
the end of the period is a number of 64 bits. Missing: the property for other sums. -/
theorem C34_exact_partial {K : Type} [DecidableEq K] (p : Int) (pre : List (Op K)) (k : K) (now : Int) :
    (∀ n, ∃ t fs g, (Timer.new p : Timer K).run (pre ++ [.update now k, .tick n]) = .ok (t, fs ++ [g]) ∧
      (k ∈ g ↔ now + periodAfter p pre ≤ n)) ↔ -2 ^ 63 ≤ now + periodAfter p pre ∧ now + periodAfter p pre < 2 ^ 63 := by
  have key : ∀ n, ∃ t fs g, (Timer.new p : Timer K).run (pre ++ [.update now k, .tick n]) = .ok (t, fs ++ [g]) ∧
      (k ∈ g ↔ deadline now (periodAfter p pre) ≤ n) := by
    intro n
    obtain ⟨t1, fs, a1, a2, a3⟩ := run_seq pre (Timer.new p) (seq_new p)
    obtain ⟨t2, b1, b2, b3⟩ := update_seq t1 now k a2
    obtain ⟨t3, g, d1, d2, d3⟩ := tick_seq t2 n b2
    have hp := behaves_period pre _ _ _ a1 (seq_new p)
    refine ⟨t3, fs ++ [[]], g, ?_, ?_⟩
    · rw [List.append_assoc]
      exact run_append _ _ _ _ _ _ _ a1 (by simp [Timer.run, Timer.apply, b1, d1])
    · rw [d3.exact k, b3]
      have : (view t1).period = periodAfter p pre := hp
      simp only [Countdown.put, if_true, Option.some.injEq, exists_eq_left', ← deadline_dueAt, this]
  constructor
  · intro h
    have hd : ∀ n, deadline now (periodAfter p pre) ≤ n ↔ now + periodAfter p pre ≤ n := by
      intro n
      obtain ⟨t, fs, g, h1, h2⟩ := h n
      obtain ⟨t', fs', g', h3, h4⟩ := key n
      rw [h1] at h3
      simp only [Res.ok.injEq, Prod.mk.injEq] at h3
      obtain rfl : g = g' := by simpa using (List.append_inj' h3.2 rfl).2
      exact h4.symm.trans h2
    have e1 := (hd (deadline now (periodAfter p pre))).1 (Int.le_refl _)
    have e2 := (hd (now + periodAfter p pre)).2 (Int.le_refl _)
    unfold deadline at e1 e2
    omega
  · intro hf n
    obtain ⟨t, fs, g, h1, h2⟩ := key n
    refine ⟨t, fs, g, h1, h2.trans ?_⟩
    unfold deadline
    omega
/-- Both cases: ordinary times, and a period that ends after the last time there is. -/
example : (-2 ^ 63 ≤ 1700000000 + periodAfter 60 ([.setExpiration 30] : List (Op String)) ∧ 1700000000 + periodAfter 60 ([.setExpiration 30] : List (Op String)) < 2 ^ 63) ∧
    ¬ (1700000000 + periodAfter 60 ([.setExpiration (2 ^ 63 - 1)] : List (Op String)) < 2 ^ 63) := by decide

end Verif
