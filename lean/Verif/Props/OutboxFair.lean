import Verif.Lemmas.OutboxFair
import Verif.Props.Outbox
/-! # C55 in runs without end -/

namespace Verif
open Spec (acceptedItems Calm firsts Again)

/-- C55 in the long run: if the send loop is given turns again and again, then every message for which `Send` returned nil is written at some time, in the order of
acceptance and with the body it had when `Send` was called, unless the session is closed, or encoding or writing a message fails. -/
theorem C55_fair (env : Env) (key : Option EncKey) (heap : Nat → Entity) (ev : Nat → Outbox.Event Entity)
    (hcalm : ∀ n, Calm (entityCodec env) key (Outbox.State.init heap) (firsts ev n)) (ht : Again ev fun e => ∃ w, e = .take w)
    (hopen : ∀ n, ((Outbox.State.init heap).run (entityCodec env) key (firsts ev n)).1.closed = false)
    (hok : ∀ n x b w, .handled x b w false ∉ ((Outbox.State.init heap).run (entityCodec env) key (firsts ev n)).2) (n : Nat) :
    ∃ frames : List Bytes,
      (acceptedItems ((Outbox.State.init heap).run (entityCodec env) key (firsts ev n)).2).map
        (fun x => Codec.sendBytes (entityCodec env) key { header := x.header, body := x.given }) = frames.map .ok ∧
      ∃ N, ∀ m, N ≤ m → frames.flatten <+: ((Outbox.State.init heap).run (entityCodec env) key (firsts ev m)).1.wire := by
  obtain ⟨N, hn, hN⟩ := Outbox.taken (C := entityCodec env) (key := key) hopen hok ht n
  generalize ha : acceptedItems ((Outbox.State.init heap).run (entityCodec env) key (firsts ev n)).2 = acc at hN
  -- at any later time
  have later : ∀ m, N ≤ m → ∃ frames : List Bytes, acc.map (fun x => Codec.sendBytes (entityCodec env) key { header := x.header, body := x.given }) = frames.map .ok ∧
      frames.flatten <+: ((Outbox.State.init heap).run (entityCodec env) key (firsts ev m)).1.wire := by
    intro m hm
    have inv := (Outbox.Inv.init (entityCodec env) key heap).run (Outbox.stable_entity env) (firsts ev m) (hcalm m)
    rw [List.nil_append] at inv
    obtain ⟨sent, rest, tail, a1, a2, a3, -, a5⟩ := inv.stream
    obtain ⟨rfl, rfl⟩ := a5 (Outbox.running_always hopen hok m)
    have ho := (Outbox.order_run (entityCodec env) key heap (firsts ev m)).order
    rw [a1, List.append_cancel_right_eq] at ho
    have hlen : acc.length ≤ (sent.map (·.1)).length := by
      rw [ho]
      exact Nat.le_trans hN (Outbox.filterMap_prefix (Outbox.run_onward hm)).length_le
    have hpre : acc <+: sent.map (·.1) := by
      refine List.prefix_of_prefix_length_le (l₃ := acceptedItems ((Outbox.State.init heap).run (entityCodec env) key (firsts ev m)).2) ?_ ?_ hlen
      · rw [← ha]; exact Outbox.filterMap_prefix (Outbox.run_onward (by omega))
      · rw [a1]; exact List.prefix_append _ _
    obtain ⟨t, hpre⟩ := hpre
    obtain ⟨s1, s2, rfl, e1, e2⟩ := List.map_eq_append_iff.1 hpre.symm
    refine ⟨s1.map (·.2), ?_, ?_⟩
    · rw [← e1, List.map_map, List.map_map]
      exact List.map_congr_left fun x hx => a2 x (List.mem_append_left _ hx)
    · rw [a3, List.map_append, List.flatten_append, List.append_nil]
      exact List.prefix_append _ _
  obtain ⟨frames, h1, -⟩ := later N (Nat.le_refl _)
  refine ⟨frames, h1, N, fun m hm => ?_⟩
  obtain ⟨frames', h2, h3⟩ := later m hm
  rw [h1] at h2
  rwa [List.map_inj_right (f := Res.ok) (by simp) |>.1 h2]

/-! ## A concrete case -/

namespace Sample

/-- Two goroutines send (`Sample.twoSends`), and then the send loop is given turns for ever. -/
def sendingRun (n : Nat) : Outbox.Event Entity := (twoSends[n]?).getD (.take none)

/-- Where the run comes to rest. -/
def sendingEnd : Outbox.State Entity × List (Outbox.Obs Entity) := (Outbox.State.init heap).run codec none twoSends

theorem sendingRun_rest (n : Nat) : (Outbox.State.init heap).run codec none (firsts sendingRun (7 + n)) = sendingEnd := by
  induction n with
  | zero =>
    have : firsts sendingRun (7 + 0) = twoSends := by decide
    rw [this]
    rfl
  | succ n ih =>
    rw [← Nat.add_assoc, Outbox.run_next, ih]
    have hn : twoSends[7 + n]? = none := List.getElem?_eq_none (by simp [twoSends])
    have hq : sendingEnd.1.queue = [] ∧ sendingEnd.1.closed = false ∧ sendingEnd.1.crashed = false ∧ sendingEnd.1.loop = .running := by decide
    simp only [sendingRun, hn, Option.getD_none, Outbox.State.step, hq.1, hq.2.1, hq.2.2.1, hq.2.2.2]
    simp

theorem sendingRun_all {P : Outbox.State Entity × List (Outbox.Obs Entity) → Prop} (h : ∀ n ≤ 7, P ((Outbox.State.init heap).run codec none (firsts sendingRun n))) (n : Nat) :
    P ((Outbox.State.init heap).run codec none (firsts sendingRun n)) := by
  by_cases hn : n ≤ 7
  · exact h n hn
  · obtain ⟨k, rfl⟩ : ∃ k, n = 7 + k := ⟨n - 7, by omega⟩
    rw [sendingRun_rest, ← sendingRun_rest 0]
    exact h 7 (Nat.le_refl _)

theorem calm_append {C : BodyCodec Entity} {key : Option EncKey} (a b : List (Outbox.Event Entity)) : ∀ {s : Outbox.State Entity},
    Calm C key s (a ++ b) ↔ Calm C key s a ∧ Calm C key (s.run C key a).1 b := by
  induction a with
  | nil => intro s; simp [Calm, Outbox.State.run]
  | cons x a ih => intro s; simp only [List.cons_append, Calm, Outbox.State.run, ih, and_assoc]

theorem twoSends_calm : Calm codec none (Outbox.State.init heap) twoSends := ⟨by decide, by decide, trivial, trivial, trivial, trivial, trivial, trivial⟩

theorem sendingRun_calm (n : Nat) : Calm codec none (Outbox.State.init heap) (firsts sendingRun n) := by
  have late : ∀ k, Calm codec none (Outbox.State.init heap) (firsts sendingRun (7 + k)) := by
    intro k
    induction k with
    | zero =>
      have : firsts sendingRun (7 + 0) = twoSends := by decide
      rw [this]
      exact twoSends_calm
    | succ k ih =>
      have hn : twoSends[7 + k]? = none := List.getElem?_eq_none (by simp [twoSends])
      rw [← Nat.add_assoc, Spec.firsts_succ, calm_append]
      refine ⟨ih, ?_⟩
      simp only [sendingRun, hn, Option.getD_none, Calm, and_self]
  have early : ∀ i, Calm codec none (Outbox.State.init heap) (firsts sendingRun (n + i)) → Calm codec none (Outbox.State.init heap) (firsts sendingRun n) := by
    intro i
    induction i with
    | zero => exact id
    | succ i ih =>
      intro h
      rw [← Nat.add_assoc, Spec.firsts_succ, calm_append] at h
      exact ih h.1
  exact early 7 (Nat.add_comm n 7 ▸ late n)

end Sample

/-- In such a run both messages that were sent are on the wire at some time. -/
theorem C55_fair_example : ∃ frames : List Bytes,
    (acceptedItems ((Outbox.State.init Sample.heap).run (entityCodec Sample.env) none (firsts Sample.sendingRun 5)).2).map
      (fun x => Codec.sendBytes (entityCodec Sample.env) none { header := x.header, body := x.given }) = frames.map .ok ∧ frames.length = 2 ∧
    ∃ N, ∀ m, N ≤ m → frames.flatten <+: ((Outbox.State.init Sample.heap).run (entityCodec Sample.env) none (firsts Sample.sendingRun m)).1.wire := by
  obtain ⟨frames, h1, h2⟩ := C55_fair Sample.env none Sample.heap Sample.sendingRun Sample.sendingRun_calm
    (fun n => ⟨7 + n, by omega, none, by
      have hn : Sample.twoSends[7 + n]? = none := List.getElem?_eq_none (by simp [Sample.twoSends])
      simp only [Sample.sendingRun, hn, Option.getD_none]⟩)
    (Sample.sendingRun_all (P := fun r => r.1.closed = false) (by decide))
    (by
      refine Sample.sendingRun_all (P := fun r => ∀ x b w, .handled x b w false ∉ r.2) ?_
      intro n hn x b w hx
      have : ∀ n ≤ 7, (((Outbox.State.init Sample.heap).run Sample.codec none (firsts Sample.sendingRun n)).2.all fun | .handled _ _ _ false => false | _ => true) = true := by
        decide
      exact absurd (List.all_eq_true.1 (this n hn) _ hx) (by simp)) 5
  refine ⟨frames, h1, ?_, h2⟩
  have := congrArg List.length h1
  rw [List.length_map, List.length_map] at this
  rw [← this]
  decide

end Verif
