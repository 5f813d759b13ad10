import Verif.Lemmas.FleetFair
import Verif.Props.Fleet
/-! # C86 in runs without end -/

namespace Verif
open Spec (acceptedItems CalmFleet seenOn firsts Again)

/-- **C86 in the long run.** With any number of connections, if the send loop of a connection is given turns again and again, then every message that was
accepted for it, by `Broadcast` or otherwise, is written to it at some time, in order and with the body it had when `Send` was called, whatever happens
on the other connections, unless its session is closed, encoding or writing a message fails on it, or a send loop crashes the process. Missing for the full
property: media messages, see `C86_refuted`. -/
theorem C86_fair_partial (env : Env) (keys : Nat → Option EncKey) (heap : Nat → Entity) (ev : Nat → Fleet.Event Entity)
    (hcalm : ∀ n, CalmFleet (entityCodec env) keys (.init heap) (firsts ev n)) (k : Nat) (ht : Again ev fun e => ∃ w, e = .on k (.take w))
    (hopen : ∀ n, (((Fleet.State.init heap).run (entityCodec env) keys (firsts ev n)).1.conns k).closed = false)
    (hup : ∀ n, ((Fleet.State.init heap).run (entityCodec env) keys (firsts ev n)).1.crashed = false)
    (hok : ∀ n x b w, .handled x b w false ∉ seenOn k ((Fleet.State.init heap).run (entityCodec env) keys (firsts ev n)).2) (n : Nat) :
    ∃ frames : List Bytes,
      (acceptedItems (seenOn k ((Fleet.State.init heap).run (entityCodec env) keys (firsts ev n)).2)).map
        (fun x => Codec.sendBytes (entityCodec env) (keys k) { header := x.header, body := x.given }) = frames.map .ok ∧
      ∃ N, ∀ m, N ≤ m → frames.flatten <+: (((Fleet.State.init heap).run (entityCodec env) keys (firsts ev m)).1.conns k).wire := by
  obtain ⟨N, hn, hN⟩ := Fleet.taken (C := entityCodec env) (keys := keys) hopen hup hok ht n
  generalize ha : acceptedItems (seenOn k ((Fleet.State.init heap).run (entityCodec env) keys (firsts ev n)).2) = acc at hN
  -- at any later time
  have later : ∀ m, N ≤ m → ∃ frames : List Bytes,
      acc.map (fun x => Codec.sendBytes (entityCodec env) (keys k) { header := x.header, body := x.given }) = frames.map .ok ∧
      frames.flatten <+: (((Fleet.State.init heap).run (entityCodec env) keys (firsts ev m)).1.conns k).wire := by
    intro m hm
    have inv := (Outbox.Inv.init (entityCodec env) (keys k) heap).run (Outbox.stable_entity env) _
      (Fleet.calm_seen _ keys k (firsts ev m) (.init heap) (hcalm m))
    rw [List.nil_append] at inv
    obtain ⟨h1, h2⟩ := Fleet.seen_run (entityCodec env) keys k (firsts ev m) (.init heap)
    have hal := Fleet.alive_seen (C := entityCodec env) (keys := keys) k (firsts ev m) (s := .init heap) (hup m)
    have hl := Fleet.running_always hopen hup hok m
    have hl' : (((Fleet.State.init heap).conn k).run (entityCodec env) (keys k) (Fleet.allSeenBy (entityCodec env) keys k (.init heap) (firsts ev m))).1.loop =
        .running := by
      have := congrArg Outbox.State.loop h1
      exact this.symm.trans hl
    obtain ⟨sent, rest, tail, a1, a2, a3, -, a5⟩ := inv.stream
    obtain ⟨e1, e2⟩ := a5 ⟨hl', hal⟩
    rw [Fleet.wire_seen]
    change acceptedItems (((Fleet.State.init heap).conn k).run (entityCodec env) (keys k) _).2 = _ at a1
    rw [← h2] at a1
    have ho := Fleet.order_seen (C := entityCodec env) (keys := keys) (heap := heap) k (firsts ev m)
    have hq : rest = (((Fleet.State.init heap).run (entityCodec env) keys (firsts ev m)).1.conns k).queue := by
      have := congrArg Outbox.State.queue h1
      exact e2.trans this.symm
    rw [a1, hq, List.append_cancel_right_eq] at ho
    have hlen : acc.length ≤ (sent.map (·.1)).length := by
      rw [ho]
      exact Nat.le_trans hN (Outbox.filterMap_prefix (Fleet.seen_onward k hm)).length_le
    have hpre : acc <+: sent.map (·.1) := by
      refine List.prefix_of_prefix_length_le (l₃ := acceptedItems (seenOn k ((Fleet.State.init heap).run (entityCodec env) keys (firsts ev m)).2)) ?_ ?_ hlen
      · rw [← ha]; exact Outbox.filterMap_prefix (Fleet.seen_onward k (by omega))
      · rw [a1]; exact List.prefix_append _ _
    obtain ⟨t, hpre⟩ := hpre
    obtain ⟨s1, s2, rfl, g1, g2⟩ := List.map_eq_append_iff.1 hpre.symm
    refine ⟨s1.map (·.2), ?_, ?_⟩
    · rw [← g1, List.map_map, List.map_map]
      exact List.map_congr_left fun x hx => a2 x (List.mem_append_left _ hx)
    · change _ <+: (((Fleet.State.init heap).conn k).run (entityCodec env) (keys k) _).1.wire
      change (((Fleet.State.init heap).conn k).run (entityCodec env) (keys k) _).1.wire = _ at a3
      rw [a3, e1, List.map_append, List.flatten_append, List.append_nil]
      exact List.prefix_append _ _
  obtain ⟨frames, h1, -⟩ := later N (Nat.le_refl _)
  refine ⟨frames, h1, N, fun m hm => ?_⟩
  obtain ⟨frames', h2, h3⟩ := later m hm
  rw [h1] at h2
  rwa [List.map_inj_right (f := Res.ok) (by simp) |>.1 h2]

/-! ## A concrete case -/

namespace Sample

/-- A report is broadcast (`Sample.threeSessions`), and then the send loops of sessions 1 and 2 are given turns for ever. -/
def broadcastRun (n : Nat) : Fleet.Event Entity := (threeSessions[n]?).getD (.on (1 + n % 2) (.take none))

theorem broadcastRun_late (n : Nat) : broadcastRun (11 + n) = .on (1 + (11 + n) % 2) (.take none) := by
  have hn : threeSessions[11 + n]? = none := List.getElem?_eq_none (by simp [threeSessions])
  simp only [broadcastRun, hn, Option.getD_none]

/-- Nothing waits for sessions 1 and 2, which are open. -/
def Idle12 (s : Fleet.State Entity) : Prop :=
  s.crashed = false ∧ ∀ k, k = 1 ∨ k = 2 → (s.conns k).queue = [] ∧ (s.conns k).closed = false ∧ (s.conns k).loop = .running

/-- A send loop that has nothing to do leaves it so. -/
theorem idle12_take {s : Fleet.State Entity} (h : Idle12 s) (k : Nat) (hk : k = 1 ∨ k = 2) :
    Idle12 (s.step codec (fun _ => none) (.on k (.take none))).1 ∧ (s.step codec (fun _ => none) (.on k (.take none))).2 = [] := by
  obtain ⟨h1, h2⟩ := h
  have hst : (s.conn k).step codec none (.take none) = (s.conn k, []) := by
    unfold Outbox.State.step
    rw [if_neg (by simp [Fleet.State.conn, h1])]
    have a1 : (s.conn k).loop = .running := (h2 k hk).2.2
    have a2 : (s.conn k).queue = [] := (h2 k hk).1
    have a3 : (s.conn k).closed = false := (h2 k hk).2.1
    simp only [a1, a2, a3]
    simp
  have hs : s.step codec (fun _ => none) (.on k (.take none)) = ({ heap := s.heap, conns := Outbox.update s.conns k (s.conn k), crashed := s.crashed }, []) := by
    show s.stepOn codec (fun _ => none) k (.take none) = _
    unfold Fleet.State.stepOn
    rw [hst]
    rfl
  rw [hs]
  refine ⟨⟨h1, fun j hj => ?_⟩, rfl⟩
  simp only [Outbox.update]
  split
  · exact h2 k hk
  · exact h2 j hj

theorem broadcastRun_idle (n : Nat) : Idle12 ((Fleet.State.init heap).run codec (fun _ => none) (firsts broadcastRun (11 + n))).1 ∧
    ((Fleet.State.init heap).run codec (fun _ => none) (firsts broadcastRun (11 + n))).2 =
      ((Fleet.State.init heap).run codec (fun _ => none) (firsts broadcastRun 11)).2 := by
  induction n with
  | zero =>
    refine ⟨⟨by decide, ?_⟩, rfl⟩
    rintro k (rfl | rfl) <;> decide
  | succ n ih =>
    rw [← Nat.add_assoc, Fleet.run_next, broadcastRun_late]
    obtain ⟨h1, h2⟩ := idle12_take ih.1 (1 + (11 + n) % 2) (by omega)
    exact ⟨h1, by rw [h2, List.append_nil]; exact ih.2⟩

theorem broadcastRun_calm (n : Nat) : CalmFleet codec (fun _ => none) (.init heap) (firsts broadcastRun n) := by
  have late : ∀ k, CalmFleet codec (fun _ => none) (.init heap) (firsts broadcastRun (11 + k)) := by
    intro k
    induction k with
    | zero =>
      have : firsts broadcastRun (11 + 0) = threeSessions := by decide
      rw [this]
      exact ⟨trivial, by decide, trivial, by decide, trivial, trivial, by decide, by decide, trivial, trivial, trivial, trivial⟩
    | succ k ih =>
      rw [← Nat.add_assoc, Spec.firsts_succ, Fleet.calm_append]
      refine ⟨ih, ?_⟩
      simp only [broadcastRun_late, CalmFleet, and_self]
  have early : ∀ i, CalmFleet codec (fun _ => none) (.init heap) (firsts broadcastRun (n + i)) → CalmFleet codec (fun _ => none) (.init heap) (firsts broadcastRun n) := by
    intro i
    induction i with
    | zero => exact id
    | succ i ih =>
      intro h
      rw [← Nat.add_assoc, Spec.firsts_succ, Fleet.calm_append] at h
      exact ih h.1
  exact early 11 (Nat.add_comm n 11 ▸ late n)

end Sample

/-- In this run the broadcast report and the other message for session 1 are written to it at some time. -/
theorem C86_fair_example : ∃ frames : List Bytes,
    (acceptedItems (seenOn 1 ((Fleet.State.init Sample.heap).run (entityCodec Sample.env) (fun _ => none) (firsts Sample.broadcastRun 9)).2)).map
      (fun x => Codec.sendBytes (entityCodec Sample.env) none { header := x.header, body := x.given }) = frames.map .ok ∧ frames.length = 2 ∧
    ∃ N, ∀ m, N ≤ m → frames.flatten <+: (((Fleet.State.init Sample.heap).run (entityCodec Sample.env) (fun _ => none) (firsts Sample.broadcastRun m)).1.conns 1).wire := by
  have all : ∀ {P : Fleet.State Entity × List (Nat × Outbox.Obs Entity) → Prop},
      (∀ n ≤ 11, P ((Fleet.State.init Sample.heap).run Sample.codec (fun _ => none) (firsts Sample.broadcastRun n))) →
      (∀ n, P ((Fleet.State.init Sample.heap).run Sample.codec (fun _ => none) (firsts Sample.broadcastRun (11 + n)))) →
      ∀ n, P ((Fleet.State.init Sample.heap).run Sample.codec (fun _ => none) (firsts Sample.broadcastRun n)) := by
    intro P h1 h2 n
    by_cases hn : n ≤ 11
    · exact h1 n hn
    · obtain ⟨k, rfl⟩ : ∃ k, n = 11 + k := ⟨n - 11, by omega⟩
      exact h2 k
  have good : ∀ n ≤ 11, ((seenOn 1 ((Fleet.State.init Sample.heap).run Sample.codec (fun _ => none) (firsts Sample.broadcastRun n)).2).all
      fun | .handled _ _ _ false => false | _ => true) = true := by decide
  obtain ⟨frames, h1, h2⟩ := C86_fair_partial Sample.env (fun _ => none) Sample.heap Sample.broadcastRun Sample.broadcastRun_calm 1
    (fun n => ⟨11 + (2 * n + 1), by omega, none, by
      rw [Sample.broadcastRun_late, show 1 + (11 + (2 * n + 1)) % 2 = 1 by omega]⟩)
    (all (P := fun r => (r.1.conns 1).closed = false) (by decide) fun n => ((Sample.broadcastRun_idle n).1.2 1 (.inl rfl)).2.1)
    (all (P := fun r => r.1.crashed = false) (by decide) fun n => (Sample.broadcastRun_idle n).1.1)
    (all (P := fun r => ∀ x b w, .handled x b w false ∉ seenOn 1 r.2)
      (fun n hn x b w hx => absurd (List.all_eq_true.1 (good n hn) _ hx) (by simp))
      fun n => by
        rw [(Sample.broadcastRun_idle n).2]
        exact fun x b w hx => absurd (List.all_eq_true.1 (good 11 (Nat.le_refl _)) _ hx) (by simp)) 9
  refine ⟨frames, h1, ?_, h2⟩
  have := congrArg List.length h1
  rw [List.length_map, List.length_map] at this
  rw [← this]
  decide

end Verif
