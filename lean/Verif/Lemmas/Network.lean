import Verif.Spec.Programs
/-! # Two programs at the ends of a connection -/

namespace Verif.Spec

/-- Two programs that do not crash on what the other sends, never take back anything they sent, and stay within the given bytes. -/
structure Bounded (client server : List Bytes → Res Bytes) (X Y : Bytes) : Prop where
  clientRuns : ∀ down, (∀ c ∈ down, c.length ≤ 128) → down.flatten <+: Y → ∃ b, client down = .ok b ∧ b <+: X
  serverRuns : ∀ up, (∀ c ∈ up, c.length ≤ 128) → up.flatten <+: X → ∃ b, server up = .ok b ∧ b <+: Y
  clientMono : ∀ down c b b', (∀ x ∈ down ++ [c], x.length ≤ 128) → (down ++ [c]).flatten <+: Y → client down = .ok b → client (down ++ [c]) = .ok b' → b <+: b'
  serverMono : ∀ up c b b', (∀ x ∈ up ++ [c], x.length ≤ 128) → (up ++ [c]).flatten <+: X → server up = .ok b → server (up ++ [c]) = .ok b' → b <+: b'

variable {client server : List Bytes → Res Bytes} {X Y : Bytes}

theorem Bounded.mono_client (h : Bounded client server X Y) (x : List Bytes) : ∀ {d : List Bytes} {b b' : Bytes}, (∀ c ∈ d ++ x, c.length ≤ 128) → (d ++ x).flatten <+: Y →
    client d = .ok b → client (d ++ x) = .ok b' → b <+: b' := by
  induction x with
  | nil =>
    intro d b b' _ _ h1 h2
    rw [List.append_nil, h1] at h2
    rw [Res.ok.inj h2]
    exact List.prefix_refl _
  | cons c x ih =>
    intro d b b' hl hp h1 h2
    rw [List.append_cons] at hl hp h2
    have hl1 : ∀ y ∈ d ++ [c], y.length ≤ 128 := fun y hy => hl y (List.mem_append_left _ hy)
    have hp1 : (d ++ [c]).flatten <+: Y := by
      refine List.IsPrefix.trans ?_ hp
      rw [List.flatten_append (L₁ := d ++ [c])]
      exact List.prefix_append _ _
    obtain ⟨b1, h3, -⟩ := h.clientRuns _ hl1 hp1
    exact (h.clientMono d c b b1 hl1 hp1 h1 h3).trans (ih hl hp h3 h2)

/-- What has arrived was sent, and is within the bounds. -/
theorem reach_invariant (h : Bounded client server X Y) {up down : List Bytes} (hr : Reach client server up down) :
    (∀ c ∈ up, c.length ≤ 128) ∧ (∀ c ∈ down, c.length ≤ 128) ∧
      (∃ b, client down = .ok b ∧ up.flatten <+: b ∧ b <+: X) ∧ (∃ b, server up = .ok b ∧ down.flatten <+: b ∧ b <+: Y) := by
  induction hr with
  | start =>
    obtain ⟨b, h1, h2⟩ := h.clientRuns [] (by simp) (by simp)
    obtain ⟨b', h3, h4⟩ := h.serverRuns [] (by simp) (by simp)
    exact ⟨by simp, by simp, ⟨b, h1, by simp, h2⟩, ⟨b', h3, by simp, h4⟩⟩
  | @toServer up down c b _ hc hl hp ih =>
    obtain ⟨i1, i2, ⟨b1, i3, i4, i5⟩, ⟨b2, i6, i7, i8⟩⟩ := ih
    obtain rfl : b = b1 := by rw [hc] at i3; exact Res.ok.inj i3
    have hu : ∀ x ∈ up ++ [c], x.length ≤ 128 := by
      intro x hx
      rcases List.mem_append.1 hx with hx | hx
      · exact i1 x hx
      · simp only [List.mem_singleton] at hx; rw [hx]; exact hl
    have hX := hp.trans i5
    obtain ⟨b3, s1, s2⟩ := h.serverRuns _ hu hX
    exact ⟨hu, i2, ⟨b, hc, hp, i5⟩, ⟨b3, s1, i7.trans (h.serverMono up c b2 b3 hu hX i6 s1), s2⟩⟩
  | @toClient up down c b _ hc hl hp ih =>
    obtain ⟨i1, i2, ⟨b1, i3, i4, i5⟩, ⟨b2, i6, i7, i8⟩⟩ := ih
    obtain rfl : b = b2 := by rw [hc] at i6; exact Res.ok.inj i6
    have hu : ∀ x ∈ down ++ [c], x.length ≤ 128 := by
      intro x hx
      rcases List.mem_append.1 hx with hx | hx
      · exact i2 x hx
      · simp only [List.mem_singleton] at hx; rw [hx]; exact hl
    have hY := hp.trans i8
    obtain ⟨b3, s1, s2⟩ := h.clientRuns _ hu hY
    exact ⟨i1, hu, ⟨b3, s1, i4.trans (h.clientMono down c b1 b3 hu hY i3 s1), s2⟩, ⟨b, hc, hp, i8⟩⟩

/-- The next byte that was sent but has not arrived. -/
theorem next_piece {p : List Bytes} {b : Bytes} (h : p.flatten <+: b) (hne : p.flatten ≠ b) : ∃ x : UInt8, (p ++ [[x]]).flatten <+: b := by
  obtain ⟨t, rfl⟩ := h
  cases t with
  | nil => simp at hne
  | cons x t => exact ⟨x, ⟨t, by simp⟩⟩

/-- As long as something is under way it can arrive, and in the end everything has arrived. -/
theorem reach_settles (h : Bounded client server X Y) {up down : List Bytes} (hr : Reach client server up down) :
    ∃ up' down', Reach client server (up ++ up') (down ++ down') ∧ Settled client server (up ++ up') (down ++ down') := by
  obtain ⟨n, hn⟩ : ∃ n, n = (X.length - up.flatten.length) + (Y.length - down.flatten.length) := ⟨_, rfl⟩
  induction n using Nat.strongRecOn generalizing up down with
  | ind n ih =>
  obtain ⟨-, -, ⟨b1, i3, i4, i5⟩, ⟨b2, i6, i7, i8⟩⟩ := reach_invariant h hr
  have l4 := i4.length_le
  have l5 := i5.length_le
  have l7 := i7.length_le
  have l8 := i8.length_le
  by_cases c1 : up.flatten = b1
  · by_cases c2 : down.flatten = b2
    · exact ⟨[], [], by simpa using hr, by simpa [Settled, c1, c2] using ⟨i3, i6⟩⟩
    · obtain ⟨x, hx⟩ := next_piece i7 c2
      have hr' : Reach client server up (down ++ [[x]]) := hr.toClient i6 (by simp) hx
      have lx := hx.length_le
      have e : (down ++ [[x]]).flatten.length = down.flatten.length + 1 := by simp
      obtain ⟨u, d, r1, r2⟩ := ih _ (by omega) hr' rfl
      exact ⟨u, [x] :: d, by simpa using r1, by simpa using r2⟩
  · obtain ⟨x, hx⟩ := next_piece i4 c1
    have hr' : Reach client server (up ++ [[x]]) down := hr.toServer i3 (by simp) hx
    have lx := hx.length_le
    have e : (up ++ [[x]]).flatten.length = up.flatten.length + 1 := by simp
    obtain ⟨u, d, r1, r2⟩ := ih _ (by omega) hr' rfl
    exact ⟨[x] :: u, d, by simpa using r1, by simpa using r2⟩

/-- Numbers that never become smaller and stay below a bound stay the same at some time. -/
theorem comes_to_rest {f : Nat → Nat} {B : Nat} (hm : ∀ n, f n ≤ f (n + 1)) (hB : ∀ n, f n ≤ B) : ∃ N, ∀ n, N ≤ n → f n = f N := by
  have mono : ∀ n m, n ≤ m → f n ≤ f m := by
    intro n m h
    induction h with
    | refl => exact Nat.le_refl _
    | @step m h ih => exact Nat.le_trans ih (hm m)
  have go : ∀ d n, B - f n = d → ∃ N, ∀ n, N ≤ n → f n = f N := by
    intro d
    induction d using Nat.strongRecOn with
    | ind d ih =>
      intro n hd
      by_cases hex : ∃ m, n ≤ m ∧ f m ≠ f n
      · obtain ⟨m, h1, h2⟩ := hex
        have := mono n m h1
        have := hB m
        exact ih (B - f m) (by omega) m rfl
      · refine ⟨n, fun m h => ?_⟩
        apply Classical.byContradiction
        exact fun hx => hex ⟨m, h, hx⟩
  exact go _ 0 rfl

theorem flatten_prefix {a b : List Bytes} (h : a <+: b) : a.flatten <+: b.flatten := by
  obtain ⟨t, rfl⟩ := h
  rw [List.flatten_append]
  exact List.prefix_append _ _

/-- If everything that was sent arrives at some time, then at some time everything has arrived and nothing more is sent. -/
theorem course_settles (h : Bounded client server X Y) {up down : Nat → List Bytes} (hc : AllArrives client server up down) :
    ∃ N, ∀ n, N ≤ n → Settled client server (up n) (down n) := by
  have inv := fun n => reach_invariant h (hc.reach n)
  obtain ⟨N1, h1⟩ := comes_to_rest (f := fun n => (up n).flatten.length) (B := X.length) (fun n => (flatten_prefix (hc.onward n).1).length_le) (fun n => by
    obtain ⟨-, -, ⟨b, -, i4, i5⟩, -⟩ := inv n
    exact Nat.le_trans i4.length_le i5.length_le)
  obtain ⟨N2, h2⟩ := comes_to_rest (f := fun n => (down n).flatten.length) (B := Y.length) (fun n => (flatten_prefix (hc.onward n).2).length_le) (fun n => by
    obtain ⟨-, -, -, ⟨b, -, i4, i5⟩⟩ := inv n
    exact Nat.le_trans i4.length_le i5.length_le)
  refine ⟨max N1 N2, fun n hn => ?_⟩
  obtain ⟨-, -, ⟨b1, i3, i4, -⟩, ⟨b2, i6, i7, -⟩⟩ := inv n
  obtain ⟨m1, l1, p1⟩ := hc.toServer n b1 i3
  obtain ⟨m2, l2, p2⟩ := hc.toClient n b2 i6
  have e1 : (up m1).flatten.length = (up n).flatten.length := (h1 m1 (by omega)).trans (h1 n (by omega)).symm
  have e2 : (down m2).flatten.length = (down n).flatten.length := (h2 m2 (by omega)).trans (h2 n (by omega)).symm
  have f1 := i4.eq_of_length_le (by rw [← e1]; exact p1.length_le)
  have f2 := i7.eq_of_length_le (by rw [← e2]; exact p2.length_le)
  exact ⟨by rw [f1, i3], by rw [f2, i6]⟩

theorem Bounded.swap (h : Bounded client server X Y) : Bounded server client Y X := ⟨h.serverRuns, h.clientRuns, h.serverMono, h.clientMono⟩

/-- There is a course of events from the beginning on in which everything arrives. -/
theorem course_exists (h : Bounded client server X Y) : ∃ up down, AllArrives client server up down ∧ up 0 = [] ∧ down 0 = [] := by
  obtain ⟨up, down, hr, hq⟩ := reach_settles h .start
  rw [List.nil_append, List.nil_append] at hr hq
  obtain ⟨h1, h2, ⟨b1, -, i2, i3⟩, ⟨b2, -, i5, i6⟩⟩ := reach_invariant h hr
  refine ⟨fun n => if n = 0 then [] else up, fun n => if n = 0 then [] else down, ⟨fun n => ?_, fun n => ?_, fun n b hb => ⟨n + 1, by omega, ?_⟩, fun n b hb => ⟨n + 1, by omega, ?_⟩⟩, rfl, rfl⟩
  · by_cases hn : n = 0
    · simp only [hn, if_true]
      exact .start
    · simpa only [hn, if_false] using hr
  · by_cases hn : n = 0 <;> simp [hn]
  · rw [if_neg (by omega)]
    by_cases hn : n = 0
    · rw [if_pos hn] at hb
      exact h.mono_client down (d := []) h2 (i5.trans i6) hb hq.1
    · rw [if_neg hn, hq.1] at hb
      cases hb
      exact List.prefix_refl _
  · rw [if_neg (by omega)]
    by_cases hn : n = 0
    · rw [if_pos hn] at hb
      exact h.swap.mono_client up (d := []) h1 (i2.trans i3) hb hq.2
    · rw [if_neg hn, hq.2] at hb
      cases hb
      exact List.prefix_refl _

end Verif.Spec
