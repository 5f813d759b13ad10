import Verif.Spec.Endless
/-! # Runs without end -/

namespace Verif.Spec
variable {ε : Type}

theorem firsts_succ (ev : Nat → ε) (n : Nat) : firsts ev (n + 1) = firsts ev n ++ [ev n] := by
  unfold firsts
  rw [List.range_succ, List.map_append]
  rfl

theorem firsts_prefix (ev : Nat → ε) {n m : Nat} (h : n ≤ m) : firsts ev n <+: firsts ev m := by
  induction m with
  | zero => rw [Nat.le_zero.1 h]; exact List.prefix_refl _
  | succ m ih =>
    rcases Nat.lt_or_eq_of_le h with h | rfl
    · rw [firsts_succ]
      exact (ih (by omega)).trans (List.prefix_append _ _)
    · exact List.prefix_refl _

theorem mem_firsts {ev : Nat → ε} {n : Nat} {e : ε} : e ∈ firsts ev n ↔ ∃ m, m < n ∧ ev m = e := by
  simp [firsts]

/-- The first event from `n` on that `p` holds of. -/
theorem Again.next {ev : Nat → ε} {p : ε → Prop} (h : Again ev p) (n : Nat) : ∃ m, n ≤ m ∧ p (ev m) ∧ ∀ i, n ≤ i → i < m → ¬ p (ev i) := by
  obtain ⟨m, hm, hp⟩ := h n
  obtain ⟨d, rfl⟩ : ∃ d, m = n + d := ⟨m - n, by omega⟩
  clear hm
  induction d using Nat.strongRecOn with
  | ind d ih =>
    by_cases hx : ∃ i, i < d ∧ p (ev (n + i))
    · obtain ⟨i, h1, h2⟩ := hx
      exact ih i h1 h2
    · refine ⟨n + d, by omega, hp, fun i h1 h2 h3 => hx ⟨i - n, by omega, ?_⟩⟩
      rwa [show n + (i - n) = i by omega]

/-- Something that stays as it is until the next event of a kind, which puts an end to it. -/
theorem Again.until {ev : Nat → ε} {p : ε → Prop} (h : Again ev p) {Q R : Nat → Prop} {n : Nat} (hn : Q n) (hstay : ∀ i, n ≤ i → Q i → Q (i + 1) ∨ R (i + 1))
    (hgo : ∀ i, n ≤ i → Q i → p (ev i) → R (i + 1)) : ∃ m, n ≤ m ∧ R m := by
  obtain ⟨m, h1, h2⟩ := h n
  by_cases hx : ∃ i, n ≤ i ∧ i ≤ m ∧ R i
  · obtain ⟨i, g1, -, g2⟩ := hx
    exact ⟨i, g1, g2⟩
  · have hQ : ∀ d, n + d ≤ m → Q (n + d) := by
      intro d
      induction d with
      | zero => intro _; exact hn
      | succ d ih =>
        intro hd
        rcases hstay (n + d) (by omega) (ih (by omega)) with g | g
        · exact g
        · exact absurd ⟨n + d + 1, by omega, hd, g⟩ hx
    have := hQ (m - n) (by omega)
    rw [show n + (m - n) = m by omega] at this
    exact ⟨m + 1, by omega, hgo m h1 this h2⟩

/-- A sequence of numbers in which every number comes again and again. -/
def code (n : Nat) : Nat := n - 2 ^ n.log2

theorem code_again (q n : Nat) : ∃ m, n ≤ m ∧ code m = q := by
  have hq : q < 2 ^ (n + q) := Nat.lt_of_lt_of_le Nat.lt_two_pow_self (Nat.pow_le_pow_right (by omega) (by omega))
  have hn : n + q < 2 ^ (n + q) := Nat.lt_two_pow_self
  refine ⟨2 ^ (n + q) + q, by omega, ?_⟩
  have : (2 ^ (n + q) + q).log2 = n + q := (Nat.log2_eq_iff (by omega)).2 ⟨by omega, by rw [Nat.pow_succ]; omega⟩
  rw [code, this]
  omega

end Verif.Spec
