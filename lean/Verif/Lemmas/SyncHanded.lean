import Verif.Lemmas.SyncDeadlock
/-! Lemmas for data races: single users, memory handed over, a position after which nothing follows. -/

namespace Verif.Sync
open Spec

/-- Memory that one goroutine alone uses. -/
theorem one_user {S : System} {τ : History} {σ : State} (h : Happened S τ σ) {c : Cell} {g₀ : Goroutine}
    (hc : ∀ g, g ≠ g₀ → ∀ a ∈ S.acts g, ¬ Uses c a) : ¬ Race τ c := by
  rintro ⟨i, j, g, k, a, b, hij, hi, hj, ha, hb, _, _, hn⟩
  have hg : g = g₀ := Decidable.byContradiction fun he => hc g he a (acts_mem h hi) ha
  have hk : k = g₀ := Decidable.byContradiction fun he => hc k he b (acts_mem h hj) hb
  subst hg
  subst hk
  exact hn (.order hij hi hj)

/-- What the send loop uses for a message it uses after the message was sent. -/
theorem sender_use {S : System} {τ : History} {σ : State} (h : Happened S τ σ) {j s : Nat} {a : Act}
    (hj : τ[j]? = some (.sender s, a)) (ha : Uses (.publicKey s) a ∨ ∃ b, Uses (.body b) a) :
    ∃ p k b, p < j ∧ τ[p]? = some (k, .put s b) ∧ HappensBefore τ p j ∧ ∀ c, Uses (.body c) a → c = b := by
  obtain ⟨t, x, ht, hx, b, rfl, hc⟩ := preceded_at h (sender_preceded S s) hj ha
  obtain ⟨p, k, hp, hpk, hb⟩ := put_before h hx
  exact ⟨p, k, b, by omega, hpk, .trans hb (.order ht hx hj), hc⟩

theorem sender_keeps_key {S : System} {s t : Nat} {a : Act} (h : a ∈ S.acts (.sender s)) : ¬ Changes (.publicKey t) a := by
  rcases sender_acts S s a h with ⟨c, rfl⟩ | rfl | ⟨c, rfl | rfl⟩ | rfl <;> simp [Changes]

theorem sender_puts_nothing {S : System} {s t b : Nat} : Act.put t b ∉ S.acts (.sender s) := by
  intro h
  rcases sender_acts S s _ h with ⟨c, h⟩ | h | ⟨c, h | h⟩ | h <;> cases h

theorem uses_body_unique {a : Act} {b c : Nat} (h1 : Uses (.body b) a) (h2 : Uses (.body c) a) : b = c := by
  cases a <;> simp only [Uses] at h1 h2 <;> subst h1 <;> cases h2 <;> rfl

theorem changes_uses {c : Cell} {a : Act} (h : Changes c a) : Uses c a := by
  cases a <;> simp only [Changes] at h <;> exact h

/-- Nothing comes after what was done at this position. -/
def quiet (τ : History) (i : Nat) : Bool :=
  match τ[i]? with
  | none => true
  | some (g, a) => (τ.drop (i + 1)).all (fun x => x.1 != g) &&
    match a with
    | .unlock _ | .put _ _ | .start _ => false
    | _ => true

theorem quiet_last {τ : History} {i : Nat} (h : quiet τ i = true) (j : Nat) : ¬ HappensBefore τ i j := by
  intro hb
  induction hb with
  | @order i j g a b hij hi hj =>
    unfold quiet at h
    rw [hi] at h
    simp only [Bool.and_eq_true, List.all_eq_true, bne_iff_ne, ne_eq] at h
    refine h.1 (g, b) (List.mem_iff_getElem?.mpr ⟨j - (i + 1), ?_⟩) rfl
    rw [List.getElem?_drop, Nat.add_sub_cancel' (by omega)]
    exact hj
  | mutex _ hi _ => unfold quiet at h; rw [hi] at h; simp at h
  | channel hi _ _ => unfold quiet at h; rw [hi] at h; simp at h
  | go _ hi _ _ => unfold quiet at h; rw [hi] at h; simp at h
  | trans _ _ ih _ => exact ih h

end Verif.Sync
