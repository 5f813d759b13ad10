import Verif.Lemmas.Sync
/-! Lemmas for data races: what orders two uses of the same memory. -/

namespace Verif.Sync
open Spec

/-! ## The lock a goroutine holds -/

/-- A goroutine holds exactly the lock that its program says. -/
theorem held {S : System} {τ : History} {σ : State} (h : Happened S τ σ) (g : Goroutine) :
    ∃ l, locks none (doneBy g τ) = some l ∧ ∀ m, σ.holder m = some g ↔ l = some m := by
  refine Happened.induct (P := fun τ σ => ∀ g, ∃ l, locks none (doneBy g τ) = some l ∧ ∀ m, σ.holder m = some g ↔ l = some m)
    (fun g => ⟨none, rfl, fun m => ⟨fun h => (by cases h), fun h => (by cases h)⟩⟩) ?_ h g
  intro τ σ k a σ' h0 ih hs g
  obtain ⟨lk, hk, hm⟩ := ih k
  obtain ⟨rest, hst, ht, hr, rfl⟩ := step_some hs
  have ha : ∃ l, lockStep lk a = some l := by
    have h1 := tidy_acts S k
    unfold Tidy at h1
    rw [← done_todo h0 k, ht, locks_append, hk] at h1
    simp only [Option.bind_some, locks] at h1
    cases h2 : lockStep lk a with
    | none => rw [h2] at h1; cases h1
    | some l => exact ⟨l, rfl⟩
  obtain ⟨l, hl⟩ := ha
  have hother : g ≠ k → ∀ m, σ.holder m = some k → σ.holder m ≠ some g := by
    intro hne m h1 h2
    rw [h1] at h2
    exact hne (Option.some.inj h2).symm
  by_cases hg : g = k
  · subst hg
    refine ⟨l, ?_, ?_⟩
    · rw [doneBy_snoc_self, locks_append, hk]
      simp only [Option.bind_some, locks, hl]
    · intro m
      cases a with
      | lock n =>
        simp only [lockStep] at hl
        split at hl
        · next hn =>
          cases hl
          simp only [State.effect]
          by_cases hmn : m = n
          · subst hmn; simp
          · rw [if_neg hmn, hm m, hn]
            simp; exact fun e => hmn e.symm
        · cases hl
      | unlock n =>
        simp only [lockStep] at hl
        split at hl
        · next hn =>
          cases hl
          simp only [State.effect]
          by_cases hmn : m = n
          · subst hmn; simp
          · rw [if_neg hmn, hm m, hn]
            simp; exact fun e => hmn e.symm
        · cases hl
      | _ =>
        simp only [lockStep] at hl
        split at hl
        · next hn =>
          cases hl
          simp only [State.effect, hm m]
          first | rw [hn] | skip
        · cases hl
  · obtain ⟨lg, hg1, hg2⟩ := ih g
    refine ⟨lg, by rw [doneBy_snoc_other hg]; exact hg1, fun m => ?_⟩
    rw [← hg2 m]
    cases a with
    | lock n =>
      simp only [State.effect]
      by_cases hmn : m = n
      · subst hmn
        simp only [State.ready, Option.isNone_iff_eq_none] at hr
        rw [if_pos rfl, hr]
        simp; exact fun e => hg e.symm
      · rw [if_neg hmn]
    | unlock n =>
      simp only [State.effect]
      by_cases hmn : m = n
      · subst hmn
        simp only [lockStep] at hl
        split at hl
        · next hn =>
          have := hother hg m ((hm m).mpr hn)
          simp [this]
        · cases hl
      · rw [if_neg hmn]
    | _ => simp only [State.effect]

/-- What a goroutine does next fits the lock that it holds. -/
theorem lockStep_next {S : System} {τ : History} {σ : State} (h : Happened S τ σ) {g : Goroutine} {a : Act} {rest : List Act}
    (ht : σ.todo g = a :: rest) : ∃ l l', lockStep l a = some l' ∧ locks l' rest = some none ∧ ∀ m, σ.holder m = some g ↔ l = some m := by
  obtain ⟨l, hl, hm⟩ := held h g
  have h1 := tidy_acts S g
  unfold Tidy at h1
  rw [← done_todo h g, ht, locks_append, hl] at h1
  simp only [Option.bind_some, locks] at h1
  cases h2 : lockStep l a with
  | none => rw [h2] at h1; cases h1
  | some l' => rw [h2] at h1; exact ⟨l, l', h2, h1, hm⟩

/-- Guarded memory is used with the lock. -/
theorem use_holds {S : System} {τ : History} {σ : State} (h : Happened S τ σ) {g : Goroutine} {a : Act} {rest : List Act}
    (ht : σ.todo g = a :: rest) {c : Cell} (hu : Uses c a) {m : Mutex} (hc : guard c = some m) : σ.holder m = some g := by
  obtain ⟨l, l', hl, _, hm⟩ := lockStep_next h ht
  rw [hm m]
  cases a <;> simp only [Uses] at hu <;> subst hu <;> simp only [lockStep] at hl <;> split at hl <;>
    first
    | (next hx => rw [hx.2, hc])
    | (next hx =>
        have h2 := hx.1
        revert hc h2
        cases ‹Cell› <;> simp [guard, isAtomic])
    | cases hl

theorem use_atomic {S : System} {τ : History} {σ : State} (h : Happened S τ σ) {g : Goroutine} {a : Act} {rest : List Act}
    (ht : σ.todo g = a :: rest) {c : Cell} (hu : Uses c a) (hc : isAtomic c = true) : Atomically a := by
  obtain ⟨l, l', hl, _, _⟩ := lockStep_next h ht
  cases a <;> simp only [Uses] at hu <;> subst hu <;> simp only [lockStep, hc] at hl <;> first | exact trivial | simp at hl

/-! ## Guarded memory -/

theorem step_holder {S : System} {τ : History} {σ σ' : State} (h : Happened S τ σ) {g : Goroutine} {a : Act} (hs : σ.step g = some (a, σ'))
    (m : Mutex) : (a = .lock m ∧ σ.holder m = none ∧ σ'.holder m = some g) ∨ (a = .unlock m ∧ σ.holder m = some g ∧ σ'.holder m = none) ∨
      σ'.holder m = σ.holder m := by
  obtain ⟨rest, _, ht, hr, rfl⟩ := step_some hs
  obtain ⟨l, l', hl, _, hm⟩ := lockStep_next h ht
  cases a with
  | lock n =>
    by_cases hmn : m = n
    · subst hmn
      left
      simp only [State.ready, Option.isNone_iff_eq_none] at hr
      exact ⟨rfl, hr, by simp [State.effect]⟩
    · right; right; simp [State.effect, hmn]
  | unlock n =>
    by_cases hmn : m = n
    · subst hmn
      right; left
      simp only [lockStep] at hl
      split at hl
      · next hn => exact ⟨rfl, (hm m).mpr hn, by simp [State.effect]⟩
      · cases hl
    · right; right; simp [State.effect, hmn]
  | _ => right; right; simp [State.effect]

theorem take_prefix {S : System} {τ : History} {σ : State} (h : Happened S τ σ) {i : Nat} (hi : i < τ.length) :
    ∃ g a σ₁ σ₂, τ[i]? = some (g, a) ∧ Happened S (τ.take i) σ₁ ∧ σ₁.step g = some (a, σ₂) ∧ Happened S (τ.take (i + 1)) σ₂ := by
  have he : τ[i]? = some (τ[i].1, τ[i].2) := List.getElem?_eq_getElem hi
  obtain ⟨σ₁, σ₂, h1, h2, h3⟩ := h.at he
  exact ⟨_, _, σ₁, σ₂, he, h1, h2, h3⟩

/-- A goroutine that no longer holds a lock has released it. -/
theorem released {S : System} {τ : History} {σ : State} (h : Happened S τ σ) {m : Mutex} {g : Goroutine} {i : Nat} {σi : State}
    (hi : Happened S (τ.take i) σi) (hg : σi.holder m = some g) {j : Nat} (hij : i ≤ j) (hj : j ≤ τ.length) {σj : State}
    (hσj : Happened S (τ.take j) σj) (hn : σj.holder m ≠ some g) : ∃ k, i ≤ k ∧ k < j ∧ τ[k]? = some (g, .unlock m) := by
  induction j generalizing σj with
  | zero =>
    have : i = 0 := by omega
    subst this
    rw [Happened.unique hσj hi] at hn
    exact absurd hg hn
  | succ j ih =>
    by_cases he : i = j + 1
    · subst he
      rw [Happened.unique hσj hi] at hn
      exact absurd hg hn
    · obtain ⟨k, a, σ₁, σ₂, ha, h1, h2, h3⟩ := take_prefix h (i := j) (by omega)
      rw [Happened.unique hσj h3] at hn
      by_cases h4 : σ₁.holder m = some g
      · rcases step_holder h1 h2 m with ⟨_, h5, _⟩ | ⟨h5, h6, _⟩ | h5
        · rw [h4] at h5; cases h5
        · rw [h4] at h6
          cases h6
          exact ⟨j, by omega, by omega, by rw [ha, h5]⟩
        · rw [h5] at hn; exact absurd h4 hn
      · obtain ⟨k, hk⟩ := ih (by omega) (by omega) h1 h4
        exact ⟨k, hk.1, by omega, hk.2.2⟩

/-- A goroutine that holds a lock has taken it. -/
theorem taken {S : System} {τ : History} {σ : State} (h : Happened S τ σ) {m : Mutex} {g : Goroutine} {i : Nat} {σi : State}
    (hi : Happened S (τ.take i) σi) (hg : σi.holder m ≠ some g) {j : Nat} (hij : i ≤ j) (hj : j ≤ τ.length) {σj : State}
    (hσj : Happened S (τ.take j) σj) (hn : σj.holder m = some g) : ∃ k, i ≤ k ∧ k < j ∧ τ[k]? = some (g, .lock m) := by
  induction j generalizing σj with
  | zero =>
    have : i = 0 := by omega
    subst this
    rw [Happened.unique hσj hi] at hn
    exact absurd hn hg
  | succ j ih =>
    by_cases he : i = j + 1
    · subst he
      rw [Happened.unique hσj hi] at hn
      exact absurd hn hg
    · obtain ⟨k, a, σ₁, σ₂, ha, h1, h2, h3⟩ := take_prefix h (i := j) (by omega)
      rw [Happened.unique hσj h3] at hn
      by_cases h4 : σ₁.holder m = some g
      · obtain ⟨k, hk⟩ := ih (by omega) (by omega) h1 h4
        exact ⟨k, hk.1, by omega, hk.2.2⟩
      · rcases step_holder h1 h2 m with ⟨h5, _, h6⟩ | ⟨_, _, h6⟩ | h5
        · rw [h6] at hn
          cases hn
          exact ⟨j, by omega, by omega, by rw [ha, h5]⟩
        · rw [h6] at hn; cases hn
        · rw [h5] at hn; exact absurd hn h4

theorem position_lt {τ : History} {i : Nat} {x : Goroutine × Act} (h : τ[i]? = some x) : i < τ.length := by
  obtain ⟨h1, _⟩ := List.getElem?_eq_some_iff.mp h
  exact h1

/-- Uses of guarded memory are in order. -/
theorem guarded_ordered {S : System} {τ : History} {σ : State} (h : Happened S τ σ) {c : Cell} {m : Mutex} (hc : guard c = some m) {i j : Nat}
    {g k : Goroutine} {a b : Act} (hij : i < j) (hi : τ[i]? = some (g, a)) (hj : τ[j]? = some (k, b)) (ha : Uses c a) (hb : Uses c b) :
    HappensBefore τ i j := by
  by_cases hgk : g = k
  · subst hgk; exact .order hij hi hj
  obtain ⟨σ₁, σ₂, h1, h2, h3⟩ := h.at hi
  obtain ⟨σ₃, σ₄, h4, h5, h6⟩ := h.at hj
  obtain ⟨r1, _, ht1, _, _⟩ := step_some h2
  obtain ⟨r2, _, ht2, _, _⟩ := step_some h5
  have hg := use_holds h1 ht1 ha hc
  have hk := use_holds h4 ht2 hb hc
  have hjl := position_lt hj
  obtain ⟨x, hx1, hx2, hx3⟩ := released h h1 hg (j := j) (by omega) (by omega) h4 (by rw [hk]; exact fun e => hgk (Option.some.inj e).symm)
  have hxi : x ≠ i := by
    intro he
    subst he
    rw [hi] at hx3
    cases hx3
    exact ha
  obtain ⟨σ₅, σ₆, h7, h8, h9⟩ := h.at hx3
  have hfree : σ₆.holder m = none := by
    rcases step_holder h7 h8 m with ⟨h10, _⟩ | ⟨_, _, h10⟩ | h10
    · cases h10
    · exact h10
    · obtain ⟨r3, _, _, _, he⟩ := step_some h8
      rw [he]
      simp [State.effect]
  obtain ⟨y, hy1, hy2, hy3⟩ := taken h h9 (g := k) (m := m) (by rw [hfree]; simp) (j := j) (by omega) (by omega) h4 hk
  exact .trans (.order (by omega) hi hx3) (.trans (.mutex (by omega) hx3 hy3) (.order hy2 hy3 hj))

/-! ## Memory handed over through a channel -/

/-- The messages put into a channel. -/
def putList (s : Nat) (τ : History) : List Nat := τ.filterMap fun (_, a) => match a with | .put t b => if t = s then some b else none | _ => none

theorem channel_eq {S : System} {τ : History} {σ : State} (h : Happened S τ σ) (s : Nat) :
    takesFrom s τ ≤ (putList s τ).length ∧ σ.channel s = (putList s τ).drop (takesFrom s τ) := by
  refine Happened.induct (P := fun τ σ => takesFrom s τ ≤ (putList s τ).length ∧ σ.channel s = (putList s τ).drop (takesFrom s τ))
    ⟨Nat.zero_le _, rfl⟩ ?_ h
  intro τ σ g a σ' _ ih hs
  obtain ⟨rest, _, _, hr, rfl⟩ := step_some hs
  cases a with
  | put t b =>
    by_cases hts : t = s
    · subst hts
      have hp : putList t (τ ++ [(g, .put t b)]) = putList t τ ++ [b] := by simp [putList]
      have ht : takesFrom t (τ ++ [(g, .put t b)]) = takesFrom t τ := by simp [takesFrom]
      rw [hp, ht, List.drop_append_of_le_length ih.1]
      refine ⟨by rw [List.length_append]; omega, ?_⟩
      simp [State.effect, ih.2]
    · have hp : putList s (τ ++ [(g, .put t b)]) = putList s τ := by simp [putList, hts]
      have ht : takesFrom s (τ ++ [(g, .put t b)]) = takesFrom s τ := by simp [takesFrom]
      rw [hp, ht]
      simp only [State.effect]
      rw [if_neg (fun e => hts e.symm)]
      exact ih
  | take t b =>
    by_cases hts : t = s
    · subst hts
      have hp : putList t (τ ++ [(g, .take t b)]) = putList t τ := by simp [putList]
      have ht : takesFrom t (τ ++ [(g, .take t b)]) = takesFrom t τ + 1 := by simp [takesFrom]
      simp only [State.ready, beq_iff_eq] at hr
      rw [hp, ht]
      have hne : σ.channel t ≠ [] := by
        intro he
        rw [he] at hr
        cases hr
      rw [ih.2] at hne
      have : takesFrom t τ < (putList t τ).length := by
        rcases Nat.lt_or_ge (takesFrom t τ) (putList t τ).length with h1 | h1
        · exact h1
        · exact absurd (List.drop_eq_nil_of_le h1) hne
      refine ⟨this, ?_⟩
      simp [State.effect, ih.2, List.tail_drop]
    · have hp : putList s (τ ++ [(g, .take t b)]) = putList s τ := by simp [putList]
      have ht : takesFrom s (τ ++ [(g, .take t b)]) = takesFrom s τ := by simp [takesFrom, hts]
      rw [hp, ht]
      simp only [State.effect]
      rw [if_neg (fun e => hts e.symm)]
      exact ih
  | _ =>
    have hp : ∀ x, (∀ t b, x ≠ Act.put t b) → putList s (τ ++ [(g, x)]) = putList s τ := by
      intro x hx
      cases x <;> simp [putList] at hx ⊢
    have ht : ∀ x, (∀ t b, x ≠ Act.take t b) → takesFrom s (τ ++ [(g, x)]) = takesFrom s τ := by
      intro x hx
      cases x <;> simp [takesFrom] at hx ⊢
    rw [hp _ (by intros; simp), ht _ (by intros; simp)]
    exact ih

theorem putList_at {s : Nat} {τ : History} {n b : Nat} (h : (putList s τ)[n]? = some b) :
    ∃ p g, τ[p]? = some (g, .put s b) ∧ putsOn s (τ.take p) = n := by
  induction τ generalizing n with
  | nil => simp [putList] at h
  | cons x τ ih =>
    obtain ⟨g, a⟩ := x
    by_cases hx : ∃ c, a = .put s c
    · obtain ⟨c, rfl⟩ := hx
      have hp : putList s ((g, Act.put s c) :: τ) = c :: putList s τ := by simp [putList]
      rw [hp] at h
      cases n with
      | zero =>
        simp only [List.getElem?_cons_zero, Option.some.injEq] at h
        subst h
        exact ⟨0, g, rfl, by simp [putsOn]⟩
      | succ n =>
        rw [List.getElem?_cons_succ] at h
        obtain ⟨p, g', h1, h2⟩ := ih h
        refine ⟨p + 1, g', h1, ?_⟩
        rw [List.take_succ_cons]
        simp [putsOn] at h2 ⊢
        exact h2
    · have hp : putList s ((g, a) :: τ) = putList s τ := by
        unfold putList
        rw [List.filterMap_cons]
        cases a with
        | put t c =>
          have : t ≠ s := fun e => hx ⟨c, by rw [e]⟩
          simp [this]
        | _ => rfl
      rw [hp] at h
      obtain ⟨p, g', h1, h2⟩ := ih h
      refine ⟨p + 1, g', h1, ?_⟩
      rw [List.take_succ_cons]
      unfold putsOn at h2 ⊢
      rw [List.countP_cons_of_neg]
      · exact h2
      · cases a with
        | put t c =>
          have : t ≠ s := fun e => hx ⟨c, by rw [e]⟩
          simp [this]
        | _ => simp

/-- A message that is taken was put into the channel before. -/
theorem put_before {S : System} {τ : History} {σ : State} (h : Happened S τ σ) {t s b : Nat} {g : Goroutine}
    (ht : τ[t]? = some (g, .take s b)) : ∃ p k, p < t ∧ τ[p]? = some (k, .put s b) ∧ HappensBefore τ p t := by
  obtain ⟨σ₁, σ₂, h1, h2, _⟩ := h.at ht
  obtain ⟨rest, _, _, hr, _⟩ := step_some h2
  simp only [State.ready, beq_iff_eq] at hr
  rw [(channel_eq h1 s).2, List.head?_drop] at hr
  obtain ⟨p, k, hp, hn⟩ := putList_at hr
  rw [List.getElem?_take] at hp
  split at hp
  · next hpt =>
    refine ⟨p, k, hpt, hp, .channel hp ht ?_⟩
    rw [List.take_take, Nat.min_eq_left (by omega)] at hn
    exact hn
  · cases hp

/-! ## Goroutines are started -/

theorem started_iff {S : System} {τ : History} {σ : State} (h : Happened S τ σ) (k : Goroutine) :
    σ.started k = true → k = .program 0 ∨ ∃ (i : Nat) (g : Goroutine), τ[i]? = some (g, Act.start k) ∧ ∀ j < i, ∀ (f : Goroutine), τ[j]? ≠ some (f, Act.start k) := by
  have hmono : ∀ {τ : History} {x : Goroutine × Act}, (∃ (i : Nat) (g : Goroutine), τ[i]? = some (g, Act.start k) ∧ ∀ j < i, ∀ (f : Goroutine), τ[j]? ≠ some (f, Act.start k)) →
      ∃ (i : Nat) (g : Goroutine), (τ ++ [x])[i]? = some (g, Act.start k) ∧ ∀ j < i, ∀ (f : Goroutine), (τ ++ [x])[j]? ≠ some (f, Act.start k) := by
    intro τ x ⟨i, g, h1, h2⟩
    have hl := position_lt h1
    refine ⟨i, g, by rw [List.getElem?_append_left hl]; exact h1, fun j hj f => ?_⟩
    rw [List.getElem?_append_left (by omega)]
    exact h2 j hj f
  refine (Happened.induct (P := fun τ σ => (σ.started k = true →
      k = .program 0 ∨ ∃ (i : Nat) (g : Goroutine), τ[i]? = some (g, Act.start k) ∧ ∀ j < i, ∀ (f : Goroutine), τ[j]? ≠ some (f, Act.start k)) ∧
      ∀ (i : Nat) (g : Goroutine), τ[i]? = some (g, Act.start k) → σ.started k = true) ⟨?_, ?_⟩ ?_ h).1
  · intro h0
    simp only [System.init, beq_iff_eq] at h0
    exact .inl h0
  · intro i g h0
    simp at h0
  · intro τ σ g a σ' _ ih hs
    obtain ⟨rest, _, _, _, rfl⟩ := step_some hs
    by_cases ha : a = .start k
    · subst ha
      refine ⟨fun _ => ?_, fun _ _ _ => by simp [State.effect]⟩
      by_cases hσ : σ.started k = true
      · exact (ih.1 hσ).imp_right hmono
      · right
        refine ⟨τ.length, g, by simp, fun j hj f hf => ?_⟩
        rw [List.getElem?_append_left hj] at hf
        exact hσ (ih.2 j f hf)
    · have he : (σ.effect g rest a).started k = σ.started k := by
        cases a with
        | start f =>
          have : k ≠ f := fun e => ha (by rw [e])
          simp [State.effect, this]
        | _ => simp [State.effect]
      rw [he]
      refine ⟨fun h0 => (ih.1 h0).imp_right hmono, fun i f hf => ?_⟩
      rw [List.getElem?_append] at hf
      split at hf
      · exact ih.2 i f hf
      · have hlt := position_lt hf
        simp only [List.length_cons, List.length_nil] at hlt
        have : i - τ.length = 0 := by omega
        rw [this] at hf
        simp only [List.getElem?_cons_zero, Option.some.injEq, Prod.mk.injEq] at hf
        exact absurd hf.2 ha

/-- Everything that another goroutine than `main` does comes after a `go` statement of `main`. -/
theorem after_go {S : System} {τ : History} {σ : State} (h : Happened S τ σ) {j : Nat} {k : Goroutine} {b : Act}
    (hj : τ[j]? = some (k, b)) (hk : k ≠ .program 0) :
    ∃ (i : Nat) (f : Goroutine), i < j ∧ τ[i]? = some (Goroutine.program 0, Act.start f) ∧ HappensBefore τ i j := by
  induction j using Nat.strongRecOn generalizing k b with
  | ind j ih =>
    obtain ⟨σ₁, σ₂, h1, h2, _⟩ := h.at hj
    obtain ⟨rest, hst, _, _, _⟩ := step_some h2
    rcases started_iff h1 k hst with h3 | ⟨i, g, hi, hfirst⟩
    · exact absurd h3 hk
    · rw [List.getElem?_take] at hi
      split at hi
      · next hij =>
        have hgo : HappensBefore τ i j := by
          refine .go hij hi (fun x hx f hf => hfirst x hx f ?_) hj
          rw [List.getElem?_take, if_pos (by omega)]
          exact hf
        by_cases hg : g = .program 0
        · subst hg
          exact ⟨i, k, hij, hi, hgo⟩
        · obtain ⟨i', f, h4, h5, h6⟩ := ih i hij hi hg
          exact ⟨i', f, by omega, h5, .trans h6 hgo⟩
      · cases hi

end Verif.Sync
