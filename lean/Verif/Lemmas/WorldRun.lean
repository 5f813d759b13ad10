import Verif.Lemmas.WorldShape
/-! # The whole server: what its log says -/

namespace Verif.World
open Handler Session Spec

theorem append_split {α : Type} {l y l1 l2 : List α} {o : α} (h : l ++ y = l1 ++ o :: l2) :
    (∃ c, l = l1 ++ o :: c ∧ l2 = c ++ y) ∨ ∃ c, l1 = l ++ c ∧ y = c ++ o :: l2 := by
  rcases List.append_eq_append_iff.1 h with ⟨a, h1, h2⟩ | ⟨a, h1, h2⟩
  · exact .inr ⟨a, h1, h2⟩
  · cases a with
    | nil => exact .inr ⟨[], by simpa using h1.symm, by simpa using h2.symm⟩
    | cons b a =>
      simp only [List.cons_append, List.cons.injEq] at h2
      obtain ⟨rfl, rfl⟩ := h2
      exact .inl ⟨a, h1, rfl⟩

/-- In the log `l`, the handler of session `k` was found last at this place, and the period restarted at the time `n` for it. -/
def FoundAt (k : Nat) (h : Nat) (m : Message Entity) (l a : List Obs) (n : Int) (b : List Obs) : Prop :=
  l = a ++ .server (.restart k n) :: .act k .touch :: .act k (.handle h m) :: b ∧
    (∀ n', .server (.restart k n') ∉ b) ∧ ∀ h' m', .act k (.handle h' m') ∉ b

/-- What the log says about session `k`. -/
structure LogInv (k : Nat) (s : State) (log : List Obs) : Prop where
  restarted : ∀ n, .server (.restart k n) ∈ log → placeOf s.server k ≠ none ∧ placeOf s.server k ≠ some .accepted ∧ placeOf s.server k ≠ some .registered
  signs : ∀ l1 n l2, log = l1 ++ .server (.restart k n) :: l2 →
    (∀ n', .server (.restart k n') ∉ l1) ∨ ∃ h m l3, l2 = .act k .touch :: .act k (.handle h m) :: l3
  handles : ∀ l1 h m l2, log = l1 ++ .act k (.handle h m) :: l2 → ∃ l0 n, l1 = l0 ++ [.server (.restart k n), .act k .touch]
  chosen : ∀ h m, s.busy k = .chosen h m → ∃ a n b, FoundAt k h m log a n b ∧ (placeOf s.server k = some .looping → .server (.armed k) ∈ b)
  calls : ∀ l1 h m l2, log = l1 ++ .called k h m :: l2 → ∃ a n b, FoundAt k h m l1 a n b ∧ .server (.armed k) ∈ b
  balance : log.countP (isCall k) = log.countP (isReturn k) + match s.busy k with | .running _ _ => 1 | _ => 0
  left : ∀ l1 l2, log = l1 ++ .server (.left k) :: l2 → (∀ h m, .called k h m ∉ l2) ∧ (∀ m, .received k m ∉ l2) ∧ l1.countP (isCall k) = l1.countP (isReturn k)
  leftEnded : .server (.left k) ∈ log → placeOf s.server k = some .ended
  pairs : log.filterMap (foundBy k) = log.filterMap (calledBy k) ++ match s.busy k with | .chosen h m => [(h, m)] | _ => []

theorem logInv_start (k : Nat) (server : Server.State) (reads : Nat → List Bytes) : LogInv k (start server reads) [] := by
  constructor <;> simp [start]

theorem quiet_count {k : Nat} {y : List Obs} (h : ∀ o ∈ y, Quiet k o) : y.countP (isCall k) = 0 ∧ y.countP (isReturn k) = 0 ∧
    y.filterMap (foundBy k) = [] ∧ y.filterMap (calledBy k) = [] ∧ y.filterMap (receivedBy k) = [] := by
  induction y with
  | nil => simp
  | cons o y ih =>
    obtain ⟨h1, h2, h3, h4, h5⟩ := ih fun a ha => h a (List.mem_cons_of_mem _ ha)
    have := h o (List.mem_cons_self ..)
    rw [List.countP_cons, List.countP_cons, List.filterMap_cons, List.filterMap_cons, List.filterMap_cons, h1, h2, h3, h4, h5]
    cases o with
    | server o => simp [isCall, isReturn, foundBy, calledBy, receivedBy]
    | act j a => cases a <;> simp_all [isCall, isReturn, foundBy, calledBy, receivedBy, Quiet]
    | received j m => simp_all [isCall, isReturn, foundBy, calledBy, receivedBy, Quiet]
    | called j i m => simp_all [isCall, isReturn, foundBy, calledBy, receivedBy, Quiet]
    | returned j i u => simp_all [isCall, isReturn, foundBy, calledBy, receivedBy, Quiet]

theorem FoundAt.more {k h : Nat} {m : Message Entity} {l a b y : List Obs} {n : Int} (hf : FoundAt k h m l a n b)
    (h1 : ∀ n', .server (.restart k n') ∉ y) (h2 : ∀ h' m', .act k (.handle h' m') ∉ y) : FoundAt k h m (l ++ y) a n (b ++ y) := by
  obtain ⟨rfl, g1, g2⟩ := hf
  refine ⟨by simp, fun n' => ?_, fun h' m' => ?_⟩
  · simp only [List.mem_append, not_or]; exact ⟨g1 n', h1 n'⟩
  · simp only [List.mem_append, not_or]; exact ⟨g2 h' m', h2 h' m'⟩

section
variable {env : Env} {key : Option DecKey} {endErr : Err} {auto : Bool}

/-- Appending observations that contain none of those followed by the first four and the seventh fact. -/
theorem signs_append {k : Nat} {s : State} {log y : List Obs} (hi : LogInv k s log) (h : ∀ n, .server (.restart k n) ∉ y) :
    ∀ l1 n l2, log ++ y = l1 ++ .server (.restart k n) :: l2 →
    (∀ n', .server (.restart k n') ∉ l1) ∨ ∃ h m l3, l2 = .act k .touch :: .act k (.handle h m) :: l3 := by
  intro l1 n l2 he
  rcases append_split he with ⟨c, g1, rfl⟩ | ⟨c, rfl, rfl⟩
  · rcases hi.signs l1 n c g1 with g | ⟨h, m, l3, rfl⟩
    · exact .inl g
    · exact .inr ⟨h, m, l3 ++ y, by simp⟩
  · exact absurd (by simp) (h n)

theorem handles_append {k : Nat} {s : State} {log y : List Obs} (hi : LogInv k s log) (h : ∀ i m, .act k (.handle i m) ∉ y) :
    ∀ l1 i m l2, log ++ y = l1 ++ .act k (.handle i m) :: l2 → ∃ l0 n, l1 = l0 ++ [.server (.restart k n), .act k .touch] := by
  intro l1 i m l2 he
  rcases append_split he with ⟨c, g1, rfl⟩ | ⟨c, rfl, rfl⟩
  · exact hi.handles l1 i m c g1
  · exact absurd (by simp) (h i m)

theorem calls_append {k : Nat} {s : State} {log y : List Obs} (hi : LogInv k s log) (h : ∀ i m, .called k i m ∉ y) :
    ∀ l1 i m l2, log ++ y = l1 ++ .called k i m :: l2 → ∃ a n b, FoundAt k i m l1 a n b ∧ .server (.armed k) ∈ b := by
  intro l1 i m l2 he
  rcases append_split he with ⟨c, g1, rfl⟩ | ⟨c, rfl, rfl⟩
  · exact hi.calls l1 i m c g1
  · exact absurd (by simp) (h i m)

theorem left_append {k : Nat} {s : State} {log y : List Obs} (hi : LogInv k s log) (h : .server (.left k) ∉ y)
    (hc : (∀ i m, .called k i m ∉ y) ∧ (∀ m, .received k m ∉ y) ∨ .server (.left k) ∉ log) :
    ∀ l1 l2, log ++ y = l1 ++ .server (.left k) :: l2 →
      (∀ h m, .called k h m ∉ l2) ∧ (∀ m, .received k m ∉ l2) ∧ l1.countP (isCall k) = l1.countP (isReturn k) := by
  intro l1 l2 he
  rcases append_split he with ⟨c, g1, rfl⟩ | ⟨c, rfl, rfl⟩
  · rcases hc with ⟨hc1, hc2⟩ | hc
    · obtain ⟨g2, g3, g4⟩ := hi.left l1 c g1
      refine ⟨fun i m => ?_, fun m => ?_, g4⟩
      · simp only [List.mem_append, not_or]; exact ⟨g2 i m, hc1 i m⟩
      · simp only [List.mem_append, not_or]; exact ⟨g3 m, hc2 m⟩
    · exact absurd (by rw [g1]; simp) hc
  · exact absurd (by simp) h

theorem restarted_append {k : Nat} {s s' : State} {log y : List Obs} (hi : LogInv k s log) (h : ∀ n, .server (.restart k n) ∉ y)
    (hp : placeOf s.server k ≠ none ∧ placeOf s.server k ≠ some .accepted ∧ placeOf s.server k ≠ some .registered →
      placeOf s'.server k ≠ none ∧ placeOf s'.server k ≠ some .accepted ∧ placeOf s'.server k ≠ some .registered) :
    ∀ n, .server (.restart k n) ∈ log ++ y →
      placeOf s'.server k ≠ none ∧ placeOf s'.server k ≠ some .accepted ∧ placeOf s'.server k ≠ some .registered := by
  intro n hm
  rcases List.mem_append.1 hm with hm | hm
  · exact hp (hi.restarted n hm)
  · exact absurd hm (h n)

theorem chosen_append {k : Nat} {s s' : State} {log y : List Obs} (hi : LogInv k s log) (hb : s'.busy k = s.busy k)
    (h1 : ∀ n', .server (.restart k n') ∉ y) (h2 : ∀ h' m', .act k (.handle h' m') ∉ y)
    (hp : placeOf s'.server k = some .looping → placeOf s.server k = some .looping ∨ .server (.armed k) ∈ y ∨ ∀ h m, s.busy k ≠ .chosen h m) :
    ∀ h m, s'.busy k = .chosen h m → ∃ a n b, FoundAt k h m (log ++ y) a n b ∧ (placeOf s'.server k = some .looping → .server (.armed k) ∈ b) := by
  intro h m hc
  rw [hb] at hc
  obtain ⟨a, n, b, g1, g2⟩ := hi.chosen h m hc
  refine ⟨a, n, b ++ y, g1.more h1 h2, fun hl => ?_⟩
  rcases hp hl with g | g | g
  · exact List.mem_append_left _ (g2 g)
  · exact List.mem_append_right _ g
  · exact absurd hc (g h m)

theorem logInv_shape {k : Nat} {s s' : State} {log y : List Obs} (hf : Fits k s) (hi : LogInv k s log) (h : Shape env key endErr k s s' y) :
    LogInv k s' (log ++ y) := by
  cases h with
  | quiet hq hm hb hr hmid hend =>
    have q1 : ∀ n, .server (.restart k n) ∉ y := fun n hn => absurd rfl (hq _ hn)
    have q2 : ∀ i m, .act k (.handle i m) ∉ y := fun i m hn => absurd rfl (hq _ hn)
    have q3 : ∀ i m, .called k i m ∉ y := fun i m hn => absurd rfl (hq _ hn)
    have q4 : .server (.left k) ∉ y := fun hn => absurd rfl (hq _ hn)
    have q5 : ∀ m, .received k m ∉ y := fun m hn => absurd rfl (hq _ hn)
    obtain ⟨c1, c2, c3, c4, -⟩ := quiet_count hq
    constructor
    · refine restarted_append hi q1 ?_
      generalize placeOf s'.server k = p' at hm ⊢
      generalize placeOf s.server k = p at *
      cases hm <;> simp
    · exact signs_append hi q1
    · exact handles_append hi q2
    · refine chosen_append hi hb q1 q2 fun hl => ?_
      by_cases hc : ∃ h m, s.busy k = .chosen h m
      · obtain ⟨i, m, hc⟩ := hc
        left
        have := hf.chosen i m hc
        generalize placeOf s'.server k = p' at hm hl
        generalize placeOf s.server k = p at *
        cases hm <;> simp_all
      · exact .inr (.inr fun h m hc' => hc ⟨h, m, hc'⟩)
    · exact calls_append hi q3
    · rw [List.countP_append, List.countP_append, c1, c2, hb]
      exact hi.balance
    · exact left_append hi q4 (.inl ⟨q3, q5⟩)
    · intro hl
      rcases List.mem_append.1 hl with hl | hl
      · have := hi.leftEnded hl
        generalize placeOf s'.server k = p' at hm ⊢
        generalize placeOf s.server k = p at *
        subst this
        cases hm
        rfl
      · exact absurd hl q4
    · rw [List.filterMap_append, List.filterMap_append, c3, c4, hb, List.append_nil, List.append_nil]
      exact hi.pairs
  | first n a b c d =>
    have hno : ∀ n', .server (.restart k n') ∉ log := fun n' hn => (hi.restarted n' hn).2.2 a
    have hb := congrFun c k
    constructor
    · intro _ _; rw [b]; simp
    · intro l1 n' l2 he
      rcases append_split he with ⟨c, g1, rfl⟩ | ⟨c, rfl, g1⟩
      · exact absurd (by rw [g1]; simp) (hno n')
      · cases c with
        | nil => left; simpa using hno
        | cons x c => simp at g1
    · exact handles_append hi (by simp)
    · intro h m hc
      rw [hb] at hc
      rcases hf.chosen h m hc with g | ⟨_, g⟩ <;> rw [a] at g <;> cases g
    · exact calls_append hi (by simp)
    · rw [List.countP_append, List.countP_append, hb]
      simpa [isCall, isReturn] using hi.balance
    · exact left_append hi (by simp) (.inl (by simp))
    · intro hl
      rcases List.mem_append.1 hl with hl | hl
      · have := hi.leftEnded hl
        rw [a] at this; cases this
      · simp at hl
    · rw [List.filterMap_append, List.filterMap_append, hb]
      simpa [List.filterMap_cons, foundBy, calledBy] using hi.pairs
  | armFirst a b c d =>
    have hb := congrFun c k
    constructor
    · exact restarted_append hi (by simp) (by rw [b]; simp)
    · exact signs_append hi (by simp)
    · exact handles_append hi (by simp)
    · intro h m hc
      rw [hb] at hc
      rcases hf.chosen h m hc with g | ⟨_, g⟩ <;> rw [a] at g <;> cases g
    · exact calls_append hi (by simp)
    · rw [List.countP_append, List.countP_append, hb]
      simpa [isCall, isReturn] using hi.balance
    · exact left_append hi (by simp) (.inl (by simp))
    · intro hl
      rcases List.mem_append.1 hl with hl | hl
      · have := hi.leftEnded hl
        rw [a] at this; cases this
      · simp at hl
    · rw [List.filterMap_append, List.filterMap_append, hb]
      simpa [List.filterMap_cons, foundBy, calledBy] using hi.pairs
  | arm a b c d =>
    have hb := congrFun c k
    constructor
    · exact restarted_append hi (by simp) (by rw [b]; simp)
    · exact signs_append hi (by simp)
    · exact handles_append hi (by simp)
    · exact chosen_append hi hb (by simp) (by simp) fun _ => .inr (.inl (by simp))
    · exact calls_append hi (by simp)
    · rw [List.countP_append, List.countP_append, hb]
      simpa [isCall, isReturn] using hi.balance
    · exact left_append hi (by simp) (.inl (by simp))
    · intro hl
      rcases List.mem_append.1 hl with hl | hl
      · have := hi.leftEnded hl
        rw [a] at this; cases this
      · simp at hl
    · rw [List.filterMap_append, List.filterMap_append, hb]
      simpa [List.filterMap_cons, foundBy, calledBy] using hi.pairs
  | receive m a b c d e f =>
    have hb := congrFun d k
    have hnl : .server (.left k) ∉ log := fun hl => by
      have := hi.leftEnded hl
      rw [a] at this; cases this
    constructor
    · exact restarted_append hi (by simp) (by rw [b]; exact id)
    · exact signs_append hi (by simp)
    · exact handles_append hi (by simp)
    · exact chosen_append hi hb (by simp) (by simp) fun _ => .inl a
    · exact calls_append hi (by simp)
    · rw [List.countP_append, List.countP_append, hb]
      simpa [isCall, isReturn] using hi.balance
    · exact left_append hi (by simp) (.inr hnl)
    · intro hl
      rcases List.mem_append.1 hl with hl | hl
      · exact absurd hl hnl
      · simp at hl
    · rw [List.filterMap_append, List.filterMap_append, hb]
      simpa [List.filterMap_cons, foundBy, calledBy] using hi.pairs
  | leave o a b c d e ho =>
    have hb := congrFun d k
    have hnl : .server (.left k) ∉ log := fun hl => by
      have := hi.leftEnded hl
      rw [a] at this; cases this
    have hbal : log.countP (isCall k) = log.countP (isReturn k) := by
      have := hi.balance
      rw [c] at this
      exact this
    have hp : log.filterMap (foundBy k) = log.filterMap (calledBy k) := by
      have := hi.pairs
      rw [c] at this
      simpa using this
    rcases ho with rfl | rfl
    all_goals
      constructor
      · exact restarted_append hi (by simp) (by rw [b]; simp)
      · exact signs_append hi (by simp)
      · exact handles_append hi (by simp)
      · exact chosen_append hi hb (by simp) (by simp) fun _ => .inl a
      · exact calls_append hi (by simp)
      · rw [List.countP_append, List.countP_append, hb, c]
        simpa [isCall, isReturn] using hbal
      · intro l1 l2 he
        rcases append_split he with ⟨c, g1, rfl⟩ | ⟨c, rfl, g1⟩
        · exact absurd (by rw [g1]; simp) hnl
        · simp only [List.map_cons, List.map_nil] at g1
          match c, g1 with
          | [x], g1 =>
            simp at g1
            try (obtain ⟨rfl, rfl⟩ := g1; simpa [isCall, isReturn] using hbal)
          | [x, z], g1 =>
            simp at g1
            try (obtain ⟨rfl, rfl, rfl⟩ := g1; simpa [isCall, isReturn] using hbal)
          | [], g1 => simp at g1
          | x :: z :: w :: c, g1 => simp at g1
      · exact fun _ => b
      · rw [List.filterMap_append, List.filterMap_append, hb, c, hp]
        simp [List.filterMap_cons, foundBy, calledBy]
  | dispatch n i m a b c d e f g =>
    have hnl : .server (.left k) ∉ log := fun hl => by
      have := hi.leftEnded hl
      rw [a] at this; cases this
    have hp : log.filterMap (foundBy k) = log.filterMap (calledBy k) := by
      have := hi.pairs
      rw [c] at this
      simpa using this
    constructor
    · intro _ _; rw [b]; simp
    · intro l1 n' l2 he
      rcases append_split he with ⟨c, g1, rfl⟩ | ⟨c, rfl, g1⟩
      · rcases hi.signs l1 n' c g1 with g | ⟨h, m, l3, rfl⟩
        · exact .inl g
        · exact .inr ⟨h, m, _, rfl⟩
      · right
        match c, g1 with
        | [], g1 => simp at g1; obtain ⟨rfl, rfl⟩ := g1; exact ⟨_, _, _, rfl⟩
        | [x], g1 => simp at g1
        | [x, z], g1 => simp at g1
        | x :: z :: w :: c, g1 => simp at g1
    · intro l1 i' m' l2 he
      rcases append_split he with ⟨c, g1, rfl⟩ | ⟨c, rfl, g1⟩
      · exact hi.handles l1 i' m' c g1
      · match c, g1 with
        | [], g1 => simp at g1
        | [x], g1 => simp at g1
        | [x, z], g1 => simp at g1; obtain ⟨rfl, rfl, -⟩ := g1; exact ⟨log, n, rfl⟩
        | x :: z :: w :: c, g1 => simp at g1
    · intro h' m' hc
      rw [d] at hc
      cases hc
      exact ⟨log, n, [], ⟨rfl, by simp, by simp⟩, by rw [b]; simp⟩
    · exact calls_append hi (by simp)
    · rw [List.countP_append, List.countP_append, d]
      have := hi.balance
      rw [c] at this
      simpa [isCall, isReturn] using this
    · exact left_append hi (by simp) (.inl (by simp))
    · intro hl
      rcases List.mem_append.1 hl with hl | hl
      · exact absurd hl hnl
      · simp at hl
    · rw [List.filterMap_append, List.filterMap_append, d, hp]
      simp [List.filterMap_cons, foundBy, calledBy]
  | call i m a b c d e =>
    have hnl : .server (.left k) ∉ log := fun hl => by
      have := hi.leftEnded hl
      rw [a] at this; cases this
    constructor
    · exact restarted_append hi (by simp) (by rw [b]; exact id)
    · exact signs_append hi (by simp)
    · exact handles_append hi (by simp)
    · intro h m hc; rw [d] at hc; cases hc
    · intro l1 i' m' l2 he
      rcases append_split he with ⟨c, g1, rfl⟩ | ⟨c', rfl, g1⟩
      · exact hi.calls l1 i' m' c g1
      · match c', g1 with
        | [], g1 =>
          simp at g1
          obtain ⟨⟨rfl, rfl⟩, rfl⟩ := g1
          obtain ⟨x, n, z, g2, g3⟩ := hi.chosen _ _ c
          exact ⟨x, n, z, by simpa using g2, g3 a⟩
        | x :: c, g1 => simp at g1
    · rw [List.countP_append, List.countP_append, d]
      have := hi.balance
      rw [c] at this
      simpa [isCall, isReturn] using this
    · exact left_append hi (by simp) (.inr hnl)
    · intro hl
      rcases List.mem_append.1 hl with hl | hl
      · exact absurd hl hnl
      · simp at hl
    · rw [List.filterMap_append, List.filterMap_append, d]
      have := hi.pairs
      rw [c] at this
      rw [this]
      simp [List.filterMap_cons, foundBy, calledBy]
  | finish i m u b c d e =>
    have hnl : .server (.left k) ∉ log := fun hl => by
      have h1 := hi.leftEnded hl
      rw [hf.running i m c] at h1; cases h1
    constructor
    · exact restarted_append hi (by simp) (by rw [b]; exact id)
    · exact signs_append hi (by simp)
    · exact handles_append hi (by simp)
    · intro h m hc; rw [d] at hc; cases hc
    · exact calls_append hi (by simp)
    · rw [List.countP_append, List.countP_append, d]
      have := hi.balance
      rw [c] at this
      simpa [isCall, isReturn] using this
    · exact left_append hi (by simp) (.inr hnl)
    · intro hl
      rcases List.mem_append.1 hl with hl | hl
      · exact absurd hl hnl
      · simp at hl
    · rw [List.filterMap_append, List.filterMap_append, d]
      have := hi.pairs
      rw [c] at this
      rw [this]
      simp [List.filterMap_cons, foundBy, calledBy]

/-! ## Whole runs -/

/-- Everything that is known of a state and the log so far. -/
structure Good (p : Int) (s : State) (log : List Obs) : Prop where
  server : Server.Inv p s.server (log.filterMap serverView)
  ticker : Server.Ticker s.server (log.filterMap serverView)
  fits : ∀ k, Fits k s
  logs : ∀ k, LogInv k s log

theorem Good.fresh {p : Int} {s : State} {log : List Obs} (h : Good p s log) : s.server.sessions (s.server.count + 1) = none := by
  cases hx : s.server.sessions (s.server.count + 1) with
  | none => rfl
  | some x =>
    have := h.server.ids _ (by rw [hx]; simp)
    omega

theorem good_start {ka : Int} {rsa : Option Nat} {s0 : Server.State} (h0 : Server.newServer ka rsa = .ok s0) (reads : Nat → List Bytes) :
    Good (keepalivePeriod ka) (start s0 reads) [] := by
  have hs : s0.sessions = fun _ => none := by
    unfold Server.newServer at h0
    simp only at h0
    split at h0
    · split at h0 <;> cases h0
      rfl
    · cases h0; rfl
  refine ⟨Server.new_inv h0, Server.ticker_new h0, fun k => ?_, fun k => logInv_start k s0 reads⟩
  constructor <;> simp [start, placeOf, hs, System.start, Mid]

theorem good_shape {p : Int} {s s' : State} {log x : List Obs} {e : Event} (hg : Good p s log) (h : s.step env key endErr auto e = .ok (s', x))
    (k : Nat) : Shape env key endErr k s s' x := step_shape k hg.fresh hg.fits h

theorem good_step {p : Int} {s s' : State} {log x : List Obs} {e : Event} (hg : Good p s log) (h : s.step env key endErr auto e = .ok (s', x)) :
    Good p s' (log ++ x) := by
  have hsv : Server.Inv p s'.server ((log ++ x).filterMap serverView) ∧ Server.Ticker s'.server ((log ++ x).filterMap serverView) := by
    rw [List.filterMap_append]
    rcases (step_parts h).1 with ⟨h1, h2⟩ | ⟨ev, h1⟩
    · rw [h1, h2, List.append_nil]
      exact ⟨hg.server, hg.ticker⟩
    · obtain ⟨t, o, g1, g2⟩ := Server.step_inv hg.server ev
      rw [h1] at g1
      cases g1
      exact ⟨g2, Server.step_ticker hg.server hg.ticker h1⟩
  exact ⟨hsv.1, hsv.2, fun k => fits_shape (hg.fits k) (good_shape hg h k), fun k => logInv_shape (hg.fits k) (hg.logs k) (good_shape hg h k)⟩

theorem good_run {p : Int} {s s' : State} {log x : List Obs} {es : List Event} (hg : Good p s log) (h : s.run env key endErr auto es = .ok (s', x)) :
    Good p s' (log ++ x) := by
  induction es generalizing s log x with
  | nil => cases h; simpa using hg
  | cons e es ih =>
    obtain ⟨t, y, z, h1, h2, rfl⟩ := run_cons_inv h
    rw [← List.append_assoc]
    exact ih (good_step hg h1) h2

theorem Good.closed {p : Int} {s : State} {log : List Obs} (h : Good p s log) (k : Nat) : isClosed s.server k = true ↔ .server (.closing k) ∈ log := by
  have hl := h.server.life k
  have hm : .server (.closing k) ∈ log ↔ Server.Obs.closing k ∈ log.filterMap serverView := by
    rw [List.mem_filterMap]
    constructor
    · intro h; exact ⟨_, h, rfl⟩
    · rintro ⟨o, ho, he⟩
      cases o <;> simp [serverView] at he
      subst he
      exact ho
  rw [hm, ← Server.mem_only (k := k) rfl]
  unfold isClosed
  cases hx : s.server.sessions k with
  | none =>
    rw [hx] at hl
    have : Server.only k (log.filterMap serverView) = [] := Server.life_facts hl
    simp [this]
  | some x =>
    rw [hx] at hl
    exact ((Server.life_facts hl : Server.Facts k x _).closing).symm

theorem mem_server {o : Server.Obs} {log : List Obs} : o ∈ log.filterMap serverView ↔ .server o ∈ log := by
  rw [List.mem_filterMap]
  constructor
  · rintro ⟨a, ha, he⟩
    cases a <;> simp [serverView] at he
    subst he
    exact ha
  · intro h; exact ⟨_, h, rfl⟩

/-! ## What is received -/

theorem recvLoop_more {C : BodyCodec Entity} {fs rs : List Bytes} {b : Bytes} {m : Message Entity} {T : RecvState} (hp : fs <+: rs)
    (h : Codec.recvLoop C key endErr fs b = (.ok m, T)) :
    ∃ T', Codec.recvLoop C key endErr rs b = (.ok m, T') ∧ T'.buffer = T.buffer ∧ T.reads <+: T'.reads := by
  obtain ⟨b', rs'⟩ := T
  obtain ⟨e, rfl⟩ := hp
  induction fs generalizing b with
  | nil => simp [Codec.recvLoop] at h
  | cons c fs ih =>
    have hone (f : List Bytes) : Codec.recvLoop C key endErr (c :: f) b =
        if (b ++ c).length = 0 then Codec.recvLoop C key endErr f (b ++ c)
        else if (b ++ c).length > 0xffff then (.err .bodyTooLong, ⟨b ++ c, f⟩)
        else match Codec.readFromBuffer C key (b ++ c) with
          | (.ok (some m), buf') => (.ok m, ⟨buf', f⟩)
          | (.ok none, buf') => Codec.recvLoop C key endErr f buf'
          | (.err e, buf') => (.err e, ⟨buf', f⟩)
          | (.panic, buf') => (.panic, ⟨buf', f⟩) := by
      rw [Codec.recvLoop]
      rcases Codec.readFromBuffer C key (b ++ c) with ⟨⟨_ | _⟩ | _ | _, _⟩ <;> rfl
    rw [hone] at h
    rw [List.cons_append, hone]
    split at h
    · rename_i h0
      rw [if_pos h0]
      exact ih h
    split at h
    · cases h
    rename_i h0 h1
    rw [if_neg h0, if_neg h1]
    split at h <;> rename_i h2
    · cases h
      exact ⟨_, rfl, rfl, List.prefix_append ..⟩
    · exact ih h
    · cases h
    · cases h

/-- A message that is received is also received if more bytes follow. -/
theorem receive_more {C : BodyCodec Entity} {S S' T : RecvState} {m : Message Entity} (hb : S'.buffer = S.buffer) (hp : S.reads <+: S'.reads)
    (h : Codec.receive C key endErr S = (.ok m, T)) :
    ∃ T', Codec.receive C key endErr S' = (.ok m, T') ∧ T'.buffer = T.buffer ∧ T.reads <+: T'.reads := by
  unfold Codec.receive at h ⊢
  rw [hb]
  split at h <;> rename_i hx
  · cases h
    exact ⟨_, rfl, rfl, hp⟩
  · exact recvLoop_more hp h
  · cases h
  · cases h

/-- Each session receives messages from what arrives on its connection, in order. -/
def RecvInv (env : Env) (key : Option DecKey) (endErr : Err) (k : Nat) (c : RecvState) (s : State) (log : List Obs) : Prop :=
  ∃ T, receiveMany (entityCodec env) key endErr (log.filterMap (receivedBy k)).length c = ((log.filterMap (receivedBy k)).map .ok, T) ∧
    ((s.sys.conns k).place ≠ .ended → T.buffer = (s.sys.conns k).recv.buffer ∧ (s.sys.conns k).recv.reads <+: T.reads)

theorem shape_received {k : Nat} {s s' : State} {y : List Obs} (h : Shape env key endErr k s s' y) :
    (∃ m, y = [.received k m]) ∨ y.filterMap (receivedBy k) = [] := by
  cases h with
  | quiet hq => exact .inr (quiet_count hq).2.2.2.2
  | receive m => exact .inl ⟨m, rfl⟩
  | leave o a b c d e ho => rcases ho with rfl | rfl <;> right <;> simp [List.filterMap_cons, receivedBy]
  | _ => right; simp [List.filterMap_cons, receivedBy]

theorem recvInv_shape {k : Nat} {c : RecvState} {s s' : State} {log y : List Obs} (hf : Fits k s) (hi : RecvInv env key endErr k c s log)
    (h : Shape env key endErr k s s' y) : RecvInv env key endErr k c s' (log ++ y) := by
  have keep (hy : y.filterMap (receivedBy k) = []) (hr : (s'.sys.conns k).place ≠ .ended → (s'.sys.conns k).recv = (s.sys.conns k).recv ∧
      (s.sys.conns k).place ≠ .ended) : RecvInv env key endErr k c s' (log ++ y) := by
    obtain ⟨T, h1, h2⟩ := hi
    refine ⟨T, by rw [List.filterMap_append, hy, List.append_nil]; exact h1, fun hp => ?_⟩
    obtain ⟨g1, g2⟩ := hr hp
    rw [g1]
    exact h2 g2
  have hl := shape_received h
  cases h with
  | quiet hq hm hb hr hmid hend => exact keep (quiet_count hq).2.2.2.2 fun hp => ⟨hr, fun h => hp (hend.2 h)⟩
  | receive m a b c' d e f =>
    obtain ⟨T, h1, h2⟩ := hi
    have hne : (s.sys.conns k).place ≠ .ended := by
      intro h
      have := hf.ended.1 h
      rw [a] at this
      cases this
    obtain ⟨g1, g2⟩ := h2 hne
    obtain ⟨T', g3, g4, g5⟩ : ∃ T', Codec.receive (entityCodec env) key endErr T = (.ok m, T') ∧ T'.buffer = (s'.sys.conns k).recv.buffer ∧
        (s'.sys.conns k).recv.reads <+: T'.reads := by
      refine receive_more ?_ ?_ e
      · split <;> exact g1
      · split
        · exact List.nil_prefix
        · exact g2
    refine ⟨T', ?_, fun _ => ⟨g4, g5⟩⟩
    rw [List.filterMap_append]
    simp only [List.filterMap_cons, receivedBy, if_true, List.filterMap_nil, List.length_append, List.length_cons, List.length_nil]
    rw [System.receiveMany_snoc, h1]
    simp [g3]
  | leave o a b c' d e ho =>
    rcases hl with ⟨m, hl⟩ | hl
    · simp at hl
    · exact keep hl fun hp => absurd e hp
  | first n a b c' d => exact keep (by simp [List.filterMap_cons, receivedBy]) fun hp => by rw [d] at hp ⊢; exact ⟨rfl, hp⟩
  | armFirst a b c' d => exact keep (by simp [List.filterMap_cons, receivedBy]) fun hp => by rw [d] at hp ⊢; exact ⟨rfl, hp⟩
  | arm a b c' d => exact keep (by simp [List.filterMap_cons, receivedBy]) fun hp => by rw [d] at hp ⊢; exact ⟨rfl, hp⟩
  | dispatch n h m a b c' d e f g => exact keep (by simp [List.filterMap_cons, receivedBy]) fun hp => ⟨g, by rw [e]; simp⟩
  | call h m a b c' d e => exact keep (by simp [List.filterMap_cons, receivedBy]) fun hp => by rw [e] at hp ⊢; exact ⟨rfl, hp⟩
  | finish h m u b c' d e => exact keep (by simp [List.filterMap_cons, receivedBy]) fun hp => by rw [e] at hp ⊢; exact ⟨rfl, hp⟩

theorem recvInv_run {p : Int} {k : Nat} {c : RecvState} {s s' : State} {log0 log x : List Obs} {es : List Event} (hg : Good p s log0)
    (hi : RecvInv env key endErr k c s log) (h : s.run env key endErr auto es = .ok (s', x)) : RecvInv env key endErr k c s' (log ++ x) := by
  induction es generalizing s log0 log x with
  | nil => cases h; simpa using hi
  | cons e es ih =>
    obtain ⟨t, y, z, h1, h2, rfl⟩ := run_cons_inv h
    rw [← List.append_assoc]
    exact ih (good_step hg h1) (recvInv_shape (hg.fits k) hi (good_shape hg h1 k)) h2

/-- The same for a session that was closed: only what is in the buffer counts. -/
def ClosedInv (env : Env) (key : Option DecKey) (endErr : Err) (k : Nat) (b : Bytes) (s : State) (log : List Obs) : Prop :=
  ∃ b', receiveMany (entityCodec env) key endErr (log.filterMap (receivedBy k)).length ⟨b, []⟩ = ((log.filterMap (receivedBy k)).map .ok, ⟨b', []⟩) ∧
    ((s.sys.conns k).place ≠ .ended → b' = (s.sys.conns k).recv.buffer)

theorem closedInv_shape {k : Nat} {b : Bytes} {s s' : State} {log y : List Obs} (hf : Fits k s) (hc : placeOf s.server k ≠ none → isClosed s.server k = true)
    (hi : ClosedInv env key endErr k b s log) (h : Shape env key endErr k s s' y) : ClosedInv env key endErr k b s' (log ++ y) := by
  have keep (hy : y.filterMap (receivedBy k) = []) (hr : (s'.sys.conns k).place ≠ .ended → (s'.sys.conns k).recv = (s.sys.conns k).recv ∧
      (s.sys.conns k).place ≠ .ended) : ClosedInv env key endErr k b s' (log ++ y) := by
    obtain ⟨T, h1, h2⟩ := hi
    refine ⟨T, by rw [List.filterMap_append, hy, List.append_nil]; exact h1, fun hp => ?_⟩
    obtain ⟨g1, g2⟩ := hr hp
    rw [g1]
    exact h2 g2
  have hl := shape_received h
  cases h with
  | quiet hq hm hb hr hmid hend => exact keep (quiet_count hq).2.2.2.2 fun hp => ⟨hr, fun h => hp (hend.2 h)⟩
  | receive m a b' c' d e f =>
    obtain ⟨T, h1, h2⟩ := hi
    have hne : (s.sys.conns k).place ≠ .ended := by
      intro h
      have := hf.ended.1 h
      rw [a] at this
      cases this
    have g1 := h2 hne
    rw [if_pos (hc (by rw [a]; simp)), ← g1] at e
    have g2 : (s'.sys.conns k).recv = ⟨(s'.sys.conns k).recv.buffer, []⟩ := by
      obtain ⟨c, g3, -⟩ := receive_local e
      have : (s'.sys.conns k).recv.reads = [] := (List.append_eq_nil_iff.1 g3.symm).2
      rw [← this]
    refine ⟨(s'.sys.conns k).recv.buffer, ?_, fun _ => rfl⟩
    rw [List.filterMap_append]
    simp only [List.filterMap_cons, receivedBy, if_true, List.filterMap_nil, List.length_append, List.length_cons, List.length_nil]
    rw [System.receiveMany_snoc, h1, ← g2]
    simp [e]
  | leave o a b c' d e ho =>
    rcases hl with ⟨m, hl⟩ | hl
    · simp at hl
    · exact keep hl fun hp => absurd e hp
  | first n a b c' d => exact keep (by simp [List.filterMap_cons, receivedBy]) fun hp => by rw [d] at hp ⊢; exact ⟨rfl, hp⟩
  | armFirst a b c' d => exact keep (by simp [List.filterMap_cons, receivedBy]) fun hp => by rw [d] at hp ⊢; exact ⟨rfl, hp⟩
  | arm a b c' d => exact keep (by simp [List.filterMap_cons, receivedBy]) fun hp => by rw [d] at hp ⊢; exact ⟨rfl, hp⟩
  | dispatch n h m a b c' d e f g => exact keep (by simp [List.filterMap_cons, receivedBy]) fun hp => ⟨g, by rw [e]; simp⟩
  | call h m a b c' d e => exact keep (by simp [List.filterMap_cons, receivedBy]) fun hp => by rw [e] at hp ⊢; exact ⟨rfl, hp⟩
  | finish h m u b c' d e => exact keep (by simp [List.filterMap_cons, receivedBy]) fun hp => by rw [e] at hp ⊢; exact ⟨rfl, hp⟩

theorem closedInv_run {p : Int} {k : Nat} {b : Bytes} {s s' : State} {log0 log x : List Obs} {es : List Event} (hg : Good p s log0)
    (hc : .server (.closing k) ∈ log0) (hi : ClosedInv env key endErr k b s log) (h : s.run env key endErr auto es = .ok (s', x)) :
    ClosedInv env key endErr k b s' (log ++ x) := by
  induction es generalizing s log0 log x with
  | nil => cases h; simpa using hi
  | cons e es ih =>
    obtain ⟨t, y, z, h1, h2, rfl⟩ := run_cons_inv h
    rw [← List.append_assoc]
    exact ih (good_step hg h1) (List.mem_append_left _ hc)
      (closedInv_shape (hg.fits k) (fun _ => (hg.closed k).2 hc) hi (good_shape hg h1 k)) h2

end
end Verif.World
