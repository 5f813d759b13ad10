import Verif.Model.Timer
/-! # The heap operations of the timer queue -/

namespace Verif.Queue

variable {K : Type}

/-- Deadline at a position. -/
def ex (q : Queue K) (i : Nat) : Int := ((q.items[i]?).map (·.expire)).getD 0

/-- Every element knows its position. -/
def Idx (q : Queue K) : Prop := ∀ (i : Nat) (e : Entry K), q.items[i]? = some e → q.index e.id = (i : Int)

/-- The first `n` positions form a heap. -/
def HeapTo (q : Queue K) (n : Nat) : Prop := ∀ k, 0 < k → k < n → ex q ((k - 1) / 2) ≤ ex q k

/-- `q'` results from `q` by moving elements among the first `n` positions. -/
structure Moved (n : Nat) (q q' : Queue K) : Prop where
  length : q'.items.length = q.items.length
  idx : Idx q'
  mem : ∀ e, e ∈ q'.items ↔ e ∈ q.items
  above : ∀ k, n ≤ k → q'.items[k]? = q.items[k]?

theorem Moved.refl {n : Nat} {q : Queue K} (h : Idx q) : Moved n q q := ⟨rfl, h, fun _ => Iff.rfl, fun _ _ => rfl⟩

theorem Moved.trans {n : Nat} {a b c : Queue K} (h1 : Moved n a b) (h2 : Moved n b c) : Moved n a c :=
  ⟨h2.length.trans h1.length, h2.idx, fun e => (h2.mem e).trans (h1.mem e), fun k hk => (h2.above k hk).trans (h1.above k hk)⟩

theorem Moved.mono {n m : Nat} {a b : Queue K} (h : Moved n a b) (hm : n ≤ m) : Moved m a b :=
  ⟨h.length, h.idx, h.mem, fun k hk => h.above k (by omega)⟩

/-- Exchange of two positions. -/
def tr (i j k : Nat) : Nat := if k = i then j else if k = j then i else k

theorem swap_spec (q : Queue K) (i j : Nat) (hi : i < q.items.length) (hj : j < q.items.length) (hq : Idx q) :
    ∃ q', swap q i j = .ok q' ∧ q'.items.length = q.items.length ∧ Idx q' ∧ (∀ k, q'.items[k]? = q.items[tr i j k]?) ∧
      (∀ e, e ∈ q'.items ↔ e ∈ q.items) := by
  have hx : q.items[i]? = some q.items[i] := List.getElem?_eq_getElem hi
  have hy : q.items[j]? = some q.items[j] := List.getElem?_eq_getElem hj
  have hget : ∀ k, ((q.items.set i q.items[j]).set j q.items[i])[k]? = q.items[tr i j k]? := by
    intro k
    rw [List.getElem?_set, List.getElem?_set]
    unfold tr
    by_cases h1 : j = k
    · subst h1
      simp only [List.length_set, hj, if_true, if_pos rfl]
      by_cases h2 : j = i
      · subst h2; simp only [if_true, hx]
      · rw [if_neg h2, hx]
    · rw [if_neg h1]
      by_cases h2 : i = k
      · subst h2; simp only [if_true, hi, hy]
      · rw [if_neg h2, if_neg (Ne.symm h2), if_neg (Ne.symm h1)]
  refine ⟨_, by unfold swap; rw [hx, hy], by simp, ?_, hget, ?_⟩
  · intro k e hk
    simp only at hk ⊢
    rw [hget] at hk
    have hidx := hq _ _ hk
    have h1 := hq i _ hx
    have h2 := hq j _ hy
    unfold setIndex
    unfold tr at hk hidx
    by_cases hki : k = i
    · rw [if_pos hki] at hk hidx
      rw [hy] at hk
      obtain rfl := Option.some.inj hk
      split
      · rename_i he
        rw [he, h1] at hidx
        have : i = j := by omega
        omega
      · rw [if_pos rfl]; omega
    · rw [if_neg hki] at hk hidx
      by_cases hkj : k = j
      · rw [if_pos hkj] at hk hidx
        rw [hx] at hk
        obtain rfl := Option.some.inj hk
        rw [if_pos rfl]; omega
      · rw [if_neg hkj] at hk hidx
        rw [if_neg, if_neg, hidx]
        · intro he; rw [he, h2] at hidx; omega
        · intro he; rw [he, h1] at hidx; omega
  · intro e
    simp only [List.mem_iff_getElem?]
    constructor
    · rintro ⟨k, hk⟩
      rw [hget] at hk
      exact ⟨_, hk⟩
    · rintro ⟨k, hk⟩
      refine ⟨tr i j k, ?_⟩
      rw [hget]
      have : tr i j (tr i j k) = k := by unfold tr; split <;> split <;> (try split) <;> omega
      rw [this]
      exact hk

theorem less_spec (q : Queue K) (i j : Nat) (hi : i < q.items.length) (hj : j < q.items.length) :
    less q i j = .ok (decide (ex q i < ex q j)) := by
  unfold less ex
  rw [List.getElem?_eq_getElem hi, List.getElem?_eq_getElem hj]
  rfl

theorem ex_of (q q' : Queue K) (k k' : Nat) (h : q'.items[k]? = q.items[k']?) : ex q' k = ex q k' := by unfold ex; rw [h]

/-- The state of `up`: the heap order can only be broken between `j` and its parent. -/
structure UpOK (q : Queue K) (n j : Nat) : Prop where
  edges : ∀ k, 0 < k → k < n → k ≠ j → ex q ((k - 1) / 2) ≤ ex q k
  grand : ∀ k, 0 < k → k < n → (k - 1) / 2 = j → 0 < j → ex q ((j - 1) / 2) ≤ ex q k

theorem up_spec (n : Nat) (fuel : Nat) (q : Queue K) (j : Nat) (hq : Idx q) (hj : j < n) (hn : n ≤ q.items.length) (hf : j < fuel) (h : UpOK q n j) :
    ∃ q', up fuel q j = .ok q' ∧ Moved n q q' ∧ HeapTo q' n := by
  induction fuel generalizing q j with
  | zero => omega
  | succ fuel ih =>
    unfold up
    simp only
    by_cases h0 : (j - 1) / 2 = j
    · rw [if_pos h0]
      refine ⟨q, rfl, .refl hq, ?_⟩
      intro k hk hkn
      exact h.edges k hk hkn (by omega)
    · rw [if_neg h0, less_spec q j _ (by omega) (by omega)]
      simp only [Res.ok_bind]
      by_cases hl : ex q j < ex q ((j - 1) / 2)
      · simp only [hl, decide_true, Bool.not_true, Bool.false_eq_true, if_false]
        obtain ⟨q1, e1, e2, e3, e4, e5⟩ := swap_spec q ((j - 1) / 2) j (by omega) (by omega) hq
        rw [e1]
        simp only [Res.ok_bind]
        have hmv : Moved n q q1 := ⟨e2, e3, e5, fun k hk => by rw [e4]; unfold tr; rw [if_neg (by omega), if_neg (by omega)]⟩
        have hex : ∀ k, ex q1 k = ex q (tr ((j - 1) / 2) j k) := fun k => ex_of _ _ _ _ (e4 k)
        have hU : UpOK q1 n ((j - 1) / 2) := by
          constructor
          · intro k hk hkn hne
            rw [hex, hex]
            by_cases hkj : k = j
            · subst hkj
              unfold tr
              rw [if_pos rfl, if_neg (Ne.symm h0), if_pos rfl]
              omega
            · have ek : tr ((j - 1) / 2) j k = k := by unfold tr; rw [if_neg hne, if_neg hkj]
              rw [ek]
              by_cases hp : (k - 1) / 2 = (j - 1) / 2
              · rw [hp]
                have : tr ((j - 1) / 2) j ((j - 1) / 2) = j := by unfold tr; rw [if_pos rfl]
                rw [this]
                have := h.edges k hk hkn hkj
                rw [hp] at this
                omega
              · by_cases hp2 : (k - 1) / 2 = j
                · rw [hp2]
                  have : tr ((j - 1) / 2) j j = (j - 1) / 2 := by unfold tr; rw [if_neg (Ne.symm h0), if_pos rfl]
                  rw [this]
                  exact h.grand k hk hkn hp2 (by omega)
                · have : tr ((j - 1) / 2) j ((k - 1) / 2) = (k - 1) / 2 := by unfold tr; rw [if_neg hp, if_neg hp2]
                  rw [this]
                  exact h.edges k hk hkn hkj
          · intro k hk hkn hp hpos
            rw [hex, hex]
            have e1' : tr ((j - 1) / 2) j (((j - 1) / 2 - 1) / 2) = ((j - 1) / 2 - 1) / 2 := by
              unfold tr; rw [if_neg (by omega), if_neg (by omega)]
            rw [e1']
            have hup := h.edges ((j - 1) / 2) hpos (by omega) h0
            by_cases hkj : k = j
            · subst hkj
              have : tr ((k - 1) / 2) k k = (k - 1) / 2 := by unfold tr; rw [if_neg (Ne.symm h0), if_pos rfl]
              rw [this]
              exact hup
            · have : tr ((j - 1) / 2) j k = k := by unfold tr; rw [if_neg (by omega), if_neg hkj]
              rw [this]
              have := h.edges k hk hkn hkj
              rw [hp] at this
              omega
        obtain ⟨q', u1, u2, u3⟩ := ih q1 ((j - 1) / 2) e3 (by omega) (by omega) (by omega) hU
        exact ⟨q', u1, hmv.trans u2, u3⟩
      · simp only [hl, decide_false, Bool.not_false, if_true]
        refine ⟨q, rfl, .refl hq, ?_⟩
        intro k hk hkn
        by_cases hkj : k = j
        · subst hkj; omega
        · exact h.edges k hk hkn hkj

/-- The state of `down`: the heap order can only be broken around `i`. -/
structure DownOK (q : Queue K) (n i : Nat) : Prop where
  edges : ∀ k, 0 < k → k < n → k ≠ i → (k - 1) / 2 ≠ i → ex q ((k - 1) / 2) ≤ ex q k
  grand : ∀ k, 0 < k → k < n → (k - 1) / 2 = i → 0 < i → ex q ((i - 1) / 2) ≤ ex q k

theorem smallerChild_spec (q : Queue K) (i n : Nat) (hn : n ≤ q.items.length) (h : 2 * i + 1 < n) :
    ∃ j, smallerChild q (2 * i + 1) n = .ok j ∧ j < n ∧ (j - 1) / 2 = i ∧ 0 < j ∧
      ∀ k, 0 < k → k < n → (k - 1) / 2 = i → ex q j ≤ ex q k := by
  unfold smallerChild
  by_cases h2 : 2 * i + 1 + 1 < n
  · rw [if_pos h2, less_spec q _ _ (by omega) (by omega)]
    simp only [Res.ok_bind]
    by_cases hl : ex q (2 * i + 1 + 1) < ex q (2 * i + 1)
    · refine ⟨2 * i + 1 + 1, by simp [hl], h2, by omega, by omega, ?_⟩
      intro k hk hkn hp
      have : k = 2 * i + 1 ∨ k = 2 * i + 1 + 1 := by omega
      rcases this with rfl | rfl <;> omega
    · refine ⟨2 * i + 1, by simp [hl], h, by omega, by omega, ?_⟩
      intro k hk hkn hp
      have : k = 2 * i + 1 ∨ k = 2 * i + 1 + 1 := by omega
      rcases this with rfl | rfl <;> omega
  · rw [if_neg h2]
    refine ⟨2 * i + 1, rfl, h, by omega, by omega, ?_⟩
    intro k hk hkn hp
    have : k = 2 * i + 1 := by omega
    subst this; omega

theorem downLoop_spec (n : Nat) (fuel : Nat) (q : Queue K) (i : Nat) (hq : Idx q) (hi : i < n) (hn : n ≤ q.items.length) (hf : n ≤ i + fuel)
    (h : DownOK q n i) :
    ∃ q' i', downLoop fuel q i n = .ok (q', i') ∧ Moved n q q' ∧ i ≤ i' ∧
      ((i < i' ∨ 0 < i → ex q ((i - 1) / 2) ≤ ex q i ∨ i < i') → HeapTo q' n) ∧
      (i' = i → q' = q ∧ ∀ k, 0 < k → k < n → (k - 1) / 2 = i → ex q i ≤ ex q k) := by
  induction fuel generalizing q i with
  | zero => omega
  | succ fuel ih =>
    unfold downLoop
    simp only
    by_cases h1 : 2 * i + 1 ≥ n
    · rw [if_pos h1]
      refine ⟨q, i, rfl, .refl hq, Nat.le_refl _, ?_, fun _ => ⟨rfl, fun k hk hkn hp => by omega⟩⟩
      intro hor k hk hkn
      by_cases hki : k = i
      · subst hki; rcases hor (.inr hk) with h | h <;> omega
      · exact h.edges k hk hkn hki (by omega)
    · rw [if_neg h1]
      obtain ⟨j, j1, j2, j3, j4, j5⟩ := smallerChild_spec q i n hn (by omega)
      rw [j1]
      simp only [Res.ok_bind]
      rw [less_spec q j i (by omega) (by omega)]
      simp only [Res.ok_bind]
      by_cases hl : ex q j < ex q i
      · simp only [hl, decide_true, Bool.not_true, Bool.false_eq_true, if_false]
        obtain ⟨q1, e1, e2, e3, e4, e5⟩ := swap_spec q i j (by omega) (by omega) hq
        rw [e1]
        simp only [Res.ok_bind]
        have hij : i < j := by omega
        have hmv : Moved n q q1 := ⟨e2, e3, e5, fun k hk => by rw [e4]; unfold tr; rw [if_neg (by omega), if_neg (by omega)]⟩
        have hex : ∀ k, ex q1 k = ex q (tr i j k) := fun k => ex_of _ _ _ _ (e4 k)
        have ti : tr i j i = j := by unfold tr; rw [if_pos rfl]
        have tj : tr i j j = i := by unfold tr; rw [if_neg (by omega), if_pos rfl]
        have to : ∀ k, k ≠ i → k ≠ j → tr i j k = k := by intro k a b; unfold tr; rw [if_neg a, if_neg b]
        have hD : DownOK q1 n j := by
          constructor
          · intro k hk hkn hkj hpj
            rw [hex, hex]
            by_cases hki : k = i
            · subst hki
              rw [ti, to _ (by omega) (by omega)]
              exact h.grand j j4 j2 j3 hk
            · rw [to k hki hkj]
              by_cases hpi : (k - 1) / 2 = i
              · rw [hpi, ti]
                exact j5 k hk hkn hpi
              · rw [to _ hpi hpj]
                exact h.edges k hk hkn hki hpi
          · intro k hk hkn hp hpos
            rw [hex, hex, j3, ti, to k (by omega) (by omega)]
            have := h.edges k hk hkn (by omega) (by omega)
            rw [hp] at this
            exact this
        obtain ⟨q', i', u1, u2, u3, u4, u5⟩ := ih q1 j e3 (by omega) (by omega) (by omega) hD
        · refine ⟨q', i', u1, hmv.trans u2, by omega, ?_, fun hi' => by omega⟩
          intro _
          apply u4
          intro _
          left
          rw [hex, hex, j3, ti, tj]
          omega
      · simp only [hl, decide_false, Bool.not_false, if_true]
        have hch : ∀ k, 0 < k → k < n → (k - 1) / 2 = i → ex q i ≤ ex q k := fun k hk hkn hp => by
          have := j5 k hk hkn hp; omega
        refine ⟨q, i, rfl, .refl hq, Nat.le_refl _, ?_, fun _ => ⟨rfl, hch⟩⟩
        intro hor k hk hkn
        by_cases hki : k = i
        · subst hki; rcases hor (.inr hk) with h | h <;> omega
        · by_cases hp : (k - 1) / 2 = i
          · rw [hp]; exact hch k hk hkn hp
          · exact h.edges k hk hkn hki hp

/-- A queue in order. -/
structure OK (q : Queue K) : Prop where
  idx : Idx q
  heap : HeapTo q q.items.length

theorem heapPush_spec (q : Queue K) (x : Entry K) (hq : OK q) (hx : ∀ e ∈ q.items, e.id ≠ x.id) :
    ∃ q', heapPush q x = .ok q' ∧ OK q' ∧ (∀ e, e ∈ q'.items ↔ e ∈ q.items ∨ e = x) ∧ q'.items.length = q.items.length + 1 := by
  unfold heapPush
  simp only
  have hidx : Idx (push q x) := by
    intro i e hi
    unfold push at hi ⊢
    simp only at hi ⊢
    unfold setIndex
    rw [List.getElem?_append] at hi
    split at hi
    · have hm := List.mem_of_getElem? hi
      rw [if_neg (hx e hm)]
      exact hq.idx i e hi
    · rename_i hge
      have hlen : i - q.items.length < [x].length := by
        by_cases hc : i - q.items.length < [x].length
        · exact hc
        · rw [List.getElem?_eq_none (by omega)] at hi; simp at hi
      simp at hlen
      have : i = q.items.length := by omega
      subst this
      simp at hi
      subst hi
      rw [if_pos rfl]
  have hlen : (push q x).items.length = q.items.length + 1 := by simp [push]
  have hold : ∀ k, k < q.items.length → ex (push q x) k = ex q k := by
    intro k hk
    unfold ex push
    simp only
    rw [List.getElem?_append_left hk]
  obtain ⟨q', u1, u2, u3⟩ := up_spec (push q x).items.length (push q x).items.length (push q x) ((push q x).items.length - 1) hidx
    (by omega) (Nat.le_refl _) (by omega) (by
      rw [hlen]
      constructor
      · intro k hk hkn hne
        rw [hold k (by omega), hold _ (by omega)]
        exact hq.heap k hk (by omega)
      · intro k hk hkn hp hpos; omega)
  refine ⟨q', u1, ⟨u2.idx, by rw [u2.length]; exact u3⟩, ?_, by rw [u2.length, hlen]⟩
  intro e
  rw [u2.mem]
  simp [push]

theorem idx_inj {q : Queue K} (hq : Idx q) {i j : Nat} {e e' : Entry K} (h1 : q.items[i]? = some e) (h2 : q.items[j]? = some e')
    (he : e.id = e'.id) : i = j ∧ e = e' := by
  have a := hq _ _ h1
  have b := hq _ _ h2
  rw [he, b] at a
  have : i = j := by omega
  subst this
  rw [h1] at h2
  exact ⟨rfl, Option.some.inj h2⟩

theorem sift_spec (q : Queue K) (i : Nat) (hq : OK q) (hi : i < q.items.length) :
    ∃ q', sift q i (q.items.length - 1) = .ok q' ∧ Idx q' ∧ q'.items.length = q.items.length ∧
      (∀ e, e ∈ q'.items ↔ e ∈ q.items) ∧ HeapTo q' (q.items.length - 1) ∧ q'.items[q.items.length - 1]? = q.items[i]? := by
  unfold sift
  by_cases h0 : q.items.length - 1 = i
  · rw [if_pos h0]
    exact ⟨q, rfl, hq.idx, rfl, fun _ => Iff.rfl, fun k hk hkn => hq.heap k hk (by omega), by rw [h0]⟩
  · rw [if_neg h0]
    generalize hn : q.items.length - 1 = n at *
    obtain ⟨q1, e1, e2, e3, e4, e5⟩ := swap_spec q i n hi (by omega) hq.idx
    rw [e1]
    simp only [Res.ok_bind]
    have hex : ∀ k, ex q1 k = ex q (tr i n k) := fun k => ex_of _ _ _ _ (e4 k)
    have to : ∀ k, k ≠ i → k < n → tr i n k = k := by intro k a b; unfold tr; rw [if_neg a, if_neg (by omega)]
    have hd : DownOK q1 n i := by
      constructor
      · intro k hk hkn hki hpi
        rw [hex, hex, to k hki hkn, to _ hpi (by omega)]
        exact hq.heap k hk (by omega)
      · intro k hk hkn hp hpos
        rw [hex, hex, to k (by omega) hkn, to _ (by omega) (by omega)]
        have a := hq.heap k hk (by omega)
        have b := hq.heap i hpos (by omega)
        rw [hp] at a
        omega
    have hlast : q1.items[n]? = q.items[i]? := by
      rw [e4]; unfold tr; rw [if_neg h0, if_pos rfl]
    obtain ⟨q2, i', d1, d2, d3, d4, d5⟩ := downLoop_spec n n q1 i e3 (by omega) (by omega) (by omega) hd
    unfold down
    rw [d1]
    simp only [Res.ok_bind]
    by_cases hm : i' > i
    · simp only [hm, decide_true, if_true]
      exact ⟨q2, rfl, d2.idx, by rw [d2.length, e2], fun e => (d2.mem e).trans (e5 e), d4 fun _ => .inr hm,
        by rw [d2.above n (Nat.le_refl _), hlast]⟩
    · simp only [hm, decide_false, Bool.false_eq_true, if_false]
      obtain ⟨rfl, hch⟩ := d5 (by omega)
      obtain ⟨q3, u1, u2, u3⟩ := up_spec n (i + 1) q2 i e3 (by omega) (by omega) (by omega) (by
        constructor
        · intro k hk hkn hki
          by_cases hp : (k - 1) / 2 = i
          · rw [hp]; exact hch k hk hkn hp
          · exact hd.edges k hk hkn hki hp
        · exact hd.grand)
      exact ⟨q3, u1, u2.idx, by rw [u2.length, e2], fun e => (u2.mem e).trans (e5 e), u3,
        by rw [u2.above n (Nat.le_refl _), hlast]⟩

theorem remove_spec (q : Queue K) (e : Entry K) (hq : OK q) (he : e ∈ q.items) :
    ∃ q', remove q e = .ok q' ∧ OK q' ∧ (∀ x, x ∈ q'.items ↔ x ∈ q.items ∧ x ≠ e) ∧ q'.items.length + 1 = q.items.length := by
  obtain ⟨i, hi⟩ := List.mem_iff_getElem?.1 he
  have hlt : i < q.items.length := (List.getElem?_eq_some_iff.1 hi).1
  have hidx := hq.idx i e hi
  obtain ⟨q1, s1, s2, s3, s4, s5, s6⟩ := sift_spec q i hq hlt
  have hlast : q1.items.getLast? = some e := by
    rw [List.getLast?_eq_getElem?, s3, s6, hi]
  have hsplit : q1.items = q1.items.dropLast ++ [e] := by
    obtain ⟨ys, hys⟩ := List.getLast?_eq_some_iff.1 hlast
    rw [hys]; simp
  have hlen := congrArg List.length hsplit
  simp only [List.length_append, List.length_cons, List.length_nil] at hlen
  have hget : ∀ k, k < q1.items.dropLast.length → q1.items.dropLast[k]? = q1.items[k]? := by
    intro k hk
    conv => rhs; rw [hsplit]
    rw [List.getElem?_append_left hk]
  refine ⟨{ items := q1.items.dropLast, index := setIndex q1.index e.id (-1) }, ?_, ⟨?_, ?_⟩, ?_, ?_⟩
  · unfold remove heapRemove
    rw [hidx, if_neg (by omega), show ((i : Int)).toNat = i by omega, s1]
    simp only [Res.ok_bind, pop, hlast]
  · intro k x hk
    simp only at hk ⊢
    have hkl : k < q1.items.dropLast.length := (List.getElem?_eq_some_iff.1 hk).1
    rw [hget k hkl] at hk
    unfold setIndex
    rw [if_neg]
    · exact s2 k x hk
    · intro hid
      have hn : q1.items[q.items.length - 1]? = some e := by rw [s6, hi]
      have := (idx_inj s2 hk hn hid).1
      omega
  · intro k hk hkn
    simp only at hkn
    have h1 : ex { items := q1.items.dropLast, index := setIndex q1.index e.id (-1) } k = ex q1 k := ex_of _ _ _ _ (hget k hkn)
    have h2 : ex { items := q1.items.dropLast, index := setIndex q1.index e.id (-1) } ((k - 1) / 2) = ex q1 ((k - 1) / 2) :=
      ex_of _ _ _ _ (hget _ (by omega))
    rw [h1, h2]
    exact s5 k hk (by omega)
  · intro x
    simp only
    rw [← s4 x]
    constructor
    · intro hx
      obtain ⟨k, hk⟩ := List.mem_iff_getElem?.1 hx
      have hkl : k < q1.items.dropLast.length := (List.getElem?_eq_some_iff.1 hk).1
      rw [hget k hkl] at hk
      refine ⟨List.mem_of_getElem? hk, ?_⟩
      rintro rfl
      have hn : q1.items[q.items.length - 1]? = some x := by rw [s6, hi]
      have := (idx_inj s2 hk hn rfl).1
      omega
    · rintro ⟨hx, hne⟩
      rw [hsplit] at hx
      rcases List.mem_append.1 hx with h | h
      · exact h
      · exact absurd (by simpa using h) hne
  · simp only; omega

/-- The first element has the smallest deadline. -/
theorem top_min (q : Queue K) (hq : OK q) (top : Entry K) (ht : q.items.head? = some top) (e : Entry K) (he : e ∈ q.items) :
    top.expire ≤ e.expire := by
  have h0 : ex q 0 = top.expire := by
    unfold ex; rw [← List.head?_eq_getElem?, ht]; rfl
  have main : ∀ k, k < q.items.length → ex q 0 ≤ ex q k := by
    intro k
    induction k using Nat.strongRecOn with
    | _ k ih =>
      intro hk
      by_cases hz : k = 0
      · subst hz; omega
      · have := hq.heap k (by omega) hk
        have := ih ((k - 1) / 2) (by omega) (by omega)
        omega
  obtain ⟨k, hk⟩ := List.mem_iff_getElem?.1 he
  have := main k (List.getElem?_eq_some_iff.1 hk).1
  have hek : ex q k = e.expire := by unfold ex; rw [hk]; rfl
  omega

end Verif.Queue
