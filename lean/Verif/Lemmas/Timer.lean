import Verif.Lemmas.Heap
/-! # The critical sections of the timer -/

namespace Verif.Timer

variable {K : Type} [DecidableEq K]

/-- What holds between any two critical sections. -/
structure Inv (t : Timer K) : Prop where
  ok : t.q.OK
  map : ∀ k e, t.mapper k = some e → e ∈ t.q.items ∧ e.key = k
  fresh : ∀ e ∈ t.q.items, e.id < t.next

theorem inv_new (s : Int) : Inv (Timer.new s : Timer K) := by
  refine ⟨⟨?_, ?_⟩, ?_, ?_⟩
  · intro i e h; simp [Timer.new] at h
  · intro k hk hkn; simp [Timer.new] at hkn
  · intro k e h; simp [Timer.new] at h
  · intro e h; simp [Timer.new] at h

theorem removeSection_spec (t : Timer K) (k : K) (h : Inv t) :
    ∃ t', t.removeSection k = .ok t' ∧ Inv t' ∧ t'.seconds = t.seconds ∧ t'.next = t.next ∧
      (∀ e, e ∈ t'.q.items ↔ e ∈ t.q.items ∧ t.mapper k ≠ some e) ∧ t'.mapper = unmap t.mapper k := by
  unfold removeSection
  cases hm : t.mapper k with
  | none =>
    refine ⟨t, rfl, h, rfl, rfl, fun e => by simp, ?_⟩
    funext x
    unfold unmap
    split
    · rename_i hx; rw [hx, hm]
    · rfl
  | some e =>
    obtain ⟨q', r1, r2, r3, r4⟩ := Queue.remove_spec t.q e h.ok (h.map k e hm).1
    simp only [r1, Res.ok_bind]
    refine ⟨_, rfl, ⟨r2, ?_, ?_⟩, rfl, rfl, ?_, rfl⟩
    · intro x e' hx
      simp only [unmap] at hx
      split at hx
      · simp at hx
      · rename_i hne
        have := h.map x e' hx
        refine ⟨(r3 e').2 ⟨this.1, ?_⟩, this.2⟩
        rintro rfl
        exact hne (this.2.symm.trans (h.map k e' hm).2)
    · intro x hx
      exact h.fresh x ((r3 x).1 hx).1
    · intro x
      simp only
      rw [r3 x]
      simp [eq_comm]

theorem pushSection_spec (t : Timer K) (k : K) (d : Int) (h : Inv t) :
    ∃ t', t.pushSection k d = .ok t' ∧ Inv t' ∧ t'.seconds = t.seconds ∧ t'.next = t.next + 1 ∧
      (∀ e, e ∈ t'.q.items ↔ e ∈ t.q.items ∨ e = ⟨t.next, k, d⟩) ∧
      t'.mapper = fun x => if x = k then some ⟨t.next, k, d⟩ else t.mapper x := by
  obtain ⟨q', r1, r2, r3, r4⟩ := Queue.heapPush_spec t.q ⟨t.next, k, d⟩ h.ok
    (fun e he => by have := h.fresh e he; simp only; omega)
  unfold pushSection
  simp only [r1, Res.ok_bind]
  refine ⟨_, rfl, ⟨r2, ?_, ?_⟩, rfl, rfl, r3, rfl⟩
  · intro x e hx
    simp only at hx
    split at hx
    · rename_i hxk
      obtain rfl := Option.some.inj hx
      exact ⟨(r3 _).2 (.inr rfl), hxk.symm⟩
    · exact ⟨(r3 _).2 (.inl (h.map x e hx).1), (h.map x e hx).2⟩
  · intro e he
    simp only
    rcases (r3 e).1 he with h' | h'
    · have := h.fresh e h'; omega
    · rw [h']; simp

theorem tickLoop_spec (now : Int) (fuel : Nat) (t : Timer K) (ks : List K) (h : Inv t) (hf : t.q.items.length < fuel) :
    ∃ (t' : Timer K) (fired : List (Entry K)), tickLoop now fuel t ks = .ok (t', ks ++ fired.map Entry.key) ∧ Inv t' ∧ t'.seconds = t.seconds ∧ t'.next = t.next ∧
      fired.Nodup ∧ fired.Pairwise (fun a b => a.expire ≤ b.expire) ∧
      (∀ e, e ∈ fired ↔ e ∈ t.q.items ∧ e.expire ≤ now) ∧ (∀ e, e ∈ t'.q.items ↔ e ∈ t.q.items ∧ now < e.expire) ∧
      (∀ k, t'.mapper k = if k ∈ fired.map Entry.key then none else t.mapper k) := by
  induction fuel generalizing t ks with
  | zero => omega
  | succ fuel ih =>
    unfold tickLoop
    cases hh : t.q.items.head? with
    | none =>
      have hnil : t.q.items = [] := by simpa using hh
      exact ⟨t, [], by simp, h, rfl, rfl, .nil, .nil, by simp [hnil], by simp [hnil], by simp⟩
    | some top =>
      simp only
      by_cases hx : top.expire > now
      · rw [if_pos hx]
        have hall : ∀ e ∈ t.q.items, now < e.expire := fun e he => by
          have := Queue.top_min t.q h.ok top hh e he; omega
        refine ⟨t, [], by simp, h, rfl, rfl, .nil, .nil, ?_, ?_, by simp⟩
        · intro e
          simp only [List.not_mem_nil, false_iff]
          rintro ⟨h1, h2⟩
          have := hall e h1; omega
        · intro e
          exact ⟨fun he => ⟨he, hall e he⟩, fun he => he.1⟩
      · rw [if_neg hx]
        have htop : top ∈ t.q.items := List.mem_of_mem_head? hh
        obtain ⟨q', r1, r2, r3, r4⟩ := Queue.remove_spec t.q top h.ok htop
        simp only [r1, Res.ok_bind]
        have hinv : Inv { t with q := q', mapper := unmap t.mapper top.key } := by
          refine ⟨r2, ?_, fun e he => h.fresh e ((r3 e).1 he).1⟩
          intro x e' hx'
          simp only [unmap] at hx'
          split at hx'
          · simp at hx'
          · rename_i hne
            have := h.map x e' hx'
            refine ⟨(r3 e').2 ⟨this.1, ?_⟩, this.2⟩
            rintro rfl
            exact hne this.2.symm
        obtain ⟨t', fired, u1, u2, u3, u4, u5, u6, u7, u8, u9⟩ := ih { t with q := q', mapper := unmap t.mapper top.key } (ks ++ [top.key]) hinv
          (by simp only; omega)
        refine ⟨t', top :: fired, ?_, u2, u3, u4, ?_, ?_, ?_, ?_, ?_⟩
        · rw [u1]; simp
        · rw [List.nodup_cons]
          refine ⟨?_, u5⟩
          intro hm
          exact ((r3 top).1 ((u7 top).1 hm).1).2 rfl
        · rw [List.pairwise_cons]
          refine ⟨?_, u6⟩
          intro e he
          exact Queue.top_min t.q h.ok top hh e ((r3 e).1 ((u7 e).1 he).1).1
        · intro e
          rw [List.mem_cons, u7 e]
          simp only
          rw [r3 e]
          constructor
          · rintro (rfl | h')
            · exact ⟨htop, by omega⟩
            · exact ⟨h'.1.1, h'.2⟩
          · rintro ⟨h1, h2⟩
            by_cases he : e = top
            · exact .inl he
            · exact .inr ⟨⟨h1, he⟩, h2⟩
        · intro e
          rw [u8 e]
          simp only
          rw [r3 e]
          constructor
          · rintro ⟨⟨h1, h2⟩, h3⟩; exact ⟨h1, h3⟩
          · rintro ⟨h1, h2⟩
            refine ⟨⟨h1, ?_⟩, h2⟩
            rintro rfl; omega
        · intro k
          rw [u9 k]
          simp only [unmap, List.map_cons, List.mem_cons]
          by_cases h1 : k ∈ fired.map Entry.key
          · simp [h1]
          · simp [h1]

theorem tick_spec (now : Int) (t : Timer K) (h : Inv t) :
    ∃ (t' : Timer K) (fired : List (Entry K)), t.tick now = .ok (t', fired.map Entry.key) ∧ Inv t' ∧ t'.seconds = t.seconds ∧ t'.next = t.next ∧
      fired.Nodup ∧ fired.Pairwise (fun a b => a.expire ≤ b.expire) ∧
      (∀ e, e ∈ fired ↔ e ∈ t.q.items ∧ e.expire ≤ now) ∧ (∀ e, e ∈ t'.q.items ↔ e ∈ t.q.items ∧ now < e.expire) ∧
      (∀ k, t'.mapper k = if k ∈ fired.map Entry.key then none else t.mapper k) := by
  have := tickLoop_spec now (t.q.items.length + 1) t [] h (by omega)
  simpa [tick] using this

end Verif.Timer
