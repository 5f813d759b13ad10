import Verif.Lemmas.Handler
/-! # Lemmas for C33: when a message restarts the keepalive period -/

namespace Verif.Handler
open Spec

/-- What is offered to the handlers while a message is handled has the header of the message; a message without body is not offered, and one that is not a part is. -/
theorem process_offered (auto : Bool) (s : Loop) (a : Around) (m : Message Entity) (hm : Delivered m) {s' : Loop} {x : List Act}
    (h : s.process auto a m = .ok (s', x)) : Tr s x s' ∧ (∀ m' ∈ offered x, m'.header = m.header) ∧ (hasBody m = false → offered x = []) ∧
      (hasBody m = true → isPart auto m = false → offered x = [m]) := by
  have hdeliver : ∀ e, m.body = .val e → s.deliver a m = .ok (s', x) → Tr s x s' ∧ offered x = [m] := by
    intro e hb h
    obtain ⟨s1, x1, h1, h2, -, h4, -⟩ := deliver_spec s a m e hb (hm.type e hb)
    rw [h] at h1
    cases h1
    exact ⟨h2, h4⟩
  have done : ∀ e, m.body = .val e → s.deliver a m = .ok (s', x) → Tr s x s' ∧ (∀ m' ∈ offered x, m'.header = m.header) ∧
      (hasBody m = false → offered x = []) ∧ (hasBody m = true → isPart auto m = false → offered x = [m]) := by
    intro e hb h
    obtain ⟨h1, h2⟩ := hdeliver e hb h
    have hbody : hasBody m = true := by unfold hasBody; rw [hb]
    rw [h2, hbody]
    exact ⟨h1, by simp, by simp, fun _ _ => rfl⟩
  have nothing : (∀ e, m.body ≠ .val e) → Loop.process auto s a m = .ok (s, [.reply m.header.serial m.header.msgID 3]) ∧ hasBody m = false := by
    intro hb
    unfold Loop.process hasBody
    cases hx : m.body with
    | val e => exact absurd hx (hb e)
    | nil => exact ⟨rfl, rfl⟩
    | nilPtr i => exact ⟨rfl, rfl⟩
  by_cases hb : ∀ e, m.body ≠ .val e
  · obtain ⟨h1, h2⟩ := nothing hb
    rw [h1] at h
    cases h
    rw [h2]
    exact ⟨.reply _ _ _ 3, by simp [offered], fun _ => rfl, by simp⟩
  · obtain ⟨e, hb⟩ : ∃ e, m.body = .val e := by
      cases hx : m.body with
      | val e => exact ⟨e, rfl⟩
      | nil => exact absurd (by rw [hx]; simp) hb
      | nilPtr i => exact absurd (by rw [hx]; simp) hb
    unfold Loop.process at h
    rw [hb] at h
    simp only at h
    by_cases hc : (!auto || !Property.isEnablePacket m.header.property) = true
    · rw [if_pos hc] at h
      exact done e hb h
    · rw [if_neg hc] at h
      have hpart : ∀ b, m.body = .val (.m0801 b) → isPart auto m = true := by
        intro b hb
        unfold isPart
        rw [← Property.isEnablePacket_spec, hb]
        simpa using hc
      split at h
      · rename_i b
        have hpm := hpart b hb
        split at h
        · rename_i p data hp hdata
          obtain ⟨s1, x1, h1, h2, -, -, h5, -⟩ := part_spec s a m b p data (hm.type _ hb).symm
          rw [h] at h1
          cases h1
          have hbody : hasBody m = true := by unfold hasBody; rw [hb]
          rw [hpm, hbody]
          refine ⟨h2, ?_, by simp, by simp⟩
          intro m' hm'
          obtain ⟨c, rfl⟩ := h5 m' hm'
          rfl
        · cases h
      · exact done e hb h

/-- In a log with restarts exactly before the calls of handlers. -/
theorem paired_touch {x : List Act} (h : Paired x) : Act.touch ∈ x ↔ ∃ k m, Act.handle k m ∈ x := by
  induction h with
  | nil => simp
  | pair k m _ ih => exact ⟨fun _ => ⟨k, m, by simp⟩, fun _ => by simp⟩
  | other a ht hh _ ih =>
    rw [List.mem_cons, ih]
    constructor
    · rintro (h | ⟨k, m, h⟩)
      · exact absurd h.symm ht
      · exact ⟨k, m, List.mem_cons_of_mem _ h⟩
    · rintro ⟨k, m, h⟩
      rcases List.mem_cons.1 h with h | h
      · exact absurd h.symm (hh k m)
      · exact .inr ⟨k, m, h⟩

/-- Without registrations for the id the last one stays the same. -/
theorem lastRegistered_same (id : UInt16) (pre l : List Act) (h : ∀ k, Act.registered id k ∉ l) : lastRegistered id (pre ++ l) = lastRegistered id pre := by
  rw [lastRegistered_append]
  generalize lastRegistered id pre = o
  induction l generalizing o with
  | nil => rfl
  | cons a l ih =>
    rw [List.foldl_cons, ih fun k hk => h k (List.mem_cons_of_mem _ hk)]
    cases a with
    | registered id' k =>
      have : id' ≠ id := fun he => h k (by rw [he]; simp)
      simp [this]
    | _ => rfl

/-- When handling a message restarts the period. -/
theorem process_touch (auto : Bool) (s : Loop) (a : Around) (m : Message Entity) (hm : Delivered m) (pre : List Act)
    (hs : ∀ id, s.handlers id = lastRegistered id pre) {s' : Loop} {x : List Act} (h : s.process auto a m = .ok (s', x))
    (hq : ∀ k, Act.registered m.header.msgID k ∉ x) :
    Act.touch ∈ x ↔ (lastRegistered m.header.msgID pre).isSome ∧ hasBody m = true ∧ (isPart auto m = true → offered x ≠ []) := by
  obtain ⟨ht, h1, h2, h3⟩ := process_offered auto s a m hm h
  rw [paired_touch (tr_paired ht)]
  have before : ∀ l1 b l2, x = l1 ++ b :: l2 → lastRegistered m.header.msgID (pre ++ l1) = lastRegistered m.header.msgID pre := by
    intro l1 b l2 hx
    exact lastRegistered_same _ _ _ fun k hk => hq k (by rw [hx]; simp [hk])
  constructor
  · rintro ⟨k, m', hk⟩
    have hoff : m' ∈ offered x := List.mem_filterMap.2 ⟨_, hk, rfl⟩
    obtain ⟨l1, l2, hx⟩ := List.append_of_mem hk
    have := (tr_handled ht pre hs l1 l2 _ hx).1 k m' rfl
    rw [h1 m' hoff, before l1 _ l2 hx] at this
    refine ⟨by rw [this]; rfl, ?_, fun _ he => by rw [he] at hoff; cases hoff⟩
    cases hb : hasBody m with
    | true => rfl
    | false => rw [h2 hb] at hoff; cases hoff
  · rintro ⟨hr, hb, hp⟩
    have : offered x ≠ [] := by
      cases hpm : isPart auto m with
      | true => exact hp hpm
      | false => rw [h3 hb hpm]; simp
    obtain ⟨m', hm'⟩ := List.exists_mem_of_ne_nil _ this
    obtain ⟨b, hbx, hbm⟩ := List.mem_filterMap.1 hm'
    cases b with
    | handle k m'' => exact ⟨k, m'', hbx⟩
    | unhandled m'' =>
      cases hbm
      obtain ⟨l1, l2, hx⟩ := List.append_of_mem hbx
      have := (tr_handled ht pre hs l1 l2 _ hx).2 m' rfl
      rw [h1 m' hm', before l1 _ l2 hx] at this
      rw [this] at hr
      cases hr
    | _ => cases hbm

end Verif.Handler
