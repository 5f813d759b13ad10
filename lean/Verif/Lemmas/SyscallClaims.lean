import Verif.Lemmas.SyscallSafe
import Verif.Spec.Upload
/-! # Lemmas: what follows from a run having a counterpart -/

namespace Verif
open Handler Session Spec Codec

/-! ## A connection on which only parts of one upload arrive -/

namespace System

variable {env : Env} {key : Option DecKey} {endErr : Err} {auto : Bool} {fs0 : FS} {k : Nat}

/-- The message a connection works on is of the upload. -/
def Bound (auto : Bool) (u : Upload) : Place → Prop
  | .stored m b _ | .full m b _ => belongs auto u m = true ∧ m.body = .val (.m0801 b)
  | .merged m | .noted m => belongs auto u m = true
  | _ => True

/-- What is passed on is of the upload. -/
def PassedOn (auto : Bool) (u : Upload) : Act → Prop
  | .handle _ m | .unhandled m => belongs auto u m = true
  | _ => True

theorem belongs_merged {u : Upload} {m : Message Entity} {b : T0801} (c : Bytes) (h : belongs auto u m = true) (hb : m.body = .val (.m0801 b)) :
    belongs auto u { m with body := .val (.m0801 { b with packet := some c }) } = true := by
  unfold belongs partOf isPart at h ⊢
  simp only [hb, Bool.and_true] at h ⊢
  split at h
  · rename_i hi
    rw [if_pos hi]
    cases hp : m.header.packet with
    | none => rw [hp] at h; simp at h
    | some p =>
      rw [hp] at h
      dsimp only at h ⊢
      cases hd : b.packet with
      | none => rw [hd] at h; simp at h
      | some d => rw [hd] at h; simpa using h
  · simp at h

theorem bound_step {u : Upload} {reads : List Bytes} {s s' : State} {e : Event} {log x : List (Nat × Act)}
    (hall : ∀ m, ArrivesOn env key endErr reads m → belongs auto u m = true) (hi : Inv env key endErr auto fs0 k reads s log)
    (hp : AtPart env key endErr auto reads (s.conns k).place) (hb : Bound auto u (s.conns k).place) (hs : s.step env key endErr auto e = .ok (s', x)) :
    Bound auto u (s'.conns k).place ∧ ∀ y ∈ x, y.1 = k → PassedOn auto u y.2 := by
  by_cases he : at? e = some k
  · have msg : ∀ {u' m}, belongs auto u m = true → s.message k u' m = .ok (s', x) →
        Bound auto u (s'.conns k).place ∧ ∀ y ∈ x, y.1 = k → PassedOn auto u y.2 := by
      intro u' m hm h
      unfold State.message at h
      obtain ⟨⟨l, z⟩, hz, h⟩ := Res.bind_ok h
      cases h
      refine ⟨by rw [conns_put]; exact hm, ?_⟩
      intro y hy _
      obtain ⟨a, ha, rfl⟩ := List.mem_map.1 hy
      have hoff := (Syscall.message_same (L := s.view k) (L' := s.view k) rfl rfl hz).2.2
      have : offered [a] = [] := by
        rw [offered, List.filterMap_eq_nil_iff] at hoff ⊢
        intro a' ha'
        rw [List.mem_singleton.1 ha']
        exact hoff a ha
      cases a <;> first | trivial | simp [offered] at this
    have same : Res.ok (s, ([] : List (Nat × Act))) = .ok (s', x) →
        Bound auto u (s'.conns k).place ∧ ∀ y ∈ x, y.1 = k → PassedOn auto u y.2 := by
      intro h; cases h; exact ⟨hb, by simp⟩
    cases e <;> simp only [at?, Option.some.injEq, reduceCtorEq] at he <;> subst he <;> simp only [State.step] at hs
    case receive j =>
      split at hs
      · split at hs
        · cases hs
          rw [conns_put]
          exact ⟨trivial, by simp⟩
        · cases hs
          rw [conns_put]
          exact ⟨trivial, by simp [PassedOn]⟩
        · cases hs
      · exact same hs
    case process j o u' =>
      split at hs
      · rename_i m hpl
        rw [hpl] at hp
        have hm := hall m hp
        split at hs
        · rename_i e hbody
          split at hs
          · exact msg hm hs
          · split at hs
            · rename_i b
              split at hs
              · simp only [Res.ok.injEq, State.store] at hs
                split at hs
                all_goals
                  obtain ⟨rfl, rfl⟩ := Prod.mk.inj hs
                  simp only [State.goto, conns_put]
                  refine ⟨by first | exact ⟨hm, hbody⟩ | trivial, ?_⟩
                  intro y hy _
                  obtain ⟨a, ha, rfl⟩ := List.mem_map.1 hy
                  simp only [List.mem_cons, List.not_mem_nil, or_false] at ha
                  rcases ha with rfl | rfl <;> trivial
              · cases hs
            · exact msg hm hs
        · cases hs
          simp only [State.goto, conns_put]
          exact ⟨trivial, by simp [PassedOn]⟩
      · exact same hs
    case check j =>
      split at hs
      · rename_i m b p hpl
        rw [hpl] at hb
        split at hs
        · cases hs
          simp only [State.goto, conns_put]
          exact ⟨trivial, by simp⟩
        · obtain ⟨full, -, hs⟩ := Res.bind_ok hs
          split at hs
          all_goals
            cases hs
            simp only [State.goto, conns_put]
            exact ⟨by first | exact hb | trivial, by simp⟩
      · exact same hs
    case merge j o =>
      split at hs
      · rename_i m b p hpl
        rw [hpl] at hb
        obtain ⟨⟨f, content⟩, -, hs⟩ := Res.bind_ok hs
        cases content
        all_goals
          cases hs
          simp only [State.goto, conns_put]
          refine ⟨by first | trivial | exact belongs_merged _ hb.1 hb.2, ?_⟩
          intro y hy _
          obtain rfl := List.mem_singleton.1 hy
          trivial
      · exact same hs
    case note j u' =>
      split at hs
      · rename_i m hpl
        rw [hpl] at hb
        exact msg hb hs
      · exact same hs
    case dispatch j u' =>
      split at hs
      · rename_i m hpl
        rw [hpl] at hb
        obtain ⟨⟨l, z⟩, hm, hs⟩ := Res.bind_ok hs
        cases hs
        simp only [State.goto, conns_put]
        refine ⟨trivial, ?_⟩
        intro y hy _
        obtain ⟨a, ha, rfl⟩ := List.mem_map.1 hy
        unfold Loop.dispatch at hm
        split at hm
        · cases hm
          obtain rfl := List.mem_singleton.1 ha
          exact hb
        · obtain ⟨-, -, hm⟩ := Res.bind_ok hm
          cases hm
          simp only [List.mem_cons, List.not_mem_nil, or_false] at ha
          rcases ha with rfl | rfl
          · trivial
          · exact hb
      · exact same hs
  · obtain ⟨xs, hl⟩ := elsewhere he hs
    refine ⟨by rw [hl.1]; exact hb, ?_⟩
    intro y hy hk
    cases e with
    | addHandler id h =>
      cases h with
      | none => cases hs; simp at hy
      | some h => cases hs; obtain rfl := List.mem_singleton.1 hy; trivial
    | addRequest j r => cases hs; obtain rfl := List.mem_singleton.1 hy; trivial
    | _ j => exact absurd (by rw [← hk, acts_tag rfl hs y hy]; rfl) he

theorem bound_run {u : Upload} {reads : List Bytes} {s s' : State} {es : List Event} {log x : List (Nat × Act)}
    (hall : ∀ m, ArrivesOn env key endErr reads m → belongs auto u m = true) (hi : Inv env key endErr auto fs0 k reads s log)
    (hp : AtPart env key endErr auto reads (s.conns k).place) (hb : Bound auto u (s.conns k).place) (hs : s.run env key endErr auto es = .ok (s', x)) :
    ∀ y ∈ x, y.1 = k → PassedOn auto u y.2 := by
  induction es generalizing s log x with
  | nil => cases hs; simp
  | cons e es ih =>
    obtain ⟨⟨s1, y⟩, h1, hs⟩ := Res.bind_ok hs
    obtain ⟨⟨s2, z⟩, h2, hs⟩ := Res.bind_ok hs
    cases hs
    obtain ⟨g1, g2⟩ := bound_step hall hi hp hb h1
    intro w hw
    rcases List.mem_append.1 hw with hw | hw
    · exact g2 w hw
    · exact ih (hi.step h1) (own_step hi hp h1).1 g1 h2 w hw

/-- What a connection on which only parts of one upload arrive passes on is of this upload. -/
theorem offered_bound_on {fs : FS} {u : Upload} {reads : Nat → List Bytes} {s : State} {es : List Event} {log : List (Nat × Act)}
    (hall : ∀ m, ArrivesOn env key endErr (reads k) m → belongs auto u m = true) (hs : (startOn fs reads).run env key endErr auto es = .ok (s, log)) :
    (offered (actsOf k log)).filter (belongs auto u) = offered (actsOf k log) := by
  have h := bound_run (u := u) hall (inv_startOn fs reads) trivial trivial hs
  rw [List.filter_eq_self]
  intro m hm
  obtain ⟨a, ha, ho⟩ := List.mem_filterMap.1 hm
  obtain ⟨y, hy, rfl⟩ := List.mem_map.1 ha
  obtain ⟨hy, hk⟩ := List.mem_filter.1 hy
  have := h y hy (by simpa using hk)
  obtain ⟨j, a⟩ := y
  cases a <;> simp at ho <;> subst ho <;> exact this

theorem offered_bound {u : Upload} {reads : Nat → List Bytes} {s : State} {es : List Event} {log : List (Nat × Act)}
    (hall : ∀ m, ArrivesOn env key endErr (reads k) m → belongs auto u m = true) (hs : (start reads).run env key endErr auto es = .ok (s, log)) :
    (offered (actsOf k log)).filter (belongs auto u) = offered (actsOf k log) :=
  offered_bound_on (fs := fun _ => none) hall hs

end System

/-! ## The same acts -/

namespace Syscall

variable {auto : Bool}

theorem actsOf_cons (k : Nat) (z : Nat × Act) (x : List (Nat × Act)) : actsOf k (z :: x) = (if z.1 = k then [z.2] else []) ++ actsOf k x := by
  unfold actsOf
  by_cases h : z.1 = k
  · rw [List.filter_cons_of_pos (by simpa using h)]; simp [h]
  · rw [List.filter_cons_of_neg (by simpa using h)]; simp [h]

theorem replies_same {x y : List (Nat × Act)} (h : Each (SameAct auto) x y) (k : Nat) : replies (actsOf k x) = replies (actsOf k y) := by
  induction h with
  | nil => rfl
  | cons h _ ih =>
    rw [actsOf_cons, actsOf_cons, replies_append, replies_append, ih]
    congr 1
    cases h with
    | same => rfl
    | handle => dsimp only; split <;> rfl
    | unhandled => dsimp only; split <;> rfl

theorem offered_same {x y : List (Nat × Act)} (h : Each (SameAct auto) x y) (k : Nat) :
    Each (SameToRead auto) (offered (actsOf k x)) (offered (actsOf k y)) := by
  induction h with
  | nil => exact .nil
  | cons h _ ih =>
    rw [actsOf_cons, actsOf_cons, offered_append, offered_append]
    refine each_append ?_ ih
    cases h with
    | same k' a ha =>
      dsimp only
      split
      · rw [ha]; exact .nil
      · exact .nil
    | handle k' g hm =>
      dsimp only
      split
      · exact .cons hm .nil
      · exact .nil
    | unhandled k' hm =>
      dsimp only
      split
      · exact .cons hm .nil
      · exact .nil

theorem succeeded_same {x y : List (Nat × Act)} (h : Each (SameAct auto) x y) (k : Nat) (hx : ∀ a ∈ actsOf k x, Succeeded a) : ∀ a ∈ actsOf k y, Succeeded a := by
  induction h with
  | nil => simp [actsOf]
  | cons h _ ih =>
    rw [actsOf_cons] at hx ⊢
    intro a ha
    rcases List.mem_append.1 ha with ha | ha
    · cases h with
      | same => exact hx a (List.mem_append_left _ ha)
      | handle =>
        dsimp only at ha
        split at ha
        · rw [List.mem_singleton.1 ha]; trivial
        · cases ha
      | unhandled =>
        dsimp only at ha
        split at ha
        · rw [List.mem_singleton.1 ha]; trivial
        · cases ha
    · exact ih (fun a ha => hx a (List.mem_append_right _ ha)) a ha

/-- What one connection sees is the same. -/
theorem seen_same {x y : List (Nat × Act)} (h : Each (SameAct auto) x y) (k : Nat) :
    Each (fun a b => SameAct auto (0, a) (0, b)) (x.filterMap (seenBy k)) (y.filterMap (seenBy k)) := by
  induction h with
  | nil => exact .nil
  | @cons a b l l' h _ ih =>
    have one : ∀ (z : Nat × Act) (l : List (Nat × Act)), (z :: l).filterMap (seenBy k) = (seenBy k z).toList ++ l.filterMap (seenBy k) := by
      intro z l
      rw [List.filterMap_cons]
      cases seenBy k z <;> rfl
    rw [one, one]
    refine each_append ?_ ih
    cases h with
    | same k' a ha =>
      cases hs : seenBy k (k', a) with
      | none => exact .nil
      | some a' =>
        have : a' = a := by
          cases a <;> simp only [seenBy] at hs <;> first | exact (Option.some.inj hs).symm | (split at hs <;> first | exact (Option.some.inj hs).symm | cases hs)
        rw [this]
        exact .cons (.same 0 a ha) .nil
    | handle k' g hm =>
      simp only [seenBy]
      split
      · exact .cons (.handle 0 g hm) .nil
      · exact .nil
    | unhandled k' hm =>
      simp only [seenBy]
      split
      · exact .cons (.unhandled 0 hm) .nil
      · exact .nil

theorem registered_same {x y : List Act} (h : Each (fun a b => SameAct auto (0, a) (0, b)) x y) (id : UInt16) : lastRegistered id x = lastRegistered id y := by
  unfold lastRegistered
  generalize (none : Option Nat) = o
  induction h generalizing o with
  | nil => rfl
  | cons h _ ih =>
    rw [List.foldl_cons, List.foldl_cons, ← ih]
    congr 1
    cases h <;> rfl

theorem each_split {α β : Type} {R : α → β → Prop} {x : List α} {b a : List β} {c : β} (h : Each R x (b ++ c :: a)) :
    ∃ b' c' a', x = b' ++ c' :: a' ∧ Each R b' b ∧ R c' c := by
  induction b generalizing x with
  | nil =>
    cases h with
    | cons h1 h2 => exact ⟨[], _, _, rfl, .nil, h1⟩
  | cons z b ih =>
    cases h with
    | cons h1 h2 =>
      obtain ⟨b', c', a', rfl, e1, e2⟩ := ih h2
      exact ⟨_ :: b', c', a', rfl, .cons h1 e1, e2⟩

theorem sameMessage_header {m m' : Message Entity} (h : SameToRead auto m m') : m.header = m'.header := by
  rcases h with ⟨-, rfl⟩ | ⟨-, c, b, -, rfl⟩ <;> rfl

theorem given_same {x y : List (Nat × Act)} (h : Each (SameAct auto) x y) {k : Nat} {d : Message Entity} (hd : Given (y.filterMap (seenBy k)) d) :
    ∃ d', SameToRead auto d' d ∧ Given (x.filterMap (seenBy k)) d' := by
  obtain ⟨before, after, hg⟩ := hd
  have hs := seen_same h k
  rw [hg] at hs
  obtain ⟨b', c', a', hx, h1, h2⟩ := each_split hs
  have hreg := registered_same h1 d.header.msgID
  cases hl : lastRegistered d.header.msgID before with
  | none =>
    rw [hl] at h2 hreg
    cases h2 with
    | same _ _ ha => simp [offered] at ha
    | unhandled _ hm =>
      refine ⟨_, hm, b', a', ?_⟩
      rw [hx, sameMessage_header hm, hreg]
  | some g =>
    rw [hl] at h2 hreg
    cases h2 with
    | same _ _ ha => simp [offered] at ha
    | handle _ _ hm =>
      refine ⟨_, hm, b', a', ?_⟩
      rw [hx, sameMessage_header hm, hreg]

theorem each_mem {α β : Type} {R : α → β → Prop} {x : List α} {y : List β} (h : Each R x y) {a : α} (ha : a ∈ x) : ∃ b ∈ y, R a b := by
  induction h with
  | nil => cases ha
  | cons h1 _ ih =>
    rcases List.mem_cons.1 ha with rfl | ha
    · exact ⟨_, List.mem_cons_self .., h1⟩
    · obtain ⟨b, hb, hr⟩ := ih ha
      exact ⟨b, List.mem_cons_of_mem _ hb, hr⟩

theorem isPart_of_belongs {u : Upload} {m : Message Entity} (h : belongs auto u m = true) : isPart auto m = true := by
  unfold belongs partOf at h
  cases hi : isPart auto m with
  | true => rfl
  | false => rw [hi] at h; simp at h

theorem handled_offered {k : Nat} {log : List (Nat × Act)} {x : Nat × Message Entity} (h : x ∈ handledBy k log) : x.2 ∈ offered (actsOf k log) := by
  unfold handledBy at h
  rw [List.mem_reverse] at h
  obtain ⟨⟨j, a⟩, hz, h⟩ := List.mem_filterMap.1 h
  cases a <;> simp only [reduceCtorEq] at h
  split at h
  · rename_i hj
    cases h
    refine List.mem_filterMap.2 ⟨_, List.mem_map.2 ⟨_, List.mem_filter.2 ⟨hz, by simpa using hj⟩, rfl⟩, rfl⟩
  · cases h

end Syscall
end Verif
