import Verif.Lemmas.SystemSafe
/-! # Lemmas: connections store and merge only the uploads they receive -/

namespace Verif
open Handler Session Spec _root_.Verif.System Codec

namespace System

variable {env : Env} {key : Option DecKey} {endErr : Err} {auto : Bool} {fs0 : FS} {k : Nat}

/-- A message of the connection is a part of the upload stored in `f`. -/
def Uploads (env : Env) (key : Option DecKey) (endErr : Err) (auto : Bool) (reads : List Bytes) (f : Multipart) : Prop :=
  ∃ m, ArrivesOn env key endErr reads m ∧ belongs auto ⟨f.icc, f.msgID, f.tag⟩ m = true

/-- The uploads the goroutine of the connection has to do with. -/
def AtPart (env : Env) (key : Option DecKey) (endErr : Err) (auto : Bool) (reads : List Bytes) : Place → Prop
  | .received m => ArrivesOn env key endErr reads m
  | .stored m b p | .full m b p => Uploads env key endErr auto reads (Loop.partFile m b p)
  | _ => True

/-- What the connection stored and merged. -/
def OwnOnly (env : Env) (key : Option DecKey) (endErr : Err) (auto : Bool) (reads : List Bytes) : Act → Prop
  | .wrote f _ _ _ | .merged f _ => Uploads env key endErr auto reads f
  | _ => True

theorem ownOnly_private {reads : List Bytes} {a : Act} (h : Private a) : OwnOnly env key endErr auto reads a := by
  cases a <;> first | exact trivial | exact absurd h id

theorem _root_.Verif.System.Taken.arrives {reads : List Bytes} {n : Nat} {T T' : RecvState} {m : Message Entity} (h : Taken env key endErr reads n T)
    (hr : Codec.receive (entityCodec env) key endErr T = (.ok m, T')) : ArrivesOn env key endErr reads m := by
  obtain ⟨ds, hd⟩ := h.next hr
  obtain ⟨ds', hd'⟩ := h
  refine ⟨n + 1, ?_⟩
  rw [receiveMany_snoc, hd', hr]
  simp

theorem uploads_of_part {reads : List Bytes} {m : Message Entity} {b : T0801} {p : Packet} {data : Bytes} (h : ArrivesOn env key endErr reads m)
    (hb : m.body = .val (.m0801 b)) (hp : m.header.packet = some p) (hd : b.packet = some data)
    (hc : ¬ (!auto || !Property.isEnablePacket m.header.property) = true) : Uploads env key endErr auto reads (Loop.partFile m b p) := by
  refine ⟨m, h, ?_⟩
  have : isPart auto m = true := by
    unfold isPart
    rw [← Property.isEnablePacket_spec, hb]
    cases auto <;> simp_all
  unfold belongs partOf
  rw [this, if_pos rfl, hb, hp]
  simp [hd, Loop.partFile, T0801.getTag]

theorem acts_mem {j : Nat} {xs : List Act} {y : Nat × Act} (h : y ∈ State.acts j xs) : y.1 = j := by
  obtain ⟨a, -, rfl⟩ := List.mem_map.1 h
  rfl

theorem acts_tag {j : Nat} {s s' : State} {e : Event} {x : List (Nat × Act)} (he : at? e = some j) (hs : s.step env key endErr auto e = .ok (s', x)) :
    ∀ y ∈ x, y.1 = j := by
  have msg : ∀ {u m}, s.message j u m = .ok (s', x) → ∀ y ∈ x, y.1 = j := by
    intro u m h
    unfold State.message at h
    obtain ⟨⟨l, z⟩, hm, h⟩ := Res.bind_ok h
    cases h
    exact fun y hy => acts_mem hy
  cases e <;> simp only [at?, Option.some.injEq, reduceCtorEq] at he <;> subst he <;> simp only [State.step] at hs
  case receive j =>
    split at hs
    · split at hs
      · cases hs; simp
      · cases hs; simp
      · cases hs
    · cases hs; simp
  case process j o u =>
    split at hs
    · split at hs
      · split at hs
        · exact msg hs
        · split at hs
          · split at hs
            · simp only [Res.ok.injEq, State.store] at hs
              split at hs
              all_goals
                obtain ⟨rfl, rfl⟩ := Prod.mk.inj hs
                exact fun y hy => acts_mem hy
            · cases hs
          · exact msg hs
      · cases hs; simp
    · cases hs; simp
  case check j =>
    split at hs
    · split at hs
      · cases hs; simp
      · obtain ⟨full, -, hs⟩ := Res.bind_ok hs
        split at hs
        all_goals (cases hs; simp)
    · cases hs; simp
  case merge j o =>
    split at hs
    · obtain ⟨⟨f, content⟩, -, hs⟩ := Res.bind_ok hs
      cases content
      all_goals (cases hs; simp)
    · cases hs; simp
  case note j u =>
    split at hs
    · exact msg hs
    · cases hs; simp
  case dispatch j u =>
    split at hs
    · obtain ⟨⟨l, z⟩, hm, hs⟩ := Res.bind_ok hs
      cases hs
      exact fun y hy => acts_mem hy
    · cases hs; simp

theorem own_step {reads : List Bytes} {s s' : State} {e : Event} {log x : List (Nat × Act)} (hi : Inv env key endErr auto fs0 k reads s log)
    (hp : AtPart env key endErr auto reads (s.conns k).place) (hs : s.step env key endErr auto e = .ok (s', x)) :
    AtPart env key endErr auto reads (s'.conns k).place ∧ ∀ y ∈ x, y.1 = k → OwnOnly env key endErr auto reads y.2 := by
  by_cases he : at? e = some k
  · have msg : ∀ {u m}, s.message k u m = .ok (s', x) →
        AtPart env key endErr auto reads (s'.conns k).place ∧ ∀ y ∈ x, y.1 = k → OwnOnly env key endErr auto reads y.2 := by
      intro u m h
      unfold State.message at h
      obtain ⟨⟨l, z⟩, hm, h⟩ := Res.bind_ok h
      cases h
      refine ⟨by rw [conns_put]; trivial, ?_⟩
      intro y hy _
      obtain ⟨a, ha, rfl⟩ := List.mem_map.1 hy
      exact ownOnly_private (message_private hm a ha)
    have same : Res.ok (s, ([] : List (Nat × Act))) = .ok (s', x) →
        AtPart env key endErr auto reads (s'.conns k).place ∧ ∀ y ∈ x, y.1 = k → OwnOnly env key endErr auto reads y.2 := by
      intro h; cases h; exact ⟨hp, by simp⟩
    cases e <;> simp only [at?, Option.some.injEq, reduceCtorEq] at he <;> subst he <;> simp only [State.step] at hs
    case receive j =>
      split at hs
      · rename_i hpl
        simp only [Inv, hpl] at hi
        obtain ⟨turns, outs, -, t⟩ := hi
        split at hs
        · rename_i hr
          cases hs
          refine ⟨?_, by simp⟩
          rw [conns_put]
          exact t.arrives hr
        · cases hs
          refine ⟨?_, by simp [OwnOnly]⟩
          rw [conns_put]
          trivial
        · cases hs
      · exact same hs
    case process j o u =>
      split at hs
      · rename_i m hpl
        rw [hpl] at hp
        split at hs
        · rename_i e hb
          split at hs
          · exact msg hs
          · rename_i hc
            split at hs
            · rename_i b
              split at hs
              · rename_i p data hpk hdat
                have hu := uploads_of_part (auto := auto) hp hb hpk hdat hc
                simp only [Res.ok.injEq, State.store] at hs
                split at hs
                all_goals
                  obtain ⟨rfl, rfl⟩ := Prod.mk.inj hs
                  simp only [State.goto, conns_put]
                  refine ⟨by first | exact hu | trivial, ?_⟩
                  intro y hy _
                  obtain ⟨a, ha, rfl⟩ := List.mem_map.1 hy
                  simp only [List.mem_cons, List.not_mem_nil, or_false] at ha
                  rcases ha with rfl | rfl
                  · exact hu
                  · trivial
              · cases hs
            · exact msg hs
        · cases hs
          simp only [State.goto, conns_put]
          exact ⟨trivial, by simp [OwnOnly]⟩
      · exact same hs
    case check j =>
      split at hs
      · rename_i m b p hpl
        rw [hpl] at hp
        split at hs
        · cases hs
          simp only [State.goto, conns_put]
          exact ⟨trivial, by simp⟩
        · obtain ⟨full, -, hs⟩ := Res.bind_ok hs
          split at hs
          all_goals
            cases hs
            simp only [State.goto, conns_put]
            exact ⟨by first | exact hp | trivial, by simp⟩
      · exact same hs
    case merge j o =>
      split at hs
      · rename_i m b p hpl
        rw [hpl] at hp
        obtain ⟨⟨f, content⟩, -, hs⟩ := Res.bind_ok hs
        cases content
        all_goals
          cases hs
          simp only [State.goto, conns_put]
          refine ⟨trivial, ?_⟩
          intro y hy _
          obtain rfl := List.mem_singleton.1 hy
          exact hp
      · exact same hs
    case note j u =>
      split at hs
      · exact msg hs
      · exact same hs
    case dispatch j u =>
      split at hs
      · obtain ⟨⟨l, z⟩, hm, hs⟩ := Res.bind_ok hs
        cases hs
        simp only [State.goto, conns_put]
        refine ⟨trivial, ?_⟩
        intro y hy _
        obtain ⟨a, ha, rfl⟩ := List.mem_map.1 hy
        exact ownOnly_private (dispatch_private hm a ha)
      · exact same hs
  · obtain ⟨xs, hl⟩ := elsewhere he hs
    refine ⟨by rw [hl.1]; exact hp, ?_⟩
    intro y hy hk
    cases e with
    | addHandler id h =>
      cases h with
      | none => cases hs; simp at hy
      | some h => cases hs; obtain rfl := List.mem_singleton.1 hy; trivial
    | addRequest j r => cases hs; obtain rfl := List.mem_singleton.1 hy; trivial
    | _ j => exact absurd (by rw [← hk, acts_tag rfl hs y hy]; rfl) he

theorem own_run {reads : List Bytes} {s s' : State} {es : List Event} {log x : List (Nat × Act)} (hi : Inv env key endErr auto fs0 k reads s log)
    (hp : AtPart env key endErr auto reads (s.conns k).place) (hs : s.run env key endErr auto es = .ok (s', x)) :
    ∀ y ∈ x, y.1 = k → OwnOnly env key endErr auto reads y.2 := by
  induction es generalizing s log x with
  | nil => cases hs; simp
  | cons e es ih =>
    obtain ⟨⟨s1, y⟩, h1, hs⟩ := Res.bind_ok hs
    obtain ⟨⟨s2, z⟩, h2, hs⟩ := Res.bind_ok hs
    cases hs
    obtain ⟨g1, g2⟩ := own_step hi hp h1
    intro w hw
    rcases List.mem_append.1 hw with hw | hw
    · exact g2 w hw
    · exact ih (hi.step h1) g1 h2 w hw

/-! ## Prefixes of the turns -/

theorem inputs_append (ts us : List (List Outside × Around)) (s : RecvState) (ds : List (Message Entity)) (T : RecvState)
    (h : receiveMany (entityCodec env) key endErr ts.length s = (ds.map .ok, T)) :
    inputs env key endErr (ts ++ us) s = inputs env key endErr ts s ++ inputs env key endErr us T ∧
      ∀ e a, Input.receive (.err e) a ∉ inputs env key endErr ts s := by
  induction ts generalizing s ds with
  | nil =>
    simp only [List.length_nil, receiveMany, Prod.mk.injEq] at h
    obtain ⟨-, rfl⟩ := h
    simp [inputs]
  | cons t ts ih =>
    obtain ⟨o', a'⟩ := t
    simp only [List.length_cons, receiveMany, Prod.mk.injEq] at h
    obtain ⟨h1, h2⟩ := h
    cases ds with
    | nil => cases h1
    | cons d ds =>
      simp only [List.map_cons, List.cons.injEq] at h1
      obtain ⟨i1, i2⟩ := ih (Codec.receive (entityCodec env) key endErr s).2 ds (Prod.ext h1.2 h2)
      refine ⟨by simp only [List.cons_append, inputs, h1.1, i1, List.append_assoc], ?_⟩
      intro e a ha
      simp only [inputs, h1.1, List.mem_append, List.mem_map, List.mem_cons, reduceCtorEq, and_false, exists_false, false_or,
        Input.receive.injEq, false_and] at ha
      exact i2 e a ha

theorem receiveMany_take {C : BodyCodec Entity} (n k : Nat) (s : RecvState) :
    (receiveMany C key endErr n s).1 = (receiveMany C key endErr (n + k) s).1.take n := by
  induction n generalizing s with
  | zero => simp [receiveMany]
  | succ n ih =>
    rw [show n + 1 + k = n + k + 1 by omega]
    simp only [receiveMany, List.take_succ_cons, ih (Codec.receive C key endErr s).2]

/-- What a connection did, among what it sees. -/
theorem offered_seen (k : Nat) (log : List (Nat × Act)) : offered (log.filterMap (seenBy k)) = offered (actsOf k log) := by
  unfold offered actsOf
  rw [List.filterMap_filterMap, List.filterMap_map, List.filterMap_filter]
  congr 1
  funext ⟨j, a⟩
  by_cases hj : j = k <;> cases a <;> simp [seenBy, hj]

theorem replies_seen (k : Nat) (log : List (Nat × Act)) : replies (log.filterMap (seenBy k)) = replies (actsOf k log) := by
  unfold replies actsOf
  rw [List.filterMap_filterMap, List.filterMap_map, List.filterMap_filter]
  congr 1
  funext ⟨j, a⟩
  by_cases hj : j = k <;> cases a <;> simp [seenBy, hj]

end System
end Verif
