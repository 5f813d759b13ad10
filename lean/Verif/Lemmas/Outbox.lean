import Verif.Spec.Outbox
import Verif.Lemmas.EncodeMessage
/-! # The send queue and the send loop -/

namespace Verif.Outbox

open Spec (acceptedItems Waiting Calm)

variable {E : Type}

/-- The bytes of a body depend on these two only. -/
structure Alike (C : BodyCodec E) (a b : E) : Prop where
  id : C.msgID a = C.msgID b
  bytes : (C.encode a).bind (fun r => .ok r.1) = (C.encode b).bind (fun r => .ok r.1)

theorem Alike.refl (C : BodyCodec E) (a : E) : Alike C a a := ⟨rfl, rfl⟩

theorem Alike.trans {C : BodyCodec E} {a b c : E} (h : Alike C a b) (g : Alike C b c) : Alike C a c := ⟨h.id.trans g.id, h.bytes.trans g.bytes⟩

theorem Alike.encode {C : BodyCodec E} {key : Option EncKey} {a b : E} (h : Alike C a b) (hdr : Header) :
    (Message.encode C key ⟨hdr, .val a⟩).bind (fun r => .ok r.1) = (Message.encode C key ⟨hdr, .val b⟩).bind (fun r => .ok r.1) := by
  obtain ⟨h1, h2⟩ := h
  simp only [Message.encode, Message.encodeBody, Message.bodyMsgID, h1]
  cases ha : C.encode a with
  | err x =>
    cases hb : C.encode b with
    | err y => simp only [ha, hb, Res.bind, Res.err.injEq] at h2; subst h2; rfl
    | panic => simp [ha, hb, Res.bind] at h2
    | ok r => simp [ha, hb, Res.bind] at h2
  | panic =>
    cases hb : C.encode b with
    | err y => simp [ha, hb, Res.bind] at h2
    | panic => rfl
    | ok r => simp [ha, hb, Res.bind] at h2
  | ok r =>
    cases hb : C.encode b with
    | err y => simp [ha, hb, Res.bind] at h2
    | panic => simp [ha, hb, Res.bind] at h2
    | ok q =>
      obtain ⟨x, a'⟩ := r
      obtain ⟨y, b'⟩ := q
      simp only [ha, hb, Res.bind, Res.ok.injEq] at h2
      subst h2
      cases key with
      | none =>
        simp only [Res.ok_bind]
        cases Property.setBodySize hdr.property (UInt16.ofNat x.length) with
        | err _ => rfl
        | panic => rfl
        | ok w =>
          simp only [Res.ok_bind]
          cases Header.encode ⟨C.msgID b, w, hdr.iccID, hdr.serial, hdr.packet⟩ <;> rfl
      | some k =>
        simp only [Res.ok_bind]
        cases encryptOAEP k x with
        | err _ => rfl
        | panic => rfl
        | ok z =>
          simp only [Res.ok_bind]
          cases Property.setBodySize (Property.enableEncrypt hdr.property) (UInt16.ofNat z.length) with
          | err _ => rfl
          | panic => rfl
          | ok w =>
            simp only [Res.ok_bind]
            cases Header.encode ⟨C.msgID b, w, hdr.iccID, hdr.serial, hdr.packet⟩ <;> rfl

theorem Alike.sendBytes {C : BodyCodec E} {key : Option EncKey} {a b : E} (h : Alike C a b) (hdr : Header) :
    Codec.sendBytes C key ⟨hdr, .val a⟩ = Codec.sendBytes C key ⟨hdr, .val b⟩ := by
  unfold Codec.sendBytes
  cases key with
  | none => exact h.encode hdr
  | some k =>
    simp only
    split
    · exact h.encode hdr
    · exact h.encode hdr

/-- The message will be written as it was when `Send` was called. -/
def Fresh (C : BodyCodec E) (heap : Nat → E) (x : Item E) : Prop :=
  match x.arg with
  | .nilPtr id => x.given = .nilPtr id
  | .obj r => ∃ g, x.given = .val g ∧ Alike C (heap r) g ∧ C.msgID g ≠ 0x0801

/-- Encoding twice gives the same bytes, except for media messages. -/
def Stable (C : BodyCodec E) : Prop :=
  ∀ e b e', C.encode e = .ok (b, e') → C.msgID e ≠ 0x0801 → C.encode e' = .ok (b, e') ∧ C.msgID e' = C.msgID e

theorem stable_entity (env : Env) : Stable (entityCodec env) :=
  fun _ _ _ h hid => ⟨Entity.encode_again h hid, Entity.encode_msgID h⟩

theorem Fresh.encodeObject {C : BodyCodec E} (hC : Stable C) {s : State E} {x : Item E} (h : Fresh C s.heap x) (r : Nat) :
    Fresh C (s.encodeObject C r) x := by
  unfold Fresh at h ⊢
  cases hx : x.arg with
  | nilPtr id => rw [hx] at h; exact h
  | obj q =>
    rw [hx] at h
    obtain ⟨g, g1, g2, g3⟩ := h
    refine ⟨g, g1, ?_, g3⟩
    unfold State.encodeObject
    cases he : C.encode (s.heap r) with
    | err _ => exact g2
    | panic => exact g2
    | ok p =>
      obtain ⟨b, e'⟩ := p
      simp only [update]
      split
      · rename_i hq
        subst hq
        obtain ⟨a1, a2⟩ := hC _ _ _ he (by rw [g2.id]; exact g3)
        exact Alike.trans ⟨a2, by rw [a1, he]⟩ g2
      · exact g2

theorem Fresh.heapAfter {C : BodyCodec E} (hC : Stable C) {s : State E} {x : Item E} (h : Fresh C s.heap x) (a : Arg) :
    Fresh C (s.heapAfter C a) x := by
  cases a with
  | nilPtr _ => exact h
  | obj r => exact h.encodeObject hC r

theorem Fresh.write {C : BodyCodec E} {heap : Nat → E} {x : Item E} (h : Fresh C heap x) (r : Nat) (e : E) (hr : x.arg ≠ .obj r) :
    Fresh C (update heap r e) x := by
  unfold Fresh at h ⊢
  cases hx : x.arg with
  | nilPtr id => rw [hx] at h; exact h
  | obj q =>
    rw [hx] at h
    obtain ⟨g, g1, g2, g3⟩ := h
    refine ⟨g, g1, ?_, g3⟩
    unfold update
    split
    · rename_i hq; subst hq; exact absurd hx hr
    · exact g2

theorem Fresh.sendBytes {C : BodyCodec E} {key : Option EncKey} {s : State E} {x : Item E} (h : Fresh C s.heap x) :
    Codec.sendBytes C key ⟨x.header, s.body x.arg⟩ = Codec.sendBytes C key ⟨x.header, x.given⟩ := by
  unfold Fresh at h
  cases hx : x.arg with
  | nilPtr id => rw [hx] at h; rw [h]; rfl
  | obj q =>
    rw [hx] at h
    obtain ⟨g, g1, g2, g3⟩ := h
    rw [g1]
    exact g2.sendBytes x.header

/-- What holds of a connection and everything observed so far. -/
structure Inv (C : BodyCodec E) (key : Option EncKey) (s : State E) (o : List (Obs E)) : Prop where
  queue : ∀ x ∈ s.queue, Fresh C s.heap x
  place : ∀ i x, s.place i = some (.checked x) → Fresh C s.heap x
  handled : ∀ x b w, .handled x b w true ∈ o → Spec.Due.Frame C key x w
  stream : ∃ (sent : List (Item E × Bytes)) (rest : List (Item E)) (tail : Bytes),
    acceptedItems o = sent.map (·.1) ++ rest ∧ (∀ x ∈ sent, Spec.Due.Frame C key x.1 x.2) ∧
    s.wire = (sent.map (·.2)).flatten ++ tail ∧ (tail = [] ∨ ∃ y ys f, rest = y :: ys ∧ Spec.Due.Frame C key y f ∧ tail <+: f) ∧
    (s.loop = .running ∧ s.crashed = false → tail = [] ∧ rest = s.queue)

theorem acceptedItems_append (a b : List (Obs E)) : acceptedItems (a ++ b) = acceptedItems a ++ acceptedItems b := by
  simp [acceptedItems, List.filterMap_append]

theorem Inv.step {C : BodyCodec E} (hC : Stable C) {key : Option EncKey} {s : State E} {o : List (Obs E)} (h : Inv C key s o) (ev : Event E)
    (hcalm : match ev with
      | .write r _ => ¬ Waiting s r
      | .enter _ _ (.obj r) => C.msgID (s.heap r) ≠ 0x0801
      | _ => True) :
    Inv C key (s.step C key ev).1 (o ++ (s.step C key ev).2) := by
  obtain ⟨h1, h2, h4, h3⟩ := h
  unfold State.step
  split
  · rw [List.append_nil]; exact ⟨h1, h2, h4, h3⟩
  rename_i hcr
  have hcr : s.crashed = false := by simpa using hcr
  cases ev with
  | write r e =>
    simp only [List.append_nil]
    refine ⟨fun x hx => (h1 x hx).write r e ?_, fun i x hx => (h2 i x hx).write r e ?_, h4, h3⟩
    · intro ha; exact hcalm (.inr ⟨x, hx, ha⟩)
    · intro ha; exact hcalm (.inl ⟨i, x, hx, ha⟩)
  | encodeElsewhere r =>
    simp only [List.append_nil]
    exact ⟨fun x hx => (h1 x hx).encodeObject hC r, fun i x hx => (h2 i x hx).encodeObject hC r, h4, h3⟩
  | enter i header arg =>
    simp only
    split
    · split
      · exact ⟨h1, h2, by simpa using h4, by simpa [acceptedItems_append, acceptedItems] using h3⟩
      · simp only [List.append_nil]
        refine ⟨h1, fun j x hx => ?_, h4, h3⟩
        simp only [update] at hx
        split at hx
        · simp only [Option.some.injEq, Place.checked.injEq] at hx
          subst hx
          cases arg with
          | nilPtr id => rfl
          | obj r => exact ⟨s.heap r, rfl, .refl _ _, hcalm⟩
        · exact h2 j x hx
    · rw [List.append_nil]; exact ⟨h1, h2, h4, h3⟩
  | enqueue i =>
    simp only
    split
    · rename_i x hx
      split
      · have hfx := h2 i x hx
        refine ⟨?_, ?_, by simpa using h4, ?_⟩
        · intro y hy
          simp only [List.mem_append, List.mem_singleton] at hy
          rcases hy with hy | rfl
          · exact h1 y hy
          · exact hfx
        · intro j y hy
          simp only [update] at hy
          split at hy
          · simp at hy
          · exact h2 j y hy
        · obtain ⟨sent, rest, tail, a1, a2, a3, a4, a5⟩ := h3
          refine ⟨sent, rest ++ [x], tail, ?_, a2, a3, ?_, ?_⟩
          · rw [acceptedItems_append, a1, List.append_assoc]; rfl
          · rcases a4 with a4 | ⟨y, ys, f, b1, b2, b3⟩
            · exact .inl a4
            · exact .inr ⟨y, ys ++ [x], f, by rw [b1]; rfl, b2, b3⟩
          · intro hl
            obtain ⟨c1, c2⟩ := a5 hl
            exact ⟨c1, by rw [c2]⟩
      · simp only [List.append_nil]
        refine ⟨h1, fun j y hy => ?_, h4, h3⟩
        simp only [update] at hy
        split at hy
        · simp at hy
        · exact h2 j y hy
    · rw [List.append_nil]; exact ⟨h1, h2, h4, h3⟩
  | giveUp i =>
    simp only
    split
    · refine ⟨h1, fun j y hy => ?_, by simpa using h4, by simpa [acceptedItems_append, acceptedItems] using h3⟩
      simp only [update] at hy
      split at hy
      · simp at hy
      · exact h2 j y hy
    · rw [List.append_nil]; exact ⟨h1, h2, h4, h3⟩
  | take w =>
    simp only
    split
    · rename_i hl
      split
      · rw [List.append_nil]
        split
        · refine ⟨h1, h2, h4, ?_⟩
          obtain ⟨sent, rest, tail, a1, a2, a3, a4, a5⟩ := h3
          exact ⟨sent, rest, tail, a1, a2, a3, a4, by simp⟩
        · exact ⟨h1, h2, h4, h3⟩
      · rename_i x rest hq
        obtain ⟨sent, rest', tail, a1, a2, a3, a4, a5⟩ := h3
        obtain ⟨rfl, rfl⟩ := a5 ⟨hl, hcr⟩
        have hfx := h1 x (by rw [hq]; simp)
        have hacc : ∀ (b : Body E) (w : Bytes) (ok : Bool), acceptedItems (o ++ [.handled x b w ok]) = sent.map (·.1) ++ x :: rest := by
          intro b w ok
          rw [acceptedItems_append, a1, hq]
          simp [acceptedItems]
        have k1 : ∀ y ∈ rest, Fresh C (s.heapAfter C x.arg) y := fun y hy => (h1 y (by rw [hq]; simp [hy])).heapAfter hC _
        have k2 : ∀ i y, s.place i = some (.checked y) → Fresh C (s.heapAfter C x.arg) y := fun i y hy => (h2 i y hy).heapAfter hC _
        rw [hfx.sendBytes]
        cases hf : Codec.sendBytes C key ⟨x.header, x.given⟩ with
        | ok f =>
          cases w with
          | none =>
            refine ⟨k1, k2, ?_, sent ++ [(x, f)], rest, [], ?_, ?_, ?_, .inl rfl, fun _ => ⟨rfl, rfl⟩⟩
            · intro y b w hy
              simp only [List.mem_append, List.mem_singleton] at hy
              rcases hy with hy | hy
              · exact h4 y b w hy
              · cases hy; exact hf
            · rw [hacc]; simp
            · intro y hy
              simp only [List.mem_append, List.mem_singleton] at hy
              rcases hy with hy | rfl
              · exact a2 y hy
              · exact hf
            · simp only [a3]; simp
          | some n =>
            refine ⟨k1, k2, by simpa using h4, sent, x :: rest, f.take n, hacc _ _ _, a2, ?_, .inr ⟨x, rest, f, rfl, hf, List.take_prefix _ _⟩, by simp⟩
            simp only [a3, List.append_nil]
        | err e => exact ⟨k1, k2, by simpa using h4, sent, x :: rest, [], hacc _ _ _, a2, a3, .inl rfl, by simp⟩
        | panic => exact ⟨k1, k2, by simpa using h4, sent, x :: rest, [], hacc _ _ _, a2, a3, .inl rfl, by simp⟩
    · rw [List.append_nil]; exact ⟨h1, h2, h4, h3⟩
  | stop =>
    simp only
    split
    · rw [List.append_nil]
      split
      · refine ⟨h1, h2, h4, ?_⟩
        obtain ⟨sent, rest, tail, a1, a2, a3, a4, a5⟩ := h3
        exact ⟨sent, rest, tail, a1, a2, a3, a4, by simp⟩
      · exact ⟨h1, h2, h4, h3⟩
    · rw [List.append_nil]; exact ⟨h1, h2, h4, h3⟩
  | finish =>
    simp only
    split
    · rw [List.append_nil]
      refine ⟨h1, h2, h4, ?_⟩
      obtain ⟨sent, rest, tail, a1, a2, a3, a4, a5⟩ := h3
      exact ⟨sent, rest, tail, a1, a2, a3, a4, by simp⟩
    · rw [List.append_nil]; exact ⟨h1, h2, h4, h3⟩
  | close => rw [List.append_nil]; exact ⟨h1, h2, h4, h3⟩

theorem Inv.run {C : BodyCodec E} (hC : Stable C) {key : Option EncKey} (evs : List (Event E)) : ∀ {s : State E} {o : List (Obs E)},
    Inv C key s o → Calm C key s evs → Inv C key (s.run C key evs).1 (o ++ (s.run C key evs).2) := by
  induction evs with
  | nil => intro s o h _; simpa [State.run] using h
  | cons ev evs ih =>
    intro s o h hc
    have := ih (h.step hC ev hc.1) hc.2
    simpa [State.run, List.append_assoc] using this

theorem Inv.init (C : BodyCodec E) (key : Option EncKey) (heap : Nat → E) : Inv C key (.init heap) [] :=
  ⟨by simp [State.init], by simp [State.init], by simp, [], [], [], rfl, by simp, rfl, .inl rfl, fun _ => ⟨rfl, rfl⟩⟩

/-! ## Programs that change bodies -/

theorem encodeObject_alike {C : BodyCodec E} (hC : Stable C) (s : State E) (f : Nat → E) (h : ∀ q, Alike C (s.heap q) (f q))
    (hm : ∀ q, C.msgID (f q) ≠ 0x0801) (r q : Nat) : Alike C (s.encodeObject C r q) (f q) := by
  unfold State.encodeObject
  cases he : C.encode (s.heap r) with
  | err _ => exact h q
  | panic => exact h q
  | ok p =>
    obtain ⟨b, e'⟩ := p
    simp only [update]
    split
    · rename_i hq
      subst hq
      obtain ⟨a1, a2⟩ := hC _ _ _ he (by rw [(h q).id]; exact hm q)
      exact Alike.trans ⟨a2, by rw [a1, he]⟩ (h q)
    · exact h q

/-- The objects encode as the program assigned them last. -/
def Assigned (C : BodyCodec E) (s : State E) (f : Nat → E) : Prop :=
  s.crashed = false → ∀ q, Alike C (s.heap q) (f q)

theorem Assigned.step {C : BodyCodec E} (hC : Stable C) (key : Option EncKey) {s : State E} {f : Nat → E} (h : Assigned C s f)
    (hm : ∀ q, C.msgID (f q) ≠ 0x0801) (ev : Event E) : Assigned C (s.step C key ev).1 (Spec.lastAssigned f [ev]) := by
  unfold State.step
  split
  · rename_i hc
    intro hc'
    rw [hc] at hc'
    exact absurd hc' (by simp)
  rename_i hc
  have hc : s.crashed = false := by simpa using hc
  have h := h hc
  cases ev with
  | write r e =>
    intro _ q
    simp only [update, Spec.lastAssigned]
    split
    · exact .refl _ _
    · exact h q
  | encodeElsewhere r => exact fun _ q => encodeObject_alike hC s f h hm r q
  | enter i hd a =>
    simp only [Spec.lastAssigned]
    repeat' split
    all_goals exact fun _ => h
  | enqueue i =>
    simp only [Spec.lastAssigned]
    repeat' split
    all_goals exact fun _ => h
  | giveUp i =>
    simp only [Spec.lastAssigned]
    repeat' split
    all_goals exact fun _ => h
  | take w =>
    have ha : ∀ (a : Arg) q, Alike C (s.heapAfter C a q) (f q) := by
      intro a q
      cases a with
      | nilPtr _ => exact h q
      | obj r => exact encodeObject_alike hC s f h hm r q
    simp only [Spec.lastAssigned]
    repeat' split
    all_goals first | exact fun _ => h | exact fun _ => ha _
  | stop =>
    simp only [Spec.lastAssigned]
    repeat' split
    all_goals exact fun _ => h
  | finish =>
    simp only [Spec.lastAssigned]
    repeat' split
    all_goals exact fun _ => h
  | close => exact fun _ => h

theorem lastAssigned_cons (f : Nat → E) (ev : Event E) (evs : List (Event E)) :
    Spec.lastAssigned f (ev :: evs) = Spec.lastAssigned (Spec.lastAssigned f [ev]) evs := by
  cases ev <;> rfl

theorem Assigned.run {C : BodyCodec E} (hC : Stable C) (key : Option EncKey) (evs : List (Event E)) : ∀ {s : State E} {f : Nat → E}, Assigned C s f →
    (∀ q, C.msgID (f q) ≠ 0x0801) → (∀ r e, .write r e ∈ evs → C.msgID e ≠ 0x0801) →
    Assigned C (s.run C key evs).1 (Spec.lastAssigned f evs) := by
  induction evs with
  | nil => exact fun h _ _ => h
  | cons ev evs ih =>
    intro s f h hm hw
    rw [lastAssigned_cons]
    refine ih (h.step hC key hm ev) ?_ fun r e he => hw r e (List.mem_cons_of_mem _ he)
    intro q
    cases ev with
    | write r e =>
      simp only [Spec.lastAssigned]
      split
      · exact hw r e List.mem_cons_self
      · exact hm q
    | _ => exact hm q

/-- What the send loop is given when it takes a message. -/
theorem take_handled {C : BodyCodec E} {key : Option EncKey} {s : State E} {v : Option Nat} {x : Item E} {b : Body E} {w : Bytes} {ok : Bool}
    (h : .handled x b w ok ∈ (s.step C key (.take v)).2) :
    s.crashed = false ∧ b = s.body x.arg ∧ (ok = true → Codec.sendBytes C key { header := x.header, body := b } = .ok w) := by
  unfold State.step at h
  split at h
  · simp at h
  rename_i hc
  refine ⟨by simpa using hc, ?_⟩
  simp only at h
  split at h
  · split at h
    · simp at h
    · split at h
      · rename_i f hf
        split at h <;> simp only [List.mem_singleton, Obs.handled.injEq] at h <;> obtain ⟨rfl, rfl, rfl, rfl⟩ := h
        · exact ⟨rfl, fun _ => hf⟩
        · exact ⟨rfl, by simp⟩
      · simp only [List.mem_singleton, Obs.handled.injEq] at h
        obtain ⟨rfl, rfl, rfl, rfl⟩ := h
        exact ⟨rfl, by simp⟩
      · simp only [List.mem_singleton, Obs.handled.injEq] at h
        obtain ⟨rfl, rfl, rfl, rfl⟩ := h
        exact ⟨rfl, by simp⟩
  · simp at h

/-! ## Without any assumption on the program -/


theorem handledItems_append (a b : List (Obs E)) : handledItems (a ++ b) = handledItems a ++ handledItems b := by
  simp [handledItems, List.filterMap_append]

/-- Order, the bound of the queue, and what a failure of the send loop leaves behind. -/
structure Order (s : State E) (o : List (Obs E)) : Prop where
  order : acceptedItems o = handledItems o ++ s.queue
  bound : s.queue.length ≤ capacity
  failed : (∃ x b w, .handled x b w false ∈ o) → s.loop ≠ .running ∨ s.crashed = true
  done : s.loop = .done → s.closed = true

theorem Order.step {C : BodyCodec E} {key : Option EncKey} {s : State E} {o : List (Obs E)} (h : Order s o) (ev : Event E) :
    Order (s.step C key ev).1 (o ++ (s.step C key ev).2) := by
  obtain ⟨h1, h2, h3, h4⟩ := h
  have keep : ∀ s' : State E, s'.queue = s.queue → s'.loop = s.loop → s'.crashed = s.crashed → (s.closed = true → s'.closed = true) → Order s' (o ++ []) := by
    intro s' a b c d
    rw [List.append_nil]
    exact ⟨by rw [a]; exact h1, by rw [a]; exact h2, by rw [b, c]; exact h3, by rw [b]; exact fun h => d (h4 h)⟩
  have refused : ∀ (s' : State E) (i : Nat), s'.queue = s.queue → s'.loop = s.loop → s'.crashed = s.crashed → (s.closed = true → s'.closed = true) →
      Order s' (o ++ [.refused i]) := by
    intro s' i a b c d
    refine ⟨?_, by rw [a]; exact h2, by rw [b, c]; simpa using h3, by rw [b]; exact fun h => d (h4 h)⟩
    rw [a, acceptedItems_append, handledItems_append]
    simpa [acceptedItems, handledItems] using h1
  unfold State.step
  split
  · exact keep _ rfl rfl rfl id
  rename_i hcr
  cases ev with
  | write r e => exact keep _ rfl rfl rfl id
  | encodeElsewhere r => exact keep _ rfl rfl rfl id
  | enter i header arg =>
    simp only
    split
    · split
      · exact refused _ i rfl rfl rfl id
      · exact keep _ rfl rfl rfl id
    · exact keep _ rfl rfl rfl id
  | enqueue i =>
    simp only
    split
    · split
      · rename_i x hx hq
        refine ⟨?_, by simp only [List.length_append, List.length_cons, List.length_nil]; omega, by simpa using h3, h4⟩
        rw [acceptedItems_append, handledItems_append, h1]
        simp [acceptedItems, handledItems]
      · exact keep _ rfl rfl rfl id
    · exact keep _ rfl rfl rfl id
  | giveUp i =>
    simp only
    split
    · exact refused _ i rfl rfl rfl fun _ => rfl
    · exact keep _ rfl rfl rfl id
  | take w =>
    simp only
    split
    · rename_i hl
      split
      · split
        · rw [List.append_nil]
          exact ⟨h1, h2, fun _ => .inl (by simp), by simp⟩
        · exact keep _ rfl rfl rfl id
      · rename_i x rest hq
        have ho : ∀ b w ok, acceptedItems (o ++ [.handled x b w ok]) = handledItems (o ++ [.handled x b w ok]) ++ rest := by
          intro b w ok
          rw [acceptedItems_append, handledItems_append, h1, hq]
          simp [acceptedItems, handledItems]
        have hb : rest.length ≤ capacity := by rw [hq, List.length_cons] at h2; omega
        split
        · split
          · exact ⟨ho _ _ _, hb, by simpa using h3, h4⟩
          · exact ⟨ho _ _ _, hb, fun _ => .inl (by simp), by simp⟩
        · exact ⟨ho _ _ _, hb, fun _ => .inl (by simp), by simp⟩
        · exact ⟨ho _ _ _, hb, fun _ => .inr (by simp), h4⟩
    · exact keep _ rfl rfl rfl id
  | stop =>
    simp only
    split
    · split
      · rw [List.append_nil]
        exact ⟨h1, h2, fun _ => .inl (by simp), by simp⟩
      · exact keep _ rfl rfl rfl id
    · exact keep _ rfl rfl rfl id
  | finish =>
    simp only
    split
    · rw [List.append_nil]
      exact ⟨h1, h2, fun _ => .inl (by simp), by simp⟩
    · exact keep _ rfl rfl rfl id
  | close => exact keep _ rfl rfl rfl fun _ => rfl

theorem Order.run {C : BodyCodec E} {key : Option EncKey} (evs : List (Event E)) : ∀ {s : State E} {o : List (Obs E)},
    Order s o → Order (s.run C key evs).1 (o ++ (s.run C key evs).2) := by
  induction evs with
  | nil => intro s o h; simpa [State.run] using h
  | cons ev evs ih =>
    intro s o h
    have := ih (h.step (C := C) (key := key) ev)
    simpa [State.run, List.append_assoc] using this

theorem order_run (C : BodyCodec E) (key : Option EncKey) (heap : Nat → E) (evs : List (Event E)) :
    Order ((State.init heap).run C key evs).1 ((State.init heap).run C key evs).2 := by
  have h0 : Order (State.init heap) ([] : List (Obs E)) := ⟨rfl, by simp [State.init], by simp, by simp [State.init]⟩
  have := h0.run (C := C) (key := key) evs
  rwa [List.nil_append] at this

theorem run_append (C : BodyCodec E) (key : Option EncKey) (a b : List (Event E)) : ∀ s : State E,
    s.run C key (a ++ b) = (((s.run C key a).1.run C key b).1, (s.run C key a).2 ++ ((s.run C key a).1.run C key b).2) := by
  induction a with
  | nil => intro s; simp [State.run]
  | cons ev a ih => intro s; simp [State.run, ih, List.append_assoc]

/-- A send loop that has ended writes nothing more; a closed session stays closed. -/
theorem ended_step {C : BodyCodec E} {key : Option EncKey} {s : State E} (ev : Event E) :
    (s.loop ≠ .running ∨ s.crashed = true →
      (s.step C key ev).1.wire = s.wire ∧ ((s.step C key ev).1.loop ≠ .running ∨ (s.step C key ev).1.crashed = true)) ∧
    (s.closed = true → (s.step C key ev).1.closed = true) := by
  unfold State.step
  constructor
  · intro h
    split
    · exact ⟨rfl, h⟩
    rename_i hcr
    have hl : s.loop ≠ .running := by simpa [hcr] using h
    cases ev with
    | take w => simp [hl]
    | stop => simp [hl]
    | finish =>
      simp only
      split
      · exact ⟨rfl, .inl (by simp)⟩
      · exact ⟨rfl, .inl hl⟩
    | enter i header arg =>
      simp only
      split
      · split
        · exact ⟨rfl, .inl hl⟩
        · exact ⟨rfl, .inl hl⟩
      · exact ⟨rfl, .inl hl⟩
    | enqueue i =>
      simp only
      split
      · split
        · exact ⟨rfl, .inl hl⟩
        · exact ⟨rfl, .inl hl⟩
      · exact ⟨rfl, .inl hl⟩
    | giveUp i =>
      simp only
      split
      · exact ⟨rfl, .inl hl⟩
      · exact ⟨rfl, .inl hl⟩
    | write r e => exact ⟨rfl, .inl hl⟩
    | encodeElsewhere r => exact ⟨rfl, .inl hl⟩
    | close => exact ⟨rfl, .inl hl⟩
  · intro h
    split
    · exact h
    cases ev <;> simp only <;> repeat' split
    all_goals first | exact h | rfl

theorem ended_run {C : BodyCodec E} {key : Option EncKey} (evs : List (Event E)) : ∀ {s : State E},
    (s.loop ≠ .running ∨ s.crashed = true → (s.run C key evs).1.wire = s.wire) ∧ (s.closed = true → (s.run C key evs).1.closed = true) := by
  induction evs with
  | nil => intro s; exact ⟨fun _ => rfl, id⟩
  | cons ev evs ih =>
    intro s
    obtain ⟨a, b⟩ := ended_step (C := C) (key := key) (s := s) ev
    obtain ⟨c, d⟩ := ih (s := (s.step C key ev).1)
    exact ⟨fun h => (c (a h).2).trans (a h).1, fun h => d (b h)⟩

/-- Others do not move a goroutine. -/
theorem place_step {C : BodyCodec E} {key : Option EncKey} {s : State E} {i : Nat} (ev : Event E) (h : caller ev ≠ some i) :
    (s.step C key ev).1.place i = s.place i := by
  unfold State.step
  split
  · rfl
  cases ev with
  | enter j _ _ =>
    have hj : i ≠ j := by intro e; exact h (by rw [e]; rfl)
    simp only
    split
    · split
      · rfl
      · simp [update, hj]
    · rfl
  | enqueue j =>
    have hj : i ≠ j := by intro e; exact h (by rw [e]; rfl)
    simp only
    split
    · split <;> simp [update, hj]
    · rfl
  | giveUp j =>
    have hj : i ≠ j := by intro e; exact h (by rw [e]; rfl)
    simp only
    split
    · simp [update, hj]
    · rfl
  | take w =>
    simp only
    split
    · split
      · split <;> rfl
      · split
        · split <;> rfl
        · rfl
        · rfl
    · rfl
  | stop =>
    simp only
    split
    · split <;> rfl
    · rfl
  | finish =>
    simp only
    split <;> rfl
  | write r e => rfl
  | encodeElsewhere r => rfl
  | close => rfl

theorem place_run {C : BodyCodec E} {key : Option EncKey} {i : Nat} (evs : List (Event E)) (h : ∀ ev ∈ evs, caller ev ≠ some i) : ∀ {s : State E},
    (s.run C key evs).1.place i = s.place i := by
  induction evs with
  | nil => intro s; rfl
  | cons ev evs ih =>
    intro s
    simp only [State.run]
    rw [ih fun e he => h e (by simp [he]), place_step ev (h ev (by simp))]

theorem mem_waiting_none {s : State E} {r : Nat} (h : s.queue = []) (hp : ∀ i, s.place i = none) : ¬ Spec.Waiting s r := by
  rintro (⟨i, x, hx, -⟩ | ⟨x, hx, -⟩)
  · rw [hp i] at hx; simp at hx
  · rw [h] at hx; simp at hx

theorem mem_zip_prefix {α β : Type} {a more : List α} {b b' : List β} (hb : b <+: b') (hl : b'.length ≤ a.length) (p : α × β)
    (hp : p ∈ (a ++ more).zip b) : p ∈ a.zip b' := by
  obtain ⟨i, hi⟩ := List.mem_iff_getElem?.1 hp
  rw [List.getElem?_zip_eq_some] at hi
  obtain ⟨t, rfl⟩ := hb
  have hlt : i < b.length := (List.getElem?_eq_some_iff.1 hi.2).1
  rw [List.length_append] at hl
  apply List.mem_iff_getElem?.2 ⟨i, List.getElem?_zip_eq_some.2 ⟨?_, ?_⟩⟩
  · rw [← hi.1, List.getElem?_append_left (by omega)]
  · rw [← hi.2, List.getElem?_append_left hlt]

end Verif.Outbox
