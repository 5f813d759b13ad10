import Verif.Lemmas.Registered
import Verif.Props.Frame
import Verif.Props.Sample
/-! # C83: types that an application registers -/

namespace Verif

open Spec

variable {X : Type}

/-! ## Bodies -/

/-- C83, bodies: after any calls of `Register`, the body of a message is decoded by the type registered last for its id; ids for which nothing was
registered are decoded as before. (A nil creator, or one that returns nil, makes decoding panic.) -/
theorem C83_body_table (env : Env) (M : OwnBody X) (rs : List (UInt16 × Option (AnyBody X))) (typ : UInt16) (data : Bytes) :
    ((BodyTable.initial X).registerAll rs).decode env M typ data =
      match lastFor typ rs with
      | some (some (.own x)) => ownResult M x data
      | some (some (.builtin e)) => (Entity.decodeNew env e data).onFirst .builtin
      | some none => .panic
      | none => (Entity.decodeBody env typ data).onFirst .builtin := by
  have h := BodyTable.registerAll_eq rs (BodyTable.initial X) typ
  cases hl : lastFor typ rs with
  | none =>
    rw [hl] at h
    exact BodyTable.decode_initial env M _ typ data h
  | some c =>
    rw [hl] at h
    rw [BodyTable.decode, h]
    cases c with
    | none => rfl
    | some b =>
      cases b with
      | builtin e => rfl
      | own x =>
        show (M.decodeNew x data).onFirst AnyBody.own = ownResult M x data
        unfold OwnBody.decodeNew ownResult
        cases M.decodePacket x with
        | some f => cases hf : f data <;> simp [Res.onFirst, hf]
        | none =>
          cases hf : M.decode x data with
          | ok r => obtain ⟨y, n⟩ := r; simp [Res.onFirst, hf]
          | err e => simp [Res.onFirst, hf]
          | panic => simp [Res.onFirst, hf]

/-- C83, bodies: a built-in type that is registered for another id decodes there as it does for its own id. -/
theorem C83_builtin_elsewhere (env : Env) (M : OwnBody X) (rs : List (UInt16 × Option (AnyBody X))) (typ : UInt16) (e : Entity)
    (he : Entity.create e.msgID = some e) (hreg : lastFor typ rs = some (some (.builtin e))) (data : Bytes) :
    ((BodyTable.initial X).registerAll rs).decode env M typ data = (Entity.decodeBody env e.msgID data).onFirst .builtin := by
  have h := Entity.decodeBody_new env e.msgID data
  rw [he] at h
  rw [C83_body_table, hreg, h]

/-- Non-trivial case: a text message sent by the platform (0x8300), registered for the id 0x0f02. -/
example : Entity.create (Entity.m8300 {}).msgID = some (.m8300 {}) ∧
    lastFor (0x0f02 : UInt16) [(0x0f02, some (.builtin (.m8300 {}))), (0x0f01, some (AnyBody.own ()))] = some (some (.builtin (.m8300 {}))) := ⟨rfl, rfl⟩

/-- C83, bodies: a message with a body of an application's own type comes back from its own bytes, if its type was registered last for its id and
decodes what it encodes, in at most 1023 bytes. Missing from the property: own types that are not pointers (`C83_refuted_body`). -/
theorem C83_body_round_trip_partial (env : Env) (M : OwnBody X) (rs : List (UInt16 × Option (AnyBody X))) (m : Message (AnyBody X)) (x x' x0 y : X)
    (b : Bytes) (n : Nat) (hm : m.body = .val (.own x)) (hptr : M.pointer x = true) (hreg : lastFor (M.msgID x) rs = some (some (.own x0)))
    (henc : M.encode x = .ok (b, x')) (hdec : ownResult M x0 b = .ok (.own y, n))
    (hicc0 : 0 < m.header.iccID.toNat) (hicc1 : m.header.iccID.toNat < 10 ^ 12) (hsize : b.length ≤ 1023)
    (hplain : encryptFlag m.header.property.toNat = false) (hpacket : packetFlag m.header.property.toNat = true → m.header.packet.isSome)
    (key : Option DecKey) (self : Message (AnyBody X)) :
    ∃ frame m' d, Message.encode (registeredCodec env M ((BodyTable.initial X).registerAll rs)) none m = .ok (frame, m') ∧
      Message.decode (registeredCodec env M ((BodyTable.initial X).registerAll rs)) key self frame = .ok d ∧ d.body = .val (.own y) ∧
      d.header.msgID = M.msgID x ∧ d.header.serial = m.header.serial ∧ d.header.iccID = m.header.iccID ∧ d.header.packet = m.header.packet := by
  obtain ⟨frame, m', d, h1, h2, h3, h4, h5, h6, h7, -⟩ := C01_message_round_trip
    (registeredCodec env M ((BodyTable.initial X).registerAll rs)) m (.own x) (.own x') (.own y) b n hm
    (by
      show (if M.pointer x = false then Res.panic else match M.encode x with
        | .ok (b, x') => Res.ok (b, AnyBody.own x') | .err x => .err x | .panic => .panic) = _
      rw [hptr, henc]; rfl)
    (by
      show ((BodyTable.initial X).registerAll rs).decode env M (M.msgID x) b = _
      rw [C83_body_table, hreg]
      exact hdec)
    hicc0 hicc1 hsize hplain hpacket key self
  exact ⟨frame, m', d, h1, h2, h3, h4, h5, h6, h7⟩

namespace Sample

/-- An own type of bodies: a text of bytes for the message id 0x0f01. -/
def ownBody : OwnBody Bytes where
  pointer _ := true
  msgID _ := 0x0f01
  encode x := .ok (x, x)
  decode _ data := .ok (data, data.length)
  decodePacket _ := none

/-- Registrations: the own type, first for another id, then for its own, where a built-in type was registered before; and a nil creator. -/
def ownRegs : List (UInt16 × Option (AnyBody Bytes)) :=
  [(0x0f00, some (.own [])), (0x0f01, some (.builtin (.m0002 {}))), (0x0f02, none), (0x0f01, some (.own []))]

def ownMessage : Message (AnyBody Bytes) := { header := { iccID := 13800138000, serial := 7 }, body := .val (.own [0x7e, 1, 2]) }

end Sample

/-- Non-trivial case of `C83_body_table` and `C83_body_round_trip_partial`. -/
example : lastFor (0x0f01 : UInt16) Sample.ownRegs = some (some (.own [])) ∧ lastFor (0x0200 : UInt16) Sample.ownRegs = none ∧
    (∃ frame m' d, Message.encode (registeredCodec Sample.env Sample.ownBody ((BodyTable.initial Bytes).registerAll Sample.ownRegs)) none Sample.ownMessage =
        .ok (frame, m') ∧
      Message.decode (registeredCodec Sample.env Sample.ownBody ((BodyTable.initial Bytes).registerAll Sample.ownRegs)) none {} frame = .ok d ∧
      d.body = .val (.own [0x7e, 1, 2])) := by
  refine ⟨by decide, by decide, ?_⟩
  obtain ⟨f, m', d, h1, h2, h3, -⟩ := C83_body_round_trip_partial Sample.env Sample.ownBody Sample.ownRegs Sample.ownMessage [0x7e, 1, 2] [0x7e, 1, 2] []
    [0x7e, 1, 2] [0x7e, 1, 2] 3 rfl rfl (by decide) rfl rfl (by decide) (by decide) (by decide) (by decide) (by decide) none {}
  exact ⟨f, m', d, h1, h2, h3⟩

/-- C83 is false of the code for bodies whose type is not a pointer type: they can be registered and are decoded, but neither can a message with such a
body be encoded, nor does the receive loop survive one (`reflect.Value.IsNil` panics, and nothing recovers). -/
theorem C83_refuted_body (env : Env) (M : OwnBody X) (t : BodyTable X) (key : Option EncKey) (m : Message (AnyBody X)) (x : X)
    (hm : m.body = .val (.own x)) (hx : M.pointer x = false) (auto : Bool) :
    Message.encode (registeredCodec env M t) key m = .panic ∧ route M auto m = .panic := by
  have h1 : (registeredCodec env M t).encode (.own x) = .panic := if_pos hx
  constructor
  · unfold Message.encode Message.encodeBody
    rw [hm]
    simp only [h1]
    rfl
  · unfold route
    rw [hm]
    simp only [hx]
    rfl

/-- C83, received messages, exactly: the receive loop of the server panics (and the process ends) if and only if the body is of an own type that is
not a pointer type, or the message has the id of one of the protocol's answers, is not handled as a part of an upload, and its body is not of the
built-in type for this id. -/
theorem C83_received_exact (M : OwnBody X) (auto : Bool) (m : Message (AnyBody X)) : route M auto m = .panic ↔
    ∃ b, m.body = .val b ∧ ((∃ x, b = .own x ∧ M.pointer x = false) ∨
      (m.header.msgID ∈ answerIDs ∧
        ¬ (auto = true ∧ packetFlag m.header.property.toNat = true ∧
          ((∃ e, b = .builtin (.m0801 e)) ∨ ∃ x, b = .own x ∧ (M.decodePacket x).isSome = true)) ∧
        ∀ e, b = .builtin e → e.msgID ≠ m.header.msgID)) := by
  have hpk : ∀ b : AnyBody X, ((∃ e, b = .builtin (.m0801 e)) ∨ ∃ x, b = .own x ∧ (M.decodePacket x).isSome = true) ↔ b.isPacket M = true := by
    intro b
    cases b with
    | builtin e => cases e <;> simp [AnyBody.isPacket]
    | own x => simp [AnyBody.isPacket]
  simp only [hpk]
  cases hb : m.body with
  | nil => exact ⟨fun h => (by rw [route, hb] at h; cases h), fun ⟨b, h, _⟩ => (nomatch h)⟩
  | nilPtr id => exact ⟨fun h => (by rw [route, hb] at h; cases h), fun ⟨b, h, _⟩ => (nomatch h)⟩
  | val b =>
    by_cases hp : ∃ x, b = .own x ∧ M.pointer x = false
    · obtain ⟨x, rfl, hx⟩ := hp
      exact ⟨fun _ => ⟨_, rfl, .inl ⟨x, rfl, hx⟩⟩, fun _ => (C83_refuted_body Sample.env M (fun _ => none) none m x hb hx auto).2⟩
    · have hr : route M auto m = if auto && packetFlag m.header.property.toNat && b.isPacket M then Res.ok Route.part else
          replySerialAny m.header b >>= fun serial => .ok (.delivered serial) := by
        rw [route, hb, ← Property.isEnablePacket_spec]
        cases b with
        | builtin e => rfl
        | own x =>
          have hx : M.pointer x = true := by
            cases hx : M.pointer x with
            | true => rfl
            | false => exact absurd ⟨x, rfl, hx⟩ hp
          simp only [hx]
          rfl
      rw [hr]
      by_cases hpart : (auto && packetFlag m.header.property.toNat && b.isPacket M) = true
      · rw [if_pos hpart]
        refine ⟨fun h => (nomatch h), ?_⟩
        rintro ⟨b', h, h'⟩
        cases h
        rcases h' with h' | ⟨-, h', -⟩
        · exact absurd h' hp
        · simp only [Bool.and_eq_true] at hpart
          exact absurd ⟨hpart.1.1, hpart.1.2, hpart.2⟩ h'
      · rw [if_neg hpart]
        have hs : ((replySerialAny m.header b >>= fun serial => Res.ok (Route.delivered serial)) = .panic) ↔ replySerialAny m.header b = .panic := by
          cases replySerialAny m.header b <;> simp [bind, Res.bind]
        refine hs.trans ((replySerialAny_panic m.header b).trans ⟨fun ⟨h1, h2⟩ => ⟨b, rfl, .inr ⟨h1, ?_, h2⟩⟩, ?_⟩)
        · rintro ⟨a1, a2, a3⟩
          exact hpart (by rw [a1, a2, a3]; rfl)
        · rintro ⟨b', h, h'⟩
          cases h
          rcases h' with h' | ⟨h1, -, h2⟩
          · exact absurd h' hp
          · exact ⟨h1, h2⟩

/-- C83, received messages: a message is handed to the handlers, or taken as a part of an upload, whatever bytes were received, if all own types are
pointer types and nothing but the built-in type was registered for the ids of answers. -/
theorem C83_received_partial (env : Env) (M : OwnBody X) (rs : List (UInt16 × Option (AnyBody X))) (hptr : ∀ x, M.pointer x = true)
    (hans : ∀ id ∈ answerIDs, ∀ c, lastFor id rs = some c → ∃ e, c = some (.builtin e) ∧ e.msgID = id)
    (key : Option DecKey) (data : Bytes) (d : Message (AnyBody X)) (auto : Bool)
    (h : Message.decode (registeredCodec env M ((BodyTable.initial X).registerAll rs)) key {} data = .ok d) :
    ∃ r, route M auto d = .ok r ∧ (r = .unsupported ↔ d.body = .nil) := by
  cases hb : d.body with
  | nil => exact ⟨.unsupported, by rw [route, hb], by simp⟩
  | nilPtr id => exact absurd hb (by
      obtain ⟨_, _, _, _, _, _, _, hbody⟩ := Message.decode_body_inv rfl h (by rw [hb]; simp)
      rw [hbody]; simp)
  | val b =>
    obtain ⟨content, plain, b', n, -, -, hdec, hbody⟩ := Message.decode_body_inv rfl h (by rw [hb]; simp)
    rw [hb] at hbody
    cases hbody
    have hdec : ((BodyTable.initial X).registerAll rs).decode env M d.header.msgID plain = .ok (b, n) := hdec
    rw [C83_body_table] at hdec
    have hno : route M auto d ≠ .panic := by
      intro hp
      obtain ⟨b', hb', h'⟩ := (C83_received_exact M auto d).1 hp
      rw [hb] at hb'
      cases hb'
      rcases h' with ⟨x, -, hx⟩ | ⟨hin, -, hne⟩
      · rw [hptr] at hx; cases hx
      · cases hl : lastFor d.header.msgID rs with
        | none =>
          rw [hl] at hdec
          obtain ⟨e, he, rfl⟩ := Res.onFirst_ok hdec
          exact hne e rfl (Entity.decodeBody_msgID he)
        | some c =>
          obtain ⟨e0, rfl, he0⟩ := hans _ hin c hl
          rw [hl] at hdec
          obtain ⟨e, he, rfl⟩ := Res.onFirst_ok hdec
          exact hne e rfl ((Entity.decodeNew_msgID he).trans he0)
    have hok : ∃ r, route M auto d = .ok r ∧ r ≠ .unsupported := by
      revert hno
      unfold route
      rw [hb]
      have fin : ∀ (c : Bool), (if c then Res.ok Route.part else
          replySerialAny d.header b >>= fun serial => .ok (.delivered serial)) ≠ .panic → ∃ r, (if c then Res.ok Route.part else
          replySerialAny d.header b >>= fun serial => .ok (.delivered serial)) = .ok r ∧ r ≠ .unsupported := by
        intro c hc
        cases c with
        | true => exact ⟨_, rfl, by simp⟩
        | false =>
          have hc : (replySerialAny d.header b >>= fun serial => Res.ok (Route.delivered serial)) ≠ .panic := hc
          obtain ⟨s, hs⟩ := replySerialAny_ok d.header b (fun hp => hc (by rw [hp]; rfl))
          exact ⟨.delivered s, by show (replySerialAny d.header b >>= fun serial => Res.ok (Route.delivered serial)) = _; rw [hs]; rfl, by simp⟩
      cases b with
      | builtin e => exact fin _
      | own x => simp only [hptr x]; exact fin _
    obtain ⟨r, h1, h2⟩ := hok
    exact ⟨r, h1, by simp [h2]⟩

/-- Non-trivial cases: registering an own pointer type for another id, or the built-in type for the id of an answer again, meets the hypotheses of
`C83_received_partial`; a message with an own body and the id of the terminal's general answer meets `C83_received_exact`. -/
example : (∀ x, Sample.ownBody.pointer x = true) ∧
    (∀ id ∈ answerIDs, ∀ c, lastFor id (Sample.ownRegs ++ [(0x0001, some (.builtin (.m0001 {})))]) = some c → ∃ e, c = some (.builtin e) ∧ e.msgID = id) ∧
    route Sample.ownBody true { Sample.ownMessage with header := { msgID := 0x0001 } } = .panic ∧
    route Sample.ownBody true { Sample.ownMessage with header := { msgID := 0x0f01 } } = .ok (.delivered 0) := by
  refine ⟨fun _ => rfl, ?_, rfl, rfl⟩
  intro id hid c
  simp only [answerIDs, List.mem_cons, List.not_mem_nil, or_false] at hid
  rcases hid with rfl | rfl | rfl | rfl | rfl | rfl | rfl | rfl
  · intro h
    have : lastFor (0x0001 : UInt16) (Sample.ownRegs ++ [(0x0001, some (.builtin (.m0001 {})))]) = some (some (.builtin (.m0001 {}))) := rfl
    rw [this] at h
    cases h
    exact ⟨_, rfl, rfl⟩
  all_goals (intro h; exact absurd h (by rw [show lastFor _ (Sample.ownRegs ++ [(0x0001, some (.builtin (.m0001 {})))]) = none from rfl]; simp))

/-! ## Extras -/

/-- C83, extras: after any calls of `extra.Register`, the content of an item is decoded by the type registered last for its id; ids for which nothing
was registered are decoded as before. -/
theorem C83_extra_table (M : OwnExtra X) (rs : List (UInt8 × Option (AnyExtra X))) (typ : UInt8) (data : Bytes) :
    ((ExtraTable.initial X).registerAll rs).decode M typ data =
      match lastFor typ rs with
      | some (some (.own x)) => (M.decode x data).onFirst .own
      | some (some (.builtin e)) => (Extra.decode e.id data).onFirst .builtin
      | some none => .panic
      | none => (Extra.decode typ data).onFirst .builtin := by
  have h := ExtraTable.registerAll_eq rs (ExtraTable.initial X) typ
  cases hl : lastFor typ rs with
  | none =>
    rw [hl] at h
    exact ExtraTable.decode_initial M _ typ data h
  | some c =>
    rw [hl] at h
    rw [ExtraTable.decode, h]
    cases c with
    | none => rfl
    | some b => cases b <;> rfl

/-- C83, extras, exactly: a report whose fixed part is that of `e`, with any bytes behind, is decoded to `e` with the extras `xs` if and only if the
bytes are items, each unknown or decoded completely by the type registered for it, `xs` are the decoded ones in order, and at most one byte is left. -/
theorem C83_extras_exact (env : Env) (M : OwnExtra X) (t : ExtraTable X) (e : T0200) (he : BaseOK env e) (hx : e.extras = []) (front tail : Bytes)
    (hfront : T0200.encode env e = .ok (front, e)) (xs : List (AnyExtra X)) :
    (∃ n, T0200.decodeAny env M t (front ++ tail) = .ok ((e, xs), n)) ↔
      ∃ is rest, tail = itemsWire is ++ rest ∧ rest.length < 2 ∧ (∀ i ∈ is, i.2.length < 256) ∧ ReadsAs (t.decode M) is xs := by
  have hf : front = baseBytes env e := by
    have := T0200.encode_base env e he [] (by rw [hx]; rfl)
    rw [hfront, List.append_nil] at this
    exact (Prod.mk.inj (Res.ok.inj this)).1
  have he' : { e with extras := [] } = e := by cases e; cases hx; rfl
  rw [hf, T0200.decodeAny_base env M t e he, he', ← anyExtras_iff M t tail.length tail (Nat.le_refl _)]
  cases decodeAnyExtras M t tail.length tail with
  | ok ys =>
    constructor
    · rintro ⟨n, h⟩
      exact congrArg Res.ok (Prod.mk.inj (Prod.mk.inj (Res.ok.inj h)).1).2
    · intro h
      obtain rfl := Res.ok.inj h
      exact ⟨28, rfl⟩
  | err x => exact ⟨fun ⟨n, h⟩ => (nomatch h), fun h => (nomatch h)⟩
  | panic => exact ⟨fun ⟨n, h⟩ => (nomatch h), fun h => (nomatch h)⟩

/-- C83, extras: a report with extras of built-in and own types, of pointer types and with at most 255 bytes each, comes back from its own bytes: with
every extra known to the receiver, in order, without the nil ones and the unknown ones. Missing from the property: own types that are not pointers
(`C83_refuted`). -/
theorem C83_extras_round_trip_partial (env : Env) (M : OwnExtra X) (t : ExtraTable X) (e : T0200) (he : BaseOK env e) (hx : e.extras = [])
    (xs : List (Option (AnyExtra X))) (ys : List (AnyExtra X)) (h : ExtrasArrive M (t.decode M) xs ys) :
    ∃ b n, T0200.encodeAny env M e xs = .ok (b, e) ∧ T0200.decodeAny env M t b = .ok ((e, ys), n) := by
  obtain ⟨is, h1, h2, h3⟩ := encList_arrive M (t.decode M) h
  have hfront := T0200.encode_base env e he [] (by rw [hx]; rfl)
  rw [List.append_nil] at hfront
  obtain ⟨n, hn⟩ := (C83_extras_exact env M t e he hx _ (itemsWire is) hfront ys).2 ⟨is, [], by simp, by decide, h2, h3⟩
  exact ⟨_, n, T0200.encodeAny_base env M e he xs _ h1, hn⟩

/-- C83: extras made by the constructors of the built-in types arrive as such, if nothing else was registered for their ids. -/
theorem C83_builtin_extras_arrive (M : OwnExtra X) (rs : List (UInt8 × Option (AnyExtra X))) (v : ExtraVal) (hv : ExtraOK v)
    (h : lastFor (Extra.new v).id rs = none) :
    ExtraArrives M (((ExtraTable.initial X).registerAll rs).decode M) (some (.builtin (Extra.new v))) (some (.builtin ⟨v, []⟩)) := by
  refine ⟨?_, .inr ⟨_, ?_, rfl⟩⟩
  · have := Extra.new_length v; omega
  · rw [C83_extra_table, h]
    show (Extra.decode (Extra.new v).id (Extra.new v).serialized).onFirst AnyExtra.builtin = _
    rw [Extra.decode_new v hv]; rfl

/-- C83: without registrations, reports are decoded as `T0200.decode` says, the model of the same code with the built-in types only. -/
theorem C83_nothing_registered (env : Env) (M : OwnExtra X) (data : Bytes) : T0200.decode env {} data =
    (T0200.decodeAny env M (ExtraTable.initial X) data).onFirst fun r => { r.1 with extras := r.2.map AnyExtra.toBuiltin } :=
  T0200.decodeAny_initial env M data

namespace Sample

/-- An own type of extras with a length of any number of bytes, for the id 0xe1; the empty value is the nil pointer. -/
def ownExtra : OwnExtra Bytes where
  pointer _ := true
  isNil x := x.isEmpty
  id _ := 0xe1
  data x := x
  decode _ data := .ok (data, data.length)

/-- The same as a type that is not a pointer type, for example a Go struct. -/
def valueExtra : OwnExtra Bytes := { ownExtra with pointer := fun _ => false, isNil := fun _ => false }

def ownExtraRegs : List (UInt8 × Option (AnyExtra Bytes)) := [(0xe1, some (.own []))]

def extrasSent : List (Option (AnyExtra Bytes)) :=
  [some (.builtin (Extra.new (.x01 77))), some (.own [9, 8, 7]), none, some (.own []), some (.builtin (Extra.new (.x30 5)))]

end Sample

/-- Non-trivial case: a mileage, an own extra, two that are nil, and a signal strength. -/
example : ExtrasArrive Sample.ownExtra (((ExtraTable.initial Bytes).registerAll Sample.ownExtraRegs).decode Sample.ownExtra) Sample.extrasSent
    [.builtin ⟨.x01 77, []⟩, .own [9, 8, 7], .builtin ⟨.x30 5, []⟩] :=
  .comes (C83_builtin_extras_arrive Sample.ownExtra Sample.ownExtraRegs (.x01 77) trivial (by decide))
    (.comes (x := some (.own [9, 8, 7])) (y := .own [9, 8, 7]) ⟨rfl, .inr ⟨rfl, by decide, .inr ⟨_, rfl, rfl⟩⟩⟩
      (.gone (x := none) rfl (.gone (x := some (.own [])) ⟨rfl, .inl ⟨rfl, rfl⟩⟩
        (.comes (C83_builtin_extras_arrive Sample.ownExtra Sample.ownExtraRegs (.x30 5) trivial (by decide)) .nil))))

/-- Non-trivial case of `C83_extras_exact`: an item with a content of the own type, one that no one knows, and one byte behind. -/
example : ReadsAs (((ExtraTable.initial Bytes).registerAll Sample.ownExtraRegs).decode Sample.ownExtra) [(0xe1, [9, 8]), (0xe2, [1])] [.own [9, 8]] ∧
    BaseOK Sample.env { status := 4, lat := ⟨-33868820, -6⟩, lng := ⟨151209290, -6⟩, time := 1700000000 } :=
  ⟨.known rfl (.unknown rfl .nil), ⟨rfl, by decide⟩, ⟨rfl, by decide⟩, ⟨fun _ => rfl, fun _ => by decide⟩,
    ⟨fun h => absurd h (by decide), fun h => absurd h (by decide)⟩, by simp [TimeOK, Sample.env, Spec.unix2010, Spec.unix2100]⟩

/-- C83 is false of the code as stated: whatever the report and whatever was registered, an extra of a type that is not a pointer type makes `Encode`
panic, although such a type can be registered and is decoded. -/
theorem C83_refuted (env : Env) (M : OwnExtra X) (e : T0200) (x : X) (hx : M.pointer x = false) (before after : List (Option (AnyExtra X)))
    (hb : ∀ y, some (.own y) ∈ before → M.pointer y = true) : T0200.encodeAny env M e (before ++ some (.own x) :: after) = .panic := by
  have hl : encList (encodeAnyExtra M) (before ++ some (.own x) :: after) = .panic := by
    induction before with
    | nil =>
      show (encodeAnyExtra M (some (.own x)) >>= _) = _
      rw [encodeAnyExtra, if_pos hx]; rfl
    | cons y ys ih =>
      have hy : ∃ b, encodeAnyExtra M y = .ok b := by
        match y with
        | none => exact ⟨_, rfl⟩
        | some (.builtin e) => exact ⟨_, rfl⟩
        | some (.own z) =>
          rw [encodeAnyExtra, hb z (List.mem_cons_self ..), if_neg (by decide)]
          split <;> exact ⟨_, rfl⟩
      obtain ⟨b, hy⟩ := hy
      show (encodeAnyExtra M y >>= fun b => encList (encodeAnyExtra M) (ys ++ some (.own x) :: after) >>= fun bs => .ok (b ++ bs)) = _
      rw [hy, ih fun z hz => hb z (List.mem_cons_of_mem _ hz)]
      rfl
  have mark : ∀ (st : UInt32) (v : Int) (bit : Nat), ∃ r, markNegative st v bit = .ok r := by
    intro st v bit
    unfold markNegative
    split
    · obtain ⟨r, h, -⟩ := setBitUint32_eq st bit true
      exact ⟨r, h⟩
    · exact ⟨st, rfl⟩
  unfold T0200.encodeAny
  obtain ⟨s1, h1⟩ := mark e.status (micro e.lat) 2
  obtain ⟨s2, h2⟩ := mark s1 (micro e.lng) 3
  simp only [show markNegative e.status (micro e.lat) 2 = .ok s1 from h1, Res.ok_bind,
    show markNegative s1 (micro e.lng) 3 = .ok s2 from h2, hl]
  rfl

/-- The value type of the example: its extras are decoded from items, but encoding panics. -/
example : ReadsAs (((ExtraTable.initial Bytes).registerAll Sample.ownExtraRegs).decode Sample.valueExtra) [(0xe1, [9, 8])] [.own [9, 8]] ∧
    T0200.encodeAny Sample.env Sample.valueExtra {} [some (.builtin (Extra.new (.x01 77))), some (.own [9, 8])] = .panic :=
  ⟨.known rfl .nil, C83_refuted _ _ _ [9, 8] rfl [some (.builtin (Extra.new (.x01 77)))] [] (by simp)⟩

end Verif
