import Verif.Model.Session
/-! # Types of bodies and extras that an application registers

protocol/register.go:339-341 and protocol/extra/register.go:73-76 let an application add its own types to the two tables, or replace the built-in
ones. The tables are plain Go maps: all calls of `Register` are taken to be over before the first message is decoded (Go does not allow a map to be
changed while it is read). -/

namespace Verif

/-! ## Bodies -/

/-- The methods of an application's own types of bodies (protocol/entity.go:6-19); `X` holds the values of all of them, with their types.
`decodePacket x` is `none` for a type that has not the methods of `EntityPacket`. `Encode` and the decoders return the receiver as they leave it.
`pointer x` says whether the type of `x` is a pointer type, or another one that has a nil value: `reflect.Value.IsNil`, used in
protocol/message.go:26 and session_handler.go:44, panics for the other types. (A nil pointer is the `Body.nilPtr` of the message layer.) -/
structure OwnBody (X : Type) where
  pointer : X → Bool
  msgID : X → UInt16
  encode : X → Res (Bytes × X)
  decode : X → Bytes → Res (X × Nat)
  decodePacket : X → Option (Bytes → Res X)

/-- A body: of a built-in type or of an application's own (protocol/entity.go:6-10). -/
inductive AnyBody (X : Type) where
  | builtin (e : Entity)
  | own (x : X)
  deriving DecidableEq, Repr

/-- The map `entityMapper` (protocol/register.go:140): for a message id the body its creator returns. Every call of a creator is taken to return a new
value that equals this one. `some none`: the creator is nil or returns nil. -/
abbrev BodyTable (X : Type) := UInt16 → Option (Option (AnyBody X))

/-- The table before any registration (protocol/register.go:140-336). -/
def BodyTable.initial (X : Type) : BodyTable X := fun typ => (Entity.create typ).map fun e => some (.builtin e)

/-- protocol/register.go:339-341 `Register`. -/
def BodyTable.register {X : Type} (t : BodyTable X) (typ : UInt16) (c : Option (AnyBody X)) : BodyTable X :=
  fun id => if id = typ then some c else t id

/-- Calls of `Register` one after the other (protocol/register.go:339-341). -/
def BodyTable.registerAll {X : Type} (t : BodyTable X) : List (UInt16 × Option (AnyBody X)) → BodyTable X
  | [] => t
  | (typ, c) :: rs => (t.register typ c).registerAll rs

/-- The part of protocol/message.go:188-202 behind the creator, for a built-in body. -/
def Entity.decodeNew (env : Env) (e : Entity) (data : Bytes) : Res (Entity × Nat) :=
  match e with
  | .m0801 b =>
    match T0801.decodePacket env b data with
    | .ok b' => .ok (.m0801 b', data.length)
    | .err x => .err x
    | .panic => .panic
  | e => Entity.decode env e data

/-- The part of protocol/message.go:188-202 behind the creator, for an application's own body. -/
def OwnBody.decodeNew {X : Type} (M : OwnBody X) (x : X) (data : Bytes) : Res (X × Nat) :=
  match M.decodePacket x with
  | none => M.decode x data
  | some f =>
    match f data with
    | .ok x' => .ok (x', data.length)
    | .err e => .err e
    | .panic => .panic

/-- The same value with another first component (plumbing for protocol/message.go:182-203). -/
def Res.onFirst {α β : Type} (f : α → β) : Res (α × Nat) → Res (β × Nat)
  | .ok (a, n) => .ok (f a, n)
  | .err e => .err e
  | .panic => .panic

/-- protocol/message.go:182-203 `Message.decode` with a table. -/
def BodyTable.decode {X : Type} (env : Env) (M : OwnBody X) (t : BodyTable X) (typ : UInt16) (data : Bytes) : Res (AnyBody X × Nat) :=
  match t typ with
  | none => .err .typeNotRegistered
  | some none => .panic
  | some (some (.builtin e)) => (Entity.decodeNew env e data).onFirst .builtin
  | some (some (.own x)) => (M.decodeNew x data).onFirst .own

/-- The bodies of a program with its registrations, for the message layer (protocol/entity.go:6-10, protocol/message.go:182-203). -/
def registeredCodec {X : Type} (env : Env) (M : OwnBody X) (t : BodyTable X) : BodyCodec (AnyBody X) where
  msgID
    | .builtin e => e.msgID
    | .own x => M.msgID x
  encode
    | .builtin e =>
      match Entity.encode env e with
      | .ok (b, e') => .ok (b, .builtin e')
      | .err x => .err x
      | .panic => .panic
    | .own x =>
      if M.pointer x = false then .panic
      else
        match M.encode x with
        | .ok (b, x') => .ok (b, .own x')
        | .err x => .err x
        | .panic => .panic
  decode := t.decode env M

/-- What the receive loop does with a message (session_handler.go:44-68). -/
inductive Route where
  /-- session_handler.go:45: it is answered as not supported -/
  | unsupported
  /-- session_handler.go:50-51, 58-59: the callback of the request with this number is called (0: none is looked for), then the handler -/
  | delivered (answers : UInt16)
  /-- session_handler.go:63: it is a part of an upload -/
  | part
  deriving DecidableEq, Repr

/-- session.go:151-177: the number of the request that a message answers; the type assertions fail for every other type. -/
def replySerialAny {X : Type} (header : Header) : AnyBody X → Res UInt16
  | .builtin e => Session.replySerial { header := header, body := .val e }
  | .own _ =>
    if header.msgID = 0x0001 ∨ header.msgID = 0x0104 ∨ header.msgID = 0x0201 ∨ header.msgID = 0x0302 ∨ header.msgID = 0x0500 ∨
      header.msgID = 0x0700 ∨ header.msgID = 0x0802 ∨ header.msgID = 0x0805 then .panic
    else .ok 0

/-- Whether a body has the methods of `EntityPacket` (protocol/entity.go:12-19, session_handler.go:56). -/
def AnyBody.isPacket {X : Type} (M : OwnBody X) : AnyBody X → Bool
  | .builtin (.m0801 _) => true
  | .builtin _ => false
  | .own x => (M.decodePacket x).isSome

/-- session_handler.go:44-68: where a received message goes; `auto` is the option AutoMergePacket. What happens to a part of an upload is not followed
here. -/
def route {X : Type} (M : OwnBody X) (auto : Bool) (m : Message (AnyBody X)) : Res Route :=
  match m.body with
  | .val b => do
    match b with
    | .own x => if M.pointer x = false then Res.panic else .ok ()
    | .builtin _ => .ok ()
    if auto && Property.isEnablePacket m.header.property && b.isPacket M then .ok .part
    else do
      let serial ← replySerialAny m.header b
      .ok (.delivered serial)
  | _ => .ok .unsupported

/-! ## Extras of a location report -/

/-- The methods of an application's own types of extras (protocol/extra/extra.go:10-15). `pointer x` says whether the type of `x` has a nil
value (a pointer, map, slice, function or channel type), and `isNil x` whether `x` is that value: `reflect.Value.IsNil`, used in
protocol/t808_0x0200.go:145, panics for the other types. `ID` and `Data` are taken not to panic. -/
structure OwnExtra (X : Type) where
  pointer : X → Bool
  isNil : X → Bool
  id : X → UInt8
  data : X → Bytes
  decode : X → Bytes → Res (X × Nat)

/-- An extra: of a built-in type or of an application's own (protocol/extra/extra.go:10-15). -/
inductive AnyExtra (X : Type) where
  | builtin (e : Extra)
  | own (x : X)
  deriving DecidableEq, Repr

/-- The built-in creators of protocol/extra/register.go:34-71: `new(Extra_0x..)`, by the id. -/
def Extra.create (typ : UInt8) : Option Extra :=
  if typ = 0x01 then some ⟨.x01 0, []⟩
  else if typ = 0x02 then some ⟨.x02 0, []⟩
  else if typ = 0x03 then some ⟨.x03 0, []⟩
  else if typ = 0x04 then some ⟨.x04 0, []⟩
  else if typ = 0x11 then some ⟨.x11 0 none, []⟩
  else if typ = 0x12 then some ⟨.x12 0 0 0, []⟩
  else if typ = 0x13 then some ⟨.x13 0 0 0, []⟩
  else if typ = 0x25 then some ⟨.x25 0, []⟩
  else if typ = 0x2a then some ⟨.x2a 0, []⟩
  else if typ = 0x2b then some ⟨.x2b 0, []⟩
  else if typ = 0x30 then some ⟨.x30 0, []⟩
  else if typ = 0x31 then some ⟨.x31 0, []⟩
  else none

/-- The map `entityMapper` of extras (protocol/extra/register.go:34); as for bodies. -/
abbrev ExtraTable (X : Type) := UInt8 → Option (Option (AnyExtra X))

/-- The table before any registration (protocol/extra/register.go:34-71). -/
def ExtraTable.initial (X : Type) : ExtraTable X := fun typ => (Extra.create typ).map fun e => some (.builtin e)

/-- protocol/extra/register.go:74-76 `Register`. -/
def ExtraTable.register {X : Type} (t : ExtraTable X) (typ : UInt8) (c : Option (AnyExtra X)) : ExtraTable X :=
  fun id => if id = typ then some c else t id

/-- Calls of `Register` one after the other (protocol/extra/register.go:74-76). -/
def ExtraTable.registerAll {X : Type} (t : ExtraTable X) : List (UInt8 × Option (AnyExtra X)) → ExtraTable X
  | [] => t
  | (typ, c) :: rs => (t.register typ c).registerAll rs

/-- protocol/extra/extra.go:17-33 `Decode` with a table. A built-in extra is decoded by the method of its own type, whatever the id it is registered
for. -/
def ExtraTable.decode {X : Type} (M : OwnExtra X) (t : ExtraTable X) (typ : UInt8) (data : Bytes) : Res (AnyExtra X × Nat) :=
  match t typ with
  | none => .err .typeNotRegistered
  | some none => .panic
  | some (some (.builtin e)) => (Extra.decode e.id data).onFirst .builtin
  | some (some (.own x)) => (M.decode x data).onFirst .own

/-- protocol/t808_0x0200.go:143-153: one extra (`none`: nil, or a nil pointer to a built-in type). -/
def encodeAnyExtra {X : Type} (M : OwnExtra X) : Option (AnyExtra X) → Res Bytes
  | none => .ok []
  | some (.builtin e) => .ok ([e.id, u8 e.serialized.length] ++ e.serialized)
  | some (.own x) =>
    if M.pointer x = false then .panic
    else if M.isNil x then .ok []
    else .ok ([M.id x, u8 (M.data x).length] ++ M.data x)

/-- protocol/t808_0x0200.go:104-155 for a report with any extras; the field `extras` of `e` is not used. -/
def T0200.encodeAny {X : Type} (env : Env) (M : OwnExtra X) (e : T0200) (extras : List (Option (AnyExtra X))) : Res (Bytes × T0200) := do
  let lat := micro e.lat
  let st ← markNegative e.status lat 2
  let lng := micro e.lng
  let st ← markNegative st lng 3
  let xs ← encList (encodeAnyExtra M) extras
  .ok (put32 e.alarm ++ put32 st ++ put32 (absU32 lat) ++ put32 (absU32 lng) ++ put16 e.altitude ++
    put16 e.speed ++ put16 e.direction ++ putTime env e.time ++ xs, { e with status := st })

/-- protocol/t808_0x0200.go:218-246: the loop over the extras, with a table; as `decodeExtras`. -/
def decodeAnyExtras {X : Type} (M : OwnExtra X) (t : ExtraTable X) : Nat → Bytes → Res (List (AnyExtra X))
  | 0, _ => .ok []
  | fuel + 1, buffer =>
    if buffer.length < 2 then .ok []
    else do
      let id ← idx buffer 0
      let n ← idx buffer 1
      let buffer ← slice buffer 2 buffer.length
      if buffer.length < n.toNat then .err .invalidExtraLength
      else do
        let d ← slice buffer 0 n.toNat
        let rest ← slice buffer n.toNat buffer.length
        match t.decode M id d with
        | .err .typeNotRegistered => decodeAnyExtras M t fuel rest
        | .err e => .err e
        | .panic => .panic
        | .ok (x, count) =>
          if count ≠ n.toNat then .err .invalidExtraLength
          else do
            let xs ← decodeAnyExtras M t fuel rest
            .ok (x :: xs)

/-- protocol/t808_0x0200.go:157-251 for a new report, with a table: the report without its extras, and the extras. -/
def T0200.decodeAny {X : Type} (env : Env) (M : OwnExtra X) (t : ExtraTable X) (data : Bytes) : Res ((T0200 × List (AnyExtra X)) × Nat) :=
  decodeMin 28 (do
    let a ← Rd.u32
    let st ← Rd.u32
    let lat ← Rd.u32
    let lng ← Rd.u32
    let south ← Rd.lift (getBitUint32 st 2)
    let west ← Rd.lift (getBitUint32 st 3)
    let p := getGeoPoint lat south lng west
    let al ← Rd.u16
    let sp ← Rd.u16
    let di ← Rd.u16
    let tm ← Rd.bcdTime env
    let left ← Rd.len
    let buffer ← Rd.lift (slice data (data.length - left) data.length)
    let xs ← Rd.lift (decodeAnyExtras M t buffer.length buffer)
    pure ({ alarm := a, status := st, lat := p.1, lng := p.2, altitude := al, speed := sp, direction := di, time := tm }, xs)) data

end Verif
