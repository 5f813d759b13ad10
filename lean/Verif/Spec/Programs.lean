import Verif.Model.Programs
import Verif.Spec.Converse
import Verif.Spec.Ranges
/-! # Two programs at the ends of a connection; what the example server should send -/

namespace Verif.Spec

/-- Two programs at the ends of a connection, given by the bytes they have sent when they have read the given pieces. `Reach client server up down`: in the
course of events, the pieces `up` have arrived at the server and `down` at the client. Nothing arrives that was not sent before, and everything in order;
a piece has at most 128 bytes. -/
inductive Reach (client server : List Bytes → Res Bytes) : List Bytes → List Bytes → Prop where
  | start : Reach client server [] []
  | toServer {up down : List Bytes} {c b : Bytes} : Reach client server up down → client down = .ok b → c.length ≤ 128 → (up ++ [c]).flatten <+: b →
      Reach client server (up ++ [c]) down
  | toClient {up down : List Bytes} {c b : Bytes} : Reach client server up down → server up = .ok b → c.length ≤ 128 → (down ++ [c]).flatten <+: b →
      Reach client server up (down ++ [c])

/-- Everything sent has arrived. -/
def Settled (client server : List Bytes → Res Bytes) (up down : List Bytes) : Prop := client down = .ok up.flatten ∧ server up = .ok down.flatten

/-- A course of events without end: at moment `n` the pieces `up n` have arrived at the server and `down n` at the client. Everything that was sent arrives at
some time. -/
structure AllArrives (client server : List Bytes → Res Bytes) (up down : Nat → List Bytes) : Prop where
  reach : ∀ n, Reach client server (up n) (down n)
  onward : ∀ n, up n <+: up (n + 1) ∧ down n <+: down (n + 1)
  toServer : ∀ n b, client (down n) = .ok b → ∃ m, n ≤ m ∧ b <+: (up m).flatten
  toClient : ∀ n b, server (up n) = .ok b → ∃ m, n ≤ m ∧ b <+: (down m).flatten

/-- What the example server is to send to the example client, in order: it answers the authentication and asks for the parameters; it answers the location and
the key, and sends its own key; it answers the four parts, and says that the upload is complete. -/
def exampleMessages (own : PubKey) : List (Message Entity) :=
  [outgoing 19901234567 0 (.m8001 { replySerial := 1, replyID := 0x0102, result := 0 }),
   outgoing 19901234567 1 (.m8104 {}),
   outgoing 19901234567 2 (.m8001 { replySerial := 2, replyID := 0x0200, result := 0 }),
   outgoing 19901234567 3 (.m8001 { replySerial := 3, replyID := 0x0a00, result := 0 }),
   outgoing 19901234567 4 (.m8a00 { publicKey := some own }),
   outgoing 19901234567 5 (.m8001 { replySerial := 3, replyID := 0x0801, result := 0 }),
   outgoing 19901234567 6 (.m8001 { replySerial := 3, replyID := 0x0801, result := 0 }),
   outgoing 19901234567 7 (.m8001 { replySerial := 3, replyID := 0x0801, result := 0 }),
   outgoing 19901234567 8 (.m8001 { replySerial := 3, replyID := 0x0801, result := 0 }),
   outgoing 19901234567 9 (.m8800 { mediaID := 1024 })]

/-- What the example needs: the texts of the client can be written in GB18030 in the space there is, the clock of the client shows a time from 2010 to 2099, the
keys have 1024 bits, and the file has the 2048 bytes of the source, whatever they are. -/
structure ExampleOK (env : Env) (now : Nat → Time) (key own : PubKey) (file : Bytes) : Prop where
  auth : Text env Programs.authKey 1023
  plate : ∀ b, env.gbEnc Programs.plate = some b → b.length < 256
  times : ∀ i, i ≤ 4 → TimeOK env (now i)
  key : KeyOK (some key)
  own : KeyOK (some own)
  file : file.length = 2048

/-- The location that the example client reports. The bit of the status for western longitude is set. -/
def exampleLocation (now : Time) : T0200 :=
  { alarm := 2342, status := 8, lat := ⟨23562345, -6⟩, lng := ⟨-128323123, -6⟩, altitude := 2345, speed := 160, direction := 72, time := now }

/-- The calls of handlers of the example server that are to happen, in order: authentication (0), location (1), key (3), and then, once, the upload (2) with the
whole file and the particulars of its last part. -/
def exampleHandled (now : Nat → Time) (key : PubKey) (file : Bytes) : List (Nat × Body Entity) :=
  [(0, .val (.m0102 { authKey := [49, 50, 51, 52, 53, 54, 55, 56] })), (1, .val (.m0200 (exampleLocation (now 0)))),
   (3, .val (.m0a00 { publicKey := some key })),
   (2, .val (.m0801 { mediaID := 1024, type := 1, coding := 0, event := 13, channelID := 28, location := exampleLocation (now 4), packet := some file }))]

/-- The call of the callback that is to happen: with the parameters, for the request with serial number 2. A text that cannot be written in GB18030 is empty. -/
def exampleRan (env : Env) : List (Nat × Body Entity) :=
  [(0, .val (.m0104 { replySerial := 2, params :=
    [⟨0x0084, [24]⟩, ⟨0x0110, [1, 2, 3, 4, 5, 6, 7, 8]⟩, ⟨0x0031, [0, 100]⟩, ⟨0x0046, [0, 0, 250, 0]⟩, ⟨0x0083, (env.gbEnc Programs.plate).getD []⟩] }))]

/-- The handlers that were called, with the bodies of the messages. -/
def handledIn (log : List Converse.Ev) : List (Nat × Body Entity) :=
  log.filterMap fun
    | .handled h m => some (h, m.body)
    | _ => none

/-- The callbacks that were called, with the bodies of the messages. -/
def ranIn (log : List Converse.Ev) : List (Nat × Body Entity) :=
  log.filterMap fun
    | .ran cb m => some (cb, m.body)
    | _ => none

end Verif.Spec
