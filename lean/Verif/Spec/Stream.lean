import Verif.Model.Codec
/-! # Specification of the byte stream of a connection -/

namespace Verif.Spec

/-- A complete frame as far as delimiters go: no delimiter between the first and the last byte. -/
def Delimited (f : Bytes) : Prop := ∃ w, f = [0x7e] ++ w ++ [0x7e] ∧ (0x7e : UInt8) ∉ w

/-- Bytes before a frame that contain no delimiter. -/
def Junk (j : Bytes) : Prop := (0x7e : UInt8) ∉ j

/-- What is left behind the last complete frame: nothing, or a delimiter followed by other bytes. -/
def Unfinished (t : Bytes) : Prop := t = [] ∨ ∃ w, t = 0x7e :: w ∧ (0x7e : UInt8) ∉ w

/-- A stream: frames, each with some junk before it, then more junk and an unfinished frame. -/
structure Parsed where
  frames : List (Bytes × Bytes)
  junk : Bytes
  rest : Bytes

/-- The bytes of a stream. -/
def Parsed.bytes (p : Parsed) : Bytes := p.frames.flatMap (fun x => x.1 ++ x.2) ++ (p.junk ++ p.rest)

/-- The stream is cut at its delimiters, and no frame or unfinished frame is longer than `max`. -/
def Parsed.OK (p : Parsed) (max : Nat) : Prop :=
  (∀ x ∈ p.frames, Junk x.1 ∧ Delimited x.2 ∧ x.2.length ≤ max) ∧ Junk p.junk ∧ Unfinished p.rest ∧ p.rest.length ≤ max

/-- `k` errors for the junk `j`: none without junk, at least one with junk. -/
def JunkErrors {α : Type} (j : Bytes) (rs : List (Res α)) : Prop :=
  ∃ k, rs = List.replicate k (.err .notFoundPrefixID) ∧ (j = [] ↔ k = 0)

/-- The results that are due for a stream: for each frame what decoding it alone gives, preceded by missing-prefix errors
for the junk before it. -/
inductive Due {E : Type} (C : BodyCodec E) (key : Option DecKey) : List (Bytes × Bytes) → Bytes → List (Res (Message E)) → Prop
  | nil {j rs} : JunkErrors j rs → Due C key [] j rs
  | cons {j f fs j' es rs} : JunkErrors j es → Due C key fs j' rs → Due C key ((j, f) :: fs) j' (es ++ Message.decode C key {} f :: rs)

/-- The crashing streams: the first frame that is not a message is a single byte between two delimiters, and there is no junk up to there. -/
inductive Crashes {E : Type} (C : BodyCodec E) (key : Option DecKey) : List (Bytes × Bytes) → Prop
  | here {x fs} : Crashes C key (([], [0x7e, x, 0x7e]) :: fs)
  | later {f m fs} : Message.decode C key {} f = .ok m → Crashes C key fs → Crashes C key (([], f) :: fs)

/-- The stream begins with fewer than `n` frames of at most `max` bytes that are messages, and then comes a single byte
(not a delimiter) between two delimiters. -/
def BeginsBadly {E : Type} (C : BodyCodec E) (key : Option DecKey) (max n : Nat) (stream : Bytes) : Prop :=
  ∃ (fs : List Bytes) (x : UInt8) (rest : Bytes), stream = fs.flatten ++ ([0x7e, x, 0x7e] ++ rest) ∧ x ≠ 0x7e ∧ fs.length < n ∧
    ∀ f ∈ fs, Delimited f ∧ f.length ≤ max ∧ ∃ m, Message.decode C key {} f = .ok m

/-- `n` successive `Receive` calls. -/
def receiveMany {E : Type} (C : BodyCodec E) (key : Option DecKey) (endErr : Err) : Nat → RecvState → List (Res (Message E)) × RecvState
  | 0, s => ([], s)
  | n + 1, s =>
    let (r, s') := Codec.receive C key endErr s
    let (rs, s'') := receiveMany C key endErr n s'
    (r :: rs, s'')

end Verif.Spec
