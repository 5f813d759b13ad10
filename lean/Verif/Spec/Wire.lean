/-! # Specification of the JT/T 808 wire format

Written from the protocol description, without using the model. -/

namespace Verif.Spec

/-- Byte stuffing: `Stuffed wire content` says that `wire` is the escaped form of `content`:
`7e` becomes `7d 02`, `7d` becomes `7d 01`, every other byte stands for itself. -/
inductive Stuffed : List UInt8 → List UInt8 → Prop
  | nil : Stuffed [] []
  | flag {w c} : Stuffed w c → Stuffed (0x7d :: 0x02 :: w) (0x7e :: c)
  | esc {w c} : Stuffed w c → Stuffed (0x7d :: 0x01 :: w) (0x7d :: c)
  | plain {b w c} : b ≠ 0x7e → b ≠ 0x7d → Stuffed w c → Stuffed (b :: w) (b :: c)

/-- XOR of all bytes. -/
def xorAll : List UInt8 → UInt8
  | [] => 0
  | b :: t => b ^^^ xorAll t

/-- `Frame wire content`: the wire bytes are the delimited, stuffed content followed by its XOR. -/
def Frame (wire content : List UInt8) : Prop :=
  ∃ w, wire = [0x7e] ++ w ++ [0x7e] ∧ Stuffed w (content ++ [xorAll content])

/-- A 16-bit number, most significant byte first. -/
def be16 (n : Nat) : List UInt8 := [UInt8.ofNat (n / 256 % 256), UInt8.ofNat (n % 256)]

/-- `k` bytes of packed decimal, two digits per byte, most significant first. -/
def bcd : Nat → Nat → List UInt8
  | 0, _ => []
  | k + 1, n => bcd k (n / 100) ++ [UInt8.ofNat (n / 10 % 10 * 16 + n % 10)]

/-- The message header: id, property word, terminal number as 12 decimal digits, serial number, and total and
index of the packet if there is packet information. -/
def headerBytes (id property icc serial : Nat) (packet : Option (Nat × Nat)) : List UInt8 :=
  be16 id ++ be16 property ++ bcd 6 icc ++ be16 serial ++
    match packet with
    | none => []
    | some (total, index) => be16 total ++ be16 index

/-- Bits 0-9 of the property word: the body length. -/
def sizeField (property : Nat) : Nat := property % 1024

/-- Bit 10 of the property word: the body is encrypted. -/
def encryptFlag (property : Nat) : Bool := property / 1024 % 2 == 1

/-- Bit 13 of the property word: the header carries packet information. -/
def packetFlag (property : Nat) : Bool := property / 8192 % 2 == 1

/-- Lenient unstuffing, as a receiver may do it: like `Stuffed`, but a delimiter byte inside the frame is taken
as it is. -/
inductive Unstuffed : List UInt8 → List UInt8 → Prop
  | nil : Unstuffed [] []
  | flag {w c} : Unstuffed w c → Unstuffed (0x7d :: 0x02 :: w) (0x7e :: c)
  | esc {w c} : Unstuffed w c → Unstuffed (0x7d :: 0x01 :: w) (0x7d :: c)
  | plain {b w c} : b ≠ 0x7d → Unstuffed w c → Unstuffed (b :: w) (b :: c)

/-- The wire forms of a check byte that a receiver may accept: the byte itself, or its escaped form. -/
def CheckByte (u : List UInt8) (s : UInt8) : Prop :=
  u = [s] ∨ (u = [0x7d, 0x01] ∧ s = 0x7d) ∨ (u = [0x7d, 0x02] ∧ s = 0x7e)

/-- `bad` is `good` with the byte at one position replaced by a different one. -/
def OneByteChanged (good bad : List UInt8) : Prop :=
  ∃ a x y b, x ≠ y ∧ good = a ++ x :: b ∧ bad = a ++ y :: b

end Verif.Spec

namespace Verif.Spec

/-- A byte that holds two decimal digits. -/
def DecimalByte (b : UInt8) : Prop := b.toNat / 16 ≤ 9 ∧ b.toNat % 16 ≤ 9

/-- The number written in packed decimal. -/
def decimalValue (bytes : List UInt8) : Nat :=
  bytes.foldl (fun n b => n * 100 + (b.toNat / 16 * 10 + b.toNat % 16)) 0

end Verif.Spec
