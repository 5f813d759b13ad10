import Verif.Model.Basic

/-! # The standards for encryption: FIPS 180-4 (SHA-1) and RFC 8017 (RSAES-OAEP)

Written after the standards, apart from the model (`Model/Sha1.lean`, `Model/Oaep.lean`). -/

namespace Verif.Spec

/-- RFC 8017, 4.2 OS2IP: the number that bytes stand for, the most significant first. -/
def os2ip : Bytes → Nat
  | [] => 0
  | x :: b => x.toNat * 256 ^ b.length + os2ip b

/-- RFC 8017, 4.1 I2OSP: the last `len` bytes of a number. -/
def i2osp (x len : Nat) : Bytes := (List.range len).map fun i => UInt8.ofNat (x / 256 ^ (len - 1 - i) % 256)

namespace Fips180

/-- 2.2.2: words of 32 bits. -/
abbrev Word := BitVec 32

/-- 4.1.1: the functions. -/
def f (t : Nat) (x y z : Word) : Word :=
  if t < 20 then (x &&& y) ^^^ (~~~x &&& z)
  else if t < 40 then x ^^^ y ^^^ z
  else if t < 60 then (x &&& y) ^^^ (x &&& z) ^^^ (y &&& z)
  else x ^^^ y ^^^ z

/-- 4.2.1: the constants. -/
def K (t : Nat) : Word := if t < 20 then 0x5a827999 else if t < 40 then 0x6ed9eba1 else if t < 60 then 0x8f1bbcdc else 0xca62c1d6

/-- 5.1.1: a text with a one, as few zeros as lead to a multiple of 512 bits, and the number of its bits in 64 bits. (In bytes; texts consist of bytes here.) -/
def Padded (msg p : Bytes) : Prop :=
  ∃ zeros, zeros < 64 ∧ p = msg ++ [0x80] ++ List.replicate zeros 0 ++ i2osp (8 * msg.length) 8 ∧ p.length % 64 = 0

/-- 5.2.1: word `t` of block `i`. -/
def M (p : Bytes) (i t : Nat) : Word :=
  let byte (j : Nat) : BitVec 8 := (p.getD (64 * i + 4 * t + j) 0).toBitVec
  byte 0 ++ byte 1 ++ byte 2 ++ byte 3

/-- 6.1.2, step 1: the message schedule, for the words of a block. -/
def W (m : Nat → Word) (t : Nat) : Word :=
  if t < 16 then m t else (W m (t - 3) ^^^ W m (t - 8) ^^^ W m (t - 14) ^^^ W m (t - 16)).rotateLeft 1

/-- The five words of a hash value, or the five variables. -/
abbrev Five := Word × Word × Word × Word × Word

/-- 6.1.2, steps 2 and 3: the variables after `t` rounds, from those at the start. -/
def rounds (m : Nat → Word) (h : Five) : Nat → Five
  | 0 => h
  | t + 1 =>
    let (a, b, c, d, e) := rounds m h t
    (a.rotateLeft 5 + f t b c d + e + K t + W m t, a, b.rotateLeft 30, c, d)

/-- 6.1.2, step 4: the sum of five words each. -/
def plus (x y : Five) : Five := (x.1 + y.1, x.2.1 + y.2.1, x.2.2.1 + y.2.2.1, x.2.2.2.1 + y.2.2.2.1, x.2.2.2.2 + y.2.2.2.2)

/-- 5.3.1 and 6.1.2, step 4: the hash value after `i` blocks. -/
def H (p : Bytes) : Nat → Five
  | 0 => (0x67452301, 0xefcdab89, 0x98badcfe, 0x10325476, 0xc3d2e1f0)
  | i + 1 => plus (rounds (M p i) (H p i) 80) (H p i)

/-- 6.1.2: the hash of a text. -/
def Sha1 (msg hash : Bytes) : Prop :=
  ∃ p, Padded msg p ∧ ∃ h0 h1 h2 h3 h4, H p (p.length / 64) = (h0, h1, h2, h3, h4) ∧ hash = [h0, h1, h2, h3, h4].flatMap fun h => i2osp h.toNat 4

end Fips180

namespace Rfc8017

/-- B.2.1 MGF1, for a hash function of 20 bytes. -/
def mgf1 (hash : Bytes → Bytes) (seed : Bytes) (len : Nat) : Bytes :=
  ((List.range ((len + 19) / 20)).flatMap fun i => hash (seed ++ i2osp i 4)).take len

/-- The exclusive or of bytes. -/
def xor (a b : Bytes) : Bytes := List.zipWith (· ^^^ ·) a b

/-- 7.1.1, step 2: the encoded message of `k` bytes, with an empty label and the random `seed`. -/
def encoded (hash : Bytes → Bytes) (k : Nat) (seed msg : Bytes) : Bytes :=
  let db := hash [] ++ List.replicate (k - msg.length - 2 * 20 - 2) 0 ++ [0x01] ++ msg
  let maskedDB := xor db (mgf1 hash seed (k - 20 - 1))
  let maskedSeed := xor seed (mgf1 hash maskedDB 20)
  [0x00] ++ maskedSeed ++ maskedDB

/-- 7.1.1 RSAES-OAEP-ENCRYPT with the modulus `n` of `k` bytes and the exponent `e`. -/
def Encrypts (hash : Bytes → Bytes) (n e k : Nat) (seed msg c : Bytes) : Prop :=
  seed.length = 20 ∧ msg.length ≤ k - 2 * 20 - 2 ∧ 2 * 20 + 2 ≤ k ∧ c = i2osp (os2ip (encoded hash k seed msg) ^ e % n) k

/-- Texts that are encrypted one by one, each with its own random bytes, and what comes out, one behind the other. -/
inductive Sealed (hash : Bytes → Bytes) (n e k : Nat) : List (Bytes × Bytes) → Bytes → Prop where
  | nil : Sealed hash n e k [] []
  | cons {seed text c out : Bytes} {texts : List (Bytes × Bytes)} : Encrypts hash n e k seed text c → Sealed hash n e k texts out →
      Sealed hash n e k ((seed, text) :: texts) (c ++ out)

end Rfc8017

end Verif.Spec
