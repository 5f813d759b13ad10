import Verif.Lemmas.Oaep
import Verif.Props.Rsa
import Verif.Props.RoundTrip
import Verif.Props.Encode

/-! # RSA-OAEP

C27 and C28 take the cipher as a parameter, with the assumption `KeyPair`. Here the cipher is RSA-OAEP with SHA-1 as the standard library has it
(`Model/Oaep.lean`), and the assumption is proved of all RSA keys. -/

namespace Verif
open Spec Oaep

/-! ## A key pair of 1024 bits -/

namespace Sample

/-- A prime of 512 bits. -/
def primeP : Nat := 3751 * 2 ^ 500 + 1

/-- Another prime of 512 bits. -/
def primeQ : Nat := 8021 * 2 ^ 499 + 1

theorem primeP_prime : primeP.Prime := by
  refine prime_of_powMod primeP 3 [2, 11, 31] (by decide +kernel) (by decide +kernel) ?_ (by decide +kernel)
  intro q hq hd
  rw [show primeP - 1 = 11 * 11 * 31 * 2 ^ 500 by decide +kernel, hq.dvd_mul, hq.dvd_mul, hq.dvd_mul] at hd
  rcases hd with ((h | h) | h) | h
  · simp [(Nat.prime_dvd_prime_iff_eq hq (by decide)).1 h]
  · simp [(Nat.prime_dvd_prime_iff_eq hq (by decide)).1 h]
  · simp [(Nat.prime_dvd_prime_iff_eq hq (by decide)).1 h]
  · simp [(Nat.prime_dvd_prime_iff_eq hq (by decide)).1 (hq.dvd_of_dvd_pow h)]

theorem primeQ_prime : primeQ.Prime := by
  refine prime_of_powMod primeQ 3 [2, 13, 617] (by decide +kernel) (by decide +kernel) ?_ (by decide +kernel)
  intro q hq hd
  rw [show primeQ - 1 = 13 * 617 * 2 ^ 499 by decide +kernel, hq.dvd_mul, hq.dvd_mul] at hd
  rcases hd with (h | h) | h
  · simp [(Nat.prime_dvd_prime_iff_eq hq (by decide)).1 h]
  · simp [(Nat.prime_dvd_prime_iff_eq hq (by decide +kernel)).1 h]
  · simp [(Nat.prime_dvd_prime_iff_eq hq (by decide)).1 (hq.dvd_of_dvd_pow h)]

/-- The key of the two primes. -/
def rsaKey : PrivKey where
  pub := { n := some (primeP * (primeQ * 1)), e := 65537 }
  d := 44995352773091348247384156164118549885562055728117472317710114069821593461550121183493034117930489476955638684137875028556697243024343114760490070052274372609

theorem rsaKey_valid : RsaKey rsaKey [primeP, primeQ] where
  prime := by
    intro p hp
    rcases List.mem_cons.1 hp with rfl | hp
    · exact primeP_prime
    · rw [List.mem_singleton.1 hp]
      exact primeQ_prime
  different := by decide +kernel
  modulus := by simp only [rsaKey, List.foldr_cons, List.foldr_nil]
  exponent := by decide
  positive := by decide +kernel
  inverse := by decide +kernel

/-- Randomness for examples. -/
def seed : Bytes := (List.range 20).map UInt8.ofNat

end Sample

/-- The model against another implementation (Python): the same cipher text. -/
example : Oaep.encrypt Sample.rsaKey.pub Sample.seed [1, 2, 3] = some
      [135, 31, 114, 12, 93, 251, 197, 191, 183, 42, 41, 204, 70, 23, 134, 178, 170, 2, 184, 166, 138, 180, 190, 207, 130, 127, 230, 29, 126, 10,
      183, 124, 45, 119, 153, 81, 143, 17, 210, 24, 6, 100, 130, 218, 50, 170, 140, 34, 132, 203, 102, 105, 232, 106, 229, 85, 230, 159, 157, 54,
      186, 151, 235, 144, 90, 199, 13, 52, 247, 47, 64, 227, 251, 13, 230, 177, 59, 223, 174, 231, 4, 11, 137, 105, 25, 62, 243, 82, 206, 196,
      213, 41, 17, 68, 123, 210, 26, 64, 15, 248, 243, 170, 21, 86, 208, 162, 18, 45, 93, 104, 192, 27, 98, 46, 198, 253, 108, 87, 67, 146, 72,
      194, 219, 59, 204, 109, 181, 171] := by
  decide +kernel

/-- And back. -/
example : (Oaep.encrypt Sample.rsaKey.pub Sample.seed [1, 2, 3]).bind (Oaep.decrypt Sample.rsaKey) = some [1, 2, 3] := by decide +kernel

/-- The hash of the three letters "abc", from the standard. -/
example : Sha1.sum [97, 98, 99] =
    [0xa9, 0x99, 0x3e, 0x36, 0x47, 0x06, 0x81, 0x6a, 0xba, 0x3e, 0x25, 0x71, 0x78, 0x50, 0xc2, 0x6c, 0x9c, 0xd0, 0xd8, 0x9d] := by decide +kernel

/-! ## C91 -/

/-- C91: every RSA key of more than 42 bytes, with any randomness, is a pair of keys in the sense of C27 and C28: what is encrypted with the public key is read
with the private key. -/
theorem C91_key_pair {k : PrivKey} {primes : List Nat} (h : RsaKey k primes) {n : Nat} (hn : k.pub.n = some n) (hs : 42 < keySize n) {seeds : Nat → Bytes}
    (hr : Seeds seeds) : KeyPair (k.pub.encKey seeds) k.decKey (keySize n) := by
  constructor
  · exact hs
  · show ((keySize (k.pub.n.getD 0) : Nat) : Int) = keySize n
    rw [hn]
    rfl
  · show ((keySize (k.pub.n.getD 0) : Nat) : Int) = keySize n
    rw [hn]
    rfl
  · intro i block hb
    exact encrypt_decrypt_block h hn (hr i) (by omega)

/-- The hypotheses are met by a key of 1024 bits. -/
example : RsaKey Sample.rsaKey [Sample.primeP, Sample.primeQ] ∧ keySize (Sample.primeP * (Sample.primeQ * 1)) = 128 ∧ Seeds (fun _ => Sample.seed) :=
  ⟨Sample.rsaKey_valid, by decide +kernel, fun _ => show Sample.seed.length = 20 by decide +kernel⟩

/-- C91: a message of a registered type, of at most 602 bytes, encoded with an RSA key of 1024 bits, is decoded by the holder of the private key to the same
body and header. Nothing is assumed of RSA. -/
theorem C91_message (env : Env) {k : PrivKey} {primes : List Nat} (h : RsaKey k primes) {n : Nat} (hn : k.pub.n = some n) (hs : keySize n = 128)
    {seeds : Nat → Bytes} (hr : Seeds seeds) (m : Message Entity) (e : Entity) (hm : m.body = .val e) (he : InRange env e)
    (hicc0 : 0 < m.header.iccID.toNat) (hicc1 : m.header.iccID.toNat < 10 ^ 12) (hsize : ∀ b e', Entity.encode env e = .ok (b, e') → b.length ≤ 602)
    (hpacket : packetFlag m.header.property.toNat = true → m.header.packet.isSome) (self : Message Entity) :
    ∃ frame m' r, Message.encode (entityCodec env) (some (k.pub.encKey seeds)) m = .ok (frame, m') ∧
      Message.decode (entityCodec env) (some k.decKey) self frame = .ok r ∧ r.body = .val (Spec.Entity.dropCache e) ∧ r.header.msgID = e.msgID ∧
      r.header.serial = m.header.serial ∧ r.header.iccID = m.header.iccID ∧ r.header.packet = m.header.packet ∧
      encryptFlag r.header.property.toNat = true ∧ packetFlag r.header.property.toNat = m.header.packet.isSome :=
  C01_registered_encrypted env m e hm he hicc0 hicc1 hsize hpacket _ _ (hs ▸ C91_key_pair h hn (by omega) hr) self

/-- C91: a block that the private key decrypts is an encryption of the resulting text with the public key: nothing else is accepted. (Go also accepts the one
block whose number is the modulus itself, and treats it as zero.) -/
theorem C91_only_encryptions {k : PrivKey} {primes : List Nat} (h : RsaKey k primes) {n : Nat} (hn : k.pub.n = some n) {c msg : Bytes}
    (hl : c.length = keySize n) (hne : bytesNat c ≠ n) : Oaep.decrypt k c = some msg ↔
      msg.length + 42 ≤ keySize n ∧ ∃ seed, seed.length = 20 ∧ Oaep.encrypt k.pub seed msg = some c := by
  constructor
  · intro hd
    obtain ⟨seed, h1, h2⟩ := decrypt_encrypts h hn hl hne hd
    refine ⟨?_, seed, h1, h2⟩
    rw [Oaep.encrypt, hn] at h2
    simp only [] at h2
    split at h2
    · cases h2
    · split at h2
      · cases h2
      · omega
  · rintro ⟨hs, seed, h1, h2⟩
    obtain ⟨x, x1, -, x3⟩ := encrypt_decrypt_block h hn h1 hs
    rw [x1] at h2
    cases h2
    exact x3

/-- C91: the one block whose number is the modulus itself is decrypted like the block of zeros. (No encryption that this library makes gives it, as the number
of an encrypted block is less than the modulus.) -/
theorem C91_modulus_block {k : PrivKey} {primes : List Nat} (h : RsaKey k primes) {n : Nat} (hn : k.pub.n = some n) {c : Bytes}
    (hl : c.length = keySize n) (hc : bytesNat c = n) : Oaep.decrypt k c = Oaep.decrypt k (List.replicate (keySize n) 0) := by
  have hz : bytesNat (List.replicate (keySize n) 0) = 0 := by
    have := bytesNat_zeros (keySize n) []
    simpa [bytesNat] using this
  have hd : powMod n n k.d = powMod n 0 k.d := by
    rw [powMod_eq, powMod_eq]
    have := h.positive
    rw [Nat.zero_pow this, Nat.zero_mod]
    exact Nat.mod_eq_zero_of_dvd (dvd_pow_self n (by omega))
  unfold Oaep.decrypt
  rw [hn]
  simp only [hz, hc, hd, hl, List.length_replicate, Nat.lt_irrefl, Nat.not_lt_zero]

/-- C91: the key of a terminal (0x0A00) or of the platform (0x8A00) that comes with a message is the key that was sent: whatever the receiver encrypts with
it, the sender can read. -/
theorem C91_uploaded_key (env : Env) {k : PrivKey} {primes : List Nat} (h : RsaKey k primes) {n : Nat} (hn : k.pub.n = some n) (hs : keySize n = 128)
    (m : Message Entity) (hm : uploadedKey m.body = some k.pub) (hicc0 : 0 < m.header.iccID.toNat) (hicc1 : m.header.iccID.toNat < 10 ^ 12)
    (hplain : encryptFlag m.header.property.toNat = false) (hpacket : packetFlag m.header.property.toNat = true → m.header.packet.isSome)
    (key : Option DecKey) (self : Message Entity) :
    ∃ frame m' r pub, Message.encode (entityCodec env) none m = .ok (frame, m') ∧ Message.decode (entityCodec env) key self frame = .ok r ∧
      uploadedKey r.body = some pub ∧ ∀ seeds, Seeds seeds → KeyPair (pub.encKey seeds) k.decKey 128 := by
  have hk : KeyOK (some k.pub) := by
    refine ⟨n, k.pub.e, ?_, hs, ?_⟩
    · rw [← hn]
    · have := h.exponent
      omega
  have hkey : ∀ seeds, Seeds seeds → KeyPair (k.pub.encKey seeds) k.decKey 128 := fun seeds hr => hs ▸ C91_key_pair h hn (by omega) hr
  have hlen : ∀ (t : T0A00) b, T0A00.encode t = .ok b → b.length ≤ 1023 := by
    intro t b hb
    unfold T0A00.encode at hb
    split at hb
    · cases hb
    · split at hb
      · cases hb
      · split at hb
        · cases hb
        · cases hb
          rename_i x _ hx
          obtain ⟨h1, -⟩ := natBytes_key _ (by omega : keySize x = 128)
          have : putFixed (natBytes x) 128 = natBytes x := by
            unfold putFixed
            simp [h1]
          rw [this, List.length_append, h1]
          simp
  have done : ∀ (mk : T0A00 → Entity) (t : T0A00), m.body = .val (mk t) → t.publicKey = some k.pub → InRange env (mk t) →
      (∀ b e', Entity.encode env (mk t) = .ok (b, e') → b.length ≤ 1023) → uploadedKey (.val (Spec.Entity.dropCache (mk t))) = some k.pub →
      ∃ frame m' r pub, Message.encode (entityCodec env) none m = .ok (frame, m') ∧ Message.decode (entityCodec env) key self frame = .ok r ∧
        uploadedKey r.body = some pub ∧ ∀ seeds, Seeds seeds → KeyPair (pub.encKey seeds) k.decKey 128 := by
    intro mk t h1 h2 h3 h4 h5
    obtain ⟨f, m', d, g1, g2, g3, -⟩ := C01_registered_round_trip env m (mk t) h1 h3 hicc0 hicc1 h4 hplain hpacket key self
    exact ⟨f, m', d, k.pub, g1, g2, by rw [g3, h5], hkey⟩
  unfold uploadedKey at hm
  split at hm
  · rename_i t hb
    refine done .m0a00 t hb hm (by rw [InRange, hm]; exact hk) ?_ hm
    intro b e' hb
    simp only [Entity.encode, Entity.keep] at hb
    cases hx : T0A00.encode t with
    | ok x =>
      rw [hx] at hb
      cases hb
      exact hlen t _ hx
    | err x => rw [hx] at hb; cases hb
    | panic => rw [hx] at hb; cases hb
  · rename_i t hb
    refine done .m8a00 t hb hm (by rw [InRange, hm]; exact hk) ?_ hm
    intro b e' hb
    simp only [Entity.encode, Entity.keep] at hb
    cases hx : T0A00.encode t with
    | ok x =>
      rw [hx] at hb
      cases hb
      exact hlen t _ hx
    | err x => rw [hx] at hb; cases hb
    | panic => rw [hx] at hb; cases hb
  · cases hm

/-- The hypotheses are met by the key of 1024 bits. -/
example : uploadedKey (.val (.m0a00 { publicKey := some Sample.rsaKey.pub })) = some Sample.rsaKey.pub := rfl

/-- C91, exactly: what encryption with a key that was received (any modulus, any exponent) comes to. It panics for moduli of at most 42 bytes, reports exponents
below 2 and from 2^31 on, and succeeds with all others. -/
theorem C91_any_key (k : PubKey) {n : Nat} (hn : k.n = some n) (seeds : Nat → Bytes) (msg : Bytes) (hm : msg ≠ []) :
    (encryptOAEP (k.encKey seeds) msg = .panic ↔ keySize n ≤ 42) ∧
    (encryptOAEP (k.encKey seeds) msg = .err .rsa ↔ 42 < keySize n ∧ (k.e < 2 ∨ 2 ^ 31 ≤ k.e)) ∧
    ((∃ x, encryptOAEP (k.encKey seeds) msg = .ok x) ↔ 42 < keySize n ∧ 2 ≤ k.e ∧ k.e < 2 ^ 31) := by
  have hsize : (k.encKey seeds).size = keySize n := by
    show ((keySize (k.n.getD 0) : Nat) : Int) = keySize n
    rw [hn]
    rfl
  by_cases hs : keySize n ≤ 42
  · have : encryptOAEP (k.encKey seeds) msg = .panic := by
      unfold encryptOAEP
      rw [hsize, (C27_split msg _).2 (by omega)]
      rfl
    rw [this]
    simp
    omega
  · obtain ⟨chunks, c1, ⟨c2, c3, -⟩, -⟩ := (C27_split msg ((keySize n : Int) - 2 * 20 - 2)).1 (by omega)
    have hrun : encryptOAEP (k.encKey seeds) msg = encryptLoop (k.encKey seeds) 0 chunks := by
      unfold encryptOAEP
      rw [hsize, c1]
      rfl
    rw [hrun]
    by_cases he : 2 ≤ k.e ∧ k.e < 2 ^ 31
    · have hx : exponentOK k.e = true := by
        simp only [exponentOK, Bool.and_eq_true, decide_eq_true_eq]
        omega
      have loop : ∀ (cs : List Bytes) i, (∀ c ∈ cs, c.length + 42 ≤ keySize n) → ∃ x, encryptLoop (k.encKey seeds) i cs = .ok x := by
        intro cs
        induction cs with
        | nil => exact fun i _ => ⟨[], rfl⟩
        | cons c cs ih =>
          intro i hc
          obtain ⟨y, hy⟩ := ih (i + 1) fun x hx => hc x (by simp [hx])
          have hl := hc c (by simp)
          have h1 : ∃ z, (k.encKey seeds).enc i c = some z := by
            refine ⟨leftPad (natBytes (powMod n (bytesNat (pack (keySize n) (seeds i) c)) k.e.toNat)) (keySize n), ?_⟩
            show Oaep.encrypt k (seeds i) c = _
            rw [Oaep.encrypt, hn]
            simp only []
            rw [if_neg (by simp [hx]), if_neg (by omega)]
          obtain ⟨z, hz⟩ := h1
          exact ⟨z ++ y, by rw [encryptLoop, hz]; simp only []; rw [hy]; rfl⟩
      obtain ⟨x, hx⟩ := loop chunks 0 fun c hc => by have := (c3 c hc).2; omega
      rw [hx]
      simp
      omega
    · have hx : exponentOK k.e = false := by
        rw [← Bool.not_eq_true]
        simp only [exponentOK, Bool.and_eq_true, decide_eq_true_eq]
        omega
      have : encryptLoop (k.encKey seeds) 0 chunks = .err .rsa := by
        match chunks, c2 with
        | [], c2 => exact absurd c2.symm hm
        | c :: cs, _ =>
          have h1 : (k.encKey seeds).enc 0 c = none := by
            show Oaep.encrypt k (seeds 0) c = none
            rw [Oaep.encrypt, hn]
            simp only []
            rw [if_pos hx]
          rw [encryptLoop, h1]
      rw [this]
      simp
      omega

/-- All three cases occur. -/
example : keySize 0 ≤ 42 ∧ keySize (Sample.primeP * (Sample.primeQ * 1)) = 128 := by decide +kernel

/-- C91 is false of the code for keys that a peer may send: there are key uploads that are accepted (here one of 132 zero bytes) with a key that makes every
encryption with it panic. -/
theorem C91_refuted (env : Env) : ∃ (data : Bytes) (t : T0A00) (pub : PubKey) (c : Nat), Entity.decode env (.m0a00 {}) data = .ok (.m0a00 t, c) ∧
    t.publicKey = some pub ∧
    ∀ (seeds : Nat → Bytes) (m : Message Entity) (e e' : Entity) (b : Bytes), m.body = .val e → Entity.encode env e = .ok (b, e') →
      Message.encode (entityCodec env) (some (pub.encKey seeds)) m = .panic := by
  refine ⟨List.replicate 132 0, { publicKey := some { n := some 0, e := 0 } }, { n := some 0, e := 0 }, 132, ?_, rfl, ?_⟩
  · rw [Entity.decode, show T0A00.decode {} (List.replicate 132 0) = .ok ({ publicKey := some { n := some 0, e := 0 } }, 132) by decide +kernel]
    rfl
  · intro seeds m e e' b h1 h2
    exact (C61_encrypted env _ m).2 (by show ((keySize 0 : Nat) : Int) ≤ 42; decide) e b e' h1 h2

end Verif
