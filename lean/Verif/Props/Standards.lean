import Verif.Lemmas.StandardsOaep
import Verif.Props.Oaep
import Verif.Props.Layout
import Verif.Props.Receive

/-! # C96: encryption is that of the standards -/

namespace Verif
open Spec Standards

/-- C96: the hash is SHA-1 of FIPS 180-4. -/
theorem C96_sha1 (msg h : Bytes) : Fips180.Sha1 msg h ↔ h = Sha1.sum msg :=
  ⟨sum_unique, fun e => e ▸ sum_standard msg⟩

/-- C96: a block that is encrypted is the result of RSAES-OAEP-ENCRYPT of RFC 8017, with SHA-1 and an empty label, and the size of the key is the number of bytes of
its modulus. Nothing else is refused but exponents outside of 2 to 2^31 - 1 and texts that are too long, which the standard refuses, too. -/
theorem C96_block (hash : Bytes → Bytes) (hh : ∀ m, Fips180.Sha1 m (hash m)) {key : PubKey} {n : Nat} (hn : key.n = some n) {k : Nat}
    (hk : 0 < k ∧ 256 ^ (k - 1) ≤ n ∧ n < 256 ^ k) {seed msg c : Bytes} (hs : seed.length = 20) :
    Oaep.encrypt key seed msg = some c ↔ (2 ≤ key.e ∧ key.e < 2 ^ 31) ∧ Rfc8017.Encrypts hash n key.e.toNat k seed msg c := by
  have h1 : hash = Sha1.sum := funext fun m => sum_unique (hh m)
  have h2 : k = keySize n := bytes_keySize hk
  rw [h1, h2]
  exact encrypt_iff hn hs

/-- C96: what `EncryptOAEP` of this library makes of a text are the standard encryptions of the pieces of the text, each of 42 bytes less than the modulus but
for the last, which may be shorter, one behind the other. -/
theorem C96_written (hash : Bytes → Bytes) (hh : ∀ m, Fips180.Sha1 m (hash m)) {key : PubKey} {n : Nat} (hn : key.n = some n) {k : Nat}
    (hk : 42 < k ∧ 256 ^ (k - 1) ≤ n ∧ n < 256 ^ k) {seeds : Nat → Bytes} (hr : Seeds seeds) {msg x : Bytes}
    (h : encryptOAEP (key.encKey seeds) msg = .ok x) :
    ∃ texts, Blocks (k - 42) msg (texts.map (·.2)) ∧ Rfc8017.Sealed hash n key.e.toNat k texts x ∧ ∀ i (hi : i < texts.length), (texts[i]).1 = seeds i := by
  have h1 : hash = Sha1.sum := funext fun m => sum_unique (hh m)
  have h2 : k = keySize n := bytes_keySize ⟨by omega, hk.2⟩
  rw [h1, h2]
  rw [h2] at hk
  unfold encryptOAEP bytesSplit at h
  have hsize : (key.encKey seeds).size = keySize n := by
    show ((keySize (key.n.getD 0) : Nat) : Int) = keySize n
    rw [hn]
    rfl
  rw [hsize, if_neg (by omega), show ((keySize n : Int) - 2 * 20 - 2).toNat = keySize n - 42 by omega] at h
  simp only [Res.ok_bind] at h
  obtain ⟨b1, -⟩ := splitLoop_blocks (keySize n - 42) (by omega) (msg.length + 1) msg (by omega)
  refine ⟨_, ?_, encryptLoop_sealed hn hr _ 0 x h, ?_⟩
  · rw [List.map_map]
    have : ∀ (l : List Bytes) j, (l.zipIdx j).map ((·.2) ∘ fun t : Bytes × Nat => (seeds t.2, t.1)) = l := by
      intro l
      induction l with
      | nil => intro j; rfl
      | cons a l ih => intro j; simp only [List.zipIdx_cons, List.map_cons, Function.comp_apply, ih]
    rw [this]
    exact b1
  · intro i hi
    simp

/-- C96: what others encrypt according to the standard with the key of the server, in pieces of any lengths, `DecryptOAEP` of this library reads. -/
theorem C96_read (hash : Bytes → Bytes) (hh : ∀ m, Fips180.Sha1 m (hash m)) {key : Oaep.PrivKey} {primes : List Nat} (hkey : RsaKey key primes) {n : Nat}
    (hn : key.pub.n = some n) {k : Nat} (hk : 0 < k ∧ 256 ^ (k - 1) ≤ n ∧ n < 256 ^ k) {texts : List (Bytes × Bytes)} {x : Bytes}
    (hx : Rfc8017.Sealed hash n key.pub.e.toNat k texts x) : decryptOAEP key.decKey x = .ok (texts.map (·.2)).flatten := by
  have h1 : hash = Sha1.sum := funext fun m => sum_unique (hh m)
  have h2 : k = keySize n := bytes_keySize hk
  rw [h1, h2] at hx
  rw [h2] at hk
  obtain ⟨xs, rfl, g1, g2⟩ := sealed_decrypt hkey hn hx
  unfold decryptOAEP bytesSplit
  have hsize : key.decKey.size = keySize n := by
    show ((keySize (key.pub.n.getD 0) : Nat) : Int) = keySize n
    rw [hn]
    rfl
  rw [hsize, if_neg (by omega), show ((keySize n : Int)).toNat = keySize n by omega]
  simp only [Res.ok_bind]
  rw [splitLoop_flatten (keySize n) hk.1 xs g1 _ (by omega), g2]

/-- C96, written messages: the frame of a message encoded with a key contains the header of the protocol and then the standard encryptions of the bytes of the
body's table, in pieces of 42 bytes less than the modulus but for the last. The header says that the body is encrypted, and its length is that after encryption. -/
theorem C96_message_written (hash : Bytes → Bytes) (hh : ∀ m, Fips180.Sha1 m (hash m)) (env : Env) {key : PubKey} {n : Nat} (hn : key.n = some n) {k : Nat}
    (hk : 42 < k ∧ 256 ^ (k - 1) ≤ n ∧ n < 256 ^ k) {seeds : Nat → Bytes} (hr : Seeds seeds) {m m' : Message Entity} {e : Entity} {f : Bytes}
    (hm : m.body = .val e) (he : InRange env e) (hicc : m.header.iccID.toNat < 10 ^ 12)
    (h : Message.encode (entityCodec env) (some (key.encKey seeds)) m = .ok (f, m')) :
    ∃ prop texts x, Frame f (headerBytes e.msgID.toNat prop m.header.iccID.toNat m.header.serial.toNat
        (m.header.packet.map fun p => (p.sum.toNat, p.seq.toNat)) ++ x) ∧
      Rfc8017.Sealed hash n key.e.toNat k texts x ∧ Blocks (k - 42) (bodyBytes env e) (texts.map (·.2)) ∧
      encryptFlag prop = true ∧ packetFlag prop = m.header.packet.isSome ∧ sizeField prop = x.length % 65536 := by
  obtain ⟨e', h1⟩ := Entity.encode_layout env e he
  obtain ⟨prop, body, g1, g2, g3, g4, g5, -⟩ := C02_header_layout (entityCodec env) _ m m' f hicc h
  obtain ⟨hb, body', k1, k2, hdr, b', k3⟩ := C02_frame_layout (entityCodec env) _ m m' f h
  have hx : encryptOAEP (key.encKey seeds) (bodyBytes env e) = .ok body' := by
    unfold Message.encodeBody at k3
    rw [hm] at k3
    have : (entityCodec env).encode e = .ok (bodyBytes env e, e') := h1
    simp only [this, Res.ok_bind] at k3
    cases hx : encryptOAEP (key.encKey seeds) (bodyBytes env e) with
    | err _ => simp [hx] at k3
    | panic => simp [hx] at k3
    | ok x =>
      simp [hx] at k3
      rw [k3.1]
  have hid : m'.header.msgID = e.msgID := by
    unfold Message.bodyMsgID at g2
    rw [hm] at g2
    simp at g2
    exact g2.symm
  have hu := C02_content_unique f _ _ g1 k1
  have hlen : (headerBytes m'.header.msgID.toNat prop m.header.iccID.toNat m.header.serial.toNat
      (m.header.packet.map fun p => (p.sum.toNat, p.seq.toNat))).length = hb.length := by
    rw [k2, ← g5, g3]
    cases m.header.packet <;> simp [headerBytes, be16, bcd_length]
  have hb2 := (List.append_inj hu hlen).2
  rw [hb2] at g1 g4
  rw [hid] at g1
  obtain ⟨texts, t1, t2, -⟩ := C96_written hash hh hn hk hr hx
  have hflag := (C02_property_bits (entityCodec env) _ m m' f h).1
  rw [hm] at hflag
  exact ⟨prop, texts, body', g1, t2, t1, by rw [g5, hflag]; simp, g3, g4⟩

/-- C96, read messages: a frame with a header of the protocol that says that the body is encrypted, followed by standard encryptions with the key of the server
of pieces of any lengths, which together are the bytes of the table of a body in range, is decoded to that header and that body. -/
theorem C96_message_read (hash : Bytes → Bytes) (hh : ∀ m, Fips180.Sha1 m (hash m)) (env : Env) {key : Oaep.PrivKey} {primes : List Nat} (hkey : RsaKey key primes)
    {n : Nat} (hn : key.pub.n = some n) {k : Nat} (hk : 0 < k ∧ 256 ^ (k - 1) ≤ n ∧ n < 256 ^ k) {e : Entity} (he : InRange env e) {f x : Bytes} {h : Header}
    (ha : Arrives f h x) (hid : h.msgID = e.msgID) (hen : encryptFlag h.property.toNat = true) (hs : sizeField h.property.toNat = x.length)
    {texts : List (Bytes × Bytes)} (hx : Rfc8017.Sealed hash n key.pub.e.toNat k texts x) (hb : (texts.map (·.2)).flatten = bodyBytes env e) :
    Message.decode (entityCodec env) (some key.decKey) {} f = .ok { header := h, body := .val (Spec.Entity.dropCache e) } := by
  obtain ⟨c, hc⟩ := C52_body_read env e he
  have hd : (entityCodec env).decode h.msgID (bodyBytes env e) = .ok (Spec.Entity.dropCache e, c) := hid ▸ hc
  have hlt : x.length < 1024 := by rw [← hs]; unfold sizeField; omega
  have hp : Message.plainContent (some key.decKey) h x = .ok (bodyBytes env e) := by
    have := C96_read hash hh hkey hn hk hx
    rw [hb] at this
    simp [Message.plainContent, Property.isEnableEncrypt_spec, hen, this, Res.mapErr]
  rw [decode_arrives ha, if_neg (by omega), hp]
  show (Message.decodeContent (entityCodec env) .nil h (bodyBytes env e)).bind _ = _
  unfold Message.decodeContent
  rw [hd]
  rfl

/-! ## Examples -/

/-- There is a hash function as in the standard. -/
example : ∃ hash : Bytes → Bytes, ∀ m, Fips180.Sha1 m (hash m) := ⟨Sha1.sum, fun m => (C96_sha1 m _).mpr rfl⟩

/-- The key of 1024 bits has a modulus of 128 bytes. -/
example : 42 < 128 ∧ 256 ^ (128 - 1) ≤ Sample.primeP * (Sample.primeQ * 1) ∧ Sample.primeP * (Sample.primeQ * 1) < 256 ^ 128 := by decide +kernel

/-- A text is encrypted with it. -/
example : (match encryptOAEP (Sample.rsaKey.pub.encKey fun _ => Sample.seed) [1, 2, 3] with
    | .ok x => x.length
    | _ => 0) = 128 := by decide +kernel

/-- So the standard encrypts that text as well. -/
example : ∃ c, Rfc8017.Encrypts Sha1.sum (Sample.primeP * (Sample.primeQ * 1)) 65537 128 Sample.seed [1, 2, 3] c :=
  ⟨_, by decide, by decide, by decide, rfl⟩

/-- An encrypted message is sent, and its frame arrives with an encrypted body: the hypotheses of both theorems about messages hold for it. -/
example : ∃ f m' r x, Message.encode (entityCodec Sample.env) (some (Sample.rsaKey.pub.encKey fun _ => Sample.seed)) Sample.message = .ok (f, m') ∧
    Message.decode (entityCodec Sample.env) (some Sample.rsaKey.decKey) {} f = .ok r ∧ Arrives f r.header x ∧ r.header.msgID = Sample.body.msgID ∧
    encryptFlag r.header.property.toNat = true := by
  obtain ⟨f, m', r, h1, h2, h3, h4, -, -, -, h5, -⟩ := C91_message Sample.env Sample.rsaKey_valid rfl (by decide +kernel)
    (fun _ => show Sample.seed.length = 20 by decide +kernel) Sample.message Sample.body rfl trivial (by decide) (by decide)
    (by intro b e' hb; cases hb; decide) (by decide) {}
  obtain ⟨x, hx, -⟩ := (C71_received_iff _ (fun id b => C15_message_body_never_panics Sample.env id b) _ (by
    intro k hk
    cases hk
    decide +kernel) f r).1 h2
  exact ⟨f, m', r, x, h1, h2, hx, h4, h5⟩

end Verif
