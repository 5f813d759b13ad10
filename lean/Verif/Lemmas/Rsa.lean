import Verif.Spec.Rsa
import Verif.Props.Frame
/-! # Lemmas on block-wise encryption -/

namespace Verif

open Spec

theorem blockCount_zero (limit : Nat) (h : 0 < limit) : blockCount limit 0 = 0 := by
  unfold blockCount; exact Nat.div_eq_of_lt (by omega)

theorem blockCount_add (limit n : Nat) (h : 0 < limit) : blockCount limit (limit + n) = blockCount limit n + 1 := by
  unfold blockCount
  rw [show limit + n + limit - 1 = (n + limit - 1) + limit by omega, Nat.add_div_right _ h]

theorem blockCount_small (limit n : Nat) (h0 : 0 < n) (h : n ≤ limit) : blockCount limit n = 1 := by
  unfold blockCount
  rw [show n + limit - 1 = (n - 1) + limit by omega, Nat.add_div_right _ (by omega), Nat.div_eq_of_lt (by omega)]

theorem blockCount_mono (limit a b : Nat) (h : a ≤ b) : blockCount limit a ≤ blockCount limit b :=
  Nat.div_le_div_right (by omega)

theorem splitLoop_blocks (limit : Nat) (hl : 0 < limit) (fuel : Nat) (data : Bytes) (h : data.length < fuel) :
    Blocks limit data (splitLoop limit fuel data) ∧ (splitLoop limit fuel data).length = blockCount limit data.length := by
  induction fuel generalizing data with
  | zero => omega
  | succ fuel ih =>
    unfold splitLoop
    split
    · rename_i hge
      obtain ⟨⟨i1, i2, i3⟩, i4⟩ := ih (data.drop limit) (by simp; omega)
      have ht : (data.take limit).length = limit := by simp; omega
      refine ⟨⟨?_, ?_, ?_⟩, ?_⟩
      · simp only [List.flatten_cons, i1, List.take_append_drop]
      · intro c hc
        rcases List.mem_cons.1 hc with rfl | hc
        · omega
        · exact i2 c hc
      · intro c hc
        generalize splitLoop limit fuel (data.drop limit) = r at *
        cases r with
        | nil => simp at hc
        | cons y ys =>
          rw [List.dropLast_cons₂] at hc
          rcases List.mem_cons.1 hc with rfl | hc
          · exact ht
          · exact i3 c hc
      · rw [List.length_cons, i4, List.length_drop]
        rw [show data.length = limit + (data.length - limit) by omega, blockCount_add _ _ hl]
        simp
    · rename_i hlt
      split
      · rename_i h0
        refine ⟨⟨by simp, ?_, by simp⟩, ?_⟩
        · intro c hc
          obtain rfl : c = data := by simpa using hc
          omega
        · rw [blockCount_small _ _ h0 (by omega)]; rfl
      · have : data = [] := List.length_eq_zero_iff.1 (by omega)
        subst this
        exact ⟨⟨rfl, by simp, by simp⟩, by simp [blockCount_zero _ hl]⟩

/-- Equal-sized blocks are recovered by splitting their concatenation. -/
theorem splitLoop_flatten (size : Nat) (hs : 0 < size) (xs : List Bytes) (h : ∀ x ∈ xs, x.length = size) (fuel : Nat)
    (hf : xs.flatten.length < fuel) : splitLoop size fuel xs.flatten = xs := by
  induction xs generalizing fuel with
  | nil => cases fuel with
    | zero => simp at hf
    | succ fuel => unfold splitLoop; rw [if_neg (by simp; omega), if_neg (by simp)]
  | cons x xs ih =>
    cases fuel with
    | zero => omega
    | succ fuel =>
      have hx := h x (by simp)
      unfold splitLoop
      rw [List.flatten_cons, if_pos (by simp; omega), List.take_left' hx, List.drop_left' hx, ih (fun y hy => h y (by simp [hy]))]
      rw [List.flatten_cons, List.length_append] at hf
      omega

theorem encrypt_blocks {k : EncKey} {d : DecKey} {size : Nat} (hk : KeyPair k d size) (cs : List Bytes)
    (h : ∀ c ∈ cs, c.length ≤ size - 42) (i : Nat) : ∃ xs : List Bytes, encryptLoop k i cs = .ok xs.flatten ∧
      (∀ x ∈ xs, x.length = size) ∧ xs.length = cs.length ∧ decryptLoop d xs = .ok cs.flatten := by
  induction cs generalizing i with
  | nil => exact ⟨[], rfl, by simp, rfl, rfl⟩
  | cons c cs ih =>
    obtain ⟨x, h1, h2, h3⟩ := hk.inverse i c (h c (by simp))
    obtain ⟨xs, i1, i2, i3, i4⟩ := ih (fun y hy => h y (by simp [hy])) (i + 1)
    refine ⟨x :: xs, ?_, ?_, by simp [i3], ?_⟩
    · unfold encryptLoop; rw [h1]; simp only [i1, Res.ok_bind, List.flatten_cons]
    · intro y hy
      rcases List.mem_cons.1 hy with rfl | hy
      · exact h2
      · exact i2 y hy
    · unfold decryptLoop; rw [h3]; simp only [i4, Res.ok_bind, List.flatten_cons]

theorem encrypt_decrypt {k : EncKey} {d : DecKey} {size : Nat} (hk : KeyPair k d size) (msg : Bytes) : ∃ x,
    encryptOAEP k msg = .ok x ∧ x.length = size * blockCount (size - 42) msg.length ∧ decryptOAEP d x = .ok msg := by
  have hb := hk.big
  obtain ⟨⟨b1, b2, b3⟩, b4⟩ := splitLoop_blocks (size - 42) (by omega) (msg.length + 1) msg (by omega)
  obtain ⟨xs, i1, i2, i3, i4⟩ := encrypt_blocks hk (splitLoop (size - 42) (msg.length + 1) msg) (fun c hc => (b2 c hc).2) 0
  refine ⟨xs.flatten, ?_, ?_, ?_⟩
  · unfold encryptOAEP bytesSplit
    rw [hk.encSize, if_neg (by omega), show ((size : Int) - 2 * 20 - 2).toNat = size - 42 by omega]
    exact i1
  · rw [← b4, ← i3]
    have : ∀ ys : List Bytes, (∀ y ∈ ys, y.length = size) → ys.flatten.length = size * ys.length := by
      intro ys hy
      induction ys with
      | nil => simp
      | cons y ys ih => simp only [List.flatten_cons, List.length_append, List.length_cons, hy y (by simp), ih fun z hz => hy z (by simp [hz]), Nat.mul_add]; omega
    exact this xs i2
  · unfold decryptOAEP bytesSplit
    rw [hk.decSize, if_neg (by omega), show ((size : Int)).toNat = size by omega]
    simp only [Res.ok_bind]
    rw [splitLoop_flatten size (by omega) xs i2 _ (by omega), i4, b1]

variable {E : Type}

/-- A message whose body bytes `x` on the wire are turned back into `b` by the receiver. -/
theorem Message.round_trip_gen (C : BodyCodec E) (m : Message E) (e e1 e2 : E) (x b : Bytes) (n : Nat) (key : Option EncKey) (p0 : UInt16)
    (hm : m.body = .val e) (h1 : Message.encodeBody C key m = .ok (x, { m.header with property := p0 }, .val e1))
    (hdec : C.decode (C.msgID e) b = .ok (e2, n))
    (hicc0 : 0 < m.header.iccID.toNat) (hicc1 : m.header.iccID.toNat < 10 ^ 12) (hsize : x.length ≤ 1023)
    (hpacket : packetFlag p0.toNat = true → m.header.packet.isSome)
    (dkey : Option DecKey) (self : Message E) :
    ∃ frame m' h', Message.encode C key m = .ok (frame, m') ∧
      (∀ r, Message.plainContent dkey h' x = r → Message.decode C dkey self frame = match r with
        | .ok y => if y = b then .ok { header := h', body := .val e2 } else Message.decode C dkey self frame
        | .err e => .err e
        | .panic => .panic) ∧
      h'.msgID = C.msgID e ∧ h'.serial = m.header.serial ∧
      h'.iccID = m.header.iccID ∧ h'.packet = m.header.packet ∧
      sizeField h'.property.toNat = x.length ∧ encryptFlag h'.property.toNat = encryptFlag p0.toNat ∧
      packetFlag h'.property.toNat = m.header.packet.isSome ∧ m'.header = h' := by
  have hb16 : (UInt16.ofNat x.length).toNat = x.length := by simp; omega
  have h2 : Message.bodyMsgID C m.body = .ok (C.msgID e) := by rw [hm]; rfl
  obtain ⟨prop, h3, hprop⟩ := Property.setBodySize_toNat p0 (UInt16.ofNat x.length) (by omega)
  rw [hb16] at hprop
  have hpk : packetFlag prop.toNat = packetFlag p0.toNat := by
    unfold packetFlag; rw [hprop]; congr 1; omega
  have hen : encryptFlag prop.toNat = encryptFlag p0.toNat := by
    unfold encryptFlag; rw [hprop]; congr 1; omega
  obtain ⟨hb, h', h4⟩ : ∃ hb h', Header.encode { m.header with msgID := C.msgID e, property := prop } = .ok (hb, h') := by
    unfold Header.encode
    cases hp : m.header.packet with
    | none =>
      have : Property.isEnablePacket prop = false := by
        rw [Property.isEnablePacket_spec, hpk]
        cases hx : packetFlag p0.toNat with
        | false => rfl
        | true => have := hpacket hx; rw [hp] at this; simp at this
      simp [this]
    | some p =>
      simp only [Option.isSome_some, if_true]
      split
      · exact ⟨_, _, rfl⟩
      · exact ⟨_, _, rfl⟩
  have hfull := Message.encode_ok h1 h2 h3 h4
  obtain ⟨hlay, hh', hprop', hpk'⟩ := Header.encode_layout _ (by exact hicc1) _ _ h4
  have hround := Header.decode_encode _ (by exact hicc0) (by exact hicc1) _ _ h4
  have hlen := Header.encode_length _ _ _ h4
  have hsz : sizeField h'.property.toNat = x.length := by
    rw [hprop', sizeField]
    simp only
    split
    · rw [Property.enablePacket_toNat]
      have : (prop.toNat ||| 2 ^ 13) % 2 ^ 10 = prop.toNat % 2 ^ 10 := by
        rw [Nat.or_mod_two_pow]; simp
      have h10 : (2 : Nat) ^ 10 = 1024 := by decide
      rw [h10] at this
      rw [this, hprop]; omega
    · rw [hprop]; omega
  have hen' : encryptFlag h'.property.toNat = encryptFlag p0.toNat := by
    rw [← hen, ← Property.isEnableEncrypt_spec, ← Property.isEnableEncrypt_spec, hprop', Property.isEnableEncrypt_testBit,
      Property.isEnableEncrypt_testBit]
    simp only
    split
    · rw [Property.enablePacket_toNat, Nat.testBit_or, Nat.testBit_two_pow]; simp
    · rfl
  have hid : h'.msgID = C.msgID e := by rw [hh']
  have hpkt : h'.packet = m.header.packet := by rw [hh']
  refine ⟨_, _, h', hfull, ?_, hid, by rw [hh'], by rw [hh'], hpkt, hsz, hen',
    by rw [← Property.isEnablePacket_spec, hpk', hpkt], rfl⟩
  intro r hr
  have hd : Message.decode C dkey self ([0x7e] ++ escape (hb ++ x ++ [xorAll (hb ++ x)]) ++ [0x7e]) =
      (Message.plainContent dkey h' x).bind fun plain =>
        (Message.decodeContent C self.body h' plain).bind fun b => .ok { header := h', body := b } := by
    rw [Message.decode_frame (by simp only [List.length_append, hlen]; split <;> omega) (hround x)]
    rw [Message.decodeRest_split hlen]
    have hsz' : Property.getBodySize h'.property = UInt16.ofNat x.length := by
      apply UInt16.toNat.inj
      rw [Property.getBodySize_toNat, hb16, ← hsz, sizeField]
    rw [hsz']
    simp
  subst hr
  cases hp : Message.plainContent dkey h' x with
  | err e => rw [hd, hp]; rfl
  | panic => rw [hd, hp]; rfl
  | ok y =>
    simp only
    split
    · rename_i hy
      subst hy
      rw [hd, hp]
      simp [Res.bind, Message.decodeContent, hid, hdec]
    · rfl

end Verif
