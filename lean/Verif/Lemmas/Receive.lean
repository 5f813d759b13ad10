import Verif.Lemmas.HeaderNumber
import Verif.Lemmas.Corruption
import Verif.Lemmas.Rsa
import Verif.Spec.Receive
/-! # What `Decode` accepts -/

namespace Verif
open Spec

variable {E : Type}

/-- Bytes in which a header was found begin with that header. -/
theorem Header.decode_inv {c : Bytes} {h : Header} (hd : Header.decode {} c = .ok h) :
    ∃ body, c = headerOf h ++ body ∧ 0 < h.iccID.toNat ∧ h.iccID.toNat < 10 ^ 12 ∧ packetFlag h.property.toNat = h.packet.isSome := by
  have hlen : 12 ≤ c.length := by
    unfold Header.decode at hd
    split at hd
    · simp at hd
    · omega
  obtain ⟨id, prop, serial, icc, tail, hi, rfl⟩ := header_split c hlen
  rw [Header.decode_bytes _ _ _ _ _ _ hi] at hd
  by_cases hgood : (∀ b ∈ icc, DecimalByte b) ∧ decimalValue icc ≠ 0
  · rw [(parseUint_field icc hi).1 hgood] at hd
    have hlt := decimalValue_lt icc hgood.1
    have hbcd := bcd_decimalValue icc hgood.1
    rw [hi] at hlt hbcd
    have hnat : (UInt64.ofNat (decimalValue icc)).toNat = decimalValue icc := by simp; omega
    simp only [Res.bind] at hd
    rw [Property.isEnablePacket_spec] at hd
    split at hd
    · rename_i hpk
      rw [Rd.bind_apply] at hd
      cases h1 : Rd.u16 tail with
      | err e => simp [h1] at hd
      | panic => simp [h1] at hd
      | ok r =>
        obtain ⟨a, t1⟩ := r
        simp only [h1] at hd
        rw [Rd.bind_apply] at hd
        cases h2 : Rd.u16 t1 with
        | err e => simp [h2] at hd
        | panic => simp [h2] at hd
        | ok r2 =>
          obtain ⟨b, t2⟩ := r2
          have e1 := u16_ok_length h1
          have e2 := u16_ok_length h2
          simp only [h2, Rd.pure_apply, Res.ok.injEq] at hd
          subst hd
          refine ⟨t2, ?_, by rw [hnat]; omega, by rw [hnat]; omega, hpk⟩
          simp only [headerOf, headerBytes, hnat, hbcd, ← put16_spec, Option.map_some, e1, e2, List.append_assoc]
    · rename_i hpk
      simp only [Res.ok.injEq] at hd
      subst hd
      refine ⟨tail, ?_, by rw [hnat]; omega, by rw [hnat]; omega, by simpa using hpk⟩
      simp only [headerOf, headerBytes, hnat, hbcd, ← put16_spec, Option.map_none, List.append_assoc, List.append_nil]
  · rw [(parseUint_field icc hi).2 hgood] at hd
    cases hd

theorem Header.decode_headerOf {h : Header} (h0 : 0 < h.iccID.toNat) (h1 : h.iccID.toNat < 10 ^ 12)
    (hpk : packetFlag h.property.toNat = h.packet.isSome) (body : Bytes) :
    Header.decode {} (headerOf h ++ body) = .ok h ∧ (headerOf h).length = if Property.isEnablePacket h.property then 16 else 12 := by
  have he := Header.encode_consistent h h1 hpk
  exact ⟨Header.decode_encode h h0 h1 _ _ he body, Header.encode_length _ _ _ he⟩

/-- Unstuffed bytes do not end in the middle of an escape sequence. -/
theorem Spec.Unstuffed.last {w c : Bytes} (h : Unstuffed w c) : ∀ d x, w = d ++ [x] → x = 0x7d → False := by
  induction h with
  | nil => intro d x e; simp at e
  | @flag w c hw ih =>
    rintro d x e rfl
    match d with
    | [] => simp at e
    | [a] => simp at e
    | a :: b :: d => simp at e; exact ih d _ e.2.2 rfl
  | @esc w c hw ih =>
    rintro d x e rfl
    match d with
    | [] => simp at e
    | [a] => simp at e
    | a :: b :: d => simp at e; exact ih d _ e.2.2 rfl
  | @plain b w c hb hw ih =>
    rintro d x e rfl
    match d with
    | [] => simp at e; exact hb e.1
    | a :: d => simp at e; exact ih d _ e.2 rfl

/-- The envelope decoder on content and check byte. -/
theorem decodeEnvelope_of {w u c : Bytes} {h : Header} (hw : Unstuffed w c) (hu : CheckByte u (xorAll c)) (hl : 12 ≤ c.length)
    (hh : Header.decode {} c = .ok h) : Message.decodeEnvelope ([0x7e] ++ w ++ u ++ [0x7e]) = .ok (h, c) := by
  rw [show ([0x7e] ++ w ++ u ++ [0x7e] : Bytes) = [0x7e] ++ (w ++ u) ++ [0x7e] by simp, decodeEnvelope_delim]
  have hne : w ≠ [] := by
    rintro rfl
    cases hw
    simp at hl
  have hs : splitChecksum (w ++ u) = .ok (xorAll c, w) := by
    rcases hu with rfl | ⟨rfl, hx⟩ | ⟨rfl, hx⟩
    · obtain ⟨d, x, rfl⟩ : ∃ d x, w = d ++ [x] := by
        obtain ⟨a, b, e, hb⟩ := exists_split w (w.length - 1) (by omega)
        have : b.length = 1 := by
          have h1 := congrArg List.length e
          have h2 : 0 < w.length := List.length_pos_iff.2 hne
          rw [List.length_append] at h1
          omega
        match b, this with
        | [x], _ => exact ⟨a, x, e⟩
      rw [show d ++ [x] ++ [xorAll c] = d ++ [x, xorAll c] by simp, splitChecksum_eq, if_pos (fun hx => hw.last d x rfl hx)]
    · rw [splitChecksum_eq, hx]; rfl
    · rw [splitChecksum_eq, hx]; rfl
  unfold Message.decodeInner
  rw [if_neg (by simp [hne]), hs]
  simp only [Res.ok_bind]
  rcases unescapeLoop_spec w 0 [] with ⟨c', hc', he⟩ | ⟨hc', -⟩
  · have := hw.functional hc'
    subst this
    simp only [he, Res.ok_bind, List.nil_append, UInt8.zero_xor, ne_eq, not_true_eq_false, or_false]
    rw [if_neg (by omega), if_neg (by omega), hh]
    rfl
  · exact absurd ⟨c, hw⟩ hc'

theorem decodeEnvelope_iff {data c : Bytes} {h : Header} :
    Message.decodeEnvelope data = .ok (h, c) ↔ ∃ body, c = headerOf h ++ body ∧ Arrives data h body := by
  constructor
  · intro he
    obtain ⟨w, u, s, h1, h2, h3, h4, h5, h6⟩ := decodeEnvelope_ok he
    obtain ⟨body, rfl, g1, g2, g3⟩ := Header.decode_inv h6
    exact ⟨body, rfl, ⟨w, u, h1, h2, h4 ▸ h3⟩, g1, g2, g3⟩
  · rintro ⟨body, rfl, ⟨w, u, rfl, h2, h3⟩, g1, g2, g3⟩
    obtain ⟨hd, hl⟩ := Header.decode_headerOf g1 g2 g3 body
    refine decodeEnvelope_of h2 h3 ?_ hd
    rw [List.length_append, hl]
    split <;> omega

theorem Spec.Arrives.unique {data b b' : Bytes} {h h' : Header} (ha : Arrives data h b) (ha' : Arrives data h' b') : h = h' ∧ b = b' := by
  have h1 := decodeEnvelope_iff.2 ⟨b, rfl, ha⟩
  have h2 := decodeEnvelope_iff.2 ⟨b', rfl, ha'⟩
  rw [h1] at h2
  simp only [Res.ok.injEq, Prod.mk.injEq] at h2
  obtain ⟨rfl, h3⟩ := h2
  exact ⟨rfl, List.append_cancel_left h3⟩

/-! ## Decryption -/

theorem Spec.Blocks.unique {limit : Nat} : ∀ {a b : List Bytes} {data : Bytes}, Blocks limit data a → Blocks limit data b → a = b := by
  intro a
  induction a with
  | nil =>
    rintro b data ⟨rfl, -, -⟩ ⟨h1, h2, -⟩
    cases b with
    | nil => rfl
    | cons x b =>
      have := (h2 x (by simp)).1
      simp at h1
      simp [h1.1] at this
  | cons x a ih =>
    rintro b data ⟨rfl, h2, h3⟩ ⟨g1, g2, g3⟩
    cases b with
    | nil =>
      have := (h2 x (by simp)).1
      simp at g1
      simp [g1.1] at this
    | cons y b =>
      have hx := h2 x (by simp)
      have hy := g2 y (by simp)
      have hlen : x.length = y.length := by
        have hl := congrArg List.length g1
        simp only [List.flatten_cons, List.length_append] at hl
        cases a with
        | nil =>
          cases b with
          | nil => simpa using hl.symm
          | cons z b =>
            have hz := (g2 z (by simp)).1
            have := g3 y (by simp)
            simp at hl
            omega
        | cons z a =>
          have hxl := h3 x (by simp)
          cases b with
          | nil =>
            have hz := (h2 z (by simp)).1
            simp at hl
            omega
          | cons v b => rw [hxl, g3 y (by simp)]
      simp only [List.flatten_cons] at g1
      obtain ⟨rfl, hrest⟩ := List.append_inj g1 hlen.symm
      have : a = b := by
        refine ih (data := a.flatten) ⟨rfl, fun c hc => h2 c (by simp [hc]), fun c hc => ?_⟩
          ⟨hrest, fun c hc => g2 c (by simp [hc]), fun c hc => ?_⟩
        · cases a with
          | nil => simp at hc
          | cons z a => exact h3 c (by simp [List.dropLast] at hc ⊢; exact Or.inr hc)
        · cases b with
          | nil => simp at hc
          | cons z b => exact g3 c (by simp [List.dropLast] at hc ⊢; exact Or.inr hc)
      rw [this]

theorem decryptLoop_iff {k : DecKey} {cs : List Bytes} {p : Bytes} :
    decryptLoop k cs = .ok p ↔ ∃ plains : List Bytes, cs.map k.dec = plains.map some ∧ p = plains.flatten := by
  induction cs generalizing p with
  | nil =>
    simp only [decryptLoop, Res.ok.injEq, List.map_nil]
    constructor
    · rintro rfl; exact ⟨[], rfl, rfl⟩
    · rintro ⟨ps, h, rfl⟩
      cases ps with
      | nil => rfl
      | cons a b => simp at h
  | cons c cs ih =>
    unfold decryptLoop
    cases hc : k.dec c with
    | none =>
      simp only [reduceCtorEq, List.map_cons, hc, false_iff, not_exists, not_and]
      intro ps h
      cases ps <;> simp at h
    | some x =>
      cases hr : decryptLoop k cs with
      | ok r =>
        obtain ⟨ps, h1, h2⟩ := ih.1 hr
        simp only [Res.ok_bind, Res.ok.injEq, List.map_cons, hc]
        constructor
        · rintro rfl
          exact ⟨x :: ps, by simp [h1], by simp [h2]⟩
        · rintro ⟨qs, e, rfl⟩
          cases qs with
          | nil => simp at e
          | cons q qs =>
            simp only [List.map_cons, List.cons.injEq, Option.some.injEq] at e
            have := ih.2 ⟨qs, e.2, rfl⟩
            rw [hr] at this
            simp only [Res.ok.injEq] at this
            rw [e.1, this]
            simp
      | err e =>
        constructor
        · intro h; cases h
        · rintro ⟨qs, e, rfl⟩
          cases qs with
          | nil => simp at e
          | cons q qs =>
            simp only [List.map_cons, List.cons.injEq] at e
            have := ih.2 ⟨qs, e.2, rfl⟩
            rw [hr] at this
            cases this
      | panic =>
        constructor
        · intro h; cases h
        · rintro ⟨qs, e, rfl⟩
          cases qs with
          | nil => simp at e
          | cons q qs =>
            simp only [List.map_cons, List.cons.injEq] at e
            have := ih.2 ⟨qs, e.2, rfl⟩
            rw [hr] at this
            cases this

theorem decryptOAEP_iff {k : DecKey} (hk : 0 < k.size) {body plain : Bytes} : decryptOAEP k body = .ok plain ↔
    ∃ chunks plains : List Bytes, Blocks k.size.toNat body chunks ∧ chunks.map k.dec = plains.map some ∧ plain = plains.flatten := by
  obtain ⟨chunks, hb, hs⟩ : ∃ chunks, Blocks k.size.toNat body chunks ∧ bytesSplit body k.size = .ok chunks :=
    ⟨_, (splitLoop_blocks k.size.toNat (by omega) (body.length + 1) body (by omega)).1, by unfold bytesSplit; rw [if_neg (by omega)]⟩
  unfold decryptOAEP
  rw [hs, Res.ok_bind, decryptLoop_iff]
  constructor
  · rintro ⟨ps, h1, h2⟩; exact ⟨chunks, ps, hb, h1, h2⟩
  · rintro ⟨cs, ps, h0, h1, h2⟩
    have := h0.unique hb
    subst this
    exact ⟨ps, h1, h2⟩

theorem plainContent_iff {key : Option DecKey} (hkey : ∀ k, key = some k → 0 < k.size) {h : Header} {body plain : Bytes} :
    Message.plainContent key h body = .ok plain ↔ Decrypted key h body plain := by
  unfold Message.plainContent Decrypted
  rw [Property.isEnableEncrypt_spec]
  split
  · cases key with
    | none => simp
    | some k =>
      have : (decryptOAEP k body).mapErr (fun _ => .decryptFailed) = .ok plain ↔ decryptOAEP k body = .ok plain := by
        cases decryptOAEP k body <;> simp [Res.mapErr]
      simp only [this, decryptOAEP_iff (hkey k rfl)]
      constructor
      · rintro ⟨cs, ps, h⟩; exact ⟨k, cs, ps, rfl, h⟩
      · rintro ⟨k', cs, ps, e, h⟩
        simp only [Option.some.injEq] at e
        subst e
        exact ⟨cs, ps, h⟩
  · simp [eq_comm]

end Verif
