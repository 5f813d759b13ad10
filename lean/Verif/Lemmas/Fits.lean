import Verif.Spec.Fits
import Verif.Lemmas.RelayAll
import Verif.Lemmas.RoundTrip
/-! # What it takes for a body to come back -/

namespace Verif

open Spec

theorem Rd.bind_inv {α β : Type} {x : Rd α} {f : α → Rd β} {s r : Bytes} {b : β} (h : (x >>= f) s = .ok (b, r)) :
    ∃ a s', x s = .ok (a, s') ∧ f a s' = .ok (b, r) := by
  rw [Rd.bind_apply] at h
  cases hx : x s with
  | ok p => obtain ⟨a, s'⟩ := p; rw [hx] at h; exact ⟨a, s', rfl, h⟩
  | err e => rw [hx] at h; cases h
  | panic => rw [hx] at h; cases h

theorem decodeMin_inv {α : Type} {k n : Nat} {p : Rd α} {data : Bytes} {a : α} (h : decodeMin k p data = .ok (a, n)) :
    k ≤ data.length ∧ ∃ r, p data = .ok (a, r) := by
  unfold decodeMin at h
  split at h
  · cases h
  · unfold runDecode at h
    split at h
    · rename_i hr
      simp only [Res.ok.injEq, Prod.mk.injEq] at h
      rw [h.1] at hr
      exact ⟨by omega, _, hr⟩
    · cases h
    · cases h

/-! ## Texts -/

section
variable {env : Env}

theorem putStr_inv {s b : Bytes} (h : putStr env s = .ok b) : env.gbEnc s = some b := by
  unfold putStr at h
  split at h
  · rename_i hb; rw [← Res.ok.inj h]; exact hb
  · cases h

theorem decodeStr_inv {s b : Bytes} (h : decodeStr env b = .ok s) : ∃ t, env.gbDec b = some t ∧ bytesToString t = s := by
  unfold decodeStr at h
  split at h
  · rename_i t ht; exact ⟨t, ht, Res.ok.inj h⟩
  · cases h

theorem lift_inv {α : Type} {x : Res α} {s r : Bytes} {a : α} (h : Rd.lift x s = .ok (a, r)) : x = .ok a ∧ r = s := by
  unfold Rd.lift at h
  cases x with
  | ok v => simp only [Res.ok.injEq, Prod.mk.injEq] at h; exact ⟨by rw [h.1], h.2.symm⟩
  | err e => cases h
  | panic => cases h

theorem read_inv {n : Nat} {s d r : Bytes} (h : Rd.read n s = .ok (d, r)) : n ≤ s.length ∧ d = s.take n ∧ r = s.drop n := by
  unfold Rd.read at h
  split at h
  · cases h
  · simp only [Res.ok.injEq, Prod.mk.injEq] at h
    exact ⟨by omega, h.1.symm, h.2.symm⟩

theorem str_inv {n : Nat} {d s r : Bytes} (h : Rd.str env n d = .ok (s, r)) :
    n ≤ d.length ∧ r = d.drop n ∧ ∃ t, env.gbDec (d.take n) = some t ∧ bytesToString t = s := by
  unfold Rd.str at h
  obtain ⟨x, s', h1, h2⟩ := Rd.bind_inv (x := Rd.read n) h
  obtain ⟨h3, h4⟩ := lift_inv h2
  obtain ⟨h5, h6, h7⟩ := read_inv h1
  rw [h6] at h3
  exact ⟨h5, by rw [h4, h7], decodeStr_inv h3⟩

theorem strRest_inv (hc : Codecs env) {s b r : Bytes} (h1 : putStr env s = .ok b) (h2 : Rd.strRest env b = .ok (s, r)) : AnyText env s := by
  unfold Rd.strRest at h2
  obtain ⟨x, s', h3, h4⟩ := Rd.bind_inv (x := Rd.rest) h2
  obtain ⟨h5, h6⟩ := lift_inv h4
  cases h3
  obtain ⟨t, h7, h8⟩ := decodeStr_inv h5
  exact ⟨_, hc.whole s b t (putStr_inv h1) h7 h8⟩

theorem anyText_nil (hc : Codecs env) : AnyText env [] := ⟨0, hc.empty⟩

theorem gbEnc_nil (hc : Codecs env) {b : Bytes} (h : env.gbEnc [] = some b) : b = [] := by
  obtain ⟨-, b', h1, h2, -⟩ := hc.empty
  rw [h] at h1
  cases h1
  exact List.eq_nil_of_length_eq_zero (by omega)

theorem optional_inv (hc : Codecs env) {s b r : Bytes} (h1 : putStrNonempty env s = .ok b) (h2 : Rd.strIfMore env [] b = .ok (s, r)) :
    AnyText env s := by
  unfold putStrNonempty at h1
  unfold Rd.strIfMore at h2
  rw [Rd.bind_len] at h2
  split at h1
  · split at h2
    · exact strRest_inv hc h1 h2
    · cases h2
      exact anyText_nil hc
  · cases h1
    cases h2
    exact anyText_nil hc

/-- Text behind a length that is read modulo `m`. -/
theorem text_mod (hc : Codecs env) {s b rest r : Bytes} {m : Nat} (hm : 7 ≤ m) (h1 : env.gbEnc s = some b)
    (h2 : Rd.str env (b.length % m) (b ++ rest) = .ok (s, r)) : Text env s (m - 1) ∧ r = rest := by
  obtain ⟨h3, h4, t, h5, h6⟩ := str_inv h2
  have hlt : b.length % m < m := Nat.mod_lt _ (by omega)
  have hle : b.length % m ≤ b.length := Nat.mod_le _ _
  rw [List.take_append_of_le_length hle] at h5
  by_cases hb : b.length < m
  · rw [Nat.mod_eq_of_lt hb] at h4 h5
    rw [List.take_length] at h5
    rw [List.drop_left] at h4
    obtain ⟨g0, b', g1, g2, g3⟩ := hc.whole s b t h1 h5 h6
    exact ⟨⟨g0, b', g1, by omega, g3⟩, h4⟩
  · exfalso
    have hd := Nat.mod_add_div b.length m
    have hq : 1 ≤ b.length / m := (Nat.one_le_div_iff (by omega)).2 (by omega)
    have : m * 1 ≤ m * (b.length / m) := Nat.mul_le_mul_left m hq
    exact hc.cut s b _ t h1 (by omega) h5 h6

theorem str8_inv (hc : Codecs env) {s b rest r : Bytes} (h1 : putStr8 env s = .ok b) (h2 : Rd.str8 env (b ++ rest) = .ok (s, r)) :
    Text env s 255 ∧ r = rest := by
  unfold putStr8 at h1
  obtain ⟨x, hx, h1⟩ := Res.bind_ok h1
  cases h1
  unfold Rd.str8 at h2
  simp only [List.cons_append, List.nil_append] at h2
  rw [Rd.bind_byte_cons] at h2
  have hn : (u8 x.length).toNat = x.length % 256 := by simp
  rw [hn] at h2
  exact text_mod hc (by omega) (putStr_inv hx) h2

theorem str16_inv (hc : Codecs env) {s b rest r : Bytes} (h1 : putStr16 env s = .ok b) (h2 : Rd.str16 env (b ++ rest) = .ok (s, r)) :
    Text env s 65535 ∧ r = rest := by
  unfold putStr16 at h1
  obtain ⟨x, hx, h1⟩ := Res.bind_ok h1
  cases h1
  unfold Rd.str16 at h2
  rw [List.append_assoc, Rd.bind_u16_put16] at h2
  have hn : (UInt16.ofNat x.length).toNat = x.length % 65536 := by simp
  rw [hn] at h2
  exact text_mod hc (by omega) (putStr_inv hx) h2

theorem encList_nil {α : Type} {f : α → Res Bytes} {b : Bytes} (h : encList f [] = .ok b) : b = [] := (Res.ok.inj h).symm

theorem encList_cons {α : Type} {f : α → Res Bytes} {x : α} {xs : List α} {b : Bytes} (h : encList f (x :: xs) = .ok b) :
    ∃ a as, f x = .ok a ∧ encList f xs = .ok as ∧ b = a ++ as := by
  unfold encList at h
  obtain ⟨a, h1, h⟩ := Res.bind_ok h
  obtain ⟨as, h2, h⟩ := Res.bind_ok h
  exact ⟨a, as, h1, h2, (Res.ok.inj h).symm⟩

/-- Lists whose items come back one by one. -/
theorem times_inv {α β : Type} {enc : α → Res Bytes} {item : Rd β} {g : α → β} {P : α → Prop} :
    ∀ {xs : List α} {k : Nat} {b rest r : Bytes}, (∀ x ∈ xs, ∀ b rest r, enc x = .ok b → item (b ++ rest) = .ok (g x, r) → P x ∧ r = rest) →
      encList enc xs = .ok b → Rd.times k item (b ++ rest) = .ok (xs.map g, r) → (∀ x ∈ xs, P x) ∧ r = rest
  | [], k, b, rest, r, _, h1, h2 => by
    have hk : ([] : List α).length = k := by
      have := (Rd.Post.times k (Rd.Post.any item) _ _ _ h2).1
      simpa using this
    subst hk
    rw [encList_nil h1] at h2
    simp only [List.nil_append, List.length_nil, Rd.times, List.map_nil] at h2
    cases h2
    exact ⟨by simp, rfl⟩
  | x :: xs, k, b, rest, r, hi, h1, h2 => by
    have hk : (x :: xs).length = k := by
      have := (Rd.Post.times k (Rd.Post.any item) _ _ _ h2).1
      simpa using this
    subst hk
    obtain ⟨a, as, e1, e2, rfl⟩ := encList_cons h1
    simp only [List.length_cons, Rd.times, List.map_cons] at h2
    obtain ⟨y, s1, h3, h4⟩ := Rd.bind_inv h2
    obtain ⟨ys, s2, h5, h6⟩ := Rd.bind_inv h4
    cases h6
    rw [List.append_assoc] at h3
    obtain ⟨p, rfl⟩ := hi x (by simp) a _ _ e1 h3
    obtain ⟨ps, rfl⟩ := times_inv (fun z hz => hi z (by simp [hz])) e2 h5
    refine ⟨fun z hz => ?_, rfl⟩
    rcases List.mem_cons.1 hz with rfl | hz
    · exact p
    · exact ps z hz

theorem T0100.fits (hc : Codecs env) {e : T0100} {b : Bytes} {n : Nat} (h1 : T0100.encode env e = .ok b)
    (h2 : T0100.decode env {} b = .ok (e, n)) : AnyText env e.licenseNo := by
  unfold T0100.encode at h1
  obtain ⟨l, hl, h1⟩ := Res.bind_ok h1
  cases h1
  unfold T0100.decode at h2
  obtain ⟨-, r, h2⟩ := decodeMin_inv h2
  simp only [List.append_assoc, Rd.bind_u16_put16, List.cons_append, List.nil_append] at h2
  rw [Rd.bind_read_append _ _ _ _ (by simp), Rd.bind_read_append _ _ _ _ (by simp), Rd.bind_read_append _ _ _ _ (by simp),
    Rd.bind_byte_cons] at h2
  obtain ⟨x, s, h3, h4⟩ := Rd.bind_inv h2
  simp only [Rd.pure_apply, Res.ok.injEq, Prod.mk.injEq] at h4
  obtain ⟨h4, -⟩ := h4
  have : x = e.licenseNo := by rw [← h4]
  subst this
  exact optional_inv hc hl h3

theorem T0102.fits (hc : Codecs env) {e : T0102} {b : Bytes} {n : Nat} (h1 : T0102.encode env e = .ok b)
    (h2 : T0102.decode env {} b = .ok (e, n)) : e.authKey ≠ [] ∧ AnyText env e.authKey := by
  unfold T0102.encode putStrNonempty at h1
  unfold T0102.decode at h2
  split at h2
  · cases h2
  rename_i hb
  split at h1
  · rename_i hs
    refine ⟨by intro h; rw [h] at hs; simp at hs, ?_⟩
    unfold runDecode at h2
    split at h2
    · rename_i hr
      obtain ⟨x, s, h3, h4⟩ := Rd.bind_inv hr
      cases h2
      simp only [Rd.pure_apply, Res.ok.injEq, Prod.mk.injEq] at h4
      rw [← h4.1] at h1
      rw [← h4.1]
      exact strRest_inv hc h1 h3
    · cases h2
    · cases h2
  · cases h1
    simp at hb

theorem T8100.fits (hc : Codecs env) {e : T8100} {b : Bytes} {n : Nat} (h1 : T8100.encode env e = .ok b)
    (h2 : T8100.decode env {} b = .ok (e, n)) : AnyText env e.authKey := by
  unfold T8100.encode at h1
  obtain ⟨l, hl, h1⟩ := Res.bind_ok h1
  cases h1
  unfold T8100.decode at h2
  obtain ⟨-, r, h2⟩ := decodeMin_inv h2
  simp only [List.append_assoc, Rd.bind_u16_put16, List.cons_append, List.nil_append, Rd.bind_byte_cons] at h2
  obtain ⟨x, s, h3, h4⟩ := Rd.bind_inv h2
  simp only [Rd.pure_apply, Res.ok.injEq, Prod.mk.injEq] at h4
  obtain ⟨h4, -⟩ := h4
  have : x = e.authKey := by rw [← h4]
  subst this
  exact optional_inv hc hl h3

theorem TByteText.fits (hc : Codecs env) {e : TByteText} {b : Bytes} {n : Nat} (h1 : TByteText.encode env e = .ok b)
    (h2 : TByteText.decode env {} b = .ok (e, n)) : AnyText env e.text := by
  unfold TByteText.encode at h1
  obtain ⟨l, hl, h1⟩ := Res.bind_ok h1
  cases h1
  unfold TByteText.decode at h2
  rw [if_neg (by simp)] at h2
  obtain ⟨t, ht, h2⟩ := Res.bind_ok h2
  obtain ⟨⟨x, s⟩, h3, h2⟩ := Res.bind_ok h2
  obtain ⟨c, -, h2⟩ := Res.bind_ok h2
  simp only [Res.ok.injEq, Prod.mk.injEq] at h2
  obtain ⟨h4, -⟩ := h2
  have : x = e.text := by rw [← h4]
  subst this
  rw [slice_to_end _ _ (by simp)] at ht
  cases ht
  exact optional_inv hc hl h3

theorem T8108.fits (hc : Codecs env) {e : T8108} {b : Bytes} {n : Nat} (h1 : T8108.encode env e = .ok b)
    (h2 : T8108.decode env {} b = .ok (e, n)) : Text env e.version 255 := by
  unfold T8108.encode at h1
  obtain ⟨l, hl, h1⟩ := Res.bind_ok h1
  cases h1
  unfold T8108.decode at h2
  obtain ⟨-, r, h2⟩ := decodeMin_inv h2
  simp only [List.append_assoc, List.cons_append, List.nil_append, Rd.bind_byte_cons] at h2
  rw [Rd.bind_read_append _ _ _ _ (by simp)] at h2
  obtain ⟨x, s, h3, h4⟩ := Rd.bind_inv h2
  obtain ⟨y, s', -, h4⟩ := Rd.bind_inv h4
  rw [Rd.bind_rest] at h4
  simp only [Rd.pure_apply, Res.ok.injEq, Prod.mk.injEq] at h4
  obtain ⟨h4, -⟩ := h4
  have : x = e.version := by rw [← h4]
  subst this
  exact (str8_inv hc hl h3).1

theorem IdText.item_inv (hc : Codecs env) {e : IdText} {b rest r : Bytes} (h1 : IdText.encodeItem env e = .ok b)
    (h2 : IdText.decodeItem env (b ++ rest) = .ok (e, r)) : Text env e.content 255 ∧ r = rest := by
  unfold IdText.encodeItem at h1
  obtain ⟨l, hl, h1⟩ := Res.bind_ok h1
  cases h1
  unfold IdText.decodeItem at h2
  simp only [List.append_assoc, List.cons_append, List.nil_append, Rd.bind_byte_cons] at h2
  obtain ⟨x, s, h3, h4⟩ := Rd.bind_inv h2
  simp only [Rd.pure_apply, Res.ok.injEq, Prod.mk.injEq] at h4
  obtain ⟨h4, rfl⟩ := h4
  have : x = e.content := by rw [← h4]
  subst this
  exact str8_inv hc hl h3

theorem T8301.fits (hc : Codecs env) {e : T8301} {b : Bytes} {n : Nat} (h1 : T8301.encode env e = .ok b)
    (h2 : T8301.decode env {} b = .ok (e, n)) : ∀ x ∈ e.events, Text env x.content 255 := by
  unfold T8301.encode at h1
  obtain ⟨l, hl, h1⟩ := Res.bind_ok h1
  cases h1
  unfold T8301.decode at h2
  obtain ⟨-, r, h2⟩ := decodeMin_inv h2
  simp only [List.cons_append, List.nil_append, Rd.bind_byte_cons] at h2
  obtain ⟨x, s, h3, h4⟩ := Rd.bind_inv h2
  simp only [Rd.pure_apply, Res.ok.injEq, Prod.mk.injEq] at h4
  obtain ⟨h4, -⟩ := h4
  have : x = e.events := by rw [← h4]
  subst this
  rw [← List.append_nil l, ← List.map_id (l := e.events)] at h3
  exact (times_inv (P := fun x : IdText => Text env x.content 255) (fun x _ b rest r => IdText.item_inv hc) hl h3).1

theorem T8303.fits (hc : Codecs env) {e : T8303} {b : Bytes} {n : Nat} (h1 : T8303.encode env e = .ok b)
    (h2 : T8303.decode env {} b = .ok (e, n)) : ∀ x ∈ e.items, Text env x 65535 := by
  unfold T8303.encode at h1
  obtain ⟨l, hl, h1⟩ := Res.bind_ok h1
  cases h1
  unfold T8303.decode at h2
  obtain ⟨-, r, h2⟩ := decodeMin_inv h2
  simp only [List.cons_append, List.nil_append, Rd.bind_byte_cons] at h2
  obtain ⟨x, s, h3, h4⟩ := Rd.bind_inv h2
  simp only [Rd.pure_apply, Res.ok.injEq, Prod.mk.injEq] at h4
  obtain ⟨h4, -⟩ := h4
  have : x = e.items := by rw [← h4]
  subst this
  rw [← List.append_nil l, ← List.map_id (l := e.items)] at h3
  exact (times_inv (P := fun x : Bytes => Text env x 65535) (fun x _ b rest r => str16_inv hc) hl h3).1

theorem Contact.item_inv (hc : Codecs env) {e : Contact} {b rest r : Bytes} (h1 : Contact.encodeItem env e = .ok b)
    (h2 : Contact.decodeItem env (b ++ rest) = .ok (e, r)) : (Text env e.number 255 ∧ Text env e.contact 255) ∧ r = rest := by
  unfold Contact.encodeItem at h1
  obtain ⟨l, hl, h1⟩ := Res.bind_ok h1
  obtain ⟨m, hm, h1⟩ := Res.bind_ok h1
  cases h1
  unfold Contact.decodeItem at h2
  simp only [List.append_assoc, List.cons_append, List.nil_append, Rd.bind_byte_cons] at h2
  obtain ⟨x, s, h3, h4⟩ := Rd.bind_inv h2
  obtain ⟨y, s', h5, h4⟩ := Rd.bind_inv h4
  simp only [Rd.pure_apply, Res.ok.injEq, Prod.mk.injEq] at h4
  obtain ⟨h7, rfl⟩ := h4
  have e1 : x = e.number := by rw [← h7]
  have e2 : y = e.contact := by rw [← h7]
  subst e1 e2
  obtain ⟨g1, rfl⟩ := str8_inv hc hl h3
  obtain ⟨g2, rfl⟩ := str8_inv hc hm h5
  exact ⟨⟨g1, g2⟩, rfl⟩

theorem T8401.fits (hc : Codecs env) {e : T8401} {b : Bytes} {n : Nat} (h1 : T8401.encode env e = .ok b)
    (h2 : T8401.decode env {} b = .ok (e, n)) : ∀ x ∈ e.contacts, Text env x.number 255 ∧ Text env x.contact 255 := by
  unfold T8401.encode at h1
  obtain ⟨l, hl, h1⟩ := Res.bind_ok h1
  cases h1
  unfold T8401.decode at h2
  obtain ⟨-, r, h2⟩ := decodeMin_inv h2
  simp only [List.cons_append, List.nil_append, Rd.bind_byte_cons] at h2
  obtain ⟨x, s, h3, h4⟩ := Rd.bind_inv h2
  simp only [Rd.pure_apply, Res.ok.injEq, Prod.mk.injEq] at h4
  obtain ⟨h4, -⟩ := h4
  have : x = e.contacts := by rw [← h4]
  subst this
  rw [← List.append_nil l, ← List.map_id (l := e.contacts)] at h3
  exact (times_inv (P := fun x : Contact => Text env x.number 255 ∧ Text env x.contact 255) (fun x _ b rest r => Contact.item_inv hc) hl h3).1

theorem answers_inv (hc : Codecs env) : ∀ {xs : List IdText} {fuel : Nat} {b r : Bytes}, encList (IdText.encodeItem env) xs = .ok b →
    decodeAnswers env fuel b = .ok (xs, r) → ∀ x ∈ xs, Text env x.content 255
  | [], _, _, _, _, _ => by simp
  | x :: xs, 0, b, r, h1, h2 => by
    cases h2
  | x :: xs, fuel + 1, b, r, h1, h2 => by
    obtain ⟨a, as, e1, e2, rfl⟩ := encList_cons h1
    unfold decodeAnswers at h2
    rw [Rd.bind_len] at h2
    split at h2
    · cases h2
    · obtain ⟨y, s1, h3, h4⟩ := Rd.bind_inv h2
      obtain ⟨ys, s2, h5, h6⟩ := Rd.bind_inv h4
      simp only [Rd.pure_apply, Res.ok.injEq, Prod.mk.injEq, List.cons.injEq] at h6
      obtain ⟨⟨rfl, rfl⟩, rfl⟩ := h6
      obtain ⟨p, rfl⟩ := IdText.item_inv hc e1 h3
      have ps := answers_inv hc e2 h5
      intro z hz
      rcases List.mem_cons.1 hz with rfl | hz
      · exact p
      · exact ps z hz

theorem T8302.fits (hc : Codecs env) {e : T8302} {b : Bytes} {n : Nat} (h1 : T8302.encode env e = .ok b)
    (h2 : T8302.decode env {} b = .ok (e, n)) : Text env e.question 255 ∧ ∀ x ∈ e.answers, Text env x.content 255 := by
  unfold T8302.encode at h1
  obtain ⟨q, hq, h1⟩ := Res.bind_ok h1
  obtain ⟨l, hl, h1⟩ := Res.bind_ok h1
  cases h1
  unfold T8302.decode at h2
  obtain ⟨-, r, h2⟩ := decodeMin_inv h2
  simp only [List.append_assoc, List.cons_append, List.nil_append, Rd.bind_byte_cons] at h2
  obtain ⟨x, s, h3, h4⟩ := Rd.bind_inv h2
  rw [Rd.bind_len] at h4
  obtain ⟨y, s', h5, h4⟩ := Rd.bind_inv h4
  simp only [Rd.pure_apply, Res.ok.injEq, Prod.mk.injEq] at h4
  obtain ⟨h4, -⟩ := h4
  have e1 : x = e.question := by rw [← h4]
  have e2 : y = e.answers := by rw [← h4]
  subst e1 e2
  obtain ⟨g1, rfl⟩ := str8_inv hc hq h3
  exact ⟨g1, answers_inv hc hl h5⟩

theorem T8304.fits (hc : Codecs env) {e : T8304} {b : Bytes} {n : Nat} (h1 : T8304.encode env e = .ok b)
    (h2 : T8304.decode env {} b = .ok (e, n)) : Text env e.content 65535 := by
  unfold T8304.encode at h1
  obtain ⟨l, hl, h1⟩ := Res.bind_ok h1
  cases h1
  unfold T8304.decode at h2
  obtain ⟨-, r, h2⟩ := decodeMin_inv h2
  simp only [List.cons_append, List.nil_append, Rd.bind_byte_cons] at h2
  obtain ⟨x, s, h3, h4⟩ := Rd.bind_inv h2
  simp only [Rd.pure_apply, Res.ok.injEq, Prod.mk.injEq] at h4
  obtain ⟨h4, -⟩ := h4
  have : x = e.content := by rw [← h4]
  subst this
  rw [← List.append_nil l] at h3
  exact (str16_inv hc hl h3).1

theorem T8400.fits (hc : Codecs env) {e : T8400} {b : Bytes} {n : Nat} (h1 : T8400.encode env e = .ok b)
    (h2 : T8400.decode env {} b = .ok (e, n)) : AnyText env e.number := by
  unfold T8400.encode at h1
  cases h1
  unfold T8400.decode at h2
  obtain ⟨-, r, h2⟩ := decodeMin_inv h2
  simp only [List.cons_append, List.nil_append, Rd.bind_byte_cons] at h2
  obtain ⟨x, s, h3, h4⟩ := Rd.bind_inv h2
  simp only [Rd.pure_apply, Res.ok.injEq, Prod.mk.injEq] at h4
  obtain ⟨h4, -⟩ := h4
  have : x = e.number := by rw [← h4]
  subst this
  split at h3
  · rename_i hb
    exact strRest_inv hc hb h3
  · unfold Rd.strRest at h3
    obtain ⟨y, s', h5, h6⟩ := Rd.bind_inv (x := Rd.rest) h3
    obtain ⟨h7, -⟩ := lift_inv h6
    cases h5
    obtain ⟨t, ht⟩ := (anyText_nil hc).bytes
    have := ht.decode
    rw [gbEnc_nil hc ht.enc] at this
    rw [this] at h7
    rw [← Res.ok.inj h7]
    exact anyText_nil hc

theorem T0702.times {e : T0702} {b : Bytes} {n : Nat} (h2 : T0702.decode env {} b = .ok (e, n)) :
    TimeOK env e.time ∧ DateOK env e.expiryDate := by
  unfold T0702.decode at h2
  exact decodeMin_post (Q := fun e : T0702 => TimeOK env e.time ∧ DateOK env e.expiryDate) (by
    rd_any
    refine Rd.Post.bind (Rd.Post.bcdTime env) fun t ht => ?_
    rd_any
    rd_any
    rd_any
    rd_any
    refine Rd.Post.bind (Rd.Post.read 4) fun b hb => ?_
    refine Rd.Post.bind (Q := DateOK env) (Rd.Post.lift fun x hx => parseDate_ok hb hx) fun d hd => ?_
    exact Rd.Post.pure ⟨ht, hd⟩) h2

theorem T0702.fits (hc : Codecs env) {e : T0702} {b : Bytes} {n : Nat} (h1 : T0702.encode env e = .ok b)
    (h2 : T0702.decode env {} b = .ok (e, n)) :
    TimeOK env e.time ∧ Text env e.driverName 255 ∧ FixedText env e.number 20 ∧ Text env e.companyName 255 ∧ DateOK env e.expiryDate := by
  have hp := T0702.times h2
  unfold T0702.encode at h1
  obtain ⟨dn, hdn, h1⟩ := Res.bind_ok h1
  obtain ⟨nu, hnu, h1⟩ := Res.bind_ok h1
  obtain ⟨cn, hcn, h1⟩ := Res.bind_ok h1
  cases h1
  unfold T0702.decode at h2
  obtain ⟨-, r, h2⟩ := decodeMin_inv h2
  simp only [List.append_assoc, List.cons_append, List.nil_append, Rd.bind_byte_cons] at h2
  rw [bind_bcdTime env e.time hp.1, Rd.bind_byte_cons] at h2
  obtain ⟨x, s1, h3, h4⟩ := Rd.bind_inv h2
  obtain ⟨y, s2, h5, h4⟩ := Rd.bind_inv h4
  obtain ⟨z, s3, h6, h4⟩ := Rd.bind_inv h4
  obtain ⟨u, s4, -, h4⟩ := Rd.bind_inv h4
  obtain ⟨v, s5, -, h4⟩ := Rd.bind_inv h4
  simp only [Rd.pure_apply, Res.ok.injEq, Prod.mk.injEq] at h4
  obtain ⟨h4, -⟩ := h4
  have e1 : x = e.driverName := by rw [← h4]
  have e2 : y = e.number := by rw [← h4]
  have e3 : z = e.companyName := by rw [← h4]
  subst e1 e2 e3
  obtain ⟨g1, rfl⟩ := str8_inv hc hdn h3
  obtain ⟨-, rfl, t, g3, g4⟩ := str_inv h5
  unfold putStrFixed at hnu
  split at hnu
  · rename_i nb hnb
    cases hnu
    rw [List.take_left' (by simp)] at g3
    rw [List.drop_left' (by simp)] at h6
    obtain ⟨g5, rfl⟩ := str8_inv hc hcn h6
    refine ⟨hp.1, g1, ⟨nb, t, hnb, ?_, g4⟩, g5, hp.2⟩
    rw [putFixed_padded] at g3
    exact g3
  · cases hnu

/-! ## Lists that must not be empty -/

theorem T0104.fits {e : T0104} {b : Bytes} {n : Nat} (h1 : T0104.encode e = .ok b) (h2 : T0104.decode {} b = .ok (e, n)) : e.params ≠ [] := by
  intro h
  unfold T0104.encode at h1
  obtain ⟨l, hl, h1⟩ := Res.bind_ok h1
  cases h1
  rw [h] at hl
  obtain ⟨h2, -⟩ := decodeMin_inv h2
  rw [encList_nil hl] at h2
  simp at h2

theorem T8103.fits {e : T8103} {b : Bytes} {n : Nat} (h1 : T8103.encode e = .ok b) (h2 : T8103.decode {} b = .ok (e, n)) : e.params ≠ [] := by
  intro h
  unfold T8103.encode at h1
  obtain ⟨l, hl, h1⟩ := Res.bind_ok h1
  cases h1
  rw [h] at hl
  obtain ⟨h2, -⟩ := decodeMin_inv h2
  rw [encList_nil hl] at h2
  simp at h2

theorem T0901.fits (hc : Codecs env) {e : T0901} {b : Bytes} {n : Nat} (h1 : T0901.encode env e = .ok b)
    (h2 : T0901.decode env {} b = .ok (e, n)) :
    ∃ z, env.gzip e.uncompressed = some z ∧ env.gunzip z = some e.uncompressed ∧ z.length < 2 ^ 32 := by
  obtain ⟨z, hz⟩ := hc.zip e.uncompressed
  unfold T0901.encode at h1
  simp only [hz, Option.getD_some] at h1
  cases h1
  unfold T0901.decode at h2
  obtain ⟨-, r, h2⟩ := decodeMin_inv h2
  rw [Rd.bind_u32_put32] at h2
  have hn : (UInt32.ofNat z.length).toNat = z.length % 2 ^ 32 := by simp
  rw [hn] at h2
  obtain ⟨x, s, h3, h4⟩ := Rd.bind_inv h2
  obtain ⟨h5, rfl, -⟩ := read_inv h3
  cases hu : env.gunzip (z.take (z.length % 2 ^ 32)) with
  | none => simp only [hu] at h4; cases h4
  | some u =>
    simp only [hu, Rd.pure_apply, Res.ok.injEq, Prod.mk.injEq] at h4
    rw [← h4.1] at hz ⊢
    simp only at hz ⊢
    by_cases hl : z.length < 2 ^ 32
    · rw [Nat.mod_eq_of_lt hl, List.take_length] at hu
      exact ⟨z, hz, hu, hl⟩
    · exact absurd hu (hc.zipCut u z _ hz (by omega))

theorem T0A00.fits {e : T0A00} {b : Bytes} (h1 : T0A00.encode e = .ok b) : ∀ k n, e.publicKey = some k → k.n = some n → keySize n = 128 := by
  intro k n hk hn
  unfold T0A00.encode at h1
  rw [hk] at h1
  simp only at h1
  rw [hn] at h1
  simp only at h1
  split at h1
  · cases h1
  · omega

end

end Verif
