import Verif.Spec.Registered
import Verif.Lemmas.AcceptsAll
/-! # Lemmas about registered types -/

namespace Verif

open Spec

variable {X : Type}

/-! ## The tables -/

theorem lastFor_nil {K C : Type} [DecidableEq K] (id : K) : lastFor id ([] : List (K × C)) = none := rfl

theorem lastFor_cons {K C : Type} [DecidableEq K] (id typ : K) (c : C) (rs : List (K × C)) :
    lastFor id ((typ, c) :: rs) = (lastFor id rs).or (if typ = id then some c else none) := by
  unfold lastFor
  by_cases h : typ = id
  · rw [List.filter_cons_of_pos (by simpa using h), if_pos h, List.getLast?_cons]
    cases (rs.filter fun r => r.1 = id).getLast? <;> rfl
  · rw [List.filter_cons_of_neg (by simpa using h), if_neg h]
    cases (rs.filter fun r => r.1 = id).getLast? <;> rfl

theorem BodyTable.registerAll_eq (rs : List (UInt16 × Option (AnyBody X))) (t : BodyTable X) (id : UInt16) :
    t.registerAll rs id = (lastFor id rs).or (t id) := by
  induction rs generalizing t with
  | nil => rfl
  | cons r rs ih =>
    obtain ⟨typ, c⟩ := r
    show (t.register typ c).registerAll rs id = _
    rw [ih, lastFor_cons, BodyTable.register]
    by_cases h : id = typ
    · rw [if_pos h, if_pos h.symm]; cases lastFor id rs <;> rfl
    · rw [if_neg h, if_neg (Ne.symm h)]; cases lastFor id rs <;> rfl

theorem ExtraTable.registerAll_eq (rs : List (UInt8 × Option (AnyExtra X))) (t : ExtraTable X) (id : UInt8) :
    t.registerAll rs id = (lastFor id rs).or (t id) := by
  induction rs generalizing t with
  | nil => rfl
  | cons r rs ih =>
    obtain ⟨typ, c⟩ := r
    show (t.register typ c).registerAll rs id = _
    rw [ih, lastFor_cons, ExtraTable.register]
    by_cases h : id = typ
    · rw [if_pos h, if_pos h.symm]; cases lastFor id rs <;> rfl
    · rw [if_neg h, if_neg (Ne.symm h)]; cases lastFor id rs <;> rfl

theorem Entity.decodeBody_new (env : Env) (typ : UInt16) (data : Bytes) : Entity.decodeBody env typ data =
    match Entity.create typ with
    | none => .err .typeNotRegistered
    | some e => Entity.decodeNew env e data := rfl

theorem BodyTable.decode_initial (env : Env) (M : OwnBody X) (t : BodyTable X) (typ : UInt16) (data : Bytes)
    (h : t typ = BodyTable.initial X typ) : t.decode env M typ data = (Entity.decodeBody env typ data).onFirst .builtin := by
  rw [BodyTable.decode, h, Entity.decodeBody_new, BodyTable.initial]
  cases Entity.create typ <;> rfl

theorem Extra.decode_create (typ : UInt8) (data : Bytes) : Extra.decode typ data =
    match Extra.create typ with
    | none => .err .typeNotRegistered
    | some e => Extra.decode e.id data := by
  rcases Decidable.em (typ = 0x01) with rfl | h0
  · rfl
  rcases Decidable.em (typ = 0x02) with rfl | h1
  · rfl
  rcases Decidable.em (typ = 0x03) with rfl | h2
  · rfl
  rcases Decidable.em (typ = 0x04) with rfl | h3
  · rfl
  rcases Decidable.em (typ = 0x11) with rfl | h4
  · rfl
  rcases Decidable.em (typ = 0x12) with rfl | h5
  · rfl
  rcases Decidable.em (typ = 0x13) with rfl | h6
  · rfl
  rcases Decidable.em (typ = 0x25) with rfl | h7
  · rfl
  rcases Decidable.em (typ = 0x2a) with rfl | h8
  · rfl
  rcases Decidable.em (typ = 0x2b) with rfl | h9
  · rfl
  rcases Decidable.em (typ = 0x30) with rfl | h10
  · rfl
  rcases Decidable.em (typ = 0x31) with rfl | h11
  · rfl
  unfold Extra.create Extra.decode
  rw [if_neg h0, if_neg h1, if_neg h2, if_neg h3, if_neg h4, if_neg h5, if_neg h6, if_neg h7, if_neg h8, if_neg h9, if_neg h10, if_neg h11, if_neg h0, if_neg h1, if_neg h2, if_neg h3, if_neg h4, if_neg h5, if_neg h6, if_neg h7, if_neg h8, if_neg h9, if_neg h10, if_neg h11]

theorem ExtraTable.decode_initial (M : OwnExtra X) (t : ExtraTable X) (typ : UInt8) (data : Bytes) (h : t typ = ExtraTable.initial X typ) :
    t.decode M typ data = (Extra.decode typ data).onFirst .builtin := by
  rw [ExtraTable.decode, h, Extra.decode_create, ExtraTable.initial]
  cases Extra.create typ <;> rfl

/-! ## The loop over the extras -/

/-! ## Received messages -/

theorem replySerial_other (header : Header) (body : Body Entity) (h : header.msgID ∉ answerIDs) :
    Session.replySerial { header := header, body := body } = .ok 0 := by
  simp only [answerIDs, List.mem_cons, List.not_mem_nil, or_false, not_or] at h
  obtain ⟨h1, h2, h3, h4, h5, h6, h7, h8⟩ := h
  unfold Session.replySerial
  rw [if_neg h1, if_neg h2, if_neg h3, if_neg h4, if_neg h5, if_neg h6, if_neg h7, if_neg h8]

theorem replySerial_answer (header : Header) (e : Entity) (h : header.msgID ∈ answerIDs) :
    (e.msgID = header.msgID → ∃ s, Session.replySerial { header := header, body := .val e } = .ok s) ∧
      (e.msgID ≠ header.msgID → Session.replySerial { header := header, body := .val e } = .panic) := by
  unfold Session.replySerial
  simp only [answerIDs, List.mem_cons, List.not_mem_nil, or_false] at h
  rcases h with h | h | h | h | h | h | h | h <;> rw [h] <;>
    (cases e <;> first
      | exact ⟨fun _ => ⟨_, rfl⟩, fun hn => absurd rfl hn⟩
      | exact ⟨fun he => absurd he (by simp only [Entity.msgID]; decide), fun _ => rfl⟩)

theorem replySerialAny_panic (header : Header) (b : AnyBody X) : replySerialAny header b = .panic ↔
    header.msgID ∈ answerIDs ∧ ∀ e, b = .builtin e → e.msgID ≠ header.msgID := by
  by_cases hin : header.msgID ∈ answerIDs
  · cases b with
    | builtin e =>
      have h := replySerial_answer header e hin
      by_cases he : e.msgID = header.msgID
      · obtain ⟨s, hs⟩ := h.1 he
        exact ⟨fun hp => (nomatch (show Res.ok s = Res.panic from hs.symm.trans hp)), fun hp => absurd he (hp.2 e rfl)⟩
      · exact ⟨fun _ => ⟨hin, fun e' h' => by cases h'; exact he⟩, fun _ => h.2 he⟩
    | own x =>
      refine ⟨fun _ => ⟨hin, fun e h => (nomatch h)⟩, fun _ => if_pos ?_⟩
      simpa only [answerIDs, List.mem_cons, List.not_mem_nil, or_false] using hin
  · refine ⟨fun hp => ?_, fun hp => absurd hp.1 hin⟩
    cases b with
    | builtin e =>
      rw [replySerialAny, replySerial_other header _ hin] at hp
      cases hp
    | own x =>
      rw [replySerialAny, if_neg (by simpa only [answerIDs, List.mem_cons, List.not_mem_nil, or_false] using hin)] at hp
      cases hp

theorem replySerialAny_ok (header : Header) (b : AnyBody X) (h : replySerialAny header b ≠ .panic) : ∃ s, replySerialAny header b = .ok s := by
  by_cases hin : header.msgID ∈ answerIDs
  · cases b with
    | builtin e =>
      have h' := replySerial_answer header e hin
      by_cases he : e.msgID = header.msgID
      · exact h'.1 he
      · exact absurd (h'.2 he) h
    | own x => exact absurd ((replySerialAny_panic header (.own x)).2 ⟨hin, fun e h => (nomatch h)⟩) h
  · cases b with
    | builtin e => exact ⟨0, replySerial_other header _ hin⟩
    | own x => exact ⟨0, if_neg (by simpa only [answerIDs, List.mem_cons, List.not_mem_nil, or_false] using hin)⟩

theorem Entity.decodeNew_msgID {env : Env} {e e' : Entity} {data : Bytes} {n : Nat} (h : Entity.decodeNew env e data = .ok (e', n)) :
    e'.msgID = e.msgID := by
  unfold Entity.decodeNew at h
  split at h
  · split at h
    · simp only [Res.ok.injEq, Prod.mk.injEq] at h
      obtain ⟨rfl, rfl⟩ := h
      rfl
    · cases h
    · cases h
  · exact Entity.decode_msgID h

theorem Res.onFirst_ok {α β : Type} {f : α → β} {r : Res (α × Nat)} {b : β} {n : Nat} (h : r.onFirst f = .ok (b, n)) : ∃ a, r = .ok (a, n) ∧ b = f a := by
  match r, h with
  | .ok (a, _), h => cases h; exact ⟨a, rfl, rfl⟩

theorem anyExtras_step (M : OwnExtra X) (t : ExtraTable X) (fuel : Nat) (id n : UInt8) (b : Bytes) : decodeAnyExtras M t (fuel + 1) (id :: n :: b) =
    if b.length < n.toNat then .err .invalidExtraLength
    else match t.decode M id (b.take n.toNat) with
      | .err .typeNotRegistered => decodeAnyExtras M t fuel (b.drop n.toNat)
      | .err e => .err e
      | .panic => .panic
      | .ok (x, count) =>
        if count ≠ n.toNat then .err .invalidExtraLength
        else (decodeAnyExtras M t fuel (b.drop n.toNat)).bind fun xs => .ok (x :: xs) := by
  rw [decodeAnyExtras]
  rw [if_neg (by simp)]
  have e1 : idx (id :: n :: b) 0 = .ok id := rfl
  have e2 : idx (id :: n :: b) 1 = .ok n := rfl
  have e3 : slice (id :: n :: b) 2 (id :: n :: b).length = .ok b := by rw [slice_to_end _ _ (by simp)]; rfl
  simp only [e1, e2, e3, Res.ok_bind]
  split
  · rfl
  · rename_i hlt
    rw [slice_from_zero _ _ (by omega), slice_to_end _ _ (by omega)]
    rfl

theorem anyExtras_short (M : OwnExtra X) (t : ExtraTable X) (fuel : Nat) {b : Bytes} (h : b.length < 2) : decodeAnyExtras M t fuel b = .ok [] := by
  cases fuel with
  | zero => rfl
  | succ f => rw [decodeAnyExtras, if_pos h]

theorem anyExtras_iff (M : OwnExtra X) (t : ExtraTable X) (fuel : Nat) (b : Bytes) (hf : b.length ≤ fuel) (xs : List (AnyExtra X)) :
    decodeAnyExtras M t fuel b = .ok xs ↔ ∃ is rest, b = itemsWire is ++ rest ∧ rest.length < 2 ∧ (∀ i ∈ is, i.2.length < 256) ∧ ReadsAs (t.decode M) is xs := by
  induction fuel generalizing b xs with
  | zero =>
    obtain rfl := List.length_eq_zero_iff.1 (Nat.le_zero.1 hf)
    constructor
    · intro h
      obtain rfl := Res.ok.inj h
      exact ⟨[], [], rfl, by decide, by simp, .nil⟩
    · rintro ⟨is, rest, h, -, -, hr⟩
      cases hr with
      | nil => rfl
      | unknown => cases h
      | known => cases h
  | succ fuel ih =>
    match b, hf with
    | [], _ =>
      rw [anyExtras_short M t _ (by simp)]
      constructor
      · intro h
        obtain rfl := Res.ok.inj h
        exact ⟨[], [], rfl, by decide, by simp, .nil⟩
      · rintro ⟨is, rest, h, -, -, hr⟩
        cases hr with
        | nil => rfl
        | unknown => cases h
        | known => cases h
    | [c], _ =>
      rw [anyExtras_short M t _ (by simp)]
      constructor
      · intro h
        obtain rfl := Res.ok.inj h
        exact ⟨[], [c], rfl, by simp, by simp, .nil⟩
      · rintro ⟨is, rest, h, -, -, hr⟩
        cases hr with
        | nil => rfl
        | unknown => simp [itemsWire] at h
        | known => simp [itemsWire] at h
    | id :: n :: b, hf =>
      rw [anyExtras_step]
      constructor
      · intro h
        split at h
        · cases h
        rename_i hlt
        have hlen : (b.take n.toNat).length = n.toNat := by rw [List.length_take]; omega
        have hn : UInt8.ofNat (b.take n.toNat).length = n := by rw [hlen]; exact UInt8.ofNat_toNat
        have hlt256 := n.toNat_lt
        split at h
        · rename_i he
          obtain ⟨is, rest, h1, h2, h3, h4⟩ := (ih (b.drop n.toNat) (by rw [List.length_drop]; simp only [List.length_cons] at hf; omega) xs).1 h
          refine ⟨(id, b.take n.toNat) :: is, rest, ?_, h2, ?_, .unknown he h4⟩
          · rw [itemsWire, List.flatMap_cons, hn]
            simp only [List.cons_append, List.append_assoc]
            rw [← itemsWire, ← h1, List.take_append_drop]
          · intro i hi
            rcases List.mem_cons.1 hi with rfl | hi
            · show (b.take n.toNat).length < 256
              omega
            · exact h3 i hi
        · cases h
        · cases h
        · rename_i x count he
          split at h
          · cases h
          rename_i hc
          have hc : count = n.toNat := by simpa using hc
          cases hd : decodeAnyExtras M t fuel (b.drop n.toNat) with
          | err e => rw [hd] at h; cases h
          | panic => rw [hd] at h; cases h
          | ok ys =>
            rw [hd] at h
            obtain rfl := Res.ok.inj h
            obtain ⟨is, rest, h1, h2, h3, h4⟩ := (ih (b.drop n.toNat) (by rw [List.length_drop]; simp only [List.length_cons] at hf; omega) ys).1 hd
            refine ⟨(id, b.take n.toNat) :: is, rest, ?_, h2, ?_, .known (by rw [he, hc, hlen]) h4⟩
            · rw [itemsWire, List.flatMap_cons, hn]
              simp only [List.cons_append, List.append_assoc]
              rw [← itemsWire, ← h1, List.take_append_drop]
            · intro i hi
              rcases List.mem_cons.1 hi with rfl | hi
              · show (b.take n.toNat).length < 256
                omega
              · exact h3 i hi
      · rintro ⟨is, rest, h1, h2, h3, h4⟩
        cases h4 with
        | nil =>
          have : (id :: n :: b).length = rest.length := by rw [h1]; rfl
          simp only [List.length_cons] at this
          omega
        | @unknown id' d is xs he hr =>
          rw [itemsWire, List.flatMap_cons] at h1
          simp only [List.cons_append, List.append_assoc, List.cons.injEq] at h1
          obtain ⟨rfl, rfl, rfl⟩ := h1
          have hd : d.length < 256 := h3 (id, d) (List.mem_cons_self ..)
          have hn : (UInt8.ofNat d.length).toNat = d.length := by simp; omega
          rw [hn, if_neg (by simp), List.take_left, List.drop_left, he]
          exact (ih _ (by simp only [List.length_cons, List.length_append] at hf; simp only [List.length_append]; omega) xs).2
            ⟨is, rest, rfl, h2, fun i hi => h3 i (List.mem_cons_of_mem _ hi), hr⟩
        | @known id' d x is xs he hr =>
          rw [itemsWire, List.flatMap_cons] at h1
          simp only [List.cons_append, List.append_assoc, List.cons.injEq] at h1
          obtain ⟨rfl, rfl, rfl⟩ := h1
          have hd : d.length < 256 := h3 (id, d) (List.mem_cons_self ..)
          have hn : (UInt8.ofNat d.length).toNat = d.length := by simp; omega
          rw [hn, if_neg (by simp), List.take_left, List.drop_left, he]
          have := (ih (itemsWire is ++ rest) (by rw [itemsWire]; simp only [List.length_cons, List.length_append] at hf ⊢; omega) xs).2
            ⟨is, rest, rfl, h2, fun i hi => h3 i (List.mem_cons_of_mem _ hi), hr⟩
          rw [itemsWire] at this
          simp only [ne_eq, not_true_eq_false, if_false]
          rw [this]
          rfl

/-! ## Reports -/

theorem T0200.encodeAny_base (env : Env) (M : OwnExtra X) (e : T0200) (h : BaseOK env e) (extras : List (Option (AnyExtra X))) (xs : Bytes)
    (hx : encList (encodeAnyExtra M) extras = .ok xs) : T0200.encodeAny env M e extras = .ok (baseBytes env e ++ xs, e) := by
  obtain ⟨b, he⟩ : ∃ b, T0200.encode env { e with extras := [] } = .ok (b, { e with extras := [] }) :=
    ⟨_, T0200.encode_base env { e with extras := [] } h [] rfl⟩
  have hb : b = baseBytes env e ++ [] := by
    have := T0200.encode_base env { e with extras := [] } h [] rfl
    rw [he] at this
    exact (Prod.mk.inj (Res.ok.inj this)).1
  unfold T0200.encode at he
  unfold T0200.encodeAny
  cases h1 : markNegative e.status (micro e.lat) 2 with
  | err x => simp only [h1] at he; cases he
  | panic => simp only [h1] at he; cases he
  | ok s1 =>
    simp only [h1, Res.ok_bind] at he ⊢
    cases h2 : markNegative s1 (micro e.lng) 3 with
    | err x => simp only [h2] at he; cases he
    | panic => simp only [h2] at he; cases he
    | ok s2 =>
      simp only [h2, Res.ok_bind, encList, List.append_nil] at he
      simp only [h2, Res.ok_bind, hx]
      obtain ⟨he1, he2⟩ := Prod.mk.inj (Res.ok.inj he)
      have hs : s2 = e.status := congrArg T0200.status he2
      rw [List.append_nil] at hb
      rw [← hb, ← he1, hs]

theorem T0200.decodeAny_base (env : Env) (M : OwnExtra X) (t : ExtraTable X) (e : T0200) (h : BaseOK env e) (tail : Bytes) :
    T0200.decodeAny env M t (baseBytes env e ++ tail) =
      match decodeAnyExtras M t tail.length tail with
      | .ok xs => .ok (({ e with extras := [] }, xs), 28)
      | .err x => .err x
      | .panic => .panic := by
  obtain ⟨h1, h2, h3, h4, h5⟩ := h
  have hl := baseBytes_length env e h5
  have hgen : ∀ data, data = baseBytes env e ++ tail → T0200.decodeAny env M t data =
      match decodeAnyExtras M t tail.length tail with
      | .ok xs => .ok (({ e with extras := [] }, xs), 28)
      | .err x => .err x
      | .panic => .panic := by
    intro data hdata
    have hdl : data.length = 28 + tail.length := by rw [hdata, List.length_append, hl]
    have hg2 : getBitUint32 e.status 2 = .ok (e.status.toNat.testBit 2) := getBitUint32_eq e.status 2
    have hg3 : getBitUint32 e.status 3 = .ok (e.status.toNat.testBit 3) := getBitUint32_eq e.status 3
    have hdrop : data.drop (data.length - tail.length) = tail := by
      rw [hdl, Nat.add_sub_cancel, hdata, List.drop_left' hl]
    have hsl : slice data (data.length - tail.length) data.length = .ok tail := by
      rw [slice_to_end _ _ (by omega), hdrop]
    unfold T0200.decodeAny decodeMin
    rw [if_neg (by omega)]
    unfold runDecode
    generalize hL : data.length = L at hsl
    generalize hD : slice data = S at hsl
    rw [hdata]
    simp only [baseBytes, List.append_assoc, Rd.bind_u32_put32, Rd.bind_u16_put16, hg2, hg3, Rd.bind_lift_ok]
    rw [bind_bcdTime env e.time h5]
    simp only [Rd.bind_len, hsl, Rd.bind_lift_ok, getGeoPoint_eq, geoCoord_coord _ _ h1 h3, geoCoord_coord _ _ h2 h4]
    cases decodeAnyExtras M t tail.length tail with
    | ok xs =>
      simp only [Rd.bind_lift_ok, Rd.pure_apply]
      congr 2
      omega
    | err x => rfl
    | panic => rfl
  exact hgen _ rfl

theorem encodeAny_arrives (M : OwnExtra X) (dec : UInt8 → Bytes → Res (AnyExtra X × Nat)) {x : Option (AnyExtra X)} {y : Option (AnyExtra X)}
    (h : ExtraArrives M dec x y) : ∃ is, encodeAnyExtra M x = .ok (itemsWire is) ∧ (∀ i ∈ is, i.2.length < 256) ∧ ReadsAs dec is y.toList := by
  match x, h with
  | none, h => obtain rfl : y = none := h; exact ⟨[], rfl, by simp, .nil⟩
  | some (.builtin e), h =>
    obtain ⟨hl, hd⟩ := h
    refine ⟨[(e.id, e.serialized)], ?_, ?_, ?_⟩
    · simp [encodeAnyExtra, itemsWire]
    · intro i hi; rw [List.mem_singleton.1 hi]; exact hl
    · rcases hd with ⟨hd, rfl⟩ | ⟨v, hd, rfl⟩
      · exact .unknown hd .nil
      · exact .known hd .nil
  | some (.own x), h =>
    obtain ⟨hp, ⟨hn, rfl⟩ | ⟨hn, hl, hd⟩⟩ := h
    · exact ⟨[], by simp [encodeAnyExtra, hp, hn, itemsWire], by simp, .nil⟩
    · refine ⟨[(M.id x, M.data x)], ?_, ?_, ?_⟩
      · simp [encodeAnyExtra, itemsWire, hp, hn]
      · intro i hi; rw [List.mem_singleton.1 hi]; exact hl
      · rcases hd with ⟨hd, rfl⟩ | ⟨v, hd, rfl⟩
        · exact .unknown hd .nil
        · exact .known hd .nil

theorem Spec.ReadsAs.append {α : Type} {dec : UInt8 → Bytes → Res (α × Nat)} {is js : List (UInt8 × Bytes)} {xs ys : List α}
    (h : ReadsAs dec is xs) (h' : ReadsAs dec js ys) : ReadsAs dec (is ++ js) (xs ++ ys) := by
  induction h with
  | nil => exact h'
  | unknown hd _ ih => exact .unknown hd ih
  | known hd _ ih => exact .known hd ih

theorem encList_arrive (M : OwnExtra X) (dec : UInt8 → Bytes → Res (AnyExtra X × Nat)) {xs : List (Option (AnyExtra X))} {ys : List (AnyExtra X)}
    (h : ExtrasArrive M dec xs ys) : ∃ is, encList (encodeAnyExtra M) xs = .ok (itemsWire is) ∧ (∀ i ∈ is, i.2.length < 256) ∧ ReadsAs dec is ys := by
  have step : ∀ {x : Option (AnyExtra X)} {y : Option (AnyExtra X)} {xs ys}, ExtraArrives M dec x y →
      (∃ is, encList (encodeAnyExtra M) xs = .ok (itemsWire is) ∧ (∀ i ∈ is, i.2.length < 256) ∧ ReadsAs dec is ys) →
      ∃ is, encList (encodeAnyExtra M) (x :: xs) = .ok (itemsWire is) ∧ (∀ i ∈ is, i.2.length < 256) ∧ ReadsAs dec is (y.toList ++ ys) := by
    rintro x y xs ys hx ⟨is, h1, h2, h3⟩
    obtain ⟨js, k1, k2, k3⟩ := encodeAny_arrives M dec hx
    refine ⟨js ++ is, ?_, ?_, k3.append h3⟩
    · simp only [encList, k1, h1, Res.ok_bind, itemsWire, List.flatMap_append]
    · intro i hi
      rcases List.mem_append.1 hi with hi | hi
      · exact k2 i hi
      · exact h2 i hi
  induction h with
  | nil => exact ⟨[], rfl, by simp, .nil⟩
  | gone hx _ ih => exact step hx ih
  | comes hx _ ih => exact step hx ih

/-! ## Without own types -/

/-- Changing the result of a reader. -/
def Rd.onResult {α β : Type} (f : α → β) (x : Rd α) : Rd β := fun s =>
  match x s with
  | .ok (a, s') => .ok (f a, s')
  | .err e => .err e
  | .panic => .panic

theorem Rd.onResult_bind {α β γ : Type} (f : β → γ) (x : Rd α) (g : α → Rd β) : Rd.onResult f (x >>= g) = x >>= fun a => Rd.onResult f (g a) := by
  funext s
  show (match (x >>= g) s with | .ok (a, s') => Res.ok (f a, s') | .err e => .err e | .panic => .panic) = _
  rw [Rd.bind_apply, Rd.bind_apply]
  cases x s with
  | ok v => rfl
  | err e => rfl
  | panic => rfl

theorem Rd.onResult_pure {α β : Type} (f : α → β) (a : α) : Rd.onResult f (pure a : Rd α) = pure (f a) := rfl

theorem Rd.onResult_lift {α β : Type} (f : α → β) (x : Res α) : Rd.onResult f (Rd.lift x) =
    Rd.lift (match x with | .ok a => .ok (f a) | .err e => .err e | .panic => .panic) := by
  funext s
  cases x <;> rfl

theorem decodeMin_onResult {α β : Type} (f : α → β) (k : Nat) (p : Rd α) (data : Bytes) :
    decodeMin k (Rd.onResult f p) data = (decodeMin k p data).onFirst f := by
  unfold decodeMin
  split
  · rfl
  · unfold runDecode Rd.onResult
    cases p data <;> rfl

/-- The built-in extra, if it is one. -/
def AnyExtra.toBuiltin : AnyExtra X → Option Extra
  | .builtin e => some e
  | .own _ => none

theorem anyExtras_initial (M : OwnExtra X) (fuel : Nat) (b : Bytes) : decodeExtras fuel b =
    match decodeAnyExtras M (ExtraTable.initial X) fuel b with
    | .ok xs => .ok (xs.map AnyExtra.toBuiltin)
    | .err e => .err e
    | .panic => .panic := by
  induction fuel generalizing b with
  | zero => rfl
  | succ fuel ih =>
    match b with
    | [] => rfl
    | [c] => rfl
    | id :: n :: b =>
      rw [anyExtras_step, extras_step]
      split
      · rfl
      · rw [ExtraTable.decode_initial M _ _ _ rfl]
        cases hd : Extra.decode id (b.take n.toNat) with
        | panic => rfl
        | err e =>
          cases e <;> first | rfl | exact ih _
        | ok v =>
          obtain ⟨x, count⟩ := v
          simp only [Res.onFirst]
          split
          · rfl
          · rw [ih]
            cases decodeAnyExtras M (ExtraTable.initial X) fuel (b.drop n.toNat) <;> rfl

theorem T0200.decodeAny_initial (env : Env) (M : OwnExtra X) (data : Bytes) : T0200.decode env {} data =
    (T0200.decodeAny env M (ExtraTable.initial X) data).onFirst fun r => { r.1 with extras := r.2.map AnyExtra.toBuiltin } := by
  unfold T0200.decodeAny
  rw [← decodeMin_onResult]
  unfold T0200.decode
  congr 1
  simp only [Rd.onResult_bind, Rd.onResult_pure]
  refine congrArg _ (funext fun a => congrArg _ (funext fun st => congrArg _ (funext fun lat => congrArg _ (funext fun lng =>
    congrArg _ (funext fun south => congrArg _ (funext fun west => congrArg _ (funext fun al => congrArg _ (funext fun sp =>
    congrArg _ (funext fun di => congrArg _ (funext fun tm => congrArg _ (funext fun left => congrArg _ (funext fun buffer => ?_))))))))))))
  rw [anyExtras_initial M]
  funext s
  rw [Rd.bind_apply, Rd.bind_apply]
  cases decodeAnyExtras M (ExtraTable.initial X) buffer.length buffer with
  | err e => rfl
  | panic => rfl
  | ok xs =>
    show Res.ok (_, s) = Res.ok (_, s)
    congr 2
    cases xs with
    | nil => rfl
    | cons x xs => rfl

end Verif
