import Verif.Lemmas.Safe
import Verif.Lemmas.Fields
import Verif.Lemmas.BcdTime
import Verif.Lemmas.Numbers
import Verif.Lemmas.RoundTrip
import Verif.Spec.Relay
/-! # What every decoded body satisfies -/

namespace Verif

open Spec

namespace Rd
variable {α β : Type}

/-- Whatever the reader program returns satisfies `Q`. -/
def Post (x : Rd α) (Q : α → Prop) : Prop := ∀ s a r, x s = .ok (a, r) → Q a

theorem Post.bind {x : Rd α} {f : α → Rd β} {Q : α → Prop} {R : β → Prop} (hx : Post x Q) (hf : ∀ a, Q a → Post (f a) R) :
    Post (x >>= f) R := by
  intro s b r h
  rw [bind_apply] at h
  cases hxs : x s with
  | ok p =>
    obtain ⟨a, s'⟩ := p
    simp only [hxs] at h
    exact hf a (hx _ _ _ hxs) _ _ _ h
  | err e => simp only [hxs] at h; cases h
  | panic => simp only [hxs] at h; cases h

theorem Post.any (x : Rd α) : Post x (fun _ => True) := fun _ _ _ _ => trivial

theorem Post.pure {a : α} {Q : α → Prop} (h : Q a) : Post (Pure.pure a : Rd α) Q := by
  intro s b r hb
  simp only [pure_apply, Res.ok.injEq, Prod.mk.injEq] at hb
  rw [← hb.1]; exact h

theorem Post.fail {e : Err} {Q : α → Prop} : Post (fail e : Rd α) Q := by
  intro s b r hb
  simp [Rd.fail] at hb

theorem Post.read (n : Nat) : Post (read n) (fun b => b.length = n) := by
  intro s b r h
  unfold Rd.read at h
  split at h
  · cases h
  · simp only [Res.ok.injEq, Prod.mk.injEq] at h
    rw [← h.1, List.length_take]
    omega

theorem Post.lift {x : Res α} {Q : α → Prop} (h : ∀ a, x = .ok a → Q a) : Post (lift x) Q := by
  intro s b r hb
  unfold Rd.lift at hb
  split at hb
  · simp only [Res.ok.injEq, Prod.mk.injEq] at hb
    rw [← hb.1]; exact h _ rfl
  · cases hb
  · cases hb

theorem Post.times {x : Rd α} {Q : α → Prop} (n : Nat) (hx : Post x Q) : Post (times n x) (fun l => l.length = n ∧ ∀ a ∈ l, Q a) := by
  induction n with
  | zero => exact Post.pure (a := ([] : List α)) (by simp)
  | succ n ih =>
    refine Post.bind (x := x) hx fun a ha => Post.bind (x := Rd.times n x) ih fun l hl => Post.pure (a := a :: l) ?_
    obtain ⟨h1, h2⟩ := hl
    refine ⟨by simp [h1], ?_⟩
    intro b hb
    rcases List.mem_cons.1 hb with rfl | hb
    · exact ha
    · exact h2 b hb

theorem Post.ite {p : Prop} [Decidable p] {x y : Rd α} {Q : α → Prop} (hx : p → Post x Q) (hy : ¬ p → Post y Q) :
    Post (if p then x else y) Q := by
  split
  · exact hx ‹_›
  · exact hy ‹_›

theorem Post.mono {x : Rd α} {Q R : α → Prop} (hx : Post x Q) (h : ∀ a, Q a → R a) : Post x R := fun s a r e => h a (hx s a r e)

end Rd

/-- One more reading whose result does not matter. -/
macro "rd_any" : tactic => `(tactic| refine Rd.Post.bind (Rd.Post.any _) fun _ _ => ?_)

theorem runDecode_post {α : Type} {p : Rd α} {Q : α → Prop} (hp : p.Post Q) {data : Bytes} {a : α} {n : Nat}
    (h : runDecode p data = .ok (a, n)) : Q a := by
  unfold runDecode at h
  split at h
  · rename_i hr
    simp only [Res.ok.injEq, Prod.mk.injEq] at h
    rw [← h.1]; exact hp _ _ _ hr
  · cases h
  · cases h

theorem decodeMin_post {α : Type} {k : Nat} {p : Rd α} {Q : α → Prop} (hp : p.Post Q) {data : Bytes} {a : α} {n : Nat}
    (h : decodeMin k p data = .ok (a, n)) : Q a := by
  unfold decodeMin at h
  split at h
  · cases h
  · exact runDecode_post hp h

/-! ## Fields -/

theorem plain_bytesToString {b : Bytes} {n : Nat} (h : b.length ≤ n) : Plain (bytesToString b) n := by
  unfold bytesToString
  constructor
  · exact Nat.le_trans (List.takeWhile_sublist _).length_le h
  · have : ∀ l : Bytes, 0 ∉ l.takeWhile (· ≠ 0) := by
      intro l
      induction l with
      | nil => simp
      | cons x l ih =>
        rw [List.takeWhile_cons]
        split
        · rename_i hx
          simp only [ne_eq, decide_not, Bool.not_eq_eq_eq_not, Bool.not_true, decide_eq_false_iff_not] at hx
          simp only [List.mem_cons, not_or]
          exact ⟨fun hc => hx hc.symm, ih⟩
        · simp
    exact this b

theorem fromBCDTime_timeOK {env : Env} {b : Bytes} {t : Time} (h : fromBCDTime env.tz b = .ok t) : TimeOK env t := by
  obtain ⟨yl, mo, d, ho, mi, s, rfl, g1, g2, hv, w1, w2, w3, rfl⟩ := fromBCDTime_groups h
  exact instantOf_range (tz := env.tz) (c := ⟨((20 * 100 + yl : Nat) : Int), mo, d, ho, mi, s⟩) (by simp only; omega) (by simp only; omega) hv w1 w2 w3

theorem Rd.Post.bcdTime (env : Env) : Rd.Post (Rd.bcdTime env) (TimeOK env) := by
  intro s t r h
  unfold Rd.bcdTime at h
  split at h
  · cases h
  · split at h
    · rename_i ht
      simp only [Res.ok.injEq, Prod.mk.injEq] at h
      rw [← h.1]; exact fromBCDTime_timeOK ht
    · cases h
    · cases h

theorem geoCoord_ok (n : UInt32) (neg : Bool) : Coord (geoCoord n neg) ∧ Hemisphere neg (geoCoord n neg) := by
  rw [geoCoord_eq]
  have := n.toNat_lt
  unfold Coord Hemisphere
  cases neg <;> simp <;> omega

theorem u8_lt (n : UInt8) : n.toNat < 256 := n.toNat_lt
theorem u16_lt (n : UInt16) : n.toNat < 65536 := n.toNat_lt

/-! ## Locations -/

theorem Rd.Post.bit32 (v : UInt32) (i : Nat) : Rd.Post (Rd.lift (getBitUint32 v (i : Int))) (fun b => b = v.toNat.testBit i) :=
  Rd.Post.lift fun a h => by rw [getBitUint32_eq] at h; exact (Res.ok.inj h).symm

theorem Rd.Post.bit16 (v : UInt16) (i : Nat) : Rd.Post (Rd.lift (getBitUint16 v (i : Int))) (fun b => b = v.toNat.testBit i) :=
  Rd.Post.lift fun a h => by rw [getBitUint16_eq] at h; exact (Res.ok.inj h).symm

theorem Rd.Post.bit8 (v : UInt8) (i : Nat) : Rd.Post (Rd.lift (getBitByte v (i : Int))) (fun b => b = v.toNat.testBit i) :=
  Rd.Post.lift fun a h => by rw [getBitByte_eq] at h; exact (Res.ok.inj h).symm

theorem T0200.decode_base_ok {env : Env} {self e : T0200} {data : Bytes} {n : Nat} (h : T0200.decode env self data = .ok (e, n)) :
    BaseOK env e := by
  unfold T0200.decode at h
  refine decodeMin_post (Q := BaseOK env) ?_ h
  rd_any
  refine Rd.Post.bind (Rd.Post.any _) fun st _ => ?_
  refine Rd.Post.bind (Rd.Post.any _) fun lat _ => ?_
  refine Rd.Post.bind (Rd.Post.any _) fun lng _ => ?_
  refine Rd.Post.bind (Rd.Post.bit32 st 2) fun south hs => ?_
  refine Rd.Post.bind (Rd.Post.bit32 st 3) fun west hw => ?_
  rd_any
  rd_any
  rd_any
  refine Rd.Post.bind (Rd.Post.bcdTime env) fun t ht => ?_
  rd_any
  rd_any
  rd_any
  refine Rd.Post.pure ?_
  rw [getGeoPoint_eq]
  subst hs hw
  exact ⟨(geoCoord_ok lat _).1, (geoCoord_ok lng _).1, (geoCoord_ok lat _).2, (geoCoord_ok lng _).2, ht⟩

namespace Rd
variable {α β : Type}

/-- Whatever the program returns when `n` bytes are left satisfies `Q`. -/
def PostN (n : Nat) (x : Rd α) (Q : α → Prop) : Prop := ∀ s a r, s.length = n → x s = .ok (a, r) → Q a

/-- The program reads `k` bytes. -/
def Takes (k : Nat) (x : Rd α) : Prop := ∀ s a r, x s = .ok (a, r) → s.length = k + r.length

theorem PostN.bind {n k : Nat} {x : Rd α} {f : α → Rd β} {R : β → Prop} (hx : Takes k x) (hf : ∀ a, PostN (n - k) (f a) R) :
    PostN n (x >>= f) R := by
  intro s b r hs h
  rw [bind_apply] at h
  cases hxs : x s with
  | ok p =>
    obtain ⟨a, s'⟩ := p
    simp only [hxs] at h
    have := hx _ _ _ hxs
    exact hf a _ _ _ (by omega) h
  | err e => simp only [hxs] at h; cases h
  | panic => simp only [hxs] at h; cases h

theorem Takes.u32 : Takes 4 u32 := by
  intro s a r h
  unfold Rd.u32 at h
  split at h
  · simp only [Res.ok.injEq, Prod.mk.injEq] at h
    rw [← h.2]; simp only [List.length_cons]; omega
  · cases h

theorem Takes.u16 : Takes 2 u16 := by
  intro s a r h
  unfold Rd.u16 at h
  split at h
  · simp only [Res.ok.injEq, Prod.mk.injEq] at h
    rw [← h.2]; simp only [List.length_cons]; omega
  · cases h

theorem Takes.bcdTime (env : Env) : Takes 6 (bcdTime env) := by
  intro s a r h
  unfold Rd.bcdTime at h
  split at h
  · cases h
  · split at h
    · simp only [Res.ok.injEq, Prod.mk.injEq] at h
      rw [← h.2, List.length_drop]; omega
    · cases h
    · cases h

theorem Takes.lift (x : Res α) : Takes 0 (lift x) := by
  intro s a r h
  unfold Rd.lift at h
  split at h
  · simp only [Res.ok.injEq, Prod.mk.injEq] at h
    rw [← h.2]; omega
  · cases h
  · cases h

end Rd

/-- A location in exactly 28 bytes has no extras of its own. -/
theorem T0200.decode_28 {env : Env} {self e : T0200} {data : Bytes} {n : Nat} (hl : data.length = 28)
    (h : T0200.decode env self data = .ok (e, n)) : e.extras = self.extras := by
  unfold T0200.decode at h
  unfold decodeMin at h
  rw [if_neg (by omega)] at h
  unfold runDecode at h
  split at h
  case h_2 => cases h
  case h_3 => cases h
  rename_i a rest hp
  simp only [Res.ok.injEq, Prod.mk.injEq] at h
  obtain ⟨rfl, -⟩ := h
  refine (?_ : Rd.PostN 28 _ fun x : T0200 => x.extras = self.extras) _ _ _ hl hp
  refine Rd.PostN.bind Rd.Takes.u32 fun _ => ?_
  refine Rd.PostN.bind Rd.Takes.u32 fun _ => ?_
  refine Rd.PostN.bind Rd.Takes.u32 fun _ => ?_
  refine Rd.PostN.bind Rd.Takes.u32 fun _ => ?_
  refine Rd.PostN.bind (Rd.Takes.lift _) fun _ => ?_
  refine Rd.PostN.bind (Rd.Takes.lift _) fun _ => ?_
  refine Rd.PostN.bind Rd.Takes.u16 fun _ => ?_
  refine Rd.PostN.bind Rd.Takes.u16 fun _ => ?_
  refine Rd.PostN.bind Rd.Takes.u16 fun _ => ?_
  refine Rd.PostN.bind (Rd.Takes.bcdTime env) fun _ => ?_
  intro s a r hs h
  have hs0 : s = [] := List.eq_nil_of_length_eq_zero hs
  subst hs0
  have hsl : slice data (data.length - (0 : Nat)) data.length = .ok [] := by
    have := slice_to_end data data.length (Nat.le_refl _)
    simpa using this
  simp only [Rd.bind_len, List.length_nil, hsl, Rd.bind_lift_ok] at h
  simp only [decodeExtras, Rd.bind_lift_ok, Rd.pure_apply, Res.ok.injEq, Prod.mk.injEq] at h
  rw [← h.1]
  simp

/-! ## Areas -/

theorem decodeAreaTail_post (env : Env) (attr : UInt16) : Rd.Post (decodeAreaTail env attr (zeroTime, zeroTime, 0, 0))
    (fun t => TailOK env attr t.1 t.2.1 t.2.2.1 t.2.2.2) := by
  unfold decodeAreaTail
  refine Rd.Post.ite (fun hp => Rd.Post.pure ?_) fun hp => ?_
  · rw [and_one_eq_zero] at hp
    simp [TailOK, hp]
  · rw [and_one_eq_zero] at hp
    refine Rd.Post.bind (Rd.Post.bcdTime env) fun s hs => Rd.Post.bind (Rd.Post.bcdTime env) fun e he => ?_
    rd_any
    rd_any
    refine Rd.Post.pure ?_
    simp only [TailOK, show attr.toNat.testBit 0 = true by simpa using hp, if_true]
    exact ⟨hs, he⟩

theorem CircleArea.decodeItem_post (env : Env) : Rd.Post (CircleArea.decodeItem env) (CircleOK env) := by
  unfold CircleArea.decodeItem
  rd_any
  refine Rd.Post.bind (Rd.Post.any _) fun a _ => ?_
  refine Rd.Post.bind (Rd.Post.any _) fun lat _ => ?_
  refine Rd.Post.bind (Rd.Post.any _) fun lng _ => ?_
  refine Rd.Post.bind (Rd.Post.bit16 a 6) fun south hs => ?_
  refine Rd.Post.bind (Rd.Post.bit16 a 7) fun west hw => ?_
  rd_any
  refine Rd.Post.bind (decodeAreaTail_post env a) fun t ht => ?_
  refine Rd.Post.pure ?_
  rw [getGeoPoint_eq]
  subst hs hw
  exact ⟨(geoCoord_ok lat _).1, (geoCoord_ok lng _).1, (geoCoord_ok lat _).2, (geoCoord_ok lng _).2, ht⟩

theorem RectArea.decodeItem_post (env : Env) : Rd.Post (RectArea.decodeItem env) (RectOK env) := by
  unfold RectArea.decodeItem
  rd_any
  refine Rd.Post.bind (Rd.Post.any _) fun a _ => ?_
  refine Rd.Post.bind (Rd.Post.any _) fun lat _ => ?_
  refine Rd.Post.bind (Rd.Post.any _) fun lng _ => ?_
  refine Rd.Post.bind (Rd.Post.any _) fun lat2 _ => ?_
  refine Rd.Post.bind (Rd.Post.any _) fun lng2 _ => ?_
  refine Rd.Post.bind (Rd.Post.bit16 a 6) fun south hs => ?_
  refine Rd.Post.bind (Rd.Post.bit16 a 7) fun west hw => ?_
  refine Rd.Post.bind (decodeAreaTail_post env a) fun t ht => ?_
  refine Rd.Post.pure ?_
  rw [getGeoPoint_eq, getGeoPoint_eq]
  subst hs hw
  exact ⟨(geoCoord_ok lat _).1, (geoCoord_ok lng _).1, (geoCoord_ok lat2 _).1, (geoCoord_ok lng2 _).1, (geoCoord_ok lat _).2,
    (geoCoord_ok lng _).2, (geoCoord_ok lat2 _).2, (geoCoord_ok lng2 _).2, ht⟩

theorem Vertex.decodeItem_post (a : UInt16) : Rd.Post (Vertex.decodeItem a) (VertexOK a) := by
  unfold Vertex.decodeItem
  refine Rd.Post.bind (Rd.Post.any _) fun lat _ => ?_
  refine Rd.Post.bind (Rd.Post.any _) fun lng _ => ?_
  refine Rd.Post.bind (Rd.Post.bit16 a 6) fun south hs => ?_
  refine Rd.Post.bind (Rd.Post.bit16 a 7) fun west hw => ?_
  refine Rd.Post.pure ?_
  rw [getGeoPoint_eq]
  subst hs hw
  exact ⟨(geoCoord_ok lat _).1, (geoCoord_ok lng _).1, (geoCoord_ok lat _).2, (geoCoord_ok lng _).2⟩

theorem RoutePoint.decodeItem_post : Rd.Post RoutePoint.decodeItem PointOK := by
  unfold RoutePoint.decodeItem
  rd_any
  rd_any
  refine Rd.Post.bind (Rd.Post.any _) fun lat _ => ?_
  refine Rd.Post.bind (Rd.Post.any _) fun lng _ => ?_
  rd_any
  refine Rd.Post.bind (Rd.Post.any _) fun a _ => ?_
  refine Rd.Post.bind (Rd.Post.bit8 a 2) fun south hs => ?_
  refine Rd.Post.bind (Rd.Post.bit8 a 3) fun west hw => ?_
  refine Rd.Post.bind (Rd.Post.bit8 a 0) fun ht eht => ?_
  dsimp only
  have key : ∀ ts : Option UInt16 × Option UInt16, ts.1.isSome = ht → ts.2.isSome = ht → ∀ vs : Option UInt16 × Option UInt8,
      vs.1.isSome = a.toNat.testBit 1 → vs.2.isSome = a.toNat.testBit 1 → ∀ i s w, PointOK { id := i, sectionID := s, lat := (getGeoPoint lat south lng west).1, lng := (getGeoPoint lat south lng west).2, width := w, attr := a, timeTooLong := ts.1, timeTooShort := ts.2, maxSpeed := vs.1, overSpeedDuration := vs.2 } := by
    intro ts t1 t2 vs v1 v2 i s w
    rw [getGeoPoint_eq]
    subst hs hw eht
    exact ⟨(geoCoord_ok lat _).1, (geoCoord_ok lng _).1, (geoCoord_ok lat _).2, (geoCoord_ok lng _).2, t1, t2, v1, v2⟩
  refine Rd.Post.ite (fun hp => ?_) fun hp => ?_
  · refine Rd.Post.bind (Q := fun p : Option UInt16 × Option UInt16 => p.1.isSome = ht ∧ p.2.isSome = ht) ?_ fun ts hts => ?_
    · rd_any
      rd_any
      exact Rd.Post.pure (by simp [hp])
    refine Rd.Post.bind (Rd.Post.bit8 a 1) fun hv ehv => ?_
    refine Rd.Post.ite (fun hq => ?_) fun hq => ?_
    · refine Rd.Post.bind (Q := fun p : Option UInt16 × Option UInt8 => p.1.isSome = hv ∧ p.2.isSome = hv) ?_ fun vs hvs => ?_
      · rd_any
        rd_any
        exact Rd.Post.pure (by simp [hq])
      subst ehv
      exact Rd.Post.pure (key _ hts.1 hts.2 _ hvs.1 hvs.2 _ _ _)
    · refine Rd.Post.bind (Q := fun p : Option UInt16 × Option UInt8 => p.1.isSome = hv ∧ p.2.isSome = hv) (Rd.Post.pure (by simp at hq; simp [hq])) fun vs hvs => ?_
      subst ehv
      exact Rd.Post.pure (key _ hts.1 hts.2 _ hvs.1 hvs.2 _ _ _)
  · refine Rd.Post.bind (Q := fun p : Option UInt16 × Option UInt16 => p.1.isSome = ht ∧ p.2.isSome = ht) (Rd.Post.pure (by simp at hp; simp [hp])) fun ts hts => ?_
    refine Rd.Post.bind (Rd.Post.bit8 a 1) fun hv ehv => ?_
    refine Rd.Post.ite (fun hq => ?_) fun hq => ?_
    · refine Rd.Post.bind (Q := fun p : Option UInt16 × Option UInt8 => p.1.isSome = hv ∧ p.2.isSome = hv) ?_ fun vs hvs => ?_
      · rd_any
        rd_any
        exact Rd.Post.pure (by simp [hq])
      subst ehv
      exact Rd.Post.pure (key _ hts.1 hts.2 _ hvs.1 hvs.2 _ _ _)
    · refine Rd.Post.bind (Q := fun p : Option UInt16 × Option UInt8 => p.1.isSome = hv ∧ p.2.isSome = hv) (Rd.Post.pure (by simp at hq; simp [hq])) fun vs hvs => ?_
      subst ehv
      exact Rd.Post.pure (key _ hts.1 hts.2 _ hvs.1 hvs.2 _ _ _)

end Verif
