import Verif.Lemmas.Reuse
import Verif.Props.Lists
/-! # C47: exactly what a used value keeps -/

namespace Verif

open Rd
open Spec (carried)

theorem T0100.reused (env : Env) (old : T0100) (data : Bytes) : T0100.decode env old data =
    (T0100.decode env {} data).mapFst fun v => if data.length = 37 then { v with licenseNo := old.licenseNo } else v := by
  refine decodeMin_maps 37 data ?_
  refine MapsAt.bind 2 Consumes.u16 fun p _ => MapsAt.bind 2 Consumes.u16 fun c _ => MapsAt.bind 5 (Consumes.read 5) fun m _ =>
    MapsAt.bind 20 (Consumes.read 20) fun mo _ => MapsAt.bind 7 (Consumes.read 7) fun t _ => MapsAt.bind 1 Consumes.byte fun pc _ => ?_
  have h := MapsAt.text (env := env) (old := old.licenseNo) (set := fun v : T0100 => { v with licenseNo := old.licenseNo })
    (mk := fun l => { provinceID := p, cityID := c, manufactureID := bytesToString m, model := bytesToString mo,
                      terminalID := bytesToString t, plateColor := pc, licenseNo := l }) (data.length - 2 - 2 - 5 - 20 - 7 - 1) fun _ => rfl
  have e : (data.length - 2 - 2 - 5 - 20 - 7 - 1 = 0) = (data.length = 37) := by simp only [eq_iff_iff]; omega
  simp only [e] at h
  exact h

theorem T8100.reused (env : Env) (old : T8100) (data : Bytes) : T8100.decode env old data =
    (T8100.decode env {} data).mapFst fun v => if data.length = 3 then { v with authKey := old.authKey } else v := by
  refine decodeMin_maps 3 data ?_
  refine MapsAt.bind 2 Consumes.u16 fun p _ => MapsAt.bind 1 Consumes.byte fun c _ => ?_
  have h := MapsAt.text (env := env) (old := old.authKey) (set := fun v : T8100 => { v with authKey := old.authKey })
    (mk := fun l => { msgSerial := p, result := c, authKey := l }) (data.length - 2 - 1) fun _ => rfl
  have e : (data.length - 2 - 1 = 0) = (data.length = 3) := by simp only [eq_iff_iff]; omega
  simp only [e] at h
  exact h

theorem TByteText.reused (env : Env) (old : TByteText) (data : Bytes) : TByteText.decode env old data =
    (TByteText.decode env {} data).mapFst fun v => if data.length = 1 then { v with text := old.text } else v := by
  unfold TByteText.decode
  match data with
  | [] => rfl
  | [b] => rfl
  | b :: c :: d =>
    rw [if_neg (by simp), if_neg (by simp), slice_to_end _ _ (by simp)]
    simp only [Res.ok_bind, List.drop_succ_cons, List.drop_zero, idx_zero]
    rw [strIfMore_some (c :: d).length (by simp) _ rfl]
    cases Rd.strIfMore env ([] : Bytes) (c :: d) with
    | ok v => simp [Res.mapFst]
    | err e => rfl
    | panic => rfl

theorem T0200.reused (env : Env) (old : T0200) (data : Bytes) : T0200.decode env old data =
    (T0200.decode env {} data).mapFst fun v => if v.extras = [] then { v with extras := old.extras } else v := by
  refine decodeMin_maps 28 data (Maps.at ?_ _)
  refine Maps.bind fun a => Maps.bind fun st => Maps.bind fun la => Maps.bind fun ln => Maps.bind fun so => Maps.bind fun we =>
    Maps.bind fun al => Maps.bind fun sp => Maps.bind fun di => Maps.bind fun t => Maps.bind fun left => Maps.bind fun bu =>
    Maps.bind fun xs => Maps.pure ?_
  cases xs <;> simp

/-- A location of 28 bytes has no extras. -/
theorem T0200.bare (env : Env) (data : Bytes) (h : data.length = 28) : T0200.decode env {} data =
    (T0200.decode env {} data).mapFst fun v => { v with extras := [] } := by
  refine decodeMin_maps 28 data ?_
  rw [h]
  refine MapsAt.bind 4 Consumes.u32 fun a _ => MapsAt.bind 4 Consumes.u32 fun st _ => MapsAt.bind 4 Consumes.u32 fun la _ =>
    MapsAt.bind 4 Consumes.u32 fun ln _ => MapsAt.bind 0 (Consumes.lift _) fun so _ => MapsAt.bind 0 (Consumes.lift _) fun we _ =>
    MapsAt.bind 2 Consumes.u16 fun al _ => MapsAt.bind 2 Consumes.u16 fun sp _ => MapsAt.bind 2 Consumes.u16 fun di _ =>
    MapsAt.bind 6 (Consumes.bcdTime env) fun t _ => ?_
  intro s hs
  have hs : s = [] := List.length_eq_zero_iff.1 hs
  subst hs
  have e : slice data (28 - 0) 28 = .ok [] := by
    have := slice_to_end data 28 (by omega)
    rw [h, List.drop_eq_nil_of_le (by omega)] at this
    exact this
  simp only [bind_len, List.length_nil, e]
  rfl

theorem T0801.reused (env : Env) (old : T0801) (data : Bytes) : T0801.decode env old data =
    (T0801.decode env {} data).mapFst fun v =>
      { v with packet := old.packet, location := { v.location with extras := old.location.extras } } := by
  refine decodeMin_maps 36 data (Maps.at ?_ _)
  refine Maps.bind fun i => Maps.bind fun t => Maps.bind fun c => Maps.bind fun e => Maps.bind fun ch => ?_
  intro s
  rw [bind_apply, bind_apply]
  cases hr : Rd.read 28 s with
  | ok v =>
    have hl : v.1.length = 28 := by
      unfold Rd.read at hr
      split at hr
      · cases hr
      · cases hr; simp; omega
    simp only []
    rw [T0200.reused, T0200.bare env _ hl, bind_apply, bind_apply]
    cases T0200.decode env {} v.1 <;> rfl
  | err e => rfl
  | panic => rfl

theorem T8003.reused (old : T8003) (data : Bytes) : T8003.decode old data =
    (T8003.decode {} data).mapFst fun v => { v with packetIDs := old.packetIDs ++ v.packetIDs } := by
  refine decodeMin_maps 3 data (Maps.at ?_ _)
  exact Maps.bind fun _ => Maps.bind fun _ => Maps.bind fun _ => Maps.pure rfl

theorem T8301.reused (env : Env) (old : T8301) (data : Bytes) : T8301.decode env old data =
    (T8301.decode env {} data).mapFst fun v => { v with events := old.events ++ v.events } := by
  refine decodeMin_maps 2 data (Maps.at ?_ _)
  exact Maps.bind fun _ => Maps.bind fun _ => Maps.bind fun _ => Maps.pure rfl

theorem T8302.reused (env : Env) (old : T8302) (data : Bytes) : T8302.decode env old data =
    (T8302.decode env {} data).mapFst fun v => { v with answers := old.answers ++ v.answers } := by
  refine decodeMin_maps 2 data (Maps.at ?_ _)
  exact Maps.bind fun _ => Maps.bind fun _ => Maps.bind fun _ => Maps.bind fun _ => Maps.pure rfl

theorem T8303.reused (env : Env) (old : T8303) (data : Bytes) : T8303.decode env old data =
    (T8303.decode env {} data).mapFst fun v => { v with items := old.items ++ v.items } := by
  refine decodeMin_maps 2 data (Maps.at ?_ _)
  exact Maps.bind fun _ => Maps.bind fun _ => Maps.bind fun _ => Maps.pure rfl

theorem T8401.reused (env : Env) (old : T8401) (data : Bytes) : T8401.decode env old data =
    (T8401.decode env {} data).mapFst fun v => { v with contacts := old.contacts ++ v.contacts } := by
  refine decodeMin_maps 1 data (Maps.at ?_ _)
  exact Maps.bind fun _ => Maps.bind fun _ => Maps.bind fun _ => Maps.pure rfl

theorem T8606.reused (env : Env) (old : T8606) (data : Bytes) : T8606.decode env old data =
    (T8606.decode env {} data).mapFst fun v => { v with points := old.points ++ v.points } := by
  refine decodeMin_maps 20 data (Maps.at ?_ _)
  exact Maps.bind fun _ => Maps.bind fun _ => Maps.bind fun _ => Maps.bind fun _ =>
    Maps.bind fun _ => Maps.bind fun _ => Maps.pure rfl

theorem T8607.reused (old : TIDs) (data : Bytes) : T8607.decode old data =
    (T8607.decode {} data).mapFst fun v => { v with ids := old.ids ++ v.ids } := by
  refine decodeMin_maps 1 data (Maps.at ?_ _)
  exact Maps.bind fun _ => Maps.bind fun _ => Maps.pure rfl

theorem T8800.reused (old : T8800) (data : Bytes) : T8800.decode old data =
    (T8800.decode {} data).mapFst fun v => { v with retryIDs := old.retryIDs ++ v.retryIDs } := by
  refine decodeMin_maps 4 data (Maps.at ?_ _)
  refine Maps.bind fun _ => Maps.bind fun left => ?_
  by_cases h : left = 0
  · rw [if_pos h, if_pos h]; exact Maps.pure (by simp)
  · rw [if_neg h, if_neg h]; exact Maps.bind fun _ => Maps.bind fun _ => Maps.pure rfl

theorem T8604.reused (env : Env) (old : T8604) (data : Bytes) : T8604.decode env old data =
    (T8604.decode env {} data).mapFst fun v => if v.attr &&& 1 = 0 then
      { v with startTime := old.startTime, endTime := old.endTime, maxSpeed := old.maxSpeed, duration := old.duration } else v := by
  refine decodeMin_maps 16 data (Maps.at ?_ _)
  refine Maps.bind fun _ => Maps.bind fun attr => ?_
  unfold decodeAreaTail
  by_cases h : attr &&& 1 = 0
  · rw [if_pos h, if_pos h]
    intro s
    rw [Rd.bind_pure, Rd.bind_pure]
    exact Maps.bind (fun _ => Maps.bind fun _ => Maps.pure (by rw [if_pos h])) s
  · rw [if_neg h, if_neg h]
    exact Maps.bind fun _ => Maps.bind fun _ => Maps.bind fun _ => Maps.pure (by rw [if_neg h])

/-- `Entity.decode` from the decoder of one type. -/
theorem carried_wrap {α : Type} (mk : α → Entity) (f : α → α) (old : Entity) (n : Nat) (r r' : Res (α × Nat))
    (h : r' = r.mapFst f) (hc : ∀ v, carried old n (mk v) = mk (f v)) :
    match Entity.wrapDec mk r with
    | .ok (new, k) => Entity.wrapDec mk r' = .ok (carried old n new, k)
    | .err x => Entity.wrapDec mk r' = .err x
    | .panic => Entity.wrapDec mk r' = .panic := by
  subst h
  match r with
  | .ok (v, k) => show Res.ok _ = _; rw [hc]
  | .err e => rfl
  | .panic => rfl

/-- The same for a decoder that does not look at the old value. -/
theorem carried_same {α : Type} (mk : α → Entity) (old : Entity) (n : Nat) (r r' : Res (α × Nat))
    (h : r' = r) (hc : ∀ v, carried old n (mk v) = mk v) :
    match Entity.wrapDec mk r with
    | .ok (new, k) => Entity.wrapDec mk r' = .ok (carried old n new, k)
    | .err x => Entity.wrapDec mk r' = .err x
    | .panic => Entity.wrapDec mk r' = .panic := by
  subst h
  match r' with
  | .ok (v, k) => show Res.ok _ = _; rw [hc]
  | .err e => rfl
  | .panic => rfl

/-- C47 for every body type and every used value: the bytes are refused, or break the decoder, exactly as with a fresh
value; the same number of bytes is counted; and the value is the fresh one with `carried` applied. -/
theorem C47_exact (env : Env) (old fresh : Entity) (data : Bytes) (hf : Entity.create old.msgID = some fresh) :
    match Entity.decode env fresh data with
    | .ok (new, n) => Entity.decode env old data = .ok (carried old data.length new, n)
    | .err x => Entity.decode env old data = .err x
    | .panic => Entity.decode env old data = .panic := by
  cases old
  case m0100 o => cases hf; exact carried_wrap .m0100 _ (.m0100 o) _ _ _ (T0100.reused env o data) fun _ => rfl
  case m0200 o => cases hf; exact carried_wrap .m0200 _ (.m0200 o) _ _ _ (T0200.reused env o data) fun _ => rfl
  case m0801 o => cases hf; exact carried_wrap .m0801 _ (.m0801 o) _ _ _ (T0801.reused env o data) fun _ => rfl
  case m8003 o => cases hf; exact carried_wrap .m8003 _ (.m8003 o) _ _ _ (T8003.reused o data) fun _ => rfl
  case m8100 o => cases hf; exact carried_wrap .m8100 _ (.m8100 o) _ _ _ (T8100.reused env o data) fun _ => rfl
  case m8105 o => cases hf; exact carried_wrap .m8105 _ (.m8105 o) _ _ _ (TByteText.reused env o data) fun _ => rfl
  case m8300 o => cases hf; exact carried_wrap .m8300 _ (.m8300 o) _ _ _ (TByteText.reused env o data) fun _ => rfl
  case m8301 o => cases hf; exact carried_wrap .m8301 _ (.m8301 o) _ _ _ (T8301.reused env o data) fun _ => rfl
  case m8302 o => cases hf; exact carried_wrap .m8302 _ (.m8302 o) _ _ _ (T8302.reused env o data) fun _ => rfl
  case m8303 o => cases hf; exact carried_wrap .m8303 _ (.m8303 o) _ _ _ (T8303.reused env o data) fun _ => rfl
  case m8401 o => cases hf; exact carried_wrap .m8401 _ (.m8401 o) _ _ _ (T8401.reused env o data) fun _ => rfl
  case m8604 o => cases hf; exact carried_wrap .m8604 _ (.m8604 o) _ _ _ (T8604.reused env o data) fun _ => rfl
  case m8606 o => cases hf; exact carried_wrap .m8606 _ (.m8606 o) _ _ _ (T8606.reused env o data) fun _ => rfl
  case m8607 o => cases hf; exact carried_wrap .m8607 _ (.m8607 o) _ _ _ (T8607.reused o data) fun _ => rfl
  case m8800 o => cases hf; exact carried_wrap .m8800 _ (.m8800 o) _ _ _ (T8800.reused o data) fun _ => rfl
  all_goals
    cases hf
    first
      | exact Eq.refl (Res.ok _)
      | exact carried_same _ _ _ _ _ rfl fun v => rfl

/-- Every body type has a fresh value, so `C47_exact` covers every used value. -/
theorem C47_covers_all (old : Entity) : ∃ fresh, Entity.create old.msgID = some fresh ∧ fresh.msgID = old.msgID := by
  cases old <;> exact ⟨_, rfl, rfl⟩

/-- C47, when it holds: decoding into the used value gives what decoding into a fresh value gives exactly when nothing of
the old value is carried over. -/
theorem C47_right_iff (env : Env) (old fresh new : Entity) (data : Bytes) (n : Nat) (hf : Entity.create old.msgID = some fresh)
    (hd : Entity.decode env fresh data = .ok (new, n)) :
    Entity.decode env old data = .ok (new, n) ↔ carried old data.length new = new := by
  have h := C47_exact env old fresh data hf
  rw [hd] at h
  simp only at h
  rw [h]
  simp

/-- Non-trivial case: a used resend request gets a second list. -/
example (env : Env) : Entity.decode env (.m8003 { msgSerial := 1, packetIDs := [5, 6] }) [0, 9, 1, 0, 7] =
    .ok (.m8003 { msgSerial := 9, packetIDs := [5, 6, 7] }, 5) := by rfl
example : carried (.m8003 { msgSerial := 1, packetIDs := [5, 6] }) 5 (.m8003 { msgSerial := 9, packetIDs := [7] }) =
    .m8003 { msgSerial := 9, packetIDs := [5, 6, 7] } := by rfl

end Verif
