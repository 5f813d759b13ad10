import Verif.Lemmas.Accepts
import Verif.Lemmas.Reuse
import Verif.Spec.Consumed
/-! # Every body decoder accepts exactly its shape -/

namespace Verif

open Spec

section
variable {env : Env} {data : Bytes} {cnt : Nat}

/-! ## Whole bodies -/

theorem decodeMin_ok {α : Type} {p : Rd α} {k : Nat} {data : Bytes} :
    (∃ a, decodeMin k p data = .ok (a, cnt)) ↔ k ≤ data.length ∧ ∃ r a, p data = .ok (a, r) ∧ cnt = data.length - r.length := by
  unfold decodeMin runDecode
  split
  · rename_i h
    simp only [reduceCtorEq, exists_false, false_iff, not_and]
    omega
  · rename_i h
    cases hp : p data with
    | ok v =>
      simp only [Res.ok.injEq]
      constructor
      · rintro ⟨a, e⟩
        cases e
        exact ⟨by omega, v.2, v.1, rfl, rfl⟩
      · rintro ⟨-, r, a, rfl, rfl⟩
        exact ⟨a, rfl⟩
    | err e => simp
    | panic => simp

theorem decodeMin_isOk {α : Type} {p : Rd α} {k : Nat} {data : Bytes} :
    (∃ v, decodeMin k p data = .ok v) ↔ k ≤ data.length ∧ ∃ r a, p data = .ok (a, r) := by
  constructor
  · rintro ⟨⟨a, n⟩, h⟩
    obtain ⟨h1, r, a, h2, -⟩ := decodeMin_ok.1 ⟨a, h⟩
    exact ⟨h1, r, a, h2⟩
  · rintro ⟨h1, r, a, h2⟩
    obtain ⟨a, h⟩ := (decodeMin_ok (cnt := data.length - r.length)).2 ⟨h1, r, a, h2, rfl⟩
    exact ⟨_, h⟩

theorem decodeMin_accepts {α : Type} {p : Rd α} {sh : Shape} {n k : Nat} [Drops sh n] (h : Rd.Fits p sh) (hk : k ≤ n) :
    (∃ a, decodeMin k p data = .ok (a, cnt)) ↔ ∃ r, sh data r ∧ cnt = data.length - r.length := by
  rw [decodeMin_ok]
  constructor
  · rintro ⟨-, r, a, ha, hc⟩; exact ⟨r, (h _ _).1 ⟨a, ha⟩, hc⟩
  · rintro ⟨r, hr, hc⟩
    have := Drops.length hr
    obtain ⟨a, ha⟩ := (h _ _).2 hr
    exact ⟨by omega, r, a, ha, hc⟩

theorem decodeMin_atLeast {α : Type} {p : Rd α} {sh : Shape} {k : Nat} (h : Rd.Fits p sh) :
    (∃ a, decodeMin k p data = .ok (a, cnt)) ↔ ∃ r, atLeast k sh data r ∧ cnt = data.length - r.length := by
  rw [decodeMin_ok]
  constructor
  · rintro ⟨hk, r, a, ha, hc⟩; exact ⟨r, ⟨hk, (h _ _).1 ⟨a, ha⟩⟩, hc⟩
  · rintro ⟨r, ⟨hk, hr⟩, hc⟩
    obtain ⟨a, ha⟩ := (h _ _).2 hr
    exact ⟨hk, r, a, ha, hc⟩

/-- A single field. -/
macro "fit" : tactic => `(tactic| first
  | exact Rd.Fits.byte | exact Rd.Fits.u16 | exact Rd.Fits.u32 | exact Rd.Fits.read _ | exact Rd.Fits.rest | exact Rd.Fits.bcdTime _
  | exact Rd.Fits.strRest _ | exact Rd.Fits.strIfMore _ _ | exact Rd.Fits.str _ _ | exact Rd.Fits.str8 _ | exact Rd.Fits.str16 _)

/-- Field after field. -/
macro "fits" : tactic => `(tactic| repeat first
  | exact Rd.Fits.last (by fit)
  | refine Rd.Fits.seq (by fit) fun _ => ?_)

theorem T0001.accepts : (∃ a, T0001.decode {} data = .ok (a, cnt)) ↔ ∃ r, (word ⨾ word ⨾ byte) data r ∧ cnt = data.length - r.length := by
  refine decodeMin_accepts ?_ (by decide); fits

theorem T8001.accepts : (∃ a, T8001.decode {} data = .ok (a, cnt)) ↔ ∃ r, (word ⨾ word ⨾ byte) data r ∧ cnt = data.length - r.length := by
  refine decodeMin_accepts ?_ (by decide); fits

theorem TEmpty.accepts : (∃ a, TEmpty.decode {} data = .ok (a, cnt)) ↔ ∃ r, nothing data r ∧ cnt = data.length - r.length := by
  constructor
  · rintro ⟨a, h⟩
    cases h
    exact ⟨data, rfl, by omega⟩
  · rintro ⟨r, rfl, rfl⟩
    exact ⟨{}, by rw [Nat.sub_self]; rfl⟩

theorem T0100.accepts : (∃ a, T0100.decode env {} data = .ok (a, cnt)) ↔
    ∃ r, (word ⨾ word ⨾ bytes 5 ⨾ bytes 20 ⨾ bytes 7 ⨾ byte ⨾ textIfAny env) data r ∧ cnt = data.length - r.length := by
  refine decodeMin_accepts ?_ (by decide); fits

theorem T0102.accepts : (∃ a, T0102.decode env {} data = .ok (a, cnt)) ↔ ∃ r, atLeast 1 (textToEnd env) data r ∧ cnt = data.length - r.length := by
  have : T0102.decode env {} data = decodeMin 1 (do let k ← Rd.strRest env; pure { authKey := k }) data := by
    unfold T0102.decode decodeMin
    congr 1
    simp only [eq_iff_iff]; omega
  rw [this]
  refine decodeMin_atLeast ?_; fits

theorem Param.fits : Rd.Fits Param.decodeItem parameter := by
  unfold Param.decodeItem parameter
  refine Rd.Fits.seq Rd.Fits.u32 fun _ => Rd.Fits.number8 fun n => ?_
  fits

theorem T0104.accepts : (∃ a, T0104.decode {} data = .ok (a, cnt)) ↔ ∃ r, atLeast 4 (word ⨾ number 1 fun n => repeated n parameter) data r ∧ cnt = data.length - r.length := by
  refine decodeMin_atLeast ?_
  refine Rd.Fits.seq Rd.Fits.u16 fun _ => Rd.Fits.number8 fun n => Rd.Fits.last (Rd.Fits.times Param.fits _)

theorem T8103.accepts : (∃ a, T8103.decode {} data = .ok (a, cnt)) ↔ ∃ r, atLeast 4 (number 1 fun n => repeated n parameter) data r ∧ cnt = data.length - r.length := by
  refine decodeMin_atLeast ?_
  exact Rd.Fits.number8 fun n => Rd.Fits.last (Rd.Fits.times Param.fits _)

theorem T0107.accepts : (∃ a, T0107.decode {} data = .ok (a, cnt)) ↔
    ∃ r, (word ⨾ bytes 5 ⨾ bytes 20 ⨾ bytes 7 ⨾ bytes 10 ⨾ number 1 bytes ⨾ number 1 bytes ⨾ byte ⨾ byte) data r ∧ cnt = data.length - r.length := by
  refine decodeMin_accepts ?_ (by decide)
  fits
  rw [Rd.number_seq]
  refine Rd.Fits.number8 fun n => Rd.Fits.seq (Rd.Fits.read _) fun h => ?_
  rw [Rd.number_seq]
  refine Rd.Fits.number8 fun k => ?_
  refine (Rd.Fits.checked (ok := fun _ => True) (g := fun s => slice s 0 k.toNat) (fun d hd => ?_) fun d v => ?_)
  · simp only [iff_true]
    exact ⟨_, slice_from_zero _ _ (by omega)⟩
  · fits

theorem bytes_ok {α : Type} {n : Nat} {g : Bytes → Res (α × Nat)} (f : Nat → Nat) (h1 : data.length < n → ∀ v, g data ≠ .ok v)
    (h2 : n ≤ data.length → ∃ a, g data = .ok (a, f n)) :
    (∃ a, g data = .ok (a, cnt)) ↔ ∃ r, bytes n data r ∧ cnt = f (data.length - r.length) := by
  constructor
  · rintro ⟨v, hv⟩
    by_cases hl : data.length < n
    · exact absurd hv (h1 hl _)
    · obtain ⟨a, ha⟩ := h2 (by omega)
      rw [ha] at hv
      cases hv
      refine ⟨data.drop n, ⟨data.take n, by simp, by simp; omega, trivial⟩, ?_⟩
      congr 1
      simp; omega
  · rintro ⟨r, ⟨t, rfl, ht, -⟩, rfl⟩
    obtain ⟨a, ha⟩ := h2 (by simp; omega)
    refine ⟨a, ?_⟩
    rw [ha, show (t ++ r).length - r.length = n by simp; omega]

theorem bytes_add (a b : Nat) : (bytes a ⨾ bytes b) = bytes (a + b) := by
  funext s r
  simp only [seq, bytes, field, and_true, eq_iff_iff]
  constructor
  · rintro ⟨m, ⟨f, rfl, hf⟩, g, rfl, hg⟩
    exact ⟨f ++ g, by simp, by simp; omega⟩
  · rintro ⟨f, rfl, hf⟩
    exact ⟨f.drop a ++ r, ⟨f.take a, by simp [← List.append_assoc], by simp; omega⟩, f.drop a, rfl, by simp; omega⟩

theorem T0108.accepts : (∃ a, T0108.decode {} data = .ok (a, cnt)) ↔ ∃ r, (byte ⨾ byte) data r ∧ cnt = data.length - r.length := by
  rw [show (byte ⨾ byte) = bytes 2 from bytes_add 1 1]
  refine bytes_ok id (fun h v => ?_) (fun h => ?_)
  · unfold T0108.decode; rw [if_pos h]; simp
  · match data, h with
    | a :: b :: t, _ => exact ⟨_, rfl⟩

theorem T0303.accepts : (∃ a, T0303.decode {} data = .ok (a, cnt)) ↔ ∃ r, (byte ⨾ byte) data r ∧ cnt = data.length - r.length - 1 := by
  rw [show (byte ⨾ byte) = bytes 2 from bytes_add 1 1]
  refine bytes_ok (· - 1) (fun h v => ?_) (fun h => ?_)
  · unfold T0303.decode; rw [if_pos h]; simp
  · match data, h with
    | a :: b :: t, _ => exact ⟨_, rfl⟩

theorem T0301.accepts : (∃ a, T0301.decode {} data = .ok (a, cnt)) ↔ ∃ r, byte data r ∧ cnt = data.length - r.length := by
  refine bytes_ok id (fun h v => ?_) (fun h => ?_)
  · unfold T0301.decode; rw [if_pos h]; simp
  · match data, h with
    | a :: t, _ => exact ⟨_, rfl⟩

theorem T8500.accepts : (∃ a, T8500.decode {} data = .ok (a, cnt)) ↔ ∃ r, byte data r ∧ cnt = data.length - r.length := by
  refine bytes_ok id (fun h v => ?_) (fun h => ?_)
  · unfold T8500.decode; rw [if_pos h]; simp
  · match data, h with
    | a :: t, _ => exact ⟨_, rfl⟩

theorem T0302.accepts : (∃ a, T0302.decode {} data = .ok (a, cnt)) ↔ ∃ r, (word ⨾ byte) data r ∧ cnt = data.length - r.length := by
  rw [show (word ⨾ byte) = bytes 3 from bytes_add 2 1]
  refine bytes_ok id (fun h v => ?_) (fun h => ?_)
  · unfold T0302.decode decodeMin; rw [if_pos h]; simp
  · match data, h with
    | a :: b :: c :: t, _ =>
      refine ⟨⟨get16 a b, c⟩, ?_⟩
      unfold T0302.decode decodeMin
      rw [if_neg (by simp)]
      show Res.ok (_, (a :: b :: c :: t).length - t.length) = _
      rw [show (a :: b :: c :: t).length - t.length = id 3 by simp only [List.length_cons, id]; omega]

theorem T0700.accepts : (∃ a, T0700.decode {} data = .ok (a, cnt)) ↔ ∃ r, (word ⨾ byte ⨾ anything) data r ∧ cnt = data.length - r.length := by
  refine decodeMin_accepts ?_ (by decide); fits

theorem T0701.accepts : (∃ a, T0701.decode {} data = .ok (a, cnt)) ↔ ∃ r, (dword ⨾ anything) data r ∧ cnt = data.length - r.length := by
  refine decodeMin_accepts ?_ (by decide); fits

/-- The limit of 34 bytes is that of the code. -/
theorem T0702.accepts : (∃ a, T0702.decode env {} data = .ok (a, cnt)) ↔
    ∃ r, (byte ⨾ Spec.time ⨾ byte ⨾ shortText env ⨾ textOf env 20 ⨾ shortText env ⨾ date) data r ∧ cnt = data.length - r.length := by
  have : Drops (field 20 fun b => (env.gbDec b).isSome) 20 := inferInstance
  show _ ↔ ∃ r, (byte ⨾ Spec.time ⨾ byte ⨾ shortText env ⨾ (field 20 fun b => (env.gbDec b).isSome) ⨾ shortText env ⨾ date) data r ∧ _
  refine decodeMin_accepts ?_ (by decide)
  fits
  exact Rd.Fits.checkedLast fun d hd => parseDate_isDate hd

/-! ## Location reports -/

/-- A program that also looks at the data from which its reader was made. -/
def AcceptsOf {α : Type} (data : Bytes) (x : Rd α) (sh : Shape) : Prop := ∀ s, (∃ f, data = f ++ s) → ((∃ v, x s = .ok v) ↔ ∃ r, sh s r)

theorem AcceptsOf.seq {α β : Type} {data : Bytes} {x : Rd α} {f : α → Rd β} {a b : Shape} {k : Nat} [hd : Drops a k] (hx : Rd.Fits x a)
    (hf : ∀ v, AcceptsOf data (f v) b) : AcceptsOf data (x >>= f) (a ⨾ b) := by
  rintro s ⟨p, rfl⟩
  constructor
  · rintro ⟨⟨v, r⟩, hv⟩
    obtain ⟨w, m, h1, h2⟩ := Rd.bind_iff.1 ⟨v, hv⟩
    have ha := (hx s m).1 ⟨w, h1⟩
    obtain ⟨q, rfl, -⟩ := hd.drops _ _ ha
    obtain ⟨u, hu⟩ := h2
    obtain ⟨r', hr'⟩ := (hf w m ⟨p ++ q, by simp⟩).1 ⟨_, hu⟩
    exact ⟨r', m, ha, hr'⟩
  · rintro ⟨r, m, ha, hr⟩
    obtain ⟨w, h1⟩ := (hx s m).2 ha
    obtain ⟨q, rfl, -⟩ := hd.drops _ _ ha
    obtain ⟨u, hu⟩ := (hf w m ⟨p ++ q, by simp⟩).2 ⟨r, hr⟩
    exact ⟨u, by rw [Rd.bind_apply, h1]; exact hu⟩

theorem AcceptsOf.skip {α β : Type} {data : Bytes} {v : Res α} {w : α} {f : α → Rd β} {sh : Shape} (h : v = .ok w)
    (hf : AcceptsOf data (f w) sh) : AcceptsOf data (Rd.lift v >>= f) sh := by
  subst h; exact hf

theorem extras_step (fuel : Nat) (id n : UInt8) (t : Bytes) : decodeExtras (fuel + 1) (id :: n :: t) =
    if t.length < n.toNat then .err .invalidExtraLength
    else match Extra.decode id (t.take n.toNat) with
      | .err .typeNotRegistered => decodeExtras fuel (t.drop n.toNat)
      | .err e => .err e
      | .panic => .panic
      | .ok (x, count) =>
        if count ≠ n.toNat then .err .invalidExtraLength
        else (decodeExtras fuel (t.drop n.toNat)).bind fun xs => .ok (some x :: xs) := by
  rw [decodeExtras]
  rw [if_neg (by simp)]
  have e1 : idx (id :: n :: t) 0 = .ok id := rfl
  have e2 : idx (id :: n :: t) 1 = .ok n := rfl
  have e3 : slice (id :: n :: t) 2 (id :: n :: t).length = .ok t := by rw [slice_to_end _ _ (by simp)]; rfl
  simp only [e1, e2, e3, Res.ok_bind]
  split
  · rfl
  · rename_i hlt
    rw [slice_from_zero _ _ (by omega), slice_to_end _ _ (by omega)]
    rfl

theorem extras_accepts : ∀ (fuel : Nat) (s : Bytes), s.length ≤ fuel →
    ((∃ xs, decodeExtras fuel s = .ok xs) ↔ ∃ r, many item s r ∧ r.length < 2) := by
  intro fuel
  induction fuel with
  | zero =>
    intro s hs
    have : s = [] := List.eq_nil_of_length_eq_zero (by omega)
    subst this
    exact ⟨fun _ => ⟨[], ⟨0, rfl⟩, by simp⟩, fun _ => ⟨[], rfl⟩⟩
  | succ fuel ih =>
    intro s hs
    match s, hs with
    | [], _ => exact ⟨fun _ => ⟨[], ⟨0, rfl⟩, by simp⟩, fun _ => ⟨[], rfl⟩⟩
    | [b], _ => exact ⟨fun _ => ⟨[b], ⟨0, rfl⟩, by simp⟩, fun _ => ⟨[], by simp [decodeExtras]⟩⟩
    | id :: n :: t, hs =>
      have hl : t.length ≤ fuel := by simp at hs; omega
      have hmany : ∀ r, r.length < 2 → (many item (id :: n :: t) r ↔ ∃ d m, t = d ++ m ∧ d.length = n.toNat ∧
          (∀ k, extraSize id d = some k → d.length = k) ∧ many item m r) := by
        intro r hr
        constructor
        · rintro ⟨k, hk⟩
          cases k with
          | zero =>
            have : r = id :: n :: t := hk
            rw [this] at hr
            simp only [List.length_cons] at hr
            omega
          | succ k =>
            obtain ⟨m, ⟨id', n', d, e, h1, h2⟩, h3⟩ := hk
            simp only [List.cons_append, List.cons.injEq] at e
            obtain ⟨rfl, rfl, rfl⟩ := e
            exact ⟨d, m, rfl, h1, h2, k, h3⟩
        · rintro ⟨d, m, rfl, h1, h2, k, h3⟩
          exact ⟨k + 1, m, ⟨id, n, d, rfl, h1, h2⟩, h3⟩
      rw [extras_step]
      by_cases hlt : t.length < n.toNat
      · rw [if_pos hlt]
        simp only [reduceCtorEq, exists_false, false_iff]
        rintro ⟨r, hm, hr⟩
        obtain ⟨d, m, rfl, h1, -⟩ := (hmany r hr).1 hm
        simp at hlt
        omega
      · rw [if_neg hlt]
        have hd : (t.take n.toNat).length = n.toNat := by simp; omega
        have ihd := ih (t.drop n.toNat) (by simp; omega)
        have hrest : (∃ r, many item (id :: n :: t) r ∧ r.length < 2) ↔
            (∀ k, extraSize id (t.take n.toNat) = some k → n.toNat = k) ∧ ∃ r, many item (t.drop n.toNat) r ∧ r.length < 2 := by
          constructor
          · rintro ⟨r, hm, hr⟩
            obtain ⟨d, m, rfl, h1, h2, h3⟩ := (hmany r hr).1 hm
            have e1 : (d ++ m).take n.toNat = d := by rw [← h1]; simp
            have e2 : (d ++ m).drop n.toNat = m := by rw [← h1]; simp
            rw [e1, e2]
            exact ⟨fun k hk => by rw [← h2 k hk, h1], r, h3, hr⟩
          · rintro ⟨h2, r, h3, hr⟩
            exact ⟨r, (hmany r hr).2 ⟨_, _, (List.take_append_drop _ _).symm, hd, fun k hk => by rw [hd, h2 k hk], h3⟩, hr⟩
        rw [hrest, ← ihd]
        have hsz := Extra.decode_size id (t.take n.toNat)
        cases hx : extraSize id (t.take n.toNat) with
        | none =>
          rw [hx] at hsz
          simp only at hsz
          rw [hsz]
          simp
        | some k =>
          rw [hx] at hsz
          simp only [hd] at hsz
          simp only [Option.some.injEq, forall_eq']
          by_cases hk : n.toNat < k
          · rw [if_pos hk] at hsz
            rw [hsz]
            simp only [reduceCtorEq, exists_false, false_iff]
            omega
          · rw [if_neg hk] at hsz
            obtain ⟨x, hx⟩ := hsz
            rw [hx]
            simp only
            by_cases hkn : k = n.toNat
            · rw [if_neg (by simp [hkn])]
              cases decodeExtras fuel (t.drop n.toNat) <;> simp [Res.bind, hkn]
            · rw [if_pos hkn]
              simp only [reduceCtorEq, exists_false, false_iff]
              omega

theorem AcceptsOf.extras {β : Type} {g : List (Option Extra) → β} : AcceptsOf data (do
      let left ← Rd.len
      let buffer ← Rd.lift (slice data (data.length - left) data.length)
      let xs ← Rd.lift (decodeExtras buffer.length buffer)
      pure (g xs)) (fun s r => many item s r ∧ r.length < 2) := by
  rintro s ⟨f, rfl⟩
  rw [Rd.bind_len, slice_to_end _ _ (by simp)]
  have : (f ++ s).drop ((f ++ s).length - s.length) = s := by simp
  rw [this, ← extras_accepts s.length s (Nat.le_refl _)]
  show (∃ v, (Rd.lift (decodeExtras s.length s) >>= fun xs => (pure (g xs) : Rd β)) s = .ok v) ↔ _
  rw [Rd.bind_apply]
  unfold Rd.lift
  cases decodeExtras s.length s <;> simp [Rd.pure_apply]

theorem seq_assoc (a b c : Shape) : ((a ⨾ b) ⨾ c) = (a ⨾ b ⨾ c) := by
  funext s r
  simp only [seq, eq_iff_iff]
  exact ⟨fun ⟨m, ⟨k, h1, h2⟩, h3⟩ => ⟨k, h1, m, h2, h3⟩, fun ⟨k, h1, m, h2, h3⟩ => ⟨m, ⟨k, h1, h2⟩, h3⟩⟩

theorem report_eq : report = (dword ⨾ dword ⨾ dword ⨾ dword ⨾ word ⨾ word ⨾ word ⨾ time ⨾ fun s r => many item s r ∧ r.length < 2) := by
  unfold report place
  simp only [seq_assoc]

theorem report_length {s r : Bytes} (h : report s r) : 28 ≤ s.length := by
  obtain ⟨m, h1, -⟩ := h
  have := place_length h1
  omega

theorem T0200.accepts (self : T0200) : (∃ v, T0200.decode env self data = .ok v) ↔ ∃ r, report data r := by
  have key : ∀ {x : Rd T0200}, AcceptsOf data x report → ((∃ v, decodeMin 28 x data = .ok v) ↔ ∃ r, report data r) := by
    intro x hx
    rw [decodeMin_isOk, ← hx data ⟨[], rfl⟩]
    constructor
    · rintro ⟨-, r, a, h⟩; exact ⟨_, h⟩
    · rintro ⟨v, h⟩
      obtain ⟨r, hr⟩ := (hx data ⟨[], rfl⟩).1 ⟨v, h⟩
      exact ⟨report_length hr, v.2, v.1, h⟩
  refine key ?_
  rw [report_eq]
  refine AcceptsOf.seq Rd.Fits.u32 fun _ => AcceptsOf.seq Rd.Fits.u32 fun st => AcceptsOf.seq Rd.Fits.u32 fun _ => AcceptsOf.seq Rd.Fits.u32 fun _ => ?_
  refine AcceptsOf.skip (getBitUint32_eq st 2) ?_
  refine AcceptsOf.skip (getBitUint32_eq st 3) ?_
  refine AcceptsOf.seq Rd.Fits.u16 fun _ => AcceptsOf.seq Rd.Fits.u16 fun _ => AcceptsOf.seq Rd.Fits.u16 fun _ =>
    AcceptsOf.seq (Rd.Fits.bcdTime env) fun _ => ?_
  exact AcceptsOf.extras

theorem T0201.accepts : (∃ v, T0201.decode env {} data = .ok v) ↔ ∃ r, (word ⨾ report) data r := by
  constructor
  · rintro ⟨v, h⟩
    unfold T0201.decode at h
    split at h
    · cases h
    · match data with
      | a :: b :: t =>
        have hs : slice (a :: b :: t) ((a :: b :: t).length - t.length) (a :: b :: t).length = .ok t := by
          rw [show (a :: b :: t).length - t.length = 2 by simp only [List.length_cons]; omega, slice_to_end _ _ (by simp)]; rfl
        rw [show Rd.u16 (a :: b :: t) = .ok (get16 a b, t) from rfl] at h
        simp only [Res.ok_bind, hs] at h
        cases ht : T0200.decode env {} t with
        | ok w =>
          obtain ⟨r, hr⟩ := (T0200.accepts {}).1 ⟨w, ht⟩
          exact ⟨r, t, ⟨[a, b], rfl, rfl, trivial⟩, hr⟩
        | err e => rw [ht] at h; cases h
        | panic => rw [ht] at h; cases h
      | [] => simp at *
      | [_] => simp at *
  · rintro ⟨r, t, ⟨f, rfl, hf, -⟩, hr⟩
    match f, hf with
    | [a, b], _ =>
      obtain ⟨w, hw⟩ := (T0200.accepts (env := env) {}).2 ⟨r, hr⟩
      have := report_length hr
      unfold T0201.decode
      rw [if_neg (by simp; omega)]
      have hs : slice (a :: b :: t) ((a :: b :: t).length - t.length) (a :: b :: t).length = .ok t := by
        rw [show (a :: b :: t).length - t.length = 2 by simp only [List.length_cons]; omega, slice_to_end _ _ (by simp)]; rfl
      refine ⟨({ replySerial := get16 a b, result := w.1 }, (a :: b :: t).length - t.length + w.2), ?_⟩
      show (do
        let (s, rest) ← Rd.u16 (a :: b :: t)
        let buf ← slice (a :: b :: t) ((a :: b :: t).length - rest.length) (a :: b :: t).length
        let (r, size) ← T0200.decode env {} buf
        Res.ok ({ replySerial := s, result := r : T0201 }, (a :: b :: t).length - rest.length + size)) = _
      rw [show Rd.u16 (a :: b :: t) = .ok (get16 a b, t) from rfl]
      simp only [Res.ok_bind, hs, hw]

/-- A location report counts the 28 bytes of the location, not the additional items. -/
theorem T0200.counts {self a : T0200} (h : T0200.decode env self data = .ok (a, cnt)) : cnt = 28 := by
  obtain ⟨hl, r, v, hv, rfl⟩ := decodeMin_ok.1 ⟨a, h⟩
  have key : ∀ {x : Rd T0200}, Rd.Consumes 28 x → x data = .ok (v, r) → data.length - r.length = 28 := by
    intro x hx h
    have := hx _ _ _ h
    omega
  refine key ?_ hv
  refine Rd.Consumes.bind (j := 4) (k := 24) Rd.Consumes.u32 fun _ => Rd.Consumes.bind (j := 4) (k := 20) Rd.Consumes.u32 fun _ =>
    Rd.Consumes.bind (j := 4) (k := 16) Rd.Consumes.u32 fun _ => Rd.Consumes.bind (j := 4) (k := 12) Rd.Consumes.u32 fun _ =>
    Rd.Consumes.bind (j := 0) (k := 12) (Rd.Consumes.lift _) fun _ => Rd.Consumes.bind (j := 0) (k := 12) (Rd.Consumes.lift _) fun _ =>
    Rd.Consumes.bind (j := 2) (k := 10) Rd.Consumes.u16 fun _ => Rd.Consumes.bind (j := 2) (k := 8) Rd.Consumes.u16 fun _ =>
    Rd.Consumes.bind (j := 2) (k := 6) Rd.Consumes.u16 fun _ => Rd.Consumes.bind (j := 6) (k := 0) (Rd.Consumes.bcdTime env) fun _ => ?_
  refine Rd.Consumes.bind (j := 0) (k := 0) (fun s a r h => by cases h; rfl) fun _ => Rd.Consumes.bind (j := 0) (k := 0) (Rd.Consumes.lift _) fun _ =>
    Rd.Consumes.bind (j := 0) (k := 0) (Rd.Consumes.lift _) fun _ => fun s a r h => by cases h; rfl

/-- An answer with a location report counts two bytes more. -/
theorem T0201.counts {a : T0201} (h : T0201.decode env {} data = .ok (a, cnt)) : cnt = 30 := by
  unfold T0201.decode at h
  split at h
  · cases h
  · match data with
    | x :: y :: t =>
      have h2 : (x :: y :: t).length - t.length = 2 := by simp only [List.length_cons]; omega
      have hs : slice (x :: y :: t) 2 (x :: y :: t).length = .ok t := by rw [slice_to_end _ _ (by simp)]; rfl
      rw [show Rd.u16 (x :: y :: t) = .ok (get16 x y, t) from rfl] at h
      simp only [Res.ok_bind, h2, hs] at h
      cases ht : T0200.decode env {} t with
      | ok w =>
        rw [ht, Res.ok_bind] at h
        rw [← (Prod.mk.inj (Res.ok.inj h)).2, T0200.counts (a := w.1) (cnt := w.2) ht]
      | err e => rw [ht] at h; cases h
      | panic => rw [ht] at h; cases h
    | [] => simp at *
    | [_] => simp at *

/-- The count is the same for all bytes accepted. -/
theorem counts_const {α : Type} {x : Res (α × Nat)} {sh : Shape} {c : Nat} (h1 : (∃ v, x = .ok v) ↔ ∃ r, sh data r)
    (h3 : ∀ a n, x = .ok (a, n) → n = c) :
    (∃ a, x = .ok (a, cnt)) ↔ ∃ r, sh data r ∧ cnt = c := by
  constructor
  · rintro ⟨a, h⟩
    obtain ⟨r, hr⟩ := h1.1 ⟨_, h⟩
    exact ⟨r, hr, h3 a _ h⟩
  · rintro ⟨r, hr, rfl⟩
    obtain ⟨⟨a, n⟩, hv⟩ := h1.2 ⟨r, hr⟩
    have := h3 a n hv
    subst this
    exact ⟨a, hv⟩

instance : Drops (number 2 fun k => inside k report) 2 := ⟨by
  rintro s r ⟨f, m, rfl, hf, g, rfl, hg, -⟩
  exact ⟨f ++ g, by simp, by simp; omega⟩⟩

instance (ok : Bytes → Prop) : Drops (number 4 fun n => field n ok) 4 := ⟨by
  rintro s r ⟨f, m, rfl, hf, g, rfl, hg, -⟩
  exact ⟨f ++ g, by simp, by simp; omega⟩⟩

/-- Bytes that are looked at after being read. -/
theorem Rd.Fits.reading {β : Type} {n : Nat} {ok : Bytes → Prop} {f : Bytes → Rd β} {sh : Shape}
    (h1 : ∀ d, d.length = n → ok d → Rd.Fits (f d) sh) (h2 : ∀ d, d.length = n → ¬ ok d → ∀ s v, f d s ≠ .ok v) :
    Rd.Fits (Rd.read n >>= f) (field n ok ⨾ sh) := by
  intro s r
  rw [Rd.bind_iff]
  constructor
  · rintro ⟨d, m, e, b, hb⟩
    obtain ⟨e1, e2⟩ := Rd.read_iff.1 e
    by_cases hok : ok d
    · exact ⟨m, ⟨d, e1, e2, hok⟩, (h1 d e2 hok m r).1 ⟨b, hb⟩⟩
    · exact absurd hb (h2 d e2 hok m _)
  · rintro ⟨m, ⟨d, e1, e2, hok⟩, h⟩
    exact ⟨d, m, Rd.read_iff.2 ⟨e1, e2⟩, (h1 d e2 hok m r).2 h⟩

theorem T0704.accepts : (∃ a, T0704.decode env {} data = .ok (a, cnt)) ↔
    ∃ r, (number 2 fun n => byte ⨾ repeated n (number 2 fun k => inside k report)) data r ∧ cnt = data.length - r.length := by
  refine decodeMin_accepts ?_ (by decide)
  refine Rd.Fits.number16 fun n => Rd.Fits.seq Rd.Fits.byte fun _ => Rd.Fits.last (Rd.Fits.times ?_ _)
  exact Rd.Fits.number16 fun k => Rd.Fits.checkedLast (f := fun _ (v : T0200 × Nat) => v.1) fun d _ => T0200.accepts {}

theorem CanItem.fits : Rd.Fits CanItem.decodeItem (bytes 4 ⨾ bytes 8) := by
  unfold CanItem.decodeItem; fits

theorem T0705.accepts : (∃ a, T0705.decode {} data = .ok (a, cnt)) ↔
    ∃ r, (number 2 fun n => field 5 (fun b => b.head? ≠ some 0) ⨾ repeated n (bytes 4 ⨾ bytes 8)) data r ∧ cnt = data.length - r.length := by
  refine decodeMin_accepts ?_ (by decide)
  refine Rd.Fits.number16 fun n => ?_
  have hlen : ∀ d : Bytes, d.length = 5 → ((bcdToString d true).length = 10 ↔ d.head? ≠ some 0) := by
    intro d hd
    match d, hd with
    | b :: bs, hd =>
      simp only [List.head?_cons, ne_eq, Option.some.injEq]
      by_cases h0 : b = 0
      · subst h0
        have hl := bcdToString_length_le (0 :: bs) true
        rw [List.dropWhile_cons_of_pos (by simp)] at hl
        have := length_dropWhile_le (· = (0 : UInt8)) bs
        simp only [List.length_cons] at hd
        simp only [not_true_eq_false, iff_false]
        omega
      · have : (b :: bs).dropWhile (· = 0) = b :: bs := List.dropWhile_cons_of_neg (by simp [h0])
        unfold bcdToString
        simp only [this, if_true, h0, not_false_eq_true, iff_true]
        rw [unpack_length]
        omega
  refine Rd.Fits.reading (fun d hd hok => ?_) (fun d hd hok s v => ?_)
  · have h10 := (hlen d hd).2 hok
    dsimp only
    rw [if_neg (by simp [h10])]
    refine Rd.Fits.skip (slice_ok _ _ _ (by omega) (by omega)) (Rd.Fits.skip (slice_ok _ _ _ (by omega) (by omega))
      (Rd.Fits.skip (slice_ok _ _ _ (by omega) (by omega)) (Rd.Fits.skip (slice_ok _ _ _ (by omega) (by omega)) ?_)))
    exact Rd.Fits.last (Rd.Fits.times CanItem.fits _)
  · rw [if_pos (fun h => hok ((hlen d hd).1 h))]
    simp [Rd.fail]

theorem T0800.accepts : (∃ a, T0800.decode {} data = .ok (a, cnt)) ↔ ∃ r, (dword ⨾ byte ⨾ byte ⨾ byte ⨾ byte) data r ∧ cnt = data.length - r.length := by
  refine decodeMin_accepts ?_ (by decide); fits

theorem place_report : (field 28 fun d => ∃ r, report d r) = place := by
  funext s r
  rw [eq_iff_iff]
  have hmany : ∀ m : Bytes, m.length = 0 → ∃ r, many item m r ∧ r.length < 2 := by
    intro m hm
    exact ⟨m, ⟨0, rfl⟩, by omega⟩
  constructor
  · rintro ⟨f, rfl, hf, r', m, h1, h2⟩
    have := place_length h1
    have : m = [] := List.eq_nil_of_length_eq_zero (by omega)
    subst this
    exact (place_local _ _).2 ⟨f, rfl, h1⟩
  · intro h
    obtain ⟨f, rfl, hf⟩ := (place_local _ _).1 h
    have := place_length hf
    obtain ⟨r', hr'⟩ := hmany [] rfl
    exact ⟨f, rfl, by simpa using this, r', [], hf, hr'⟩

theorem Rd.Fits.location {β : Type} (self : T0200) {g : Bytes → T0200 × Nat → β} :
    Rd.Fits (Rd.read 28 >>= fun d => Rd.lift (T0200.decode env self d) >>= fun v => Pure.pure (g d v)) place := by
  rw [← place_report]
  exact Rd.Fits.checkedLast fun d _ => T0200.accepts self

theorem T0801.accepts : (∃ a, T0801.decode env {} data = .ok (a, cnt)) ↔ ∃ r, (dword ⨾ byte ⨾ byte ⨾ byte ⨾ byte ⨾ place) data r ∧ cnt = data.length - r.length := by
  refine decodeMin_accepts ?_ (by decide); fits
  exact Rd.Fits.location _

theorem MediaItem.fits : Rd.Fits (MediaItem.decodeItem env) (dword ⨾ byte ⨾ byte ⨾ byte ⨾ place) := by
  unfold MediaItem.decodeItem; fits
  exact Rd.Fits.location _

theorem T0802.accepts : (∃ a, T0802.decode env {} data = .ok (a, cnt)) ↔
    ∃ r, (word ⨾ number 2 fun n => repeated n (dword ⨾ byte ⨾ byte ⨾ byte ⨾ place)) data r ∧ cnt = data.length - r.length := by
  refine decodeMin_accepts ?_ (by decide)
  exact Rd.Fits.seq Rd.Fits.u16 fun _ => Rd.Fits.number16 fun n => Rd.Fits.last (Rd.Fits.times MediaItem.fits _)

theorem T0805.accepts : (∃ a, T0805.decode {} data = .ok (a, cnt)) ↔ ∃ r, (word ⨾ byte ⨾ number 2 fun n => repeated n dword) data r ∧ cnt = data.length - r.length := by
  refine decodeMin_accepts ?_ (by decide)
  exact Rd.Fits.seq Rd.Fits.u16 fun _ => Rd.Fits.seq Rd.Fits.byte fun _ => Rd.Fits.number16 fun n => Rd.Fits.last (Rd.Fits.times Rd.Fits.u32 _)

/-- A program run on all but the first byte. -/
theorem tail_accepts {α β : Type} {x : UInt8 → Rd α} {sh : Nat → Shape} {g : Bytes → Res (β × Nat)} (h0 : ∀ v, g [] ≠ .ok v)
    (h : ∀ b t, (∃ w, g (b :: t) = .ok (w, cnt)) ↔ ∃ a r, x b t = .ok (a, r) ∧ cnt = (b :: t).length - r.length - 1)
    (hx : ∀ b, Rd.Fits (x b) (sh b.toNat)) :
    (∃ w, g data = .ok (w, cnt)) ↔ ∃ r, number 1 sh data r ∧ cnt = data.length - r.length - 1 := by
  match data with
  | [] =>
    constructor
    · rintro ⟨v, hv⟩; exact absurd hv (h0 _)
    · rintro ⟨r, ⟨f, m, e, hf, -⟩, -⟩
      have := congrArg List.length e
      rw [List.length_append, List.length_nil] at this
      omega
  | b :: t =>
    rw [h]
    constructor
    · rintro ⟨a, r, hv, hc⟩
      exact ⟨r, ⟨[b], t, rfl, rfl, by rw [Rd.valueOf_one]; exact (hx b t r).1 ⟨a, hv⟩⟩, hc⟩
    · rintro ⟨r, ⟨f, m, e, hf, hn⟩, hc⟩
      match f, hf, e with
      | [c], _, e =>
        simp only [List.cons_append, List.nil_append, List.cons.injEq] at e
        obtain ⟨rfl, rfl⟩ := e
        rw [Rd.valueOf_one] at hn
        obtain ⟨a, ha⟩ := (hx _ _ r).2 hn
        exact ⟨a, r, ha, hc⟩

theorem number_const (sh : Shape) : (number 1 fun _ => sh) = (byte ⨾ sh) := by
  funext s r
  simp only [number, seq, byte, bytes, field, and_true, eq_iff_iff]
  exact ⟨fun ⟨f, m, h1, h2, h3⟩ => ⟨m, ⟨f, h1, h2⟩, h3⟩, fun ⟨m, ⟨f, h1, h2⟩, h3⟩ => ⟨f, m, h1, h2, h3⟩⟩

theorem Res.bind_counts {α β : Type} {x : Res (α × Bytes)} {f : α × Bytes → Res (β × Nat)} {g : α × Bytes → β} {k : Nat}
    (hf : ∀ a, f a = .ok (g a, k - a.2.length - 1)) : (∃ w, (x >>= f) = .ok (w, cnt)) ↔ ∃ a r, x = .ok (a, r) ∧ cnt = k - r.length - 1 := by
  cases x with
  | ok a =>
    rw [Res.ok_bind, hf]
    constructor
    · rintro ⟨w, hw⟩
      exact ⟨a.1, a.2, rfl, (Prod.mk.inj (Res.ok.inj hw)).2.symm⟩
    · rintro ⟨b, r, hb, rfl⟩
      cases hb
      exact ⟨_, rfl⟩
  | err e => exact ⟨fun ⟨_, h⟩ => (nomatch h), fun ⟨_, _, h, _⟩ => (nomatch h)⟩
  | panic => exact ⟨fun ⟨_, h⟩ => (nomatch h), fun ⟨_, _, h, _⟩ => (nomatch h)⟩

theorem T0900.accepts : (∃ a, T0900.decode {} data = .ok (a, cnt)) ↔ ∃ r, (byte ⨾ anything) data r ∧ cnt = data.length - r.length := by
  constructor
  · rintro ⟨v, hv⟩
    match data with
    | [] => cases hv
    | b :: t =>
      refine ⟨[], ⟨t, ⟨[b], rfl, rfl, trivial⟩, rfl, trivial⟩, ?_⟩
      unfold T0900.decode at hv
      rw [if_neg (by simp), slice_to_end _ _ (by simp)] at hv
      exact (Prod.mk.inj (Res.ok.inj hv)).2.symm
  · rintro ⟨r, ⟨m, ⟨f, rfl, hf, -⟩, rfl, -⟩, rfl⟩
    match f, hf with
    | [b], _ =>
      unfold T0900.decode
      rw [if_neg (by simp)]
      rw [slice_to_end _ _ (by simp)]
      exact ⟨_, rfl⟩

theorem T0901.accepts : (∃ a, T0901.decode env {} data = .ok (a, cnt)) ↔
    ∃ r, (number 4 fun n => field n fun b => (env.gunzip b).isSome) data r ∧ cnt = data.length - r.length := by
  refine decodeMin_accepts ?_ (by decide)
  refine Rd.Fits.number32 fun n => ?_
  rw [← Rd.seq_nothing (field _ _)]
  refine Rd.Fits.reading (fun d hd hok => ?_) (fun d hd hok s v => ?_)
  · cases hg : env.gunzip d with
    | none => rw [hg] at hok; cases hok
    | some u => exact Rd.Fits.pure _
  · cases hg : env.gunzip d with
    | none => simp [Rd.fail]
    | some u => rw [hg] at hok; exact absurd rfl hok

theorem T0A00.accepts : (∃ a, T0A00.decode {} data = .ok (a, cnt)) ↔ ∃ r, (dword ⨾ bytes 128) data r ∧ cnt = data.length - r.length := by
  refine decodeMin_accepts ?_ (by decide); fits

/-! ## Messages of the platform -/

theorem T8003.accepts : (∃ a, T8003.decode {} data = .ok (a, cnt)) ↔ ∃ r, (word ⨾ words) data r ∧ cnt = data.length - r.length := by
  refine decodeMin_accepts ?_ (by decide)
  exact Rd.Fits.seq Rd.Fits.u16 fun _ => Rd.Fits.number8 fun n => Rd.Fits.last (Rd.Fits.times Rd.Fits.u16 _)

theorem T8100.accepts : (∃ a, T8100.decode env {} data = .ok (a, cnt)) ↔ ∃ r, (word ⨾ byte ⨾ textIfAny env) data r ∧ cnt = data.length - r.length := by
  refine decodeMin_accepts ?_ (by decide); fits

theorem TByteText.accepts : (∃ a, TByteText.decode env {} data = .ok (a, cnt)) ↔ ∃ r, (byte ⨾ textIfAny env) data r ∧ cnt = data.length - r.length - 1 := by
  rw [← number_const]
  refine tail_accepts (x := fun _ => Rd.strIfMore env []) (by simp [TByteText.decode]) (fun b t => ?_) (fun b => Rd.Fits.strIfMore env [])
  unfold TByteText.decode
  rw [if_neg (by simp), slice_to_end _ _ (by simp)]
  exact Res.bind_counts (g := fun a => ⟨b, a.1⟩) fun _ => rfl

theorem TIDs.accepts : (∃ a, TIDs.decode {} data = .ok (a, cnt)) ↔ ∃ r, dwords data r ∧ cnt = data.length - r.length - 1 := by
  refine tail_accepts (x := fun b => Rd.times b.toNat Rd.u32) (by simp [TIDs.decode]) (fun b t => ?_) (fun b => Rd.Fits.times Rd.Fits.u32 _)
  unfold TIDs.decode
  rw [if_neg (by simp), slice_to_end _ _ (by simp)]
  exact Res.bind_counts (g := fun a => ⟨a.1⟩) fun _ => rfl

theorem T8607.accepts : (∃ a, T8607.decode {} data = .ok (a, cnt)) ↔ ∃ r, dwords data r ∧ cnt = data.length - r.length := by
  refine decodeMin_accepts ?_ (by decide)
  exact Rd.Fits.number8 fun n => Rd.Fits.last (Rd.Fits.times Rd.Fits.u32 _)

theorem T8108.accepts : (∃ a, T8108.decode env {} data = .ok (a, cnt)) ↔ ∃ r, (byte ⨾ bytes 5 ⨾ shortText env ⨾ dword ⨾ anything) data r ∧ cnt = data.length - r.length := by
  refine decodeMin_accepts ?_ (by decide); fits

theorem T8202.accepts : (∃ a, T8202.decode {} data = .ok (a, cnt)) ↔ ∃ r, (word ⨾ dword) data r ∧ cnt = data.length - r.length := by
  refine decodeMin_accepts ?_ (by decide); fits

theorem T8203.accepts : (∃ a, T8203.decode {} data = .ok (a, cnt)) ↔ ∃ r, (word ⨾ dword) data r ∧ cnt = data.length - r.length := by
  refine decodeMin_accepts ?_ (by decide); fits

theorem IdText.fits : Rd.Fits (IdText.decodeItem env) (byte ⨾ shortText env) := by
  unfold IdText.decodeItem; fits

theorem T8301.accepts : (∃ a, T8301.decode env {} data = .ok (a, cnt)) ↔ ∃ r, (byte ⨾ number 1 fun n => repeated n (byte ⨾ shortText env)) data r ∧ cnt = data.length - r.length := by
  refine decodeMin_accepts ?_ (by decide)
  exact Rd.Fits.seq Rd.Fits.byte fun _ => Rd.Fits.number8 fun n => Rd.Fits.last (Rd.Fits.times IdText.fits _)

theorem answers_fit : ∀ (fuel : Nat) (s r : Bytes), s.length ≤ fuel →
    ((∃ a, decodeAnswers env fuel s = .ok (a, r)) ↔ r = [] ∧ many (byte ⨾ shortText env) s r) := by
  intro fuel
  have hnil : ∀ r, many (byte ⨾ shortText env) [] r → r = [] := by
    rintro r ⟨n, h⟩
    obtain ⟨f, e, -⟩ := repeated_drops n _ _ h
    exact (List.append_eq_nil_iff.1 e.symm).2
  induction fuel with
  | zero =>
    intro s r hs
    have : s = [] := List.eq_nil_of_length_eq_zero (by omega)
    subst this
    show (∃ a, Res.ok (([] : List IdText), ([] : Bytes)) = .ok (a, r)) ↔ _
    constructor
    · rintro ⟨a, h⟩
      have := (Prod.mk.inj (Res.ok.inj h)).2
      exact ⟨this.symm, 0, this.symm⟩
    · rintro ⟨rfl, -⟩
      exact ⟨[], rfl⟩
  | succ fuel ih =>
    intro s r hs
    rw [decodeAnswers, Rd.bind_len]
    cases s with
    | nil =>
      show (∃ a, Res.ok (([] : List IdText), ([] : Bytes)) = .ok (a, r)) ↔ _
      constructor
      · rintro ⟨a, h⟩
        have := (Prod.mk.inj (Res.ok.inj h)).2
        exact ⟨this.symm, 0, this.symm⟩
      · rintro ⟨rfl, -⟩
        exact ⟨[], rfl⟩
    | cons b t =>
      rw [if_neg (by simp), Rd.bind_iff]
      constructor
      · rintro ⟨a, m, h1, h2⟩
        have hi := (IdText.fits _ _).1 ⟨a, h1⟩
        have hl := Drops.length hi
        rw [Rd.bind_iff] at h2
        obtain ⟨as, m', h3, c, h4⟩ := h2
        obtain ⟨rfl, n, hn⟩ := (ih m m' (by omega)).1 ⟨as, h3⟩
        have := (Prod.mk.inj (Res.ok.inj h4)).2
        subst this
        exact ⟨rfl, n + 1, m, hi, hn⟩
      · rintro ⟨rfl, n, hn⟩
        cases n with
        | zero => exact absurd hn (by simp [repeated, nothing])
        | succ n =>
          obtain ⟨m, hi, hn⟩ := hn
          have hl := Drops.length hi
          obtain ⟨a, ha⟩ := (IdText.fits _ _).2 hi
          obtain ⟨as, has⟩ := (ih m [] (by omega)).2 ⟨rfl, n, hn⟩
          exact ⟨a, m, ha, a :: as, by rw [Rd.bind_apply, has]; rfl⟩

instance : Drops (fun s r => r = [] ∧ many (byte ⨾ shortText env) s r) 0 := ⟨fun s r h => ⟨s, by rw [h.1]; simp, Nat.zero_le _⟩⟩

theorem T8302.accepts : (∃ a, T8302.decode env {} data = .ok (a, cnt)) ↔
    ∃ r, (byte ⨾ shortText env ⨾ fun s r => r = [] ∧ many (byte ⨾ shortText env) s r) data r ∧ cnt = data.length - r.length := by
  refine decodeMin_accepts ?_ (by decide); fits
  intro s r
  show _ ↔ r = [] ∧ many (byte ⨾ shortText env) s r
  rw [Rd.bind_len, ← answers_fit s.length s r (Nat.le_refl _), Rd.bind_iff]
  constructor
  · rintro ⟨a, m, h1, b, h2⟩
    have := (Prod.mk.inj (Res.ok.inj h2)).2
    subst this
    exact ⟨a, h1⟩
  · rintro ⟨a, h1⟩
    exact ⟨a, r, h1, _, rfl⟩

theorem T8303.accepts : (∃ a, T8303.decode env {} data = .ok (a, cnt)) ↔ ∃ r, (byte ⨾ number 1 fun n => repeated n (longText env)) data r ∧ cnt = data.length - r.length := by
  refine decodeMin_accepts ?_ (by decide)
  exact Rd.Fits.seq Rd.Fits.byte fun _ => Rd.Fits.number8 fun n => Rd.Fits.last (Rd.Fits.times (Rd.Fits.str16 env) _)

theorem T8304.accepts : (∃ a, T8304.decode env {} data = .ok (a, cnt)) ↔ ∃ r, (byte ⨾ longText env) data r ∧ cnt = data.length - r.length := by
  refine decodeMin_accepts ?_ (by decide); fits

theorem T8400.accepts : (∃ a, T8400.decode env {} data = .ok (a, cnt)) ↔ ∃ r, (byte ⨾ textToEnd env) data r ∧ cnt = data.length - r.length := by
  refine decodeMin_accepts ?_ (by decide); fits

theorem Contact.fits : Rd.Fits (Contact.decodeItem env) (byte ⨾ shortText env ⨾ shortText env) := by
  unfold Contact.decodeItem; fits

theorem T8401.accepts : (∃ a, T8401.decode env {} data = .ok (a, cnt)) ↔
    ∃ r, (byte ⨾ number 1 fun n => repeated n (byte ⨾ shortText env ⨾ shortText env)) data r ∧ cnt = data.length - r.length := by
  refine decodeMin_accepts ?_ (by decide)
  exact Rd.Fits.seq Rd.Fits.byte fun _ => Rd.Fits.number8 fun n => Rd.Fits.last (Rd.Fits.times Contact.fits _)

theorem attr_bit (a : UInt16) : a &&& 1 = 0 ↔ ¬ a.toNat.testBit 0 = true := by
  rw [Nat.testBit_zero]
  have : (a &&& 1).toNat = a.toNat % 2 := by rw [UInt16.toNat_and]; exact Nat.and_one_is_mod _
  rw [← UInt16.toNat_inj, this]
  simp

theorem areaTail_fits (attr : UInt16) (old : Time × Time × UInt16 × UInt8) : Rd.Fits (decodeAreaTail env attr old) (limits attr.toNat) := by
  unfold decodeAreaTail limits
  by_cases h : attr.toNat.testBit 0 = true
  · rw [if_pos h, if_neg (fun hc => (attr_bit attr).1 hc h)]
    fits
  · rw [if_neg h, if_pos ((attr_bit attr).2 h)]
    exact Rd.Fits.pure _

theorem CircleArea.fits : Rd.Fits (CircleArea.decodeItem env) circle := by
  refine Rd.Fits.seq Rd.Fits.u32 fun _ => Rd.Fits.number16 fun at' => ?_
  refine Rd.Fits.seq Rd.Fits.u32 fun _ => Rd.Fits.seq Rd.Fits.u32 fun _ => ?_
  refine Rd.Fits.skip (getBitUint16_eq at' 6) ?_
  refine Rd.Fits.skip (getBitUint16_eq at' 7) ?_
  exact Rd.Fits.seq Rd.Fits.u32 fun _ => Rd.Fits.last (areaTail_fits _ _)

theorem T8600.accepts : (∃ a, T8600.decode env {} data = .ok (a, cnt)) ↔ ∃ r, atLeast 20 (byte ⨾ number 1 fun n => repeated n circle) data r ∧ cnt = data.length - r.length := by
  refine decodeMin_atLeast ?_
  exact Rd.Fits.seq Rd.Fits.byte fun _ => Rd.Fits.number8 fun n => Rd.Fits.last (Rd.Fits.times CircleArea.fits _)

theorem RectArea.fits : Rd.Fits (RectArea.decodeItem env) rectangle := by
  refine Rd.Fits.seq Rd.Fits.u32 fun _ => Rd.Fits.number16 fun at' => ?_
  refine Rd.Fits.seq Rd.Fits.u32 fun _ => Rd.Fits.seq Rd.Fits.u32 fun _ => Rd.Fits.seq Rd.Fits.u32 fun _ => Rd.Fits.seq Rd.Fits.u32 fun _ => ?_
  refine Rd.Fits.skip (getBitUint16_eq at' 6) ?_
  refine Rd.Fits.skip (getBitUint16_eq at' 7) ?_
  exact Rd.Fits.last (areaTail_fits _ _)

theorem T8602.accepts : (∃ a, T8602.decode env {} data = .ok (a, cnt)) ↔ ∃ r, atLeast 24 (byte ⨾ number 1 fun n => repeated n rectangle) data r ∧ cnt = data.length - r.length := by
  refine decodeMin_atLeast ?_
  exact Rd.Fits.seq Rd.Fits.byte fun _ => Rd.Fits.number8 fun n => Rd.Fits.last (Rd.Fits.times RectArea.fits _)

theorem Vertex.fits (attr : UInt16) : Rd.Fits (Vertex.decodeItem attr) (dword ⨾ dword) := by
  refine Rd.Fits.seq Rd.Fits.u32 fun _ => ?_
  rw [← Rd.seq_nothing dword]
  refine Rd.Fits.seq Rd.Fits.u32 fun _ => ?_
  refine Rd.Fits.skip (getBitUint16_eq attr 6) ?_
  refine Rd.Fits.skip (getBitUint16_eq attr 7) ?_
  exact Rd.Fits.pure _

theorem T8604.accepts : (∃ a, T8604.decode env {} data = .ok (a, cnt)) ↔
    ∃ r, atLeast 16 (dword ⨾ number 2 fun attr => limits attr ⨾ number 2 fun n => repeated n (dword ⨾ dword)) data r ∧ cnt = data.length - r.length := by
  refine decodeMin_atLeast ?_
  refine Rd.Fits.seq Rd.Fits.u32 fun _ => Rd.Fits.number16 fun at' => Rd.Fits.seq (areaTail_fits _ _) fun _ => Rd.Fits.number16 fun n => ?_
  exact Rd.Fits.last (Rd.Fits.times (Vertex.fits _) _)

theorem RoutePoint.fits : Rd.Fits RoutePoint.decodeItem turningPoint := by
  refine Rd.Fits.seq Rd.Fits.u32 fun _ => Rd.Fits.seq Rd.Fits.u32 fun _ => Rd.Fits.seq Rd.Fits.u32 fun _ => Rd.Fits.seq Rd.Fits.u32 fun _ =>
    Rd.Fits.seq Rd.Fits.byte fun _ => Rd.Fits.number8 fun at' => ?_
  refine Rd.Fits.skip (getBitByte_eq at' 2) ?_
  refine Rd.Fits.skip (getBitByte_eq at' 3) ?_
  refine Rd.Fits.skip (getBitByte_eq at' 0) ?_
  dsimp only
  have two : Rd.Fits (do
      let l ← Rd.u16
      let s ← Rd.u16
      pure (some l, some s)) (word ⨾ word) := by fits
  have speed : Rd.Fits (do
      let m ← Rd.u16
      let d ← Rd.byte
      pure (some m, some d)) (word ⨾ byte) := by fits
  by_cases h0 : at'.toNat.testBit 0 = true
  · simp only [h0, if_true]
    refine Rd.Fits.seq two fun _ => ?_
    refine Rd.Fits.skip (getBitByte_eq at' 1) ?_
    by_cases h1 : at'.toNat.testBit 1 = true
    · simp only [h1, if_true]
      exact Rd.Fits.last speed
    · simp only [h1]
      exact Rd.Fits.last (Rd.Fits.pure _)
  · simp only [h0]
    refine Rd.Fits.seq (Rd.Fits.pure _) fun _ => ?_
    refine Rd.Fits.skip (getBitByte_eq at' 1) ?_
    by_cases h1 : at'.toNat.testBit 1 = true
    · simp only [h1, if_true]
      exact Rd.Fits.last speed
    · simp only [h1]
      exact Rd.Fits.last (Rd.Fits.pure _)

theorem T8606.accepts : (∃ a, T8606.decode env {} data = .ok (a, cnt)) ↔
    ∃ r, (dword ⨾ word ⨾ Spec.time ⨾ Spec.time ⨾ number 2 fun n => repeated n turningPoint) data r ∧ cnt = data.length - r.length := by
  refine decodeMin_accepts ?_ (by decide)
  exact Rd.Fits.seq Rd.Fits.u32 fun _ => Rd.Fits.seq Rd.Fits.u16 fun _ => Rd.Fits.seq (Rd.Fits.bcdTime env) fun _ =>
    Rd.Fits.seq (Rd.Fits.bcdTime env) fun _ => Rd.Fits.number16 fun n => Rd.Fits.last (Rd.Fits.times RoutePoint.fits _)

theorem T8700.accepts : (∃ a, T8700.decode {} data = .ok (a, cnt)) ↔ ∃ r, (byte ⨾ anything) data r ∧ cnt = data.length - r.length := by
  refine decodeMin_accepts ?_ (by decide); fits

theorem T8800.accepts : (∃ a, T8800.decode {} data = .ok (a, cnt)) ↔ ∃ r, (dword ⨾ fun s r => (s = [] ∧ r = []) ∨ words s r) data r ∧ cnt = data.length - r.length := by
  have : Drops (fun s r => (s = [] ∧ r = []) ∨ words s r) 0 := ⟨fun s r h => by
    rcases h with ⟨rfl, rfl⟩ | h
    · exact ⟨[], rfl, Nat.zero_le _⟩
    · obtain ⟨f, h1, -⟩ := Drops.drops _ _ h
      exact ⟨f, h1, Nat.zero_le _⟩⟩
  refine decodeMin_accepts ?_ (by decide)
  refine Rd.Fits.seq Rd.Fits.u32 fun i => ?_
  have hw : ∀ {g : List UInt16 → T8800}, Rd.Fits (do let n ← Rd.byte; let is ← Rd.times n.toNat Rd.u16; pure (g is)) words :=
    Rd.Fits.number8 fun n => Rd.Fits.last (Rd.Fits.times Rd.Fits.u16 _)
  intro s r
  rw [Rd.bind_len]
  cases s with
  | nil =>
    constructor
    · rintro ⟨a, h⟩
      exact Or.inl ⟨rfl, (Prod.mk.inj (Res.ok.inj h)).2.symm⟩
    · rintro (⟨-, rfl⟩ | h)
      · exact ⟨_, rfl⟩
      · have := Drops.length h
        simp at this
  | cons b t =>
    rw [if_neg (by simp), hw (b :: t) r]
    simp

theorem T8801.accepts : (∃ a, T8801.decode {} data = .ok (a, cnt)) ↔
    ∃ r, (byte ⨾ word ⨾ word ⨾ byte ⨾ byte ⨾ byte ⨾ byte ⨾ byte ⨾ byte ⨾ byte) data r ∧ cnt = data.length - r.length := by
  refine decodeMin_accepts ?_ (by decide); fits

theorem T8802.accepts : (∃ a, T8802.decode env {} data = .ok (a, cnt)) ↔ ∃ r, (byte ⨾ byte ⨾ byte ⨾ Spec.time ⨾ Spec.time) data r ∧ cnt = data.length - r.length := by
  refine decodeMin_accepts ?_ (by decide); fits

theorem T8803.accepts : (∃ a, T8803.decode env {} data = .ok (a, cnt)) ↔ ∃ r, (byte ⨾ byte ⨾ byte ⨾ Spec.time ⨾ Spec.time ⨾ byte) data r ∧ cnt = data.length - r.length := by
  refine decodeMin_accepts ?_ (by decide); fits

theorem T8804.accepts : (∃ a, T8804.decode {} data = .ok (a, cnt)) ↔ ∃ r, (byte ⨾ word ⨾ byte ⨾ byte) data r ∧ cnt = data.length - r.length := by
  refine decodeMin_accepts ?_ (by decide); fits

theorem T8805.accepts : (∃ a, T8805.decode {} data = .ok (a, cnt)) ↔ ∃ r, (dword ⨾ byte) data r ∧ cnt = data.length - r.length := by
  refine decodeMin_accepts ?_ (by decide); fits

/-! ## All bodies -/

theorem T0801.packet_accepts : (∃ v, T0801.decodePacket env {} data = .ok v) ↔
    ∃ r, (dword ⨾ byte ⨾ byte ⨾ byte ⨾ byte ⨾ place ⨾ anything) data r := by
  have hany : (∃ r, (dword ⨾ byte ⨾ byte ⨾ byte ⨾ byte ⨾ place) data r) ↔
      ∃ r, (dword ⨾ byte ⨾ byte ⨾ byte ⨾ byte ⨾ place ⨾ anything) data r := by
    simp only [← seq_assoc]
    constructor
    · rintro ⟨r, h⟩; exact ⟨[], r, h, rfl, trivial⟩
    · rintro ⟨r, m, h, -⟩; exact ⟨m, h⟩
  have hdec : (∃ w, T0801.decode env {} data = .ok w) ↔ ∃ r, (dword ⨾ byte ⨾ byte ⨾ byte ⨾ byte ⨾ place) data r := by
    constructor
    · rintro ⟨⟨a, n⟩, h⟩
      obtain ⟨r, hr, -⟩ := T0801.accepts.1 ⟨a, h⟩
      exact ⟨r, hr⟩
    · rintro ⟨r, hr⟩
      obtain ⟨a, h⟩ := (T0801.accepts (env := env) (cnt := data.length - r.length)).2 ⟨r, hr, rfl⟩
      exact ⟨_, h⟩
  rw [← hany, ← hdec]
  unfold T0801.decodePacket
  constructor
  · rintro ⟨v, hv⟩
    cases hd : T0801.decode env {} data with
    | ok w => exact ⟨w, rfl⟩
    | err e => rw [hd] at hv; cases hv
    | panic => rw [hd] at hv; cases hv
  · rintro ⟨w, hw⟩
    have hn : w.2 ≤ data.length := by
      unfold T0801.decode decodeMin runDecode at hw
      split at hw
      · cases hw
      · split at hw
        · cases hw; exact Nat.sub_le _ _
        · cases hw
        · cases hw
    rw [hw]
    refine ⟨{ w.1 with packet := some (data.drop w.2) }, ?_⟩
    show (do
      let p ← slice data w.2 data.length
      Res.ok { w.1 with packet := some p }) = _
    rw [slice_to_end _ _ hn]
    rfl

theorem bodyShape_none {id : UInt16} (h : Entity.create id = none) : bodyShape env id = fun _ _ => False := by
  unfold bodyShape
  split
  all_goals first
    | rfl
    | (rename_i hid
       have : id = UInt16.ofNat id.toNat := by simp
       rw [hid] at this
       subst this
       cases h)

theorem wrapDec_iff {α : Type} {mk : α → Entity} {x : Res (α × Nat)} : (∃ e, Entity.wrapDec mk x = .ok (e, cnt)) ↔ ∃ a, x = .ok (a, cnt) := by
  unfold Entity.wrapDec
  cases x with
  | ok v =>
    constructor
    · rintro ⟨e, h⟩
      exact ⟨v.1, by rw [← (Prod.mk.inj (Res.ok.inj h)).2]⟩
    · rintro ⟨a, h⟩
      cases h
      exact ⟨_, rfl⟩
  | err x => exact ⟨fun ⟨_, h⟩ => (nomatch h), fun ⟨_, h⟩ => (nomatch h)⟩
  | panic => exact ⟨fun ⟨_, h⟩ => (nomatch h), fun ⟨_, h⟩ => (nomatch h)⟩

theorem packet_iff {x : Res T0801} {n : Nat} : (∃ e : Entity, (match x with
    | .ok b' => Res.ok (Entity.m0801 b', n)
    | .err x => Res.err x
    | .panic => Res.panic) = .ok (e, cnt)) ↔ (∃ v, x = .ok v) ∧ cnt = n := by
  cases x with
  | ok w =>
    constructor
    · rintro ⟨e, h⟩
      exact ⟨⟨_, rfl⟩, (Prod.mk.inj (Res.ok.inj h)).2.symm⟩
    · rintro ⟨-, rfl⟩
      exact ⟨_, rfl⟩
  | err x => exact ⟨fun ⟨_, h⟩ => (nomatch h), fun ⟨⟨_, h⟩, _⟩ => (nomatch h)⟩
  | panic => exact ⟨fun ⟨_, h⟩ => (nomatch h), fun ⟨⟨_, h⟩, _⟩ => (nomatch h)⟩

theorem nothing_counts (x : Entity) : (∃ e, Res.ok (x, 0) = .ok (e, cnt)) ↔ ∃ r, nothing data r ∧ cnt = data.length - r.length := by
  constructor
  · rintro ⟨e, h⟩
    cases h
    exact ⟨data, rfl, by omega⟩
  · rintro ⟨r, rfl, rfl⟩
    exact ⟨x, by rw [Nat.sub_self]⟩

/-- What follows the place in a multimedia upload is the packet, to the end. -/
theorem T0801.packet_counts : ((∃ v, T0801.decodePacket env {} data = .ok v) ∧ cnt = data.length) ↔
    ∃ r, (dword ⨾ byte ⨾ byte ⨾ byte ⨾ byte ⨾ place ⨾ anything) data r ∧ cnt = data.length - r.length := by
  rw [T0801.packet_accepts]
  have hr : ∀ r, (dword ⨾ byte ⨾ byte ⨾ byte ⨾ byte ⨾ place ⨾ anything) data r → r = [] := by
    rintro r ⟨_, -, _, -, _, -, _, -, _, -, _, -, rfl, -⟩
    rfl
  constructor
  · rintro ⟨⟨r, h⟩, rfl⟩
    have := hr r h
    subst this
    exact ⟨[], h, rfl⟩
  · rintro ⟨r, h, rfl⟩
    have := hr r h
    subst this
    exact ⟨⟨[], h⟩, rfl⟩

open Entity in
/-- What is accepted as a body, and the count reported. -/
theorem decodeBody_counts {id : UInt16} : (∃ e, decodeBody env id data = .ok (e, cnt)) ↔
    ∃ r, bodyShape env id data r ∧ cnt = reportedCount id (data.length - r.length) := by
  cases hc : create id with
  | none =>
    rw [bodyShape_none hc]
    unfold decodeBody
    rw [hc]
    simp
  | some e =>
    have hd : decodeBody env id data = match (generalizing := false) e with
      | m0801 b =>
        match T0801.decodePacket env b data with
        | .ok b' => .ok (m0801 b', data.length)
        | .err x => .err x
        | .panic => .panic
      | e => decode env e data := by unfold decodeBody; rw [hc]; cases e <;> rfl
    rw [hd]
    unfold create at hc
    repeat (
      rcases ite_some hc with ⟨rfl, rfl⟩ | hc
      · first
        | exact nothing_counts _
        | (refine wrapDec_iff.trans ?_
           first
            | exact T0001.accepts | exact TEmpty.accepts | exact T0100.accepts | exact T0102.accepts | exact T0104.accepts
            | exact T0107.accepts | exact T0108.accepts | exact counts_const (T0200.accepts {}) (fun _ _ => T0200.counts)
            | exact counts_const T0201.accepts (fun _ _ => T0201.counts) | exact T0301.accepts
            | exact T0302.accepts | exact T0303.accepts | exact T0700.accepts | exact T0701.accepts | exact T0702.accepts
            | exact T0704.accepts | exact T0705.accepts | exact T0800.accepts | exact T0802.accepts | exact T0805.accepts
            | exact T0900.accepts | exact T0901.accepts | exact T0A00.accepts | exact T8001.accepts | exact T8003.accepts
            | exact T8100.accepts | exact T8103.accepts | exact TByteText.accepts | exact TIDs.accepts | exact T8607.accepts
            | exact T8108.accepts | exact T8202.accepts | exact T8203.accepts | exact T8301.accepts | exact T8302.accepts
            | exact T8303.accepts | exact T8304.accepts | exact T8400.accepts | exact T8401.accepts | exact T8500.accepts
            | exact T8600.accepts | exact T8602.accepts | exact T8604.accepts | exact T8606.accepts | exact T8700.accepts
            | exact T8800.accepts | exact T8801.accepts | exact T8802.accepts | exact T8803.accepts | exact T8804.accepts
            | exact T8805.accepts)
        | exact packet_iff.trans T0801.packet_counts)
    cases hc

theorem decodeBody_accepts {id : UInt16} : (∃ v, Entity.decodeBody env id data = .ok v) ↔ Accepts env id data := by
  constructor
  · rintro ⟨⟨e, n⟩, h⟩
    obtain ⟨r, hr, -⟩ := decodeBody_counts.1 ⟨e, h⟩
    exact ⟨r, hr⟩
  · rintro ⟨r, hr⟩
    obtain ⟨e, h⟩ := decodeBody_counts.2 ⟨r, hr, rfl⟩
    exact ⟨_, h⟩

end
end Verif
