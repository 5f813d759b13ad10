import Verif.Lemmas.Safe
import Verif.Lemmas.BcdTime
import Verif.Lemmas.Extras
import Verif.Spec.Accepts
/-! # Reader programs and the shapes they accept -/

namespace Verif

open Spec

/-! ## Shapes -/

namespace Spec

/-- What the shape leaves is the end of what it was given, at least `k` bytes shorter. -/
class Drops (sh : Shape) (k : outParam Nat) : Prop where
  drops : ∀ s r, sh s r → ∃ f, s = f ++ r ∧ k ≤ f.length

instance : Drops nothing 0 := ⟨fun s r h => ⟨[], by rw [h]; rfl, Nat.zero_le _⟩⟩

instance (n : Nat) (ok : Bytes → Prop) : Drops (field n ok) n := ⟨fun s r ⟨f, h1, h2, _⟩ => ⟨f, h1, by omega⟩⟩

instance (n : Nat) : Drops (bytes n) n := ⟨fun s r ⟨f, h1, h2, _⟩ => ⟨f, h1, by omega⟩⟩

instance : Drops byte 1 := (inferInstance : Drops (bytes 1) 1)
instance : Drops word 2 := (inferInstance : Drops (bytes 2) 2)
instance : Drops dword 4 := (inferInstance : Drops (bytes 4) 4)

instance {a b : Shape} {i j : Nat} [ha : Drops a i] [hb : Drops b j] : Drops (a ⨾ b) (i + j) := ⟨by
  rintro s r ⟨m, h1, h2⟩
  obtain ⟨f, rfl, hf⟩ := ha.drops _ _ h1
  obtain ⟨g, rfl, hg⟩ := hb.drops _ _ h2
  exact ⟨f ++ g, by simp, by simp; omega⟩⟩

instance {k j : Nat} {next : Nat → Shape} [hb : ∀ n, Drops (next n) j] : Drops (number k next) (k + j) := ⟨by
  rintro s r ⟨f, m, rfl, hf, h2⟩
  obtain ⟨g, rfl, hg⟩ := (hb _).drops _ _ h2
  exact ⟨f ++ g, by simp, by simp; omega⟩⟩

theorem repeated_drops {sh : Shape} {k : Nat} [hs : Drops sh k] (n : Nat) : ∀ s r, repeated n sh s r → ∃ f, s = f ++ r ∧ n * k ≤ f.length := by
  induction n with
  | zero => intro s r h; exact ⟨[], by rw [show r = s from h]; rfl, by simp⟩
  | succ n ih =>
    rintro s r ⟨m, h1, h2⟩
    obtain ⟨f, rfl, hf⟩ := hs.drops _ _ h1
    obtain ⟨g, rfl, hg⟩ := ih _ _ h2
    exact ⟨f ++ g, by simp, by simp [Nat.succ_mul]; omega⟩

instance {sh : Shape} {k : Nat} [Drops sh k] (n : Nat) : Drops (repeated n sh) 0 := ⟨fun s r h => by
  obtain ⟨f, h1, -⟩ := repeated_drops n s r h
  exact ⟨f, h1, Nat.zero_le _⟩⟩

instance (ok : Bytes → Prop) : Drops (toEnd ok) 0 := ⟨fun s r h => ⟨s, by rw [h.1]; simp, Nat.zero_le _⟩⟩

instance : Drops anything 0 := (inferInstance : Drops (toEnd _) 0)

instance {p : Prop} [Decidable p] {a b : Shape} {i j : Nat} [ha : Drops a i] [hb : Drops b j] : Drops (if p then a else b) 0 := ⟨by
  intro s r h
  split at h
  · obtain ⟨f, h1, _⟩ := ha.drops _ _ h; exact ⟨f, h1, Nat.zero_le _⟩
  · obtain ⟨f, h1, _⟩ := hb.drops _ _ h; exact ⟨f, h1, Nat.zero_le _⟩⟩

instance : Drops time 6 := (inferInstance : Drops (field 6 _) 6)
instance : Drops date 4 := (inferInstance : Drops (field 4 _) 4)
instance (env : Env) (n : Nat) : Drops (textOf env n) 0 := ⟨fun s r ⟨f, h1, _⟩ => ⟨f, h1, Nat.zero_le _⟩⟩
instance (env : Env) : Drops (shortText env) 1 := (inferInstance : Drops (number 1 (textOf env)) 1)
instance (env : Env) : Drops (longText env) 2 := (inferInstance : Drops (number 2 (textOf env)) 2)
instance (env : Env) : Drops (textIfAny env) 0 := (inferInstance : Drops (toEnd _) 0)
instance (env : Env) : Drops (textToEnd env) 0 := (inferInstance : Drops (toEnd _) 0)
instance : Drops place 28 := (inferInstance : Drops (dword ⨾ dword ⨾ dword ⨾ dword ⨾ word ⨾ word ⨾ word ⨾ time) 28)
instance (n : Nat) (sh : Shape) : Drops (inside n sh) n := (inferInstance : Drops (field n _) n)

/-- The number in front of `bytes` may be anything. -/
instance (k : Nat) : Drops (number k bytes) k := ⟨by
  rintro s r ⟨f, m, rfl, hf, g, rfl, hg, -⟩
  exact ⟨f ++ g, by simp, by simp; omega⟩⟩

instance : Drops parameter 5 := (inferInstance : Drops (dword ⨾ number 1 bytes) 5)
instance (n : Nat) : Drops (limits n) 0 := by unfold limits; infer_instance
instance : Drops circle 18 := (inferInstance : Drops (dword ⨾ number 2 fun attr => dword ⨾ dword ⨾ dword ⨾ limits attr) 18)
instance : Drops rectangle 22 := (inferInstance : Drops (dword ⨾ number 2 fun attr => dword ⨾ dword ⨾ dword ⨾ dword ⨾ limits attr) 22)
instance : Drops turningPoint 18 := (inferInstance : Drops (dword ⨾ dword ⨾ dword ⨾ dword ⨾ byte ⨾ number 1 fun attr =>
  (if attr.testBit 0 then word ⨾ word else nothing) ⨾ (if attr.testBit 1 then word ⨾ byte else nothing)) 18)
instance : Drops dwords 1 := (inferInstance : Drops (number 1 fun n => repeated n dword) 1)
instance : Drops words 1 := (inferInstance : Drops (number 1 fun n => repeated n word) 1)

/-- The longer bound. -/
theorem Drops.length {sh : Shape} {k : Nat} [h : Drops sh k] {s r : Bytes} (hs : sh s r) : r.length + k ≤ s.length := by
  obtain ⟨f, rfl, hf⟩ := h.drops _ _ hs
  simp; omega

/-- Whether a shape fits does not depend on what follows it. -/
def Local (sh : Shape) : Prop := ∀ s r, sh s r ↔ ∃ f, s = f ++ r ∧ sh f []

theorem Local.field (n : Nat) (ok : Bytes → Prop) : Local (field n ok) := by
  intro s r
  constructor
  · rintro ⟨f, rfl, h⟩; exact ⟨f, rfl, f, by simp, h⟩
  · rintro ⟨f, rfl, g, hg, h⟩
    rw [List.append_nil] at hg
    subst hg
    exact ⟨f, rfl, h⟩

theorem Local.seq {a b : Shape} (ha : Local a) (hb : Local b) : Local (a ⨾ b) := by
  intro s r
  constructor
  · rintro ⟨m, h1, h2⟩
    obtain ⟨f, rfl, hf⟩ := (ha _ _).1 h1
    obtain ⟨g, rfl, hg⟩ := (hb _ _).1 h2
    exact ⟨f ++ g, by simp, g, (ha _ _).2 ⟨f, rfl, hf⟩, hg⟩
  · rintro ⟨e, rfl, m, h1, h2⟩
    obtain ⟨f, rfl, hf⟩ := (ha _ _).1 h1
    exact ⟨m ++ r, (ha _ _).2 ⟨f, by simp, hf⟩, (hb _ _).2 ⟨m, rfl, h2⟩⟩

theorem Local.bytes (n : Nat) : Local (bytes n) := Local.field n _

theorem place_local : Local place :=
  (Local.bytes 4).seq ((Local.bytes 4).seq ((Local.bytes 4).seq ((Local.bytes 4).seq ((Local.bytes 2).seq ((Local.bytes 2).seq
    ((Local.bytes 2).seq (Local.field 6 _)))))))

theorem place_length {s r : Bytes} (h : place s r) : s.length = 28 + r.length := by
  obtain ⟨_, ⟨f1, rfl, h1, -⟩, _, ⟨f2, rfl, h2, -⟩, _, ⟨f3, rfl, h3, -⟩, _, ⟨f4, rfl, h4, -⟩, _, ⟨f5, rfl, h5, -⟩, _, ⟨f6, rfl, h6, -⟩, _,
    ⟨f7, rfl, h7, -⟩, f8, rfl, h8, -⟩ := h
  simp only [List.length_append]
  omega

end Spec

/-! ## Reader programs -/

namespace Rd
variable {α β γ : Type}

/-- The program succeeds exactly on the bytes that begin with the shape, and leaves what the shape leaves. -/
def Fits (x : Rd α) (sh : Shape) : Prop := ∀ s r, (∃ a, x s = .ok (a, r)) ↔ sh s r

theorem bind_iff {x : Rd α} {f : α → Rd β} {s r : Bytes} :
    (∃ b, (x >>= f) s = .ok (b, r)) ↔ ∃ a m, x s = .ok (a, m) ∧ ∃ b, f a m = .ok (b, r) := by
  constructor
  · rintro ⟨b, h⟩
    rw [bind_apply] at h
    cases hx : x s with
    | ok p => rw [hx] at h; exact ⟨p.1, p.2, rfl, b, h⟩
    | err e => rw [hx] at h; cases h
    | panic => rw [hx] at h; cases h
  · rintro ⟨a, m, hx, b, hb⟩
    exact ⟨b, by rw [bind_apply, hx]; exact hb⟩

theorem Fits.seq {x : Rd α} {f : α → Rd β} {a b : Shape} (hx : Fits x a) (hf : ∀ v, Fits (f v) b) : Fits (x >>= f) (a ⨾ b) := by
  intro s r
  rw [bind_iff]
  constructor
  · rintro ⟨v, m, h1, h2⟩
    exact ⟨m, (hx s m).1 ⟨v, h1⟩, (hf v m r).1 h2⟩
  · rintro ⟨m, h1, h2⟩
    obtain ⟨v, hv⟩ := (hx s m).2 h1
    exact ⟨v, m, hv, (hf v m r).2 h2⟩

theorem Fits.pure (a : α) : Fits (Pure.pure a : Rd α) nothing := by
  intro s r
  simp only [pure_apply, Res.ok.injEq, Prod.mk.injEq, nothing]
  exact ⟨fun ⟨_, _, h⟩ => h.symm, fun h => ⟨a, rfl, h.symm⟩⟩

theorem seq_nothing (sh : Shape) : (sh ⨾ nothing) = sh := by
  funext s r
  simp only [Spec.seq, nothing, eq_iff_iff]
  exact ⟨fun ⟨m, h1, h2⟩ => h2 ▸ h1, fun h => ⟨r, h, rfl⟩⟩

theorem Fits.last {x : Rd α} {g : α → β} {sh : Shape} (hx : Fits x sh) : Fits (x >>= fun v => Pure.pure (g v)) sh := by
  have := Fits.seq (f := fun v => Pure.pure (g v)) hx (fun v => Fits.pure (g v))
  rwa [seq_nothing] at this

/-- A computation that cannot fail. -/
theorem Fits.skip {v : Res α} {w : α} {f : α → Rd β} {sh : Shape} (h : v = .ok w) (hf : Fits (f w) sh) : Fits (lift v >>= f) sh := by
  subst h; exact hf

theorem Fits.byte : Fits byte Spec.byte := by
  intro s r
  constructor
  · rintro ⟨a, h⟩
    unfold Rd.byte at h
    split at h
    · cases h
    · simp only [Res.ok.injEq, Prod.mk.injEq] at h
      obtain ⟨rfl, rfl⟩ := h
      exact ⟨[_], rfl, rfl, trivial⟩
  · rintro ⟨f, rfl, hf, -⟩
    match f, hf with
    | [a], _ => exact ⟨a, rfl⟩

theorem Fits.u16 : Fits u16 word := by
  intro s r
  constructor
  · rintro ⟨a, h⟩
    unfold Rd.u16 at h
    split at h
    · simp only [Res.ok.injEq, Prod.mk.injEq] at h
      obtain ⟨rfl, rfl⟩ := h
      exact ⟨[_, _], rfl, rfl, trivial⟩
    · cases h
  · rintro ⟨f, rfl, hf, -⟩
    match f, hf with
    | [a, b], _ => exact ⟨_, rfl⟩

theorem Fits.u32 : Fits u32 dword := by
  intro s r
  constructor
  · rintro ⟨a, h⟩
    unfold Rd.u32 at h
    split at h
    · simp only [Res.ok.injEq, Prod.mk.injEq] at h
      obtain ⟨rfl, rfl⟩ := h
      exact ⟨[_, _, _, _], rfl, rfl, trivial⟩
    · cases h
  · rintro ⟨f, rfl, hf, -⟩
    match f, hf with
    | [a, b, c, d], _ => exact ⟨_, rfl⟩

theorem read_iff {n : Nat} {s d r : Bytes} : read n s = .ok (d, r) ↔ s = d ++ r ∧ d.length = n := by
  unfold Rd.read
  split
  · rename_i h
    simp only [reduceCtorEq, false_iff, not_and]
    rintro rfl
    simp at h
    omega
  · rename_i h
    simp only [Res.ok.injEq, Prod.mk.injEq]
    constructor
    · rintro ⟨rfl, rfl⟩
      exact ⟨by simp, by simp; omega⟩
    · rintro ⟨rfl, rfl⟩
      simp

theorem Fits.read (n : Nat) : Fits (read n) (bytes n) := by
  intro s r
  constructor
  · rintro ⟨d, h⟩
    obtain ⟨h1, h2⟩ := read_iff.1 h
    exact ⟨d, h1, h2, trivial⟩
  · rintro ⟨f, h1, h2, -⟩
    exact ⟨f, read_iff.2 ⟨h1, h2⟩⟩

/-- Bytes that are checked after being read. -/
theorem Fits.checked {n : Nat} {g : Bytes → Res α} {ok : Bytes → Prop} {f : Bytes → α → Rd β} {sh : Shape}
    (hg : ∀ d, d.length = n → ((∃ v, g d = .ok v) ↔ ok d)) (hf : ∀ d v, Fits (f d v) sh) :
    Fits (Rd.read n >>= fun d => lift (g d) >>= f d) (field n ok ⨾ sh) := by
  intro s r
  rw [bind_iff]
  constructor
  · rintro ⟨d, m, h1, h2⟩
    obtain ⟨e1, e2⟩ := read_iff.1 h1
    rw [bind_iff] at h2
    obtain ⟨v, m', h3, h4⟩ := h2
    unfold lift at h3
    split at h3
    · rename_i a ha
      simp only [Res.ok.injEq, Prod.mk.injEq] at h3
      obtain ⟨rfl, rfl⟩ := h3
      exact ⟨m, ⟨d, e1, e2, (hg d e2).1 ⟨_, ha⟩⟩, (hf _ _ _ _).1 h4⟩
    · cases h3
    · cases h3
  · rintro ⟨m, ⟨d, e1, e2, h⟩, h2⟩
    obtain ⟨v, hv⟩ := (hg d e2).2 h
    refine ⟨d, m, read_iff.2 ⟨e1, e2⟩, ?_⟩
    rw [hv]
    exact (hf d v m r).2 h2

theorem Fits.checkedLast {n : Nat} {g : Bytes → Res α} {ok : Bytes → Prop} {f : Bytes → α → β}
    (hg : ∀ d, d.length = n → ((∃ v, g d = .ok v) ↔ ok d)) :
    Fits (Rd.read n >>= fun d => lift (g d) >>= fun v => Pure.pure (f d v)) (field n ok) := by
  have := Fits.checked (f := fun d v => Pure.pure (f d v)) hg (fun d v => Fits.pure (f d v))
  rwa [seq_nothing] at this

theorem Fits.lift_read {n : Nat} {g : Bytes → Res α} {ok : Bytes → Prop} (hg : ∀ d, d.length = n → ((∃ v, g d = .ok v) ↔ ok d)) :
    Fits (Rd.bind (Rd.read n) fun d => lift (g d)) (field n ok) := by
  have := Fits.checkedLast (f := fun _ v => v) hg
  intro s r
  rw [← this s r]
  have e : ∀ v : Res α, (lift v >>= fun x => (Pure.pure x : Rd α)) = lift v := by
    intro v; funext t; cases v <;> rfl
  simp only [e]
  rfl

theorem decodeStr_ok {env : Env} {d : Bytes} : (∃ v, decodeStr env d = .ok v) ↔ (env.gbDec d).isSome := by
  unfold decodeStr
  cases env.gbDec d <;> simp

theorem Fits.str (env : Env) (n : Nat) : Fits (str env n) (textOf env n) :=
  Fits.lift_read fun _ _ => decodeStr_ok

theorem Fits.rest : Fits rest anything := by
  intro s r
  simp only [Rd.rest, Res.ok.injEq, Prod.mk.injEq, anything, toEnd, and_true]
  exact ⟨fun ⟨_, _, h⟩ => h.symm, fun h => ⟨s, rfl, h.symm⟩⟩

theorem Fits.strRest (env : Env) : Fits (strRest env) (textToEnd env) := by
  intro s r
  have : (∃ a, Rd.strRest env s = .ok (a, r)) ↔ r = [] ∧ ∃ v, decodeStr env s = .ok v := by
    show (∃ a, Rd.lift (decodeStr env s) [] = .ok (a, r)) ↔ _
    unfold Rd.lift
    cases decodeStr env s with
    | ok v =>
      simp only [Res.ok.injEq, Prod.mk.injEq]
      exact ⟨fun ⟨_, _, h⟩ => ⟨h.symm, v, rfl⟩, fun ⟨h, _⟩ => ⟨v, rfl, h.symm⟩⟩
    | err e => simp
    | panic => simp
  rw [this, decodeStr_ok]
  rfl

theorem Fits.strIfMore (env : Env) (old : Bytes) : Fits (strIfMore env old) (textIfAny env) := by
  intro s r
  unfold Rd.strIfMore
  rw [bind_len]
  cases s with
  | nil =>
    simp only [textIfAny, toEnd, true_or, and_true]
    exact ⟨fun ⟨_, h⟩ => (Prod.mk.inj (Res.ok.inj h)).2.symm, fun h => ⟨old, by rw [h]; rfl⟩⟩
  | cons b t =>
    rw [if_pos (by simp)]
    rw [Fits.strRest env (b :: t) r]
    simp [textToEnd, textIfAny, toEnd]

theorem valueOf_one (a : UInt8) : valueOf [a] = a.toNat := by simp [valueOf]

theorem valueOf_two (a b : UInt8) : valueOf [a, b] = (get16 a b).toNat := by
  have := a.toNat_lt
  have := b.toNat_lt
  simp only [valueOf, List.foldl_cons, List.foldl_nil, get16, UInt16.toNat_ofNat']
  omega

theorem valueOf_four (a b c d : UInt8) : valueOf [a, b, c, d] = (get32 a b c d).toNat := by
  have := a.toNat_lt
  have := b.toNat_lt
  have := c.toNat_lt
  have := d.toNat_lt
  simp only [valueOf, List.foldl_cons, List.foldl_nil, get32, UInt32.toNat_ofNat']
  omega

theorem Fits.number8 {f : UInt8 → Rd β} {next : Nat → Shape} (hf : ∀ v, Fits (f v) (next v.toNat)) : Fits (Rd.byte >>= f) (number 1 next) := by
  intro s r
  constructor
  · rw [bind_iff]
    rintro ⟨a, m, h1, h2⟩
    unfold Rd.byte at h1
    split at h1
    · cases h1
    · simp only [Res.ok.injEq, Prod.mk.injEq] at h1
      obtain ⟨rfl, rfl⟩ := h1
      exact ⟨[_], _, rfl, rfl, by rw [valueOf_one]; exact (hf _ _ r).1 h2⟩
  · rintro ⟨g, m, rfl, hg, h⟩
    match g, hg with
    | [a], _ =>
      rw [valueOf_one] at h
      exact (hf a m r).2 h

theorem Fits.number16 {f : UInt16 → Rd β} {next : Nat → Shape} (hf : ∀ v, Fits (f v) (next v.toNat)) : Fits (Rd.u16 >>= f) (number 2 next) := by
  intro s r
  constructor
  · rw [bind_iff]
    rintro ⟨a, m, h1, h2⟩
    unfold Rd.u16 at h1
    split at h1
    · simp only [Res.ok.injEq, Prod.mk.injEq] at h1
      obtain ⟨rfl, rfl⟩ := h1
      exact ⟨[_, _], _, rfl, rfl, by rw [valueOf_two]; exact (hf _ _ r).1 h2⟩
    · cases h1
  · rintro ⟨g, m, rfl, hg, h⟩
    match g, hg with
    | [a, b], _ =>
      rw [valueOf_two] at h
      exact (hf _ m r).2 h

theorem Fits.number32 {f : UInt32 → Rd β} {next : Nat → Shape} (hf : ∀ v, Fits (f v) (next v.toNat)) : Fits (Rd.u32 >>= f) (number 4 next) := by
  intro s r
  constructor
  · rw [bind_iff]
    rintro ⟨a, m, h1, h2⟩
    unfold Rd.u32 at h1
    split at h1
    · simp only [Res.ok.injEq, Prod.mk.injEq] at h1
      obtain ⟨rfl, rfl⟩ := h1
      exact ⟨[_, _, _, _], _, rfl, rfl, by rw [valueOf_four]; exact (hf _ _ r).1 h2⟩
    · cases h1
  · rintro ⟨g, m, rfl, hg, h⟩
    match g, hg with
    | [a, b, c, d], _ =>
      rw [valueOf_four] at h
      exact (hf _ m r).2 h

/-- A number that decides only about the next field. -/
theorem number_seq (k : Nat) (next : Nat → Shape) (sh : Shape) : (number k next ⨾ sh) = number k fun n => next n ⨾ sh := by
  funext s r
  simp only [Spec.seq, number, eq_iff_iff]
  constructor
  · rintro ⟨m, ⟨f, t, h1, h2, h3⟩, h4⟩
    exact ⟨f, t, h1, h2, m, h3, h4⟩
  · rintro ⟨f, t, h1, h2, m, h3, h4⟩
    exact ⟨m, ⟨f, t, h1, h2, h3⟩, h4⟩

theorem Fits.str8 (env : Env) : Fits (str8 env) (shortText env) := Fits.number8 fun _ => Fits.str env _

theorem Fits.str16 (env : Env) : Fits (str16 env) (longText env) := Fits.number16 fun _ => Fits.str env _

theorem Fits.times {x : Rd α} {sh : Shape} (hx : Fits x sh) (n : Nat) : Fits (times n x) (repeated n sh) := by
  induction n with
  | zero => exact Fits.pure []
  | succ n ih => exact Fits.seq hx fun _ => Fits.last (x := Rd.times n x) ih

theorem Fits.ite {p : Prop} [Decidable p] {x y : Rd α} {a b : Shape} (hx : Fits x a) (hy : Fits y b) :
    Fits (if p then x else y) (if p then a else b) := by
  split <;> assumption

theorem Fits.congr {x : Rd α} {a b : Shape} (h : Fits x a) (e : a = b) : Fits x b := e ▸ h

end Rd

/-! ## Times -/

theorem monthLength_daysIn (y m : Nat) : daysIn m (y : Int) = monthLength y m := by
  have h : isLeap (y : Int) = decide (leapYear y) := by
    rw [Bool.eq_iff_iff, decide_eq_true_iff]
    unfold isLeap leapYear
    simp only [Bool.and_eq_true, Bool.or_eq_true, decide_eq_true_eq, ne_eq, decide_not, Bool.not_eq_true', decide_eq_false_iff_not]
    omega
  unfold daysIn monthLength
  rw [h]
  simp

theorem bcdByte_packTwo {n : Nat} (h : n < 100) : bcdByte n = packTwo n := by
  unfold bcdByte packTwo
  congr 1
  omega

theorem fromBCDTime_isTime {tz : Int} {b : Bytes} : (∃ t, fromBCDTime tz b = .ok t) ↔ IsTime b := by
  constructor
  · rintro ⟨t, h⟩
    obtain ⟨yl, mo, d, ho, mi, s, rfl, g1, g2, ⟨v1, v2, v3, v4⟩, w1, w2, w3, -⟩ := fromBCDTime_groups h
    rw [monthLength_daysIn] at v4
    have h31 : monthLength (20 * 100 + yl) mo ≤ 31 := by unfold monthLength; split; (split <;> omega); (split <;> omega)
    refine ⟨yl, mo, d, ho, mi, s, ?_, g1, by omega, v1, v2, v3, v4, w1, w2, w3⟩
    simp only [List.map_cons, List.map_nil]
    rw [bcdByte_packTwo, bcdByte_packTwo, bcdByte_packTwo, bcdByte_packTwo, bcdByte_packTwo, bcdByte_packTwo] <;> omega
  · rintro ⟨y, mo, d, h, mi, s, rfl, g1, g2, v1, v2, v3, v4, w1, w2, w3⟩
    have h31 : monthLength (2000 + y) mo ≤ 31 := by unfold monthLength; split; (split <;> omega); (split <;> omega)
    refine ⟨instantOf tz ⟨((20 * 100 + y : Nat) : Int), mo, d, h, mi, s⟩, ?_⟩
    · rw [bcdByte_packTwo (n := y) (by omega), bcdByte_packTwo (n := mo) (by omega), bcdByte_packTwo (n := d) (by omega),
        bcdByte_packTwo (n := h) (by omega), bcdByte_packTwo (n := mi) (by omega), bcdByte_packTwo (n := s) (by omega)]
      unfold fromBCDTime
      rw [if_neg (by simp)]
      have e := bcdToString_groups y [mo, d, h, mi, s] g1 (by
        simp only [List.mem_cons, List.not_mem_nil, or_false, forall_eq_or_imp, forall_eq]; omega) false
      simp only [List.map_cons, List.map_nil] at e
      rw [e]
      have := parse14_groups tz 20 y mo d h mi s (by omega) (by omega) ⟨v1, v2⟩ ⟨v3, by rw [monthLength_daysIn]; exact v4⟩ w1 w2 w3
      rw [List.flatMap_cons, show pad2 20 = [50, 48] by decide] at this
      exact this

theorem Rd.Fits.bcdTime (env : Env) : Rd.Fits (Rd.bcdTime env) time := by
  intro s r
  unfold Rd.bcdTime
  by_cases hl : s.length < 6
  · rw [if_pos hl]
    simp only [reduceCtorEq, exists_false, false_iff]
    rintro ⟨f, rfl, hf, -⟩
    simp at hl; omega
  · rw [if_neg hl]
    have key : (∃ t, fromBCDTime env.tz (s.take 6) = .ok t) ↔ IsTime (s.take 6) := fromBCDTime_isTime
    constructor
    · rintro ⟨a, h⟩
      split at h
      · rename_i t ht
        simp only [Res.ok.injEq, Prod.mk.injEq] at h
        refine ⟨s.take 6, by rw [← h.2]; simp, by simp; omega, key.1 ⟨t, ht⟩⟩
      · cases h
      · cases h
    · rintro ⟨f, rfl, hf, ht⟩
      have e1 : (f ++ r).take 6 = f := by rw [← hf]; simp
      have e2 : (f ++ r).drop 6 = r := by rw [← hf]; simp
      rw [e1] at key ⊢
      obtain ⟨t, h⟩ := key.2 ht
      rw [h, e2]
      exact ⟨t, rfl⟩

theorem parseDate_isDate {tz : Int} {b : Bytes} (hb : b.length = 4) :
    (∃ t, parse14 tz (bcdToString b ++ [48, 48, 48, 48, 48, 48]) = .ok t) ↔ IsDate b := by
  constructor
  · rintro ⟨t, h⟩
    have hp : (bcdToString b ++ [48, 48, 48, 48, 48, 48]).length = 14 ∧ (bcdToString b ++ [48, 48, 48, 48, 48, 48]).all isDigit = true := by
      have h' := h
      unfold parse14 at h'
      split at h'
      · cases h'
      · rename_i hc
        simpa using hc
    obtain ⟨hp1, hp2⟩ := hp
    match b, hb with
    | [b0, b1, b2, b3], _ =>
      obtain ⟨e1, e2⟩ := bcdToString_full (b := b0) (bs := [b1, b2, b3]) (by simp at hp1 ⊢; omega)
      rw [e1, List.all_append, List.all_flatMap] at hp2
      simp only [List.all_cons, List.all_nil, Bool.and_true, Bool.and_eq_true] at hp2
      obtain ⟨⟨d0, d1, d2, d3⟩, -⟩ := hp2
      obtain ⟨n0, l0, rfl, g0⟩ := packTwo_of_digits d0
      obtain ⟨n1, l1, rfl, -⟩ := packTwo_of_digits d1
      obtain ⟨n2, l2, rfl, -⟩ := packTwo_of_digits d2
      obtain ⟨n3, l3, rfl, -⟩ := packTwo_of_digits d3
      have hs : bcdToString [packTwo n0, packTwo n1, packTwo n2, packTwo n3] ++ ([48, 48, 48, 48, 48, 48] : Bytes) =
          [n0, n1, n2, n3, 0, 0, 0].flatMap pad2 := by
        rw [e1]
        have := unpack_groups [n0, n1, n2, n3] (by simp [l0, l1, l2, l3])
        simp only [List.map_cons, List.map_nil] at this
        rw [this]
        simp [pad2, digit]
      rw [hs] at h
      obtain ⟨⟨v1, v2, v3, v4⟩, -⟩ := parse14_groups_valid (by simp [l0, l1, l2, l3]) h
      rw [monthLength_daysIn, Nat.mul_comm] at v4
      refine ⟨n0, n1, n2, n3, ?_, g0 e2, by omega, by omega, v1, v2, v3, v4⟩
      rw [bcdByte_packTwo, bcdByte_packTwo, bcdByte_packTwo, bcdByte_packTwo] <;> omega
  · rintro ⟨c, y, mo, d, rfl, g1, g2, g3, v1, v2, v3, v4⟩
    have h31 : monthLength (100 * c + y) mo ≤ 31 := by unfold monthLength; split; (split <;> omega); (split <;> omega)
    have e := bcdToString_groups c [y, mo, d] g1 (by
      simp only [List.mem_cons, List.not_mem_nil, or_false, forall_eq_or_imp, forall_eq]; omega) false
    simp only [List.map_cons, List.map_nil] at e
    rw [bcdByte_packTwo (n := c) (by omega), bcdByte_packTwo (n := y) (by omega), bcdByte_packTwo (n := mo) (by omega),
      bcdByte_packTwo (n := d) (by omega), e]
    have := parse14_groups tz c y mo d 0 0 0 (by omega) (by omega) ⟨v1, v2⟩
      ⟨v3, by rw [monthLength_daysIn, Nat.mul_comm]; exact v4⟩ (by omega) (by omega) (by omega)
    exact ⟨_, Eq.trans (by simp [pad2, digit]) this⟩

end Verif
