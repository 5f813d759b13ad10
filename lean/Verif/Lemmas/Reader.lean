import Verif.Model.Entities1
/-! # Lemmas about the byte writer and reader -/

namespace Verif

@[simp] theorem put16_length (n : UInt16) : (put16 n).length = 2 := rfl
@[simp] theorem put32_length (n : UInt32) : (put32 n).length = 4 := rfl

@[simp] theorem get16_put16 (n : UInt16) :
    get16 (UInt8.ofNat (n.toNat / 256)) (UInt8.ofNat n.toNat) = n := by
  apply UInt16.toNat.inj
  have h := n.toNat_lt
  simp [get16, UInt8.toNat_ofNat']
  omega

@[simp] theorem get32_put32 (n : UInt32) :
    get32 (UInt8.ofNat (n.toNat / 16777216)) (UInt8.ofNat (n.toNat / 65536))
      (UInt8.ofNat (n.toNat / 256)) (UInt8.ofNat n.toNat) = n := by
  apply UInt32.toNat.inj
  have h := n.toNat_lt
  simp [get32, UInt8.toNat_ofNat']
  omega

theorem put16_inj {a b : UInt16} (h : put16 a = put16 b) : a = b := by
  have := get16_put16 a
  simp only [put16, List.cons.injEq, and_true] at h
  rw [h.1, h.2] at this
  rw [← this, get16_put16]

theorem put16_get16 (a b : UInt8) : put16 (get16 a b) = [a, b] := by
  have h1 := a.toNat_lt
  have h2 := b.toNat_lt
  simp only [put16, get16, UInt16.toNat_ofNat', List.cons.injEq, and_true]
  constructor <;> apply UInt8.toNat.inj <;> simp [UInt8.toNat_ofNat'] <;> omega

theorem put32_get32 (a b c d : UInt8) : put32 (get32 a b c d) = [a, b, c, d] := by
  have h1 := a.toNat_lt
  have h2 := b.toNat_lt
  have h3 := c.toNat_lt
  have h4 := d.toNat_lt
  simp only [put32, get32, UInt32.toNat_ofNat', List.cons.injEq, and_true]
  refine ⟨?_, ?_, ?_, ?_⟩ <;> apply UInt8.toNat.inj <;> simp [UInt8.toNat_ofNat'] <;> omega

theorem decodeMin_eq {α : Type} {n : Nat} {p : Rd α} {data rest : Bytes} {a : α} (h : n ≤ data.length)
    (hp : p data = .ok (a, rest)) : decodeMin n p data = .ok (a, data.length - rest.length) := by
  unfold decodeMin runDecode
  rw [if_neg (by omega), hp]

namespace Rd
variable {α β γ : Type}

theorem bind_def (x : Rd α) (f : α → Rd β) : (x >>= f) = Rd.bind x f := rfl
@[simp] theorem pure_apply (a : α) (s : Bytes) : (Pure.pure a : Rd α) s = .ok (a, s) := rfl
@[simp] theorem Pure_apply (a : α) (s : Bytes) : (Rd.pure a : Rd α) s = .ok (a, s) := rfl

theorem bind_apply (x : Rd α) (f : α → Rd β) (s : Bytes) :
    (x >>= f) s = match x s with
      | .ok (a, s') => f a s'
      | .err e => .err e
      | .panic => .panic := rfl

theorem bind_ok {x : Rd α} {s s' : Bytes} {a : α} (f : α → Rd β) (h : x s = .ok (a, s')) :
    (x >>= f) s = f a s' := by rw [bind_apply, h]

@[simp] theorem u16_put16 (n : UInt16) (s : Bytes) : u16 (put16 n ++ s) = .ok (n, s) := by
  simp only [u16, put16, List.cons_append, List.nil_append, get16_put16]
@[simp] theorem u16_put16_nil (n : UInt16) : u16 (put16 n) = .ok (n, []) := by simp only [u16, put16, get16_put16]
@[simp] theorem u32_put32 (n : UInt32) (s : Bytes) : u32 (put32 n ++ s) = .ok (n, s) := by
  simp only [u32, put32, List.cons_append, List.nil_append, get32_put32]
@[simp] theorem u32_put32_nil (n : UInt32) : u32 (put32 n) = .ok (n, []) := by simp only [u32, put32, get32_put32]
@[simp] theorem byte_cons (b : UInt8) (s : Bytes) : byte (b :: s) = .ok (b, s) := rfl

theorem read_append (p s : Bytes) (n : Nat) (h : p.length = n) : read n (p ++ s) = .ok (p, s) := by
  subst h; simp [read]
theorem read_exact (p : Bytes) (n : Nat) (h : p.length = n) : read n p = .ok (p, []) := by
  subst h; simp [read]

@[simp] theorem bind_u16_put16 (n : UInt16) (s : Bytes) (f : UInt16 → Rd β) :
    (u16 >>= f) (put16 n ++ s) = f n s := bind_ok f (by simp)
@[simp] theorem bind_u16_put16_nil (n : UInt16) (f : UInt16 → Rd β) :
    (u16 >>= f) (put16 n) = f n [] := bind_ok f (by simp)
@[simp] theorem bind_u32_put32 (n : UInt32) (s : Bytes) (f : UInt32 → Rd β) :
    (u32 >>= f) (put32 n ++ s) = f n s := bind_ok f (by simp)
@[simp] theorem bind_u32_put32_nil (n : UInt32) (f : UInt32 → Rd β) :
    (u32 >>= f) (put32 n) = f n [] := bind_ok f (by simp)
@[simp] theorem bind_byte_cons (b : UInt8) (s : Bytes) (f : UInt8 → Rd β) :
    (byte >>= f) (b :: s) = f b s := rfl
@[simp] theorem bind_rest (s : Bytes) (f : Bytes → Rd β) : (rest >>= f) s = f s [] := rfl
@[simp] theorem bind_len (s : Bytes) (f : Nat → Rd β) : (len >>= f) s = f s.length s := rfl
@[simp] theorem bind_pure (a : α) (s : Bytes) (f : α → Rd β) : ((Pure.pure a : Rd α) >>= f) s = f a s := rfl
@[simp] theorem bind_lift_ok (a : α) (s : Bytes) (f : α → Rd β) :
    (lift (.ok a) >>= f) s = f a s := rfl
@[simp] theorem bind_assoc (x : Rd α) (f : α → Rd β) (g : β → Rd γ) (s : Bytes) :
    ((x >>= f) >>= g) s = (x >>= fun a => f a >>= g) s := by
  simp only [bind_apply]
  cases x s with
  | ok p => rfl
  | err e => rfl
  | panic => rfl

theorem bind_read_append (p s : Bytes) (n : Nat) (f : Bytes → Rd β) (h : p.length = n) :
    (read n >>= f) (p ++ s) = f p s := bind_ok f (read_append p s n h)
theorem bind_read_exact (p : Bytes) (n : Nat) (f : Bytes → Rd β) (h : p.length = n) :
    (read n >>= f) p = f p [] := bind_ok f (read_exact p n h)

/-- Reading back a list whose items read back one by one. -/
theorem times_encList {enc : α → Res Bytes} {item : Rd β} {norm : α → β}
    {xs : List α} {bs rest : Bytes}
    (h : ∀ x ∈ xs, ∀ b, enc x = .ok b → ∀ s, item (b ++ s) = .ok (norm x, s))
    (he : encList enc xs = .ok bs) :
    times xs.length item (bs ++ rest) = .ok (xs.map norm, rest) := by
  induction xs generalizing bs with
  | nil => simp [encList] at he; subst he; rfl
  | cons x xs ih =>
    simp only [encList] at he
    cases hx : enc x with
    | err e => simp [hx] at he
    | panic => simp [hx] at he
    | ok b =>
      cases hxs : encList enc xs with
      | err e => simp [hx, hxs] at he
      | panic => simp [hx, hxs] at he
      | ok bs' =>
        simp [hx, hxs] at he
        subst he
        simp only [List.length_cons, times, List.append_assoc, Rd.bind]
        rw [h x (by simp) b hx]
        simp only
        rw [ih (fun y hy => h y (by simp [hy])) hxs]
        simp

theorem times_flatMap {enc : α → Bytes} {item : Rd α} (xs : List α) (rest : Bytes)
    (h : ∀ x s, item (enc x ++ s) = .ok (x, s)) :
    times xs.length item (xs.flatMap enc ++ rest) = .ok (xs, rest) := by
  induction xs with
  | nil => rfl
  | cons x xs ih =>
    simp only [List.length_cons, times, List.flatMap_cons, List.append_assoc, Rd.bind]
    rw [h]
    simp only
    rw [ih]
    simp

/-- A reader program that never panics. -/
def Safe (x : Rd α) : Prop := ∀ s, x s ≠ .panic

theorem Safe.bind {x : Rd α} {f : α → Rd β} (hx : Safe x) (hf : ∀ a, Safe (f a)) : Safe (x >>= f) := by
  intro s
  rw [bind_apply]
  have := hx s
  cases h : x s with
  | ok p => exact hf p.1 p.2
  | err e => simp
  | panic => exact absurd h this

theorem Safe.pure (a : α) : Safe (Pure.pure a : Rd α) := by intro s; simp
theorem Safe.u16 : Safe u16 := by intro s; unfold Rd.u16; split <;> simp
theorem Safe.u32 : Safe u32 := by intro s; unfold Rd.u32; split <;> simp
theorem Safe.byte : Safe byte := by intro s; unfold Rd.byte; split <;> simp
theorem Safe.read (n : Nat) : Safe (read n) := by intro s; unfold Rd.read; split <;> simp
theorem Safe.rest : Safe rest := by intro s; simp [Rd.rest]
theorem Safe.len : Safe len := by intro s; simp [Rd.len]
theorem Safe.fail (e : Err) : Safe (fail e : Rd α) := by intro s; simp [Rd.fail]
theorem Safe.lift {r : Res α} (h : r ≠ .panic) : Safe (lift r) := by
  intro s; cases r <;> simp_all [Rd.lift]
theorem Safe.times {x : Rd α} (n : Nat) (hx : Safe x) : Safe (times n x) := by
  induction n with
  | zero => intro s; simp [Rd.times]
  | succ n ih => exact Safe.bind hx fun a => Safe.bind ih fun as => Safe.pure _
theorem Safe.ignoreErr {x : Rd α} (z : α) (hx : Safe x) : Safe (ignoreErr x z) := by
  intro s; unfold Rd.ignoreErr; have := hx s; cases h : x s <;> simp_all

end Rd

theorem runDecode_safe {α : Type} {p : Rd α} (hp : p.Safe) (data : Bytes) : runDecode p data ≠ .panic := by
  unfold runDecode
  have := hp data
  cases h : p data <;> simp_all

theorem decodeMin_safe {α : Type} {p : Rd α} (n : Nat) (hp : p.Safe) (data : Bytes) :
    decodeMin n p data ≠ .panic := by
  unfold decodeMin
  split
  · simp
  · exact runDecode_safe hp data

/-! Slices and indices -/

theorem idx_ofNat {α : Type} (xs : List α) (i : Nat) (h : i < xs.length) : idx xs (i : Int) = .ok xs[i] := by
  have h0 : ¬ ((i : Int) < 0) := by omega
  simp [idx, h0, h]

theorem idx_zero {α : Type} (x : α) (xs : List α) : idx (x :: xs) 0 = .ok x := rfl

theorem slice_ok {α : Type} (xs : List α) (lo hi : Nat) (h1 : lo ≤ hi) (h2 : hi ≤ xs.length) :
    slice xs lo hi = .ok ((xs.take hi).drop lo) := by simp [slice, h1, h2]

theorem slice_to_end {α : Type} (xs : List α) (lo : Nat) (h : lo ≤ xs.length) :
    slice xs lo xs.length = .ok (xs.drop lo) := by simp [slice, h]

theorem slice_from_zero {α : Type} (xs : List α) (hi : Nat) (h : hi ≤ xs.length) :
    slice xs 0 hi = .ok (xs.take hi) := by simp [slice, h]

end Verif
