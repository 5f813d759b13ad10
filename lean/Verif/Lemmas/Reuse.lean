import Verif.Spec.Reuse
import Verif.Lemmas.Reader
/-! Lemmas for C47: readers that give the same up to a function of the value read. -/

namespace Verif

/-- A result with a function applied to its value. -/
def Res.mapFst {α β γ : Type} (f : α → β) : Res (α × γ) → Res (β × γ)
  | .ok (a, c) => .ok (f a, c)
  | .err e => .err e
  | .panic => .panic

namespace Rd
variable {α β γ : Type}

/-- On `n` bytes, `p` reads what `q` reads with `f` applied. -/
def MapsAt (n : Nat) (f : α → β) (p : Rd β) (q : Rd α) : Prop := ∀ s, s.length = n → p s = (q s).mapFst f

/-- `x` takes `k` bytes whenever it reads something. -/
def Consumes (k : Nat) (x : Rd γ) : Prop := ∀ s a r, x s = .ok (a, r) → s.length = r.length + k

theorem Consumes.byte : Consumes 1 byte := by
  intro s a r h; unfold Rd.byte at h; split at h <;> cases h; simp
theorem Consumes.u16 : Consumes 2 u16 := by
  intro s a r h; unfold Rd.u16 at h; split at h <;> cases h; simp
theorem Consumes.u32 : Consumes 4 u32 := by
  intro s a r h; unfold Rd.u32 at h; split at h <;> cases h; simp
theorem Consumes.read (k : Nat) : Consumes k (read k) := by
  intro s a r h; unfold Rd.read at h; split at h <;> cases h; simp; omega
theorem Consumes.bcdTime (env : Env) : Consumes 6 (bcdTime env) := by
  intro s a r h
  unfold Rd.bcdTime at h
  split at h
  · cases h
  · split at h <;> cases h
    simp; omega
theorem Consumes.lift (x : Res γ) : Consumes 0 (lift x) := by
  intro s a r h; cases x <;> cases h; rfl
theorem Consumes.bind {x : Rd α} {y : α → Rd γ} {j k : Nat} (hx : Consumes j x) (hy : ∀ a, Consumes k (y a)) : Consumes (j + k) (x >>= y) := by
  intro s a r h
  rw [bind_apply] at h
  cases hs : x s with
  | ok v =>
    rw [hs] at h
    have h1 := hx _ _ _ hs
    have h2 := hy _ _ _ _ h
    omega
  | err e => rw [hs] at h; cases h
  | panic => rw [hs] at h; cases h

theorem MapsAt.bind {x : Rd γ} {y : γ → Rd β} {y' : γ → Rd α} {f : α → β} {n : Nat} (k : Nat) (hx : Consumes k x)
    (hy : ∀ a, k ≤ n → MapsAt (n - k) f (y a) (y' a)) : MapsAt n f (x >>= y) (x >>= y') := by
  intro s hs
  rw [bind_apply, bind_apply]
  cases h : x s with
  | ok v =>
    have := hx _ _ _ h
    exact hy _ (by omega) _ (by omega)
  | err e => rfl
  | panic => rfl

/-- The same when lengths do not matter. -/
def Maps (f : α → β) (p : Rd β) (q : Rd α) : Prop := ∀ s, p s = (q s).mapFst f

theorem Maps.bind {x : Rd γ} {y : γ → Rd β} {y' : γ → Rd α} {f : α → β}
    (hy : ∀ a, Maps f (y a) (y' a)) : Maps f (x >>= y) (x >>= y') := by
  intro s
  rw [bind_apply, bind_apply]
  cases x s with
  | ok v => exact hy _ _
  | err e => rfl
  | panic => rfl

theorem Maps.pure {f : α → β} {a : α} {b : β} (h : b = f a) : Maps f (Pure.pure b) (Pure.pure a) := by
  intro s; subst h; rfl

theorem Maps.at {f : α → β} {p : Rd β} {q : Rd α} (h : Maps f p q) (n : Nat) : MapsAt n f p q := fun s _ => h s

end Rd

open Rd

theorem decodeMin_maps {α β : Type} {f : α → β} {p : Rd β} {q : Rd α} (k : Nat) (data : Bytes) (h : MapsAt data.length f p q) :
    decodeMin k p data = (decodeMin k q data).mapFst f := by
  unfold decodeMin runDecode
  split
  · rfl
  · rw [h _ rfl]
    cases q data <;> rfl

theorem strIfMore_none {env : Env} {old : Bytes} : MapsAt 0 (fun _ => old) (Rd.strIfMore env old) (Rd.strIfMore env []) := by
  intro s hs
  rw [List.length_eq_zero_iff] at hs
  subst hs
  rfl

theorem strIfMore_some {env : Env} {old : Bytes} (n : Nat) (h : n ≠ 0) (s : Bytes) (hs : s.length = n) :
    Rd.strIfMore env old s = Rd.strIfMore env [] s := by
  unfold Rd.strIfMore
  rw [bind_len, bind_len, if_pos (by omega), if_pos (by omega)]

/-- A reader that ends with an optional text. -/
theorem MapsAt.text {env : Env} {old : Bytes} {α : Type} {mk : Bytes → α} {set : α → α} (n : Nat) (h : ∀ t, set (mk t) = mk old) :
    MapsAt n (fun v => if n = 0 then set v else v) (Rd.strIfMore env old >>= fun t => Pure.pure (mk t)) (Rd.strIfMore env [] >>= fun t => Pure.pure (mk t)) := by
  intro s hs
  by_cases hn : n = 0
  · subst hn
    rw [List.length_eq_zero_iff] at hs
    subst hs
    exact congrArg (fun v => Res.ok (v, ([] : Bytes))) (h []).symm
  · rw [bind_apply, bind_apply, strIfMore_some n hn s hs]
    cases Rd.strIfMore env [] s with
    | ok v => simp only [if_neg hn]; rfl
    | err e => rfl
    | panic => rfl

end Verif
