import Verif.Lemmas.Reader
import Verif.Spec.LongLists
/-! # The least length of lists -/

namespace Verif
open Spec

theorem flatMap_length_eq {α : Type} (f : α → Bytes) (k : Nat) (h : ∀ x, (f x).length = k) (xs : List α) : (xs.flatMap f).length = k * xs.length := by
  induction xs with
  | nil => rfl
  | cons x xs ih => rw [List.flatMap_cons, List.length_append, h, ih, List.length_cons, Nat.mul_add]; omega

theorem encList_le_length {α : Type} {enc : α → Res Bytes} {k : Nat} : ∀ (xs : List α) (bs : Bytes), (∀ x ∈ xs, ∀ b, enc x = .ok b → k ≤ b.length) →
    encList enc xs = .ok bs → k * xs.length ≤ bs.length := by
  intro xs
  induction xs with
  | nil => intro bs _ _; exact Nat.zero_le _
  | cons x xs ih =>
    intro bs h hb
    unfold encList at hb
    cases h1 : enc x with
    | err e => rw [h1] at hb; cases hb
    | panic => rw [h1] at hb; cases hb
    | ok b =>
      rw [h1] at hb
      cases h2 : encList enc xs with
      | err e => rw [h2] at hb; cases hb
      | panic => rw [h2] at hb; cases hb
      | ok b' =>
        rw [h2] at hb
        cases hb
        have := h x (by simp) b h1
        have := ih b' (fun y hy => h y (by simp [hy])) h2
        rw [List.length_append, List.length_cons, Nat.mul_add]
        omega

theorem params_length (xs : List Param) (bs : Bytes) (h : encList Param.encodeItem xs = .ok bs) : 5 * xs.length ≤ bs.length :=
  encList_le_length xs bs (fun x _ b hb => by cases hb; simp only [List.length_append, put32_length, List.length_cons, List.length_nil]; omega) h

theorem encListM_le_length {α : Type} {enc : α → Res (Bytes × α)} {k : Nat} (h : ∀ x b y, enc x = .ok (b, y) → k ≤ b.length) :
    ∀ (xs : List α) (bs : Bytes) (ys : List α), encListM enc xs = .ok (bs, ys) → k * xs.length ≤ bs.length := by
  intro xs
  induction xs with
  | nil => intro bs ys _; exact Nat.zero_le _
  | cons x xs ih =>
    intro bs ys hb
    unfold encListM at hb
    cases h1 : enc x with
    | err e => rw [h1] at hb; cases hb
    | panic => rw [h1] at hb; cases hb
    | ok r =>
      obtain ⟨b, y⟩ := r
      rw [h1] at hb
      simp only [Res.ok_bind] at hb
      cases h2 : encListM enc xs with
      | err e => rw [h2] at hb; cases hb
      | panic => rw [h2] at hb; cases hb
      | ok r' =>
        obtain ⟨b', ys'⟩ := r'
        rw [h2] at hb
        cases hb
        have := h x b y h1
        have := ih b' ys' h2
        dsimp only
        rw [List.length_append, List.length_cons, Nat.mul_add]
        omega

/-- A result behind another computation. -/
theorem res_bind_inv {α β : Type} {x : Res α} {f : α → Res β} {b : β} (h : (x >>= f) = .ok b) : ∃ a, x = .ok a ∧ f a = .ok b := by
  cases x with
  | ok a => exact ⟨a, rfl, h⟩
  | err e => cases h
  | panic => cases h

theorem kept_bytes {r : Res Bytes} {e e' : Entity} {b : Bytes} (h : Entity.keep r e = .ok (b, e')) : r = .ok b := by
  cases r with
  | ok a => cases h; rfl
  | err e => cases h
  | panic => cases h

theorem wrapped_bytes {α : Type} {mk : α → Entity} {r : Res (Bytes × α)} {e' : Entity} {b : Bytes} (h : Entity.wrapEnc mk r = .ok (b, e')) :
    ∃ a, r = .ok (b, a) := by
  cases r with
  | ok a => obtain ⟨x, y⟩ := a; cases h; exact ⟨y, rfl⟩
  | err e => cases h
  | panic => cases h

/-- Such a list takes more than 1023 bytes. -/
theorem longList_length {env : Env} {e e' : Entity} {b : Bytes} (h : LongList e) (he : Entity.encode env e = .ok (b, e')) : 1023 < b.length := by
  have ids : ∀ x : TIDs, 256 ≤ x.ids.length → Entity.keep (TIDs.encode x) e = .ok (b, e') → 1023 < b.length := by
    intro x hx hk
    cases hk
    have := flatMap_length_eq put32 4 (fun _ => put32_length _) x.ids
    simp only [List.length_append, List.length_cons, List.length_nil]
    omega
  cases e <;> first | exact h.elim | skip
  case m8106 x => exact ids x h he
  case m8601 x => exact ids x h he
  case m8603 x => exact ids x h he
  case m8605 x => exact ids x h he
  case m8607 x => exact ids x h he
  case m0805 x =>
    cases he
    have := flatMap_length_eq put32 4 (fun _ => put32_length _) x.mediaIDs
    have h' : 65536 ≤ x.mediaIDs.length := h
    simp only [List.length_append, List.length_cons, List.length_nil]
    omega
  case m8103 x =>
    have h' : 256 ≤ x.params.length := h
    cases hp : encList Param.encodeItem x.params with
    | err y => simp [Entity.encode, T8103.encode, Entity.keep, hp] at he
    | panic => simp [Entity.encode, T8103.encode, Entity.keep, hp] at he
    | ok bs =>
      simp only [Entity.encode, T8103.encode, Entity.keep, hp, Res.ok_bind, Res.ok.injEq, Prod.mk.injEq] at he
      have := params_length _ _ hp
      rw [← he.1]
      simp only [List.length_append, List.length_cons, List.length_nil]
      omega
  case m0104 x =>
    have h' : 256 ≤ x.params.length := h
    cases hp : encList Param.encodeItem x.params with
    | err y => simp [Entity.encode, T0104.encode, Entity.keep, hp] at he
    | panic => simp [Entity.encode, T0104.encode, Entity.keep, hp] at he
    | ok bs =>
      simp only [Entity.encode, T0104.encode, Entity.keep, hp, Res.ok_bind, Res.ok.injEq, Prod.mk.injEq] at he
      have := params_length _ _ hp
      rw [← he.1]
      simp only [List.length_append, List.length_cons, List.length_nil]
      omega

  case m8600 x =>
    have h' : 256 ≤ x.items.length := h
    obtain ⟨a, ha⟩ := wrapped_bytes he
    obtain ⟨⟨bs, ys⟩, g1, g2⟩ := res_bind_inv ha
    have := encListM_le_length (k := 4) (fun y b z hb => by
      obtain ⟨_, -, hb⟩ := res_bind_inv hb
      obtain ⟨_, -, hb⟩ := res_bind_inv hb
      cases hb
      simp only [List.length_append, put32_length]; omega) _ _ _ g1
    cases g2
    simp only [List.length_append, List.length_cons, List.length_nil]
    omega
  case m8602 x =>
    have h' : 256 ≤ x.items.length := h
    obtain ⟨a, ha⟩ := wrapped_bytes he
    obtain ⟨⟨bs, ys⟩, g1, g2⟩ := res_bind_inv ha
    have := encListM_le_length (k := 4) (fun y b z hb => by
      obtain ⟨_, -, hb⟩ := res_bind_inv hb
      obtain ⟨_, -, hb⟩ := res_bind_inv hb
      obtain ⟨_, -, hb⟩ := res_bind_inv hb
      obtain ⟨_, -, hb⟩ := res_bind_inv hb
      cases hb
      simp only [List.length_append, put32_length]; omega) _ _ _ g1
    cases g2
    simp only [List.length_append, List.length_cons, List.length_nil]
    omega
  case m0704 x =>
    have h' : 65536 ≤ x.items.length := h
    obtain ⟨bs, g1, g2⟩ := res_bind_inv (kept_bytes he)
    have := encList_le_length (k := 1) _ _ (fun y _ b hb => by
      obtain ⟨⟨_, _⟩, -, hb⟩ := res_bind_inv hb
      cases hb
      simp only [List.length_append, put16_length]; omega) g1
    cases g2
    simp only [List.length_append, List.length_cons, List.length_nil]
    omega
  case m0705 x =>
    have h' : 65536 ≤ x.items.length := h.1
    obtain ⟨a, ha⟩ := wrapped_bytes he
    obtain ⟨bs, g1, g2⟩ := res_bind_inv ha
    have := encList_le_length (k := 1) _ _ (fun y hy b hb => by
      have := h.2 y hy
      cases hb
      simp only [List.length_append]; omega) g1
    cases g2
    simp only [List.length_append]
    omega
  case m0802 x =>
    have h' : 65536 ≤ x.items.length := h
    obtain ⟨bs, g1, g2⟩ := res_bind_inv (kept_bytes he)
    have := encList_le_length (k := 1) _ _ (fun y _ b hb => by
      obtain ⟨⟨_, _⟩, -, hb⟩ := res_bind_inv hb
      cases hb
      simp only [List.length_append, put32_length]; omega) g1
    cases g2
    simp only [List.length_append]
    omega
  case m8604 x =>
    have h' : 65536 ≤ x.vertexes.length := h
    obtain ⟨a, ha⟩ := wrapped_bytes he
    obtain ⟨at', -, g2⟩ := res_bind_inv ha
    have := flatMap_length_eq (fun v : Vertex => put32 (absU32 (micro v.lat)) ++ put32 (absU32 (micro v.lng))) 8 (fun _ => rfl) x.vertexes
    cases g2
    simp only [List.length_append (bs := List.flatMap _ _)]
    omega
  case m8606 x =>
    have h' : 65536 ≤ x.points.length := h
    obtain ⟨bs, g1, g2⟩ := res_bind_inv (kept_bytes he)
    have := encList_le_length (k := 1) _ _ (fun y _ b hb => by
      obtain ⟨_, -, hb⟩ := res_bind_inv hb
      obtain ⟨_, -, hb⟩ := res_bind_inv hb
      obtain ⟨_, -, hb⟩ := res_bind_inv hb
      obtain ⟨_, -, hb⟩ := res_bind_inv hb
      cases hb
      simp only [List.length_append, put32_length]; omega) g1
    cases g2
    simp only [List.length_append]
    omega

end Verif
