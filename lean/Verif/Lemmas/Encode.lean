import Verif.Lemmas.Entity
import Verif.Lemmas.Bits
/-! # Encoders: no panics, success, and the receiver afterwards -/

namespace Verif

/-! ## No panics, and success if all texts can be encoded -/

/-- Neither a panic, nor, if every text can be encoded, an error. -/
structure Fine {α : Type} (env : Env) (r : Res α) : Prop where
  safe : r ≠ .panic
  total : (∀ s, ∃ b, env.gbEnc s = some b) → ∃ a, r = .ok a

namespace Fine
variable {α β : Type} {env : Env}

theorem ok (a : α) : Fine env (.ok a) := ⟨by simp, fun _ => ⟨a, rfl⟩⟩

theorem of_ok {r : Res α} (h : ∃ a, r = .ok a) : Fine env r := by
  obtain ⟨a, rfl⟩ := h
  exact ok a

theorem bind {x : Res α} {f : α → Res β} (hx : Fine env x) (hf : ∀ a, Fine env (f a)) : Fine env (x >>= f) := by
  constructor
  · cases x with
    | ok a => exact (hf a).safe
    | err e => simp
    | panic => exact absurd rfl hx.safe
  · intro h
    obtain ⟨a, rfl⟩ := hx.total h
    exact (hf a).total h

theorem putStr (s : Bytes) : Fine env (putStr env s) := by
  constructor
  · unfold Verif.putStr; split <;> simp
  · intro h
    obtain ⟨b, hb⟩ := h s
    exact ⟨b, by unfold Verif.putStr; rw [hb]⟩

theorem putStrFixed (s : Bytes) (n : Nat) : Fine env (putStrFixed env s n) := by
  constructor
  · unfold Verif.putStrFixed; split <;> simp
  · intro h
    obtain ⟨b, hb⟩ := h s
    exact ⟨_, by unfold Verif.putStrFixed; rw [hb]⟩

theorem putStrNonempty (s : Bytes) : Fine env (putStrNonempty env s) := by
  unfold Verif.putStrNonempty
  split
  · exact putStr s
  · exact ok _

theorem putStr8 (s : Bytes) : Fine env (putStr8 env s) := bind (putStr s) fun _ => ok _

theorem putStr16 (s : Bytes) : Fine env (putStr16 env s) := bind (putStr s) fun _ => ok _

theorem encList {f : α → Res Bytes} (hf : ∀ a, Fine env (f a)) (xs : List α) : Fine env (encList f xs) := by
  induction xs with
  | nil => exact ok _
  | cons a as ih => exact bind (hf a) fun _ => bind ih fun _ => ok _

theorem encListM {f : α → Res (Bytes × α)} (hf : ∀ a, Fine env (f a)) (xs : List α) : Fine env (encListM f xs) := by
  induction xs with
  | nil => exact ok _
  | cons a as ih => exact bind (hf a) fun _ => bind ih fun _ => ok _

end Fine

theorem markNegative_ok (st : UInt32) (v : Int) (bit : Nat) (h : bit < 32) :
    markNegative st v bit = .ok (if v < 0 then st ||| ((1 : UInt32) <<< UInt32.ofNat bit) else st) := by
  unfold markNegative
  split
  · unfold setBitUint32
    rw [if_neg (by omega), if_neg (by omega)]
    simp
  · rfl

theorem markIf_ok (at' : UInt16) (b : Bool) (bit : Nat) (h : bit < 16) :
    markIf at' b bit = .ok (if b then at' ||| shl1Uint16 bit else at') := by
  unfold markIf
  split
  · unfold setBitUint16
    rw [if_neg (by omega), if_neg (by omega)]
    simp
  · rfl

theorem setBitByte_ok (v : UInt8) (o : Nat) (b : Bool) : ∃ v', setBitByte v o b = .ok v' := by
  obtain ⟨r, h, -⟩ := setBitByte_eq v o b
  exact ⟨r, h⟩

theorem markByte_ok (v : UInt8) (x : Int) (o : Nat) : ∃ v', markByte v x o = .ok v' := by
  unfold markByte
  split
  · exact setBitByte_ok v o true
  · exact ⟨_, rfl⟩

theorem encodeExtra_ok (x : Option Extra) : ∃ b, encodeExtra x = .ok b := by
  cases x <;> exact ⟨_, rfl⟩

namespace Fine
variable {env : Env}

theorem location (e : T0200) : Fine env (T0200.encode env e) :=
  bind (of_ok ⟨_, markNegative_ok _ _ 2 (by omega)⟩) fun _ => bind (of_ok ⟨_, markNegative_ok _ _ 3 (by omega)⟩) fun _ =>
    bind (encList (fun x => of_ok (encodeExtra_ok x)) _) fun _ => ok _

theorem circle (a : CircleArea) : Fine env (CircleArea.encodeItem env a) :=
  bind (of_ok ⟨_, markIf_ok _ _ 6 (by omega)⟩) fun _ => bind (of_ok ⟨_, markIf_ok _ _ 7 (by omega)⟩) fun _ => ok _

theorem rect (a : RectArea) : Fine env (RectArea.encodeItem env a) :=
  bind (of_ok ⟨_, markIf_ok _ _ 6 (by omega)⟩) fun _ => bind (of_ok ⟨_, markIf_ok _ _ 7 (by omega)⟩) fun _ =>
    bind (of_ok ⟨_, markIf_ok _ _ 6 (by omega)⟩) fun _ => bind (of_ok ⟨_, markIf_ok _ _ 7 (by omega)⟩) fun _ => ok _

theorem vertexes (vs : List Vertex) : ∀ at', Fine env (markVertexes at' vs) := by
  induction vs with
  | nil => exact fun _ => ok _
  | cons v vs ih =>
    exact fun at' => bind (of_ok ⟨_, markIf_ok _ _ 6 (by omega)⟩) fun _ => bind (of_ok ⟨_, markIf_ok _ _ 7 (by omega)⟩) fun a => ih a

theorem point (p : RoutePoint) : Fine env (RoutePoint.encodeItem p) :=
  bind (of_ok (markByte_ok _ _ 2)) fun _ => bind (of_ok (markByte_ok _ _ 3)) fun _ => bind (of_ok (setBitByte_ok _ 0 _)) fun _ =>
    bind (of_ok (setBitByte_ok _ 1 _)) fun _ => ok _

theorem keep {r : Res Bytes} (h : Fine env r) (e : Entity) : Fine env (Entity.keep r e) := by
  constructor
  · unfold Entity.keep
    have := h.safe
    split <;> simp_all
  · intro ht
    obtain ⟨b, rfl⟩ := h.total ht
    exact ⟨_, rfl⟩

theorem wrapEnc {α : Type} {mk : α → Entity} {r : Res (Bytes × α)} (h : Fine env r) : Fine env (Entity.wrapEnc mk r) := by
  constructor
  · unfold Entity.wrapEnc
    have := h.safe
    split <;> simp_all
  · intro ht
    obtain ⟨⟨b, a⟩, rfl⟩ := h.total ht
    exact ⟨_, rfl⟩

theorem idText (x : IdText) : Fine env (IdText.encodeItem env x) := bind (putStr8 _) fun _ => ok _

theorem contact (x : Contact) : Fine env (Contact.encodeItem env x) := bind (putStr8 _) fun _ => bind (putStr8 _) fun _ => ok _

theorem media (x : MediaItem) : Fine env (MediaItem.encodeItem env x) := bind (location _) fun _ => ok _

theorem param (x : Param) : Fine env (Param.encodeItem x) := ok _

/-- All types but those that carry a public key. -/
theorem entity (e : Entity) (h1 : e.msgID ≠ 0x0a00) (h2 : e.msgID ≠ 0x8a00) : Fine env (Entity.encode env e) := by
  cases e with
  | m0100 b => exact keep (bind (putStrNonempty _) fun _ => ok _) _
  | m0102 b => exact keep (putStrNonempty _) _
  | m0104 b => exact keep (bind (encList param _) fun _ => ok _) _
  | m0200 b => exact wrapEnc (location b)
  | m0201 b => exact wrapEnc (bind (location _) fun _ => ok _)
  | m0500 b => exact wrapEnc (bind (location _) fun _ => ok _)
  | m0702 b => exact keep (bind (putStr8 _) fun _ => bind (putStrFixed _ _) fun _ => bind (putStr8 _) fun _ => ok _) _
  | m0704 b => exact keep (bind (encList (fun _ => bind (location _) fun _ => ok _) _) fun _ => ok _) _
  | m0705 b => exact wrapEnc (bind (encList (fun _ => ok _) _) fun _ => ok _)
  | m0801 b => exact wrapEnc (bind (location _) fun _ => ok _)
  | m0802 b => exact keep (bind (encList media _) fun _ => ok _) _
  | m8100 b => exact keep (bind (putStrNonempty _) fun _ => ok _) _
  | m8103 b => exact keep (bind (encList param _) fun _ => ok _) _
  | m8105 b => exact keep (bind (putStrNonempty _) fun _ => ok _) _
  | m8108 b => exact keep (bind (putStr8 _) fun _ => ok _) _
  | m8300 b => exact keep (bind (putStrNonempty _) fun _ => ok _) _
  | m8301 b => exact keep (bind (encList idText _) fun _ => ok _) _
  | m8302 b => exact keep (bind (putStr8 _) fun _ => bind (encList idText _) fun _ => ok _) _
  | m8303 b => exact keep (bind (encList putStr16 _) fun _ => ok _) _
  | m8304 b => exact keep (bind (putStr16 _) fun _ => ok _) _
  | m8401 b => exact keep (bind (encList contact _) fun _ => ok _) _
  | m8600 b => exact wrapEnc (bind (encListM circle _) fun _ => ok _)
  | m8602 b => exact wrapEnc (bind (encListM rect _) fun _ => ok _)
  | m8604 b => exact wrapEnc (bind (vertexes _ _) fun _ => ok _)
  | m8606 b => exact keep (bind (encList point _) fun _ => ok _) _
  | m8800 b => exact keep (by unfold T8800.encode; split <;> exact ok _) _
  | m0a00 b => exact absurd rfl h1
  | m8a00 b => exact absurd rfl h2
  | _ => exact keep (ok _) _

theorem succeeds {α β : Type} {r : Res (α × β)} (h : Fine env r) (ht : ∀ s, ∃ b, env.gbEnc s = some b) : ∃ a b, r = .ok (a, b) := by
  obtain ⟨⟨a, b⟩, h⟩ := h.total ht
  exact ⟨a, b, h⟩

end Fine

/-- A body with a public key encodes exactly if the key is there and has 128 bytes; otherwise an error is returned. -/
theorem T0A00.encode_ok_iff (e : T0A00) :
    (∃ b, T0A00.encode e = .ok b) ↔ ∃ k n, e.publicKey = some k ∧ k.n = some n ∧ keySize n = 128 := by
  unfold T0A00.encode
  constructor
  · intro h
    split at h
    · simp at h
    · rename_i k hk
      split at h
      · simp at h
      · rename_i n hn
        split at h
        · simp at h
        · rename_i hs
          exact ⟨k, n, hk, hn, Decidable.not_not.mp hs⟩
  · rintro ⟨k, n, hk, hn, hs⟩
    rw [hk]
    simp only [hn]
    rw [if_neg (by simp [hs])]
    exact ⟨_, rfl⟩

theorem T0A00.encode_safe (e : T0A00) : T0A00.encode e ≠ .panic := by
  unfold T0A00.encode
  split
  · simp
  · split
    · simp
    · split <;> simp

theorem Entity.encode_safe (env : Env) (e : Entity) : Entity.encode env e ≠ .panic := by
  have key : ∀ (b : T0A00) (x : Entity), Entity.keep (T0A00.encode b) x ≠ .panic := by
    intro b x
    unfold Entity.keep
    have := T0A00.encode_safe b
    split <;> simp_all
  cases e with
  | m0a00 b => exact key b _
  | m8a00 b => exact key b _
  | _ => exact (Fine.entity _ (by simp [Entity.msgID]) (by simp [Entity.msgID])).safe

/-! ## Encoding again -/

theorem keep_same {r : Res Bytes} {e e' : Entity} {bs : Bytes} (h : Entity.keep r e = .ok (bs, e')) : e' = e := by
  unfold Entity.keep at h
  split at h
  · simp only [Res.ok.injEq, Prod.mk.injEq] at h; exact h.2.symm
  · simp at h
  · simp at h

theorem wrapEnc_ok {α : Type} {mk : α → Entity} {r : Res (Bytes × α)} {bs : Bytes} {e' : Entity}
    (h : Entity.wrapEnc mk r = .ok (bs, e')) : ∃ a, r = .ok (bs, a) ∧ e' = mk a := by
  unfold Entity.wrapEnc at h
  split at h
  · simp only [Res.ok.injEq, Prod.mk.injEq] at h
    obtain ⟨rfl, rfl⟩ := h
    exact ⟨_, rfl, rfl⟩
  · simp at h
  · simp at h

theorem Res.bind_ok {α β : Type} {x : Res α} {f : α → Res β} {b : β} (h : (x >>= f) = .ok b) : ∃ a, x = .ok a ∧ f a = .ok b := by
  cases x with
  | ok a => exact ⟨a, rfl, h⟩
  | err e => simp at h
  | panic => simp at h

theorem u32_or_again (s a b : UInt32) (p q : Prop) [Decidable p] [Decidable q] (s2 : UInt32)
    (h : s2 = if q then (if p then s ||| a else s) ||| b else (if p then s ||| a else s)) :
    (if p then s2 ||| a else s2) = s2 ∧ (if q then s2 ||| b else s2) = s2 := by
  subst h
  by_cases hp : p <;> by_cases hq : q <;> simp [hp, hq, UInt32.or_assoc]
  rw [UInt32.or_comm b a, ← UInt32.or_assoc a a, UInt32.or_self]

theorem u16_or_absorb (s a b : UInt16) (h : s ||| a = s) : (s ||| b) ||| a = s ||| b := by
  rw [UInt16.or_assoc, UInt16.or_comm b a, ← UInt16.or_assoc, h]

theorem T0200.encode_again {env : Env} {e e' : T0200} {bs : Bytes} (h : T0200.encode env e = .ok (bs, e')) :
    T0200.encode env e' = .ok (bs, e') := by
  have h2 : ∀ st, markNegative st (micro e.lat) 2 = .ok (if micro e.lat < 0 then st ||| ((1 : UInt32) <<< UInt32.ofNat 2) else st) :=
    fun st => markNegative_ok st (micro e.lat) 2 (by omega)
  have h3 : ∀ st, markNegative st (micro e.lng) 3 = .ok (if micro e.lng < 0 then st ||| ((1 : UInt32) <<< UInt32.ofNat 3) else st) :=
    fun st => markNegative_ok st (micro e.lng) 3 (by omega)
  unfold T0200.encode at h ⊢
  obtain ⟨s1, g1, h⟩ := Res.bind_ok h
  obtain ⟨s2, g2, h⟩ := Res.bind_ok h
  obtain ⟨xs, hx, h⟩ := Res.bind_ok h
  simp only [Res.ok.injEq, Prod.mk.injEq] at h
  obtain ⟨hb, rfl⟩ := h
  rw [h2, Res.ok.injEq] at g1
  rw [h3, Res.ok.injEq, ← g1] at g2
  obtain ⟨k1, k2⟩ := u32_or_again e.status _ _ (micro e.lat < 0) (micro e.lng < 0) s2 g2.symm
  have m1 : markNegative s2 (micro e.lat) 2 = .ok s2 := by rw [h2, k1]
  have m2 : markNegative s2 (micro e.lng) 3 = .ok s2 := by rw [h3, k2]
  simp only [m1, m2, Res.ok_bind, hx, hb]

theorem encListM_again {α : Type} {f : α → Res (Bytes × α)} (hf : ∀ a b a', f a = .ok (b, a') → f a' = .ok (b, a')) (xs : List α) :
    ∀ bs xs', encListM f xs = .ok (bs, xs') → encListM f xs' = .ok (bs, xs') ∧ xs'.length = xs.length := by
  induction xs with
  | nil =>
    intro bs xs' h
    simp only [encListM, Res.ok.injEq, Prod.mk.injEq] at h
    obtain ⟨rfl, rfl⟩ := h
    exact ⟨rfl, rfl⟩
  | cons a as ih =>
    intro bs xs' h
    unfold encListM at h
    obtain ⟨⟨b, a'⟩, ha, h⟩ := Res.bind_ok h
    obtain ⟨⟨bs', as'⟩, has, h⟩ := Res.bind_ok h
    simp only [Res.ok.injEq, Prod.mk.injEq] at h
    obtain ⟨rfl, rfl⟩ := h
    obtain ⟨h1, h2⟩ := ih _ _ has
    refine ⟨?_, by simp [h2]⟩
    unfold encListM
    simp only [hf _ _ _ ha, Res.ok_bind, h1]

theorem markIf_absorbs {s s' : UInt16} {b : Bool} {bit : Nat} (hbit : bit < 16) (h : markIf s b bit = .ok s') :
    (b = true → s' ||| shl1Uint16 bit = s') ∧ ∀ m, s ||| m = s → s' ||| m = s' := by
  rw [markIf_ok s b bit hbit] at h
  simp only [Res.ok.injEq] at h
  subst h
  cases b
  · exact ⟨nofun, fun m h => h⟩
  · refine ⟨fun _ => ?_, fun m h => u16_or_absorb _ _ _ h⟩
    simp [UInt16.or_assoc]

theorem markIf_id {s : UInt16} {b : Bool} {bit : Nat} (hbit : bit < 16) (h : b = true → s ||| shl1Uint16 bit = s) :
    markIf s b bit = .ok s := by
  rw [markIf_ok s b bit hbit]
  cases b
  · rfl
  · rw [if_pos rfl, h rfl]

theorem CircleArea.encode_again {env : Env} {e e' : CircleArea} {bs : Bytes} (h : CircleArea.encodeItem env e = .ok (bs, e')) :
    CircleArea.encodeItem env e' = .ok (bs, e') := by
  unfold CircleArea.encodeItem at h ⊢
  obtain ⟨s1, h1, h⟩ := Res.bind_ok h
  obtain ⟨s2, h2, h⟩ := Res.bind_ok h
  simp only [Res.ok.injEq, Prod.mk.injEq] at h
  obtain ⟨hb, rfl⟩ := h
  obtain ⟨a1, k1⟩ := markIf_absorbs (bit := 6) (by omega) h1
  obtain ⟨a2, k2⟩ := markIf_absorbs (bit := 7) (by omega) h2
  have m1 : markIf s2 (micro e.lat < 0) 6 = .ok s2 := markIf_id (bit := 6) (by omega) fun h => k2 _ (a1 h)
  have m2 : markIf s2 (micro e.lng < 0) 7 = .ok s2 := markIf_id (bit := 7) (by omega) fun h => a2 h
  simp only
  rw [m1, Res.ok_bind, m2, Res.ok_bind, hb]

theorem RectArea.encode_again {env : Env} {e e' : RectArea} {bs : Bytes} (h : RectArea.encodeItem env e = .ok (bs, e')) :
    RectArea.encodeItem env e' = .ok (bs, e') := by
  unfold RectArea.encodeItem at h ⊢
  obtain ⟨s1, h1, h⟩ := Res.bind_ok h
  obtain ⟨s2, h2, h⟩ := Res.bind_ok h
  obtain ⟨s3, h3, h⟩ := Res.bind_ok h
  obtain ⟨s4, h4, h⟩ := Res.bind_ok h
  simp only [Res.ok.injEq, Prod.mk.injEq] at h
  obtain ⟨hb, rfl⟩ := h
  obtain ⟨a1, k1⟩ := markIf_absorbs (bit := 6) (by omega) h1
  obtain ⟨a2, k2⟩ := markIf_absorbs (bit := 7) (by omega) h2
  obtain ⟨a3, k3⟩ := markIf_absorbs (bit := 6) (by omega) h3
  obtain ⟨a4, k4⟩ := markIf_absorbs (bit := 7) (by omega) h4
  have m1 : markIf s4 (micro e.leftTopLat < 0) 6 = .ok s4 := markIf_id (bit := 6) (by omega) fun h => k4 _ (k3 _ (k2 _ (a1 h)))
  have m2 : markIf s4 (micro e.leftTopLon < 0) 7 = .ok s4 := markIf_id (bit := 7) (by omega) fun h => k4 _ (k3 _ (a2 h))
  have m3 : markIf s4 (micro e.rightBottomLat < 0) 6 = .ok s4 := markIf_id (bit := 6) (by omega) fun h => k4 _ (a3 h)
  have m4 : markIf s4 (micro e.rightBottomLon < 0) 7 = .ok s4 := markIf_id (bit := 7) (by omega) fun h => a4 h
  simp only
  rw [m1, Res.ok_bind, m2, Res.ok_bind, m3, Res.ok_bind, m4, Res.ok_bind, hb]

theorem markVertexes_absorbs (vs : List Vertex) : ∀ {s s' : UInt16}, markVertexes s vs = .ok s' →
    (∀ m, s ||| m = s → s' ||| m = s') ∧ ∀ t : UInt16, (∀ m, s' ||| m = s' → t ||| m = t) → markVertexes t vs = .ok t := by
  induction vs with
  | nil =>
    intro s s' h
    simp only [markVertexes, Res.ok.injEq] at h
    subst h
    exact ⟨fun _ h => h, fun _ _ => rfl⟩
  | cons v vs ih =>
    intro s s' h
    unfold markVertexes at h
    obtain ⟨s1, h1, h⟩ := Res.bind_ok h
    obtain ⟨s2, h2, h⟩ := Res.bind_ok h
    obtain ⟨a1, k1⟩ := markIf_absorbs (bit := 6) (by omega) h1
    obtain ⟨a2, k2⟩ := markIf_absorbs (bit := 7) (by omega) h2
    obtain ⟨k3, k4⟩ := ih h
    refine ⟨fun m hm => k3 _ (k2 _ (k1 _ hm)), fun t ht => ?_⟩
    have m1 : markIf t (v.lat.mul Dec.million).isNeg 6 = .ok t := markIf_id (bit := 6) (by omega) fun h => ht _ (k3 _ (k2 _ (a1 h)))
    have m2 : markIf t (v.lng.mul Dec.million).isNeg 7 = .ok t := markIf_id (bit := 7) (by omega) fun h => ht _ (k3 _ (a2 h))
    unfold markVertexes
    rw [m1, Res.ok_bind, m2, Res.ok_bind]
    exact k4 t ht

theorem T8604.encode_again {env : Env} {e e' : T8604} {bs : Bytes} (h : T8604.encode env e = .ok (bs, e')) :
    T8604.encode env e' = .ok (bs, e') := by
  unfold T8604.encode at h ⊢
  obtain ⟨s, hs, h⟩ := Res.bind_ok h
  simp only [Res.ok.injEq, Prod.mk.injEq] at h
  obtain ⟨hb, rfl⟩ := h
  simp only
  rw [(markVertexes_absorbs _ hs).2 s (fun _ h => h), Res.ok_bind, hb]

theorem T0201.encode_again {env : Env} {e e' : T0201} {bs : Bytes} (h : T0201.encode env e = .ok (bs, e')) :
    T0201.encode env e' = .ok (bs, e') := by
  unfold T0201.encode at h ⊢
  obtain ⟨⟨d, r⟩, hr, h⟩ := Res.bind_ok h
  simp only [Res.ok.injEq, Prod.mk.injEq] at h
  obtain ⟨rfl, rfl⟩ := h
  simp only [T0200.encode_again hr, Res.ok_bind]

theorem T0705.encode_again {e e' : T0705} {bs : Bytes} (h : T0705.encode e = .ok (bs, e')) : T0705.encode e' = .ok (bs, e') := by
  unfold T0705.encode at h ⊢
  obtain ⟨d, hd, h⟩ := Res.bind_ok h
  simp only [Res.ok.injEq, Prod.mk.injEq] at h
  obtain ⟨hb, rfl⟩ := h
  have : (if (if e.receiveTime > 86400000000000 then 86400000000000 else e.receiveTime) > 86400000000000 then 86400000000000
    else (if e.receiveTime > 86400000000000 then 86400000000000 else e.receiveTime)) =
    (if e.receiveTime > 86400000000000 then (86400000000000 : Int) else e.receiveTime) := by
    split <;> simp_all
  simp only [this, hd, Res.ok_bind, hb]

/-- A media message keeps its fields but has lost its content. -/
theorem T0801.encode_again {env : Env} {e e' : T0801} {bs : Bytes} (h : T0801.encode env e = .ok (bs, e')) :
    ∃ base, bs = base ++ e.packet.getD [] ∧ T0801.encode env e' = .ok (base, e') := by
  unfold T0801.encode at h ⊢
  obtain ⟨⟨d, r⟩, hr, h⟩ := Res.bind_ok h
  simp only [Res.ok.injEq, Prod.mk.injEq] at h
  obtain ⟨rfl, rfl⟩ := h
  have hx : r.extras = [] := by
    unfold T0200.encode at hr
    obtain ⟨_, _, hr⟩ := Res.bind_ok hr
    obtain ⟨_, _, hr⟩ := Res.bind_ok hr
    obtain ⟨_, _, hr⟩ := Res.bind_ok hr
    simp only [Res.ok.injEq, Prod.mk.injEq] at hr
    rw [← hr.2]
  have hr' : ({ r with extras := [] } : T0200) = r := by rw [← hx]
  simp only [hr', T0200.encode_again hr, Res.ok_bind]
  cases e.packet with
  | none => exact ⟨_, by simp, rfl⟩
  | some p => exact ⟨put32 e.mediaID ++ [e.type, e.coding, e.event, e.channelID] ++ d, by simp, by simp⟩

/-- The receiver of `Encode` encodes to the same bytes again, unless it is a media message. -/
theorem Entity.encode_again {env : Env} {e e' : Entity} {bs : Bytes} (h : Entity.encode env e = .ok (bs, e')) (hid : e.msgID ≠ 0x0801) :
    Entity.encode env e' = .ok (bs, e') := by
  cases e with
  | m0200 b =>
    obtain ⟨a, ha, rfl⟩ := wrapEnc_ok h
    simp only [Entity.encode, Entity.wrapEnc, T0200.encode_again ha]
  | m0201 b =>
    obtain ⟨a, ha, rfl⟩ := wrapEnc_ok h
    simp only [Entity.encode, Entity.wrapEnc, T0201.encode_again ha]
  | m0500 b =>
    obtain ⟨a, ha, rfl⟩ := wrapEnc_ok h
    simp only [Entity.encode, Entity.wrapEnc, T0201.encode_again ha]
  | m0705 b =>
    obtain ⟨a, ha, rfl⟩ := wrapEnc_ok h
    simp only [Entity.encode, Entity.wrapEnc, T0705.encode_again ha]
  | m0801 b => exact absurd rfl hid
  | m8600 b =>
    obtain ⟨a, ha, rfl⟩ := wrapEnc_ok h
    unfold T8600.encode at ha
    obtain ⟨⟨d, r⟩, hr, ha⟩ := Res.bind_ok ha
    simp only [Res.ok.injEq, Prod.mk.injEq] at ha
    obtain ⟨rfl, rfl⟩ := ha
    obtain ⟨h1, h2⟩ := encListM_again (fun a b a' h => CircleArea.encode_again h) _ _ _ hr
    simp only [Entity.encode, Entity.wrapEnc, T8600.encode, h1, Res.ok_bind, h2]
  | m8602 b =>
    obtain ⟨a, ha, rfl⟩ := wrapEnc_ok h
    unfold T8602.encode at ha
    obtain ⟨⟨d, r⟩, hr, ha⟩ := Res.bind_ok ha
    simp only [Res.ok.injEq, Prod.mk.injEq] at ha
    obtain ⟨rfl, rfl⟩ := ha
    obtain ⟨h1, h2⟩ := encListM_again (fun a b a' h => RectArea.encode_again h) _ _ _ hr
    simp only [Entity.encode, Entity.wrapEnc, T8602.encode, h1, Res.ok_bind, h2]
  | m8604 b =>
    obtain ⟨a, ha, rfl⟩ := wrapEnc_ok h
    simp only [Entity.encode, Entity.wrapEnc, T8604.encode_again ha]
  | _ =>
    have h' := h
    simp only [Entity.encode] at h'
    cases keep_same h'
    exact h

/-- Encoding does not change the type of a body. -/
theorem Entity.encode_msgID {env : Env} {e e' : Entity} {bs : Bytes} (h : Entity.encode env e = .ok (bs, e')) : e'.msgID = e.msgID := by
  cases e with
  | m0200 b => obtain ⟨a, -, rfl⟩ := wrapEnc_ok h; rfl
  | m0201 b => obtain ⟨a, -, rfl⟩ := wrapEnc_ok h; rfl
  | m0500 b => obtain ⟨a, -, rfl⟩ := wrapEnc_ok h; rfl
  | m0705 b => obtain ⟨a, -, rfl⟩ := wrapEnc_ok h; rfl
  | m0801 b => obtain ⟨a, -, rfl⟩ := wrapEnc_ok h; rfl
  | m8600 b => obtain ⟨a, -, rfl⟩ := wrapEnc_ok h; rfl
  | m8602 b => obtain ⟨a, -, rfl⟩ := wrapEnc_ok h; rfl
  | m8604 b => obtain ⟨a, -, rfl⟩ := wrapEnc_ok h; rfl
  | _ =>
    simp only [Entity.encode] at h
    cases keep_same h
    rfl

end Verif
