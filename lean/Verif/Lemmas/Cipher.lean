import Verif.Spec.Cipher
import Verif.Lemmas.Talk
import Verif.Props.Rsa
import Verif.Props.Stream
import Verif.Props.Handler
/-! # Lemmas on sessions whose terminal encrypts -/

namespace Verif.Converse
open Spec Codec Session Handler

variable {σ : Type}

/-- The loop on a stream that begins with frames: it processes their messages and goes on with the rest. -/
theorem serve_frames (env : Env) (key : Option DecKey) (endErr : Err) (auto : Bool) (P : Program σ) (os' : List (Outcome × Outcome)) (rest : Bytes)
    (xs : List (Bytes × Message Entity))
    (hxs : ∀ x ∈ xs, Delimited x.1 ∧ x.1.length ≤ 65408 ∧ Message.decode (entityCodec env) key {} x.1 = .ok x.2) :
    ∀ (os : List (Outcome × Outcome)) (c : RecvState), os.length = xs.length → Holds c (xs.flatMap (·.1) ++ rest) 65408 →
      ∃ c', Holds c' rest 65408 ∧ ∀ s : State σ, s.serve env key endErr auto P (os ++ os') c =
        (s.run auto P ((xs.map (·.2)).zip os)).bind fun r => (r.1.serve env key endErr auto P os' c').bind fun r' => .ok (r'.1, r.2 ++ r'.2) := by
  induction xs with
  | nil =>
    intro os c hl hc
    obtain rfl := List.length_eq_zero_iff.1 hl
    refine ⟨c, by simpa using hc, fun s => ?_⟩
    show s.serve env key endErr auto P os' c = (s.serve env key endErr auto P os' c).bind fun r' => .ok (r'.1, [] ++ r'.2)
    cases s.serve env key endErr auto P os' c <;> rfl
  | cons x xs ih =>
    intro os c hl hc
    obtain ⟨o, os, rfl⟩ := List.exists_cons_of_length_eq_add_one hl
    obtain ⟨a1, a2, a3⟩ := hxs x (by simp)
    obtain ⟨c1, r1, r2⟩ := receive_frame (C := entityCodec env) (key := key) (endErr := endErr) (f := x.1) (rest := xs.flatMap (·.1) ++ rest)
      (by simpa using hc) a1 (by rw [a3]; simp) a2 (Nat.le_refl _)
    obtain ⟨c', h1, h2⟩ := ih (fun y hy => hxs y (by simp [hy])) os c1 (by simpa using hl) r2
    refine ⟨c', h1, fun s => ?_⟩
    simp only [List.cons_append, State.serve, List.map_cons, List.zip_cons_cons, State.run, r1, a3]
    cases s.process auto P o x.2 with
    | err e => rfl
    | panic => rfl
    | ok y =>
      simp only [Res.ok_bind, h2]
      cases y.1.run auto P ((xs.map (·.2)).zip os) with
      | err e => rfl
      | panic => rfl
      | ok z =>
        show ((z.1.serve env key endErr auto P os' c').bind fun r' => Res.ok (r'.1, z.2 ++ r'.2)).bind
            (fun r => Res.ok (r.1, Ev.received x.2 :: (y.2 ++ r.2))) =
          (z.1.serve env key endErr auto P os' c').bind fun r' => Res.ok (r'.1, (Ev.received x.2 :: (y.2 ++ z.2)) ++ r'.2)
        cases z.1.serve env key endErr auto P os' c' with
        | err e => rfl
        | panic => rfl
        | ok w =>
          show Res.ok (w.1, Ev.received x.2 :: (y.2 ++ (z.2 ++ w.2))) = Res.ok (w.1, (Ev.received x.2 :: (y.2 ++ z.2)) ++ w.2)
          simp

/-- The frames of messages sent in plain text or encrypted, and what each of them is decoded to. -/
theorem sendableAs_frames (env : Env) (key : Option DecKey) (ms : List (Message Entity × Entity × Option EncKey))
    (hms : ∀ x ∈ ms, SendableAs env key x.1 x.2.1 x.2.2) :
    ∃ xs : List (Bytes × Message Entity), xs.length = ms.length ∧
      ms.map (fun x => (Message.encode (entityCodec env) x.2.2 x.1).bind fun r => .ok r.1) = xs.map (fun x => .ok x.1) ∧
      (∀ x ∈ xs, Delimited x.1 ∧ x.1.length ≤ 65408 ∧ Message.decode (entityCodec env) key {} x.1 = .ok x.2) ∧
      ∀ p ∈ ms.zip (xs.map (·.2)), Carries p.1.1 p.1.2.1 p.2 ∧ encryptFlag p.2.header.property.toNat = p.1.2.2.isSome := by
  induction ms with
  | nil => exact ⟨[], rfl, rfl, by simp, by simp⟩
  | cons x ms ih =>
    obtain ⟨xs, i1, i2, i3, i4⟩ := ih fun y hy => hms y (by simp [hy])
    obtain ⟨m, e, how⟩ := x
    have hx : SendableAs env key m e how := hms (m, e, how) (by simp)
    have one : ∃ f m' d, Message.encode (entityCodec env) how m = .ok (f, m') ∧ Message.decode (entityCodec env) key {} f = .ok d ∧
        Carries m e d ∧ encryptFlag d.header.property.toNat = how.isSome ∧ Delimited f ∧ f.length ≤ 2082 := by
      obtain ⟨b, e', e1, e2⟩ := Entity.round_trip env e hx.range
      have henc : (entityCodec env).encode e = .ok (b, e') := e1
      cases how with
      | none =>
        obtain ⟨p1, p2⟩ := hx.plain rfl
        obtain ⟨f, m', d, g1, g2, g3, g4, g5, g6, g7, -, g8, g9, -⟩ := C01_message_round_trip (entityCodec env) m e e' _ b _ hx.body e1 e2 hx.icc0 hx.icc1
          (p2 b e' e1) p1 hx.packet key {}
        have hb : Message.encodeBody (entityCodec env) none m = .ok (b, m.header, .val e') := by simp [Message.encodeBody, hx.body, henc]
        exact ⟨f, m', d, g1, g2, ⟨g3, g4, g5, g6, g7, g9⟩, g8, frame_of_encode g1 hb (p2 b e' e1)⟩
      | some k =>
        obtain ⟨d, size, rfl, c1, c2⟩ := hx.cipher k rfl
        obtain ⟨f, m', r, g1, g2, g3, g4, g5, g6, g7, g8, g9, -⟩ := C28_encrypted_round_trip (entityCodec env) m e e' _ b _ hx.body e1 e2 hx.icc0 hx.icc1 hx.packet k d
          size c1 (c2 b e' e1) {}
        obtain ⟨x, x1, x2, x3⟩ := encrypt_decrypt c1 b
        have hb : Message.encodeBody (entityCodec env) (some k) m =
            .ok (x, { m.header with property := Property.enableEncrypt m.header.property }, .val e') := by
          simp [Message.encodeBody, hx.body, henc, x1]
        exact ⟨f, m', r, g1, g2, ⟨g3, g4, g5, g6, g7, g9⟩, g8, frame_of_encode g1 hb (by rw [x2]; exact c2 b e' e1)⟩
    obtain ⟨f, m', d, g1, g2, g3, g4, g5, g6⟩ := one
    refine ⟨(f, d) :: xs, by simp [i1], ?_, ?_, ?_⟩
    · simp only [List.map_cons, i2, g1]
      rfl
    · intro y hy
      rcases List.mem_cons.1 hy with rfl | hy
      · exact ⟨g5, by simp only; omega, g2⟩
      · exact i3 y hy
    · intro p hp
      simp only [List.map_cons, List.zip_cons_cons] at hp
      rcases List.mem_cons.1 hp with rfl | hp
      · exact ⟨g3, g4⟩
      · exact i4 p hp

/-- What frames are decoded to is delivered. -/
theorem delivered_frames {env : Env} {key : Option DecKey} {xs : List (Bytes × Message Entity)}
    (hxs : ∀ x ∈ xs, Delimited x.1 ∧ x.1.length ≤ 65408 ∧ Message.decode (entityCodec env) key {} x.1 = .ok x.2) (os : List (Outcome × Outcome)) :
    ∀ x ∈ (xs.map (·.2)).zip os, Delivered x.1 := by
  intro x hx
  obtain ⟨y, hy, hxy⟩ := List.mem_map.1 (List.of_mem_zip (a := x.1) (b := x.2) hx).1
  rw [← hxy]
  exact C49_decoded_messages_are_delivered env key _ _ (hxs y hy).2.2

/-- The frame of a message that cannot be decrypted. -/
theorem unreadable_frame {env : Env} (key : Option DecKey) {m : Message Entity} {e : Entity} {k : EncKey} {d : DecKey}
    (hx : SendableAs env (some d) m e (some k))
    (hkey : ∀ d', key = some d' → ∀ b e' x, Entity.encode env e = .ok (b, e') → encryptOAEP k b = .ok x → ∃ err, decryptOAEP d' x = .err err) :
    ∃ f m', Message.encode (entityCodec env) (some k) m = .ok (f, m') ∧ Message.decode (entityCodec env) key {} f = .err .decryptFailed ∧
      Delimited f ∧ f.length ≤ 2082 := by
  obtain ⟨b, e', e1, e2⟩ := Entity.round_trip env e hx.range
  have henc : (entityCodec env).encode e = .ok (b, e') := e1
  obtain ⟨d0, size, hd, c1, c2⟩ := hx.cipher k rfl
  obtain ⟨f, m', r, g1, g2, -, -, -, -, -, -, -, -, g3, g4⟩ := C28_encrypted_round_trip (entityCodec env) m e e' _ b _ hx.body e1 e2 hx.icc0 hx.icc1 hx.packet k d0
    size c1 (c2 b e' e1) {}
  obtain ⟨x, x1, x2, x3⟩ := encrypt_decrypt c1 b
  have hb : Message.encodeBody (entityCodec env) (some k) m = .ok (x, { m.header with property := Property.enableEncrypt m.header.property }, .val e') := by
    simp [Message.encodeBody, hx.body, henc, x1]
  refine ⟨f, m', g1, ?_, frame_of_encode g1 hb (by rw [x2]; exact c2 b e' e1)⟩
  cases key with
  | none => exact g3
  | some d' =>
    obtain ⟨err, he⟩ := hkey d' rfl b e' x e1 x1
    exact g4 d' x err x1 he

theorem map_ok_inj {α : Type} : ∀ {as bs : List α}, as.map Res.ok = bs.map Res.ok → as = bs
  | [], [], _ => rfl
  | [], _ :: _, h => by simp at h
  | _ :: _, [], h => by simp at h
  | a :: as, b :: bs, h => by
    simp only [List.map_cons, List.cons.injEq, Res.ok.injEq] at h
    rw [h.1, map_ok_inj h.2]

theorem each_of_zip {α β γ : Type} {R : β → γ → Prop} : ∀ {ms : List α} {xs : List β} {ys : List γ}, xs.length = ms.length → ys.length = ms.length →
    (∀ m d d', (m, d) ∈ ms.zip xs → (m, d') ∈ ms.zip ys → R d d') → Each R xs ys
  | [], [], [], _, _, _ => .nil
  | a :: _, x :: xs, y :: ys, h1, h2, h => by
    simp only [List.length_cons, Nat.add_right_cancel_iff] at h1 h2
    exact .cons (h a x y (by simp) (by simp)) (each_of_zip h1 h2 fun m d d' hd hd' => h m d d' (by simp [hd]) (by simp [hd']))

/-! ## Programs that do not look at the encryption -/

/-- The same result, with messages of the same content. -/
inductive Alike : Res (State σ × List Ev) → Res (State σ × List Ev) → Prop where
  | ok (s : State σ) {x x' : List Ev} : Each SameEvent x x' → Alike (.ok (s, x)) (.ok (s, x'))
  | err (e : Err) : Alike (.err e) (.err e)
  | panic : Alike .panic .panic

theorem sameEvents_refl : ∀ x : List Ev, Each SameEvent x x
  | [] => .nil
  | a :: x => .cons (.same a) (sameEvents_refl x)

theorem sameEvents_append {x x' y y' : List Ev} (h : Each SameEvent x x') (h' : Each SameEvent y y') :
    Each SameEvent (x ++ y) (x' ++ y') := by
  induction h with
  | nil => exact h'
  | cons a _ ih => exact .cons a ih

theorem alike_refl (r : Res (State σ × List Ev)) : Alike r r := by
  cases r with
  | ok x => exact .ok x.1 (sameEvents_refl x.2)
  | err e => exact .err e
  | panic => exact .panic

theorem alike_bind {r r' : Res (State σ × List Ev)} {f f' : State σ × List Ev → Res (State σ × List Ev)} (h : Alike r r')
    (hf : ∀ s x x', Each SameEvent x x' → Alike (f (s, x)) (f' (s, x'))) : Alike (r.bind f) (r'.bind f') := by
  cases h with
  | ok s hx => exact hf s _ _ hx
  | err e => exact .err e
  | panic => exact .panic

section
variable {P : Program σ} (hP : Blind P) {m m' : Message Entity} (hm : SameContent m m')
include hP hm

theorem note_alike (s : State σ) : Alike (s.note P m) (s.note P m') := by
  obtain ⟨h1, h2, h3, h4, h5, h6⟩ := hm
  have hr : replySerial m = replySerial m' := by simp only [replySerial, h1, h2]
  unfold State.note
  simp only [hr, h4]
  cases replySerial m' with
  | err e => exact .err e
  | panic => exact .panic
  | ok n =>
    simp only [Res.ok_bind]
    split
    · exact alike_refl _
    · generalize (if m'.header.iccID > 0 then { s with icc := m'.header.iccID } else s) = s
      split
      · exact alike_refl _
      · rename_i r rest _
        rw [(hP m m' ⟨h1, h2, h3, h4, h5, h6⟩).2 r.callback s.user]
        generalize ({ s with requests := rest } : State σ).exec _ = x
        cases recovered x.2.2.call with
        | err e => exact .err e
        | panic => exact .panic
        | ok _ => exact .ok _ (.cons (.ran _ ⟨h1, h2, h3, h4, h5, h6⟩) (sameEvents_refl _))

theorem dispatch_alike (s : State σ) : Alike (s.dispatch P m) (s.dispatch P m') := by
  unfold State.dispatch
  rw [hm.2.1]
  cases P.handlers m'.header.msgID with
  | none => exact .ok _ (.cons (.unhandled hm) .nil)
  | some h =>
    simp only
    rw [(hP m m' hm).1 h s.user]
    generalize s.exec _ = x
    cases recovered x.2.2.call with
    | err e => exact .err e
    | panic => exact .panic
    | ok _ => exact .ok _ (.cons (.handled _ hm) (sameEvents_refl _))

theorem deliver_alike (s : State σ) : Alike (s.deliver P m) (s.deliver P m') := by
  unfold State.deliver
  refine alike_bind (note_alike hP hm s) fun s x x' hx => alike_bind (dispatch_alike hP hm s) fun s y y' hy => ?_
  exact .ok _ (sameEvents_append hx hy)

theorem check_alike (s : State σ) (o : Outcome) (b : T0801) (p : Packet) : Alike (s.check P o m b p) (s.check P o m' b p) := by
  have hf : Loop.partFile m b p = Loop.partFile m' b p := by simp only [Loop.partFile, hm.2.1, hm.2.2.2.1]
  unfold State.check
  rw [hf]
  split
  · exact alike_refl _
  · cases (Loop.partFile m' b p).isFull s.fs with
    | err e => exact .err e
    | panic => exact .panic
    | ok full =>
      simp only [Res.ok_bind]
      split
      · exact alike_refl _
      · cases (Loop.partFile m' b p).merge o s.fs with
        | err e => exact .err e
        | panic => exact .panic
        | ok r =>
          simp only [Res.ok_bind]
          split
          · exact alike_refl _
          · refine alike_bind (deliver_alike hP (by exact ⟨rfl, hm.2⟩) _) fun s x x' hx => ?_
            exact .ok _ (.cons (.same _) hx)

theorem part_alike (s : State σ) (o : Outcome × Outcome) (b : T0801) (p : Packet) (data : Bytes) :
    Alike (s.part P o m b p data) (s.part P o m' b p data) := by
  have hf : Loop.partFile m b p = Loop.partFile m' b p := by simp only [Loop.partFile, hm.2.1, hm.2.2.2.1]
  have hr : ∀ (s : State σ) n, s.reply m n = s.reply m' n := by intro s n; simp only [State.reply, hm.2.1, hm.2.2.1]
  unfold State.part
  simp only [hf, hr]
  split
  · exact alike_refl _
  · refine alike_bind (check_alike hP hm _ o.2 b p) fun s x x' hx => ?_
    exact .ok _ (.cons (.same _) (sameEvents_append (sameEvents_refl _) hx))

theorem process_alike (auto : Bool) (s : State σ) (o : Outcome × Outcome) : Alike (s.process auto P o m) (s.process auto P o m') := by
  have hr : ∀ (s : State σ) n, s.reply m n = s.reply m' n := by intro s n; simp only [State.reply, hm.2.1, hm.2.2.1]
  have hp : Property.isEnablePacket m.header.property = Property.isEnablePacket m'.header.property := by
    rw [Property.isEnablePacket_spec, Property.isEnablePacket_spec, hm.2.2.2.2.2]
  unfold State.process
  rw [hm.1, hr, hp, hm.2.2.2.2.1]
  split
  · split
    · exact deliver_alike hP hm s
    · split
      · split
        · exact part_alike hP hm s o _ _ _
        · exact .panic
      · exact deliver_alike hP hm s
  · exact alike_refl _

end

/-- Messages of the same content lead to the same course of the session. -/
theorem run_alike {P : Program σ} (hP : Blind P) (auto : Bool) {ms ms' : List (Message Entity)} (h : Each SameContent ms ms')
    (os : List (Outcome × Outcome)) (s : State σ) : Alike (s.run auto P (ms.zip os)) (s.run auto P (ms'.zip os)) := by
  induction h generalizing os s with
  | nil => exact alike_refl _
  | cons hm _ ih =>
    cases os with
    | nil => exact alike_refl _
    | cons o os =>
      simp only [List.zip_cons_cons, State.run]
      refine alike_bind (process_alike hP hm auto s o) fun s x x' hx => alike_bind (ih os s) fun s y y' hy => ?_
      exact .ok _ (.cons (.received hm) (sameEvents_append hx hy))

end Verif.Converse
