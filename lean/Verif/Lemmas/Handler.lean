import Verif.Spec.Handler
import Verif.Spec.Session
import Verif.Lemmas.Multipart
import Verif.Lemmas.Property
/-! # Lemmas on the receive loop -/

namespace Verif
open Handler Session Spec

/-- The upload of a storage file. -/
abbrev Multipart.upload (f : Multipart) : Upload := ⟨f.icc, f.msgID, f.tag⟩

/-- Sequences of elementary steps with what they log. -/
inductive Handler.Tr : Loop → List Act → Loop → Prop
  | nil (s : Loop) : Tr s [] s
  | icc (s : Loop) (i : UInt64) : Tr s [] { s with icc := i }
  | reply (s : Loop) (a b : UInt16) (r : UInt8) : Tr s [.reply a b r] s
  | unhandled (s : Loop) (m : Message Entity) (h : s.handlers m.header.msgID = none) : Tr s [.unhandled m] s
  | handle (s : Loop) (h : Nat) (m : Message Entity) (hh : s.handlers m.header.msgID = some h) : Tr s [.touch, .handle h m] s
  | callback (s : Loop) (serial : UInt16) (r : Pending) (rest : List Pending) (m : Message Entity) (h : takeRequest serial s.requests = some (r, rest))
      (hs : replySerial m = .ok serial) (h0 : serial ≠ 0) : Tr s [.callback r.callback m] { s with requests := rest }
  | wrote (s : Loop) (f : Multipart) (seq : UInt16) (data : Bytes) (o : Outcome) : Tr s [.wrote f seq data o] { s with fs := (f.write o seq data s.fs).1 }
  | merged (s : Loop) (f : Multipart) (o : Outcome) (r : FS × Option Bytes) (h : f.merge o s.fs = .ok r) : Tr s [.merged f o] { s with fs := r.1 }
  | registered (s : Loop) (id : UInt16) (h : Nat) :
      Tr s [.registered id h] { s with handlers := fun x => if x = id then some h else s.handlers x }
  | requested (s : Loop) (r : Pending) : Tr s [.requested r] { s with requests := addRequest r s.requests }
  | closed (s : Loop) : Tr s [.closed] { s with running := false }
  | trans {s s' s'' : Loop} {x y : List Act} (h : Tr s x s') (h' : Tr s' y s'') : Tr s (x ++ y) s''

namespace Handler

/-! ## Steps of others -/

/-- Acts of other goroutines. -/
def foreign : Act → Bool
  | .registered _ _ | .requested _ | .wrote _ _ _ _ | .merged _ _ => true
  | _ => false

theorem outside_tr (s : Loop) (x : Outside) : Tr s (s.outside x).2 (s.outside x).1 := by
  cases x with
  | addHandler id h =>
    cases h with
    | none => exact .nil s
    | some h => exact .registered s id h
  | addRequest r => exact .requested s r
  | write f seq data o => exact .wrote s f seq data o
  | merge f o =>
    unfold Loop.outside
    cases h : f.merge o s.fs with
    | ok r => simp only [h]; exact .merged s f o r h
    | err e => simp only [h]; exact .nil s
    | panic => simp only [h]; exact .nil s

theorem outsides_tr (s : Loop) (xs : List Outside) : Tr s (s.outsides xs).2 (s.outsides xs).1 := by
  induction xs generalizing s with
  | nil => exact .nil s
  | cons x xs ih => exact .trans (outside_tr s x) (ih _)

theorem outside_foreign (s : Loop) (x : Outside) : ∀ a ∈ (s.outside x).2, foreign a = true := by
  cases x with
  | addHandler id h => cases h <;> simp [Loop.outside, foreign]
  | addRequest r => simp [Loop.outside, foreign]
  | write f seq data o => simp [Loop.outside, foreign]
  | merge f o =>
    unfold Loop.outside
    cases h : f.merge o s.fs <;> simp only [h] <;> simp [foreign]

theorem outsides_foreign (s : Loop) (xs : List Outside) : ∀ a ∈ (s.outsides xs).2, foreign a = true := by
  induction xs generalizing s with
  | nil => intro a h; simp [Loop.outsides] at h
  | cons x xs ih =>
    intro a h
    rw [Loop.outsides] at h
    rcases List.mem_append.1 h with h | h
    · exact outside_foreign s x a h
    · exact ih _ a h

theorem offered_append (x y : List Act) : offered (x ++ y) = offered x ++ offered y := List.filterMap_append ..
theorem replies_append (x y : List Act) : replies (x ++ y) = replies x ++ replies y := List.filterMap_append ..
theorem fileOps_append (x y : List Act) : fileOps (x ++ y) = fileOps x ++ fileOps y := List.filterMap_append ..

theorem foreign_offered (x : List Act) (h : ∀ a ∈ x, foreign a = true) : offered x = [] := by
  rw [offered, List.filterMap_eq_nil_iff]
  intro a ha
  have := h a ha
  cases a <;> simp_all [foreign]

theorem foreign_replies (x : List Act) (h : ∀ a ∈ x, foreign a = true) : replies x = [] := by
  rw [replies, List.filterMap_eq_nil_iff]
  intro a ha
  have := h a ha
  cases a <;> simp_all [foreign]

theorem outsides_offered (s : Loop) (xs : List Outside) : offered (s.outsides xs).2 = [] := foreign_offered _ (outsides_foreign s xs)
theorem outsides_replies (s : Loop) (xs : List Outside) : replies (s.outsides xs).2 = [] := foreign_replies _ (outsides_foreign s xs)

theorem outside_running (s : Loop) (x : Outside) : (s.outside x).1.running = s.running := by
  cases x with
  | addHandler id k => cases k <;> rfl
  | merge f o => unfold Loop.outside; cases h : f.merge o s.fs <;> simp only [h]
  | _ => rfl

theorem outsides_running (s : Loop) (xs : List Outside) : (s.outsides xs).1.running = s.running := by
  induction xs generalizing s with
  | nil => rfl
  | cons x xs ih => exact (ih _).trans (outside_running s x)

/-- The logged calls for an upload. -/
abbrev opsFor (u : Upload) (x : List Act) : List FileOp := (fileOps x).filter fun op => op.upload = u

theorem opsFor_append (u : Upload) (x y : List Act) : opsFor u (x ++ y) = opsFor u x ++ opsFor u y := by
  rw [opsFor, fileOps_append, List.filter_append]

theorem outside_quiet (s : Loop) (u : Upload) (x : Outside) (h : concerns u x = false) : opsFor u (s.outside x).2 = [] := by
  cases x with
  | addHandler id k => cases k <;> rfl
  | addRequest r => rfl
  | write f seq data o =>
    simp only [concerns, beq_eq_false_iff_ne] at h
    simp [Loop.outside, opsFor, fileOps, FileOp.upload, h]
  | merge f o =>
    simp only [concerns, beq_eq_false_iff_ne] at h
    unfold Loop.outside
    cases hm : f.merge o s.fs <;> simp only [hm] <;> simp [opsFor, fileOps, FileOp.upload, h]

theorem outsides_quiet (s : Loop) (u : Upload) (xs : List Outside) (h : ∀ x ∈ xs, concerns u x = false) : opsFor u (s.outsides xs).2 = [] := by
  induction xs generalizing s with
  | nil => rfl
  | cons x xs ih =>
    rw [Loop.outsides]
    dsimp only
    rw [opsFor_append, outside_quiet s u x (h x (by simp)), ih _ fun y hy => h y (by simp [hy])]
    rfl

theorem quiet_write {u : Upload} {a : Around} (h : Quiet u a) : ∀ x ∈ a.afterWrite, concerns u x = false := fun x hx => h x (by simp [hx])
theorem quiet_check {u : Upload} {a : Around} (h : Quiet u a) : ∀ x ∈ a.afterCheck, concerns u x = false := fun x hx => h x (by simp [hx])
theorem quiet_merge {u : Upload} {a : Around} (h : Quiet u a) : ∀ x ∈ a.afterMerge, concerns u x = false := fun x hx => h x (by simp [hx])
theorem quiet_dispatch {u : Upload} {a : Around} (h : Quiet u a) : ∀ x ∈ a.beforeDispatch, concerns u x = false := fun x hx => h x (by simp [hx])

/-! ## What elementary steps preserve -/

theorem write_keeps (f : Multipart) (o : Outcome) (seq : UInt16) (data : Bytes) (fs : FS) (x : UInt64) (h : fs x ≠ none) :
    (f.write o seq data fs).1 x ≠ none := (write_dir f.upload f.sum seq data o fs x).2 (.inl h)

theorem merge_keeps (f : Multipart) (o : Outcome) (fs : FS) (r : FS × Option Bytes) (hr : f.merge o fs = .ok r) (x : UInt64) (h : fs x ≠ none) :
    r.1 x ≠ none := ((merge_dir (u := f.upload) (n := f.sum) hr x).1).2 h

theorem tr_dirs {s s' : Loop} {x : List Act} (h : Tr s x s') (i : UInt64) (hd : s.fs i ≠ none) : s'.fs i ≠ none := by
  induction h with
  | wrote s f seq data o => exact write_keeps f o seq data s.fs i hd
  | merged s f o r h => exact merge_keeps f o s.fs r h i hd
  | trans _ _ ih1 ih2 => exact ih2 (ih1 hd)
  | _ => exact hd

theorem merge_ok (f : Multipart) (o : Outcome) (fs : FS) (h : fs f.icc ≠ none) : ∃ r, f.merge o fs = .ok r := by
  unfold Multipart.merge Multipart.walkParts
  cases hd : fs f.icc with
  | none => exact absurd hd h
  | some d => cases o <;> exact ⟨_, rfl⟩

theorem isFull_ok (f : Multipart) (fs : FS) (h : fs f.icc ≠ none) : ∃ b, f.isFull fs = .ok b := by
  unfold Multipart.isFull Multipart.walkParts
  cases hd : fs f.icc with
  | none => exact absurd hd h
  | some d => exact ⟨_, rfl⟩

theorem lastRegistered_append (id : UInt16) (x y : List Act) : lastRegistered id (x ++ y) =
    y.foldl (fun h a => match a with
    | .registered id' h' => if id' = id then some h' else h
    | _ => h) (lastRegistered id x) := List.foldl_append ..

/-- The handlers are those registered last. -/
theorem tr_handlers {s s' : Loop} {x : List Act} (h : Tr s x s') (pre : List Act) (hs : ∀ id, s.handlers id = lastRegistered id pre) :
    ∀ id, s'.handlers id = lastRegistered id (pre ++ x) := by
  induction h generalizing pre with
  | nil s => simpa using hs
  | icc s i => simpa using hs
  | trans _ _ ih1 ih2 => rw [← List.append_assoc]; exact ih2 _ (ih1 _ hs)
  | registered s i h =>
    intro id
    rw [lastRegistered_append]
    simp only [List.foldl_cons, List.foldl_nil, ← hs]
    by_cases hx : i = id
    · subst hx; simp
    · rw [if_neg hx, if_neg (Ne.symm hx)]
  | _ => intro id; rw [lastRegistered_append]; exact hs id

/-- A handler that is called, or the absence of one, agrees with the registrations so far. -/
theorem tr_handled {s s' : Loop} {x : List Act} (h : Tr s x s') (pre : List Act) (hs : ∀ id, s.handlers id = lastRegistered id pre)
    (l1 l2 : List Act) (a : Act) (hx : x = l1 ++ a :: l2) :
    (∀ k m, a = .handle k m → lastRegistered m.header.msgID (pre ++ l1) = some k) ∧
    (∀ m, a = .unhandled m → lastRegistered m.header.msgID (pre ++ l1) = none) := by
  induction h generalizing pre l1 l2 with
  | trans h1 h2 ih1 ih2 =>
    rename_i x y
    rcases List.append_eq_append_iff.1 hx.symm with ⟨c, hc1, hc2⟩ | ⟨c, hc1, hc2⟩
    · cases c with
      | nil =>
        have := ih2 (pre ++ x) (tr_handlers h1 pre hs) [] l2 (by simpa using hc2.symm)
        simpa [hc1] using this
      | cons b c =>
        simp only [List.cons_append, List.cons.injEq] at hc2
        exact ih1 pre hs l1 c (by rw [hc1, hc2.1])
    · have := ih2 (pre ++ x) (tr_handlers h1 pre hs) c l2 hc2
      rwa [List.append_assoc, ← hc1] at this
  | unhandled s m h =>
    have : l1 = [] ∧ a = .unhandled m := by
      cases l1 with
      | nil => simp at hx; exact ⟨rfl, hx.1.symm⟩
      | cons b l1 => simp at hx
    obtain ⟨rfl, rfl⟩ := this
    refine ⟨by simp, fun m' h' => ?_⟩
    cases h'
    simpa [← hs] using h
  | handle s k m hh =>
    have : (l1 = [] ∧ a = .touch) ∨ (l1 = [.touch] ∧ a = .handle k m) := by
      cases l1 with
      | nil => simp at hx; exact .inl ⟨rfl, hx.1.symm⟩
      | cons b l1 =>
        cases l1 with
        | nil => simp at hx; exact .inr ⟨by rw [hx.1], hx.2.1.symm⟩
        | cons c l1 => simp at hx
    rcases this with ⟨rfl, rfl⟩ | ⟨rfl, rfl⟩
    · simp
    · refine ⟨fun k' m' h' => ?_, by simp⟩
      cases h'
      rw [lastRegistered_append, ← hs]
      exact hh
  | nil s => cases l1 <;> simp at hx
  | icc s i => cases l1 <;> simp at hx
  | _ =>
    cases l1 with
    | nil => simp at hx; obtain ⟨rfl, _⟩ := hx; simp
    | cons b l1 => simp at hx

/-- A log in which restarts of the timer come exactly before the calls of handlers. -/
inductive Paired : List Act → Prop
  | nil : Paired []
  | pair (h : Nat) (m : Message Entity) {l : List Act} (hl : Paired l) : Paired (.touch :: .handle h m :: l)
  | other (a : Act) {l : List Act} (ht : a ≠ .touch) (hh : ∀ h m, a ≠ .handle h m) (hl : Paired l) : Paired (a :: l)

theorem Paired.append {x y : List Act} (hx : Paired x) (hy : Paired y) : Paired (x ++ y) := by
  induction hx with
  | nil => exact hy
  | pair h m _ ih => exact .pair h m ih
  | other a ht hh _ ih => exact .other a ht hh ih

theorem tr_paired {s s' : Loop} {x : List Act} (h : Tr s x s') : Paired x := by
  induction h with
  | nil s => exact .nil
  | icc s i => exact .nil
  | handle s k m hh => exact .pair k m .nil
  | trans _ _ ih1 ih2 => exact ih1.append ih2
  | _ => exact .other _ (by simp) (by simp) .nil

/-! ## Handling a message -/

theorem call_recovered (c : UserCode) : recovered c.call = .ok () := by cases c <;> rfl

theorem replySerial_val {m : Message Entity} {e : Entity} (hb : m.body = .val e) (hid : e.msgID = m.header.msgID) :
    replySerial m = .ok ((answered e).getD 0) := by
  unfold replySerial
  rw [← hid, hb]
  cases e <;> rfl

theorem message_spec (s : Loop) (a : Around) (m : Message Entity) (e : Entity) (hb : m.body = .val e) (hid : e.msgID = m.header.msgID) :
    ∃ s' x, s.message a m = .ok (s', x) ∧ Tr s x s' ∧ s'.running = s.running ∧ s'.fs = s.fs ∧ s'.handlers = s.handlers ∧
      (x = [] ∨ ∃ cb, x = [.callback cb m]) := by
  unfold Loop.message
  rw [replySerial_val hb hid]
  have htr : Tr s [] (if m.header.iccID > 0 then { s with icc := m.header.iccID } else s) := by
    split
    · exact .icc s _
    · exact .nil s
  have hreq : (if m.header.iccID > 0 then { s with icc := m.header.iccID } else s).requests = s.requests := by split <;> rfl
  have hrun : (if m.header.iccID > 0 then { s with icc := m.header.iccID } else s).running = s.running := by split <;> rfl
  have hfs : (if m.header.iccID > 0 then { s with icc := m.header.iccID } else s).fs = s.fs := by split <;> rfl
  have hh : (if m.header.iccID > 0 then { s with icc := m.header.iccID } else s).handlers = s.handlers := by split <;> rfl
  generalize (if m.header.iccID > 0 then { s with icc := m.header.iccID } else s) = t at htr hreq hrun hfs hh ⊢
  simp only [Res.ok_bind]
  by_cases h0 : (answered e).getD 0 = 0
  · rw [if_pos h0]
    exact ⟨t, [], rfl, htr, hrun, hfs, hh, .inl rfl⟩
  · rw [if_neg h0]
    cases ht : takeRequest ((answered e).getD 0) t.requests with
    | none => exact ⟨t, [], rfl, htr, hrun, hfs, hh, .inl rfl⟩
    | some r =>
      obtain ⟨r, rest⟩ := r
      simp only [call_recovered, Res.ok_bind]
      refine ⟨_, _, rfl, ?_, hrun, hfs, hh, .inr ⟨_, rfl⟩⟩
      exact .trans htr (.callback t _ r rest m ht (replySerial_val hb hid) h0)

theorem dispatch_spec (s : Loop) (a : Around) (m : Message Entity) :
    ∃ x, s.dispatch a m = .ok (s, x) ∧ Tr s x s ∧ offered x = [m] ∧ replies x = [] ∧ fileOps x = [] ∧
      (∀ h, s.handlers m.header.msgID = some h → Act.touch ∈ x) := by
  unfold Loop.dispatch
  cases h : s.handlers m.header.msgID with
  | none => exact ⟨_, rfl, .unhandled s m h, rfl, rfl, rfl, by simp⟩
  | some k => simp only [call_recovered, Res.ok_bind]; exact ⟨_, rfl, .handle s k m h, rfl, rfl, rfl, by simp⟩

theorem message_offered {x : List Act} {m : Message Entity} (h : x = [] ∨ ∃ cb, x = [.callback cb m]) :
    offered x = [] ∧ replies x = [] ∧ fileOps x = [] := by
  rcases h with rfl | ⟨cb, rfl⟩ <;> exact ⟨rfl, rfl, rfl⟩

theorem lastRegistered_isSome (id : UInt16) (l : List Act) (o : Option Nat) (h : o.isSome) :
    (l.foldl (fun h a => match a with
    | .registered id' h' => if id' = id then some h' else h
    | _ => h) o).isSome := by
  induction l generalizing o with
  | nil => exact h
  | cons a l ih =>
    rw [List.foldl_cons]
    apply ih
    cases a <;> first | exact h | (dsimp only; split <;> simp_all)

/-- Handlers are never removed. -/
theorem tr_keeps_handler {s s' : Loop} {x : List Act} (h : Tr s x s') (id : UInt16) (hs : (s.handlers id).isSome) : (s'.handlers id).isSome := by
  induction h with
  | registered s i h => dsimp only; split <;> simp_all
  | trans _ _ ih1 ih2 => exact ih2 (ih1 hs)
  | _ => exact hs

theorem deliver_spec (s : Loop) (a : Around) (m : Message Entity) (e : Entity) (hb : m.body = .val e) (hid : e.msgID = m.header.msgID) :
    ∃ s' x, s.deliver a m = .ok (s', x) ∧ Tr s x s' ∧ s'.running = s.running ∧ offered x = [m] ∧ replies x = [] ∧
      (∀ u, Quiet u a → opsFor u x = []) ∧
      ((s.handlers m.header.msgID).isSome → Act.touch ∈ x) := by
  obtain ⟨s1, x1, h1, t1, r1, hfs, hh, f1⟩ := message_spec s a m e hb hid
  obtain ⟨x3, h3, t3, o3, p3, g3, k3⟩ := dispatch_spec (s1.outsides a.beforeDispatch).1 a m
  obtain ⟨o1, p1, g1⟩ := message_offered f1
  have htr := outsides_tr s1 a.beforeDispatch
  refine ⟨(s1.outsides a.beforeDispatch).1, x1 ++ (s1.outsides a.beforeDispatch).2 ++ x3, ?_, ?_, ?_, ?_, ?_, ?_, ?_⟩
  · unfold Loop.deliver
    rw [h1]
    simp only [Res.ok_bind]
    rw [h3]
    rfl
  · exact .trans (.trans t1 htr) t3
  · rw [outsides_running, r1]
  · rw [offered_append, offered_append, o1, outsides_offered, o3]; rfl
  · rw [replies_append, replies_append, p1, outsides_replies, p3]; rfl
  · intro u hu
    rw [opsFor_append, opsFor_append, outsides_quiet s1 u _ (quiet_dispatch hu), opsFor, opsFor, g1, g3]; rfl
  · intro hs
    obtain ⟨k, hk⟩ := Option.isSome_iff_exists.1 (tr_keeps_handler htr m.header.msgID (by rw [hh]; exact hs))
    have := k3 k hk
    simp [this]

theorem complete_spec (s : Loop) (a : Around) (m : Message Entity) (b : T0801) (p : Packet) (hid : m.header.msgID = 0x0801)
    (hd : s.fs m.header.iccID ≠ none) :
    ∃ r s' x, (Loop.partFile m b p).merge a.merge s.fs = .ok r ∧ s.complete a m b p = .ok (s', .merged (Loop.partFile m b p) a.merge :: x) ∧
      Tr s (.merged (Loop.partFile m b p) a.merge :: x) s' ∧ s'.running = s.running ∧ replies x = [] ∧
      offered x = (r.2.map (mergedMessage m b)).toList ∧
      (∀ u, Quiet u a → opsFor u x = []) := by
  obtain ⟨r, hr⟩ := merge_ok (Loop.partFile m b p) a.merge s.fs hd
  have ht := Tr.merged s (Loop.partFile m b p) a.merge r hr
  cases hc : r.2 with
  | none =>
    refine ⟨r, { s with fs := r.1 }, [], hr, ?_, ht, rfl, rfl, by simp [hc, offered], fun _ _ => rfl⟩
    unfold Loop.complete
    rw [hr]
    simp [hc]
  | some content =>
    obtain ⟨s', x, h1, h2, h3, h4, h5, h6, _⟩ :=
      deliver_spec (({ s with fs := r.1 } : Loop).outsides a.afterMerge).1 a (mergedMessage m b content) (.m0801 { b with packet := some content }) rfl
        hid.symm
    have ho := outsides_tr { s with fs := r.1 } a.afterMerge
    refine ⟨r, s', (({ s with fs := r.1 } : Loop).outsides a.afterMerge).2 ++ x, hr, ?_, .trans ht (.trans ho h2), ?_, ?_, ?_, ?_⟩
    rotate_left
    · rw [h3, outsides_running]
    · rw [replies_append, outsides_replies, h5]; rfl
    · rw [offered_append, outsides_offered, h4]; simp [hc]
    · intro u hu
      rw [opsFor_append, outsides_quiet _ u _ (quiet_merge hu), h6 u hu]; rfl
    unfold Loop.complete
    rw [hr]
    simp only [Res.ok_bind, hc]
    rw [h1]
    rfl

theorem check_spec (s : Loop) (a : Around) (m : Message Entity) (b : T0801) (p : Packet) (hid : m.header.msgID = 0x0801)
    (hd : s.fs m.header.iccID ≠ none) :
    ∃ s' x, s.check a m b p = .ok (s', x) ∧ Tr s x s' ∧ s'.running = s.running ∧ replies x = [] ∧
      (∀ m' ∈ offered x, ∃ c, m' = mergedMessage m b c) ∧ (p.seq ≠ p.sum → x = []) ∧
      (∀ u, u ≠ (Loop.partFile m b p).upload → Quiet u a → opsFor u x = []) := by
  unfold Loop.check
  by_cases hp : p.seq ≠ p.sum
  · rw [if_pos hp]
    exact ⟨s, [], rfl, .nil s, rfl, rfl, by simp [offered], fun _ => rfl, fun _ _ _ => rfl⟩
  · rw [if_neg hp]
    obtain ⟨full, hf⟩ := isFull_ok (Loop.partFile m b p) s.fs hd
    rw [hf]
    simp only [Res.ok_bind]
    cases full with
    | false => exact ⟨s, [], rfl, .nil s, rfl, rfl, by simp [offered], fun _ => rfl, fun _ _ _ => rfl⟩
    | true =>
      have ht := outsides_tr s a.afterCheck
      obtain ⟨r, s', x, h1, h2, h3, h4, h5, h6, h7⟩ := complete_spec (s.outsides a.afterCheck).1 a m b p hid (tr_dirs ht _ hd)
      simp only [Bool.not_true, Bool.false_eq_true, if_false, h2, Res.ok_bind]
      refine ⟨_, _, rfl, .trans ht h3, by rw [h4, outsides_running], ?_, ?_, fun h => absurd h hp, ?_⟩
      · rw [replies_append, outsides_replies]; exact h5
      · rw [offered_append, outsides_offered]
        show ∀ m' ∈ [] ++ offered x, _
        rw [h6]
        intro m' hm
        cases hr : r.2 with
        | none => simp [hr] at hm
        | some c => simp [hr] at hm; exact ⟨c, hm⟩
      · intro u hne hu
        rw [opsFor_append, outsides_quiet s u _ (quiet_check hu)]
        show opsFor u ([Act.merged (Loop.partFile m b p) a.merge] ++ x) = []
        rw [opsFor_append, h7 u hu]
        simp [opsFor, fileOps, FileOp.upload, Ne.symm hne]

theorem part_spec (s : Loop) (a : Around) (m : Message Entity) (b : T0801) (p : Packet) (data : Bytes) (hid : m.header.msgID = 0x0801) :
    ∃ s' x, s.part a m b p data = .ok (s', x) ∧ Tr s x s' ∧ s'.running = s.running ∧
      replies x = [(m.header.serial, m.header.msgID, if a.write = .ok then 0 else 1)] ∧
      (∀ m' ∈ offered x, ∃ c, m' = mergedMessage m b c) ∧ (p.seq ≠ p.sum → offered x = []) ∧
      (∀ u, u ≠ (Loop.partFile m b p).upload → Quiet u a → opsFor u x = []) ∧
      (p.seq ≠ p.sum → Quiet (Loop.partFile m b p).upload a →
        opsFor (Loop.partFile m b p).upload x = [.write (Loop.partFile m b p).upload p.seq data a.write]) := by
  have hw := Tr.wrote s (Loop.partFile m b p) p.seq data a.write
  have hok : ((Loop.partFile m b p).write a.write p.seq data s.fs).2 = decide (a.write = .ok) := by
    unfold Multipart.write; cases a.write <;> rfl
  unfold Loop.part
  by_cases ho : a.write = .ok
  · have h2 : ((Loop.partFile m b p).write a.write p.seq data s.fs).2 = true := by rw [hok]; simp [ho]
    have hd : ((Loop.partFile m b p).write a.write p.seq data s.fs).1 m.header.iccID ≠ none :=
      (write_dir (Loop.partFile m b p).upload _ p.seq data a.write s.fs m.header.iccID).2 (.inr ⟨rfl, by simp [ho]⟩)
    generalize ((Loop.partFile m b p).write a.write p.seq data s.fs) = w at h2 hd hw ⊢
    have ht := outsides_tr { s with fs := w.1 } a.afterWrite
    obtain ⟨s', x, h3, h4, h5, h6, h7, h8, h9⟩ := check_spec ({ s with fs := w.1 }.outsides a.afterWrite).1 a m b p hid (tr_dirs ht _ hd)
    simp only [h2, Bool.not_true, Bool.false_eq_true, if_false, h3, Res.ok_bind]
    refine ⟨s', _, rfl, ?_, by rw [h5, outsides_running], ?_, ?_, ?_, ?_, ?_⟩
    · exact .trans (.trans (.trans hw (.reply _ m.header.serial m.header.msgID 0)) ht) h4
    · rw [replies_append, replies_append, outsides_replies, h6, ho]; rfl
    · rw [offered_append, offered_append, outsides_offered]; simpa [offered] using h7
    · intro hp
      rw [offered_append, offered_append, outsides_offered, h8 hp]; rfl
    · intro u hne hu
      rw [opsFor_append, opsFor_append, outsides_quiet _ u _ (quiet_write hu), h9 u hne hu]
      simp [opsFor, fileOps, FileOp.upload, Ne.symm hne]
    · intro hp hu
      rw [opsFor_append, opsFor_append, outsides_quiet _ _ _ (quiet_write hu), h8 hp]
      simp [opsFor, fileOps, FileOp.upload]
  · have h2 : ((Loop.partFile m b p).write a.write p.seq data s.fs).2 = false := by rw [hok]; simp [ho]
    simp only [h2, Bool.not_false, if_true]
    refine ⟨_, _, rfl, ?_, rfl, ?_, ?_, fun _ => rfl, fun u hne _ => ?_, fun _ _ => ?_⟩
    · exact .trans hw (.reply _ m.header.serial m.header.msgID 1)
    · rw [if_neg ho]; rfl
    · simp [offered]
    · simp [opsFor, fileOps, FileOp.upload, Ne.symm hne]
    · simp [opsFor, fileOps, FileOp.upload]

theorem isPart_false_of_val {auto : Bool} {m : Message Entity} {e : Entity} (hb : m.body = .val e)
    (h : (!auto || !Property.isEnablePacket m.header.property) = true ∨ ∀ b, e ≠ .m0801 b) : isPart auto m = false := by
  unfold isPart
  rw [hb]
  rcases h with h | h
  · rw [Property.isEnablePacket_spec] at h
    cases auto <;> simp_all
  · cases e <;> simp at h <;> simp

/-- Handling a message that the decoder delivered. -/
theorem process_spec (auto : Bool) (s : Loop) (a : Around) (m : Message Entity) (hm : Delivered m) :
    ∃ s' x, s.process auto a m = .ok (s', x) ∧ Tr s x s' ∧ s'.running = s.running ∧ replies x = due auto m a ∧
      (offered x).filter (fun m => !isPart auto m) = (if hasBody m && !isPart auto m then [m] else []) ∧
      (isPart auto m = false → hasBody m = true → (s.handlers m.header.msgID).isSome → Act.touch ∈ x) ∧
      (∀ u, Quiet u a → (∀ p d, partOf auto m = some (u, p, d) → p.seq ≠ p.sum) →
        opsFor u x = partWrites auto u [(m, a)] ∧ (offered x).filter (belongs auto u) = []) := by
  unfold Loop.process
  have nobody : (∀ e, m.body ≠ .val e) → hasBody m = false := by
    intro h
    unfold hasBody
    cases hb : m.body with
    | val e => exact absurd hb (h e)
    | nil => rfl
    | nilPtr i => rfl
  have nopart : isPart auto m = false → partOf auto m = none := fun h => by unfold partOf; rw [h]; rfl
  have nobodypart : hasBody m = false → isPart auto m = false := by
    unfold hasBody isPart
    cases m.body <;> simp
  have hdeliver : ∀ e, m.body = .val e → isPart auto m = false →
      ∃ s' x, s.deliver a m = .ok (s', x) ∧ Tr s x s' ∧ s'.running = s.running ∧ replies x = due auto m a ∧
      (offered x).filter (fun m => !isPart auto m) = (if hasBody m && !isPart auto m then [m] else []) ∧
      (isPart auto m = false → hasBody m = true → (s.handlers m.header.msgID).isSome → Act.touch ∈ x) ∧
      (∀ u, Quiet u a → (∀ p d, partOf auto m = some (u, p, d) → p.seq ≠ p.sum) →
        opsFor u x = partWrites auto u [(m, a)] ∧ (offered x).filter (belongs auto u) = []) := by
    intro e hb hp
    obtain ⟨s', x, h1, h2, h3, h4, h5, h6, h7⟩ := deliver_spec s a m e hb (hm.type e hb)
    have hbody : hasBody m = true := by unfold hasBody; rw [hb]
    refine ⟨s', x, h1, h2, h3, ?_, ?_, fun _ _ => h7, fun u hu _ => ?_⟩
    · rw [h5, due, hp, hbody]; rfl
    · rw [h4, hp, hbody]; simp [hp]
    · rw [h6 u hu, h4]; simp [partWrites, belongs, nopart hp]
  cases hb : m.body with
  | nil =>
    have := nobody (by rw [hb]; simp)
    exact ⟨s, _, rfl, .reply s _ _ 3, rfl, by rw [due, this]; rfl, by rw [this]; rfl, by rw [this]; simp,
      fun u _ _ => ⟨by simp [opsFor, fileOps, partWrites, nopart (nobodypart this)], rfl⟩⟩
  | nilPtr i =>
    have := nobody (by rw [hb]; simp)
    exact ⟨s, _, rfl, .reply s _ _ 3, rfl, by rw [due, this]; rfl, by rw [this]; rfl, by rw [this]; simp,
      fun u _ _ => ⟨by simp [opsFor, fileOps, partWrites, nopart (nobodypart this)], rfl⟩⟩
  | val e =>
    by_cases hc : (!auto || !Property.isEnablePacket m.header.property) = true
    · simp only [hc, if_true]
      exact hdeliver e hb (isPart_false_of_val hb (.inl hc))
    · simp only [hc, if_false]
      have hauto : auto = true ∧ Property.isEnablePacket m.header.property = true := by
        cases auto <;> simp_all
      by_cases h801 : ∃ b, e = .m0801 b
      · obtain ⟨b, rfl⟩ := h801
        obtain ⟨p, hp⟩ := Option.isSome_iff_exists.1 (hm.packet (by rw [← Property.isEnablePacket_spec]; exact hauto.2))
        obtain ⟨data, hdata⟩ := Option.isSome_iff_exists.1 (hm.content b hb)
        simp only [hp, hdata]
        obtain ⟨s', x, h1, h2, h3, h4, h5, h6, h7, h8⟩ := part_spec s a m b p data (hm.type _ hb).symm
        have hpart : ∀ b', isPart auto { m with body := .val (.m0801 b') } = true := by
          intro b'
          unfold isPart
          rw [← Property.isEnablePacket_spec]
          simp [hauto]
        have hpm : isPart auto m = true := by
          have := hpart b
          unfold isPart at this ⊢
          rw [hb]
          exact this
        have hbody : hasBody m = true := by unfold hasBody; rw [hb]
        refine ⟨s', x, h1, h2, h3, ?_, ?_, by rw [hpm]; simp, ?_⟩
        · rw [h4, due, hpm, hbody]; rfl
        · rw [hpm]
          simp only [Bool.not_true, Bool.and_false, Bool.false_eq_true, if_false, List.filter_eq_nil_iff]
          intro m' hm'
          obtain ⟨c, rfl⟩ := h5 m' hm'
          simp [hpart]
        · intro u hu hseq
          have hpo : partOf auto m = some ((Loop.partFile m b p).upload, p, data) := by
            unfold partOf
            rw [hpm, if_pos rfl, hb, hp]
            simp [hdata, Loop.partFile, T0801.getTag]
          by_cases hx : u = (Loop.partFile m b p).upload
          · subst hx
            have hne := hseq p data hpo
            refine ⟨?_, by rw [h6 hne]; rfl⟩
            rw [h8 hne hu]
            simp [partWrites, hpo]
          · refine ⟨?_, ?_⟩
            · rw [h7 u hx hu]
              simp [partWrites, hpo, Ne.symm hx]
            · rw [List.filter_eq_nil_iff]
              intro m' hm'
              obtain ⟨c, rfl⟩ := h5 m' hm'
              have : partOf auto (mergedMessage m b c) = some ((Loop.partFile m b p).upload, p, c) := by
                unfold partOf
                rw [hpart, if_pos rfl]
                simp [hp, Loop.partFile, T0801.getTag]
              simp [belongs, this, Ne.symm hx]
      · have : ∀ b, e ≠ .m0801 b := fun b hb => h801 ⟨b, hb⟩
        have hd := hdeliver e hb (isPart_false_of_val hb (.inr this))
        cases e with
        | m0801 b => exact absurd rfl (this b)
        | _ => exact hd

end Handler
end Verif
