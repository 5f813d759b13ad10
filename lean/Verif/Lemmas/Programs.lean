import Verif.Lemmas.Talk
import Verif.Spec.Programs
import Verif.Lemmas.Upload
/-! # Lemmas on the example programs -/

namespace Verif.Converse
open Session Handler Spec

variable {σ : Type}

/-! ## Nothing is refused if everything is accepted -/

theorem send_accepts (s : State σ) (e : Entity) (h : s.accepts = []) : (s.send e).1.accepts = [] ∧ (s.send e).2.1 = [.sent (s.message e)] := by
  unfold State.send
  simp [h]

theorem request_accepts (s : State σ) (e : Entity) (cb : Nat) (h : s.accepts = []) :
    (s.request e cb).1.accepts = [] ∧ ∀ m, .refused m ∉ (s.request e cb).2.1 := by
  unfold State.request State.send
  simp [h]

theorem exec_accepts (c : Code σ) (s : State σ) (h : s.accepts = []) : (s.exec c).1.accepts = [] ∧ ∀ m, .refused m ∉ (s.exec c).2.1 := by
  induction c generalizing s with
  | returns u => exact ⟨h, by simp [State.exec]⟩
  | panics u => exact ⟨h, by simp [State.exec]⟩
  | send e next ih =>
    obtain ⟨h1, h2⟩ := send_accepts s e h
    obtain ⟨h3, h4⟩ := ih (s.send e).2.2 (s.send e).1 h1
    refine ⟨h3, fun m hm => ?_⟩
    simp only [State.exec, h2, List.singleton_append, List.mem_cons, reduceCtorEq, false_or] at hm
    exact h4 m hm
  | request e cb next ih =>
    obtain ⟨h1, h2⟩ := request_accepts s e cb h
    obtain ⟨h3, h4⟩ := ih (s.request e cb).2.2 (s.request e cb).1 h1
    refine ⟨h3, fun m hm => ?_⟩
    simp only [State.exec, List.mem_append] at hm
    rcases hm with hm | hm
    · exact h2 m hm
    · exact h4 m hm

theorem reply_accepts (s : State σ) (m : Message Entity) (r : UInt8) (h : s.accepts = []) :
    (s.reply m r).1.accepts = [] ∧ ∀ m', .refused m' ∉ (s.reply m r).2 := by
  unfold State.reply
  obtain ⟨h1, h2⟩ := send_accepts s (.m8001 { replySerial := m.header.serial, replyID := m.header.msgID, result := r }) h
  exact ⟨h1, by simp [h2]⟩

theorem note_accepts (P : Program σ) (s : State σ) (m : Message Entity) (h : s.accepts = []) {s' : State σ} {x : List Ev} (hr : s.note P m = .ok (s', x)) :
    s'.accepts = [] ∧ ∀ m', .refused m' ∉ x := by
  unfold State.note at hr
  have hs : (if m.header.iccID > 0 then { s with icc := m.header.iccID } else s).accepts = [] := by split <;> exact h
  generalize (if m.header.iccID > 0 then { s with icc := m.header.iccID } else s) = s0 at hr hs
  simp only at hr
  cases hq : replySerial m with
  | err e => simp [hq] at hr
  | panic => simp [hq] at hr
  | ok serial =>
    simp only [hq, Res.ok_bind] at hr
    split at hr
    · obtain ⟨rfl, rfl⟩ : s0 = s' ∧ [] = x := by simpa using hr
      exact ⟨hs, by simp⟩
    · split at hr
      · obtain ⟨rfl, rfl⟩ : s0 = s' ∧ [] = x := by simpa using hr
        exact ⟨hs, by simp⟩
      · rename_i r rest ht
        obtain ⟨h1, h2⟩ := exec_accepts (P.callback r.callback s0.user m) { s0 with requests := rest } hs
        have hc : recovered ({ s0 with requests := rest }.exec (P.callback r.callback s0.user m)).2.2.call = .ok () := recovered_ok _
        simp only [hc, Res.ok_bind] at hr
        obtain ⟨rfl, rfl⟩ := Prod.mk.inj (Res.ok.inj hr)
        exact ⟨h1, fun m' hm => by
          simp only [List.mem_cons, reduceCtorEq, false_or] at hm
          exact h2 m' hm⟩

theorem dispatch_accepts (P : Program σ) (s : State σ) (m : Message Entity) (h : s.accepts = []) {s' : State σ} {x : List Ev}
    (hr : s.dispatch P m = .ok (s', x)) : s'.accepts = [] ∧ ∀ m', .refused m' ∉ x := by
  unfold State.dispatch at hr
  cases hh : P.handlers m.header.msgID with
  | none =>
    simp only [hh] at hr
    obtain ⟨rfl, rfl⟩ := Prod.mk.inj (Res.ok.inj hr)
    exact ⟨h, by simp⟩
  | some i =>
    simp only [hh] at hr
    obtain ⟨h1, h2⟩ := exec_accepts (P.handler i s.user m) s h
    have hc : recovered (s.exec (P.handler i s.user m)).2.2.call = .ok () := recovered_ok _
    simp only [hc, Res.ok_bind] at hr
    obtain ⟨rfl, rfl⟩ := Prod.mk.inj (Res.ok.inj hr)
    exact ⟨h1, fun m' hm => by
      simp only [List.mem_cons, reduceCtorEq, false_or] at hm
      exact h2 m' hm⟩

theorem deliver_accepts (P : Program σ) (s : State σ) (m : Message Entity) (h : s.accepts = []) {s' : State σ} {x : List Ev}
    (hr : s.deliver P m = .ok (s', x)) : s'.accepts = [] ∧ ∀ m', .refused m' ∉ x := by
  unfold State.deliver at hr
  cases h1 : s.note P m with
  | err e => simp [h1] at hr
  | panic => simp [h1] at hr
  | ok r =>
    obtain ⟨s1, y⟩ := r
    simp only [h1, Res.ok_bind] at hr
    obtain ⟨a1, a2⟩ := note_accepts P s m h h1
    cases h2 : s1.dispatch P m with
    | err e => simp [h2] at hr
    | panic => simp [h2] at hr
    | ok r =>
      obtain ⟨s2, z⟩ := r
      simp only [h2, Res.ok_bind] at hr
      obtain ⟨b1, b2⟩ := dispatch_accepts P s1 m a1 h2
      obtain ⟨rfl, rfl⟩ := Prod.mk.inj (Res.ok.inj hr)
      refine ⟨b1, fun m' hm => ?_⟩
      rcases List.mem_append.1 hm with hm | hm
      · exact a2 m' hm
      · exact b2 m' hm

theorem check_accepts (P : Program σ) (s : State σ) (o : Outcome) (m : Message Entity) (b : T0801) (p : Packet) (h : s.accepts = []) {s' : State σ} {x : List Ev}
    (hr : s.check P o m b p = .ok (s', x)) : s'.accepts = [] ∧ ∀ m', .refused m' ∉ x := by
  unfold State.check at hr
  split at hr
  · obtain ⟨rfl, rfl⟩ := Prod.mk.inj (Res.ok.inj hr)
    exact ⟨h, by simp⟩
  · cases h1 : (Loop.partFile m b p).isFull s.fs with
    | err e => simp [h1] at hr
    | panic => simp [h1] at hr
    | ok full =>
      simp only [h1, Res.ok_bind] at hr
      split at hr
      · obtain ⟨rfl, rfl⟩ := Prod.mk.inj (Res.ok.inj hr)
        exact ⟨h, by simp⟩
      · cases h2 : (Loop.partFile m b p).merge o s.fs with
        | err e => simp [h2] at hr
        | panic => simp [h2] at hr
        | ok r =>
          obtain ⟨fs, c⟩ := r
          simp only [h2, Res.ok_bind] at hr
          cases c with
          | none =>
            simp only at hr
            obtain ⟨rfl, rfl⟩ := Prod.mk.inj (Res.ok.inj hr)
            exact ⟨h, by simp⟩
          | some content =>
            simp only at hr
            cases h3 : { s with fs := fs }.deliver P { m with body := .val (.m0801 { b with packet := some content }) } with
            | err e => simp [h3] at hr
            | panic => simp [h3] at hr
            | ok r =>
              obtain ⟨s2, z⟩ := r
              simp only [h3, Res.ok_bind] at hr
              obtain ⟨b1, b2⟩ := deliver_accepts P { s with fs := fs } _ h h3
              obtain ⟨rfl, rfl⟩ := Prod.mk.inj (Res.ok.inj hr)
              exact ⟨b1, fun m' hm => by
                simp only [List.mem_cons, reduceCtorEq, false_or] at hm
                exact b2 m' hm⟩

theorem process_accepts (auto : Bool) (P : Program σ) (s : State σ) (o : Outcome × Outcome) (m : Message Entity) (h : s.accepts = []) {s' : State σ} {x : List Ev}
    (hr : s.process auto P o m = .ok (s', x)) : s'.accepts = [] ∧ ∀ m', .refused m' ∉ x := by
  have hrep : ∀ r, (s.reply m r) = (s', x) → s'.accepts = [] ∧ ∀ m', .refused m' ∉ x := by
    intro r hr
    have := reply_accepts s m r h
    rw [hr] at this
    exact this
  unfold State.process at hr
  split at hr
  · split at hr
    · exact deliver_accepts P s m h hr
    · split at hr
      · split at hr
        · rename_i b _ _ _ p data _ _
          unfold State.part at hr
          simp only at hr
          have ha : ({ s with fs := ((Loop.partFile m b p).write o.1 p.seq data s.fs).1 } : State σ).accepts = [] := h
          obtain ⟨r1, r2⟩ := reply_accepts _ m (if ((Loop.partFile m b p).write o.1 p.seq data s.fs).2 = true then 0 else 1) ha
          generalize ({ s with fs := ((Loop.partFile m b p).write o.1 p.seq data s.fs).1 } : State σ).reply m
            (if ((Loop.partFile m b p).write o.1 p.seq data s.fs).2 = true then 0 else 1) = r at hr r1 r2
          split at hr
          · obtain ⟨rfl, rfl⟩ := Prod.mk.inj (Res.ok.inj hr)
            exact ⟨r1, by simpa using r2⟩
          · cases h3 : r.1.check P o.2 m b p with
            | err e => simp [h3] at hr
            | panic => simp [h3] at hr
            | ok q =>
              obtain ⟨s2, z⟩ := q
              simp only [h3, Res.ok_bind] at hr
              obtain ⟨b1, b2⟩ := check_accepts P r.1 o.2 m b p r1 h3
              obtain ⟨rfl, rfl⟩ := Prod.mk.inj (Res.ok.inj hr)
              refine ⟨b1, fun m' hm => ?_⟩
              simp only [List.mem_cons, reduceCtorEq, false_or, List.mem_append] at hm
              rcases hm with hm | hm
              · exact r2 m' hm
              · exact b2 m' hm
        · cases hr
      · exact deliver_accepts P s m h hr
  · exact hrep 3 (Res.ok.inj hr)

theorem run_accepts (auto : Bool) (P : Program σ) (ms : List (Message Entity × Outcome × Outcome)) (s : State σ) (h : s.accepts = []) {s' : State σ}
    {log : List Ev} (hr : s.run auto P ms = .ok (s', log)) : ∀ m, .refused m ∉ log := by
  induction ms generalizing s s' log with
  | nil =>
    obtain ⟨rfl, rfl⟩ := Prod.mk.inj (Res.ok.inj hr)
    simp
  | cons m ms ih =>
    obtain ⟨m, o⟩ := m
    simp only [State.run] at hr
    cases h1 : s.process auto P o m with
    | err e => simp [h1] at hr
    | panic => simp [h1] at hr
    | ok r =>
      obtain ⟨s1, x⟩ := r
      simp only [h1, Res.ok_bind] at hr
      obtain ⟨a1, a2⟩ := process_accepts auto P s o m h h1
      cases h2 : s1.run auto P ms with
      | err e => simp [h2] at hr
      | panic => simp [h2] at hr
      | ok r =>
        obtain ⟨s2, y⟩ := r
        simp only [h2, Res.ok_bind] at hr
        have hb := ih s1 a1 h2
        obtain ⟨rfl, rfl⟩ := Prod.mk.inj (Res.ok.inj hr)
        intro m' hm
        simp only [List.mem_cons, reduceCtorEq, false_or, List.mem_append] at hm
        rcases hm with hm | hm
        · exact a2 m' hm
        · exact hb m' hm

/-! ## What a turn does, for the messages of the example -/

theorem performs_returns {icc : UInt64} {n n' : Nat} {t t' : Table} {x : List Ev} {u v : σ} (h : Performs icc n t (.returns v) x n' t' u) :
    x = [] ∧ n' = n ∧ t' = t ∧ u = v := by
  cases h
  exact ⟨rfl, rfl, rfl, rfl⟩

theorem performs_send {icc : UInt64} {n n' : Nat} {t t' : Table} {e : Entity} {next : Option UInt16 → Code σ} {x : List Ev} {u : σ}
    (h : Performs icc n t (.send e next) x n' t' u) (hr : ∀ m, .refused m ∉ x) :
    ∃ y, x = .sent (outgoing icc n e) :: y ∧ Performs icc (n + 1) t (next (some (serialOf n))) y n' t' u := by
  cases h with
  | sent h => exact ⟨_, rfl, h⟩
  | refused h => exact absurd (by simp) (hr (outgoing icc n e))

theorem performs_request {icc : UInt64} {n n' : Nat} {t t' : Table} {e : Entity} {cb : Nat} {next : Option UInt16 → Code σ} {x : List Ev} {u : σ}
    (h : Performs icc n t (.request e cb next) x n' t' u) (hr : ∀ m, .refused m ∉ x) :
    ∃ y, x = .sent (outgoing icc n e) :: .requested ⟨e.msgID, serialOf n, cb⟩ :: y ∧
      Performs icc (n + 1) (t.put e.msgID (some (serialOf n, cb))) (next (some (serialOf n))) y n' t' u := by
  cases h with
  | requested h => exact ⟨_, rfl, h⟩
  | requestRefused h => exact absurd (by simp) (hr (outgoing icc n e))

theorem replied_sent {k k' : Knows σ} {m : Message Entity} {r : UInt8} {x : List Ev} (h : Replied k m r x k') (hr : ∀ m, .refused m ∉ x) :
    x = [.replies m.header.serial m.header.msgID r,
      .sent (outgoing k.icc k.count (.m8001 { replySerial := m.header.serial, replyID := m.header.msgID, result := r }))] ∧
    k' = { k with count := k.count + 1 } := by
  cases h with
  | sent => exact ⟨rfl, rfl⟩
  | refused => exact absurd (by simp) (hr (outgoing k.icc k.count (.m8001 { replySerial := m.header.serial, replyID := m.header.msgID, result := r })))

/-- A message that is not a part and answers nothing goes to its handler. -/
theorem turn_handler {P : Program σ} {k k' : Knows σ} {m : Message Entity} {o : Outcome × Outcome} {x : List Ev} (ht : Turn true P k m o x k')
    {e : Entity} (hb : m.body = .val e) (hp : isPart true m = false) (ha : answered e = none) (hi : m.header.iccID ≠ 0) {h : Nat}
    (hh : P.handlers m.header.msgID = some h) :
    ∃ y, x = .handled h m :: y ∧ Performs m.header.iccID k.count k.table (P.handler h k.user m) y k'.count k'.table k'.user ∧
      k'.icc = m.header.iccID ∧ k'.files = k.files := by
  have hpart : ∀ u p d, partOf true m ≠ some (u, p, d) := by
    intro u p d
    unfold partOf
    simp [hp]
  cases ht with
  | unsupported hb' => simp [hasBody, hb] at hb'
  | ordinary _ _ hn hd =>
    cases hn with
    | ran ha' => obtain ⟨e', h1, h2, -⟩ := ha'; rw [hb] at h1; cases h1; simp [ha] at h2
    | none =>
      cases hd with
      | handled hh' hc =>
        rw [hh] at hh'
        cases hh'
        obtain ⟨l1, l2, l3, l4⟩ := learn_fields k m
        have li : (k.learn m).icc = m.header.iccID := by unfold Knows.learn; simp [hi]
        rw [l1, l2, li, l4] at hc
        exact ⟨_, rfl, hc, li, l3⟩
      | unhandled hh' => rw [hh] at hh'; cases hh'
  | lost hp' => exact absurd hp' (hpart _ _ _)
  | stored hp' => exact absurd hp' (hpart _ _ _)
  | unmerged hp' => exact absurd hp' (hpart _ _ _)
  | merged hp' => exact absurd hp' (hpart _ _ _)

/-- A part that is not the last one is stored and answered. -/
theorem turn_stored {P : Program σ} {k k' : Knows σ} {m : Message Entity} {x : List Ev} (ht : Turn true P k m (.ok, .ok) x k') (hr : ∀ m, .refused m ∉ x)
    {u : Upload} {p : Packet} {d : Bytes} (hp : partOf true m = some (u, p, d)) (hs : p.seq ≠ p.sum) :
    x = [.stored (u.file p) p.seq d .ok, .replies m.header.serial m.header.msgID 0,
      .sent (outgoing k.icc k.count (.m8001 { replySerial := m.header.serial, replyID := m.header.msgID, result := 0 }))] ∧
    k' = { k with files := .write u p.seq d .ok :: k.files, count := k.count + 1 } := by
  have hpart : isPart true m = true ∧ hasBody m = true := by
    unfold partOf at hp
    split at hp
    · rename_i h1
      refine ⟨h1, ?_⟩
      unfold hasBody
      cases hb : m.body with
      | val e => rfl
      | nil => simp [hb] at hp
      | nilPtr i => simp [hb] at hp
    · cases hp
  cases ht with
  | unsupported hb' => rw [hpart.2] at hb'; cases hb'
  | ordinary _ hp' => rw [hpart.1] at hp'; cases hp'
  | lost _ ho => exact absurd rfl ho
  | stored hp' ho hrep =>
    rw [hp] at hp'
    cases hp'
    obtain ⟨rfl, rfl⟩ := replied_sent hrep fun m' hm => hr m' (List.mem_cons_of_mem _ hm)
    exact ⟨rfl, rfl⟩
  | unmerged hp' ho hrep hm =>
    rw [hp] at hp'
    cases hp'
    exact absurd (.inl hs) hm
  | merged hp' hb ho hrep hm =>
    rw [hp] at hp'
    cases hp'
    exact absurd (.inl hs) hm

/-- The merged message goes to its handler. -/
theorem merged_delivery {P : Program σ} {k k1 k2 : Knows σ} {m : Message Entity} {b : T0801} {content : Bytes} {y z : List Ev} {u : Upload} {h : Nat} {files : List FileOp} {pre : List Ev} {v : Ev}
    (hn : Noted P { k with files := .merge u .ok :: files, count := k.count + 1 } (mergedMessage m b content) y k1) (hd : Dispatched P k1 (mergedMessage m b content) z k2)
    (hi : m.header.iccID ≠ 0) (hh : P.handlers m.header.msgID = some h) (hc : mergedIn u (.merge u .ok :: files) = some content) :
    ∃ c w, mergedIn u (.merge u .ok :: files) = some c ∧ pre ++ v :: (y ++ z) = pre ++ v :: .handled h (mergedMessage m b c) :: w ∧
      Performs m.header.iccID (k.count + 1) k.table (P.handler h k.user (mergedMessage m b c)) w k2.count k2.table k2.user ∧ k2.icc = m.header.iccID := by
  cases hn with
  | ran ha' =>
    obtain ⟨e', h1, h2, -⟩ := ha'
    cases h1
    simp [answered] at h2
  | none =>
    cases hd with
    | handled hh' hc' =>
      rw [show P.handlers (mergedMessage m b content).header.msgID = some h from hh] at hh'
      cases hh'
      obtain ⟨l1, l2, l3, l4⟩ := learn_fields ({ k with files := .merge u .ok :: files, count := k.count + 1 } : Knows σ) (mergedMessage m b content)
      have li : (({ k with files := .merge u .ok :: files, count := k.count + 1 } : Knows σ).learn (mergedMessage m b content)).icc =
        m.header.iccID := by unfold Knows.learn; simp [hi]
      rw [l1, l2, li, l4] at hc'
      exact ⟨content, _, hc, rfl, hc', li⟩
    | unhandled hh' =>
      rw [show P.handlers (mergedMessage m b content).header.msgID = some h from hh] at hh'
      cases hh'

/-- The last part of a complete upload is stored and answered, and the merged message goes to its handler. -/
theorem turn_merged {P : Program σ} {k k' : Knows σ} {m : Message Entity} {x : List Ev} (ht : Turn true P k m (.ok, .ok) x k') (hr : ∀ m, .refused m ∉ x)
    {u : Upload} {p : Packet} {d : Bytes} (hp : partOf true m = some (u, p, d)) {b : T0801} (hb : m.body = .val (.m0801 b))
    (hm : ¬ Missing (.write u p.seq d .ok :: k.files) u p) (hi : m.header.iccID ≠ 0) {h : Nat} (hh : P.handlers m.header.msgID = some h) :
    ∃ content y, mergedIn u (.merge u .ok :: .write u p.seq d .ok :: k.files) = some content ∧
      x = .stored (u.file p) p.seq d .ok :: .replies m.header.serial m.header.msgID 0 ::
        .sent (outgoing k.icc k.count (.m8001 { replySerial := m.header.serial, replyID := m.header.msgID, result := 0 })) ::
        .merged (u.file p) .ok :: .handled h (mergedMessage m b content) :: y ∧
      Performs m.header.iccID (k.count + 1) k.table (P.handler h k.user (mergedMessage m b content)) y k'.count k'.table k'.user ∧ k'.icc = m.header.iccID := by
  have hpart : isPart true m = true ∧ hasBody m = true := by
    unfold partOf at hp
    split at hp
    · rename_i h1
      exact ⟨h1, by unfold hasBody; rw [hb]⟩
    · cases hp
  cases ht with
  | unsupported hb' => rw [hpart.2] at hb'; cases hb'
  | ordinary _ hp' => rw [hpart.1] at hp'; cases hp'
  | lost _ ho => exact absurd rfl ho
  | stored hp' ho hrep hm' =>
    rw [hp] at hp'
    cases hp'
    obtain ⟨rfl, rfl⟩ := replied_sent hrep fun m' hm => hr m' (List.mem_cons_of_mem _ hm)
    exact absurd hm' hm
  | unmerged hp' ho hrep hm' hf => exact absurd rfl hf
  | merged hp' hb' ho hrep hm' hf hc hn hd =>
    rw [hp] at hp'
    cases hp'
    rw [hb] at hb'
    cases hb'
    obtain ⟨rfl, rfl⟩ := replied_sent hrep fun m' hm => hr m' (List.mem_cons_of_mem _ (List.mem_append_left _ hm))
    obtain ⟨c, w, r1, r2, r3⟩ := merged_delivery (k := k) (pre := []) (v := .merged (u.file p) .ok) hn hd hi hh hc
    exact ⟨c, w, r1, by simpa using r2, r3⟩

end Verif.Converse
