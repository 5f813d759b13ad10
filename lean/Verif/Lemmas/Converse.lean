import Verif.Spec.Converse
import Verif.Lemmas.Requests
import Verif.Spec.Stream
/-! # Lemmas on sessions whose handlers use them -/

namespace Verif.Converse
open Session Handler Spec

variable {σ : Type}

/-- The state is what the specification knows. -/
structure Shows (k : Knows σ) (s : State σ) : Prop where
  next : s.next = counter k.count
  icc : s.icc = k.icc
  agree : Agree k.table s.requests
  files : After k.files s.fs
  user : s.user = k.user

theorem message_outgoing (s : State σ) (n : Nat) (hn : s.next = counter n) (e : Entity) : s.message e = outgoing s.icc n e := by
  unfold State.message buildMessage outgoing
  rw [hn, successor_counter, counter_serial]

theorem send_eq (s : State σ) (n : Nat) (hn : s.next = counter n) (e : Entity) :
    s.send e = if s.accepts.headD true then
      ({ s with next := counter (n + 1), accepts := s.accepts.tail }, [.sent (outgoing s.icc n e)], some (serialOf n))
    else ({ s with next := counter (n + 1), accepts := s.accepts.tail }, [.refused (outgoing s.icc n e)], none) := by
  unfold State.send
  rw [message_outgoing s n hn, hn, successor_counter]
  rfl

theorem request_eq (s : State σ) (n : Nat) (hn : s.next = counter n) (e : Entity) (cb : Nat) :
    s.request e cb = if s.accepts.headD true then
      ({ s with next := counter (n + 1), accepts := s.accepts.tail, requests := addRequest ⟨e.msgID, serialOf n, cb⟩ s.requests },
        [.sent (outgoing s.icc n e), .requested ⟨e.msgID, serialOf n, cb⟩], some (serialOf n))
    else ({ s with next := counter (n + 1), accepts := s.accepts.tail }, [.refused (outgoing s.icc n e)], none) := by
  unfold State.request
  rw [send_eq s n hn]
  cases s.accepts.headD true <;> rfl

theorem exec_spec (c : Code σ) (s : State σ) (n : Nat) (t : Table) (hn : s.next = counter n) (ht : Agree t s.requests) :
    ∃ n' t', Performs s.icc n t c (s.exec c).2.1 n' t' (s.exec c).1.user ∧ (s.exec c).1.next = counter n' ∧
      Agree t' (s.exec c).1.requests ∧ (s.exec c).1.icc = s.icc ∧ (s.exec c).1.fs = s.fs := by
  induction c generalizing s n t with
  | returns u => exact ⟨n, t, .returns n t u, hn, ht, rfl, rfl⟩
  | panics u => exact ⟨n, t, .panics n t u, hn, ht, rfl, rfl⟩
  | send e next ih =>
    simp only [State.exec]
    rw [send_eq s n hn e]
    split
    · obtain ⟨n', t', h1, h2, h3, h4, h5⟩ := ih (some (serialOf n)) { s with next := counter (n + 1), accepts := s.accepts.tail } (n + 1) t rfl ht
      exact ⟨n', t', .sent h1, h2, h3, h4, h5⟩
    · obtain ⟨n', t', h1, h2, h3, h4, h5⟩ := ih none { s with next := counter (n + 1), accepts := s.accepts.tail } (n + 1) t rfl ht
      exact ⟨n', t', .refused h1, h2, h3, h4, h5⟩
  | request e cb next ih =>
    simp only [State.exec]
    rw [request_eq s n hn e cb]
    split
    · obtain ⟨n', t', h1, h2, h3, h4, h5⟩ := ih (some (serialOf n))
        { s with next := counter (n + 1), accepts := s.accepts.tail, requests := addRequest ⟨e.msgID, serialOf n, cb⟩ s.requests } (n + 1) _ rfl
        (ht.add ⟨e.msgID, serialOf n, cb⟩)
      exact ⟨n', t', .requested h1, h2, h3, h4, h5⟩
    · obtain ⟨n', t', h1, h2, h3, h4, h5⟩ := ih none { s with next := counter (n + 1), accepts := s.accepts.tail } (n + 1) t rfl ht
      exact ⟨n', t', .requestRefused h1, h2, h3, h4, h5⟩

theorem learn_shows {k : Knows σ} {s : State σ} (h : Shows k s) (m : Message Entity) :
    Shows (k.learn m) (if m.header.iccID > 0 then { s with icc := m.header.iccID } else s) := by
  unfold Knows.learn
  by_cases h0 : m.header.iccID = 0
  · rw [if_pos h0, if_neg (by rw [h0]; decide)]; exact h
  · rw [if_neg h0, if_pos (by
      have : m.header.iccID.toNat ≠ 0 := fun hx => h0 (UInt64.toNat_inj.1 hx)
      show (0 : UInt64) < _
      rw [UInt64.lt_iff_toNat_lt]
      simp
      omega)]
    exact ⟨h.next, rfl, h.agree, h.files, h.user⟩

theorem learn_fields (k : Knows σ) (m : Message Entity) :
    (k.learn m).count = k.count ∧ (k.learn m).table = k.table ∧ (k.learn m).files = k.files ∧ (k.learn m).user = k.user := by
  unfold Knows.learn
  split <;> exact ⟨rfl, rfl, rfl, rfl⟩

theorem recovered_ok (u : UserCode) : recovered u.call = .ok () := by cases u <;> rfl

theorem note_spec (P : Program σ) {k : Knows σ} {s : State σ} (h : Shows k s) (m : Message Entity) (e : Entity) (hb : m.body = .val e)
    (hid : e.msgID = m.header.msgID) : ∃ s' x k', s.note P m = .ok (s', x) ∧ Noted P k m x k' ∧ Shows k' s' := by
  have hl := learn_shows h m
  obtain ⟨f1, f2, f3, f4⟩ := learn_fields k m
  unfold State.note
  simp only [replySerial_val hb hid, Res.ok_bind]
  generalize (if m.header.iccID > 0 then { s with icc := m.header.iccID } else s) = s1 at hl
  by_cases h0 : (answered e).getD 0 = 0
  · rw [if_pos h0]
    refine ⟨s1, [], _, rfl, .none ?_, hl⟩
    rintro n id cb ⟨e', b1, b2, b3⟩
    rw [hb] at b1
    cases b1
    rw [b2] at h0
    exact absurd h0 b3
  · rw [if_neg h0]
    obtain ⟨n, hn⟩ : ∃ n, answered e = some n := by
      cases ha : answered e with
      | none => rw [ha] at h0; exact absurd rfl h0
      | some n => exact ⟨n, rfl⟩
    rw [hn] at h0
    simp only [hn, Option.getD_some] at h0 ⊢
    cases ht : takeRequest n s1.requests with
    | none =>
      refine ⟨s1, [], _, rfl, .none ?_, hl⟩
      rintro n' id cb ⟨e', b1, b2, b3⟩ hk
      rw [hb] at b1
      cases b1
      rw [hn] at b2
      cases b2
      rw [← f2] at hk
      exact takeRequest_none n _ ht _ ((hl.agree.mem id n cb).1 hk) rfl
    | some r =>
      obtain ⟨r, rest⟩ := r
      obtain ⟨h1, h2⟩ := takeRequest_some n s1.requests rest r ht
      obtain ⟨h3, h4⟩ := hl.agree.take h2
      obtain ⟨n', t', g1, g2, g3, g4, g5⟩ := exec_spec (P.callback r.callback s1.user m) { s1 with requests := rest } (k.learn m).count
        ((k.learn m).table.put r.msgID none) hl.next h4
      simp only [recovered_ok, Res.ok_bind]
      refine ⟨_, _, { k.learn m with count := n', table := t', user := _ }, rfl, .ran (id := r.msgID) ⟨e, hb, hn, h0⟩ ?_ ?_, ⟨g2, ?_, g3, ?_, rfl⟩⟩
      · rw [← f2, h3, h1]
      · rw [hl.user, f4, f1, f2] at g1
        rw [← hl.icc, hl.user, f4]
        exact g1
      · exact g4.trans hl.icc
      · rw [g5]; exact hl.files

theorem dispatch_spec (P : Program σ) {k : Knows σ} {s : State σ} (h : Shows k s) (m : Message Entity) :
    ∃ s' x k', s.dispatch P m = .ok (s', x) ∧ Dispatched P k m x k' ∧ Shows k' s' := by
  unfold State.dispatch
  cases hh : P.handlers m.header.msgID with
  | none => exact ⟨s, _, k, rfl, .unhandled hh, h⟩
  | some hd =>
    obtain ⟨n', t', g1, g2, g3, g4, g5⟩ := exec_spec (P.handler hd s.user m) s k.count k.table h.next h.agree
    simp only [recovered_ok, Res.ok_bind]
    refine ⟨_, _, { k with count := n', table := t', user := _ }, rfl, .handled hh ?_, ⟨g2, ?_, g3, ?_, rfl⟩⟩
    · rw [h.icc, h.user] at g1
      rw [h.user]
      exact g1
    · exact g4.trans h.icc
    · rw [g5]; exact h.files

theorem deliver_spec (P : Program σ) {k : Knows σ} {s : State σ} (h : Shows k s) (m : Message Entity) (e : Entity) (hb : m.body = .val e)
    (hid : e.msgID = m.header.msgID) :
    ∃ s' x y k' k'', s.deliver P m = .ok (s', x ++ y) ∧ Noted P k m x k' ∧ Dispatched P k' m y k'' ∧ Shows k'' s' := by
  obtain ⟨s1, x, k1, h1, h2, h3⟩ := note_spec P h m e hb hid
  obtain ⟨s2, y, k2, h4, h5, h6⟩ := dispatch_spec P h3 m
  refine ⟨s2, x, y, k1, k2, ?_, h2, h5, h6⟩
  unfold State.deliver
  rw [h1, Res.ok_bind]
  simp only
  rw [h4, Res.ok_bind]

theorem reply_spec {k : Knows σ} {s : State σ} (h : Shows k s) (m : Message Entity) (result : UInt8) :
    ∃ k', Replied k m result (s.reply m result).2 k' ∧ Shows k' (s.reply m result).1 ∧ (s.reply m result).1.fs = s.fs ∧ k'.files = k.files := by
  unfold State.reply
  simp only
  rw [send_eq s k.count h.next]
  split
  · exact ⟨{ k with count := k.count + 1 }, by rw [h.icc]; exact .sent, ⟨rfl, h.icc, h.agree, h.files, h.user⟩, rfl, rfl⟩
  · exact ⟨{ k with count := k.count + 1 }, by rw [h.icc]; exact .refused, ⟨rfl, h.icc, h.agree, h.files, h.user⟩, rfl, rfl⟩

theorem missing_iff (files : List FileOp) (u : Upload) (p : Packet) :
    ¬ Missing files u p ↔ p.seq = p.sum ∧ ∀ i : UInt16, 1 ≤ i.toNat → i.toNat ≤ p.sum.toNat → (latestIn u i files).isSome := by
  unfold Missing
  constructor
  · intro h
    refine ⟨Classical.byContradiction fun hx => h (.inl hx), fun i h1 h2 => ?_⟩
    cases hl : latestIn u i files with
    | none => exact absurd (.inr ⟨i, h1, h2, hl⟩) h
    | some c => rfl
  · rintro ⟨h1, h2⟩ (h | ⟨i, h3, h4, h5⟩)
    · exact h h1
    · have := h2 i h3 h4
      rw [h5] at this
      cases this

theorem mergedIn_ok (u : Upload) (h : List FileOp) : ∃ c, mergedIn u (.merge u .ok :: h) = some c := by
  rw [mergedIn, if_pos rfl]
  exact ⟨_, rfl⟩

/-- What the specification of a turn says about a part, given that it was stored and answered. -/
inductive Checked (P : Program σ) (k : Knows σ) (o : Outcome) (m : Message Entity) (b : T0801) (u : Upload) (p : Packet) : List Ev → Knows σ → Prop where
  | stored (hm : Missing k.files u p) : Checked P k o m b u p [] k
  | unmerged (hm : ¬ Missing k.files u p) (hf : o ≠ .ok) : Checked P k o m b u p [.merged (u.file p) o] { k with files := .merge u o :: k.files }
  | merged {content : Bytes} {y z : List Ev} {k' k'' : Knows σ} (hm : ¬ Missing k.files u p) (hf : o = .ok)
      (hc : mergedIn u (.merge u .ok :: k.files) = some content)
      (hn : Noted P { k with files := .merge u .ok :: k.files } (mergedMessage m b content) y k')
      (hd : Dispatched P k' (mergedMessage m b content) z k'') : Checked P k o m b u p (.merged (u.file p) o :: (y ++ z)) k''

theorem check_spec (P : Program σ) {k : Knows σ} {s : State σ} (h : Shows k s) (o : Outcome) (m : Message Entity) (b : T0801) (p : Packet)
    (hid : m.header.msgID = 0x0801) (hdir : hasDir k.files m.header.iccID) :
    ∃ s' x k', s.check P o m b p = .ok (s', x) ∧ Checked P k o m b ⟨m.header.iccID, m.header.msgID, b.mediaID⟩ p x k' ∧ Shows k' s' := by
  generalize hu : (⟨m.header.iccID, m.header.msgID, b.mediaID⟩ : Upload) = u
  have hui : u.icc = m.header.iccID := by rw [← hu]
  have hfile : Loop.partFile m b p = u.multipart p.sum := by rw [← hu]; rfl
  unfold State.check
  rw [hfile]
  by_cases hs : p.seq = p.sum
  · rw [if_neg (by simp [hs])]
    obtain ⟨full, i1, i2⟩ := isFull_spec h.files.stored u p.sum ((h.files.dirs u.icc).2 (by rw [hui]; exact hdir))
    rw [i1, Res.ok_bind]
    cases full with
    | false =>
      refine ⟨s, [], k, rfl, .stored (Classical.byContradiction fun hm => ?_), h⟩
      exact absurd (i2.2 ((missing_iff _ _ _).1 hm).2) (by simp)
    | true =>
      have hm : ¬ Missing k.files u p := (missing_iff _ _ _).2 ⟨hs, i2.1 rfl⟩
      obtain ⟨fs', g1, g2⟩ := after_merge h.files u p.sum o (by rw [hui]; exact hdir)
      simp only [Bool.not_true, Bool.false_eq_true, if_false, g1, Res.ok_bind]
      by_cases ho : o = .ok
      · subst ho
        obtain ⟨content, hc⟩ := mergedIn_ok u k.files
        simp only [if_true, hc]
        obtain ⟨s', y, z, k', k'', d1, d2, d3, d4⟩ := deliver_spec P
          (k := { k with files := .merge u .ok :: k.files }) (s := { s with fs := fs' }) ⟨h.next, h.icc, h.agree, g2, h.user⟩
          (mergedMessage m b content) (.m0801 { b with packet := some content }) rfl hid.symm
        refine ⟨s', _, k'', ?_, .merged hm rfl hc d2 d3, d4⟩
        rw [d1]
        rfl
      · rw [if_neg ho]
        exact ⟨_, _, _, rfl, .unmerged hm ho, ⟨h.next, h.icc, h.agree, g2, h.user⟩⟩
  · rw [if_pos (by simp [hs])]
    exact ⟨s, [], k, rfl, .stored (.inl hs), h⟩

theorem part_spec (auto : Bool) (P : Program σ) {k : Knows σ} {s : State σ} (h : Shows k s) (o : Outcome × Outcome) (m : Message Entity) (b : T0801)
    (p : Packet) (data : Bytes) (hb : m.body = .val (.m0801 b)) (hid : m.header.msgID = 0x0801)
    (hp : partOf auto m = some (⟨m.header.iccID, m.header.msgID, b.mediaID⟩, p, data)) :
    ∃ s' x k', s.part P o m b p data = .ok (s', x) ∧ Turn auto P k m o x k' ∧ Shows k' s' := by
  obtain ⟨o1, o2⟩ := o
  generalize hu : (⟨m.header.iccID, m.header.msgID, b.mediaID⟩ : Upload) = u at hp
  have hui : u.icc = m.header.iccID := by rw [← hu]
  have hfile : Loop.partFile m b p = u.multipart p.sum := by rw [← hu]; rfl
  have hw := after_write h.files u p.sum p.seq data o1
  have hk : Shows { k with files := .write u p.seq data o1 :: k.files } { s with fs := ((u.multipart p.sum).write o1 p.seq data s.fs).1 } :=
    ⟨h.next, h.icc, h.agree, hw, h.user⟩
  have hok : ((u.multipart p.sum).write o1 p.seq data s.fs).2 = decide (o1 = .ok) := by cases o1 <;> rfl
  unfold State.part
  rw [hfile]
  simp only [hok]
  by_cases ho : o1 = .ok
  · subst ho
    simp only [decide_true, if_true, Bool.not_true, Bool.false_eq_true, if_false]
    obtain ⟨k', r1, r2, r3, r4⟩ := reply_spec hk m 0
    obtain ⟨s', x, k'', c1, c2, c3⟩ := check_spec P r2 o2 m b p hid (by
      rw [r4]
      exact (hasDir_write _ _ _ _ _ _).2 (.inr ⟨hui, by simp⟩))
    rw [hu] at c2
    rw [c1]
    simp only [Res.ok_bind]
    refine ⟨s', _, k'', rfl, ?_, c3⟩
    cases c2 with
    | stored hm =>
      rw [List.append_nil]
      exact .stored (o := (.ok, o2)) hp rfl r1 hm
    | unmerged hm hf => exact .unmerged (o := (.ok, o2)) hp rfl r1 hm hf
    | merged hm hf hc hn hd => exact .merged (o := (.ok, o2)) hp hb rfl r1 hm hf hc hn hd
  · obtain ⟨k', r1, r2, r3, r4⟩ := reply_spec hk m 1
    simp only [ho, decide_false, Bool.false_eq_true, if_false, Bool.not_false, if_true]
    exact ⟨_, _, k', rfl, .lost (o := (o1, o2)) hp ho r1, r2⟩

theorem process_spec (auto : Bool) (P : Program σ) {k : Knows σ} {s : State σ} (h : Shows k s) (o : Outcome × Outcome) (m : Message Entity)
    (hd : Delivered m) : ∃ s' x k', s.process auto P o m = .ok (s', x) ∧ Turn auto P k m o x k' ∧ Shows k' s' := by
  cases hb : m.body with
  | nil =>
    obtain ⟨k', r1, r2, -, -⟩ := reply_spec h m 3
    exact ⟨_, _, k', by unfold State.process; rw [hb], .unsupported (by unfold hasBody; rw [hb]) r1, r2⟩
  | nilPtr i =>
    obtain ⟨k', r1, r2, -, -⟩ := reply_spec h m 3
    exact ⟨_, _, k', by unfold State.process; rw [hb], .unsupported (by unfold hasBody; rw [hb]) r1, r2⟩
  | val e =>
    have hhb : hasBody m = true := by unfold hasBody; rw [hb]
    have ord : isPart auto m = false → s.process auto P o m = s.deliver P m →
        ∃ s' x k', s.process auto P o m = .ok (s', x) ∧ Turn auto P k m o x k' ∧ Shows k' s' := by
      intro hp he
      obtain ⟨s', x, y, k', k'', d1, d2, d3, d4⟩ := deliver_spec P h m e hb (hd.type e hb)
      exact ⟨s', _, k'', he.trans d1, .ordinary hhb hp d2 d3, d4⟩
    by_cases hflag : (!auto || !Property.isEnablePacket m.header.property) = true
    · refine ord ?_ ?_
      · unfold isPart
        rw [← Property.isEnablePacket_spec]
        cases auto <;> cases hx : Property.isEnablePacket m.header.property <;> simp_all
      · unfold State.process
        rw [hb]
        simp only [hflag, if_true]
    · have hauto : auto = true := by cases auto <;> simp_all
      have hpk : Property.isEnablePacket m.header.property = true := by cases hx : Property.isEnablePacket m.header.property <;> simp_all
      have hpf : packetFlag m.header.property.toNat = true := by rw [← Property.isEnablePacket_spec]; exact hpk
      by_cases hm : ∃ b, e = .m0801 b
      · obtain ⟨b, rfl⟩ := hm
        obtain ⟨p, hp⟩ := Option.isSome_iff_exists.1 (hd.packet hpf)
        obtain ⟨data, hdata⟩ := Option.isSome_iff_exists.1 (hd.content b hb)
        have hpart : partOf auto m = some (⟨m.header.iccID, m.header.msgID, b.mediaID⟩, p, data) := by
          unfold partOf isPart
          simp [hauto, hpf, hb, hp, hdata]
        obtain ⟨s', x, k', p1, p2, p3⟩ := part_spec auto P h o m b p data hb (hd.type _ hb).symm hpart
        refine ⟨s', x, k', ?_, p2, p3⟩
        unfold State.process
        rw [hb]
        simp only [hflag, hp, hdata]
        exact p1
      · refine ord ?_ ?_
        · unfold isPart
          rw [hb]
          cases e <;> simp_all
        · unfold State.process
          rw [hb]
          simp only [hflag]
          cases e <;> first | rfl | exact absurd ⟨_, rfl⟩ hm

theorem run_spec (auto : Bool) (P : Program σ) (ms : List (Message Entity × Outcome × Outcome)) {k : Knows σ} {s : State σ} (h : Shows k s)
    (hd : ∀ x ∈ ms, Delivered x.1) : ∃ s' log k', s.run auto P ms = .ok (s', log) ∧ Talk auto P k ms log k' ∧ Shows k' s' := by
  induction ms generalizing k s with
  | nil => exact ⟨s, [], k, rfl, .nil k, h⟩
  | cons m ms ih =>
    obtain ⟨m, o⟩ := m
    obtain ⟨s1, x, k1, p1, p2, p3⟩ := process_spec auto P h o m (hd (m, o) (by simp))
    obtain ⟨s2, y, k2, q1, q2, q3⟩ := ih p3 fun z hz => hd z (by simp [hz])
    refine ⟨s2, _, k2, ?_, .cons p2 q2, q3⟩
    unfold State.run
    rw [p1, Res.ok_bind]
    simp only
    rw [q1, Res.ok_bind]

theorem shows_fresh (u : σ) (accepts : List Bool) : Shows { user := u } ({ user := u, accepts := accepts } : State σ) :=
  ⟨rfl, rfl, ⟨by simp, by simp⟩, after_empty, rfl⟩

theorem serve_run (env : Env) (key : Option DecKey) (endErr : Err) (auto : Bool) (P : Program σ) (ds : List (Message Entity))
    (os os' : List (Outcome × Outcome)) (hl : os.length = ds.length) (c : RecvState)
    (hr : (receiveMany (entityCodec env) key endErr (ds.length + os'.length) c).1 = ds.map .ok ++ List.replicate os'.length (.err endErr))
    (s : State σ) :
    s.serve env key endErr auto P (os ++ os') c =
      (s.run auto P (ds.zip os)).bind fun r => .ok (r.1, if os' = [] then r.2 else r.2 ++ [.closed]) := by
  induction ds generalizing os c s with
  | nil =>
    obtain rfl := List.length_eq_zero_iff.1 hl
    cases os' with
    | nil => rfl
    | cons o os' =>
      rw [show ([] : List (Message Entity)).length + (o :: os').length = os'.length + 1 by simp] at hr
      simp only [receiveMany, List.map_nil, List.nil_append, List.length_cons, List.replicate_succ, List.cons.injEq] at hr
      obtain ⟨h1, -⟩ := hr
      simp only [List.nil_append, State.serve]
      cases hx : Codec.receive (entityCodec env) key endErr c with
      | mk r c' =>
        rw [hx] at h1
        simp only at h1
        subst h1
        rfl
  | cons d ds ih =>
    obtain ⟨o, os, rfl⟩ := List.exists_cons_of_length_eq_add_one hl
    rw [show (d :: ds).length + os'.length = (ds.length + os'.length) + 1 by simp; omega] at hr
    simp only [receiveMany, List.map_cons, List.cons_append, List.cons.injEq] at hr
    obtain ⟨h1, h2⟩ := hr
    have ih := fun s => ih os (by simpa using hl) _ h2 s
    simp only [List.cons_append, State.serve, List.zip_cons_cons, State.run]
    cases hx : Codec.receive (entityCodec env) key endErr c with
    | mk r c' =>
      rw [hx] at h1 ih
      simp only at h1 ih
      subst h1
      simp only
      cases s.process auto P o d with
      | err e => rfl
      | panic => rfl
      | ok x =>
        simp only [Res.ok_bind, ih]
        cases x.1.run auto P (ds.zip os) with
        | err e => rfl
        | panic => rfl
        | ok y =>
          by_cases h0 : os' = []
          · simp [Res.bind, h0, bind]
          · simp [Res.bind, h0, bind]

end Verif.Converse
