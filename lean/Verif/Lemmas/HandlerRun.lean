import Verif.Lemmas.Handler
/-! # Lemmas on whole histories of the receive loop -/

namespace Verif.Handler
open Session Spec

theorem run_append (auto : Bool) (s : Loop) (is js : List Input) :
    s.run auto (is ++ js) = (s.run auto is).bind fun r => (r.1.run auto js).bind fun q => .ok (q.1, r.2 ++ q.2) := by
  induction is generalizing s with
  | nil =>
    show s.run auto js = (s.run auto js).bind fun q => .ok (q.1, [] ++ q.2)
    cases s.run auto js <;> rfl
  | cons i is ih =>
    show (s.step auto i >>= fun x => x.1.run auto (is ++ js) >>= fun y => .ok (y.1, x.2 ++ y.2)) =
      (s.step auto i >>= fun x => x.1.run auto is >>= fun y => .ok (y.1, x.2 ++ y.2)).bind _
    cases s.step auto i with
    | err e => rfl
    | panic => rfl
    | ok x =>
      simp only [Res.ok_bind, ih]
      show ((x.1.run auto is).bind _).bind _ = ((x.1.run auto is).bind _).bind _
      cases x.1.run auto is with
      | err e => rfl
      | panic => rfl
      | ok y =>
        simp only [Res.bind]
        cases y.1.run auto js with
        | err e => rfl
        | panic => rfl
        | ok z => simp [Res.bind]

theorem run_cons (auto : Bool) (s s' : Loop) (i : Input) (x : List Act) (is : List Input) (h : s.step auto i = .ok (s', x)) :
    s.run auto (i :: is) = (s'.run auto is).bind fun y => .ok (y.1, x ++ y.2) := by
  show (s.step auto i >>= fun x => x.1.run auto is >>= fun y => .ok (y.1, x.2 ++ y.2)) = _
  rw [h]
  rfl

/-- After the session was closed nothing more is done by the loop. -/
theorem run_closed (auto : Bool) (s : Loop) (is : List Input) (hs : s.running = false) :
    ∃ s' x, s.run auto is = .ok (s', x) ∧ Tr s x s' ∧ s'.running = false ∧ (∀ a ∈ x, foreign a = true) := by
  induction is generalizing s with
  | nil => exact ⟨s, [], rfl, .nil s, hs, by simp⟩
  | cons i is ih =>
    cases i with
    | outside o =>
      obtain ⟨s', x, h1, h2, h3, h4⟩ := ih (s.outside o).1 (by rw [outside_running, hs])
      refine ⟨s', _, ?_, .trans (outside_tr s o) h2, h3, ?_⟩
      · rw [run_cons auto s (s.outside o).1 _ (s.outside o).2 is rfl, h1]; rfl
      · intro a ha
        rcases List.mem_append.1 ha with ha | ha
        · exact outside_foreign s o a ha
        · exact h4 a ha
    | receive r a =>
      obtain ⟨s', x, h1, h2, h3, h4⟩ := ih s hs
      refine ⟨s', x, ?_, h2, h3, h4⟩
      rw [run_cons auto s s _ [] is (by unfold Loop.step; rw [hs]; rfl), h1]
      rfl

theorem quiet_closed (auto : Bool) (u : Upload) (s : Loop) (is : List Input) (hs : s.running = false) (hq : ∀ i ∈ is, Undisturbed u i)
    {s' : Loop} {x : List Act} (h : s.run auto is = .ok (s', x)) : opsFor u x = [] := by
  induction is generalizing s x with
  | nil =>
    simp [Loop.run] at h
    rw [h.2]
    rfl
  | cons i is ih =>
    cases i with
    | outside o =>
      rw [run_cons auto s (s.outside o).1 _ (s.outside o).2 is rfl] at h
      cases hr : (s.outside o).1.run auto is with
      | err e => rw [hr] at h; simp [Res.bind] at h
      | panic => rw [hr] at h; simp [Res.bind] at h
      | ok y =>
        rw [hr] at h
        simp only [Res.bind, Res.ok.injEq, Prod.mk.injEq] at h
        rw [← h.2, opsFor_append, outside_quiet s u o (hq (.outside o) (by simp)), ih _ (by rw [outside_running, hs]) (fun j hj => hq j (by simp [hj])) (hr.trans (by rw [← h.1]))]
        rfl
    | receive r a =>
      rw [run_cons auto s s _ [] is (by unfold Loop.step; rw [hs]; rfl)] at h
      cases hr : s.run auto is with
      | err e => rw [hr] at h; simp [Res.bind] at h
      | panic => rw [hr] at h; simp [Res.bind] at h
      | ok y =>
        rw [hr] at h
        simp only [Res.bind, Res.ok.injEq, Prod.mk.injEq, List.nil_append] at h
        rw [← h.2]
        exact ih _ hs (fun j hj => hq j (by simp [hj])) (hr.trans (by rw [← h.1]))

/-- No received part of the upload is the last one. -/
def NoLast (auto : Bool) (u : Upload) (ms : List (Message Entity × Around)) : Prop :=
  ∀ x ∈ ms, ∀ p d, partOf auto x.1 = some (u, p, d) → p.seq ≠ p.sum

theorem run_spec (auto : Bool) (s : Loop) (is : List Input) (hs : s.running = true) (hin : ∀ i ∈ is, Arrived i) :
    ∃ s' x, s.run auto is = .ok (s', x) ∧ Tr s x s' ∧
      replies x = (receivedIn is).flatMap (fun r => due auto r.1 r.2) ∧
      (offered x).filter (fun m => !isPart auto m) = ((receivedIn is).map (·.1)).filter (fun m => hasBody m && !isPart auto m) ∧
      (∀ u, (∀ i ∈ is, Undisturbed u i) → NoLast auto u (receivedIn is) →
        opsFor u x = partWrites auto u (receivedIn is) ∧ (offered x).filter (belongs auto u) = []) ∧
      ((∀ e a, Input.receive (.err e) a ∉ is) → s'.running = true) := by
  induction is generalizing s with
  | nil =>
    exact ⟨s, [], rfl, .nil s, rfl, rfl, fun _ _ _ => ⟨rfl, rfl⟩, fun _ => hs⟩
  | cons i is ih =>
    have hin' : ∀ i ∈ is, Arrived i := fun j hj => hin j (by simp [hj])
    cases i with
    | outside o =>
      obtain ⟨s', x, h1, h2, h3, h4, h5, h6⟩ := ih (s.outside o).1 (by rw [outside_running, hs]) hin'
      refine ⟨s', _, ?_, .trans (outside_tr s o) h2, ?_, ?_, ?_, ?_⟩
      · rw [run_cons auto s (s.outside o).1 _ (s.outside o).2 is rfl, h1]; rfl
      · rw [replies_append, foreign_replies _ (outside_foreign s o), h3]; rfl
      · rw [offered_append, foreign_offered _ (outside_foreign s o)]; exact h4
      · intro u hq hn
        obtain ⟨k1, k2⟩ := h5 u (fun j hj => hq j (by simp [hj])) hn
        rw [opsFor_append, outside_quiet s u o (hq (.outside o) (by simp)), k1, offered_append, foreign_offered _ (outside_foreign s o)]
        exact ⟨rfl, k2⟩
      · intro h; exact h6 fun e a hx => h e a (by simp [hx])
    | receive r a =>
      have ha := hin (.receive r a) (by simp)
      cases r with
      | panic => exact absurd ha (by simp [Arrived])
      | err e =>
        obtain ⟨s', x, h1, h2, h3, h4⟩ := run_closed auto { s with running := false } is rfl
        refine ⟨s', .closed :: x, ?_, .trans (.closed s) h2, ?_, ?_, ?_, fun h => absurd (by simp) (h e a)⟩
        · rw [run_cons auto s _ _ [.closed] is (by unfold Loop.step; rw [hs]; rfl), h1]; rfl
        · have := foreign_replies x h4
          simpa [replies, receivedIn] using this
        · have := foreign_offered x h4
          show (offered x).filter _ = _
          rw [this]
          rfl
        · intro u hq hn
          refine ⟨?_, ?_⟩
          · show opsFor u ([Act.closed] ++ x) = []
            rw [opsFor_append, quiet_closed auto u _ is rfl (fun j hj => hq j (by simp [hj])) h1]
            rfl
          · show (offered x).filter _ = []
            rw [foreign_offered x h4]
            rfl
      | ok m =>
        obtain ⟨s1, y, k1, k2, k3, k4, k5, _, k7⟩ := process_spec auto s a m ha
        obtain ⟨s', x, h1, h2, h3, h4, h5, h6⟩ := ih s1 (by rw [k3, hs]) hin'
        refine ⟨s', y ++ x, ?_, .trans k2 h2, ?_, ?_, ?_, ?_⟩
        · rw [run_cons auto s s1 _ y is (by unfold Loop.step; rw [hs]; exact k1), h1]; rfl
        · rw [replies_append, k4, h3]; rfl
        · rw [offered_append, List.filter_append, k5, h4]
          simp only [receivedIn, List.map_cons]
          rw [List.filter_cons]
          split <;> rfl
        · intro u hq hn
          obtain ⟨j1, j2⟩ := h5 u (fun j hj => hq j (by simp [hj])) (fun z hz => hn z (by simp [receivedIn, hz]))
          obtain ⟨i1, i2⟩ := k7 u (hq (.receive (.ok m) a) (by simp)) (fun p d hp => hn (m, a) (by simp [receivedIn]) p d hp)
          rw [opsFor_append, i1, j1, offered_append, List.filter_append, i2, j2]
          refine ⟨?_, rfl⟩
          rw [partWrites, partWrites, partWrites, ← List.filterMap_append]
          rfl
        · intro h; exact h6 fun e a hx => h e a (by simp [hx])

theorem receivedIn_snoc (is : List Input) (hin : ∀ i ∈ is, Arrived i) (hend : ∀ e a, Input.receive (.err e) a ∉ is) (m : Message Entity) (a : Around) :
    receivedIn (is ++ [.receive (.ok m) a]) = receivedIn is ++ [(m, a)] := by
  induction is with
  | nil => rfl
  | cons i is ih =>
    have ih := ih (fun j hj => hin j (by simp [hj])) (fun e a hx => hend e a (by simp [hx]))
    cases i with
    | outside o => exact ih
    | receive r a' =>
      cases r with
      | ok m' => exact congrArg ((m', a') :: ·) ih
      | err e => exact absurd (by simp) (hend e a')
      | panic => exact absurd (hin (.receive .panic a') (by simp)) (by simp [Arrived])

/-- Code of the user makes no difference to the loop. -/
theorem message_calm (s : Loop) (a : Around) (c d : UserCode) (m : Message Entity) :
    s.message { a with callback := c, handler := d } m = s.message a m := by
  unfold Loop.message
  simp only [call_recovered]

theorem dispatch_calm (s : Loop) (a : Around) (c d : UserCode) (m : Message Entity) :
    s.dispatch { a with callback := c, handler := d } m = s.dispatch a m := by
  unfold Loop.dispatch
  simp only [call_recovered]

theorem deliver_calm (s : Loop) (a : Around) (c d : UserCode) (m : Message Entity) :
    s.deliver { a with callback := c, handler := d } m = s.deliver a m := by
  unfold Loop.deliver
  simp only [message_calm, dispatch_calm]

theorem process_calm (auto : Bool) (s : Loop) (a : Around) (c d : UserCode) (m : Message Entity) :
    s.process auto { a with callback := c, handler := d } m = s.process auto a m := by
  unfold Loop.process Loop.part Loop.check Loop.complete
  simp only [deliver_calm]

theorem step_calm (auto : Bool) (s : Loop) (i : Input) : s.step auto (calm i) = s.step auto i := by
  cases i with
  | outside x => rfl
  | receive r a =>
    unfold Loop.step calm
    simp only [process_calm]

theorem tr_after {t t' : Loop} {x : List Act} {g : List FileOp} (ht : Tr t x t') (hg : After g t.fs) : After ((fileOps x).reverse ++ g) t'.fs := by
  induction ht generalizing g with
  | nil s => exact hg
  | icc s i => exact hg
  | trans _ _ ih1 ih2 =>
    rw [fileOps_append, List.reverse_append, List.append_assoc]
    exact ih2 (ih1 hg)
  | wrote s f seq data o => exact after_write hg f.upload f.sum seq data o
  | merged s f o r h =>
    have hd : s.fs f.icc ≠ none := (merge_dir (u := f.upload) (n := f.sum) h 0).2
    obtain ⟨fs', h1, h2⟩ := after_merge hg f.upload f.sum o ((hg.dirs _).1 hd)
    have : r.1 = fs' := by
      have hx := h.symm.trans h1
      simp only [Res.ok.injEq] at hx
      rw [hx]
    show After _ r.1
    rw [this]
    exact h2
  | _ => exact hg

/-- The last part of an upload: all parts are stored and the merge succeeds. -/
theorem last_spec (s : Loop) (a : Around) (m : Message Entity) (b : T0801) (p : Packet) (data : Bytes) (hid : m.header.msgID = 0x0801)
    (h : List FileOp) (hs : After h s.fs) (hq : Quiet (Loop.partFile m b p).upload a) (hw : a.write = .ok) (hm : a.merge = .ok)
    (hseq : p.seq = p.sum)
    (hall : ∀ i : UInt16, 1 ≤ i.toNat → i.toNat ≤ p.sum.toNat →
      (latestIn (Loop.partFile m b p).upload i (.write (Loop.partFile m b p).upload p.seq data .ok :: h)).isSome) :
    ∃ s' x, s.part a m b p data = .ok (s', x) ∧ offered x = [mergedMessage m b
      ((mergedIn (Loop.partFile m b p).upload (.merge (Loop.partFile m b p).upload .ok :: .write (Loop.partFile m b p).upload p.seq data .ok ::
        (h.filter fun op => op.upload = (Loop.partFile m b p).upload))).getD [])] := by
  have hok : ((Loop.partFile m b p).write .ok p.seq data s.fs).2 = true := rfl
  have hd : ((Loop.partFile m b p).write .ok p.seq data s.fs).1 m.header.iccID ≠ none :=
    (write_dir (Loop.partFile m b p).upload _ p.seq data .ok s.fs m.header.iccID).2 (.inr ⟨rfl, by simp⟩)
  have ha := after_write hs (Loop.partFile m b p).upload p.sum p.seq data .ok
  generalize hu : (Loop.partFile m b p).upload = u at *
  have hm1 : Loop.partFile m b p = u.multipart p.sum := by rw [← hu]; rfl
  have hicc : m.header.iccID = u.icc := by rw [← hu]; rfl
  unfold Loop.part
  rw [hm1] at hok hd
  simp only [hw, hm1]
  generalize (u.multipart p.sum).write .ok p.seq data s.fs = w at hok hd ha ⊢
  simp only [hok, Bool.not_true, Bool.false_eq_true, if_false]
  -- after the write
  have t1 := outsides_tr { s with fs := w.1 } a.afterWrite
  have q1 := outsides_quiet { s with fs := w.1 } u _ (quiet_write hq)
  have a1 := tr_after t1 ha
  have hr1 := outsides_offered { s with fs := w.1 } a.afterWrite
  have d1 := tr_dirs t1 _ hd
  generalize ({ s with fs := w.1 } : Loop).outsides a.afterWrite = r1 at t1 q1 a1 d1 hr1 ⊢
  -- the check
  have own : ∀ (x : List Act) (g : List FileOp), opsFor u x = [] → ((fileOps x).reverse ++ g).filter (fun op => op.upload = u) = g.filter fun op => op.upload = u := by
    intro x g hx
    rw [List.filter_append, List.filter_reverse]
    rw [opsFor] at hx
    rw [hx]
    rfl
  have hfull : (u.multipart p.sum).isFull r1.1.fs = .ok true := by
    obtain ⟨bb, f1, f2⟩ := isFull_spec a1.stored u p.sum (by rw [← hicc]; exact d1)
    have : bb = true := by
      rw [f2]
      intro i i1 i2
      rw [latestIn_own, own _ _ q1, ← latestIn_own]
      exact hall i i1 i2
    rw [f1, this]
  unfold Loop.check
  simp only [hseq, ne_eq, not_true, if_false, hm1, hfull, Res.ok_bind, Bool.not_true, Bool.false_eq_true]
  have t2 := outsides_tr r1.1 a.afterCheck
  have q2 := outsides_quiet r1.1 u _ (quiet_check hq)
  have a2 := tr_after t2 a1
  have d2 := tr_dirs t2 _ d1
  have hoff2 := outsides_offered r1.1 a.afterCheck
  generalize r1.1.outsides a.afterCheck = r2 at t2 q2 a2 d2 hoff2 ⊢
  obtain ⟨r, s', x, c1, c2, c3, c4, c5, c6, c7⟩ := complete_spec r2.1 a m b p hid d2
  rw [c2]
  simp only [Res.ok_bind]
  refine ⟨s', _, rfl, ?_⟩
  obtain ⟨fs', g1, g2⟩ := after_merge a2 u p.sum .ok ((a2.dirs _).1 (by rw [← hicc]; exact d2))
  rw [hm1, hm] at c1
  have hreq : r.2 = mergedIn u (.merge u .ok :: ((fileOps r2.2).reverse ++ ((fileOps r1.2).reverse ++ .write u p.seq data .ok :: h))) := by
    have := c1.symm.trans g1
    simp only [Res.ok.injEq] at this
    rw [this]
    rfl
  rw [mergedIn_own, List.filter_cons_of_pos (by simp [FileOp.upload]), own _ _ q2, own _ _ q1, List.filter_cons_of_pos (by simp [FileOp.upload])] at hreq
  have hsome : ∃ c, r.2 = some c := by
    rw [hreq, mergedIn, if_pos rfl]
    exact ⟨_, rfl⟩
  obtain ⟨c, hc⟩ := hsome
  rw [hseq] at hreq
  rw [← hreq, offered_append, offered_append, hr1, offered_append, hoff2]
  show offered x = _
  rw [c6, hc]
  rfl

end Verif.Handler
