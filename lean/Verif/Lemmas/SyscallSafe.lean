import Verif.Lemmas.SyscallWhole
import Verif.Lemmas.SystemSafe
/-! # Lemmas: what can crash the server when system calls interleave -/

namespace Verif
open Handler Session Spec Codec

namespace Files

theorem advance_noerr {s : State} {k : Nat} {a : Answer} {j : Job} {e : Err} : s.advance k a j ≠ .err e := by
  intro h
  cases j with
  | mkdir m seq data => cases a <;> simp only [State.advance] at h <;> cases h
  | create m seq data => cases a <;> simp only [State.advance] at h <;> cases h
  | put m seq data done =>
    simp only [State.advance] at h
    split at h
    · cases h
    · cases a <;> cases h
  | shut m seq data done b => cases a <;> simp only [State.advance] at h <;> cases h
  | stat m g =>
    cases a <;> simp only [State.advance] at h
    · split at h <;> cases h
    all_goals cases h
  | list m g before =>
    cases a <;> simp only [State.advance] at h
    · cases h
    · cases h
    · cases h
    · split at h <;> cases h
  | visit m g todo found =>
    cases todo with
    | nil => simp only [State.advance] at h; cases h
    | cons n todo =>
      cases a <;> simp only [State.advance] at h
      · split at h
        · cases h
        · split at h <;> cases h
      all_goals cases h
  | openPart m seq n todo found => cases a <;> simp only [State.advance] at h <;> cases h
  | createFull m found => cases a <;> simp only [State.advance] at h <;> cases h
  | copy m found todo pos out =>
    cases todo with
    | nil => simp only [State.advance] at h; cases h
    | cons p todo =>
      cases a <;> simp only [State.advance] at h
      · cases h
      · cases h
      · split at h <;> cases h
      · cases h
  | reopen m found out => cases a <;> simp only [State.advance] at h <;> cases h

theorem walked_listed {s s' : State} {k : Nat} {m : Multipart} {g : Bool} {found : List (UInt16 × Bytes)} {l : List Obs}
    (h : walked s k m g found = (s', l)) (i : Nat) (m' : Multipart) : .unlisted i m' ∉ l := by
  unfold walked at h
  cases g <;> cases h <;> simp

theorem closeParts_listed (k : Nat) (m : Multipart) (found : List (UInt16 × Bytes)) (i : Nat) (m' : Multipart) : .unlisted i m' ∉ closeParts k m found := by
  intro ho
  obtain ⟨p, -, hp⟩ := List.mem_map.1 ho
  cases hp

theorem advance_listed {s s' : State} {k : Nat} {a : Answer} {j : Job} {l : List Obs} (h : s.advance k a j = .ok (s', l)) {i : Nat} {m' : Multipart}
    (hm : .unlisted i m' ∈ l) : a = .fail ∧ ∀ m sq d, j.call ≠ .write m sq d := by
  have nil : Res.ok (s, ([] : List Obs)) = .ok (s', l) → False := by
    intro h; cases h; cases hm
  have w : ∀ {m g found}, Res.ok (walked s k m g found) = .ok (s', l) → False := by
    intro m g found h
    exact walked_listed (Res.ok.inj h) i m' hm
  cases j with
  | mkdir m seq data => cases a <;> simp only [State.advance] at h <;> cases h <;> simp at hm
  | create m seq data => cases a <;> simp only [State.advance] at h <;> cases h <;> simp at hm
  | put m seq data done =>
    simp only [State.advance] at h
    split at h
    · cases h; cases hm
    · cases a <;> cases h <;> cases hm
  | shut m seq data done b => cases a <;> simp only [State.advance] at h <;> cases h <;> simp at hm
  | stat m g =>
    cases a <;> simp only [State.advance] at h
    · split at h <;> cases h
      cases hm
    all_goals cases h
    all_goals cases hm
  | list m g before =>
    cases a <;> simp only [State.advance] at h
    · cases h; cases hm
    · exact ⟨rfl, by cases g <;> simp [Job.call]⟩
    · cases h; cases hm
    · split at h <;> cases h <;> cases hm
  | visit m g todo found =>
    cases todo with
    | nil => simp only [State.advance] at h; exact (w h).elim
    | cons n todo =>
      cases a <;> simp only [State.advance] at h
      · split at h
        · cases h; cases hm
        · split at h <;> cases h <;> cases hm
      all_goals cases h
      all_goals cases hm
  | openPart m seq n todo found => cases a <;> simp only [State.advance] at h <;> cases h <;> simp [closeParts_listed] at hm
  | createFull m found => cases a <;> simp only [State.advance] at h <;> cases h <;> simp [closeParts_listed] at hm
  | copy m found todo pos out =>
    cases todo with
    | nil => simp only [State.advance] at h; cases h; cases hm
    | cons p todo =>
      cases a <;> simp only [State.advance] at h
      · cases h; cases hm
      · cases h; simp [closeParts_listed] at hm
      · split at h <;> cases h <;> cases hm
      · cases h; cases hm
  | reopen m found out => cases a <;> simp only [State.advance] at h <;> cases h <;> simp [closeParts_listed] at hm

end Files

namespace Syscall

variable {env : Env} {key : Option DecKey} {endErr : Err} {auto : Bool} {reads : Nat → List Bytes} {fs0 : FS}

theorem replySerial_unread {m m' : Message Entity} {c : Bytes} (h : Unread m m' c) : replySerial m = replySerial m' := by
  obtain ⟨b, hb, rfl⟩ := h
  unfold replySerial
  simp only [hb]

theorem message_ok_unread {L L' : Loop} {a : Around} {m m' : Message Entity} {c : Bytes} {l' : Loop} {x' : List Act} (hu : Unread m m' c)
    (h : L'.message a m' = .ok (l', x')) : ∃ l x, L.message a m = .ok (l, x) := by
  unfold Loop.message at h ⊢
  have hs := replySerial_unread hu
  rcases serial_unread hu with ⟨h1, h2⟩ | h1
  · rw [h1]
    exact ⟨_, _, rfl⟩
  · rw [← hs, h1] at h
    cases h

theorem State.message_ok {s : State} {k : Nat} {u : UserCode} {m : Message Entity} (h : ∃ l x, (s.view k).message { callback := u } m = .ok (l, x)) :
    ∃ r, s.message k u m = .ok r := by
  obtain ⟨l, x, h⟩ := h
  unfold State.message
  rw [h]
  exact ⟨_, rfl⟩

theorem message_view {t : System.State} {k : Nat} {u : UserCode} {m : Message Entity} {r : System.State × List (Nat × Act)} (h : t.message k u m = .ok r) :
    ∃ l x, (t.view k).message { callback := u } m = .ok (l, x) := by
  unfold System.State.message at h
  obtain ⟨⟨l, x⟩, h1, -⟩ := Res.bind_ok h
  exact ⟨l, x, h1⟩

theorem finish_ok (s : State) (k : Nat) (x : List Item) : ∃ r, s.finish k x = .ok r := by
  have : ∃ r, s.files.step (.release k) = .ok r := by
    simp only [Files.State.step]
    split <;> exact ⟨_, rfl⟩
  obtain ⟨⟨f, l⟩, h⟩ := this
  unfold State.finish
  rw [h]
  exact ⟨_, rfl⟩

theorem call_ok (s : State) (k : Nat) (p : Place) (c : Files.Call) : ∃ r, s.call k p c = .ok r := by
  have : ∃ r, s.files.step (.call k c) = .ok r := by
    simp only [Files.State.step]
    split <;> exact ⟨_, rfl⟩
  obtain ⟨⟨f, l⟩, h⟩ := this
  unfold State.call
  rw [h]
  exact ⟨_, rfl⟩

/-- A connection that is in a call on files other than `Write` checks or merges. -/
theorem asking {s : State} {log : List Item} {t : System.State} {alog : List (Nat × Act)} (h : Sim env key endErr auto reads fs0 s log t alog) {k : Nat} {j : Files.Job}
    (hj : s.files.job k = some j) (hc : ∀ m sq d, j.call ≠ .write m sq d) :
    (∃ m b p, (s.conns k).place = .checking m b p ∨ (s.conns k).place = .merging m b p) ∧ hasDir (opsOf (filesIn log)) (callUpload j.call).icc := by
  have hr : s.files.reader k = none := h.basic.one k (by rw [hj]; simp)
  have hdo : s.files.doing k = some j.call := by simp [Files.State.doing, hj]
  have noread : ∀ {c}, ¬ Reading env key endErr auto reads s.files log k c := by
    rintro c ⟨file, pos, h1, -⟩
    rw [hr] at h1; cases h1
  have hp := h.place k
  generalize (s.conns k).place = sp at hp
  generalize (t.conns k).place = tp at hp
  cases hp with
  | waiting g1 => rw [hdo] at g1; cases g1
  | received m g1 => rw [hdo] at g1; cases g1
  | storing g1 => rw [hdo] at g1; exact absurd (Option.some.inj g1) (hc _ _ _)
  | stored m b p g1 => rw [hdo] at g1; cases g1
  | checking g1 g2 => rw [hdo] at g1; exact ⟨⟨_, _, _, .inl rfl⟩, by rw [Option.some.inj g1]; exact g2⟩
  | full m b p g1 => rw [hdo] at g1; cases g1
  | merging g1 g2 => rw [hdo] at g1; exact ⟨⟨_, _, _, .inr rfl⟩, by rw [Option.some.inj g1]; exact g2⟩
  | merged g1 g2 => exact absurd g2 noread
  | noted m g1 => rw [hdo] at g1; cases g1
  | notedUpload g1 g2 => exact absurd g2 noread
  | handling g1 => rw [hdo] at g1; cases g1
  | handlingUpload g1 g2 => exact absurd g2 noread
  | ended g1 => rw [hdo] at g1; cases g1

/-- A step is taken unless a system call of `IsFull` or `Merge` fails, and then the directories could be read. -/
theorem Sim.step_ok {s : State} {log : List Item} {t : System.State} {alog : List (Nat × Act)} (h : Sim env key endErr auto reads fs0 s log t alog)
    (hok : ∀ e, ∃ r, t.step env key endErr auto e = .ok r) (e : Event) :
    (∃ s' x, s.step env key endErr auto e = .ok (s', x) ∧ AllListed x) ∨
      ∃ k m b p, e = .sys k .fail ∧ ((s.conns k).place = .checking m b p ∨ (s.conns k).place = .merging m b p) := by
  have same : ∃ s' x, Res.ok (s, ([] : List Item)) = .ok (s', x) ∧ AllListed x := ⟨_, _, rfl, fun _ _ hm => by cases hm⟩
  have quiet : ∀ {r : Res (State × List Item)} , (∃ q, r = .ok q) → (∀ s' x, r = .ok (s', x) → AllListed x) → ∃ s' x, r = .ok (s', x) ∧ AllListed x := by
    rintro r ⟨⟨s', x⟩, hq⟩ hl
    exact ⟨s', x, hq, hl s' x hq⟩
  have msg : ∀ {k u m m'}, (∃ r, t.message k u m' = .ok r) → (m' = m ∨ ∃ c, Unread m m' c) → ∃ s' x, s.message k u m = .ok (s', x) ∧ AllListed x := by
    rintro k u m m' ⟨r, hr⟩ hm
    obtain ⟨l', x', hl'⟩ := message_view hr
    refine quiet (State.message_ok ?_) ?_
    · rcases hm with rfl | ⟨c, hu⟩
      · obtain ⟨⟨l, hl, -⟩, -⟩ := message_same (L := t.view k) (L' := s.view k) (h.requests k).symm (h.icc k).symm hl'
        exact ⟨l, x', hl⟩
      · exact message_ok_unread hu hl'
    · intro s' x hx j mm hmem
      unfold State.message at hx
      obtain ⟨⟨l, xs⟩, -, hx⟩ := Res.bind_ok hx
      cases hx
      simp at hmem
  have called : ∀ k p c, ∃ s' x, s.call k p c = .ok (s', x) ∧ AllListed x := by
    intro k p c
    refine quiet (call_ok s k p c) ?_
    intro s' x hx j mm hmem
    unfold State.call at hx
    obtain ⟨⟨f, l⟩, hl, hx⟩ := Res.bind_ok hx
    cases hx
    simp only [Files.State.step] at hl
    split at hl <;> cases hl <;> simp at hmem
  have finished : ∀ k y, AllListed y → ∃ s' x, s.finish k y = .ok (s', x) ∧ AllListed x := by
    intro k y hy
    refine quiet (finish_ok s k y) ?_
    intro s' x hx j mm hmem
    unfold State.finish at hx
    obtain ⟨⟨f, l⟩, hl, hx⟩ := Res.bind_ok hx
    cases hx
    rcases List.mem_append.1 hmem with hmem | hmem
    · exact hy j mm hmem
    · simp only [Files.State.step] at hl
      split at hl <;> cases hl <;> simp at hmem
  cases e with
  | receive k =>
    left
    simp only [State.step]
    have hp := h.place k
    split
    · rename_i hsp
      rw [hsp] at hp
      generalize htp : (t.conns k).place = tp at hp
      cases hp with
      | waiting hd =>
        have hr := h.recv k
        split
        · exact ⟨_, _, rfl, by simp [AllListed]⟩
        · exact ⟨_, _, rfl, by simp [AllListed]⟩
        · rename_i hrec
          obtain ⟨r, hr'⟩ := hok (.receive k)
          simp only [System.State.step, htp, ← hr, hrec] at hr'
          cases hr'
    · exact same
  | process k u =>
    left
    simp only [State.step]
    have hp := h.place k
    split
    · rename_i m hsp
      rw [hsp] at hp
      generalize htp : (t.conns k).place = tp at hp
      cases hp with
      | received _ hd =>
        obtain ⟨r, hr⟩ := hok (.process k .ok u)
        simp only [System.State.step, htp] at hr
        split
        · rename_i e hb
          simp only [hb] at hr
          split
          · rename_i hc
            rw [if_pos hc] at hr
            exact msg ⟨r, hr⟩ (.inl rfl)
          · rename_i hc
            rw [if_neg hc] at hr
            split
            · rename_i b
              split
              · exact called _ _ _
              · rename_i hne
                simp only at hr
                cases hr
            · rename_i hne
              split at hr
              · rename_i b
                exact absurd rfl (hne b)
              · exact msg ⟨r, hr⟩ (.inl rfl)
        · exact ⟨_, _, rfl, by simp [AllListed]⟩
    · exact same
  | check k =>
    left
    simp only [State.step]
    split
    · split
      · exact ⟨_, _, rfl, by simp [AllListed]⟩
      · exact called _ _ _
    · exact same
  | merge k =>
    left
    simp only [State.step]
    split
    · exact called _ _ _
    · exact same
  | sys k a =>
    cases hj : s.files.job k with
    | none =>
      left
      refine ⟨(({ s with files := s.files } : State).returned k []).1, [] ++ (({ s with files := s.files } : State).returned k []).2.map (.act k), ?_, ?_⟩
      · simp only [State.step, Files.State.step, hj]
        rfl
      · simp [AllListed, State.returned]
    | some j =>
      have hstep : s.files.step (.step k a) = s.files.advance k a j := by simp only [Files.State.step, hj]
      have fails : a = .fail → (∀ m sq d, j.call ≠ .write m sq d) →
          ∃ k' m b p, Event.sys k a = .sys k' .fail ∧ ((s.conns k').place = .checking m b p ∨ (s.conns k').place = .merging m b p) := by
        rintro rfl hc
        obtain ⟨⟨m, b, p, hmbp⟩, -⟩ := asking h hj hc
        exact ⟨k, m, b, p, rfl, hmbp⟩
      cases hadv : s.files.advance k a j with
      | err e => exact absurd hadv Files.advance_noerr
      | panic =>
        obtain ⟨h1, h2⟩ := Files.advance_panic hadv
        rcases h2 with h2 | h2
        · exact .inr (fails h2 h1)
        · obtain ⟨log0, evs, l, h0, he, hl⟩ := h.files
          have hd := h0.dirs.run h0.basic he
          rw [← hl] at hd
          exact absurd h2 (hd.has _ (asking h hj h1).2)
      | ok r =>
        obtain ⟨f', l⟩ := r
        by_cases hl : ∃ i m', .unlisted i m' ∈ l
        · obtain ⟨i, m', hm⟩ := hl
          obtain ⟨h1, h2⟩ := Files.advance_listed hadv hm
          exact .inr (fails h1 h2)
        · left
          refine ⟨(({ s with files := f' } : State).returned k l).1, l.map .file ++ (({ s with files := f' } : State).returned k l).2.map (.act k), ?_, ?_⟩
          · simp only [State.step, hstep, hadv]
            rfl
          · intro i m' hm
            rcases List.mem_append.1 hm with hm | hm
            · obtain ⟨o, ho, ho'⟩ := List.mem_map.1 hm
              cases ho'
              exact hl ⟨i, m', ho⟩
            · obtain ⟨o, -, ho⟩ := List.mem_map.1 hm
              cases ho
  | note k u =>
    left
    simp only [State.step]
    have hp := h.place k
    split
    · rename_i m hsp
      rw [hsp] at hp
      generalize htp : (t.conns k).place = tp at hp
      cases hp with
      | @merged _ m' c h1 h2 h3 =>
        obtain ⟨r, hr⟩ := hok (.note k u)
        simp only [System.State.step, htp] at hr
        exact msg ⟨r, hr⟩ (.inr ⟨c, h1.2⟩)
    · exact same
  | dispatch k =>
    left
    simp only [State.step]
    split
    · split
      · exact finished k _ (by simp [AllListed])
      · exact ⟨_, _, rfl, by simp [AllListed]⟩
    · exact same
  | read k n =>
    left
    simp only [State.step]
    split
    · have : ∃ f l, s.files.step (.read k n) = .ok (f, l) ∧ ∀ i m', .unlisted i m' ∉ l := by
        simp only [Files.State.step]
        split
        · split <;> exact ⟨_, _, rfl, by simp⟩
        · exact ⟨_, _, rfl, by simp⟩
      obtain ⟨f, l, h1, h2⟩ := this
      rw [h1]
      refine ⟨_, _, rfl, ?_⟩
      intro i m' hm
      obtain ⟨o, ho, ho'⟩ := List.mem_map.1 hm
      cases ho'
      exact h2 i m' ho
    · exact same
  | ret k u =>
    left
    simp only [State.step]
    split
    · cases u <;> exact finished k _ (by simp [AllListed])
    · exact same
  | addHandler id g => left; cases g <;> exact ⟨_, _, rfl, by simp [AllListed]⟩
  | addRequest k r => left; exact ⟨_, _, rfl, by simp [AllListed]⟩

theorem allListed_append {x y : List Item} (hx : AllListed x) (hy : AllListed y) : AllListed (x ++ y) := by
  intro k m hm
  rcases List.mem_append.1 hm with hm | hm
  · exact hx k m hm
  · exact hy k m hm

theorem Sim.run_ok {s : State} {log : List Item} {t : System.State} {alog : List (Nat × Act)} (hown : OwnUploads env key endErr auto reads)
    (hc : ∀ k, System.NoCrash env key endErr (reads k)) (h : Sim env key endErr auto reads fs0 s log t alog) (hl : AllListed log) (es : List Event) :
    (∃ s' x, s.run env key endErr auto es = .ok (s', x) ∧ AllListed x) ∨
      ∃ es1 k es2 s' x m b p, es = es1 ++ .sys k .fail :: es2 ∧ s.run env key endErr auto es1 = .ok (s', x) ∧
        ((s'.conns k).place = .checking m b p ∨ (s'.conns k).place = .merging m b p) := by
  induction es generalizing s log t alog with
  | nil => exact .inl ⟨_, _, rfl, by simp [AllListed]⟩
  | cons e es ih =>
    have hok : ∀ e, ∃ r, t.step env key endErr auto e = .ok r := by
      obtain ⟨es0, h0⟩ := h.atOnce
      intro e
      refine System.step_ok (fs0 := fs0) hc (log := alog) (fun k => ?_) e
      have := (System.inv_startOn (env := env) (key := key) (endErr := endErr) (auto := auto) (k := k) fs0 reads).run h0
      simpa using this
    rcases h.step_ok hok e with ⟨s', x, h1, h2⟩ | ⟨k, m, b, p, rfl, h1⟩
    · obtain ⟨t', y, h3⟩ := h.step hown h1 (allListed_append hl h2)
      have hcons : ∀ es, s.run env key endErr auto (e :: es) = s'.run env key endErr auto es >>= fun q => .ok (q.1, x ++ q.2) := by
        intro es
        show (s.step env key endErr auto e >>= fun r => r.1.run env key endErr auto es >>= fun q => .ok (q.1, r.2 ++ q.2)) = _
        rw [h1]
        rfl
      rcases ih h3 (allListed_append hl h2) with ⟨s2, x2, g1, g2⟩ | ⟨es1, k, es2, s2, x2, m, b, p, g1, g2, g3⟩
      · exact .inl ⟨s2, x ++ x2, by rw [hcons, g1]; rfl, allListed_append h2 g2⟩
      · exact .inr ⟨e :: es1, k, es2, s2, x ++ x2, m, b, p, by rw [g1]; rfl, by rw [hcons, g2]; rfl, g3⟩
    · exact .inr ⟨[], k, es, s, [], m, b, p, rfl, rfl, h1⟩

end Syscall
end Verif
