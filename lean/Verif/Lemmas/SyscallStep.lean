import Verif.Lemmas.SyscallSim
/-! # Lemmas: every step in which system calls interleave has its counterpart -/

namespace Verif.Syscall
open Handler Session Spec Codec
open Files (By Elsewhere Basic OpFor opsOf_append heard_append Outcomes Ongoing)

variable {env : Env} {key : Option DecKey} {endErr : Err} {auto : Bool} {reads : Nat → List Bytes} {fs0 : FS}

theorem doing_none {f : Files.State} {k : Nat} : f.doing k = none ↔ f.job k = none ∧ f.reader k = none := by
  unfold Files.State.doing
  cases f.job k <;> simp

/-- Acts without a step on files. -/
theorem Sim.acted {s s' : State} {log : List Item} {t t' : System.State} {alog y : List (Nat × Act)} (k : Nat) (xs : List Act)
    (hown : OwnUploads env key endErr auto reads) (h : Sim env key endErr auto reads fs0 s log t alog) (hfiles : s'.files = s.files)
    (hf : Follows env key endErr auto t t' y) (hacts : Each (SameAct auto) (System.State.acts k xs) y) (hfs : t'.fs = t.fs)
    (hhand : s'.handlers = t'.handlers) (hs : ∀ i, i ≠ k → s'.conns i = s.conns i) (ht : ∀ i, i ≠ k → t'.conns i = t.conns i)
    (hrecv : (s'.conns k).recv = (t'.conns k).recv) (hreq : (s'.conns k).requests = (t'.conns k).requests) (hicc : (s'.conns k).icc = (t'.conns k).icc)
    (hplace : Linked env key endErr auto reads s.files (log ++ xs.map (.act k)) (alog ++ y) k (s'.conns k).place (t'.conns k).place)
    (htold : Each (Told auto) (gotBy k (log ++ xs.map (.act k))) (handledBy k (alog ++ y))) :
    Sim env key endErr auto reads fs0 s' (log ++ xs.map (.act k)) t' (alog ++ y) := by
  refine h.next k hown (.inl ⟨hfiles, filesIn_act k xs⟩) hf ?_ (by rw [actsIn_act]; exact hacts) ?_ hhand hs ht hrecv hreq hicc (by rw [hfiles]; exact hplace) ?_ htold
  · intro j a hx
    obtain ⟨b, -, hb⟩ := List.mem_map.1 hx
    cases hb; rfl
  · rw [filesIn_append, filesIn_act, List.append_nil, hfs]; exact h.store
  · rw [filesIn_act]; simp

/-- A step on files that completes no call. -/
theorem Sim.filed {s s' : State} {log : List Item} {t : System.State} {alog : List (Nat × Act)} (k : Nat) {ev : Files.Event} {l : List Files.Obs}
    (hown : OwnUploads env key endErr auto reads) (h : Sim env key endErr auto reads fs0 s log t alog) (hby : By k ev) (hstep : s.files.step ev = .ok (s'.files, l))
    (hops : opsOf l = []) (hhand : s'.handlers = s.handlers) (hs : ∀ i, i ≠ k → s'.conns i = s.conns i)
    (hrecv : (s'.conns k).recv = (s.conns k).recv) (hreq : (s'.conns k).requests = (s.conns k).requests) (hicc : (s'.conns k).icc = (s.conns k).icc)
    (hplace : Linked env key endErr auto reads s'.files (log ++ l.map .file) alog k (s'.conns k).place (t.conns k).place)
    (howner : ∀ j c, .began j c ∈ l → Owns env key endErr auto reads j (callUpload c))
    (htold : Each (Told auto) (gotBy k (log ++ l.map .file)) (handledBy k alog)) : Sim env key endErr auto reads fs0 s' (log ++ l.map .file) t alog := by
  have := h.next (s' := s') (x := l.map .file) (t' := t) (y := []) k hown (.inr ⟨ev, hby, by rw [filesIn_file]; exact hstep⟩) (.inl ⟨rfl, rfl⟩) ?_ ?_ ?_
    (hhand.trans h.handlers) hs (fun _ _ => rfl) (hrecv.trans (h.recv k)) (hreq.trans (h.requests k)) (hicc.trans (h.icc k)) (by rw [List.append_nil]; exact hplace)
    (by rw [filesIn_file]; exact howner) (by rw [List.append_nil]; exact htold)
  · rw [List.append_nil] at this; exact this
  · intro j a hx
    obtain ⟨b, -, hb⟩ := List.mem_map.1 hx
    cases hb
  · rw [actsIn_file]; exact .nil
  · rw [filesIn_append, filesIn_file, opsOf_append, hops, List.append_nil]; exact h.store

theorem told_still {s : State} {log x : List Item} {t : System.State} {alog y : List (Nat × Act)} {k : Nat} (h : Sim env key endErr auto reads fs0 s log t alog)
    (h1 : ∀ j g m, .act j (.handle g m) ∉ x) (h2 : ∀ j c, .got j c ∉ filesIn x) (h3 : ∀ j, .eof j ∉ filesIn x) (h4 : ∀ j g m, (j, Act.handle g m) ∉ y) :
    Each (Told auto) (gotBy k (log ++ x)) (handledBy k (alog ++ y)) := by
  rw [gotBy_append, got_still k x h1 h2 h3, handledBy_append, handled_none h4, List.nil_append]
  exact h.told k

theorem message_same {L L' : Loop} (hq : L.requests = L'.requests) (hi : L.icc = L'.icc) {a : Around} {m : Message Entity} {l : Loop} {x : List Act}
    (h : L.message a m = .ok (l, x)) :
    (∃ l', L'.message a m = .ok (l', x) ∧ l.requests = l'.requests ∧ l.icc = l'.icc) ∧ (∀ g m', .handle g m' ∉ x) ∧ offered x = [] := by
  obtain ⟨fs, hs, rq, ic, rn⟩ := L
  obtain ⟨fs', hs', rq', ic', rn'⟩ := L'
  cases (show rq = rq' from hq)
  cases (show ic = ic' from hi)
  unfold Loop.message at h ⊢
  obtain ⟨serial, hser, h⟩ := Res.bind_ok h
  rw [hser]
  by_cases hc : m.header.iccID > 0
  all_goals
    simp only [hc, if_true, if_false, Res.ok_bind] at h ⊢
    split at h
    · rename_i h0
      cases h
      simp [h0, offered]
    · rename_i h0
      rw [if_neg h0]
      split at h
      · rename_i ht
        cases h
        simp [ht, offered]
      · rename_i r rest ht
        obtain ⟨u, hu, h⟩ := Res.bind_ok h
        cases h
        simp [ht, hu, offered]

theorem serial_unread {m m' : Message Entity} {c : Bytes} (h : Unread m m' c) : replySerial m = .ok 0 ∧ replySerial m' = .ok 0 ∨ replySerial m = .panic := by
  obtain ⟨b, hb, rfl⟩ := h
  unfold replySerial
  simp only [hb]
  repeat' (split; exact .inr rfl)
  exact .inl ⟨rfl, rfl⟩

theorem message_unread {L L' : Loop} (hq : L.requests = L'.requests) (hi : L.icc = L'.icc) {a : Around} {m m' : Message Entity} {c : Bytes} {l : Loop} {x : List Act}
    (hu : Unread m m' c) (h : L.message a m = .ok (l, x)) :
    x = [] ∧ ∃ l', L'.message a m' = .ok (l', []) ∧ l.requests = l'.requests ∧ l.icc = l'.icc := by
  unfold Loop.message at h ⊢
  rcases serial_unread hu with ⟨h1, h2⟩ | h1
  · rw [h1] at h
    cases h
    refine ⟨rfl, _, by rw [h2]; rfl, ?_, ?_⟩
    · split <;> split <;> exact hq
    · obtain ⟨b, -, rfl⟩ := hu
      show (if m.header.iccID > 0 then _ else _ : Loop).icc = (if m.header.iccID > 0 then _ else _ : Loop).icc
      split
      · rfl
      · exact hi
  · rw [h1] at h
    cases h

theorem sameAct_refl (k : Nat) (l : List Act) (h : offered l = []) : Each (SameAct auto) (System.State.acts k l) (System.State.acts k l) := by
  induction l with
  | nil => exact .nil
  | cons a l ih =>
    have h' : offered [a] ++ offered l = [] := by rw [← offered_append]; exact h
    obtain ⟨h1, h2⟩ := List.append_eq_nil_iff.1 h'
    exact .cons (.same k a h1) (ih h2)

theorem acts_nothandle {k : Nat} {x : List Act} (h : ∀ g m, .handle g m ∉ x) :
    (∀ j g m, .act j (.handle g m) ∉ x.map (Item.act k)) ∧ (∀ j c, .got j c ∉ filesIn (x.map (Item.act k))) ∧ (∀ j, .eof j ∉ filesIn (x.map (Item.act k))) ∧
      ∀ j g m, (j, Act.handle g m) ∉ System.State.acts k x := by
  rw [filesIn_act]
  refine ⟨?_, by simp, by simp, ?_⟩
  · intro j g m hx
    obtain ⟨a, ha, hb⟩ := List.mem_map.1 hx
    cases hb
    exact h g m ha
  · intro j g m hx
    obtain ⟨a, ha, hb⟩ := List.mem_map.1 hx
    cases hb
    exact h g m ha

/-- The messages that do not go through the storage. -/
theorem sim_message {s s' : State} {log x : List Item} {t : System.State} {alog : List (Nat × Act)} {k : Nat} {u : UserCode} {m m' : Message Entity}
    {e : System.Event} (hown : OwnUploads env key endErr auto reads) (h : Sim env key endErr auto reads fs0 s log t alog) (hs : s.message k u m = .ok (s', x))
    (he : t.step env key endErr auto e = t.message k u m')
    (hm : m' = m ∧ s.files.doing k = none ∧ isPart auto m = false ∨ ∃ c, Opened auto m m' c ∧ Reading env key endErr auto reads s.files log k c ∧ heard k (filesIn log) = []) :
    ∃ t' y, Sim env key endErr auto reads fs0 s' (log ++ x) t' (alog ++ y) := by
  unfold State.message at hs
  obtain ⟨⟨l, xs⟩, hl, hs⟩ := Res.bind_ok hs
  cases hs
  have hq : (s.view k).requests = (t.view k).requests := h.requests k
  have hi : (s.view k).icc = (t.view k).icc := h.icc k
  rcases hm with ⟨rfl, hd, hpart⟩ | ⟨c, hu, hr, hh⟩
  · obtain ⟨⟨l', hl', h1, h2⟩, hn, hoff⟩ := message_same hq hi hl
    obtain ⟨n1, n2, n3, n4⟩ := acts_nothandle (k := k) hn
    refine ⟨t.put k { t.conns k with place := .noted m', requests := l'.requests, icc := l'.icc }, System.State.acts k xs,
      h.acted k xs hown rfl (.inr ⟨e, ?_⟩) (sameAct_refl k xs hoff) ?_ ?_ ?_ ?_ ?_ ?_ ?_ ?_ (told_still h n1 n2 n3 n4)⟩
    · rw [he]
      unfold System.State.message
      rw [hl']
      rfl
    · rfl
    · exact h.handlers
    · intro i hi; simp [State.put, hi]
    · intro i hi; simp [System.State.put, hi]
    · simpa [State.put, System.State.put] using h.recv k
    · simpa [State.put, System.State.put] using h1
    · simpa [State.put, System.State.put] using h2
    · simp only [State.put, System.State.put, if_true]
      exact .noted _ hd hpart
  · obtain ⟨rfl, l', hl', h1, h2⟩ := message_unread hq hi hu.2 hl
    refine ⟨t.put k { t.conns k with place := .noted m', requests := l'.requests, icc := l'.icc }, [],
      h.acted k [] hown rfl (.inr ⟨e, ?_⟩) .nil ?_ ?_ ?_ ?_ ?_ ?_ ?_ ?_ ?_⟩
    · rw [he]
      unfold System.State.message
      rw [hl']
      rfl
    · rfl
    · exact h.handlers
    · intro i hi; simp [State.put, hi]
    · intro i hi; simp [System.State.put, hi]
    · simpa [State.put, System.State.put] using h.recv k
    · simpa [State.put, System.State.put] using h1
    · simpa [State.put, System.State.put] using h2
    · simp only [State.put, System.State.put, if_true, List.map_nil, List.append_nil]
      exact .notedUpload hu hr hh
    · simpa [System.State.acts] using h.told k

end Verif.Syscall
