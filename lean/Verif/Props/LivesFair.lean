import Verif.Props.Lives
import Verif.Props.SyscallFair
/-! # C99 in runs without end -/

namespace Verif
open Handler Spec Codec Calls
open Syscall (Event State Item Life lives)

theorem lives_endless {env : Env} {key : Option DecKey} {endErr : Err} {auto : Bool} {ls : List Life} (hown : ∀ l ∈ ls, OwnUploads env key endErr auto l.reads)
    {fs : FS} {logs : List (List Item)} (h0 : lives env key endErr auto (fun _ => none) ls = .ok (fs, logs)) (hlist0 : ∀ log ∈ logs, AllListed log)
    {reads : Nat → List Bytes} (hown' : OwnUploads env key endErr auto reads) {ev : Nat → Event} {st : Nat → State} {log : Nat → List Item}
    (h : ∀ n, (Syscall.startOn fs reads).run env key endErr auto (firsts ev n) = .ok (st n, log n)) (hlist : ∀ n, AllListed (log n)) :
    ∃ pre : List Item, (∀ k a, .act k a ∉ pre) ∧ Syscall.Endless env key endErr auto reads fs ev st (fun n => pre ++ log n) := by
  obtain ⟨new, g1, -⟩ := Syscall.lives_rests Files.rests_empty hown h0 hlist0
  refine ⟨_, ?_, Syscall.endless_of_sim hown' (Syscall.rests_sim g1) (fun _ hx => hx.elim) h (fun n => Syscall.allListed_rests (hlist n))⟩
  intro k a ha
  obtain ⟨o, -, ho⟩ := List.mem_map.1 ha
  cases ho

/-- C99 in the long run: also in a process that finds the files earlier ones left behind, the loop of a connection comes to its end if its goroutine is given
turns again and again and each of its system calls comes back at some time, maybe with an error. -/
theorem C99_fair_ends (env : Env) (key : Option DecKey) (endErr : Err) (auto : Bool) (ls : List Life) (hown : ∀ l ∈ ls, OwnUploads env key endErr auto l.reads)
    (fs : FS) (logs : List (List Item)) (h0 : lives env key endErr auto (fun _ => none) ls = .ok (fs, logs)) (hlist0 : ∀ log ∈ logs, AllListed log)
    (reads : Nat → List Bytes) (hown' : OwnUploads env key endErr auto reads) (ev : Nat → Event) (st : Nat → State) (log : Nat → List Item)
    (h : ∀ n, (Syscall.startOn fs reads).run env key endErr auto (firsts ev n) = .ok (st n, log n)) (hlist : ∀ n, AllListed (log n))
    (k : Nat) (ht : Turns ev k) (hb : ComesBack st k) : ∃ N, ∀ n, N ≤ n → ((st n).conns k).place = .ended := by
  obtain ⟨pre, -, he⟩ := lives_endless hown h0 hlist0 hown' h hlist
  exact he.ends hown' ht hb

/-- C99 in the long run: processes of the server end at any moment and are started again, and a terminal sends again what `C99_upload_completes` asks for. If
no system call of its connection fails and no directory is unreadable, its goroutine is given turns again and again, and its system calls come back at some
time, then at some time all these parts have been answered with "success", exactly one message has been passed on for it, to the handler registered last, with
the number of the terminal and the media data, and whenever the handler has read in the file it was given, it has read a beginning of the file the terminal
has and nothing else, and the whole file if it has read to the end; whatever the other connections do. -/
theorem C99_fair_completes (env : Env) (key : Option DecKey) (endErr : Err) (f : FileUpload) (hok : f.OK env) (hne : f.parts ≠ [])
    (ls : List Life) (hown : ∀ l ∈ ls, OwnUploads env key endErr true l.reads)
    (hfits : ∀ l ∈ ls, ∀ k m, ArrivesOn env key endErr (l.reads k) m → f.Fits m)
    (fs : FS) (logs : List (List Item)) (h0 : lives env key endErr true (fun _ => none) ls = .ok (fs, logs)) (hlist0 : ∀ log ∈ logs, AllListed log)
    (again : List (Nat × UInt16)) (hagain : ∀ x ∈ again, x.1 + 1 < f.parts.length) (serial : UInt16)
    (hkept : ∀ i, i + 1 < f.parts.length → (∃ s, (i, s) ∈ again) ∨ Kept f.upload (UInt16.ofNat (i + 1)) (f.content i) logs) :
    ∃ sent : List Bytes,
      ((again ++ [(f.parts.length - 1, serial)]).map fun x => sendBytes (entityCodec env) none (f.message x.1 x.2).1) = sent.map .ok ∧
      ∀ (reads : Nat → List Bytes) (k : Nat), (∀ c ∈ reads k, c.length ≤ 128) → (reads k).flatten = sent.flatten → OwnUploads env key endErr true reads →
        ∀ (ev : Nat → Event) (st : Nat → State) (log : Nat → List Item),
          (∀ n, (Syscall.startOn fs reads).run env key endErr true (firsts ev n) = .ok (st n, log n)) → (∀ n, AllListed (log n)) →
          (∀ n, ev n ≠ .sys k .fail) → Turns ev k → ComesBack st k → ∃ N, ∀ n, N ≤ n →
            ((st n).conns k).place = .ended ∧
            replies (actsOf k (actsIn (log n))) = ((again ++ [(f.parts.length - 1, serial)]).map fun x => (x.2, 0x0801, 0)) ∧
            ∃ d, d.body = .val (.m0801 { f.media with packet := none }) ∧ d.header.iccID = f.icc ∧
              offered (actsOf k (actsIn (log n))) = [d] ∧ Given ((actsIn (log n)).filterMap (seenBy k)) d ∧
              ∀ g ∈ gotBy k (log n), g.message = d ∧ g.read <+: f.parts.flatMap (·.2) ∧ (g.toEnd = true → g.read = f.parts.flatMap (·.2)) := by
  obtain ⟨sent, hsent, harr⟩ := C99_upload_completes env key endErr f hok hne ls hown hfits fs logs h0 hlist0 again hagain serial hkept
  refine ⟨sent, hsent, ?_⟩
  intro reads k hr hs hown' ev st log h hlist hnf ht hb
  obtain ⟨pre, hpre, he⟩ := lives_endless hown h0 hlist0 hown' h hlist
  obtain ⟨N, hN⟩ := he.ends hown' ht hb
  have h1 := h 0
  simp only [firsts, List.range_zero, List.map_nil, State.run, Res.ok.injEq, Prod.mk.injEq] at h1
  refine ⟨N, fun n hn => ⟨hN n hn, ?_⟩⟩
  refine harr reads k hr hs hown' _ _ _ (h n) (hlist n) (hN n hn) ?_
  intro a ha
  refine (he.succeeds (k := k) (by rw [← h1.2]; simpa using hpre k) (by rw [← h1.1]; rfl) hnf n).2 a (List.mem_append_right _ ?_)
  obtain ⟨x, hx, rfl⟩ := List.mem_map.1 ha
  obtain ⟨hx, hk⟩ := List.mem_filter.1 hx
  obtain ⟨w, hw, hx⟩ := List.mem_filterMap.1 hx
  cases w with
  | act j a =>
    cases hx
    cases (show j = k by simpa using hk)
    exact hw
  | file o => cases hx

/-! ## A concrete case -/

namespace Sample

/-- The steps of the third process (`Sample.thirdLife`). -/
def thirdEvents : List Event :=
  .addHandler 0x0801 (some 9) :: lastPart (partNames 1 ++ [(⟨19901234567, 0x0801, media.mediaID, 2⟩ : Multipart).fullName]) ++ handling 1

/-- The third process, whose goroutine is then given turns for ever. -/
def thirdRun (n : Nat) : Event :=
  match thirdEvents[n]? with
  | some e => e
  | none => callTurn (n % 7) 1

theorem thirdRun_again {i : Nat} (hi : i < 7) : ∀ n, ∃ m, n ≤ m ∧ thirdRun m = callTurn i 1 := by
  intro n
  refine ⟨7 * (n + thirdEvents.length) + i, by omega, ?_⟩
  have hn : thirdEvents[7 * (n + thirdEvents.length) + i]? = none := List.getElem?_eq_none (by omega)
  have e1 : (7 * (n + thirdEvents.length) + i) % 7 = i := by omega
  simp only [thirdRun, hn, e1]

theorem thirdRun_turns : Turns thirdRun 1 where
  receive n := by obtain ⟨m, h1, h2⟩ := thirdRun_again (i := 0) (by omega) n; exact ⟨m, h1, h2⟩
  process n := by obtain ⟨m, h1, h2⟩ := thirdRun_again (i := 1) (by omega) n; exact ⟨m, h1, _, h2⟩
  check n := by obtain ⟨m, h1, h2⟩ := thirdRun_again (i := 2) (by omega) n; exact ⟨m, h1, h2⟩
  merge n := by obtain ⟨m, h1, h2⟩ := thirdRun_again (i := 3) (by omega) n; exact ⟨m, h1, h2⟩
  note n := by obtain ⟨m, h1, h2⟩ := thirdRun_again (i := 4) (by omega) n; exact ⟨m, h1, _, h2⟩
  dispatch n := by obtain ⟨m, h1, h2⟩ := thirdRun_again (i := 5) (by omega) n; exact ⟨m, h1, h2⟩
  ret n := by obtain ⟨m, h1, h2⟩ := thirdRun_again (i := 6) (by omega) n; exact ⟨m, h1, _, h2⟩

/-- Whether connection 1 has ended and is in no call on files. -/
def thirdIdle : Bool :=
  match (Syscall.startOn left (lastOnly 41)).run env none .eof true thirdEvents with
  | .ok (s, _) => decide ((s.conns 1).place = .ended) && decide (s.files.job 1 = none)
  | _ => false

theorem callTurn_done {s : State} (h : (s.conns 1).place = .ended) (i : Nat) : s.step env none .eof true (callTurn i 1) = .ok (s, []) := by
  unfold callTurn
  split <;> simp only [State.step, h]

theorem thirdRun_back {st : Nat → State} {log : Nat → List Item}
    (h : ∀ n, (Syscall.startOn left (lastOnly 41)).run env none .eof true (firsts thirdRun n) = .ok (st n, log n)) : ComesBack st 1 := by
  have hL : firsts thirdRun thirdEvents.length = thirdEvents := by decide +kernel
  have hi : thirdIdle = true := by decide +kernel
  have h0 := h thirdEvents.length
  rw [hL] at h0
  unfold thirdIdle at hi
  rw [h0] at hi
  simp only [Bool.and_eq_true, decide_eq_true_eq] at hi
  have still : ∀ i, st (thirdEvents.length + i) = st thirdEvents.length := by
    intro i
    induction i with
    | zero => rfl
    | succ i ih =>
      have h1 := h (thirdEvents.length + i + 1)
      rw [firsts_succ] at h1
      obtain ⟨s1, y, z, g1, g2, -⟩ := Syscall.run_before h1
      rw [h (thirdEvents.length + i)] at g1
      simp only [Res.ok.injEq, Prod.mk.injEq] at g1
      have he : thirdRun (thirdEvents.length + i) = callTurn ((thirdEvents.length + i) % 7) 1 := by
        have hn : thirdEvents[thirdEvents.length + i]? = none := List.getElem?_eq_none (by omega)
        simp only [thirdRun, hn]
      rw [← g1.1, ih, he, State.run, callTurn_done hi.1, Res.ok_bind] at g2
      simp only [State.run, Res.ok_bind, Res.ok.injEq, Prod.mk.injEq] at g2
      exact g2.1.symm
  intro n j hj
  refine ⟨thirdEvents.length + n, by omega, ?_⟩
  rw [still, hi.2]
  simp

theorem thirdRun_nofail (n j : Nat) : thirdRun n ≠ .sys j .fail := by
  have hall : ∀ e ∈ thirdEvents, ∀ j, e ≠ .sys j .fail := by
    have : (thirdEvents.all fun e => match e with | .sys _ .fail => false | _ => true) = true := by decide +kernel
    rw [List.all_eq_true] at this
    rintro e he j rfl
    exact absurd (this _ he) (by simp)
  unfold thirdRun
  split
  · rename_i e he
    exact hall e (List.mem_of_getElem? he) j
  · unfold callTurn
    split <;> simp

theorem two_lives_own : ∀ l ∈ [firstLife, secondLife], OwnUploads env none .eof true l.reads := by
  intro l hl
  rcases List.mem_cons.1 hl with rfl | hl
  · exact pieces_own
  · obtain rfl : l = _ := by simpa using hl
    exact lastOnly_own 40

theorem two_lives_fit : ∀ l ∈ [firstLife, secondLife], ∀ k m, ArrivesOn env none .eof (l.reads k) m → (files 1).Fits m := by
  intro l hl
  rcases List.mem_cons.1 hl with rfl | hl
  · exact pieces_fit
  · obtain rfl : l = _ := by simpa using hl
    exact lastOnly_fit

theorem two_lives_listed : ∀ log ∈ logs, AllListed log := by
  have : ∀ log ∈ logs, (log.all fun | .file (.unlisted _ _) => false | _ => true) = true := by decide +kernel
  exact fun log hl => allListed_of (this log hl)

theorem lastOnly_sent : ([] ++ [((files 1).parts.length - 1, (41 : UInt16))] : List (Nat × UInt16)).map
    (fun x => sendBytes (entityCodec env) none ((files 1).message x.1 x.2).1) = [(lastOnly 41 1).flatten].map .ok := by
  decide +kernel

theorem lastOnly_clean (k : Nat) (x : UInt8) : ¬ [0x7e, x, 0x7e] <:+: (lastOnly 41 k).flatten := by
  rintro ⟨a, b, h⟩
  generalize hl : (lastOnly 41 k).flatten = l at h
  have h1 : l[a.length]? = some 0x7e := by rw [← h]; simp
  have h2 : l[a.length + 2]? = some 0x7e := by rw [← h]; simp
  have hlt : a.length < l.length := by rw [← h]; simp
  subst hl
  by_cases hk : k = 1
  · subst hk
    have key : ∀ i, i < (lastOnly 41 1).flatten.length → (lastOnly 41 1).flatten[i]? = some 0x7e → (lastOnly 41 1).flatten[i + 2]? ≠ some 0x7e := by decide +kernel
    exact key _ hlt h1 h2
  · have : lastOnly 41 k = [] := by
      unfold lastOnly
      split
      · exact absurd rfl hk
      · rfl
    rw [this] at hlt
    exact absurd hlt (by simp)

theorem thirdRun_ok (n : Nat) : ∃ r : State × List Item,
    (Syscall.startOn left (lastOnly 41)).run env none .eof true (firsts thirdRun n) = .ok r ∧ AllListed r.2 := by
  rcases C99_no_crash env none (by simp) .eof true [firstLife, secondLife] two_lives_own left logs lives_run two_lives_listed (lastOnly 41) lastOnly_clean
      (lastOnly_own 41) (firsts thirdRun n) with ⟨s, l, h1, h2⟩ | ⟨es1, k, es2, s, x, m, b, p, h1, -⟩
  · exact ⟨(s, l), h1, h2⟩
  · have : Event.sys k .fail ∈ firsts thirdRun n := by rw [h1]; simp
    obtain ⟨i, -, hi⟩ := List.mem_map.1 this
    exact absurd hi (thirdRun_nofail i k)

end Sample

/-- There are such runs: two processes ended in the middle of calls, and the third is given the last part once more and then turns for ever. It does not crash,
and at some time the part has been answered with "success" and the handler has been given the file of the terminal. -/
theorem C99_fair_example : ∃ (st : Nat → State) (log : Nat → List Item),
    (∀ n, (Syscall.startOn Sample.left (Sample.lastOnly 41)).run Sample.env none .eof true (firsts Sample.thirdRun n) = .ok (st n, log n)) ∧
    Turns Sample.thirdRun 1 ∧ ComesBack st 1 ∧ ∃ N, ∀ n, N ≤ n →
      ((st n).conns 1).place = .ended ∧ replies (actsOf 1 (actsIn (log n))) = [(41, 0x0801, 0)] ∧
      ∀ g ∈ gotBy 1 (log n), g.read <+: [1, 2, 3] := by
  obtain ⟨sent, hsent, hx⟩ := C99_fair_completes Sample.env none .eof (Sample.files 1) (Sample.files_ok 1) (by decide) [Sample.firstLife, Sample.secondLife]
    Sample.two_lives_own Sample.two_lives_fit Sample.left Sample.logs Sample.lives_run Sample.two_lives_listed
    [] (by simp) 41 (by
      intro i hi
      obtain rfl : i = 0 := by simp [Sample.files] at hi; omega
      exact .inr Sample.kept)
  obtain rfl : sent = [(Sample.lastOnly 41 1).flatten] := List.map_inj_right (f := Res.ok) (by simp) |>.1 (hsent.symm.trans Sample.lastOnly_sent)
  have hr := Sample.thirdRun_ok
  obtain ⟨r, h⟩ := Classical.axiomOfChoice hr
  have h1 : ∀ n, (Syscall.startOn Sample.left (Sample.lastOnly 41)).run Sample.env none .eof true (firsts Sample.thirdRun n) = .ok ((r n).1, (r n).2) := fun n => (h n).1
  have hb := Sample.thirdRun_back h1
  refine ⟨fun n => (r n).1, fun n => (r n).2, h1, Sample.thirdRun_turns, hb, ?_⟩
  obtain ⟨N, hN⟩ := hx (Sample.lastOnly 41) 1 (by decide +kernel) (by simp) (Sample.lastOnly_own 41) Sample.thirdRun _ _ h1 (fun n => (h n).2)
    (fun n => Sample.thirdRun_nofail n 1) Sample.thirdRun_turns hb
  refine ⟨N, fun n hn => ?_⟩
  obtain ⟨e1, e2, d, -, -, -, -, e3⟩ := hN n hn
  exact ⟨e1, e2, fun g hg => (e3 g hg).2.1⟩

end Verif
