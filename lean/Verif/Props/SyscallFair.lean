import Verif.Lemmas.SyscallFair
import Verif.Props.Syscall
/-! # C93 in runs without end -/

namespace Verif
open Handler Spec Codec Calls
open Syscall (Event State Item)

/-- C93 in the long run: if the goroutine of a connection is given turns again and again and each of its system calls comes back at some time, maybe with an
error, then its loop comes to its end, however the system calls of the other connections are interleaved with its own. -/
theorem C93_fair_ends (env : Env) (key : Option DecKey) (endErr : Err) (auto : Bool) (reads : Nat → List Bytes) (hown : OwnUploads env key endErr auto reads)
    (ev : Nat → Event) (st : Nat → State) (log : Nat → List Item) (h : ∀ n, (Syscall.start reads).run env key endErr auto (firsts ev n) = .ok (st n, log n))
    (hlist : ∀ n, AllListed (log n)) (k : Nat) (ht : Turns ev k) (hb : ComesBack st k) : ∃ N, ∀ n, N ≤ n → ((st n).conns k).place = .ended :=
  (Syscall.endless_of_runs hown h hlist).ends hown ht hb

/-- C93 for files, in the long run: terminals upload different files at once, each in parts of at most 987 bytes, in order, and no system call fails. Then there is no
crash, and for every terminal whose connection is given turns again and again, with system calls that come back at some time: all its parts are answered with
"success" at some time, exactly one message is passed on for it, to the handler registered last, with the number of the terminal and the media data, and whatever
the handler has read in the file it was given is a beginning of the file the terminal sent, and the whole file if it has read to the end. -/
theorem C93_fair_files_arrive (env : Env) (key : Option DecKey) (endErr : Err) (files : Nat → FileUpload) (hok : ∀ k, (files k).OK env)
    (hdiff : ∀ j k, j ≠ k → (files j).parts ≠ [] → (files k).parts ≠ [] → (files j).upload ≠ (files k).upload) :
    ∃ sent : Nat → List Bytes, (∀ k, (files k).messages.map (fun x => sendBytes (entityCodec env) none x.1) = (sent k).map .ok) ∧
      ∀ reads : Nat → List Bytes, (∀ k, (∀ c ∈ reads k, c.length ≤ 128) ∧ (reads k).flatten = (sent k).flatten) →
        ∀ ev : Nat → Event, (∀ n j, ev n ≠ .sys j .fail) →
          ∃ (st : Nat → State) (log : Nat → List Item), (∀ n, (Syscall.start reads).run env key endErr true (firsts ev n) = .ok (st n, log n)) ∧
            ∀ k, (files k).parts ≠ [] → Turns ev k → ComesBack st k → ∃ N, ∀ n, N ≤ n →
              ((st n).conns k).place = .ended ∧ replies (actsOf k (actsIn (log n))) = ((files k).parts.map fun p => (p.1, 0x0801, 0)) ∧
              ∃ d, d.body = .val (.m0801 { (files k).media with packet := none }) ∧ d.header.iccID = (files k).icc ∧
                offered (actsOf k (actsIn (log n))) = [d] ∧ Given ((actsIn (log n)).filterMap (seenBy k)) d ∧
                ∀ g ∈ gotBy k (log n), g.message = d ∧ g.read <+: (files k).parts.flatMap (·.2) ∧ (g.toEnd = true → g.read = (files k).parts.flatMap (·.2)) := by
  obtain ⟨sent, hsent, harr⟩ := C93_files_arrive env key endErr files hok hdiff
  refine ⟨sent, hsent, ?_⟩
  intro reads hreads ev hnf
  obtain ⟨hno, harrive⟩ := files_arrivals env key endErr files hok sent hsent reads hreads
  have hown : OwnUploads env key endErr true reads := by
    intro i j u m m' h1 h2 h3 h4
    apply Classical.byContradiction
    intro hij
    obtain ⟨p1, p2⟩ := harrive i m h1
    obtain ⟨q1, q2⟩ := harrive j m' h2
    exact hdiff i j hij p1 q1 (((p2 u).1 h3).symm.trans ((q2 u).1 h4))
  have hr : ∀ n, ∃ r : State × List Item, (Syscall.start reads).run env key endErr true (firsts ev n) = .ok r ∧ AllListed r.2 := by
    intro n
    rcases (Syscall.sim_start (env := env) (key := key) (endErr := endErr) (auto := true) (reads := reads)).run_ok hown hno (by simp [AllListed]) (firsts ev n) with
      ⟨s, l, h1, h2⟩ | ⟨es1, k, es2, s, x, m, b, p, h1, -⟩
    · exact ⟨(s, l), h1, h2⟩
    · have : Event.sys k .fail ∈ firsts ev n := by rw [h1]; simp
      obtain ⟨i, -, hi⟩ := List.mem_map.1 this
      exact absurd hi (hnf i k)
  obtain ⟨r, h⟩ := Classical.axiomOfChoice hr
  have h1 : ∀ n, (Syscall.start reads).run env key endErr true (firsts ev n) = .ok ((r n).1, (r n).2) := fun n => (h n).1
  refine ⟨fun n => (r n).1, fun n => (r n).2, h1, ?_⟩
  intro k hne ht hb
  have he := Syscall.endless_of_runs hown h1 (fun n => (h n).2)
  obtain ⟨N, hN⟩ := he.ends hown ht hb
  have h0 := h1 0
  simp only [firsts, List.range_zero, List.map_nil, State.run, Res.ok.injEq, Prod.mk.injEq] at h0
  refine ⟨N, fun n hn => ⟨hN n hn, ?_⟩⟩
  refine harr reads hreads _ _ _ (h1 n) (h n).2 k hne (hN n hn) ?_
  intro a ha
  refine (he.succeeds (k := k) (by rw [← h0.2]; simp) (by rw [← h0.1]; rfl) (fun n => hnf n k) n).2 a ?_
  obtain ⟨x, hx, rfl⟩ := List.mem_map.1 ha
  obtain ⟨hx, hk⟩ := List.mem_filter.1 hx
  obtain ⟨w, hw, hx⟩ := List.mem_filterMap.1 hx
  cases w with
  | act j a =>
    cases hx
    cases (show j = k by simpa using hk)
    exact hw
  | file o => cases hx

/-! ## A concrete case -/

namespace Sample

/-- Both upload at the same time (`Sample.bothUpload`). -/
def bothEvents : List Event :=
  .addHandler 0x0801 (some 9) :: alternate (uploading 1 (partNames 1) ++ handling 1) (uploading 2 (partNames 2) ++ handling 2)

/-- The turns of a loop. -/
def callTurn : Nat → Nat → Event
  | 0, k => .receive k
  | 1, k => .process k .returns
  | 2, k => .check k
  | 3, k => .merge k
  | 4, k => .note k .returns
  | 5, k => .dispatch k
  | _, k => .ret k .returns

/-- Both upload at the same time, and then their goroutines are given turns for ever. -/
def callsRun (n : Nat) : Event :=
  match bothEvents[n]? with
  | some e => e
  | none => callTurn (n % 14 / 2) (n % 2 + 1)

theorem callsRun_again {i : Nat} (k : Nat) (hi : i < 7) (hk : k = 1 ∨ k = 2) : ∀ n, ∃ m, n ≤ m ∧ callsRun m = callTurn i k := by
  intro n
  refine ⟨14 * (n + bothEvents.length) + 2 * i + (k - 1), by omega, ?_⟩
  have hn : bothEvents[14 * (n + bothEvents.length) + 2 * i + (k - 1)]? = none := List.getElem?_eq_none (by omega)
  have e1 : (14 * (n + bothEvents.length) + 2 * i + (k - 1)) % 14 / 2 = i := by omega
  have e2 : (14 * (n + bothEvents.length) + 2 * i + (k - 1)) % 2 + 1 = k := by omega
  simp only [callsRun, hn, e1, e2]

theorem callsRun_turns {k : Nat} (hk : k = 1 ∨ k = 2) : Turns callsRun k where
  receive n := by obtain ⟨m, h1, h2⟩ := callsRun_again (i := 0) k (by omega) hk n; exact ⟨m, h1, h2⟩
  process n := by obtain ⟨m, h1, h2⟩ := callsRun_again (i := 1) k (by omega) hk n; exact ⟨m, h1, _, h2⟩
  check n := by obtain ⟨m, h1, h2⟩ := callsRun_again (i := 2) k (by omega) hk n; exact ⟨m, h1, h2⟩
  merge n := by obtain ⟨m, h1, h2⟩ := callsRun_again (i := 3) k (by omega) hk n; exact ⟨m, h1, h2⟩
  note n := by obtain ⟨m, h1, h2⟩ := callsRun_again (i := 4) k (by omega) hk n; exact ⟨m, h1, _, h2⟩
  dispatch n := by obtain ⟨m, h1, h2⟩ := callsRun_again (i := 5) k (by omega) hk n; exact ⟨m, h1, h2⟩
  ret n := by obtain ⟨m, h1, h2⟩ := callsRun_again (i := 6) k (by omega) hk n; exact ⟨m, h1, _, h2⟩

/-- Whether both connections have ended and are in no call on files. -/
def bothIdle : Bool :=
  match (Syscall.start pieces).run env none .eof true bothEvents with
  | .ok (s, _) => [1, 2].all fun k => decide ((s.conns k).place = .ended) && decide (s.files.job k = none)
  | _ => false

theorem callTurn_ended {s : State} (h1 : (s.conns 1).place = .ended) (h2 : (s.conns 2).place = .ended) (i : Nat) {k : Nat} (hk : k = 1 ∨ k = 2) :
    s.step env none .eof true (callTurn i k) = .ok (s, []) := by
  have h : (s.conns k).place = .ended := by rcases hk with rfl | rfl <;> assumption
  unfold callTurn
  split <;> simp only [State.step, h]

/-- All system calls come back. -/
theorem callsRun_back {st : Nat → State} {log : Nat → List Item} (h : ∀ n, (Syscall.start pieces).run env none .eof true (firsts callsRun n) = .ok (st n, log n))
    {k : Nat} (hk : k = 1 ∨ k = 2) : ComesBack st k := by
  have hL : firsts callsRun bothEvents.length = bothEvents := by decide +kernel
  have hi : bothIdle = true := by decide +kernel
  have h0 := h bothEvents.length
  rw [hL] at h0
  unfold bothIdle at hi
  rw [h0] at hi
  simp only [List.all_cons, List.all_nil, Bool.and_true, Bool.and_eq_true, decide_eq_true_eq] at hi
  have still : ∀ i, st (bothEvents.length + i) = st bothEvents.length := by
    intro i
    induction i with
    | zero => rfl
    | succ i ih =>
      have h1 := h (bothEvents.length + i + 1)
      rw [firsts_succ] at h1
      obtain ⟨s1, y, z, g1, g2, -⟩ := Syscall.run_before h1
      rw [h (bothEvents.length + i)] at g1
      simp only [Res.ok.injEq, Prod.mk.injEq] at g1
      have he : callsRun (bothEvents.length + i) = callTurn ((bothEvents.length + i) % 14 / 2) ((bothEvents.length + i) % 2 + 1) := by
        have hn : bothEvents[bothEvents.length + i]? = none := List.getElem?_eq_none (by omega)
        simp only [callsRun, hn]
      rw [← g1.1, ih, he, State.run, callTurn_ended hi.1.1 hi.2.1 _ (by omega), Res.ok_bind] at g2
      simp only [State.run, Res.ok_bind, Res.ok.injEq, Prod.mk.injEq] at g2
      exact g2.1.symm
  intro n j hj
  refine ⟨bothEvents.length + n, by omega, ?_⟩
  rw [still]
  rcases hk with rfl | rfl
  · rw [hi.1.2]; simp
  · rw [hi.2.2]; simp

end Sample

/-- In such a run both terminals have uploaded their files at some time: each handler was given one message, and has read the file of its terminal. -/
theorem C93_fair_example : ∃ (st : Nat → State) (log : Nat → List Item),
    (∀ n, (Syscall.start Sample.pieces).run Sample.env none .eof true (firsts Sample.callsRun n) = .ok (st n, log n)) ∧
    ∀ k, k = 1 ∨ k = 2 → Turns Sample.callsRun k ∧ ComesBack st k ∧ ∃ N, ∀ n, N ≤ n →
      ((st n).conns k).place = .ended ∧ (replies (actsOf k (actsIn (log n)))).map (·.2) = [(0x0801, 0), (0x0801, 0)] ∧
      ∀ g ∈ gotBy k (log n), g.read <+: (Sample.files k).parts.flatMap (·.2) := by
  have hok : ∀ k, (Sample.files k).OK Sample.env := by
    intro k
    unfold Sample.files
    split
    all_goals exact ⟨by decide, by decide, Sample.media_ok, rfl, by decide, by decide⟩
  have hdiff : ∀ j k, j ≠ k → (Sample.files j).parts ≠ [] → (Sample.files k).parts ≠ [] → (Sample.files j).upload ≠ (Sample.files k).upload := by
    intro j k hne h1 h2 h3
    unfold Sample.files at h1 h2 h3
    split at h1 <;> split at h2 <;> simp_all <;> revert h3 <;> decide
  obtain ⟨sent, hsent, h⟩ := C93_fair_files_arrive Sample.env none .eof Sample.files hok hdiff
  have hby : ∀ k, (Sample.files k).messages.map (fun x => sendBytes (entityCodec Sample.env) none x.1) = (Sample.sentBy k).map .ok
    | 0 => rfl
    | 1 => by decide +kernel
    | 2 => by decide +kernel
    | _ + 3 => rfl
  have heq : ∀ k, sent k = Sample.sentBy k := fun k => List.map_inj_right (f := Res.ok) (by simp) |>.1 ((hsent k).symm.trans (hby k))
  obtain ⟨st, log, h1, h2⟩ := h Sample.pieces (fun k => by
    rw [heq]
    exact match k with
      | 0 => ⟨by simp [Sample.pieces, Sample.files, FileUpload.messages, uploadMessages], rfl⟩
      | 1 => by decide +kernel
      | 2 => by decide +kernel
      | _ + 3 => ⟨by simp [Sample.pieces, Sample.files, FileUpload.messages, uploadMessages], rfl⟩) Sample.callsRun (by
    intro n j
    have hall : ∀ e ∈ Sample.bothEvents, ∀ j, e ≠ .sys j .fail := by
      have : (Sample.bothEvents.all fun e => match e with | .sys _ .fail => false | _ => true) = true := by decide +kernel
      rw [List.all_eq_true] at this
      rintro e he j rfl
      exact absurd (this _ he) (by simp)
    unfold Sample.callsRun
    split
    · rename_i e he
      exact hall e (List.mem_of_getElem? he) j
    · unfold Sample.callTurn
      split <;> simp)
  refine ⟨st, log, h1, fun k hk => ?_⟩
  have ht := Sample.callsRun_turns hk
  have hb := Sample.callsRun_back h1 hk
  obtain ⟨N, hN⟩ := h2 k (by rcases hk with rfl | rfl <;> decide) ht hb
  refine ⟨ht, hb, N, fun n hn => ?_⟩
  obtain ⟨e1, e2, d, -, -, -, -, e3⟩ := hN n hn
  exact ⟨e1, by rw [e2]; rcases hk with rfl | rfl <;> rfl, fun g hg => (e3 g hg).2.1⟩

end Verif
