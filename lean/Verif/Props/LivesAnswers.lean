import Verif.Lemmas.LivesReply
import Verif.Props.LivesFair
/-! # C99: what the answers of the server promise when it is started again -/

namespace Verif
open Handler Spec Codec Calls
open Syscall (Event State Item Life lives)

/-- C99: "success" is sent only when a part has been stored. In a process that works on the files earlier ones left, under any schedule of system calls:
every answer "success" was preceded by the end of a call that stored a part without error. This part was in a message with the serial number and the
identifier of the answer that arrived on this connection, and nothing was observed between the end of the call and the answer. -/
theorem C99_success_means_stored (env : Env) (key : Option DecKey) (endErr : Err) (auto : Bool)
    (ls : List Life) (hown : ∀ l ∈ ls, OwnUploads env key endErr auto l.reads)
    (fs : FS) (logs : List (List Item)) (h0 : lives env key endErr auto (fun _ => none) ls = .ok (fs, logs)) (hlist0 : ∀ log ∈ logs, AllListed log)
    (reads : Nat → List Bytes) (hown' : OwnUploads env key endErr auto reads) (es : List Event) (s : State) (log : List Item)
    (h : (Syscall.startOn fs reads).run env key endErr auto es = .ok (s, log)) (hlist : AllListed log)
    (k : Nat) (serial id : UInt16) (before after : List Item) (hx : log = before ++ .act k (.reply serial id 0) :: after) :
    ∃ m p d f before', ArrivesOn env key endErr (reads k) m ∧ m.header.serial = serial ∧ m.header.msgID = id ∧ partOf auto m = some (uploadOf f, p, d) ∧
      before = before' ++ [.file (.wrote k f p.seq d .ok), .act k (.wrote f p.seq d .ok)] := by
  obtain ⟨new, g1, -⟩ := Syscall.lives_rests Files.rests_empty hown h0 hlist0
  obtain ⟨m, p, d, f, x0, e1, e2, e3, e4, e5⟩ := Syscall.run_answers hown' (Syscall.rests_sim (env := env) (key := key) (endErr := endErr) (auto := auto) g1) h
    (Syscall.allListed_rests hlist) hx
  refine ⟨m, p, d, f, x0, e1, e2, e3, e4, ?_⟩
  have : before ++ [.act k (.reply serial id 0)] = (x0 ++ [.file (.wrote k f p.seq d .ok), .act k (.wrote f p.seq d .ok)]) ++ [.act k (.reply serial id 0)] := by
    rw [e5]; simp
  exact List.append_cancel_right this

/-- C99: what a terminal was told is true after a restart. When a part was answered with "success" in one of the processes and nobody tried to store it
afterwards, then it is in the files that are left, with the content it was sent with. -/
theorem C99_success_is_kept (env : Env) (key : Option DecKey) (endErr : Err) (ls : List Life) (hown : ∀ l ∈ ls, OwnUploads env key endErr true l.reads)
    (fs : FS) (logs : List (List Item)) (h : lives env key endErr true (fun _ => none) ls = .ok (fs, logs)) (hlist : ∀ log ∈ logs, AllListed log)
    (u : Upload) (i : UInt16) (ha : Answered env key endErr u i ls logs) :
    ∃ l ∈ ls, ∃ k m p d, ArrivesOn env key endErr (l.reads k) m ∧ partOf true m = some (u, p, d) ∧ p.seq = i ∧
      Files.content fs (u.icc, (u.multipart 0).partName i) = some d := by
  obtain ⟨d, hk, l, hl, k, m, p, e1, e2, e3⟩ := Syscall.answered_kept Files.rests_empty hown h hlist ha
  exact ⟨l, hl, k, m, p, d, e1, e2, e3, C99_kept env key endErr true ls hown fs logs h hlist u i d hk⟩

private theorem answered_or_kept {env : Env} {key : Option DecKey} {endErr : Err} {f : FileUpload} (hok : f.OK env)
    {ls : List Life} (hown : ∀ l ∈ ls, OwnUploads env key endErr true l.reads)
    (hfits : ∀ l ∈ ls, ∀ k m, ArrivesOn env key endErr (l.reads k) m → f.Fits m)
    {fs : FS} {logs : List (List Item)} (h0 : lives env key endErr true (fun _ => none) ls = .ok (fs, logs)) (hlist0 : ∀ log ∈ logs, AllListed log)
    {again : List (Nat × UInt16)}
    (hansw : ∀ i, i + 1 < f.parts.length → (∃ s, (i, s) ∈ again) ∨ Answered env key endErr f.upload (UInt16.ofNat (i + 1)) ls logs) (i : Nat)
    (hi : i + 1 < f.parts.length) : (∃ s, (i, s) ∈ again) ∨ Kept f.upload (UInt16.ofNat (i + 1)) (f.content i) logs := by
  rcases hansw i hi with h | h
  · exact .inl h
  · obtain ⟨d, hk, l, hl, k, m, p, e1, e2, e3⟩ := Syscall.answered_kept Files.rests_empty hown h0 hlist0 h
    obtain ⟨j, -, j1, rfl⟩ := hfits l hl k m e1 p d e2
    rw [e3, ofNat_toNat_lt (by have := hok.count; omega)] at j1
    obtain rfl : i = j := by omega
    exact .inr hk

/-- C99: the rule for terminals. As `C99_upload_completes`, in terms of the answers a terminal got: after a restart it sends again parts before the last
one, in any order, among them all that were not answered with "success", or for which another attempt was made after the answer; and then the last part. -/
theorem C99_send_what_was_not_answered (env : Env) (key : Option DecKey) (endErr : Err) (f : FileUpload) (hok : f.OK env) (hne : f.parts ≠ [])
    (ls : List Life) (hown : ∀ l ∈ ls, OwnUploads env key endErr true l.reads)
    (hfits : ∀ l ∈ ls, ∀ k m, ArrivesOn env key endErr (l.reads k) m → f.Fits m)
    (fs : FS) (logs : List (List Item)) (h0 : lives env key endErr true (fun _ => none) ls = .ok (fs, logs)) (hlist0 : ∀ log ∈ logs, AllListed log)
    (again : List (Nat × UInt16)) (hagain : ∀ x ∈ again, x.1 + 1 < f.parts.length) (serial : UInt16)
    (hansw : ∀ i, i + 1 < f.parts.length → (∃ s, (i, s) ∈ again) ∨ Answered env key endErr f.upload (UInt16.ofNat (i + 1)) ls logs) :
    ∃ sent : List Bytes,
      ((again ++ [(f.parts.length - 1, serial)]).map fun x => sendBytes (entityCodec env) none (f.message x.1 x.2).1) = sent.map .ok ∧
      ∀ (reads : Nat → List Bytes) (k : Nat), (∀ c ∈ reads k, c.length ≤ 128) → (reads k).flatten = sent.flatten → OwnUploads env key endErr true reads →
        ∀ es s log, (Syscall.startOn fs reads).run env key endErr true es = .ok (s, log) → AllListed log →
          (s.conns k).place = .ended → (∀ a ∈ actsOf k (actsIn log), Succeeded a) →
          replies (actsOf k (actsIn log)) = ((again ++ [(f.parts.length - 1, serial)]).map fun x => (x.2, 0x0801, 0)) ∧
          ∃ d, d.body = .val (.m0801 { f.media with packet := none }) ∧ d.header.iccID = f.icc ∧
            offered (actsOf k (actsIn log)) = [d] ∧ Given ((actsIn log).filterMap (seenBy k)) d ∧
            ∀ g ∈ gotBy k log, g.message = d ∧ g.read <+: f.parts.flatMap (·.2) ∧ (g.toEnd = true → g.read = f.parts.flatMap (·.2)) := by
  exact C99_upload_completes env key endErr f hok hne ls hown hfits fs logs h0 hlist0 again hagain serial
    (answered_or_kept hok hown hfits h0 hlist0 hansw)

/-- C99: the rule for terminals in the long run, as `C99_fair_completes`. -/
theorem C99_fair_send_what_was_not_answered (env : Env) (key : Option DecKey) (endErr : Err) (f : FileUpload) (hok : f.OK env) (hne : f.parts ≠ [])
    (ls : List Life) (hown : ∀ l ∈ ls, OwnUploads env key endErr true l.reads)
    (hfits : ∀ l ∈ ls, ∀ k m, ArrivesOn env key endErr (l.reads k) m → f.Fits m)
    (fs : FS) (logs : List (List Item)) (h0 : lives env key endErr true (fun _ => none) ls = .ok (fs, logs)) (hlist0 : ∀ log ∈ logs, AllListed log)
    (again : List (Nat × UInt16)) (hagain : ∀ x ∈ again, x.1 + 1 < f.parts.length) (serial : UInt16)
    (hansw : ∀ i, i + 1 < f.parts.length → (∃ s, (i, s) ∈ again) ∨ Answered env key endErr f.upload (UInt16.ofNat (i + 1)) ls logs) :
    ∃ sent : List Bytes,
      ((again ++ [(f.parts.length - 1, serial)]).map fun x => sendBytes (entityCodec env) none (f.message x.1 x.2).1) = sent.map .ok ∧
      ∀ (reads : Nat → List Bytes) (k : Nat), (∀ c ∈ reads k, c.length ≤ 128) → (reads k).flatten = sent.flatten → OwnUploads env key endErr true reads →
        ∀ (ev : Nat → Event) (st : Nat → State) (log : Nat → List Item),
          (∀ n, (Syscall.startOn fs reads).run env key endErr true (firsts ev n) = .ok (st n, log n)) → (∀ n, AllListed (log n)) →
          (∀ n, ev n ≠ .sys k .fail) → Turns ev k → ComesBack st k → ∃ N, ∀ n, N ≤ n →
            ((st n).conns k).place = .ended ∧
            replies (actsOf k (actsIn (log n))) = ((again ++ [(f.parts.length - 1, serial)]).map fun x => (x.2, 0x0801, 0)) ∧
            ∃ d, d.body = .val (.m0801 { f.media with packet := none }) ∧ d.header.iccID = f.icc ∧
              offered (actsOf k (actsIn (log n))) = [d] ∧ Given ((actsIn (log n)).filterMap (seenBy k)) d ∧
              ∀ g ∈ gotBy k (log n), g.message = d ∧ g.read <+: f.parts.flatMap (·.2) ∧ (g.toEnd = true → g.read = f.parts.flatMap (·.2)) :=
  C99_fair_completes env key endErr f hok hne ls hown hfits fs logs h0 hlist0 again hagain serial (answered_or_kept hok hown hfits h0 hlist0 hansw)

/-- The serial numbers of a terminal that sends nothing but parts of the file tell the parts apart when it uses none twice. -/
theorem C99_serials (env : Env) (key : Option DecKey) (endErr : Err) (f : FileUpload) (hok : f.OK env) (xs : List (Nat × UInt16))
    (hlt : ∀ x ∈ xs, x.1 < f.parts.length) (hone : ∀ x ∈ xs, ∀ y ∈ xs, x.2 = y.2 → x.1 = y.1) (sent : List Bytes)
    (hsent : (xs.map fun x => sendBytes (entityCodec env) none (f.message x.1 x.2).1) = sent.map .ok) (reads : List Bytes) (hr : ∀ c ∈ reads, c.length ≤ 128)
    (hs : reads.flatten = sent.flatten) (x : Nat × UInt16) (hx : x ∈ xs) : SerialOf env key endErr f.upload (UInt16.ofNat (x.1 + 1)) reads x.2 := by
  intro m hm hser
  obtain ⟨y, hy, e1, e2⟩ := again_arrivals key endErr hok hlt hsent hr hs hm
  have := hone x hx y hy (hser.symm.trans e1)
  exact ⟨_, _, e2, by rw [this]⟩

/-! ## Concrete cases -/

/-- Part 1 was answered in the first process, and nobody tried to store it again. -/
theorem Sample.partAnswered : Answered Sample.env none .eof (Sample.files 1).upload 1 [Sample.firstLife, Sample.secondLife] Sample.logs := by
  have h1 : Sample.logs = [Sample.logs.getD 0 [], Sample.logs.getD 1 []] := by decide +kernel
  have h2 : Sample.logs.getD 0 [] = (Sample.logs.getD 0 []).take 11 ++ .act 1 (.reply 7 0x0801 0) :: (Sample.logs.getD 0 []).drop 12 := by decide +kernel
  refine ⟨[], Sample.firstLife, Sample.logs.getD 0 [], [(Sample.secondLife, Sample.logs.getD 1 [])], ?_, ⟨_, 1, 7, _, h2, ?_, ?_⟩, ?_⟩
  · generalize Sample.logs.getD 0 [] = a, Sample.logs.getD 1 [] = b at h1
    rw [h1]
    rfl
  · exact C99_serials Sample.env none .eof (Sample.files 1) (Sample.files_ok 1) [(0, 7), (1, 8)] (by decide) (by decide) (Sample.sentBy 1) (by decide +kernel)
      (Sample.pieces 1) (by decide +kernel) (by decide +kernel) (0, 7) (by simp)
  · decide +kernel
  · have : ∀ x ∈ Sample.logs.getD 1 [], ¬ Storing (Sample.files 1).upload 1 x := by decide +kernel
    simpa using this

/-- The condition of `C99_send_what_was_not_answered` and `C99_fair_send_what_was_not_answered` is met: nothing but the last part has to be sent again. The other conditions are met as for
`C99_upload_completes` and `C99_fair_completes`. -/
example : ∀ i, i + 1 < (Sample.files 1).parts.length →
    (∃ s, (i, s) ∈ ([] : List (Nat × UInt16))) ∨ Answered Sample.env none .eof (Sample.files 1).upload (UInt16.ofNat (i + 1)) [Sample.firstLife, Sample.secondLife] Sample.logs := by
  intro i hi
  obtain rfl : i = 0 := by simp [Sample.files] at hi; omega
  exact .inr Sample.partAnswered

/-- In the third process the last part is answered when it has been stored. -/
example : ∃ before after, Sample.thirdLife.2 = before ++ [.file (.wrote 1 ⟨19901234567, 0x0801, Sample.media.mediaID, 2⟩ 2 [3] .ok),
    .act 1 (.wrote ⟨19901234567, 0x0801, Sample.media.mediaID, 2⟩ 2 [3] .ok), .act 1 (.reply 41 0x0801 0)] ++ after := by
  refine ⟨Sample.thirdLife.2.take 4, Sample.thirdLife.2.drop 7, ?_⟩
  decide +kernel

end Verif
