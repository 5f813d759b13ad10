import Verif.Lemmas.SyscallClaims
import Verif.Props.System
/-! # C93: terminals upload at the same time, system call by system call -/

namespace Verif
open Handler Spec Codec
open Syscall (Event State Item)

/-- C93: as long as no two connections receive parts of the same upload and directories can be read, it makes no difference to handlers, terminals and
sessions that the system calls of the connections interleave and that handlers read merged files while other connections store and merge: there is a
schedule in which every call that stores, checks or merges is made at once (the model of C74 and C75) with the same acts in the same order. Every handler was
called with the same messages; in place of the content of a merged upload it was given a file in which it could read a beginning of this content and
nothing else, and if it read to the end then the whole of it. The same connections have ended. -/
theorem C93_as_if_at_once (env : Env) (key : Option DecKey) (endErr : Err) (auto : Bool) (reads : Nat → List Bytes)
    (hown : OwnUploads env key endErr auto reads) (es : List Event) (s : State) (log : List Item)
    (h : (Syscall.start reads).run env key endErr auto es = .ok (s, log)) (hlist : AllListed log) :
    ∃ es' t alog, (System.start reads).run env key endErr auto es' = .ok (t, alog) ∧ Each (SameAct auto) (actsIn log) alog ∧
      (∀ k, Each (Told auto) (gotBy k log) (handledBy k alog)) ∧ s.handlers = t.handlers ∧
      ∀ k, (s.conns k).requests = (t.conns k).requests ∧ (s.conns k).icc = (t.conns k).icc ∧ ((s.conns k).place = .ended ↔ (t.conns k).place = .ended) := by
  obtain ⟨t, y, g⟩ := (Syscall.sim_start (env := env) (key := key) (endErr := endErr) (auto := auto) (reads := reads)).run hown h hlist
  obtain ⟨es', h'⟩ := g.atOnce
  refine ⟨es', t, _, h', g.acts, g.told, g.handlers, fun k => ⟨g.requests k, g.icc k, ?_⟩⟩
  have := g.place k
  generalize (s.conns k).place = p at this
  generalize (t.conns k).place = q at this
  cases this <;> simp

/-- What arrives from terminals that upload files. -/
theorem files_arrivals (env : Env) (key : Option DecKey) (endErr : Err) (files : Nat → FileUpload) (hok : ∀ k, (files k).OK env) (sent : Nat → List Bytes)
    (hsent : ∀ k, (files k).messages.map (fun x => sendBytes (entityCodec env) none x.1) = (sent k).map .ok) (reads : Nat → List Bytes)
    (hreads : ∀ k, (∀ c ∈ reads k, c.length ≤ 128) ∧ (reads k).flatten = (sent k).flatten) :
    (∀ k, System.NoCrash env key endErr (reads k)) ∧
      ∀ k m, ArrivesOn env key endErr (reads k) m → (files k).parts ≠ [] ∧ ∀ u, belongs true u m = true ↔ u = (files k).upload := by
  have h3 : ∀ k n, ∃ ds : List (Message Entity), ds.length = (files k).messages.length ∧ (∀ p ∈ (files k).messages.zip ds, Carries p.1.1 p.1.2 p.2) ∧
      (receiveMany (entityCodec env) key endErr ((files k).messages.length + n) ⟨[], reads k⟩).1 = ds.map .ok ++ List.replicate n (.err endErr) := by
    intro k
    obtain ⟨sent', h1, h2⟩ := C12_end_to_end env key endErr (files k).messages
      (sendable_upload (hok k).icc0 (hok k).icc1 (hok k).location (hok k).extras (hok k).sizes)
    obtain rfl : sent' = sent k := List.map_inj_right (f := Res.ok) (by simp) |>.1 (h1.symm.trans (hsent k))
    exact h2 (reads k) (hreads k).1 (hreads k).2
  refine ⟨?_, ?_⟩
  · intro k n hp
    obtain ⟨ds, -, -, e3⟩ := h3 k n
    rw [System.receiveMany_take (C := entityCodec env) (key := key) (endErr := endErr) n (files k).messages.length, Nat.add_comm, e3] at hp
    have := List.mem_of_mem_take hp
    simp at this
  · rintro k m ⟨n, hm⟩
    obtain ⟨ds, e1, e2, e3⟩ := h3 k n
    rw [System.receiveMany_take (C := entityCodec env) (key := key) (endErr := endErr) n (files k).messages.length, Nat.add_comm, e3] at hm
    have hmem := List.mem_of_mem_take hm
    simp only [List.mem_append, List.mem_map, Res.ok.injEq, exists_eq_right, List.mem_replicate, reduceCtorEq, and_false, or_false] at hmem
    obtain ⟨i, hi, rfl⟩ := List.mem_iff_getElem.1 hmem
    have hi' : i < (files k).messages.length := by omega
    have hc := e2 ((files k).messages[i], ds[i]) (by
      rw [List.mem_iff_getElem]
      exact ⟨i, by simp; omega, by simp⟩)
    have hpart := partOf_carries hc
    obtain ⟨q, dd, hs⟩ := sentPart_upload (List.getElem_mem hi')
    refine ⟨by rintro h0; simp [FileUpload.messages, uploadMessages, h0] at hi', ?_⟩
    intro u
    unfold belongs
    rw [hpart, hs]
    simp only [Option.map_some, beq_iff_eq, Option.some.injEq]
    exact eq_comm

/-- C93 for files: terminals upload different files at once, each in parts of at most 987 bytes, in order. However the system calls of the connections are
interleaved: when the connection of a terminal has ended, storing and merging did not fail for it and no directory was unreadable, then all its parts
were answered with "success", exactly one message was passed on for it, to the handler registered last, with the number of the terminal and the media data,
and whenever the handler has read in the file it was given, it has read a beginning of the file the terminal sent and nothing else, and the whole file if
it has read to the end. -/
theorem C93_files_arrive (env : Env) (key : Option DecKey) (endErr : Err) (files : Nat → FileUpload) (hok : ∀ k, (files k).OK env)
    (hdiff : ∀ j k, j ≠ k → (files j).parts ≠ [] → (files k).parts ≠ [] → (files j).upload ≠ (files k).upload) :
    ∃ sent : Nat → List Bytes, (∀ k, (files k).messages.map (fun x => sendBytes (entityCodec env) none x.1) = (sent k).map .ok) ∧
      ∀ reads : Nat → List Bytes, (∀ k, (∀ c ∈ reads k, c.length ≤ 128) ∧ (reads k).flatten = (sent k).flatten) →
        ∀ es s log, (Syscall.start reads).run env key endErr true es = .ok (s, log) → AllListed log →
          ∀ k, (files k).parts ≠ [] → (s.conns k).place = .ended → (∀ a ∈ actsOf k (actsIn log), Succeeded a) →
            replies (actsOf k (actsIn log)) = ((files k).parts.map fun p => (p.1, 0x0801, 0)) ∧
            ∃ d, d.body = .val (.m0801 { (files k).media with packet := none }) ∧ d.header.iccID = (files k).icc ∧
              offered (actsOf k (actsIn log)) = [d] ∧ Given ((actsIn log).filterMap (seenBy k)) d ∧
              ∀ g ∈ gotBy k log, g.message = d ∧ g.read <+: (files k).parts.flatMap (·.2) ∧ (g.toEnd = true → g.read = (files k).parts.flatMap (·.2)) := by
  obtain ⟨sent, hsent, harr⟩ := C75_files_arrive env key endErr files hok hdiff
  refine ⟨sent, hsent, ?_⟩
  intro reads hreads es s log h hlist k hne hend hsucc
  obtain ⟨-, harrive⟩ := files_arrivals env key endErr files hok sent hsent reads hreads
  have hown : OwnUploads env key endErr true reads := by
    intro i j u m m' h1 h2 h3 h4
    apply Classical.byContradiction
    intro hij
    obtain ⟨p1, p2⟩ := harrive i m h1
    obtain ⟨q1, q2⟩ := harrive j m' h2
    exact hdiff i j hij p1 q1 (((p2 u).1 h3).symm.trans ((q2 u).1 h4))
  obtain ⟨es', t, alog, h', hacts, htold, -, hc⟩ := C93_as_if_at_once env key endErr true reads hown es s log h hlist
  obtain ⟨t', alog', h'', hres⟩ := harr reads hreads es'
  rw [h'] at h''
  obtain ⟨rfl, rfl⟩ : t = t' ∧ alog = alog' := by simpa using h''
  obtain ⟨d', k1, k2, k3, k4, k5⟩ := hres k hne ((hc k).2.2.1 hend) (Syscall.succeeded_same hacts k hsucc)
  rw [System.offered_bound (u := (files k).upload) (fun m hm => ((harrive k m hm).2 _).2 rfl) h'] at k3
  refine ⟨by rw [Syscall.replies_same hacts, k5], ?_⟩
  have hoff := Syscall.offered_same hacts k
  rw [k3] at hoff
  have hpart : isPart true d' = true := by
    have : d' ∈ (offered (actsOf k alog)).filter (belongs true (files k).upload) := by
      rw [System.offered_bound (u := (files k).upload) (fun m hm => ((harrive k m hm).2 _).2 rfl) h', k3]
      simp
    exact Syscall.isPart_of_belongs (List.mem_filter.1 this).2
  obtain ⟨d, hx, hsame⟩ : ∃ d, offered (actsOf k (actsIn log)) = [d] ∧ SameToRead true d d' := by
    generalize offered (actsOf k (actsIn log)) = x at hoff
    cases hoff with
    | cons h1 h2 => cases h2; exact ⟨_, rfl, h1⟩
  have unread : ∀ {m : Message Entity} {c : Bytes}, Unread m d' c →
      m = { d' with body := .val (.m0801 { (files k).media with packet := none }) } ∧ c = (files k).parts.flatMap (·.2) := by
    rintro ⟨hd, bd⟩ c ⟨b, rfl, rfl⟩
    simp only [Body.val.injEq, Entity.m0801.injEq] at k1
    obtain ⟨b1, b2, b3, b4, b5, b6, b7⟩ := b
    generalize (files k).media = md at k1
    obtain ⟨c1, c2, c3, c4, c5, c6, c7⟩ := md
    simp only [T0801.mk.injEq] at k1
    obtain ⟨rfl, rfl, rfl, rfl, rfl, rfl, k1⟩ := k1
    exact ⟨rfl, Option.some.inj k1⟩
  rcases hsame with ⟨h0, -⟩ | ⟨-, c, hu⟩
  · rw [hpart] at h0; cases h0
  obtain ⟨rfl, -⟩ := unread hu
  refine ⟨{ d' with body := .val (.m0801 { (files k).media with packet := none }) }, rfl, k2, hx, ?_, ?_⟩
  · obtain ⟨d2, hs2, hg⟩ := Syscall.given_same hacts k4
    rcases hs2 with ⟨h0, -⟩ | ⟨-, c2, hu2⟩
    · rw [hpart] at h0; cases h0
    · obtain ⟨rfl, -⟩ := unread hu2
      exact hg
  · intro g hg
    obtain ⟨x, hx, -, ht⟩ := Syscall.each_mem (htold k) hg
    have := Syscall.handled_offered hx
    rw [k3, List.mem_singleton] at this
    rw [this] at ht
    rcases ht with ⟨h0, -⟩ | ⟨-, c3, hu3, h2, h3⟩
    · rw [hpart] at h0; cases h0
    · obtain ⟨h4, rfl⟩ := unread hu3
      exact ⟨h4, h2, h3⟩

/-- C93: no schedule of system calls crashes the server, unless a terminal sends a single byte between two delimiters, parts of the same upload arrive
on two connections, or a system call fails while it is checked whether an upload is complete or while the upload is merged. -/
theorem C93_no_crash (env : Env) (key : Option DecKey) (hkey : ∀ k, key = some k → 0 < k.size) (endErr : Err) (auto : Bool) (reads : Nat → List Bytes)
    (hclean : ∀ k x, ¬ [0x7e, x, 0x7e] <:+: (reads k).flatten) (hown : OwnUploads env key endErr auto reads) (es : List Event) :
    (∃ s log, (Syscall.start reads).run env key endErr auto es = .ok (s, log) ∧ AllListed log) ∨
      ∃ before k after s log m b p, es = before ++ .sys k .fail :: after ∧ (Syscall.start reads).run env key endErr auto before = .ok (s, log) ∧
        ((s.conns k).place = .checking m b p ∨ (s.conns k).place = .merging m b p) :=
  Syscall.sim_start.run_ok hown (fun k => System.noCrash_of_clean hkey (hclean k)) (by simp [AllListed]) es

/-! ## Concrete cases -/

/-- The names of the two parts of the file of connection `k` in `Sample.files`. -/
def Sample.partNames (k : Nat) : List Bytes :=
  let f : Multipart := ⟨(Sample.files k).icc, 0x0801, Sample.media.mediaID, 2⟩
  [f.partName 1, f.partName 2]

/-- The system calls of `Write`, the content in two pieces. -/
def Sample.writing (k : Nat) : List Event := [.sys k .ok, .sys k .ok, .sys k (.bytes 1), .sys k (.bytes 9), .sys k .ok, .sys k .ok]

/-- The system calls of a walk in the directory with these names. -/
def Sample.walk (k : Nat) (names : List Bytes) (merging : Bool) : List Event :=
  [.sys k .ok, .sys k (.names names)] ++ names.flatMap (fun _ => .sys k .ok :: if merging then [.sys k .ok] else []) ++ [.sys k .ok]

/-- The steps of connection `k` until the handler is called: two parts arrive, and the second one makes the upload complete. `names` are the names in
the directory. -/
def Sample.uploading (k : Nat) (names : List Bytes) : List Event :=
  [.receive k, .process k .returns] ++ Sample.writing k ++ [.check k, .receive k, .process k .panics] ++ Sample.writing k ++
    [.check k] ++ Sample.walk k names false ++ [.merge k] ++ Sample.walk k names.reverse true ++
    [.sys k .ok, .sys k (.bytes 1), .sys k (.bytes 1), .sys k (.bytes 1), .sys k (.bytes 1), .sys k (.bytes 1), .sys k .ok, .sys k .ok, .note k .returns,
      .dispatch k]

/-- The handler reads the merged file in pieces to the end, and the connection ends. -/
def Sample.handling (k : Nat) : List Event := [.read k 0, .read k 7, .read k 7, .ret k .panics, .receive k]

/-- Turn by turn. -/
def Sample.alternate : List Event → List Event → List Event
  | x :: xs, y :: ys => x :: y :: Sample.alternate xs ys
  | xs, ys => xs ++ ys

/-- Whether both connections have ended, and what was observed. -/
def Sample.watched (reads : Nat → List Bytes) (es : List Event) : Option (Bool × List Item) :=
  match (Syscall.start reads).run Sample.env none .eof true (.addHandler 0x0801 (some 9) :: es) with
  | .ok (s, log) => some (decide ((s.conns 1).place = .ended) && decide ((s.conns 2).place = .ended), log)
  | _ => none

/-- What happens when both upload at the same time. -/
def Sample.bothUpload : Option (Bool × List Item) :=
  Sample.watched Sample.pieces (Sample.alternate (Sample.uploading 1 (Sample.partNames 1) ++ Sample.handling 1)
    (Sample.uploading 2 (Sample.partNames 2) ++ Sample.handling 2))

/-- Both connections end, no call failed, and each handler has read the file of its terminal to the end. -/
example : Sample.bothUpload.map (·.1) = some true ∧
    (Sample.bothUpload.map fun x => (gotBy 1 x.2).map fun g => (g.handler, g.message.header.iccID, g.read, g.toEnd)) = some [(9, 19901234567, [1, 2, 3], true)] ∧
    (Sample.bothUpload.map fun x => (gotBy 2 x.2).map fun g => (g.handler, g.message.header.iccID, g.read, g.toEnd)) = some [(9, 2, [4, 5, 6], true)] ∧
    (Sample.bothUpload.map fun x => (actsIn x.2).filterMap fun | (_, .wrote _ _ _ o) => some o | (_, .merged _ o) => some o | _ => none) =
      some [.ok, .ok, .ok, .ok, .ok, .ok] ∧
    (Sample.bothUpload.map fun x => (filesIn x.2).filter fun | .unlisted _ _ => true | _ => false) = some [] := by
  refine ⟨?_, ?_, ?_, ?_, ?_⟩ <;> decide +kernel

/-- What the terminals send. -/
def Sample.sentBy (k : Nat) : List Bytes :=
  (Sample.files k).messages.map fun x =>
    match sendBytes (entityCodec Sample.env) none x.1 with
    | .ok b => b
    | _ => []

/-- No two of the connections receive parts of the same upload. -/
theorem Sample.pieces_own : OwnUploads Sample.env none .eof true Sample.pieces := by
  have hok : ∀ k, (Sample.files k).OK Sample.env := by
    intro k
    unfold Sample.files
    split
    all_goals exact ⟨by decide, by decide, Sample.media_ok, rfl, by decide, by decide⟩
  have hdiff : ∀ j k, (Sample.files j).parts ≠ [] → (Sample.files k).parts ≠ [] → (Sample.files j).upload = (Sample.files k).upload → j = k := by
    intro j k h1 h2 h3
    unfold Sample.files at h1 h2 h3
    split at h1 <;> split at h2 <;> simp_all <;> revert h3 <;> decide
  obtain ⟨-, h⟩ := files_arrivals Sample.env none .eof Sample.files hok Sample.sentBy
    (fun
      | 0 => rfl
      | 1 => by decide +kernel
      | 2 => by decide +kernel
      | _ + 3 => rfl)
    Sample.pieces
    (fun
      | 0 => ⟨by simp [Sample.pieces, Sample.files, FileUpload.messages, uploadMessages], rfl⟩
      | 1 => by decide +kernel
      | 2 => by decide +kernel
      | _ + 3 => ⟨by simp [Sample.pieces, Sample.files, FileUpload.messages, uploadMessages], rfl⟩)
  intro j k u m m' h1 h2 h3 h4
  obtain ⟨a1, a2⟩ := h j m h1
  obtain ⟨b1, b2⟩ := h k m' h2
  exact hdiff j k a1 b1 (((a2 u).1 h3).symm.trans ((b2 u).1 h4))

/-! ## Without the conditions -/

/-- The terminal of connection 1, also on connection 2, with another file for the same media number. -/
def Sample.shared (k : Nat) : FileUpload := { Sample.files k with icc := (Sample.files 1).icc }

/-- What is sent on the two connections. -/
def Sample.sharedPieces (k : Nat) : List Bytes :=
  (Sample.shared k).messages.flatMap fun x =>
    match sendBytes (entityCodec Sample.env) none x.1 with
    | .ok b => [b.take 30, b.drop 30]
    | _ => []

/-- The handler of connection 1 has read one byte when connection 2 merges the other file; then it reads on. -/
def Sample.overwritten : List Event :=
  Sample.uploading 1 (Sample.partNames 1) ++ [.read 1 0] ++
    Sample.uploading 2 (Sample.partNames 1 ++ [(⟨(Sample.files 1).icc, 0x0801, Sample.media.mediaID, 2⟩ : Multipart).fullName]) ++ Sample.handling 2 ++
    Sample.handling 1

/-- C93 does not hold for two connections with parts of the same upload (same terminal number, same media number): no call fails, and the handler of
connection 1 reads to the end a file that nobody sent, with the first byte of one and the other bytes of the other file. -/
theorem C93_same_upload_matters : ∃ s log, (Syscall.start Sample.sharedPieces).run Sample.env none .eof true
      (.addHandler 0x0801 (some 9) :: Sample.overwritten) = .ok (s, log) ∧
    ((Sample.shared 1).parts.flatMap (·.2), (Sample.shared 2).parts.flatMap (·.2)) = ([1, 2, 3], [4, 5, 6]) ∧
    ((gotBy 1 log).map fun g => (g.read, g.toEnd)) = [([1, 5, 6], true)] ∧
    ((actsIn log).filterMap fun | (_, .wrote _ _ _ o) => some o | (_, .merged _ o) => some o | _ => none) = [.ok, .ok, .ok, .ok, .ok, .ok] := by
  have h : (Sample.watched Sample.sharedPieces Sample.overwritten).map (fun x => ((gotBy 1 x.2).map fun g => (g.read, g.toEnd),
      (actsIn x.2).filterMap fun | (_, .wrote _ _ _ o) => some o | (_, .merged _ o) => some o | _ => none)) =
      some ([([1, 5, 6], true)], [.ok, .ok, .ok, .ok, .ok, .ok]) := by decide +kernel
  unfold Sample.watched at h
  split at h
  · rename_i s log hrun
    simp only [Option.map_some, Option.some.injEq, Prod.mk.injEq] at h
    exact ⟨s, log, hrun, rfl, h.1, h.2⟩
  · cases h

/-- The steps of connection 1 until it is checked whether its upload is complete. -/
def Sample.untilChecked : List Event :=
  [.receive 1, .process 1 .returns] ++ Sample.writing 1 ++ [.check 1, .receive 1, .process 1 .returns] ++ Sample.writing 1 ++ [.check 1]

/-- C93: the server crashes if the system call that asks for the directory fails while it is checked whether an upload is complete. -/
theorem C93_failing_check_matters : (Syscall.start Sample.pieces).run Sample.env none .eof true (Sample.untilChecked ++ [.sys 1 .fail]) = .panic := by
  have h : (match (Syscall.start Sample.pieces).run Sample.env none .eof true (Sample.untilChecked ++ [.sys 1 .fail]) with
      | .panic => true | _ => false) = true := by decide +kernel
  generalize (Syscall.start Sample.pieces).run Sample.env none .eof true (Sample.untilChecked ++ [.sys 1 .fail]) = r at h
  cases r <;> first | rfl | cases h

end Verif
