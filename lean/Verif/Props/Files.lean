import Verif.Lemmas.FilesClaims
import Verif.Props.Multipart
/-! # Uploads whose calls overlap, and open files (C80, C81) -/

namespace Verif

open Spec Files

/-- C80. Any number of goroutines make calls for any uploads, and their system calls interleave in any way, with any failures. If the calls for the upload
of `m` that get in each other's way did not overlap, and the directory could be read, then `IsFull` says exactly whether all parts are stored. -/
theorem C80_check_partial (evs : List Event) (s : State) (log l1 l2 : List Obs) (k : Nat) (m : Multipart) (b : Bool)
    (hr : State.run {} evs = .ok (s, log)) (hturn : InTurn (uploadOf m) log) (hlist : Listed (uploadOf m) log) (hl : log = l1 ++ .checked k m b :: l2) :
    b = true ↔ ∀ i : UInt16, 1 ≤ i.toNat → i.toNat ≤ m.sum.toNat → (latest (opsOf l1) (uploadOf m) i).isSome := by
  have h := (turn_empty (uploadOf m)).run basic_empty hr (by simpa using hturn) (by simpa using hlist)
  have := h.2 l1 _ l2 hl
  simp only [List.nil_append] at this
  exact this rfl

/-- C80. Under the same conditions, all that is read from the file that `Merge` returned is what `Merge` should have left in it, given the order in which
calls returned. -/
theorem C80_delivery_partial (evs : List Event) (s : State) (log l1 l2 : List Obs) (k : Nat) (m : Multipart)
    (hr : State.run {} evs = .ok (s, log)) (hturn : InTurn (uploadOf m) log) (hlist : Listed (uploadOf m) log) (hl : log = l1 ++ .eof k :: l2)
    (hk : inProgress k l1 = some (.merge m)) : merged (opsOf l1) (uploadOf m) = some (heard k l1) := by
  have h := (turn_empty (uploadOf m)).run basic_empty hr (by simpa using hturn) (by simpa using hlist)
  have := h.2 l1 _ l2 hl
  simp only [List.nil_append] at this
  exact this m hk rfl

/-- C80. Also before the end of the file, what was read is the beginning of it. -/
theorem C80_reading_partial (evs : List Event) (s : State) (log l1 l2 : List Obs) (k : Nat) (m : Multipart) (chunk : Bytes)
    (hr : State.run {} evs = .ok (s, log)) (hturn : InTurn (uploadOf m) log) (hlist : Listed (uploadOf m) log) (hl : log = l1 ++ .got k chunk :: l2)
    (hk : inProgress k l1 = some (.merge m)) : ∃ c, merged (opsOf l1) (uploadOf m) = some c ∧ heard k l1 ++ chunk <+: c := by
  have h := (turn_empty (uploadOf m)).run basic_empty hr (by simpa using hturn) (by simpa using hlist)
  have := h.2 l1 _ l2 hl
  simp only [List.nil_append] at this
  exact this m hk rfl

namespace Sample

/-- The upload of two parts, as a session uses it. -/
def twoPartFile : Multipart := upload.multipart 2

/-- An upload of another terminal. -/
def otherPart : Multipart := otherTerminal.multipart 1

def write1 : Call := .write twoPartFile 1 [65, 66, 67]
def write2 : Call := .write twoPartFile 2 [68]
def writeOther : Call := .write otherPart 1 [99]

/-- Goroutines 1, 2 and 3 write two parts of an upload and one part of another at the same time, a few bytes each; then goroutine 1 asks whether its upload is
complete, merges it, reads the merged file in two pieces and closes it, while goroutine 3 goes on. -/
def atOnce : List Event :=
  [.call 1 write1, .call 2 write2, .call 3 writeOther, .step 2 .ok, .step 1 .ok, .step 1 .ok, .step 3 .ok, .step 2 .ok, .step 1 (.bytes 1), .step 2 (.bytes 1),
    .step 2 .ok, .step 1 (.bytes 5), .step 2 .ok, .step 1 .ok, .step 3 .ok, .step 1 .ok, .call 1 (.isFull twoPartFile), .step 1 .ok,
    .step 1 (.names [twoPartFile.partName 2, twoPartFile.partName 1]), .step 1 .ok, .step 3 (.bytes 1), .step 1 .ok, .step 1 .ok, .call 1 (.merge twoPartFile),
    .step 1 .ok, .step 1 (.names [twoPartFile.partName 2, twoPartFile.partName 1]), .step 1 .ok, .step 1 .ok, .step 3 .ok, .step 1 .ok, .step 1 .ok, .step 1 .ok,
    .step 1 .ok, .step 1 (.bytes 2), .step 1 (.bytes 2), .step 1 (.bytes 2), .step 3 .ok, .step 1 (.bytes 2), .step 1 (.bytes 2), .step 1 .ok, .step 1 .ok,
    .read 1 1, .read 1 9, .read 1 0, .release 1]

/-- What is observed. -/
def atOnceBegin : List Obs :=
  [.began 1 write1, .began 2 write2, .began 3 writeOther, .opened 1 (partFile twoPartFile 1), .opened 2 (partFile twoPartFile 2),
    .closed 2 (partFile twoPartFile 2), .wrote 2 twoPartFile 2 [68] .ok, .opened 3 (partFile otherPart 1), .closed 1 (partFile twoPartFile 1),
    .wrote 1 twoPartFile 1 [65, 66, 67] .ok, .began 1 (.isFull twoPartFile)]
def atOnceMerge : List Obs :=
  [.began 1 (.merge twoPartFile), .opened 1 (partFile twoPartFile 2), .opened 1 (partFile twoPartFile 1)]
def atOnceCopy : List Obs :=
  [.closed 3 (partFile otherPart 1), .wrote 3 otherPart 1 [99] .ok, .opened 1 (fullFile twoPartFile),
    .closed 1 (fullFile twoPartFile), .closed 1 (partFile twoPartFile 1), .closed 1 (partFile twoPartFile 2), .merged 1 twoPartFile .ok]
def atOnceEnd : List Obs := [.closed 1 (fullFile twoPartFile), .released 1]

def atOnceLog : List Obs :=
  atOnceBegin ++ .checked 1 twoPartFile true :: (atOnceMerge ++ .opened 1 (fullFile twoPartFile) ::
    (atOnceCopy ++ .got 1 [65, 66] :: .got 1 [67, 68] :: .eof 1 :: atOnceEnd))

/-- The observations before the second piece is read. -/
def atOnceFirst : List Obs :=
  atOnceBegin ++ .checked 1 twoPartFile true :: (atOnceMerge ++ .opened 1 (fullFile twoPartFile) :: (atOnceCopy ++ [.got 1 [65, 66]]))

end Sample

/-- The hypotheses of the three theorems above are met by a schedule in which parts of one upload are written at the same time, and meanwhile another upload goes
on: the check is true, and the parts arrive in order. -/
example : (∃ s, State.run {} Sample.atOnce = .ok (s, Sample.atOnceLog)) ∧ InTurn (uploadOf Sample.twoPartFile) Sample.atOnceLog ∧
    Listed (uploadOf Sample.twoPartFile) Sample.atOnceLog ∧
    Sample.atOnceLog = Sample.atOnceFirst ++ .got 1 [67, 68] :: .eof 1 :: Sample.atOnceEnd ∧
    inProgress 1 Sample.atOnceFirst = some (.merge Sample.twoPartFile) ∧ heard 1 (Sample.atOnceFirst ++ [.got 1 [67, 68]]) = [65, 66, 67, 68] := by
  refine ⟨of_observed (by decide +kernel), inTurn_check (by decide +kernel), ?_, by decide +kernel, by decide +kernel, by decide +kernel⟩
  intro k m h
  simp [Sample.atOnceLog, Sample.atOnceBegin, Sample.atOnceMerge, Sample.atOnceCopy, Sample.atOnceEnd] at h

/-- C80. In particular, a complete upload that was never merged before is delivered whole and in order, however the writes of its parts overlapped: if the completed
calls for the upload are writes of parts 1..n, and then the `Merge`, exactly the latest contents of the parts are read. -/
theorem C80_complete_partial (evs : List Event) (s : State) (log l1 l2 : List Obs) (k : Nat) (m : Multipart) (before after : List FileOp) (n : UInt16)
    (hr : State.run {} evs = .ok (s, log)) (hturn : InTurn (uploadOf m) log) (hlist : Listed (uploadOf m) log) (hl : log = l1 ++ .eof k :: l2)
    (hk : inProgress k l1 = some (.merge m)) (hops : opsOf l1 = before ++ .merge (uploadOf m) .ok :: after)
    (hbefore : ∀ op ∈ before, op.upload = uploadOf m → ∃ i d, op = .write (uploadOf m) i d .ok ∧ 1 ≤ i.toNat ∧ i.toNat ≤ n.toNat)
    (hafter : ∀ op ∈ after, op.upload ≠ uploadOf m) : heard k l1 = joined (latest before (uploadOf m)) 1 n.toNat := by
  have h := C80_delivery_partial evs s log l1 l2 k m hr hturn hlist hl hk
  have hnew : ∀ o, FileOp.merge (uploadOf m) o ∉ before.reverse := by
    intro o ho
    obtain ⟨i, d, hx, -⟩ := hbefore _ (List.mem_reverse.1 ho) rfl
    cases hx
  have hafter' : ∀ o, FileOp.merge (uploadOf m) o ∉ after.reverse := fun o ho => hafter _ (List.mem_reverse.1 ho) rfl
  unfold merged at h
  rw [hops, List.reverse_append, List.reverse_cons, List.append_assoc, mergedIn_append _ _ _ hafter', List.singleton_append, mergedIn, if_pos rfl,
    mergedIn_none hnew] at h
  simp only [leaves, Option.elim, Option.getD, List.drop_nil, List.append_nil, Option.some.injEq] at h
  rw [← h]
  refine joined_trim (latest before (uploadOf m)) n ?_
  intro i c hc
  obtain ⟨d, o, hm, -⟩ := latestIn_mem hc
  obtain ⟨i', d', hx, h1, h2⟩ := hbefore _ (List.mem_reverse.1 hm) rfl
  cases hx
  exact ⟨h1, h2⟩

/-- The hypotheses on the completed calls are met by the schedule above. -/
example : opsOf (Sample.atOnceBegin ++ .checked 1 Sample.twoPartFile true :: (Sample.atOnceMerge ++ .opened 1 (fullFile Sample.twoPartFile) ::
      (Sample.atOnceCopy ++ [.got 1 [65, 66], .got 1 [67, 68]]))) =
    [.write Sample.upload 2 [68] .ok, .write Sample.upload 1 [65, 66, 67] .ok, .write Sample.otherTerminal 1 [99] .ok] ++ .merge Sample.upload .ok :: [] ∧
    Sample.upload = uploadOf Sample.twoPartFile ∧
    joined (latest [.write Sample.upload 2 [68] .ok, .write Sample.upload 1 [65, 66, 67] .ok, .write Sample.otherTerminal 1 [99] .ok] Sample.upload) 1 2 =
      [65, 66, 67, 68] := by
  decide +kernel

/-- C80. The results are those of calls made one after the other, in the order in which they returned: `IsFull` answers the same, and the merged file has the
same content. -/
theorem C80_atomic_partial (evs : List Event) (s : State) (log l1 l2 : List Obs) (k : Nat) (m : Multipart) (o : Obs) (fs : FS)
    (hr : State.run {} evs = .ok (s, log)) (hturn : InTurn (uploadOf m) log) (hlist : Listed (uploadOf m) log) (hl : log = l1 ++ o :: l2)
    (hfs : storage (opsOf l1) empty = .ok fs) (hd : hasDir (opsOf l1) m.icc) :
    (∀ b, o = .checked k m b → m.isFull fs = .ok b) ∧
    (o = .eof k → inProgress k l1 = some (.merge m) → (fs m.icc).bind (fun d => d.get m.fullName) = some (heard k l1)) := by
  have ha := storage_empty _ _ hfs
  constructor
  · rintro b rfl
    obtain ⟨b', h1, h2⟩ := isFull_spec ha.stored (uploadOf m) m.sum ((ha.dirs m.icc).2 ((hasDir_reverse _ _).2 hd))
    have h3 : m.isFull fs = .ok b' := h1
    rw [h3]
    congr 1
    rw [Bool.eq_iff_iff, h2, C80_check_partial evs s log l1 l2 k m b hr hturn hlist hl]
    rfl
  · rintro rfl hk
    rw [← C80_delivery_partial evs s log l1 l2 k m hr hturn hlist hl hk]
    have h := ha.fulls (uploadOf m)
    have hne := (ha.dirs m.icc).2 ((hasDir_reverse _ _).2 hd)
    obtain ⟨d, hd'⟩ := Option.ne_none_iff_exists'.1 hne
    rw [show (uploadOf m).icc = m.icc from rfl, hd'] at h
    rw [hd']
    exact h

/-- The hypotheses are met by the schedule above. -/
example : (∃ fs, storage (opsOf (Sample.atOnceBegin ++ .checked 1 Sample.twoPartFile true :: (Sample.atOnceMerge ++ .opened 1 (fullFile Sample.twoPartFile) ::
      (Sample.atOnceCopy ++ [.got 1 [65, 66], .got 1 [67, 68]])))) empty = .ok fs) ∧
    hasDir (opsOf Sample.atOnceBegin) Sample.twoPartFile.icc ∧ (∃ fs, storage (opsOf Sample.atOnceBegin) empty = .ok fs) := by
  refine ⟨⟨_, rfl⟩, ⟨.write Sample.upload 2 [68] .ok, by decide +kernel, rfl, _, _, _, _, rfl, by simp⟩, ⟨_, rfl⟩⟩

/-- C80. Calls for an upload do not overlap if all of them are made by one goroutine, as when a terminal has one connection. -/
theorem C80_one_connection (evs : List Event) (s : State) (log : List Obs) (u : Upload) (k : Nat) (hr : State.run {} evs = .ok (s, log))
    (hone : ∀ k' c, .began k' c ∈ log → callUpload c = u → k' = k) : InTurn u log := by
  intro l1 k1 c1 l2 hl hu k2 c2 hp hu2
  have h1 : k1 = k := hone k1 c1 (by rw [hl]; simp) hu
  have h2 : k2 = k := hone k2 c2 (by rw [hl]; exact List.mem_append_left _ (inProgress_began hp)) hu2
  rw [h2, ← h1, ← List.nil_append l1, began_free basic_empty hr hl] at hp
  cases hp

/-- In the schedule above only goroutine 3 makes calls for the upload of the other terminal. -/
example : ∀ k' c, .began k' c ∈ Sample.atOnceLog → callUpload c = Sample.otherTerminal → k' = 3 := by
  intro k' c h hu
  simp [Sample.atOnceLog, Sample.atOnceBegin, Sample.atOnceMerge, Sample.atOnceCopy, Sample.atOnceEnd] at h
  rcases h with ⟨rfl, rfl⟩ | ⟨rfl, rfl⟩ | ⟨rfl, rfl⟩ | ⟨rfl, rfl⟩ | ⟨rfl, rfl⟩
  · exact absurd hu (by decide)
  · exact absurd hu (by decide)
  · rfl
  · exact absurd hu (by decide)
  · exact absurd hu (by decide)

/-- C80. However calls overlap, the process can panic only in `IsFull` or `Merge`, and only if the operating system reports an error for the terminal's directory or
a file in it, or no part has been stored for the terminal. -/
theorem C80_no_panic_partial (evs : List Event) (s : State) (log : List Obs) (ev : Event) (hr : State.run {} evs = .ok (s, log)) (hp : s.step ev = .panic) :
    ∃ k a c, ev = .step k a ∧ inProgress k log = some c ∧ (∀ m i d, c ≠ .write m i d) ∧ (a = .fail ∨ ¬ hasDir (opsOf log) (callUpload c).icc) := by
  have hb := basic_empty.run hr
  have hd := dirs_empty.run basic_empty hr
  rw [List.nil_append] at hb hd
  cases ev with
  | call k c => simp only [State.step] at hp; split at hp <;> cases hp
  | step k a =>
    simp only [State.step] at hp
    split at hp
    · rename_i j hj
      obtain ⟨h1, h2⟩ := advance_panic hp
      refine ⟨k, a, j.call, rfl, ?_, h1, ?_⟩
      · rw [hb.prog]; simp [State.doing, hj]
      · rcases h2 with h2 | h2
        · exact .inl h2
        · exact .inr fun h => hd.has _ h h2
    · cases hp
  | read k n =>
    simp only [State.step] at hp
    split at hp
    · split at hp <;> cases hp
    · cases hp
  | release k => simp only [State.step] at hp; split at hp <;> cases hp

/-- Both causes exist: a question about an upload of a terminal that stored nothing, and an error for a file whose name was read. -/
example : (∃ s log, State.run {} [.call 1 (.isFull Sample.twoPartFile)] = .ok (s, log) ∧ s.step (.step 1 .ok) = .panic) ∧
    ∃ s log, State.run {} [.call 1 Sample.writeOther, .step 1 .ok, .step 1 .ok, .step 1 (.bytes 1), .step 1 .ok, .step 1 .ok, .call 1 (.isFull Sample.otherPart),
      .step 1 .ok, .step 1 (.names [Sample.otherPart.partName 1])] = .ok (s, log) ∧ s.step (.step 1 .fail) = .panic := by
  refine ⟨⟨_, _, rfl, rfl⟩, ⟨_, _, rfl, rfl⟩⟩

namespace Sample

/-- Two connections of one terminal: goroutine 1 has begun to write part 1 when goroutine 2, which wrote part 2, asks whether the upload is complete, merges it and
reads the merged file. -/
def tooEarly : List Event :=
  [.call 1 write1, .call 2 write2, .step 1 .ok, .step 1 .ok, .step 2 .ok, .step 2 .ok, .step 2 (.bytes 1), .step 2 .ok, .step 2 .ok,
    .call 2 (.isFull twoPartFile), .step 2 .ok, .step 2 (.names [twoPartFile.partName 1, twoPartFile.partName 2]), .step 2 .ok, .step 2 .ok, .step 2 .ok,
    .call 2 (.merge twoPartFile), .step 2 .ok, .step 2 (.names [twoPartFile.partName 1, twoPartFile.partName 2]), .step 2 .ok, .step 2 .ok, .step 2 .ok, .step 2 .ok,
    .step 2 .ok, .step 2 .ok, .step 2 (.bytes 9), .step 2 (.bytes 9), .step 2 (.bytes 9), .step 2 .ok, .step 2 .ok, .read 2 9, .read 2 9, .release 2,
    .step 1 (.bytes 3), .step 1 .ok, .step 1 .ok]

def tooEarlyBegin : List Obs :=
  [.began 1 write1, .began 2 write2, .opened 1 (partFile twoPartFile 1), .opened 2 (partFile twoPartFile 2), .closed 2 (partFile twoPartFile 2),
    .wrote 2 twoPartFile 2 [68] .ok, .began 2 (.isFull twoPartFile)]
def tooEarlyMerge : List Obs :=
  [.began 2 (.merge twoPartFile), .opened 2 (partFile twoPartFile 1), .opened 2 (partFile twoPartFile 2), .opened 2 (fullFile twoPartFile),
    .opened 2 (fullFile twoPartFile), .closed 2 (fullFile twoPartFile), .closed 2 (partFile twoPartFile 2), .closed 2 (partFile twoPartFile 1), .merged 2 twoPartFile .ok,
    .got 2 [68]]
def tooEarlyEnd : List Obs :=
  [.closed 2 (fullFile twoPartFile), .released 2, .closed 1 (partFile twoPartFile 1), .wrote 1 twoPartFile 1 [65, 66, 67] .ok]
def tooEarlyLog : List Obs := tooEarlyBegin ++ .checked 2 twoPartFile true :: (tooEarlyMerge ++ .eof 2 :: tooEarlyEnd)

end Sample

/-- C80 is false of calls that overlap freely: without any failure, `IsFull` is true although part 1 is still being written. -/
theorem C80_refuted : ¬ ∀ (evs : List Event) (s : State) (log l1 l2 : List Obs) (k : Nat) (m : Multipart) (b : Bool), State.run {} evs = .ok (s, log) →
    (∀ ev ∈ evs, ∀ k', ev ≠ .step k' .fail) → log = l1 ++ .checked k m b :: l2 →
    (b = true ↔ ∀ i : UInt16, 1 ≤ i.toNat → i.toNat ≤ m.sum.toNat → (latest (opsOf l1) (uploadOf m) i).isSome) := by
  intro h
  obtain ⟨s, hs⟩ := of_observed (evs := Sample.tooEarly) (log := Sample.tooEarlyLog) (by decide +kernel)
  have := (h _ s _ _ _ 2 Sample.twoPartFile true hs (by
    intro ev hev k'
    rintro rfl
    simp [Sample.tooEarly] at hev) rfl).1 rfl 1 (by decide) (by decide)
  exact absurd this (by decide +kernel)

/-- C80 is false of calls that overlap freely: of an upload whose two parts were written without any failure, the handler gets only the second. -/
theorem C80_refuted_delivery : ∃ (s : State) (l1 l2 : List Obs), State.run {} Sample.tooEarly = .ok (s, l1 ++ .eof 2 :: l2) ∧
    (∀ ev ∈ Sample.tooEarly, ∀ k', ev ≠ .step k' .fail) ∧ inProgress 2 l1 = some (.merge Sample.twoPartFile) ∧ heard 2 l1 = [68] ∧
    opsOf (l1 ++ l2) = [.write Sample.upload 2 [68] .ok, .merge Sample.upload .ok, .write Sample.upload 1 [65, 66, 67] .ok] := by
  obtain ⟨s, hs⟩ := of_observed (evs := Sample.tooEarly) (log := Sample.tooEarlyLog) (by decide +kernel)
  refine ⟨s, Sample.tooEarlyBegin ++ .checked 2 Sample.twoPartFile true :: Sample.tooEarlyMerge, Sample.tooEarlyEnd, ?_, ?_, by decide +kernel, by decide +kernel,
    by decide +kernel⟩
  · rw [hs]
    simp [Sample.tooEarlyLog]
  · intro ev hev k'
    rintro rfl
    simp [Sample.tooEarly] at hev

/-- C80 is false if the directory cannot be read: then `Merge` takes the upload for empty and returns an empty file without an error, also to the only goroutine that
uses the upload. -/
theorem C80_refuted_unreadable : ∃ (evs : List Event) (s : State) (l1 l2 : List Obs), State.run {} evs = .ok (s, l1 ++ .eof 1 :: l2) ∧
    InTurn (uploadOf Sample.twoPartFile) (l1 ++ .eof 1 :: l2) ∧ inProgress 1 l1 = some (.merge Sample.twoPartFile) ∧ heard 1 l1 = [] ∧
    opsOf (l1 ++ l2) = [.write Sample.upload 2 [68] .ok, .write Sample.upload 1 [65, 66, 67] .ok, .merge Sample.upload .ok] := by
  let evs : List Event := [.call 1 Sample.write2, .step 1 .ok, .step 1 .ok, .step 1 (.bytes 1), .step 1 .ok, .step 1 .ok,
    .call 1 Sample.write1, .step 1 .ok, .step 1 .ok, .step 1 (.bytes 3), .step 1 .ok, .step 1 .ok, .call 1 (.merge Sample.twoPartFile), .step 1 .ok, .step 1 .fail,
    .step 1 .ok, .step 1 .ok, .step 1 .ok, .read 1 9]
  let log : List Obs := [.began 1 Sample.write2, .opened 1 (partFile Sample.twoPartFile 2), .closed 1 (partFile Sample.twoPartFile 2), .wrote 1 Sample.twoPartFile 2 [68] .ok,
    .began 1 Sample.write1, .opened 1 (partFile Sample.twoPartFile 1), .closed 1 (partFile Sample.twoPartFile 1), .wrote 1 Sample.twoPartFile 1 [65, 66, 67] .ok,
    .began 1 (.merge Sample.twoPartFile), .unlisted 1 Sample.twoPartFile, .opened 1 (fullFile Sample.twoPartFile), .opened 1 (fullFile Sample.twoPartFile),
    .closed 1 (fullFile Sample.twoPartFile), .merged 1 Sample.twoPartFile .ok]
  obtain ⟨s, hs⟩ := of_observed (evs := evs) (log := log ++ [.eof 1]) (by decide +kernel)
  exact ⟨evs, s, log, [], hs, inTurn_check (by decide +kernel), by decide +kernel, by decide +kernel, by decide +kernel⟩

/-- C81. However calls overlap and fail, a goroutine that is in no call, and has closed the merged file it was given, has closed every file as many times as it
opened it. -/
theorem C81_no_leak (evs : List Event) (s : State) (log : List Obs) (k : Nat) (f : File) (hr : State.run {} evs = .ok (s, log))
    (hk : inProgress k log = none) : openedBy k f log = closedBy k f log := by
  have hb := basic_empty.run hr
  have ho := open_empty.run basic_empty hr
  rw [List.nil_append] at hb ho
  have h := ho k f
  rw [hb.prog] at hk
  unfold State.doing at hk
  cases hj : s.job k with
  | some j => rw [hj] at hk; cases hk
  | none =>
    cases hrd : s.reader k with
    | some r => rw [hj, hrd] at hk; cases hk
    | none => simpa [State.held, hj, hrd] using h

/-- The schedule above opens the merged file twice, and each part once for writing and once for reading. -/
example : inProgress 1 Sample.atOnceLog = none ∧ openedBy 1 (fullFile Sample.twoPartFile) Sample.atOnceLog = 2 ∧
    openedBy 1 (partFile Sample.twoPartFile 1) Sample.atOnceLog = 2 ∧ openedBy 1 (partFile Sample.twoPartFile 2) Sample.atOnceLog = 1 := by
  decide +kernel

/-- C81. Between opening and closing, files of all parts are open at the same time: each time `Merge` opens the merged file, every part that is stored is open
exactly once. -/
theorem C81_all_parts_open (evs : List Event) (s : State) (log l1 l2 : List Obs) (k : Nat) (m : Multipart) (hr : State.run {} evs = .ok (s, log))
    (hturn : InTurn (uploadOf m) log) (hlist : Listed (uploadOf m) log) (hl : log = l1 ++ .opened k (fullFile m) :: l2)
    (hk : inProgress k l1 = some (.merge m)) (i : UInt16) :
    openedBy k (partFile m i) l1 = closedBy k (partFile m i) l1 + if (latest (opsOf l1) (uploadOf m) i).isSome then 1 else 0 := by
  obtain ⟨evs1, ev, s1, s2, la, r, lb, h1, h2, rfl⟩ := run_split hr hl
  have hb := basic_empty.run h1
  have ho := open_empty.run basic_empty h1
  have ht := ((turn_empty (uploadOf m)).run basic_empty h1
    (by rw [List.nil_append]; rw [hl, List.append_assoc] at hturn; exact inTurn_prefix hturn)
    (by rw [List.nil_append]; rw [hl, List.append_assoc] at hlist; exact listed_prefix hlist)).1
  rw [List.nil_append] at hb ho ht
  have none_of : ∀ {x : List Obs}, x = r ++ .opened k (fullFile m) :: lb → (∀ f, .opened k f ∉ x) → False := by
    rintro x rfl hx
    exact hx (fullFile m) (by simp)
  cases ev with
  | call k' c =>
    simp only [State.step] at h2
    split at h2 <;> rw [Res.ok.injEq, Prod.mk.injEq] at h2 <;> exact (none_of h2.2 (by simp)).elim
  | step k' a =>
    simp only [State.step] at h2
    split at h2
    · rename_i j hj
      have hr' := hb.one k' (by simp [hj])
      have f := advance_facts hj hr' h2
      by_cases hkk : k = k'
      · subst hkk
        have hc : j.call = .merge m := by
          have hp : r.foldl (progress k) (some j.call) = some (.merge m) := by
            rw [inProgress_append, hb.prog] at hk
            simpa [State.doing, hj] using hk
          rcases progress_fold hp with h3 | h3
          · exact Option.some.inj h3
          · exact absurd (by simp [h3]) (advance_no_began (i := k) (c := .merge m) h2)
        obtain ⟨rfl, h3⟩ := opens_full ht hj hr' h2 rfl rfl hc
        rw [List.append_nil, ho k, h3 i]
      · exact absurd (by simp) (advance_opened h2 hkk (fullFile m))
    · rw [Res.ok.injEq, Prod.mk.injEq] at h2; exact (none_of h2.2 (by simp)).elim
  | read k' n =>
    simp only [State.step] at h2
    split at h2
    · split at h2 <;> rw [Res.ok.injEq, Prod.mk.injEq] at h2 <;> exact (none_of h2.2 (by simp)).elim
    · rw [Res.ok.injEq, Prod.mk.injEq] at h2; exact (none_of h2.2 (by simp)).elim
  | release k' =>
    simp only [State.step] at h2
    split at h2 <;> rw [Res.ok.injEq, Prod.mk.injEq] at h2 <;> exact (none_of h2.2 (by simp)).elim

/-- In the schedule above two parts are open when the merged file is first opened. -/
example : Sample.atOnceLog = (Sample.atOnceBegin ++ .checked 1 Sample.twoPartFile true :: Sample.atOnceMerge) ++ .opened 1 (fullFile Sample.twoPartFile) ::
      (Sample.atOnceCopy ++ .got 1 [65, 66] :: .got 1 [67, 68] :: .eof 1 :: Sample.atOnceEnd) ∧
    inProgress 1 (Sample.atOnceBegin ++ .checked 1 Sample.twoPartFile true :: Sample.atOnceMerge) = some (.merge Sample.twoPartFile) ∧
    (latest (opsOf (Sample.atOnceBegin ++ .checked 1 Sample.twoPartFile true :: Sample.atOnceMerge)) Sample.upload 2).isSome := by
  decide +kernel

end Verif
