import Verif.Lemmas.Paths
import Verif.Props.Handler
/-! # Where uploads are stored, and for how long (C59, C64) -/

namespace Verif
open Handler Spec

/-! ## C59 -/

/-- C59. Whatever a terminal puts into its messages, the file of a part is a file directly in the directory of a terminal below the directory for
temporary files. -/
theorem C59_part_confined (tmp : Bytes) (m : Multipart) (seq : UInt16) : Confined tmp (m.partPath tmp seq) :=
  ⟨_, _, components_path tmp m _ (partFileName_noSlash (partName_isPart m seq)), number_fmtUint _, .inl (partName_isPart m seq)⟩

/-- C59. The same for the merged file. -/
theorem C59_full_confined (tmp : Bytes) (m : Multipart) : Confined tmp (m.fullPath tmp) :=
  ⟨_, _, components_path tmp m _ (fullFileName_noSlash (fullName_isFull m)), number_fmtUint _, .inr (fullName_isFull m)⟩

/-- No component of such a path below the directory for temporary files is empty, "." or "..". -/
theorem C59_no_dots (tmp path : Bytes) (h : Confined tmp path) :
    ∃ rest, components path = components tmp ++ rest ∧ rest.length = 3 ∧ ∀ c ∈ rest, c ≠ [] ∧ c ≠ [46] ∧ c ≠ [46, 46] := by
  obtain ⟨t, n, h1, h2, h3⟩ := h
  refine ⟨_, h1, rfl, ?_⟩
  have hnum : ∀ s : Bytes, DecimalName s → s ≠ [] ∧ s ≠ [46] ∧ s ≠ [46, 46] := by
    intro s hs
    refine ⟨hs.1, ?_, ?_⟩ <;> (rintro rfl; exact absurd (hs.2 46 (by simp)).1 (by decide))
  have happ : ∀ a b : Bytes, DecimalName a → a ++ b ≠ [] ∧ a ++ b ≠ [46] ∧ a ++ b ≠ [46, 46] := by
    intro a b ha
    obtain ⟨x, a', rfl⟩ : ∃ x a', a = x :: a' := by
      cases a with
      | nil => exact absurd rfl ha.1
      | cons x a' => exact ⟨x, a', rfl⟩
    have hx : x ≠ 46 := by
      rintro rfl
      exact absurd (ha.2 46 (by simp)).1 (by decide)
    refine ⟨by simp, ?_, ?_⟩ <;> (intro he; exact hx (List.cons.inj he).1)
  intro c hc
  simp only [List.mem_cons, List.not_mem_nil, or_false] at hc
  rcases hc with rfl | rfl | rfl
  · decide
  · exact hnum _ h2
  · rcases h3 with ⟨a, b, d, ha, -, -, rfl⟩ | ⟨a, b, ha, -, rfl⟩
    · rw [List.append_assoc, List.append_assoc, List.append_assoc, List.append_assoc]; exact happ a _ ha
    · rw [List.append_assoc, List.append_assoc]; exact happ a _ ha

/-- C59. Different parts have different files: the file of a part determines terminal, message id, tag and number. -/
theorem C59_parts_distinct (tmp : Bytes) (m m' : Multipart) (seq seq' : UInt16) (h : m.partPath tmp seq = m'.partPath tmp seq') :
    m.icc = m'.icc ∧ m.msgID = m'.msgID ∧ m.tag = m'.tag ∧ seq = seq' := by
  obtain ⟨h1, h2⟩ := path_inj tmp (partFileName_noSlash (partName_isPart m seq)) (partFileName_noSlash (partName_isPart m' seq')) h
  exact ⟨h1, Multipart.partName_inj h2⟩

/-- C59. Different uploads have different merged files. -/
theorem C59_fulls_distinct (tmp : Bytes) (m m' : Multipart) (h : m.fullPath tmp = m'.fullPath tmp) :
    m.icc = m'.icc ∧ m.msgID = m'.msgID ∧ m.tag = m'.tag := by
  obtain ⟨h1, h2⟩ := path_inj tmp (fullFileName_noSlash (fullName_isFull m)) (fullFileName_noSlash (fullName_isFull m')) h
  exact ⟨h1, Multipart.fullName_inj h2⟩

/-- C59. No part is stored over a merged file. -/
theorem C59_part_not_full (tmp : Bytes) (m m' : Multipart) (seq : UInt16) : m.partPath tmp seq ≠ m'.fullPath tmp := by
  intro h
  obtain ⟨-, h2⟩ := path_inj tmp (partFileName_noSlash (partName_isPart m seq)) (fullFileName_noSlash (fullName_isFull m')) h
  exact Multipart.partName_ne_fullName m m' seq h2

/-- Non-trivial case: the path of part 3 of an upload. -/
example : ({ icc := 13812345678, msgID := 0x0801, tag := 7, sum := 3 } : Multipart).partPath "/tmp".toUTF8.data.toList 3 =
    "/tmp/go808/13812345678/2049-7-3.part".toUTF8.data.toList := by decide +kernel

/-- C59. In every history of a session in which no other session stores anything, every file that exists in the end belongs to an upload of which the
session received a part: its path is that of a part or of the merged file of this upload. -/
theorem C59_only_own_files (tmp : Bytes) (auto : Bool) (is : List Input) (hin : ∀ i ∈ is, Arrived i) (hquiet : ∀ i ∈ is, StoresNothing i)
    (s : Loop) (log : List Act) (hrun : ({} : Loop).run auto is = .ok (s, log)) (path content : Bytes) (hf : StoredAt tmp s.fs path content) :
    ∃ m a u p data, (m, a) ∈ receivedIn is ∧ partOf auto m = some (u, p, data) ∧ u.icc = m.header.iccID ∧
      ((∃ seq, path = (u.multipart 0).partPath tmp seq) ∨ path = (u.multipart 0).fullPath tmp) := by
  obtain ⟨s1, log1, h1, h2, -, -, h5, -⟩ := run_spec auto {} is rfl hin
  rw [hrun] at h1
  cases h1
  obtain ⟨icc, d, name, f1, f2, rfl⟩ := hf
  have own : ∀ op ∈ fileOps log, ∃ m a p data, (m, a) ∈ receivedIn is ∧ partOf auto m = some (op.upload, p, data) := by
    intro op hop
    apply Classical.byContradiction
    intro hno
    have hno' : ∀ m a, (m, a) ∈ receivedIn is → ∀ p data, partOf auto m ≠ some (op.upload, p, data) :=
      fun m a hm p data hp => hno ⟨m, a, p, data, hm, hp⟩
    obtain ⟨k1, -⟩ := h5 op.upload (by
      intro i hi
      have := hquiet i hi
      cases i with
      | outside x => cases x <;> simp_all [StoresNothing, storing, Undisturbed, concerns]
      | receive r a =>
        intro x hx
        have := this x hx
        cases x <;> simp_all [storing, concerns]) (by
      intro x hx p data hp
      exact absurd hp (hno' x.1 x.2 hx p data))
    have k2 : partWrites auto op.upload (receivedIn is) = [] := by
      unfold partWrites
      rw [List.filterMap_eq_nil_iff]
      rintro ⟨m, a⟩ hm
      cases hp : partOf auto m with
      | none => simp [hp]
      | some q =>
        obtain ⟨u', p, data⟩ := q
        by_cases hu : u' = op.upload
        · subst hu; exact absurd hp (hno' m a hm p data)
        · simp [hp, hu]
    rw [k2] at k1
    have : op ∈ opsFor op.upload log := by
      unfold opsFor
      rw [List.mem_filter]
      exact ⟨hop, by simp⟩
    rw [k1] at this
    simp at this
  have hicc : ∀ m u p data, partOf auto m = some (u, p, data) → u.icc = m.header.iccID := by
    intro m u p data h
    unfold partOf at h
    split at h
    · split at h
      · rename_i b p' _ _
        cases hb : b.packet with
        | none => simp [hb] at h
        | some data' => simp [hb] at h; rw [← h.1]
      · cases h
    · cases h
  rcases tr_files h2 icc d f1 (name, content) f2 with ⟨d', e1, -⟩ | ⟨g, seq, data, o, e1, rfl, e3⟩ | ⟨g, o, e1, rfl, e3⟩
  · cases e1
  · obtain ⟨m, a, p, data', r1, r2⟩ := own (.write ⟨g.icc, g.msgID, g.tag⟩ seq data o) (List.mem_filterMap.2 ⟨_, e1, rfl⟩)
    refine ⟨m, a, _, p, data', r1, r2, hicc m _ p data' r2, .inl ⟨seq, ?_⟩⟩
    simp only at e3
    rw [e3]
    rfl
  · obtain ⟨m, a, p, data', r1, r2⟩ := own (.merge ⟨g.icc, g.msgID, g.tag⟩ o) (List.mem_filterMap.2 ⟨_, e1, rfl⟩)
    refine ⟨m, a, _, p, data', r1, r2, hicc m _ p data' r2, .inr ?_⟩
    simp only at e3
    rw [e3]
    rfl

/-- Non-trivial case: after the two parts of an upload arrived, their files and the merged file exist. -/
example : (∀ i ∈ [Input.receive (.ok (Sample.part 2 1 [10, 11])) {}, .receive (.ok (Sample.part 2 2 [12])) {}], StoresNothing i) ∧
    ((({} : Loop).run true [.receive (.ok (Sample.part 2 1 [10, 11])) {}, .receive (.ok (Sample.part 2 2 [12])) {}]).bind fun r => .ok (r.1.fs 13800138000)) =
      .ok (some [("2049-7-1.part".toUTF8.data.toList, [10, 11]), ("2049-7-2.part".toUTF8.data.toList, [12]), ("2049-7.full".toUTF8.data.toList, [10, 11, 12])]) :=
  ⟨by simp [StoresNothing], by decide +kernel⟩

/-- C59. The files of a terminal stay as they are, with all their contents, as long as no part with its number arrives in this session and no other
session stores or merges anything for it. -/
theorem C59_other_terminals_untouched (auto : Bool) (s : Loop) (hs : s.running = true) (is : List Input) (hin : ∀ i ∈ is, Arrived i) (icc : UInt64)
    (hno : ∀ m a u p data, (m, a) ∈ receivedIn is → partOf auto m = some (u, p, data) → u.icc ≠ icc)
    (hquiet : ∀ u : Upload, u.icc = icc → ∀ i ∈ is, Undisturbed u i) :
    ∃ s' log, s.run auto is = .ok (s', log) ∧ s'.fs icc = s.fs icc := by
  obtain ⟨s', log, h1, h2, -, -, h5, -⟩ := run_spec auto s is hs hin
  refine ⟨s', log, h1, tr_untouched h2 icc ?_⟩
  intro op hop hicc
  obtain ⟨k1, -⟩ := h5 op.upload (hquiet _ hicc) (fun x hx p d hp => absurd hicc (hno x.1 x.2 _ p d hx hp))
  have k2 : partWrites auto op.upload (receivedIn is) = [] := by
    unfold partWrites
    rw [List.filterMap_eq_nil_iff]
    rintro ⟨m, a⟩ hm
    cases hp : partOf auto m with
    | none => simp [hp]
    | some q =>
      obtain ⟨u', p, data⟩ := q
      have hu : u' ≠ op.upload := fun he => hno m a u' p data hm hp (by rw [he, hicc])
      simp [hp, hu]
  have : op ∈ opsFor op.upload log := by
    unfold opsFor
    rw [List.mem_filter]
    exact ⟨hop, by simp⟩
  rw [k1, k2] at this
  simp at this

/-- The hypotheses are met for terminal 7 while the parts of another terminal arrive; terminal 7 has a file, which stays. -/
example : let fs : FS := fun icc => if icc = 7 then some [([120], [1, 2, 3])] else none
    ∃ s' log, ({ fs := fs } : Loop).run true [.receive (.ok (Sample.part 2 1 [10, 11])) {}, .receive (.ok (Sample.part 2 2 [12])) {}] = .ok (s', log) ∧
      s'.fs 7 = some [([120], [1, 2, 3])] := by
  intro fs
  have := C59_other_terminals_untouched true { fs := fs } rfl
    [.receive (.ok (Sample.part 2 1 [10, 11])) {}, .receive (.ok (Sample.part 2 2 [12])) {}] ?_ 7 ?_ ?_
  · exact this
  · intro i hi
    simp only [List.mem_cons, List.not_mem_nil, or_false] at hi
    rcases hi with rfl | rfl <;> exact ⟨fun e h => by cases h; rfl, fun _ => rfl, fun b h => by cases h; rfl⟩
  · intro m a u p data hm hp
    have : (m, a) = (Sample.part 2 1 [10, 11], {}) ∨ (m, a) = (Sample.part 2 2 [12], {}) := by simpa [receivedIn] using hm
    rcases this with h | h <;> cases h <;> cases hp <;> decide
  · intro u hu i hi
    simp only [List.mem_cons, List.not_mem_nil, or_false] at hi
    rcases hi with rfl | rfl <;> simp [Undisturbed, Quiet]

/-! ## C64 -/

/-- C64 is false: the upload is complete, the handler was called with it and returned, the connection is closed, and both parts and the merged file are
still there. -/
theorem C64_refuted : ∃ (is : List Input) (s : Loop) (log : List Act), (∀ i ∈ is, Arrived i) ∧ ({} : Loop).run true is = .ok (s, log) ∧
    Act.handle 3 (Sample.part 2 2 [10, 11, 12]) ∈ log ∧ s.running = false ∧
    (s.fs 13800138000).map (fun d => d.map (·.1)) =
      some ["2049-7-1.part".toUTF8.data.toList, "2049-7-2.part".toUTF8.data.toList, "2049-7.full".toUTF8.data.toList] := by
  refine ⟨[.outside (.addHandler 0x0801 (some 3)), .receive (.ok (Sample.part 2 1 [10, 11])) {}, .receive (.ok (Sample.part 2 2 [12])) {},
    .receive (.err .eof) {}], _, _, ?_, rfl, by decide +kernel, by decide +kernel, by decide +kernel⟩
  intro i hi
  simp only [List.mem_cons, List.not_mem_nil, or_false] at hi
  rcases hi with rfl | rfl | rfl | rfl
  · exact trivial
  · exact ⟨fun e h => by cases h; rfl, fun _ => rfl, fun b h => by cases h; rfl⟩
  · exact ⟨fun e h => by cases h; rfl, fun _ => rfl, fun b h => by cases h; rfl⟩
  · exact trivial

/-- C64, what holds instead: no file is ever removed, in any history of a session with any acts of other sessions. -/
theorem C64_nothing_removed (tmp : Bytes) (auto : Bool) (s : Loop) (hs : s.running = true) (is : List Input) (hin : ∀ i ∈ is, Arrived i)
    (path content : Bytes) (hf : StoredAt tmp s.fs path content) :
    ∃ s' log content', s.run auto is = .ok (s', log) ∧ StoredAt tmp s'.fs path content' := by
  obtain ⟨s', log, h1, h2, -⟩ := run_spec auto s is hs hin
  obtain ⟨icc, d, name, f1, f2, rfl⟩ := hf
  obtain ⟨d', e1, e2⟩ := tr_keeps h2 icc name ⟨d, f1, List.mem_map_of_mem (f := Prod.fst) f2⟩
  obtain ⟨⟨n', c'⟩, e3, rfl⟩ := List.mem_map.1 e2
  exact ⟨s', log, c', h1, icc, d', n', e1, e3, rfl⟩

/-- The hypotheses are met by a file of terminal 7 and an upload of another terminal. -/
example : StoredAt [47] (fun icc => if icc = 7 then some [([120], [1, 2, 3])] else none) 
    ((({ icc := 7, msgID := 0, tag := 0, sum := 0 } : Multipart).rootDir [47]) ++ [47] ++ [120]) [1, 2, 3] :=
  ⟨7, [([120], [1, 2, 3])], [120], rfl, by simp, rfl⟩

end Verif
