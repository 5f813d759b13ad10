import Verif.Lemmas.Permissions
/-! # C89: parts can be stored whoever runs the server -/

namespace Verif
open Spec Permissions Converse

/-- What the model of permissions says of a write is what the storage model does for the outcome. -/
theorem C89_refines (u : User) (m : Multipart) (seq : UInt16) (data : Bytes) (t : Tree) :
    (t.write u m seq data).1.view = (m.write (t.write u m seq data).2 seq data t.view).1 := by
  unfold Tree.write
  rcases mkdirAll_cases u 0o644 m.icc t with ⟨g, d, h, hg, hd⟩ | ⟨t1, h, hv, -⟩ | ⟨t1, g, h, hg, hv, hn, -⟩
  · simp only [h]
    have hd' : t.view m.icc = some (contents d.2) := by rw [view_some hg, hd]; rfl
    rcases writeFile_cases u 0o644 m.icc (m.partName seq) data hg hd with h1 | ⟨-, -, -, f, hf, h1⟩
    · simp only [h1, Multipart.write, hd', Option.getD_some]
      exact (set_same hg hd).symm
    · simp only [h1, Multipart.write, hd', Option.getD_some]
      rw [put_view m.icc hg, contents_put, hf]
  · simp only [h, hv]
    rfl
  · simp only [h]
    have hg' : ({ t1 with dirs := fun x => if x = m.icc then some (u.newDir 0o644, []) else t1.dirs x } : Tree).go808 = some g := hg
    have hd' : ({ t1 with dirs := fun x => if x = m.icc then some (u.newDir 0o644, []) else t1.dirs x } : Tree).dirs m.icc = some (u.newDir 0o644, []) :=
      if_pos rfl
    rcases writeFile_cases u 0o644 m.icc (m.partName seq) data hg' hd' with h1 | ⟨-, -, -, f, hf, h1⟩
    · simp only [h1, Multipart.write, hn, Option.getD_none]
      rw [put_view m.icc hg, hv]
      rfl
    · simp only [h1, Multipart.write, hn, Option.getD_none]
      rw [put_view m.icc hg', put_view m.icc hg, contents_put, hf, hv, set_set]
      rfl

/-- C89 exactly: a part is stored if and only if the process is privileged, or somebody has prepared the directory of the terminal. -/
theorem C89_exact (u : User) (m : Multipart) (seq : UInt16) (data : Bytes) (t : Tree) :
    (t.write u m seq data).2 = .ok ↔ MayStore u t m.icc (m.partName seq) := by
  rw [write_ok_iff]
  cases hu : u.privileged with
  | true =>
    refine ⟨fun _ => .inl hu, fun _ => ⟨mkdirAll_privileged hu _ _ _, ?_⟩⟩
    have hm : ∀ b, u.may b = true := fun b => by simp [User.may, hu]
    have h1 := mkdirAll_privileged hu 0o644 m.icc t
    rcases mkdirAll_cases u 0o644 m.icc t with ⟨g, d, h, hg, hd⟩ | ⟨t1, h, -⟩ | ⟨t1, g, h, hg, -⟩
    · rw [h]
      refine (writeFile_iff u _ _ _ _ hg (a := d.1) (files := d.2) hd).2 ⟨hm _, hm _, hm _, ?_⟩
      cases d.2.find? fun f => f.1 = m.partName seq <;> exact hm _
    · rw [h] at h1
      cases h1
    · rw [h]
      exact (writeFile_iff u _ _ _ _ (by exact hg) (a := u.newDir 0o644) (files := []) (if_pos rfl)).2 ⟨hm _, hm _, hm _, hm _⟩
  | false =>
    have hm : ∀ b, u.may b = b := fun b => by simp [User.may, hu]
    constructor
    · rintro ⟨h1, h2⟩
      right
      rcases mkdirAll_cases u 0o644 m.icc t with ⟨g, d, h, hg, hd⟩ | ⟨t1, h, -⟩ | ⟨t1, g, h, hg, -⟩
      · rw [h] at h2
        have := (writeFile_iff u _ _ _ _ hg (a := d.1) (files := d.2) hd).1 h2
        simp only [hm] at this
        exact ⟨this.1, g, d.1, d.2, hg, hd, this.2⟩
      · rw [h] at h1
        cases h1
      · rw [h] at h2
        have := (writeFile_iff u _ _ _ _ (by exact hg) (a := u.newDir 0o644) (files := []) (if_pos rfl)).1 h2
        rw [hm, newDir_search] at this
        exact absurd this.2.2.1 (by rw [hm]; simp)
    · rintro (h | ⟨h1, g, a, files, h2, h3, h4, h5, h6⟩)
      · rw [hu] at h
        cases h
      have hs : t.mkdirAll u 0o644 m.icc = (t, true) := by
        unfold Tree.mkdirAll
        rw [if_pos]
        simp [Tree.seesDir, h1, h2, h3, h4, hm]
      rw [hs]
      refine ⟨rfl, (writeFile_iff u _ _ _ _ h2 h3).2 ?_⟩
      simp only [hm]
      exact ⟨h1, h4, h5, h6⟩

/-- A part that an ordinary user has stored in a prepared directory is stored again when the terminal sends it again, exactly if the umask of the process leaves
its owner the right to write. -/
theorem C89_again (u : User) (hu : u.privileged = false) (m : Multipart) (seq : UInt16) (data again : Bytes) (t : Tree) {g a : Access}
    {files : List (Bytes × Permissions.File)} (hg : t.go808 = some g) (hd : t.dirs m.icc = some (a, files)) (hn : files.find? (fun f => f.1 = m.partName seq) = none)
    (h : (t.write u m seq data).2 = .ok) :
    ((t.write u m seq data).1.write u m seq again).2 = .ok ↔ u.umask &&& 0o200 = 0 := by
  have hm : ∀ b, u.may b = b := fun b => by simp [User.may, hu]
  rcases (C89_exact u m seq data t).1 h with h | ⟨h1, g', a', files', h2, h3, h4, h5, h6⟩
  · rw [hu] at h; cases h
  rw [hg] at h2
  rw [hd] at h3
  cases h2
  cases h3
  rw [hn] at h6
  have hs : t.mkdirAll u 0o644 m.icc = (t, true) := by
    unfold Tree.mkdirAll
    rw [if_pos]
    simp [Tree.seesDir, h1, hg, hd, h4, hm]
  have hw : (t.write u m seq data).1 =
      { t with dirs := fun x => if x = m.icc then some (a, Tree.putFile (m.partName seq) ⟨u.newFile 0o644, data⟩ files) else t.dirs x } := by
    unfold Tree.write
    rw [hs]
    simp only [Tree.writeFile, hg, hd, hm, h1, h4, h5, h6, hn, Bool.and_self, if_true]
  have hp : ∀ l : List (Bytes × Permissions.File), l.find? (fun f => f.1 = m.partName seq) = none → ∀ f,
      (Tree.putFile (m.partName seq) f l).find? (fun f => f.1 = m.partName seq) = some (m.partName seq, f) := by
    intro l hl f
    induction l with
    | nil => simp [Tree.putFile]
    | cons x l ih =>
      rw [List.find?_cons] at hl
      split at hl
      · cases hl
      · rename_i hx
        have hx : ¬ x.1 = m.partName seq := by simpa using hx
        rw [Tree.putFile, if_neg hx, List.find?_cons]
        simp only [hx, decide_false]
        exact ih hl
  rw [C89_exact, hw]
  have hb := newFile_644 u
  constructor
  · rintro (h | ⟨-, g', a', files', -, k2, -, -, k3⟩)
    · rw [hu] at h; cases h
    · simp only [if_true, Option.some.injEq, Prod.mk.injEq] at k2
      obtain ⟨rfl, rfl⟩ := k2
      rw [hp _ hn] at k3
      exact hb.1 k3
  · intro h
    refine .inr ⟨h1, g, a, _, hg, if_pos rfl, h4, h5, ?_⟩
    rw [hp _ hn]
    exact hb.2 h

/-- C89 is false of the code for ordinary users: unless somebody has prepared directories of terminals, no write of a part ever succeeds, whatever the umask
is and whatever was tried before. The directories the library itself makes have the mode 0644, so that it may not search them. -/
theorem C89_refuted (u : User) (hu : u.privileged = false) (t : Tree) (ht : Unprepared t) (ws : List (Multipart × UInt16 × Bytes)) :
    ∀ o ∈ (t.writes u ws).2, o ≠ .ok := by
  induction ws generalizing t with
  | nil => intro o h; cases h
  | cons w ws ih =>
    obtain ⟨h1, h2⟩ := write_unprepared hu ht w.1 w.2.1 w.2.2
    intro o ho
    rcases List.mem_cons.1 ho with rfl | ho
    · exact h1
    · exact ih _ h2 o ho

/-- What is left behind: an ordinary user who starts with an empty temporary directory never makes the directory of any terminal. Directory go808 is made by the
first write, with a mode that keeps its owner from making anything in it. -/
theorem C89_refuted_directories (u : User) (hu : u.privileged = false) (t : Tree) (ht : t.go808 = none) (ws : List (Multipart × UInt16 × Bytes)) :
    (∀ icc, (t.writes u ws).1.view icc = none) ∧ ∀ o ∈ (t.writes u ws).2, o = .noDir := by
  have key : ∀ (ws : List (Multipart × UInt16 × Bytes)) (t : Tree),
      (t.go808 = none ∨ ∃ g, t.go808 = some g ∧ g.search = false ∧ ∀ icc, t.dirs icc = none) →
      (∀ icc, (t.writes u ws).1.view icc = none) ∧ ∀ o ∈ (t.writes u ws).2, o = .noDir := by
    intro ws
    induction ws with
    | nil =>
      rintro t (h | ⟨g, h, -, hd⟩)
      · exact ⟨fun icc => by unfold Tree.writes Tree.view; simp [h], by simp [Tree.writes]⟩
      · exact ⟨fun icc => by unfold Tree.writes Tree.view; simp [h, hd], by simp [Tree.writes]⟩
    | cons w ws ih =>
      intro t h
      obtain ⟨h1, h2⟩ := write_bare hu h w.1 w.2.1 w.2.2
      obtain ⟨i1, i2⟩ := ih _ h1
      refine ⟨i1, fun o ho => ?_⟩
      rcases List.mem_cons.1 ho with rfl | ho
      · exact h2
      · exact i2 o ho
  exact key ws t (.inl ht)

/-- C89 for a privileged process: every part is stored, as far as permissions are concerned. -/
theorem C89_privileged_partial (u : User) (hu : u.privileged = true) (t : Tree) (ws : List (Multipart × UInt16 × Bytes)) :
    ∀ o ∈ (t.writes u ws).2, o = .ok := by
  induction ws generalizing t with
  | nil => intro o h; cases h
  | cons w ws ih =>
    intro o ho
    rcases List.mem_cons.1 ho with rfl | ho
    · exact (C89_exact u w.1 w.2.1 w.2.2 t).2 (.inl hu)
    · exact ih _ o ho

variable {σ : Type}

/-- What terminals see of it: a server with automatic merging, run by an ordinary user, answers every part with "failure" and nothing with "success", and
delivers no upload, whatever messages arrive and whatever the handlers are. -/
theorem C89_refuted_session (u : User) (hu : u.privileged = false) (t : Tree) (ht : Unprepared t) (P : Program σ) (d : σ) (accepts : List Bool)
    (ms : List (Message Entity × Outcome)) (hd : ∀ x ∈ ms, Delivered x.1) :
    ∃ s log, ({ user := d, accepts := accepts } : Converse.State σ).run true P (permitted u true t ms) = .ok (s, log) ∧
      (∀ x ∈ ms, isPart true x.1 = true → .replies x.1.header.serial x.1.header.msgID 1 ∈ log) ∧
      (∀ serial id, .replies serial id 0 ∉ log) ∧ ∀ f o, .merged f o ∉ log := by
  have hd' : ∀ x ∈ permitted u true t ms, Delivered x.1 := fun x hx => by
    have : x.1 ∈ (permitted u true t ms).map (·.1) := List.mem_map.2 ⟨x, hx, rfl⟩
    rw [permitted_fst] at this
    obtain ⟨y, hy, h⟩ := List.mem_map.1 this
    rw [← h]
    exact hd y hy
  obtain ⟨s, log, k, h1, h2, -⟩ := run_spec true P (permitted u true t ms) (shows_fresh d accepts) hd'
  obtain ⟨b1, b2⟩ := talk_bleak h2 (permitted_fails hu true ht ms)
  refine ⟨s, log, h1, fun x hx hp => ?_, fun serial id h => b1 _ h rfl, fun f o h => b1 _ h⟩
  have : x.1 ∈ (permitted u true t ms).map (·.1) := by
    rw [permitted_fst]
    exact List.mem_map.2 ⟨x, hx, rfl⟩
  obtain ⟨y, hy, h⟩ := List.mem_map.1 this
  rw [← h]
  exact b2 y hy (by rw [h]; exact hp)

namespace Sample

/-- A system as it is installed: everybody may search and write to the temporary directory, and there is nothing in it. -/
def installed : Tree := ⟨⟨true, true⟩, none, fun _ => none⟩

/-- An ordinary user and root, with the usual umask. -/
def ordinary : User := ⟨false, 0o022⟩
def root : User := ⟨true, 0o022⟩

/-- The directory of one terminal prepared with mode 0700. -/
def prepared : Tree := ⟨⟨true, true⟩, some ⟨true, true⟩, fun icc => if icc = 13800000000 then some (⟨true, true⟩, []) else none⟩

def somePart : Multipart := ⟨13800000000, 0x0801, 7, 2⟩

end Sample

/-- An ordinary user gets directory go808, but not the one of the terminal; root stores both parts; where the directory is prepared, an ordinary user stores
them as well. -/
example : Unprepared Sample.installed ∧
    (Sample.installed.writes Sample.ordinary [(Sample.somePart, 1, [1]), (Sample.somePart, 2, [2])]).2 = [.noDir, .noDir] ∧
    (Sample.installed.writes Sample.root [(Sample.somePart, 1, [1]), (Sample.somePart, 2, [2])]).2 = [.ok, .ok] ∧
    (Sample.prepared.writes Sample.ordinary [(Sample.somePart, 1, [1]), (Sample.somePart, 2, [2])]).2 = [.ok, .ok] ∧
    MayStore Sample.ordinary Sample.prepared 13800000000 (Sample.somePart.partName 1) :=
  ⟨.inl rfl, by decide, by decide, by decide, .inr ⟨rfl, _, _, _, rfl, rfl, rfl, rfl, rfl⟩⟩

/-- With a umask that takes the owner the right to write, a part can be stored once. -/
example : (Sample.prepared.writes ⟨false, 0o222⟩ [(Sample.somePart, 1, [1]), (Sample.somePart, 1, [1])]).2 = [.ok, .noFile] ∧
    (Sample.prepared.writes Sample.ordinary [(Sample.somePart, 1, [1]), (Sample.somePart, 1, [1])]).2 = [.ok, .ok] := ⟨by decide, by decide⟩

/-- The hypotheses of `C89_refuted_session` are met by a session in which a part arrives. -/
example : ∃ m : Message Entity, Delivered m ∧ isPart true m = true ∧
    permitted Sample.ordinary true Sample.installed [(m, .ok)] = [(m, .noDir, .ok)] := by
  refine ⟨{ header := { msgID := 0x0801, iccID := 13800000000, serial := 1, property := 0x2000, packet := some ⟨2, 1⟩ }, body := .val (.m0801 { packet := some [1] }) }, ?_, by decide, ?_⟩
  · exact ⟨by simp [Entity.msgID], by simp [packetFlag], by simp⟩
  · rfl

end Verif
