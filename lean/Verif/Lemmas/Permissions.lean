import Verif.Spec.Permissions
import Verif.Lemmas.Converse
/-! # Lemmas on permissions -/

namespace Verif.Permissions
open Spec Converse

/-- A directory made with mode 0644 cannot be searched by its owner. -/
theorem newDir_search (u : User) : (u.newDir 0o644).search = false := by
  show ((0o644 &&& ~~~u.umask) &&& 0o100 != 0) = false
  have : (0o644 &&& ~~~u.umask) &&& 0o100 = (0 : UInt32) := by
    rw [UInt32.and_assoc, UInt32.and_comm (~~~u.umask), ← UInt32.and_assoc]
    show (0 : UInt32) &&& _ = 0
    exact UInt32.zero_and
  rw [this]
  rfl

theorem contents_put (name : Bytes) (f : File) (files : List (Bytes × File)) :
    contents (Tree.putFile name f files) = Dir.put name f.content (contents files) := by
  induction files with
  | nil => rfl
  | cons g files ih =>
    unfold Tree.putFile
    show _ = Dir.put name f.content ((g.1, g.2.content) :: contents files)
    unfold Dir.put
    by_cases h : g.1 = name
    · simp only [if_pos h]
      rfl
    · simp only [if_neg h]
      rw [← ih]
      rfl

theorem view_some {t : Tree} {g : Access} (h : t.go808 = some g) (icc : UInt64) : t.view icc = (t.dirs icc).map fun d => contents d.2 := by
  unfold Tree.view
  rw [h]

theorem sees_dir {u : User} {t : Tree} {icc : UInt64} (h : t.seesDir u icc = true) : ∃ g d, t.go808 = some g ∧ t.dirs icc = some d ∧
    u.may t.tmp.search = true ∧ u.may g.search = true := by
  unfold Tree.seesDir at h
  cases hg : t.go808 with
  | none => simp [hg] at h
  | some g =>
    rw [hg] at h
    cases hd : t.dirs icc with
    | none => simp [hd] at h
    | some d =>
      simp only [hd, Option.isSome_some, Bool.and_true, Bool.and_eq_true] at h
      exact ⟨g, d, rfl, rfl, h⟩

theorem mkdirRoot_cases (u : User) (perm : UInt32) (t : Tree) : (t.mkdirRoot u perm = (t, false)) ∨
    (t.mkdirRoot u perm = (t, true) ∧ u.may t.tmp.search = true ∧ t.go808.isSome = true) ∨
    (t.mkdirRoot u perm = ({ t with go808 := some (u.newDir perm), dirs := fun _ => none }, true) ∧ u.may t.tmp.search = true ∧ t.go808 = none) := by
  unfold Tree.mkdirRoot Tree.seesRoot
  split
  · rename_i h
    simp only [Bool.and_eq_true] at h
    exact .inr (.inl ⟨rfl, h⟩)
  · split
    · rename_i h
      simp only [Bool.and_eq_true, Option.isNone_iff_eq_none] at h
      exact .inr (.inr ⟨rfl, h.1.1, h.2⟩)
    · exact .inl rfl

/-- What `mkdirAll` can do. -/
theorem mkdirAll_cases (u : User) (perm : UInt32) (icc : UInt64) (t : Tree) :
    (∃ g d, t.mkdirAll u perm icc = (t, true) ∧ t.go808 = some g ∧ t.dirs icc = some d) ∨
    (∃ t1, t.mkdirAll u perm icc = (t1, false) ∧ t1.view = t.view ∧ (t1 = t ∨ ∀ x, t1.dirs x = none)) ∨
    (∃ t1 g, t.mkdirAll u perm icc = ({ t1 with dirs := fun x => if x = icc then some (u.newDir perm, []) else t1.dirs x }, true) ∧
      t1.go808 = some g ∧ t1.view = t.view ∧ t.view icc = none ∧ (t1 = t ∨ (t.go808 = none ∧ ∀ x, t1.dirs x = none))) := by
  unfold Tree.mkdirAll
  by_cases hs : t.seesDir u icc = true
  · rw [if_pos hs]
    obtain ⟨g, d, h1, h2, -⟩ := sees_dir hs
    exact .inl ⟨g, d, rfl, h1, h2⟩
  rw [if_neg hs]
  rcases mkdirRoot_cases u perm t with h | ⟨h, -, hg⟩ | ⟨h, -, hg⟩
  · rw [h]
    exact .inr (.inl ⟨t, rfl, rfl, .inl rfl⟩)
  · obtain ⟨g, hg⟩ := Option.isSome_iff_exists.1 hg
    simp only [h, hg]
    split
    · rename_i hc
      simp only [Bool.and_eq_true, Option.isNone_iff_eq_none] at hc
      refine .inr (.inr ⟨t, g, by rw [hg], hg, rfl, ?_, .inl rfl⟩)
      rw [view_some hg, hc.2]
      rfl
    · rw [Bool.eq_false_iff.2 hs]
      exact .inr (.inl ⟨t, rfl, rfl, .inl rfl⟩)
  · have hv : ({ t with go808 := some (u.newDir perm), dirs := fun _ => none } : Tree).view = t.view := by
      funext x
      unfold Tree.view
      rw [hg]
      rfl
    simp only [h]
    split
    · refine .inr (.inr ⟨_, _, rfl, rfl, hv, ?_, .inr ⟨hg, fun _ => rfl⟩⟩)
      unfold Tree.view
      rw [hg]
    · have : ({ t with go808 := some (u.newDir perm), dirs := fun _ => none } : Tree).seesDir u icc = false := by
        simp [Tree.seesDir]
      rw [this]
      exact .inr (.inl ⟨_, rfl, hv, .inr fun _ => rfl⟩)

/-- What `writeFile` can do. -/
theorem writeFile_cases (u : User) (perm : UInt32) (icc : UInt64) (name data : Bytes) {t : Tree} {g a : Access} {files : List (Bytes × File)}
    (hg : t.go808 = some g) (hd : t.dirs icc = some (a, files)) :
    t.writeFile u perm icc name data = (t, false) ∨
    (u.may t.tmp.search = true ∧ u.may g.search = true ∧ u.may a.search = true ∧ ∃ f : File, f.content = data ∧
      t.writeFile u perm icc name data = ({ t with dirs := fun x => if x = icc then some (a, Tree.putFile name f files) else t.dirs x }, true)) := by
  unfold Tree.writeFile
  simp only [hg, hd]
  split
  · rename_i hc
    simp only [Bool.and_eq_true] at hc
    split
    · rename_i f _
      split
      · exact .inr ⟨hc.1.1, hc.1.2, hc.2, { f.2 with content := data }, rfl, rfl⟩
      · exact .inl rfl
    · split
      · exact .inr ⟨hc.1.1, hc.1.2, hc.2, { writable := u.newFile perm, content := data }, rfl, rfl⟩
      · exact .inl rfl
  · exact .inl rfl

theorem writeFile_iff (u : User) (perm : UInt32) (icc : UInt64) (name data : Bytes) {t : Tree} {g a : Access} {files : List (Bytes × File)}
    (hg : t.go808 = some g) (hd : t.dirs icc = some (a, files)) :
    (t.writeFile u perm icc name data).2 = true ↔ u.may t.tmp.search = true ∧ u.may g.search = true ∧ u.may a.search = true ∧
      match files.find? fun f => f.1 = name with
      | some f => u.may f.2.writable = true
      | none => u.may a.write = true := by
  unfold Tree.writeFile
  simp only [hg, hd]
  split
  · rename_i hc
    simp only [Bool.and_eq_true] at hc
    cases files.find? fun f => f.1 = name with
    | some f => by_cases h : u.may f.2.writable = true <;> simp [h, hc]
    | none => by_cases h : u.may a.write = true <;> simp [h, hc]
  · rename_i hc
    simp only [Bool.and_eq_true] at hc
    exact ⟨fun h => (nomatch h), fun h => absurd ⟨⟨h.1, h.2.1⟩, h.2.2.1⟩ hc⟩

theorem put_view {t : Tree} {g a : Access} {files : List (Bytes × File)} (icc : UInt64) (hg : t.go808 = some g) :
    ({ t with dirs := fun x => if x = icc then some (a, files) else t.dirs x } : Tree).view = t.view.set icc (contents files) := by
  funext x
  rw [view_some (g := g) (by exact hg)]
  unfold FS.set
  by_cases hx : x = icc
  · simp only [if_pos hx]
    rfl
  · simp only [if_neg hx]
    rw [view_some hg]

theorem set_same {t : Tree} {g : Access} {d : Access × List (Bytes × File)} {icc : UInt64} (hg : t.go808 = some g) (hd : t.dirs icc = some d) :
    t.view.set icc (contents d.2) = t.view := by
  funext x
  unfold FS.set
  by_cases hx : x = icc
  · rw [if_pos hx, hx, view_some hg, hd]
    rfl
  · rw [if_neg hx]

theorem set_set (fs : FS) (icc : UInt64) (d d' : Dir) : (fs.set icc d).set icc d' = fs.set icc d' := by
  funext x
  unfold FS.set
  by_cases hx : x = icc <;> simp [hx]

theorem mkdirAll_privileged {u : User} (hu : u.privileged = true) (perm : UInt32) (icc : UInt64) (t : Tree) : (t.mkdirAll u perm icc).2 = true := by
  have hm : ∀ b, u.may b = true := fun b => by simp [User.may, hu]
  unfold Tree.mkdirAll
  by_cases hs : t.seesDir u icc = true
  · rw [if_pos hs]
  rw [if_neg hs]
  cases hg : t.go808 with
  | none => simp [Tree.mkdirRoot, Tree.seesRoot, hg, hm]
  | some g =>
    have hd : t.dirs icc = none := by
      simpa [Tree.seesDir, hg, hm] using hs
    simp [Tree.mkdirRoot, Tree.seesRoot, hg, hm, hd]

/-- The outcome of `Write`. -/
theorem write_ok_iff (u : User) (m : Multipart) (seq : UInt16) (data : Bytes) (t : Tree) :
    (t.write u m seq data).2 = .ok ↔ (t.mkdirAll u 0o644 m.icc).2 = true ∧
      ((t.mkdirAll u 0o644 m.icc).1.writeFile u 0o644 m.icc (m.partName seq) data).2 = true := by
  unfold Tree.write
  rcases t.mkdirAll u 0o644 m.icc with ⟨t1, b1⟩
  cases b1
  · simp
  · simp only
    rcases t1.writeFile u 0o644 m.icc (m.partName seq) data with ⟨t2, b2⟩
    cases b2 <;> simp

theorem write_unprepared {u : User} (hu : u.privileged = false) {t : Tree} (ht : Unprepared t) (m : Multipart) (seq : UInt16) (data : Bytes) :
    (t.write u m seq data).2 ≠ .ok ∧ Unprepared (t.write u m seq data).1 := by
  have hm : ∀ b, u.may b = b := fun b => by simp [User.may, hu]
  unfold Tree.write
  rcases mkdirAll_cases u 0o644 m.icc t with ⟨g, d, h, hg, hd⟩ | ⟨t1, h, -, h1⟩ | ⟨t1, g, h, hg, -, -, h1⟩
  · have hs : d.1.search = false := by
      rcases ht with ht | ht
      · rw [ht] at hg
        cases hg
      · exact ht m.icc d.1 d.2 hd
    rcases writeFile_cases u 0o644 m.icc (m.partName seq) data hg (a := d.1) (files := d.2) hd with h2 | ⟨-, -, h3, -⟩
    · simp only [h, h2]
      exact ⟨by simp, ht⟩
    · rw [hm, hs] at h3
      cases h3
  · simp only [h]
    refine ⟨by simp, ?_⟩
    rcases h1 with rfl | h1
    · exact ht
    · exact .inr fun icc a files hx => by rw [h1] at hx; cases hx
  · have hd : ({ t1 with dirs := fun x => if x = m.icc then some (u.newDir 0o644, []) else t1.dirs x } : Tree).dirs m.icc = some (u.newDir 0o644, []) :=
      if_pos rfl
    rcases writeFile_cases u 0o644 m.icc (m.partName seq) data (g := g) (by exact hg) hd with h2 | ⟨-, -, h3, -⟩
    · simp only [h, h2]
      refine ⟨by simp, .inr fun icc a files hx => ?_⟩
      replace hx : (if icc = m.icc then some (u.newDir 0o644, []) else t1.dirs icc) = some (a, files) := hx
      by_cases hi : icc = m.icc
      · rw [if_pos hi] at hx
        cases hx
        exact newDir_search u
      · rw [if_neg hi] at hx
        rcases h1 with rfl | ⟨-, h1⟩
        · rcases ht with ht | ht
          · rw [ht] at hg
            cases hg
          · exact ht icc a files hx
        · rw [h1] at hx
          cases hx
    · rw [hm, newDir_search] at h3
      cases h3

/-- Without a directory of any terminal, an ordinary user makes none. -/
theorem write_bare {u : User} (hu : u.privileged = false) {t : Tree}
    (ht : t.go808 = none ∨ ∃ g, t.go808 = some g ∧ g.search = false ∧ ∀ icc, t.dirs icc = none) (m : Multipart) (seq : UInt16) (data : Bytes) :
    ((t.write u m seq data).1.go808 = none ∨ ∃ g, (t.write u m seq data).1.go808 = some g ∧ g.search = false ∧
      ∀ icc, (t.write u m seq data).1.dirs icc = none) ∧ (t.write u m seq data).2 = .noDir := by
  have hm : ∀ b, u.may b = b := fun b => by simp [User.may, hu]
  have hs : (u.newDir 0o644).search = false := newDir_search u
  have key : ∃ t1, t.mkdirAll u 0o644 m.icc = (t1, false) ∧
      (t1.go808 = none ∨ ∃ g, t1.go808 = some g ∧ g.search = false ∧ ∀ icc, t1.dirs icc = none) := by
    unfold Tree.mkdirAll Tree.mkdirRoot Tree.seesRoot Tree.seesDir
    rcases ht with h | ⟨g, h, hg, hd⟩
    · simp only [h, hm, Bool.and_false, Bool.false_eq_true, if_false, Option.isSome_none, Option.isNone_none, Bool.and_true]
      by_cases hc : (t.tmp.search && t.tmp.write) = true
      · rw [if_pos hc]
        simp only [hs, Bool.and_false, Bool.false_and, Bool.false_eq_true, if_false]
        exact ⟨_, rfl, .inr ⟨_, rfl, hs, fun _ => rfl⟩⟩
      · rw [if_neg hc]
        exact ⟨_, rfl, .inl h⟩
    · simp only [h, hm, hg, Bool.and_false, Bool.false_and, Bool.false_eq_true, if_false, Option.isSome_some, Option.isNone_some, Bool.and_true]
      by_cases hc : t.tmp.search = true
      · rw [if_pos hc]
        simp only [h, hg, Bool.and_false, Bool.false_and, Bool.false_eq_true, if_false]
        exact ⟨_, rfl, .inr ⟨g, h, hg, hd⟩⟩
      · rw [if_neg hc]
        exact ⟨_, rfl, .inr ⟨g, h, hg, hd⟩⟩
  obtain ⟨t1, h1, h2⟩ := key
  unfold Tree.write
  rw [h1]
  exact ⟨h2, rfl⟩

theorem permitted_fst (u : User) (auto : Bool) (t : Tree) (ms : List (Message Entity × Outcome)) : (permitted u auto t ms).map (·.1) = ms.map (·.1) := by
  induction ms generalizing t with
  | nil => rfl
  | cons x ms ih =>
    obtain ⟨m, o⟩ := x
    unfold permitted
    cases partOf auto m with
    | none => simp [ih]
    | some y => simp [ih]

theorem permitted_fails {u : User} (hu : u.privileged = false) (auto : Bool) {t : Tree} (ht : Unprepared t) (ms : List (Message Entity × Outcome)) :
    ∀ x ∈ permitted u auto t ms, (partOf auto x.1).isSome = true → x.2.1 ≠ .ok := by
  induction ms generalizing t with
  | nil => intro x hx; cases hx
  | cons y ms ih =>
    obtain ⟨m, o⟩ := y
    unfold permitted
    cases hp : partOf auto m with
    | none =>
      intro x hx hs
      rcases List.mem_cons.1 hx with rfl | hx
      · rw [hp] at hs
        cases hs
      · exact ih ht x hx hs
    | some y =>
      obtain ⟨up, p, data⟩ := y
      obtain ⟨h1, h2⟩ := write_unprepared hu ht (up.file p) p.seq data
      intro x hx hs
      rcases List.mem_cons.1 hx with rfl | hx
      · exact h1
      · exact ih h2 x hx hs

/-- Not the answer "success" of the loop, and no merge. -/
def Bleak : Ev → Prop
  | .replies _ _ r => r ≠ 0
  | .merged _ _ => False
  | _ => True

variable {σ : Type}

theorem performs_bleak {icc : UInt64} {n n' : Nat} {t t' : Table} {c : Code σ} {x : List Ev} {u : σ} (h : Performs icc n t c x n' t' u) : ∀ e ∈ x, Bleak e := by
  induction h with
  | returns => intro e h; cases h
  | panics => intro e h; cases h
  | sent _ ih => exact List.forall_mem_cons.2 ⟨trivial, ih⟩
  | refused _ ih => exact List.forall_mem_cons.2 ⟨trivial, ih⟩
  | requested _ ih => exact List.forall_mem_cons.2 ⟨trivial, List.forall_mem_cons.2 ⟨trivial, ih⟩⟩
  | requestRefused _ ih => exact List.forall_mem_cons.2 ⟨trivial, ih⟩

theorem noted_bleak {P : Program σ} {k k' : Knows σ} {m : Message Entity} {x : List Ev} (h : Noted P k m x k') : ∀ e ∈ x, Bleak e := by
  cases h with
  | ran _ _ hc => exact List.forall_mem_cons.2 ⟨trivial, performs_bleak hc⟩
  | none => intro e h; cases h

theorem dispatched_bleak {P : Program σ} {k k' : Knows σ} {m : Message Entity} {x : List Ev} (h : Dispatched P k m x k') : ∀ e ∈ x, Bleak e := by
  cases h with
  | handled _ hc => exact List.forall_mem_cons.2 ⟨trivial, performs_bleak hc⟩
  | unhandled => exact List.forall_mem_cons.2 ⟨trivial, fun e h => (nomatch h)⟩

theorem replied_bleak {k k' : Knows σ} {m : Message Entity} {r : UInt8} {x : List Ev} (h : Replied k m r x k') :
    (r ≠ 0 → ∀ e ∈ x, Bleak e) ∧ .replies m.header.serial m.header.msgID r ∈ x := by
  cases h
  · exact ⟨fun hr => List.forall_mem_cons.2 ⟨hr, List.forall_mem_cons.2 ⟨trivial, fun e h => (nomatch h)⟩⟩, List.mem_cons_self⟩
  · exact ⟨fun hr => List.forall_mem_cons.2 ⟨hr, List.forall_mem_cons.2 ⟨trivial, fun e h => (nomatch h)⟩⟩, List.mem_cons_self⟩

theorem turn_bleak {auto : Bool} {P : Program σ} {k k' : Knows σ} {m : Message Entity} {o : Outcome × Outcome} {x : List Ev} (h : Turn auto P k m o x k')
    (hf : (partOf auto m).isSome = true → o.1 ≠ .ok) :
    (∀ e ∈ x, Bleak e) ∧ (isPart auto m = true → .replies m.header.serial m.header.msgID 1 ∈ x) := by
  cases h with
  | unsupported hb hr =>
    refine ⟨(replied_bleak hr).1 (by decide), fun hp => ?_⟩
    unfold hasBody at hb
    unfold isPart at hp
    cases hm : m.body <;> simp [hm] at hb hp
  | ordinary _ hp hn hd =>
    refine ⟨fun e he => ?_, fun h => by rw [hp] at h; cases h⟩
    rcases List.mem_append.1 he with he | he
    · exact noted_bleak hn e he
    · exact dispatched_bleak hd e he
  | lost _ _ hr =>
    have := replied_bleak hr
    exact ⟨List.forall_mem_cons.2 ⟨trivial, this.1 (by decide)⟩, fun _ => List.mem_cons_of_mem _ this.2⟩
  | stored hp ho => exact absurd ho (hf (by rw [hp]; rfl))
  | unmerged hp ho => exact absurd ho (hf (by rw [hp]; rfl))
  | merged hp _ ho => exact absurd ho (hf (by rw [hp]; rfl))

theorem talk_bleak {auto : Bool} {P : Program σ} {k k' : Knows σ} {ms : List (Message Entity × Outcome × Outcome)} {log : List Ev} (h : Talk auto P k ms log k')
    (hf : ∀ x ∈ ms, (partOf auto x.1).isSome = true → x.2.1 ≠ .ok) :
    (∀ e ∈ log, Bleak e) ∧ ∀ x ∈ ms, isPart auto x.1 = true → .replies x.1.header.serial x.1.header.msgID 1 ∈ log := by
  induction h with
  | nil => exact ⟨fun e h => (nomatch h), fun e h => (nomatch h)⟩
  | cons ht _ ih =>
    obtain ⟨t1, t2⟩ := turn_bleak ht (hf _ List.mem_cons_self)
    obtain ⟨i1, i2⟩ := ih fun x hx => hf x (List.mem_cons_of_mem _ hx)
    constructor
    · refine List.forall_mem_cons.2 ⟨trivial, fun e he => ?_⟩
      rcases List.mem_append.1 he with he | he
      · exact t1 e he
      · exact i1 e he
    · intro x hx hp
      rcases List.mem_cons.1 hx with rfl | hx
      · exact List.mem_cons_of_mem _ (List.mem_append_left _ (t2 hp))
      · exact List.mem_cons_of_mem _ (List.mem_append_right _ (i2 x hx hp))

theorem bit7 (w : UInt32) : w &&& (0o200 : UInt32) = if w.toBitVec[7] then (0o200 : UInt32) else 0 := by
  apply UInt32.eq_of_toBitVec_eq
  have h7 : ∀ i : Fin 32, (128#32)[i.val] = decide (i.val = 7) := by decide
  apply BitVec.eq_of_getElem_eq
  intro i hi
  have h := h7 ⟨i, hi⟩
  simp only at h
  by_cases h7 : i = 7
  · subst h7
    cases hb : w.toBitVec[7] <;> simp [hb, UInt32.toBitVec_ofNat]
  · have h0 : (128#32)[i] = false := by rw [h]; simpa using h7
    rw [UInt32.toBitVec_and, BitVec.getElem_and]
    split <;> simp [h0, UInt32.toBitVec_ofNat]

/-- The owner may write to a file made with mode 0644, unless the umask forbids it. -/
theorem newFile_644 (u : User) : u.newFile 0o644 = true ↔ u.umask &&& 0o200 = 0 := by
  unfold User.newFile
  generalize u.umask = w
  rw [bit7, bit7]
  have : (0o644 &&& ~~~w : UInt32).toBitVec[7] = !w.toBitVec[7] := by
    simp [UInt32.toBitVec_ofNat]
  rw [this]
  cases w.toBitVec[7] <;> decide

end Verif.Permissions
