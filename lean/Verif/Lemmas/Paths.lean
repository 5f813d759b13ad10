import Verif.Spec.Paths
import Verif.Lemmas.HandlerRun
/-! # Lemmas on the paths of uploads -/

namespace Verif
open Handler Spec

theorem components_ne (s : Bytes) : components s ≠ [] := by
  cases s with
  | nil => simp [components]
  | cons b t =>
    simp only [components]
    split
    · simp
    · split <;> simp

theorem components_append (a b : Bytes) : components (a ++ 47 :: b) = components a ++ components b := by
  induction a with
  | nil =>
    simp only [List.nil_append, components]
    split
    · rename_i h; exact absurd h (components_ne b)
    · rename_i c cs h; simp [h]
  | cons x a ih =>
    simp only [List.cons_append, components, ih]
    cases h : components a with
    | nil => exact absurd h (components_ne a)
    | cons c cs =>
      simp only [List.cons_append]
      split <;> rfl

theorem components_plain (s : Bytes) (h : (47 : UInt8) ∉ s) : components s = [s] := by
  induction s with
  | nil => rfl
  | cons b t ih =>
    simp only [List.mem_cons, not_or] at h
    simp only [components, ih h.2]
    rw [if_neg (Ne.symm h.1)]

theorem number_fmtUint (n : Nat) : DecimalName (fmtUint n) := by
  refine ⟨fmtUint_ne_nil n, fun b hb => ?_⟩
  have := List.all_eq_true.1 (fmtUint_all n) b hb
  simpa [isDigit] using this

theorem number_noSlash {s : Bytes} (h : DecimalName s) : (47 : UInt8) ∉ s := fun hm => absurd (h.2 47 hm).1 (by decide)

theorem partName_isPart (m : Multipart) (seq : UInt16) : PartFileName (m.partName seq) :=
  ⟨_, _, _, number_fmtUint _, number_fmtUint _, number_fmtUint _, rfl⟩

theorem fullName_isFull (m : Multipart) : FullFileName m.fullName := ⟨_, _, number_fmtUint _, number_fmtUint _, rfl⟩

theorem partFileName_noSlash {s : Bytes} (h : PartFileName s) : (47 : UInt8) ∉ s := by
  obtain ⟨a, b, c, ha, hb, hc, rfl⟩ := h
  intro hm
  have h1 : "-".toUTF8.data.toList = [45] := by decide
  have h2 : ".part".toUTF8.data.toList = [46, 112, 97, 114, 116] := by decide
  rw [h1, h2] at hm
  simp [number_noSlash ha, number_noSlash hb, number_noSlash hc] at hm

theorem fullFileName_noSlash {s : Bytes} (h : FullFileName s) : (47 : UInt8) ∉ s := by
  obtain ⟨a, b, ha, hb, rfl⟩ := h
  intro hm
  have h1 : "-".toUTF8.data.toList = [45] := by decide
  have h2 : ".full".toUTF8.data.toList = [46, 102, 117, 108, 108] := by decide
  rw [h1, h2] at hm
  simp [number_noSlash ha, number_noSlash hb] at hm

/-- The components of a path in the directory of a terminal. -/
theorem components_path (tmp : Bytes) (m : Multipart) (name : Bytes) (h : (47 : UInt8) ∉ name) :
    components (m.rootDir tmp ++ [47] ++ name) = components tmp ++ ["go808".toUTF8.data.toList, fmtUint m.icc.toNat, name] := by
  have e : m.rootDir tmp ++ [47] ++ name = tmp ++ 47 :: ([103, 111, 56, 48, 56] ++ 47 :: (fmtUint m.icc.toNat ++ 47 :: name)) := by
    simp [Multipart.rootDir]
  rw [e, components_append, components_append, components_append, components_plain [103, 111, 56, 48, 56] (by decide), components_plain _ (number_noSlash (number_fmtUint _)),
    components_plain name h]
  rfl

/-- Different terminals or names have different paths. -/
theorem path_inj (tmp : Bytes) {m m' : Multipart} {name name' : Bytes} (h1 : (47 : UInt8) ∉ name) (h2 : (47 : UInt8) ∉ name')
    (h : m.rootDir tmp ++ [47] ++ name = m'.rootDir tmp ++ [47] ++ name') : m.icc = m'.icc ∧ name = name' := by
  have := congrArg components h
  rw [components_path tmp m name h1, components_path tmp m' name' h2] at this
  have := List.append_cancel_left this
  simp only [List.cons.injEq, and_true, true_and] at this
  exact ⟨UInt64.toNat_inj.1 (fmtUint_inj this.1), this.2⟩

namespace Handler

theorem put_mem (n c : Bytes) (d : Dir) (f : Bytes × Bytes) (h : f ∈ d.put n c) : f = (n, c) ∨ f ∈ d := by
  induction d with
  | nil => simp [Dir.put] at h; exact .inl h
  | cons g d ih =>
    simp only [Dir.put] at h
    split at h
    · rcases List.mem_cons.1 h with h | h
      · exact .inl h
      · exact .inr (List.mem_cons_of_mem _ h)
    · rcases List.mem_cons.1 h with h | h
      · exact .inr (by simp [h])
      · rcases ih h with h | h
        · exact .inl h
        · exact .inr (List.mem_cons_of_mem _ h)

/-- The file was there before, or a call in the log made it. -/
def Came (fs : FS) (x : List Act) (icc : UInt64) (f : Bytes × Bytes) : Prop :=
  (∃ d, fs icc = some d ∧ f ∈ d) ∨
    (∃ g seq data o, Act.wrote g seq data o ∈ x ∧ g.icc = icc ∧ f.1 = g.partName seq) ∨
    (∃ g o, Act.merged g o ∈ x ∧ g.icc = icc ∧ f.1 = g.fullName)

/-- Every file comes from a call in the log, or was there before. -/
theorem tr_files {s s' : Loop} {x : List Act} (h : Tr s x s') (icc : UInt64) (d' : Dir) (hd : s'.fs icc = some d') (f : Bytes × Bytes) (hf : f ∈ d') :
    Came s.fs x icc f := by
  induction h generalizing d' hf with
  | wrote s g seq data o =>
    have key : ∀ c, (FS.set s.fs g.icc (((s.fs g.icc).getD []).put (g.partName seq) c)) icc = some d' → Came s.fs [.wrote g seq data o] icc f := by
      intro c hc
      simp only [FS.set] at hc
      split at hc
      · rename_i he
        subst he
        cases hc
        rcases put_mem _ _ _ _ hf with h | h
        · exact Or.inr (.inl ⟨g, seq, data, o, by simp, rfl, by rw [h]⟩)
        · cases hs : s.fs g.icc with
          | none => rw [hs] at h; simp at h
          | some d => rw [hs] at h; exact .inl ⟨d, hs, h⟩
      · exact .inl ⟨d', hc, hf⟩
    simp only [Multipart.write] at hd
    cases o with
    | ok => exact key data hd
    | torn n => exact key _ hd
    | noDir => exact .inl ⟨d', hd, hf⟩
    | noFile =>
      simp only [FS.set] at hd
      split at hd
      · rename_i he
        subst he
        cases hd
        cases hs : s.fs g.icc with
        | none => rw [hs] at hf; simp at hf
        | some d => rw [hs] at hf; exact .inl ⟨d, hs, hf⟩
      · exact .inl ⟨d', hd, hf⟩
  | merged s g o r h =>
    simp only [Multipart.merge] at h
    cases hw : g.walkParts s.fs with
    | err e => rw [hw] at h; exact nomatch h
    | panic => rw [hw] at h; exact nomatch h
    | ok ps =>
    rw [hw] at h
    simp only [Res.ok_bind] at h
    have key : ∀ c, (FS.set s.fs g.icc (((s.fs g.icc).getD []).put g.fullName c)) icc = some d' → Came s.fs [.merged g o] icc f := by
      intro c hc
      simp only [FS.set] at hc
      split at hc
      · rename_i he
        subst he
        cases hc
        rcases put_mem _ _ _ _ hf with h | h
        · exact Or.inr (.inr ⟨g, o, by simp, rfl, by rw [h]⟩)
        · cases hs : s.fs g.icc with
          | none => rw [hs] at h; simp at h
          | some d => rw [hs] at h; exact .inl ⟨d, hs, h⟩
      · exact .inl ⟨d', hc, hf⟩
    cases o <;> (simp only [Res.ok.injEq] at h; subst h)
    · exact key _ hd
    · exact .inl ⟨d', hd, hf⟩
    · exact .inl ⟨d', hd, hf⟩
    · exact key _ hd
  | trans _ _ ih1 ih2 =>
    rcases ih2 d' hd hf with ⟨d, e1, e2⟩ | ⟨g, seq, data, o, h, r⟩ | ⟨g, o, h, r⟩
    · rcases ih1 d e1 e2 with h | ⟨g, seq, data, o, h, r⟩ | ⟨g, o, h, r⟩
      · exact .inl h
      · exact .inr (.inl ⟨g, seq, data, o, List.mem_append_left _ h, r⟩)
      · exact .inr (.inr ⟨g, o, List.mem_append_left _ h, r⟩)
    · exact .inr (.inl ⟨g, seq, data, o, List.mem_append_right _ h, r⟩)
    · exact .inr (.inr ⟨g, o, List.mem_append_right _ h, r⟩)
  | _ => exact .inl ⟨d', hd, hf⟩

theorem write_untouched (g : Multipart) (o : Outcome) (seq : UInt16) (data : Bytes) (fs : FS) (icc : UInt64) (hne : icc ≠ g.icc) :
    (g.write o seq data fs).1 icc = fs icc := by
  simp only [Multipart.write]
  cases o <;> simp [FS.set, hne]

theorem merge_untouched (g : Multipart) (o : Outcome) (fs : FS) (r : FS × Option Bytes) (h : g.merge o fs = .ok r) (icc : UInt64) (hne : icc ≠ g.icc) :
    r.1 icc = fs icc := by
  simp only [Multipart.merge] at h
  cases hw : g.walkParts fs with
  | err e => rw [hw] at h; exact nomatch h
  | panic => rw [hw] at h; exact nomatch h
  | ok ps =>
    rw [hw] at h
    simp only [Res.ok_bind] at h
    cases o <;> (simp only [Res.ok.injEq] at h; subst h; simp [FS.set, hne])

/-- A directory changes only by calls for its terminal. -/
theorem tr_untouched {s s' : Loop} {x : List Act} (h : Tr s x s') (icc : UInt64) (hx : ∀ op ∈ fileOps x, op.upload.icc ≠ icc) : s'.fs icc = s.fs icc := by
  induction h with
  | wrote s g seq data o =>
    exact write_untouched g o seq data s.fs icc fun he => hx (.write ⟨g.icc, g.msgID, g.tag⟩ seq data o) (by simp [fileOps]) he.symm
  | merged s g o r h =>
    exact merge_untouched g o s.fs r h icc fun he => hx (.merge ⟨g.icc, g.msgID, g.tag⟩ o) (by simp [fileOps]) he.symm
  | trans _ _ ih1 ih2 =>
    have e : ∀ a b : List Act, fileOps (a ++ b) = fileOps a ++ fileOps b := fun a b => List.filterMap_append
    rw [e] at hx
    rw [ih2 fun op h => hx op (List.mem_append_right _ h), ih1 fun op h => hx op (List.mem_append_left _ h)]
  | _ => rfl

theorem put_keeps (n c name : Bytes) (d : Dir) (h : name ∈ d.map (·.1)) : name ∈ (d.put n c).map (·.1) := by
  rw [Dir.names_put]
  split
  · exact h
  · exact List.mem_append_left _ h

/-- No file is removed. -/
theorem tr_keeps {s s' : Loop} {x : List Act} (h : Tr s x s') (icc : UInt64) (name : Bytes) (hn : ∃ d, s.fs icc = some d ∧ name ∈ d.map (·.1)) :
    ∃ d, s'.fs icc = some d ∧ name ∈ d.map (·.1) := by
  have key : ∀ (fs : FS) (g : Multipart) (n c : Bytes), (∃ d, fs icc = some d ∧ name ∈ d.map (·.1)) →
      ∃ d, (FS.set fs g.icc (((fs g.icc).getD []).put n c)) icc = some d ∧ name ∈ d.map (·.1) := by
    intro fs g n c hn
    obtain ⟨d, h1, h2⟩ := hn
    simp only [FS.set]
    split
    · rename_i he
      subst he
      exact ⟨_, rfl, put_keeps n c name _ (by rw [h1]; exact h2)⟩
    · exact ⟨d, h1, h2⟩
  induction h with
  | wrote s g seq data o =>
    simp only [Multipart.write]
    cases o with
    | ok => exact key _ _ _ _ hn
    | torn n => exact key _ _ _ _ hn
    | noDir => exact hn
    | noFile =>
      obtain ⟨d, h1, h2⟩ := hn
      simp only [FS.set]
      split
      · rename_i he
        subst he
        exact ⟨d, by rw [h1]; rfl, h2⟩
      · exact ⟨d, h1, h2⟩
  | merged s g o r h =>
    simp only [Multipart.merge] at h
    cases hw : g.walkParts s.fs with
    | err e => rw [hw] at h; exact nomatch h
    | panic => rw [hw] at h; exact nomatch h
    | ok ps =>
      rw [hw] at h
      simp only [Res.ok_bind] at h
      cases o <;> (simp only [Res.ok.injEq] at h; subst h) <;> first | exact hn | exact key _ _ _ _ hn
  | trans _ _ ih1 ih2 => exact ih2 (ih1 hn)
  | _ => exact hn

end Handler
end Verif
