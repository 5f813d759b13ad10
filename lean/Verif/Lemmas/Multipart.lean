import Verif.Lemmas.Digits
import Verif.Spec.Multipart
/-! # File names, directories and merging -/

namespace Verif

theorem splitOn_nosep (sep : UInt8) (s : Bytes) (h : sep ∉ s) : splitOn sep s = [s] := by
  induction s with
  | nil => rfl
  | cons b t ih =>
    rw [splitOn, if_neg (by rintro rfl; simp at h), ih (fun hx => h (by simp [hx]))]

theorem splitOn_append (sep : UInt8) (a b : Bytes) (h : sep ∉ a) : splitOn sep (a ++ sep :: b) = a :: splitOn sep b := by
  induction a with
  | nil => rw [List.nil_append, splitOn, if_pos rfl]
  | cons x t ih =>
    rw [List.cons_append, splitOn, if_neg (by rintro rfl; simp at h), ih (fun hx => h (by simp [hx]))]

theorem digits_no (n : Nat) (b : UInt8) (hb : isDigit b = false) : b ∉ fmtUint n := by
  intro h
  have := List.all_eq_true.1 (fmtUint_all n) b h
  rw [hb] at this
  simp at this

theorem extension_dot (a e : Bytes) (he : (46 : UInt8) ∉ e) : extension (a ++ 46 :: e) = 46 :: e := by
  unfold extension
  rw [if_pos (by simp)]
  rw [List.reverse_append, List.reverse_cons, List.append_assoc, List.takeWhile_append_of_pos]
  · simp
  · intro x hx
    have : x ∈ e := by simpa using hx
    simp only [decide_eq_true_eq]
    rintro rfl
    exact he this

theorem atoi_fmtUint (n : Nat) (h : n < 2 ^ 63) : atoi (fmtUint n) = n := by
  have hd := fmtUint_all n
  have hne := fmtUint_ne_nil n
  have h45 : (fmtUint n).head? ≠ some 45 := fun hx => digits_no n 45 (by decide) (List.mem_of_mem_head? hx)
  have h43 : (fmtUint n).head? ≠ some 43 := fun hx => digits_no n 43 (by decide) (List.mem_of_mem_head? hx)
  unfold atoi
  simp only [h45, h43, or_self, if_false, hne, hd, Bool.not_true, Bool.false_eq_true, decide_false, digitsVal_fmtUint]
  rw [if_neg (by omega)]

namespace Multipart

theorem fmt16_inj {a b : UInt16} (h : fmtUint a.toNat = fmtUint b.toNat) : a = b := UInt16.toNat_inj.1 (fmtUint_inj h)

theorem partSeq_partName (m m' : Multipart) (s : UInt16) :
    m.partSeq (m'.partName s) = if m.msgID = m'.msgID ∧ m.tag = m'.tag then some s else none := by
  have hname : m'.partName s = (fmtUint m'.msgID.toNat ++ 45 :: (fmtUint m'.tag.toNat ++ 45 :: fmtUint s.toNat)) ++ 46 :: [112, 97, 114, 116] := by
    unfold partName; simp
  have hno : (46 : UInt8) ∉ fmtUint m'.msgID.toNat ++ 45 :: (fmtUint m'.tag.toNat ++ 45 :: fmtUint s.toNat) := by
    simp [digits_no _ 46 (by decide)]
  unfold partSeq
  rw [hname, extension_dot _ _ (by decide), if_neg (by simp), splitOn_append _ _ _ hno]
  simp only [List.head?_cons, Option.getD_some]
  rw [splitOn_append _ _ _ (digits_no _ 45 (by decide)), splitOn_append _ _ _ (digits_no _ 45 (by decide)), splitOn_nosep _ _ (digits_no _ 45 (by decide))]
  simp only
  have ht : UInt32.ofInt (atoi (fmtUint m'.tag.toNat)) = m'.tag := by
    have := m'.tag.toNat_lt
    rw [atoi_fmtUint _ (by omega)]
    apply UInt32.toNat_inj.1
    simp [UInt32.ofInt]
    omega
  have hs : UInt16.ofInt (atoi (fmtUint s.toNat)) = s := by
    have := s.toNat_lt
    rw [atoi_fmtUint _ (by omega)]
    apply UInt16.toNat_inj.1
    simp [UInt16.ofInt]
    omega
  rw [ht, hs]
  by_cases h1 : m.msgID = m'.msgID
  · rw [if_neg (by simp [h1])]
    by_cases h2 : m.tag = m'.tag
    · rw [if_neg (by simp [h2]), if_pos ⟨h1, h2⟩]
    · rw [if_pos (Ne.symm h2), if_neg (fun h => h2 h.2)]
  · rw [if_pos (fun h => h1 (fmt16_inj h).symm), if_neg (fun h => h1 h.1)]

theorem partSeq_fullName (m m' : Multipart) : m.partSeq m'.fullName = none := by
  have hname : m'.fullName = (fmtUint m'.msgID.toNat ++ 45 :: fmtUint m'.tag.toNat) ++ 46 :: [102, 117, 108, 108] := by
    unfold fullName; simp
  unfold partSeq
  rw [hname, extension_dot _ _ (by decide), if_pos (by decide)]

/-- A file with the number field `junk`, which is not a number, counts as part 0. -/
theorem partSeq_stray (m : Multipart) (junk : Bytes) (h46 : (46 : UInt8) ∉ junk) (h45 : (45 : UInt8) ∉ junk) (h43 : (43 : UInt8) ∉ junk)
    (hj : ∃ b ∈ junk, isDigit b = false) :
    m.partSeq (fmtUint m.msgID.toNat ++ [45] ++ fmtUint m.tag.toNat ++ [45] ++ junk ++ [46, 112, 97, 114, 116]) = some 0 := by
  have hname : fmtUint m.msgID.toNat ++ [45] ++ fmtUint m.tag.toNat ++ [45] ++ junk ++ [46, 112, 97, 114, 116] =
      (fmtUint m.msgID.toNat ++ 45 :: (fmtUint m.tag.toNat ++ 45 :: junk)) ++ 46 :: [112, 97, 114, 116] := by simp
  have hno : (46 : UInt8) ∉ fmtUint m.msgID.toNat ++ 45 :: (fmtUint m.tag.toNat ++ 45 :: junk) := by
    simp [digits_no _ 46 (by decide), h46]
  unfold partSeq
  rw [hname, extension_dot _ _ (by decide), if_neg (by simp), splitOn_append _ _ _ hno]
  simp only [List.head?_cons, Option.getD_some]
  rw [splitOn_append _ _ _ (digits_no _ 45 (by decide)), splitOn_append _ _ _ (digits_no _ 45 (by decide)), splitOn_nosep _ _ h45]
  simp only
  have ht : UInt32.ofInt (atoi (fmtUint m.tag.toNat)) = m.tag := by
    have := m.tag.toNat_lt
    rw [atoi_fmtUint _ (by omega)]
    apply UInt32.toNat_inj.1
    simp [UInt32.ofInt]
    omega
  have hs : atoi junk = 0 := by
    have h1 : junk.head? ≠ some 45 := fun hx => h45 (List.mem_of_mem_head? hx)
    have h2 : junk.head? ≠ some 43 := fun hx => h43 (List.mem_of_mem_head? hx)
    have h3 : junk.all isDigit = false := List.all_eq_false.2 (by obtain ⟨b, hb, hd⟩ := hj; exact ⟨b, hb, by simp [hd]⟩)
    unfold atoi
    simp [h1, h2, h3]
  rw [ht, hs, if_neg (by simp), if_neg (by simp)]
  rfl

theorem partName_inj {m m' : Multipart} {s s' : UInt16} (h : m.partName s = m'.partName s') : m.msgID = m'.msgID ∧ m.tag = m'.tag ∧ s = s' := by
  have h1 := partSeq_partName m m s
  rw [if_pos ⟨rfl, rfl⟩, h, partSeq_partName] at h1
  split at h1
  · rename_i hh
    exact ⟨hh.1, hh.2, (Option.some.inj h1).symm⟩
  · simp at h1

theorem partName_ne_fullName (m m' : Multipart) (s : UInt16) : m.partName s ≠ m'.fullName := by
  intro h
  have h1 := partSeq_partName m m s
  rw [if_pos ⟨rfl, rfl⟩, h, partSeq_fullName] at h1
  simp at h1

theorem fullName_inj {m m' : Multipart} (h : m.fullName = m'.fullName) : m.msgID = m'.msgID ∧ m.tag = m'.tag := by
  have hname : ∀ x : Multipart, x.fullName = (fmtUint x.msgID.toNat ++ 45 :: fmtUint x.tag.toNat) ++ 46 :: [102, 117, 108, 108] := by
    intro x; unfold fullName; simp
  rw [hname, hname] at h
  have h2 := List.append_cancel_right h
  have h3 := congrArg (splitOn 45) h2
  rw [splitOn_append _ _ _ (digits_no _ 45 (by decide)), splitOn_append _ _ _ (digits_no _ 45 (by decide)),
    splitOn_nosep _ _ (digits_no _ 45 (by decide)), splitOn_nosep _ _ (digits_no _ 45 (by decide))] at h3
  simp only [List.cons.injEq, and_true] at h3
  exact ⟨fmt16_inj h3.1, UInt32.toNat_inj.1 (fmtUint_inj h3.2)⟩

end Multipart

/-! Directories. -/

namespace Dir

theorem names_put (n c : Bytes) (d : Dir) : (d.put n c).map (·.1) = if n ∈ d.map (·.1) then d.map (·.1) else d.map (·.1) ++ [n] := by
  induction d with
  | nil => rfl
  | cons f d ih =>
    unfold Dir.put
    by_cases h : f.1 = n
    · rw [if_pos h]; simp [h]
    · rw [if_neg h]
      simp only [List.map_cons, ih, List.mem_cons]
      by_cases h2 : n ∈ d.map (·.1)
      · simp [h2]
      · rw [if_neg h2, if_neg]
        · rfl
        · rintro (h3 | h3)
          · exact h h3.symm
          · exact h2 h3

theorem nodup_put (n c : Bytes) (d : Dir) (h : (d.map (·.1)).Nodup) : ((d.put n c).map (·.1)).Nodup := by
  rw [names_put]
  split
  · exact h
  · rename_i hn
    rw [List.nodup_append]
    refine ⟨h, by simp, ?_⟩
    intro a ha b hb
    simp at hb
    subst hb
    rintro rfl
    exact hn ha

theorem mem_put (n c : Bytes) (d : Dir) (h : (d.map (·.1)).Nodup) (f : Bytes × Bytes) :
    f ∈ d.put n c ↔ f = (n, c) ∨ (f ∈ d ∧ f.1 ≠ n) := by
  induction d with
  | nil => simp [Dir.put]
  | cons g d ih =>
    rw [List.map_cons, List.nodup_cons] at h
    unfold Dir.put
    by_cases hg : g.1 = n
    · rw [if_pos hg]
      simp only [List.mem_cons]
      constructor
      · rintro (h1 | h1)
        · exact .inl h1
        · refine .inr ⟨.inr h1, ?_⟩
          intro hn
          exact h.1 (List.mem_map.2 ⟨f, h1, by rw [hn, hg]⟩)
      · rintro (h1 | ⟨h1 | h1, h2⟩)
        · exact .inl h1
        · rw [h1] at h2; exact absurd hg h2
        · exact .inr h1
    · rw [if_neg hg]
      simp only [List.mem_cons, ih h.2]
      constructor
      · rintro (h1 | h1 | h1)
        · exact .inr ⟨.inl h1, by rw [h1]; exact hg⟩
        · exact .inl h1
        · exact .inr ⟨.inr h1.1, h1.2⟩
      · rintro (h1 | ⟨h1 | h1, h2⟩)
        · exact .inr (.inl h1)
        · exact .inl h1
        · exact .inr (.inr ⟨h1, h2⟩)

theorem get_put (n c : Bytes) (d : Dir) (x : Bytes) : (d.put n c).get x = if x = n then some c else d.get x := by
  unfold Dir.get
  induction d with
  | nil =>
    unfold Dir.put
    by_cases h : n = x
    · simp [h]
    · simp [h, Ne.symm h]
  | cons f d ih =>
    unfold Dir.put
    by_cases hf : f.1 = n
    · rw [if_pos hf]
      by_cases h : n = x
      · simp [h]
      · have : f.1 ≠ x := by rw [hf]; exact h
        simp [h, Ne.symm h, this]
    · rw [if_neg hf]
      by_cases h : f.1 = x
      · have : x ≠ n := by rw [← h]; exact hf
        simp [h, this]
      · rw [List.find?_cons_of_neg (by simpa using h), ih, List.find?_cons_of_neg (by simpa using h)]

theorem get_eq_some (d : Dir) (h : (d.map (·.1)).Nodup) (x c : Bytes) : d.get x = some c ↔ (x, c) ∈ d := by
  unfold Dir.get
  induction d with
  | nil => simp
  | cons f d ih =>
    rw [List.map_cons, List.nodup_cons] at h
    by_cases hf : f.1 = x
    · rw [List.find?_cons_of_pos (by simpa using hf)]
      simp only [Option.map_some, Option.some.injEq, List.mem_cons]
      constructor
      · intro hc; left; rw [← hc, ← hf]
      · rintro (h1 | h1)
        · rw [← h1]
        · exact absurd (List.mem_map.2 ⟨(x, c), h1, hf.symm⟩) h.1
    · rw [List.find?_cons_of_neg (by simpa using hf), ih h.2, List.mem_cons]
      constructor
      · exact .inr
      · rintro (h1 | h1)
        · rw [← h1] at hf; exact absurd rfl hf
        · exact h1

end Dir

/-! The storage after a history of calls, latest first. -/

namespace Spec

open Multipart

/-- The file name of a part. -/
abbrev Upload.partName (u : Upload) (s : UInt16) : Bytes := (u.multipart 0).partName s

/-- The directory of a terminal is what the history says. -/
structure Holds (h : List FileOp) (icc : UInt64) (d : Dir) : Prop where
  nodup : (d.map (·.1)).Nodup
  names : ∀ f ∈ d, (∃ u s, u.icc = icc ∧ f.1 = Upload.partName u s ∧ latestIn u s h = some f.2) ∨ ∃ u : Upload, f.1 = (u.multipart 0).fullName
  parts : ∀ u s c, u.icc = icc → latestIn u s h = some c → (Upload.partName u s, c) ∈ d

/-- The whole storage is what the history says. -/
def Stored (h : List FileOp) (fs : FS) : Prop :=
  ∀ icc, match fs icc with
    | some d => Holds h icc d
    | none => ∀ u s, u.icc = icc → latestIn u s h = none

theorem stored_empty : Stored [] empty := by
  intro icc
  exact fun _ _ _ => rfl

theorem upload_ext {u v : Upload} (h1 : u.icc = v.icc) (h2 : u.msgID = v.msgID) (h3 : u.tag = v.tag) : u = v := by
  cases u; cases v; simp_all

theorem Holds.put_full {h : List FileOp} {icc : UInt64} {d : Dir} (hd : Holds h icc d) (u : Upload) (c : Bytes) :
    Holds h icc (d.put (u.multipart 0).fullName c) := by
  refine ⟨Dir.nodup_put _ _ _ hd.nodup, ?_, ?_⟩
  · intro f hf
    rcases (Dir.mem_put _ _ _ hd.nodup f).1 hf with rfl | ⟨hf, _⟩
    · exact .inr ⟨u, rfl⟩
    · exact hd.names f hf
  · intro v s x hv hx
    refine (Dir.mem_put _ _ _ hd.nodup _).2 (.inr ⟨hd.parts v s x hv hx, ?_⟩)
    exact partName_ne_fullName _ _ _

theorem Holds.put_part {h : List FileOp} {icc : UInt64} {d : Dir} (hd : Holds h icc d) (u : Upload) (hu : u.icc = icc) (seq : UInt16)
    (data c : Bytes) (o : Outcome) (ho : leaves data o = some c) :
    Holds (.write u seq data o :: h) icc (d.put (Upload.partName u seq) c) := by
  refine ⟨Dir.nodup_put _ _ _ hd.nodup, ?_, ?_⟩
  · intro f hf
    rcases (Dir.mem_put _ _ _ hd.nodup f).1 hf with rfl | ⟨hf, hne⟩
    · refine .inl ⟨u, seq, hu, rfl, ?_⟩
      simp [latestIn, ho]
    · rcases hd.names f hf with ⟨v, s, h1, h2, h3⟩ | h4
      · refine .inl ⟨v, s, h1, h2, ?_⟩
        rw [latestIn, if_neg]
        · exact h3
        · rintro ⟨rfl, rfl⟩
          exact hne h2
      · exact .inr h4
  · intro v s x hv hx
    rw [latestIn] at hx
    rw [Dir.mem_put _ _ _ hd.nodup]
    split at hx
    · rename_i heq
      obtain ⟨rfl, rfl⟩ := heq
      rw [ho] at hx
      simp at hx
      left; rw [hx]
    · rename_i hne
      right
      refine ⟨hd.parts v s x hv hx, ?_⟩
      intro heq
      obtain ⟨h1, h2, h3⟩ := partName_inj heq
      exact hne ⟨upload_ext (hu.trans hv.symm) h1.symm h2.symm, h3.symm⟩

theorem Holds.skip {h : List FileOp} {icc : UInt64} {d : Dir} (hd : Holds h icc d) (op : FileOp)
    (hop : ∀ u s, u.icc = icc → latestIn u s (op :: h) = latestIn u s h) : Holds (op :: h) icc d := by
  refine ⟨hd.nodup, ?_, ?_⟩
  · intro f hf
    rcases hd.names f hf with ⟨v, s, h1, h2, h3⟩ | h4
    · exact .inl ⟨v, s, h1, h2, by rw [hop v s h1]; exact h3⟩
    · exact .inr h4
  · intro v s x hv hx
    rw [hop v s hv] at hx
    exact hd.parts v s x hv hx

theorem holds_nil {h : List FileOp} {icc : UInt64} (hn : ∀ u s, u.icc = icc → latestIn u s h = none) : Holds h icc [] :=
  ⟨by simp, by simp, fun u s c hu hc => by rw [hn u s hu] at hc; simp at hc⟩

theorem Stored.dir {h : List FileOp} {fs : FS} (hs : Stored h fs) (icc : UInt64) : Holds h icc ((fs icc).getD []) := by
  have := hs icc
  cases hf : fs icc with
  | none => rw [hf] at this; exact holds_nil this
  | some d => rw [hf] at this; exact this

theorem stored_set {op : FileOp} {h : List FileOp} {fs : FS} {icc : UInt64} {d : Dir} (hs : Stored h fs) (hd : Holds (op :: h) icc d)
    (hop : ∀ u s, u.icc ≠ icc → latestIn u s (op :: h) = latestIn u s h) : Stored (op :: h) (fs.set icc d) := by
  intro x
  unfold FS.set
  by_cases hx : x = icc
  · rw [if_pos hx]; subst hx; exact hd
  · rw [if_neg hx]
    have := hs x
    cases hf : fs x with
    | none =>
      rw [hf] at this
      intro u s hu
      rw [hop u s (by rw [hu]; exact hx)]
      exact this u s hu
    | some e =>
      rw [hf] at this
      exact Holds.skip this op fun u s hu => hop u s (by rw [hu]; exact hx)

theorem stored_skip {op : FileOp} {h : List FileOp} {fs : FS} (hs : Stored h fs)
    (hop : ∀ u s, latestIn u s (op :: h) = latestIn u s h) : Stored (op :: h) fs := by
  intro x
  have := hs x
  cases hf : fs x with
  | none =>
    rw [hf] at this
    intro u s hu
    rw [hop u s]
    exact this u s hu
  | some e =>
    rw [hf] at this
    exact Holds.skip this op fun u s _ => hop u s

theorem stored_write {h : List FileOp} {fs : FS} (hs : Stored h fs) (u : Upload) (n seq : UInt16) (data : Bytes) (o : Outcome) :
    Stored (.write u seq data o :: h) ((u.multipart n).write o seq data fs).1 := by
  have other : ∀ (v : Upload) (s : UInt16), v.icc ≠ u.icc → latestIn v s (.write u seq data o :: h) = latestIn v s h := by
    intro v s hv
    rw [latestIn, if_neg]
    rintro ⟨rfl, _⟩
    exact hv rfl
  have none' : leaves data o = none → ∀ (v : Upload) (s : UInt16), latestIn v s (.write u seq data o :: h) = latestIn v s h := by
    intro ho v s
    rw [latestIn, ho]
    split
    · simp
    · rfl
  cases o with
  | ok => exact stored_set hs ((hs.dir u.icc).put_part u rfl seq data data .ok rfl) other
  | noDir => exact stored_skip hs (none' rfl)
  | noFile => exact stored_set hs ((hs.dir u.icc).skip _ fun v s _ => none' rfl v s) other
  | torn k => exact stored_set hs ((hs.dir u.icc).put_part u rfl seq data (data.take k) (.torn k) rfl) other

theorem stored_merge {h : List FileOp} {fs fs' : FS} {r : Option Bytes} (hs : Stored h fs) (u : Upload) (n : UInt16) (o : Outcome)
    (hm : (u.multipart n).merge o fs = .ok (fs', r)) : Stored (.merge u o :: h) fs' := by
  have skip : ∀ (v : Upload) (s : UInt16), latestIn v s (.merge u o :: h) = latestIn v s h := fun _ _ => rfl
  unfold Multipart.merge at hm
  cases hw : (u.multipart n).walkParts fs with
  | panic => rw [hw] at hm; simp at hm
  | err e => rw [hw] at hm; simp at hm
  | ok ps =>
    rw [hw] at hm
    simp only [Res.ok_bind] at hm
    cases o with
    | ok =>
      simp only [Res.ok.injEq, Prod.mk.injEq] at hm
      obtain ⟨rfl, _⟩ := hm
      exact stored_set hs (((hs.dir u.icc).put_full u _).skip _ fun v s _ => skip v s) fun v s _ => skip v s
    | torn k =>
      simp only [Res.ok.injEq, Prod.mk.injEq] at hm
      obtain ⟨rfl, _⟩ := hm
      exact stored_set hs (((hs.dir u.icc).put_full u _).skip _ fun v s _ => skip v s) fun v s _ => skip v s
    | noDir =>
      simp only [Res.ok.injEq, Prod.mk.injEq] at hm
      obtain ⟨rfl, _⟩ := hm
      exact stored_skip hs skip
    | noFile =>
      simp only [Res.ok.injEq, Prod.mk.injEq] at hm
      obtain ⟨rfl, _⟩ := hm
      exact stored_skip hs skip

/-! The parts found by walking the directory. -/

theorem walk_spec {h : List FileOp} {fs : FS} (hs : Stored h fs) (u : Upload) (n : UInt16) (ps : List (UInt16 × Bytes))
    (hw : (u.multipart n).walkParts fs = .ok ps) :
    (∀ s c, (s, c) ∈ ps ↔ latestIn u s h = some c) ∧ ps.Pairwise fun a b => a.1 ≠ b.1 := by
  unfold Multipart.walkParts at hw
  have hst := hs u.icc
  cases hf : fs (u.multipart n).icc with
  | none => rw [hf] at hw; simp at hw
  | some d =>
    have hf' : fs u.icc = some d := hf
    rw [hf'] at hst
    rw [hf] at hw
    simp only [Res.ok.injEq] at hw
    subst hw
    have hst : Holds h u.icc d := hst
    have key : ∀ (v : Upload) (s : UInt16), (u.multipart n).partSeq (Upload.partName v s) = if u.msgID = v.msgID ∧ u.tag = v.tag then some s else none :=
      fun v s => partSeq_partName _ _ _
    have back : ∀ f ∈ d, ∀ s, (u.multipart n).partSeq f.1 = some s → f.1 = Upload.partName u s ∧ latestIn u s h = some f.2 := by
      intro f hfd s hp
      rcases hst.names f hfd with ⟨v, s', h1, h2, h3⟩ | ⟨v, h4⟩
      · rw [h2, key] at hp
        split at hp
        · rename_i hh
          have huv : v = u := upload_ext h1 hh.1.symm hh.2.symm
          obtain rfl := Option.some.inj hp
          subst huv
          exact ⟨h2, h3⟩
        · simp at hp
      · rw [h4, partSeq_fullName] at hp
        simp at hp
    constructor
    · intro s c
      rw [List.mem_filterMap]
      constructor
      · rintro ⟨f, hfd, hp⟩
        cases hq : (u.multipart n).partSeq f.1 with
        | none => rw [hq] at hp; simp at hp
        | some s' =>
          rw [hq] at hp
          simp at hp
          obtain ⟨rfl, rfl⟩ := hp
          exact (back f hfd s' hq).2
      · intro hc
        refine ⟨_, hst.parts u s c rfl hc, ?_⟩
        simp [key]
    · rw [List.pairwise_filterMap]
      have hnd := hst.nodup
      unfold List.Nodup at hnd
      rw [List.pairwise_map] at hnd
      refine List.Pairwise.imp_of_mem ?_ hnd
      intro a b ha hb hab x hx y hy
      cases hqa : (u.multipart n).partSeq a.1 with
      | none => rw [hqa] at hx; simp at hx
      | some sa =>
        cases hqb : (u.multipart n).partSeq b.1 with
        | none => rw [hqb] at hy; simp at hy
        | some sb =>
          rw [hqa] at hx
          rw [hqb] at hy
          simp at hx hy
          subst hx; subst hy
          simp only
          rintro rfl
          exact hab ((back a ha sa hqa).1.trans (back b hb sa hqb).1.symm)

/-! Sorting. -/

theorem mem_insertPart (p q : UInt16 × Bytes) (ps : List (UInt16 × Bytes)) : q ∈ insertPart p ps ↔ q = p ∨ q ∈ ps := by
  induction ps with
  | nil => simp [insertPart]
  | cons x ps ih =>
    unfold insertPart
    split
    · simp
    · simp only [List.mem_cons, ih]
      constructor
      · rintro (h | h | h)
        · exact .inr (.inl h)
        · exact .inl h
        · exact .inr (.inr h)
      · rintro (h | h | h)
        · exact .inr (.inl h)
        · exact .inl h
        · exact .inr (.inr h)

theorem mem_sortParts (q : UInt16 × Bytes) (ps : List (UInt16 × Bytes)) : q ∈ sortParts ps ↔ q ∈ ps := by
  induction ps with
  | nil => simp [sortParts]
  | cons x ps ih =>
    rw [show sortParts (x :: ps) = insertPart x (sortParts ps) from rfl, mem_insertPart, ih, List.mem_cons]

theorem sorted_insertPart (p : UInt16 × Bytes) (ps : List (UInt16 × Bytes)) (h : ps.Pairwise fun a b => a.1 < b.1) (hp : ∀ q ∈ ps, p.1 ≠ q.1) :
    (insertPart p ps).Pairwise fun a b => a.1 < b.1 := by
  induction ps with
  | nil => simp [insertPart]
  | cons x ps ih =>
    rw [List.pairwise_cons] at h
    have hpx := hp x (by simp)
    have hne : p.1.toNat ≠ x.1.toNat := fun hh => hpx (UInt16.toNat_inj.1 hh)
    unfold insertPart
    split
    · rename_i hle
      have hle' := UInt16.le_iff_toNat_le.1 hle
      rw [List.pairwise_cons]
      refine ⟨?_, List.pairwise_cons.2 h⟩
      intro q hq
      rw [UInt16.lt_iff_toNat_lt]
      rcases List.mem_cons.1 hq with rfl | hq
      · omega
      · have := UInt16.lt_iff_toNat_lt.1 (h.1 q hq)
        omega
    · rename_i hle
      have hle' : ¬ p.1.toNat ≤ x.1.toNat := fun hh => hle (UInt16.le_iff_toNat_le.2 hh)
      rw [List.pairwise_cons]
      refine ⟨?_, ih h.2 fun q hq => hp q (by simp [hq])⟩
      intro q hq
      rcases (mem_insertPart p q ps).1 hq with rfl | hq
      · rw [UInt16.lt_iff_toNat_lt]; omega
      · exact h.1 q hq

theorem sorted_sortParts (ps : List (UInt16 × Bytes)) (h : ps.Pairwise fun a b => a.1 ≠ b.1) : (sortParts ps).Pairwise fun a b => a.1 < b.1 := by
  induction ps with
  | nil => simp [sortParts]
  | cons x ps ih =>
    rw [List.pairwise_cons] at h
    rw [show sortParts (x :: ps) = insertPart x (sortParts ps) from rfl]
    exact sorted_insertPart x _ (ih h.2) fun q hq => h.1 q ((mem_sortParts q ps).1 hq)

theorem joined_succ (f : UInt16 → Option Bytes) (lo n : Nat) : joined f lo (n + 1) = (f (UInt16.ofNat lo)).getD [] ++ joined f (lo + 1) n := by
  unfold joined
  rw [List.range'_succ, List.flatMap_cons]

theorem joined_add (f : UInt16 → Option Bytes) (lo a b : Nat) : joined f lo (a + b) = joined f lo a ++ joined f (lo + a) b := by
  induction a generalizing lo with
  | zero => simp [joined]
  | succ a ih =>
    rw [show a + 1 + b = (a + b) + 1 by omega, joined_succ, joined_succ, ih, List.append_assoc, show lo + 1 + a = lo + (a + 1) by omega]

theorem joined_none (f : UInt16 → Option Bytes) (lo n : Nat) (h : ∀ i, lo ≤ i → i < lo + n → f (UInt16.ofNat i) = none) : joined f lo n = [] := by
  induction n generalizing lo with
  | zero => simp [joined]
  | succ n ih =>
    rw [joined_succ, h lo (by omega) (by omega), ih (lo + 1) fun i h1 h2 => h i (by omega) (by omega)]
    rfl

theorem sorted_join (f : UInt16 → Option Bytes) (n lo : Nat) (ps : List (UInt16 × Bytes)) (hlo : lo + n ≤ 65536)
    (hs : ps.Pairwise fun a b => a.1 < b.1) (hlow : ∀ p ∈ ps, lo ≤ p.1.toNat ∧ p.1.toNat < lo + n)
    (hf : ∀ s : UInt16, lo ≤ s.toNat → s.toNat < lo + n → ∀ c, (s, c) ∈ ps ↔ f s = some c) :
    ps.flatMap (·.2) = joined f lo n := by
  induction n generalizing lo ps with
  | zero =>
    cases ps with
    | nil => rfl
    | cons p ps => have := hlow p (by simp); omega
  | succ n ih =>
    rw [joined_succ]
    have hlt : (UInt16.ofNat lo).toNat = lo := by
      rw [UInt16.toNat_ofNat_of_lt']; simp only [UInt16.size]; omega
    cases hv : f (UInt16.ofNat lo) with
    | none =>
      simp only [Option.getD_none, List.nil_append]
      apply ih (lo + 1) ps (by omega) hs
      · intro p hp
        have h1 := hlow p hp
        refine ⟨?_, by omega⟩
        apply Classical.byContradiction
        intro hx
        have hpe : p.1 = UInt16.ofNat lo := UInt16.toNat_inj.1 (by rw [hlt]; omega)
        have := (hf p.1 h1.1 h1.2 p.2).1 hp
        rw [hpe, hv] at this
        simp at this
      · intro s h1 h2 c
        exact hf s (by omega) (by omega) c
    | some c =>
      have hmem := (hf (UInt16.ofNat lo) (by omega) (by omega) c).2 hv
      cases ps with
      | nil => simp at hmem
      | cons p ps =>
        rw [List.pairwise_cons] at hs
        have hp : p = (UInt16.ofNat lo, c) := by
          rcases List.mem_cons.1 hmem with h1 | h1
          · exact h1.symm
          · have h2 := UInt16.lt_iff_toNat_lt.1 (hs.1 _ h1)
            have h3 := hlow p (by simp)
            simp only [hlt] at h2
            omega
        subst hp
        simp only [List.flatMap_cons, Option.getD_some]
        congr 1
        apply ih (lo + 1) ps (by omega) hs.2
        · intro q hq
          have h2 := UInt16.lt_iff_toNat_lt.1 (hs.1 _ hq)
          have h3 := hlow q (by simp [hq])
          simp only [hlt] at h2
          omega
        · intro s h1 h2 x
          rw [← hf s (by omega) (by omega) x, List.mem_cons]
          constructor
          · exact .inr
          · rintro (h3 | h3)
            · simp only [Prod.mk.injEq] at h3
              rw [h3.1, hlt] at h1
              omega
            · exact h3

theorem merged_content {h : List FileOp} {fs : FS} (hs : Stored h fs) (u : Upload) (n : UInt16) (ps : List (UInt16 × Bytes))
    (hw : (u.multipart n).walkParts fs = .ok ps) : (sortParts ps).flatMap (·.2) = joined (fun s => latestIn u s h) 0 65536 := by
  obtain ⟨h1, h2⟩ := walk_spec hs u n ps hw
  apply sorted_join _ _ _ _ (by omega) (sorted_sortParts ps h2)
  · intro p _
    have := p.1.toNat_lt
    omega
  · intro s _ _ c
    rw [mem_sortParts]
    exact h1 s c

theorem walk_ok (u : Upload) (n : UInt16) (fs : FS) (h : fs u.icc ≠ none) : ∃ ps, (u.multipart n).walkParts fs = .ok ps := by
  unfold Multipart.walkParts
  cases hf : fs (u.multipart n).icc with
  | none => exact absurd hf h
  | some d => exact ⟨_, rfl⟩

theorem isFull_spec {h : List FileOp} {fs : FS} (hs : Stored h fs) (u : Upload) (n : UInt16) (hd : fs u.icc ≠ none) :
    ∃ b, (u.multipart n).isFull fs = .ok b ∧ (b = true ↔ ∀ i : UInt16, 1 ≤ i.toNat → i.toNat ≤ n.toNat → (latestIn u i h).isSome) := by
  obtain ⟨ps, hw⟩ := walk_ok u n fs hd
  obtain ⟨h1, _⟩ := walk_spec hs u n ps hw
  refine ⟨_, by unfold Multipart.isFull; rw [hw]; rfl, ?_⟩
  rw [List.all_eq_true]
  constructor
  · intro ha i hi1 hi2
    have := ha (i.toNat - 1) (by simp [Upload.multipart]; omega)
    rw [List.any_eq_true] at this
    obtain ⟨⟨s, c⟩, hp, he⟩ := this
    simp only [decide_eq_true_eq] at he
    rw [show i.toNat - 1 + 1 = i.toNat by omega, UInt16.ofNat_toNat] at he
    subst he
    rw [(h1 s c).1 hp]
    rfl
  · intro ha i hi
    have hi : i < n.toNat := by simpa [Upload.multipart] using hi
    have hn := n.toNat_lt
    have hlt : (UInt16.ofNat (i + 1)).toNat = i + 1 := by rw [UInt16.toNat_ofNat_of_lt']; simp only [UInt16.size]; omega
    have := ha (UInt16.ofNat (i + 1)) (by omega) (by omega)
    obtain ⟨c, hc⟩ := Option.isSome_iff_exists.1 this
    rw [List.any_eq_true]
    exact ⟨(UInt16.ofNat (i + 1), c), (h1 _ c).2 hc, by simp⟩

end Spec
end Verif

namespace Verif.Spec

open Multipart

/-- The merged files are what the history says. -/
def Fulls (h : List FileOp) (fs : FS) : Prop := ∀ u : Upload, ((fs u.icc).getD []).get (u.multipart 0).fullName = mergedIn u h

theorem get_full_put (d : Dir) (u v : Upload) (c : Bytes) (hi : v.icc = u.icc) :
    (d.put (u.multipart 0).fullName c).get (v.multipart 0).fullName = if u = v then some c else d.get (v.multipart 0).fullName := by
  rw [Dir.get_put]
  by_cases h : u = v
  · subst h; simp
  · rw [if_neg h, if_neg]
    intro hx
    obtain ⟨h1, h2⟩ := fullName_inj hx
    exact h (upload_ext hi.symm h1.symm h2.symm)

theorem fulls_write {h : List FileOp} {fs : FS} (hf : Fulls h fs) (u : Upload) (n seq : UInt16) (data : Bytes) (o : Outcome) :
    Fulls (.write u seq data o :: h) ((u.multipart n).write o seq data fs).1 := by
  have main : ∀ (d : Dir), (∀ v : Upload, v.icc = u.icc → d.get (v.multipart 0).fullName = ((fs u.icc).getD []).get (v.multipart 0).fullName) →
      Fulls (.write u seq data o :: h) (fs.set u.icc d) := by
    intro d hd v
    rw [mergedIn, ← hf v]
    unfold FS.set
    by_cases hv : v.icc = u.icc
    · rw [if_pos hv, hv]; exact hd v hv
    · rw [if_neg hv]
  have put : ∀ (c : Bytes) (v : Upload), (((fs u.icc).getD []).put ((u.multipart n).partName seq) c).get (v.multipart 0).fullName =
      ((fs u.icc).getD []).get (v.multipart 0).fullName := by
    intro c v
    rw [Dir.get_put, if_neg]
    exact fun hx => partName_ne_fullName _ _ _ hx.symm
  cases o with
  | ok => exact main _ fun v _ => put data v
  | noDir => exact fun v => hf v
  | noFile => exact main _ fun v _ => rfl
  | torn k => exact main _ fun v _ => put (data.take k) v

/-- `Merge` writes the contents of the upload's parts over its merged file. -/
theorem merge_spec {h : List FileOp} {fs : FS} (hs : Stored h fs) (hf : Fulls h fs) (u : Upload) (n : UInt16) (o : Outcome) (hd : fs u.icc ≠ none) :
    ∃ fs', (u.multipart n).merge o fs = .ok (fs', if o = .ok then mergedIn u (.merge u o :: h) else none) ∧ Fulls (.merge u o :: h) fs' := by
  obtain ⟨ps, hw⟩ := walk_ok u n fs hd
  have hc := merged_content hs u n ps hw
  have hu := hf u
  have skip : (leaves (joined (fun s => latestIn u s h) 0 65536) o) = none → Fulls (.merge u o :: h) fs := by
    intro hl v
    rw [mergedIn]
    split
    · rename_i heq; subst heq; rw [hl]; exact hf u
    · exact hf v
  have put : ∀ new, leaves (joined (fun s => latestIn u s h) 0 65536) o = some new →
      Fulls (.merge u o :: h) (fs.set u.icc (((fs u.icc).getD []).put (u.multipart 0).fullName (new ++ ((mergedIn u h).getD []).drop new.length))) := by
    intro new hl v
    rw [mergedIn]
    unfold FS.set
    by_cases hv : v.icc = u.icc
    · rw [if_pos hv, Option.getD_some, get_full_put _ _ _ _ hv]
      split
      · rename_i heq; subst heq; rw [hl]; rfl
      · rw [← hf v, hv]
    · rw [if_neg hv, hf v, if_neg]
      rintro rfl; exact hv rfl
  unfold Multipart.merge
  rw [hw]
  simp only [Res.ok_bind, hc, overwrite]
  have hfull : (((fs (u.multipart n).icc).getD []).get (u.multipart n).fullName) = mergedIn u h := hu
  rw [hfull]
  cases o with
  | ok =>
    refine ⟨_, ?_, put _ rfl⟩
    simp only [if_true]
    rw [mergedIn, if_pos rfl]
    rfl
  | torn k => exact ⟨_, rfl, put _ rfl⟩
  | noDir => exact ⟨_, rfl, skip rfl⟩
  | noFile => exact ⟨_, rfl, skip rfl⟩

theorem merge_dir {u : Upload} {n : UInt16} {o : Outcome} {fs fs' : FS} {r : Option Bytes} (h : (u.multipart n).merge o fs = .ok (fs', r)) (x : UInt64) :
    (fs' x ≠ none ↔ fs x ≠ none) ∧ fs u.icc ≠ none := by
  unfold Multipart.merge at h
  have hd : fs u.icc ≠ none := by
    intro hn
    have : (u.multipart n).walkParts fs = .panic := by unfold Multipart.walkParts; rw [show fs (u.multipart n).icc = none from hn]
    rw [this] at h
    simp at h
  obtain ⟨ps, hw⟩ := walk_ok u n fs hd
  rw [hw] at h
  simp only [Res.ok_bind] at h
  refine ⟨?_, hd⟩
  have set : ∀ d, (fs.set u.icc d) x ≠ none ↔ fs x ≠ none := by
    intro d
    unfold FS.set
    split
    · rename_i hx; subst hx; simp [hd]
    · rfl
  cases o with
  | ok => simp only [Res.ok.injEq, Prod.mk.injEq] at h; rw [← h.1]; exact set _
  | torn k => simp only [Res.ok.injEq, Prod.mk.injEq] at h; rw [← h.1]; exact set _
  | noDir => simp only [Res.ok.injEq, Prod.mk.injEq] at h; rw [← h.1]
  | noFile => simp only [Res.ok.injEq, Prod.mk.injEq] at h; rw [← h.1]

theorem write_dir (u : Upload) (n seq : UInt16) (data : Bytes) (o : Outcome) (fs : FS) (x : UInt64) :
    ((u.multipart n).write o seq data fs).1 x ≠ none ↔ fs x ≠ none ∨ (u.icc = x ∧ o ≠ .noDir) := by
  have set : ∀ d, (fs.set u.icc d) x ≠ none ↔ fs x ≠ none ∨ u.icc = x := by
    intro d
    unfold FS.set
    split
    · rename_i hx; simp [hx]
    · rename_i hx; simp [Ne.symm hx]
  cases o with
  | ok => exact (set _).trans (by simp)
  | noDir => simp [Multipart.write]
  | noFile => exact (set _).trans (by simp)
  | torn k => exact (set _).trans (by simp)

/-- Everything about the storage after a history. -/
structure After (h : List FileOp) (fs : FS) : Prop where
  stored : Stored h fs
  fulls : Fulls h fs
  dirs : ∀ icc, fs icc ≠ none ↔ hasDir h icc

theorem hasDir_write (h : List FileOp) (u : Upload) (s : UInt16) (d : Bytes) (o : Outcome) (icc : UInt64) :
    hasDir (.write u s d o :: h) icc ↔ hasDir h icc ∨ (u.icc = icc ∧ o ≠ .noDir) := by
  unfold hasDir
  constructor
  · rintro ⟨op, hm, h1, u', s', d', o', h2, h3⟩
    rcases List.mem_cons.1 hm with h4 | hm
    · rw [h4] at h1 h2
      simp only [FileOp.write.injEq] at h2
      right
      refine ⟨h1, ?_⟩
      rw [h2.2.2.2]; exact h3
    · exact .inl ⟨op, hm, h1, u', s', d', o', h2, h3⟩
  · rintro (⟨op, hm, h1⟩ | ⟨h1, h2⟩)
    · exact ⟨op, by simp [hm], h1⟩
    · exact ⟨_, List.mem_cons_self, h1, u, s, d, o, rfl, h2⟩

theorem hasDir_merge (h : List FileOp) (u : Upload) (o : Outcome) (icc : UInt64) : hasDir (.merge u o :: h) icc ↔ hasDir h icc := by
  unfold hasDir
  constructor
  · rintro ⟨op, hm, h1, u', s', d', o', h2, h3⟩
    rcases List.mem_cons.1 hm with h4 | hm
    · rw [h4] at h2; simp at h2
    · exact ⟨op, hm, h1, u', s', d', o', h2, h3⟩
  · rintro ⟨op, hm, h1⟩
    exact ⟨op, by simp [hm], h1⟩

theorem after_empty : After [] empty := ⟨stored_empty, fun _ => rfl, fun icc => by simp [empty, hasDir]⟩

theorem after_write {h : List FileOp} {fs : FS} (ha : After h fs) (u : Upload) (n seq : UInt16) (data : Bytes) (o : Outcome) :
    After (.write u seq data o :: h) ((u.multipart n).write o seq data fs).1 :=
  ⟨stored_write ha.stored u n seq data o, fulls_write ha.fulls u n seq data o, fun icc => by
    rw [write_dir, ha.dirs, hasDir_write]⟩

theorem after_merge {h : List FileOp} {fs : FS} (ha : After h fs) (u : Upload) (n : UInt16) (o : Outcome) (hd : hasDir h u.icc) :
    ∃ fs', (u.multipart n).merge o fs = .ok (fs', if o = .ok then mergedIn u (.merge u o :: h) else none) ∧ After (.merge u o :: h) fs' := by
  obtain ⟨fs', h1, h2⟩ := merge_spec ha.stored ha.fulls u n o ((ha.dirs u.icc).2 hd)
  refine ⟨fs', h1, stored_merge ha.stored u n o h1, h2, fun icc => ?_⟩
  rw [(merge_dir h1 icc).1, ha.dirs, hasDir_merge]

theorem storage_after (ops : List FileOp) (h : List FileOp) (fs fs' : FS) (ha : After h fs) (hr : storage ops fs = .ok fs') : After (ops.reverse ++ h) fs' := by
  induction ops generalizing h fs with
  | nil => simp [storage] at hr; rw [← hr]; exact ha
  | cons op ops ih =>
    rw [List.reverse_cons, List.append_assoc]
    cases op with
    | write u seq data o => exact ih _ _ (after_write ha u 0 seq data o) hr
    | merge u o =>
      rw [storage] at hr
      cases hm : (u.multipart 0).merge o fs with
      | panic => rw [hm] at hr; simp at hr
      | err e => rw [hm] at hr; simp at hr
      | ok r =>
        obtain ⟨fs1, x⟩ := r
        rw [hm] at hr
        simp only [Res.ok_bind] at hr
        have hd := (ha.dirs u.icc).1 (merge_dir hm u.icc).2
        obtain ⟨fs2, h1, h2⟩ := after_merge ha u 0 o hd
        rw [hm] at h1
        simp only [Res.ok.injEq, Prod.mk.injEq] at h1
        rw [h1.1] at hr
        exact ih _ _ h2 hr

theorem storage_empty (ops : List FileOp) (fs : FS) (hr : storage ops empty = .ok fs) : After ops.reverse fs := by
  have := storage_after ops [] empty fs after_empty hr
  simpa using this

theorem hasDir_reverse (ops : List FileOp) (icc : UInt64) : hasDir ops.reverse icc ↔ hasDir ops icc := by
  unfold hasDir; simp

theorem latestIn_mem {h : List FileOp} {u : Upload} {s : UInt16} {c : Bytes} (hc : latestIn u s h = some c) :
    ∃ d o, .write u s d o ∈ h ∧ leaves d o = some c := by
  induction h with
  | nil => simp [latestIn] at hc
  | cons op h ih =>
    cases op with
    | merge u' o =>
      obtain ⟨d, o', h1, h2⟩ := ih hc
      exact ⟨d, o', by simp [h1], h2⟩
    | write u' s' d o =>
      rw [latestIn] at hc
      split at hc
      · rename_i heq
        obtain ⟨rfl, rfl⟩ := heq
        cases hl : leaves d o with
        | none =>
          rw [hl] at hc
          simp at hc
          obtain ⟨d', o', h1, h2⟩ := ih hc
          exact ⟨d', o', by simp [h1], h2⟩
        | some x =>
          rw [hl] at hc
          simp at hc
          exact ⟨d, o, by simp, by rw [hl, hc]⟩
      · obtain ⟨d', o', h1, h2⟩ := ih hc
        exact ⟨d', o', by simp [h1], h2⟩

theorem latestIn_of_mem {h : List FileOp} {u : Upload} {s : UInt16} {d : Bytes} {o : Outcome} (hm : .write u s d o ∈ h) (ho : (leaves d o).isSome) :
    (latestIn u s h).isSome := by
  induction h with
  | nil => simp at hm
  | cons op h ih =>
    cases op with
    | merge u' o' =>
      rw [latestIn]
      exact ih (by simpa using hm)
    | write u' s' d' o' =>
      rw [latestIn]
      rcases List.mem_cons.1 hm with heq | hm
      · simp only [FileOp.write.injEq] at heq
        obtain ⟨rfl, rfl, rfl, rfl⟩ := heq
        rw [if_pos ⟨rfl, rfl⟩]
        obtain ⟨x, hx⟩ := Option.isSome_iff_exists.1 ho
        rw [hx]; rfl
      · split
        · cases leaves d' o' with
          | none => exact ih hm
          | some x => rfl
        · exact ih hm

theorem mergedIn_none {h : List FileOp} {u : Upload} (hm : ∀ o, FileOp.merge u o ∉ h) : mergedIn u h = none := by
  induction h with
  | nil => rfl
  | cons op h ih =>
    cases op with
    | write u' s d o => exact ih fun o hx => hm o (by simp [hx])
    | merge u' o =>
      rw [mergedIn, if_neg (by rintro rfl; exact hm o (by simp))]
      exact ih fun o hx => hm o (by simp [hx])

theorem joined_trim (f : UInt16 → Option Bytes) (n : UInt16) (h : ∀ s c, f s = some c → 1 ≤ s.toNat ∧ s.toNat ≤ n.toNat) :
    joined f 0 65536 = joined f 1 n.toNat := by
  have hn := n.toNat_lt
  have none' : ∀ i, i < 65536 → (i < 1 ∨ n.toNat < i) → f (UInt16.ofNat i) = none := by
    intro i hi hr
    cases hf : f (UInt16.ofNat i) with
    | none => rfl
    | some c =>
      have := h _ c hf
      rw [UInt16.toNat_ofNat_of_lt' (by simp only [UInt16.size]; omega)] at this
      omega
  rw [show (65536 : Nat) = 1 + (n.toNat + (65535 - n.toNat)) by omega, joined_add, joined_add,
    joined_none f 0 1 (fun i h1 h2 => none' i (by omega) (by omega)),
    joined_none f (0 + 1 + n.toNat) _ (fun i h1 h2 => none' i (by omega) (by omega))]
  simp

theorem latestIn_own (u : Upload) (s : UInt16) (h : List FileOp) : latestIn u s h = latestIn u s (h.filter fun op => op.upload = u) := by
  induction h with
  | nil => rfl
  | cons op h ih =>
    by_cases hu : op.upload = u
    · rw [List.filter_cons_of_pos (by simpa using hu)]
      cases op with
      | merge u' o => exact ih
      | write u' s' d o => rw [latestIn, latestIn, ih]
    · rw [List.filter_cons_of_neg (by simpa using hu), ← ih]
      cases op with
      | merge u' o => rfl
      | write u' s' d o => rw [latestIn, if_neg (fun h => hu h.1)]

theorem mergedIn_own (u : Upload) (h : List FileOp) : mergedIn u h = mergedIn u (h.filter fun op => op.upload = u) := by
  induction h with
  | nil => rfl
  | cons op h ih =>
    by_cases hu : op.upload = u
    · rw [List.filter_cons_of_pos (by simpa using hu)]
      cases op with
      | write u' s' d o => exact ih
      | merge u' o =>
        rw [mergedIn, mergedIn, ih]
        have : (fun s => latestIn u s h) = fun s => latestIn u s (h.filter fun op => op.upload = u) := funext fun s => latestIn_own u s h
        rw [this]
    · rw [List.filter_cons_of_neg (by simpa using hu), ← ih]
      cases op with
      | write u' s' d o => rfl
      | merge u' o => rw [mergedIn, if_neg (show ¬ u' = u from hu)]

theorem latestIn_append (u : Upload) (s : UInt16) (h h' : List FileOp) : latestIn u s (h ++ h') = (latestIn u s h).or (latestIn u s h') := by
  induction h with
  | nil => rfl
  | cons op h ih =>
    cases op with
    | merge u' o => exact ih
    | write u' s' d o =>
      rw [List.cons_append, latestIn, latestIn, ih]
      split
      · cases leaves d o <;> rfl
      · rfl

theorem mergedIn_append (u : Upload) (h h' : List FileOp) (hm : ∀ o, FileOp.merge u o ∉ h) : mergedIn u (h ++ h') = mergedIn u h' := by
  induction h with
  | nil => rfl
  | cons op h ih =>
    cases op with
    | write u' s' d o => exact ih fun o hx => hm o (by simp [hx])
    | merge u' o =>
      rw [List.cons_append, mergedIn, if_neg (by rintro rfl; exact hm o (by simp))]
      exact ih fun o hx => hm o (by simp [hx])

theorem joined_congr {f g : UInt16 → Option Bytes} (k lo : Nat) (h : ∀ i, lo ≤ i → i < lo + k → (f (UInt16.ofNat i)).getD [] = (g (UInt16.ofNat i)).getD []) :
    joined f lo k = joined g lo k := by
  unfold joined
  induction k generalizing lo with
  | zero => rfl
  | succ k ih =>
    rw [List.range'_succ, List.flatMap_cons, List.flatMap_cons, h lo (Nat.le_refl _) (by omega), ih (lo + 1) fun i h1 h2 => h i (by omega) (by omega)]

theorem joined_eq_nil_iff (f : UInt16 → Option Bytes) (lo k : Nat) :
    joined f lo k = [] ↔ ∀ i, lo ≤ i → i < lo + k → (f (UInt16.ofNat i)).getD [] = [] := by
  unfold joined
  rw [List.flatMap_eq_nil_iff]
  constructor
  · intro h i h1 h2
    exact h i (List.mem_range'_1.2 ⟨h1, h2⟩)
  · intro h i hi
    have := List.mem_range'_1.1 hi
    exact h i this.1 this.2

end Verif.Spec
