import Verif.Lemmas.Handler
import Verif.Spec.Isolation
/-! # Other uploads do not matter -/

namespace Verif
open Handler Spec

/-- The name of a merged file, or of a file of an upload that is not ours. -/
def Foreign (own : Upload → Bool) (icc : UInt64) (n : Bytes) : Prop :=
  (∃ f : Multipart, n = f.fullName) ∨ ∃ f : Multipart, f.icc = icc ∧ own ⟨f.icc, f.msgID, f.tag⟩ = false ∧ ∃ s, n = f.partName s

open Classical in
/-- The files that are our parts, or not named by the server. -/
noncomputable def keep (own : Upload → Bool) (icc : UInt64) (d : Dir) : Dir := d.filter fun f => decide (¬ Foreign own icc f.1)

theorem keep_cons (own : Upload → Bool) (icc : UInt64) (f : Bytes × Bytes) (d : Dir) :
    (Foreign own icc f.1 → keep own icc (f :: d) = keep own icc d) ∧ (¬ Foreign own icc f.1 → keep own icc (f :: d) = f :: keep own icc d) := by
  unfold keep
  exact ⟨fun h => List.filter_cons_of_neg (by simpa using h), fun h => List.filter_cons_of_pos (by simpa using h)⟩

theorem keep_put_foreign (own : Upload → Bool) (icc : UInt64) (n c : Bytes) (d : Dir) (h : Foreign own icc n) :
    keep own icc (d.put n c) = keep own icc d := by
  induction d with
  | nil => exact (keep_cons own icc (n, c) []).1 h
  | cons f d ih =>
    unfold Dir.put
    by_cases hf : f.1 = n
    · rw [if_pos hf, (keep_cons own icc (n, c) d).1 h, (keep_cons own icc f d).1 (by rw [hf]; exact h)]
    · rw [if_neg hf]
      by_cases hk : Foreign own icc f.1
      · rw [(keep_cons _ _ _ _).1 hk, (keep_cons _ _ _ _).1 hk, ih]
      · rw [(keep_cons _ _ _ _).2 hk, (keep_cons _ _ _ _).2 hk, ih]

theorem keep_put_own (own : Upload → Bool) (icc : UInt64) (n c : Bytes) (d : Dir) (h : ¬ Foreign own icc n) :
    keep own icc (d.put n c) = (keep own icc d).put n c := by
  induction d with
  | nil => exact (keep_cons own icc (n, c) []).2 h
  | cons f d ih =>
    by_cases hf : f.1 = n
    · have hk : ¬ Foreign own icc f.1 := by rw [hf]; exact h
      rw [(keep_cons _ _ _ d).2 hk]
      unfold Dir.put
      rw [if_pos hf, if_pos hf, (keep_cons own icc (n, c) d).2 h]
    · by_cases hk : Foreign own icc f.1
      · rw [(keep_cons _ _ _ d).1 hk, Dir.put, if_neg hf, (keep_cons _ _ _ _).1 hk, ih]
      · rw [(keep_cons _ _ _ d).2 hk, Dir.put, if_neg hf, (keep_cons _ _ _ _).2 hk, ih, Dir.put, if_neg hf]

/-- Our parts are not lost. -/
theorem walk_keep (own : Upload → Bool) (f : Multipart) (hf : own ⟨f.icc, f.msgID, f.tag⟩ = true) (d : Dir) :
    (keep own f.icc d).filterMap (fun x => (f.partSeq x.1).map fun s => (s, x.2)) = d.filterMap fun x => (f.partSeq x.1).map fun s => (s, x.2) := by
  induction d with
  | nil => rfl
  | cons x d ih =>
    by_cases hk : Foreign own f.icc x.1
    · have : f.partSeq x.1 = none := by
        rcases hk with ⟨g, hg⟩ | ⟨g, h1, h2, s, hg⟩
        · rw [hg]; exact Multipart.partSeq_fullName f g
        · rw [hg, Multipart.partSeq_partName, if_neg]
          rintro ⟨e1, e2⟩
          rw [h1, ← e1, ← e2, hf] at h2
          cases h2
      rw [(keep_cons _ _ _ _).1 hk, List.filterMap_cons_none (by rw [this]; rfl), ih]
    · rw [(keep_cons _ _ _ _).2 hk, List.filterMap_cons, List.filterMap_cons, ih]

theorem not_foreign_part (own : Upload → Bool) (f : Multipart) (hf : own ⟨f.icc, f.msgID, f.tag⟩ = true) (s : UInt16) :
    ¬ Foreign own f.icc (f.partName s) := by
  rintro (⟨g, hg⟩ | ⟨g, h1, h2, s', hg⟩)
  · exact Multipart.partName_ne_fullName _ _ _ hg
  · obtain ⟨e1, e2, -⟩ := Multipart.partName_inj hg
    rw [h1, ← e1, ← e2, hf] at h2
    cases h2

/-- The content of the merged file of an upload, empty if there is none. -/
def fullOf (fs : FS) (f : Multipart) : Bytes := (((fs f.icc).getD []).get f.fullName).getD []

/-- The two file systems agree on our uploads; the first may have more directories. -/
structure SameFiles (own : Upload → Bool) (fs fs' : FS) : Prop where
  parts : ∀ icc, keep own icc ((fs icc).getD []) = keep own icc ((fs' icc).getD [])
  fulls : ∀ f : Multipart, own ⟨f.icc, f.msgID, f.tag⟩ = true → fullOf fs f = fullOf fs' f
  dirs : ∀ icc, fs' icc ≠ none → fs icc ≠ none

theorem getD_set (fs : FS) (icc x : UInt64) (d : Dir) : ((fs.set icc d) x).getD [] = if x = icc then d else (fs x).getD [] := by
  unfold FS.set
  by_cases h : x = icc
  · rw [if_pos h, if_pos h]; rfl
  · rw [if_neg h, if_neg h]

theorem set_ne_none (fs : FS) (icc x : UInt64) (d : Dir) : (fs.set icc d) x ≠ none ↔ x = icc ∨ fs x ≠ none := by
  unfold FS.set
  by_cases h : x = icc <;> simp [h]

theorem fullOf_put_part (fs : FS) (f g : Multipart) (s : UInt16) (c : Bytes) :
    fullOf (fs.set g.icc (((fs g.icc).getD []).put (g.partName s) c)) f = fullOf fs f := by
  unfold fullOf
  rw [getD_set]
  by_cases h : f.icc = g.icc
  · rw [if_pos h, Dir.get_put, if_neg (fun hx => Multipart.partName_ne_fullName _ _ _ hx.symm), h]
  · rw [if_neg h]

theorem fullOf_same (fs : FS) (f : Multipart) (icc : UInt64) : fullOf (fs.set icc ((fs icc).getD [])) f = fullOf fs f := by
  unfold fullOf
  rw [getD_set]
  by_cases h : f.icc = icc
  · rw [if_pos h, h]
  · rw [if_neg h]

/-- Storing one of our parts. -/
theorem SameFiles.write {own : Upload → Bool} {fs fs' : FS} (h : SameFiles own fs fs') (f : Multipart) (hf : own ⟨f.icc, f.msgID, f.tag⟩ = true)
    (o : Outcome) (seq : UInt16) (data : Bytes) :
    SameFiles own (f.write o seq data fs).1 (f.write o seq data fs').1 ∧ (f.write o seq data fs).2 = (f.write o seq data fs').2 := by
  have put : ∀ c, SameFiles own (fs.set f.icc (((fs f.icc).getD []).put (f.partName seq) c)) (fs'.set f.icc (((fs' f.icc).getD []).put (f.partName seq) c)) := by
    intro c
    refine ⟨?_, ?_, ?_⟩
    · intro icc
      rw [getD_set, getD_set]
      by_cases hi : icc = f.icc
      · subst hi
        rw [if_pos rfl, if_pos rfl, keep_put_own _ _ _ _ _ (not_foreign_part own f hf seq), keep_put_own _ _ _ _ _ (not_foreign_part own f hf seq), h.parts]
      · rw [if_neg hi, if_neg hi, h.parts]
    · intro g hg
      rw [fullOf_put_part, fullOf_put_part, h.fulls g hg]
    · intro icc
      rw [set_ne_none, set_ne_none]
      exact Or.imp_right (h.dirs icc)
  cases o with
  | ok => exact ⟨put data, rfl⟩
  | torn n => exact ⟨put (data.take n), rfl⟩
  | noDir => exact ⟨h, rfl⟩
  | noFile =>
    refine ⟨⟨?_, ?_, ?_⟩, rfl⟩
    · intro icc
      show keep own icc (((fs.set f.icc _) icc).getD []) = keep own icc (((fs'.set f.icc _) icc).getD [])
      rw [getD_set, getD_set]
      by_cases hi : icc = f.icc
      · subst hi
        rw [if_pos rfl, if_pos rfl, h.parts]
      · rw [if_neg hi, if_neg hi, h.parts]
    · intro g hg
      show fullOf (fs.set f.icc _) g = fullOf (fs'.set f.icc _) g
      rw [fullOf_same, fullOf_same, h.fulls g hg]
    · intro icc
      show (fs'.set f.icc _) icc ≠ none → (fs.set f.icc _) icc ≠ none
      rw [set_ne_none, set_ne_none]
      exact Or.imp_right (h.dirs icc)

/-- Storing a part of another upload. -/
theorem SameFiles.write_foreign {own : Upload → Bool} {fs fs' : FS} (h : SameFiles own fs fs') (f : Multipart)
    (hf : own ⟨f.icc, f.msgID, f.tag⟩ = false) (o : Outcome) (seq : UInt16) (data : Bytes) : SameFiles own (f.write o seq data fs).1 fs' := by
  have put : ∀ c, SameFiles own (fs.set f.icc (((fs f.icc).getD []).put (f.partName seq) c)) fs' := by
    intro c
    refine ⟨?_, ?_, ?_⟩
    · intro icc
      rw [getD_set]
      by_cases hi : icc = f.icc
      · subst hi
        rw [if_pos rfl, keep_put_foreign _ _ _ _ _ (.inr ⟨f, rfl, hf, seq, rfl⟩), h.parts]
      · rw [if_neg hi, h.parts]
    · intro g hg
      rw [fullOf_put_part, h.fulls g hg]
    · intro icc hi
      rw [set_ne_none]
      exact .inr (h.dirs icc hi)
  cases o with
  | ok => exact put data
  | torn n => exact put (data.take n)
  | noDir => exact h
  | noFile =>
    refine ⟨?_, ?_, ?_⟩
    · intro icc
      show keep own icc (((fs.set f.icc _) icc).getD []) = _
      rw [getD_set]
      by_cases hi : icc = f.icc
      · subst hi
        rw [if_pos rfl, h.parts]
      · rw [if_neg hi, h.parts]
    · intro g hg
      show fullOf (fs.set f.icc _) g = _
      rw [fullOf_same, h.fulls g hg]
    · intro icc hi
      show (fs.set f.icc _) icc ≠ none
      rw [set_ne_none]
      exact .inr (h.dirs icc hi)

theorem walkParts_same {own : Upload → Bool} {fs fs' : FS} (h : SameFiles own fs fs') (f : Multipart) (hf : own ⟨f.icc, f.msgID, f.tag⟩ = true)
    (hd : fs' f.icc ≠ none) : ∃ ps, f.walkParts fs = .ok ps ∧ f.walkParts fs' = .ok ps := by
  have hd1 := h.dirs _ hd
  have hp := h.parts f.icc
  unfold Multipart.walkParts
  cases h1 : fs f.icc with
  | none => exact absurd h1 hd1
  | some d =>
    cases h2 : fs' f.icc with
    | none => exact absurd h2 hd
    | some d' =>
      rw [h1, h2] at hp
      refine ⟨_, rfl, ?_⟩
      simp only [Res.ok.injEq]
      rw [← walk_keep own f hf d', ← walk_keep own f hf d]
      simp only [Option.getD_some] at hp
      rw [hp]

theorem isFull_same {own : Upload → Bool} {fs fs' : FS} (h : SameFiles own fs fs') (f : Multipart) (hf : own ⟨f.icc, f.msgID, f.tag⟩ = true)
    (hd : fs' f.icc ≠ none) : ∃ b, f.isFull fs = .ok b ∧ f.isFull fs' = .ok b := by
  obtain ⟨ps, h1, h2⟩ := walkParts_same h f hf hd
  exact ⟨_, by rw [Multipart.isFull, h1]; rfl, by rw [Multipart.isFull, h2]; rfl⟩

theorem fullOf_put_full (fs : FS) (f g : Multipart) (c : Bytes) :
    fullOf (fs.set g.icc (((fs g.icc).getD []).put g.fullName c)) f =
      if f.icc = g.icc ∧ f.msgID = g.msgID ∧ f.tag = g.tag then c else fullOf fs f := by
  unfold fullOf
  rw [getD_set]
  by_cases h : f.icc = g.icc
  · rw [if_pos h, Dir.get_put]
    by_cases hn : f.fullName = g.fullName
    · rw [if_pos hn, if_pos ⟨h, Multipart.fullName_inj hn⟩]; rfl
    · rw [if_neg hn, if_neg, h]
      rintro ⟨-, e1, e2⟩
      exact hn (by unfold Multipart.fullName; rw [e1, e2])
  · rw [if_neg h, if_neg (fun hx => h hx.1)]

theorem keep_set_full (own : Upload → Bool) (fs : FS) (g : Multipart) (c : Bytes) (icc : UInt64) :
    keep own icc (((fs.set g.icc (((fs g.icc).getD []).put g.fullName c)) icc).getD []) = keep own icc ((fs icc).getD []) := by
  rw [getD_set]
  by_cases hi : icc = g.icc
  · subst hi
    rw [if_pos rfl, keep_put_foreign _ _ _ _ _ (.inl ⟨g, rfl⟩)]
  · rw [if_neg hi]

/-- Merging one of our uploads when both directories exist. -/
theorem SameFiles.merge {own : Upload → Bool} {fs fs' : FS} (h : SameFiles own fs fs') (f : Multipart) (hf : own ⟨f.icc, f.msgID, f.tag⟩ = true)
    (hd : fs' f.icc ≠ none) (o : Outcome) :
    ∃ r r', f.merge o fs = .ok r ∧ f.merge o fs' = .ok r' ∧ r.2 = r'.2 ∧ SameFiles own r.1 r'.1 := by
  obtain ⟨ps, h1, h2⟩ := walkParts_same h f hf hd
  have hfull := h.fulls f hf
  unfold Multipart.merge
  rw [h1, h2]
  have put : ∀ c, SameFiles own (fs.set f.icc (((fs f.icc).getD []).put f.fullName c)) (fs'.set f.icc (((fs' f.icc).getD []).put f.fullName c)) := by
    intro c
    refine ⟨?_, ?_, ?_⟩
    · intro icc
      rw [keep_set_full, keep_set_full, h.parts]
    · intro g hg
      rw [fullOf_put_full, fullOf_put_full, h.fulls g hg]
    · intro icc
      rw [set_ne_none, set_ne_none]
      exact Or.imp_right (h.dirs icc)
  have e : (((fs f.icc).getD []).get f.fullName).getD [] = (((fs' f.icc).getD []).get f.fullName).getD [] := hfull
  cases o with
  | ok =>
    refine ⟨_, _, rfl, rfl, ?_, ?_⟩
    · simp only [e]
    · simp only [e]; exact put _
  | torn n =>
    refine ⟨_, _, rfl, rfl, rfl, ?_⟩
    simp only [e]; exact put _
  | noDir => exact ⟨_, _, rfl, rfl, rfl, h⟩
  | noFile => exact ⟨_, _, rfl, rfl, rfl, h⟩

/-- Merging any upload in the first file system that leaves no trace in ours. -/
theorem SameFiles.merge_left {own : Upload → Bool} {fs fs' : FS} (h : SameFiles own fs fs') (f : Multipart)
    (hf : own ⟨f.icc, f.msgID, f.tag⟩ = false ∨ fs' f.icc = none) (o : Outcome) (r : FS × Option Bytes) (hr : f.merge o fs = .ok r) :
    SameFiles own r.1 fs' := by
  unfold Multipart.merge at hr
  have put : ∀ c, (own ⟨f.icc, f.msgID, f.tag⟩ = false ∨ c = []) → SameFiles own (fs.set f.icc (((fs f.icc).getD []).put f.fullName c)) fs' := by
    intro c hc
    refine ⟨?_, ?_, ?_⟩
    · intro icc
      rw [keep_set_full, h.parts]
    · intro g hg
      rw [fullOf_put_full]
      by_cases hx : g.icc = f.icc ∧ g.msgID = f.msgID ∧ g.tag = f.tag
      · rw [if_pos hx]
        rcases hf with hf | hf
        · rw [hx.1, hx.2.1, hx.2.2, hf] at hg; cases hg
        · rcases hc with hc | hc
          · rw [hx.1, hx.2.1, hx.2.2, hc] at hg; cases hg
          · rw [hc]
            unfold fullOf
            rw [hx.1, hf]
            rfl
      · rw [if_neg hx, h.fulls g hg]
    · intro icc hi
      rw [set_ne_none]
      exact .inr (h.dirs icc hi)
  cases hw : f.walkParts fs with
  | err e => rw [hw] at hr; cases hr
  | panic => rw [hw] at hr; cases hr
  | ok ps =>
    rw [hw] at hr
    have empty : own ⟨f.icc, f.msgID, f.tag⟩ = true → ps = [] ∧ fullOf fs f = [] := by
      intro ho
      have hn : fs' f.icc = none := by
        rcases hf with hf | hf
        · rw [hf] at ho; cases ho
        · exact hf
      refine ⟨?_, by rw [h.fulls f ho, fullOf, hn]; rfl⟩
      have hp := h.parts f.icc
      rw [hn] at hp
      unfold Multipart.walkParts at hw
      cases h1 : fs f.icc with
      | none => rw [h1] at hw; cases hw
      | some d =>
        rw [h1] at hw hp
        simp only [Res.ok.injEq] at hw
        rw [← hw, ← walk_keep own f ho d]
        have hp' : keep own f.icc d = [] := hp
        rw [hp']
        rfl
    have nil : ∀ n : Option Nat, own ⟨f.icc, f.msgID, f.tag⟩ = false ∨
        Multipart.overwrite (fullOf fs f) (match n with
          | none => (Multipart.sortParts ps).flatMap (·.2)
          | some n => ((Multipart.sortParts ps).flatMap (·.2)).take n) = [] := by
      intro n
      cases ho : own ⟨f.icc, f.msgID, f.tag⟩ with
      | false => exact .inl rfl
      | true =>
        obtain ⟨e1, e2⟩ := empty ho
        right
        rw [e1, e2]
        cases n <;> simp [Multipart.sortParts, Multipart.overwrite]
    cases o with
    | ok => cases hr; exact put _ (nil none)
    | torn n => cases hr; exact put _ (nil (some n))
    | noDir => cases hr; exact h
    | noFile => cases hr; exact h

namespace Handler.Loop

/-- The two loops agree on everything that matters to our session. -/
structure Alike (own : Upload → Bool) (s s' : Loop) : Prop where
  files : SameFiles own s.fs s'.fs
  handlers : s.handlers = s'.handlers
  requests : s.requests = s'.requests
  icc : s.icc = s'.icc
  running : s.running = s'.running

/-- The two results agree on everything that matters to our session. -/
def Same (own : Upload → Bool) : Res (Loop × List Act) → Res (Loop × List Act) → Prop
  | .ok r, .ok r' => Alike own r.1 r'.1 ∧ r.2.filter visible = r'.2.filter visible
  | .panic, .panic => True
  | .err e, .err e' => e = e'
  | _, _ => False

theorem Same.bind {own : Upload → Bool} {r r' : Res (Loop × List Act)} {f f' : Loop × List Act → Res (Loop × List Act)} (h : Same own r r')
    (hf : ∀ p p', Alike own p.1 p'.1 → p.2.filter visible = p'.2.filter visible → Same own (f p) (f' p')) : Same own (r >>= f) (r' >>= f') := by
  cases r <;> cases r' <;> first | exact h.elim | exact h | exact hf _ _ h.1 h.2

theorem outside_relevant {own : Upload → Bool} {s s' : Loop} (h : Alike own s s') (x : Outside) (hx : relevant own x = true) :
    Alike own (s.outside x).1 (s'.outside x).1 ∧ (s.outside x).2.filter visible = (s'.outside x).2.filter visible := by
  obtain ⟨h1, h2, h3, h4, h5⟩ := h
  cases x with
  | addHandler id g =>
    cases g with
    | none => exact ⟨⟨h1, h2, h3, h4, h5⟩, rfl⟩
    | some g =>
      refine ⟨⟨h1, ?_, h3, h4, h5⟩, rfl⟩
      show (fun x => if x = id then some g else s.handlers x) = fun x => if x = id then some g else s'.handlers x
      rw [h2]
  | addRequest r =>
    refine ⟨⟨h1, h2, ?_, h4, h5⟩, rfl⟩
    show Session.addRequest r s.requests = Session.addRequest r s'.requests
    rw [h3]
  | write f seq data o => exact ⟨⟨(h1.write f hx o seq data).1, h2, h3, h4, h5⟩, rfl⟩
  | merge f o =>
    by_cases hd : s'.fs f.icc = none
    · have e' : f.merge o s'.fs = .panic := by
        unfold Multipart.merge Multipart.walkParts
        rw [hd]; rfl
      simp only [outside, e']
      cases hm : f.merge o s.fs with
      | ok r => exact ⟨⟨h1.merge_left f (.inr hd) o r hm, h2, h3, h4, h5⟩, rfl⟩
      | err e => exact ⟨⟨h1, h2, h3, h4, h5⟩, rfl⟩
      | panic => exact ⟨⟨h1, h2, h3, h4, h5⟩, rfl⟩
    · obtain ⟨r, r', e1, e2, -, e4⟩ := h1.merge f hx hd o
      simp only [outside, e1, e2]
      exact ⟨⟨e4, h2, h3, h4, h5⟩, trivial⟩

theorem outside_irrelevant {own : Upload → Bool} {s s' : Loop} (h : Alike own s s') (x : Outside) (hx : relevant own x = false) :
    Alike own (s.outside x).1 s' ∧ (s.outside x).2.filter visible = [] := by
  obtain ⟨h1, h2, h3, h4, h5⟩ := h
  cases x with
  | addHandler id g => cases hx
  | addRequest r => cases hx
  | write f seq data o => exact ⟨⟨h1.write_foreign f hx o seq data, h2, h3, h4, h5⟩, rfl⟩
  | merge f o =>
    simp only [outside]
    cases hm : f.merge o s.fs with
    | ok r => exact ⟨⟨h1.merge_left f (.inl hx) o r hm, h2, h3, h4, h5⟩, rfl⟩
    | err e => exact ⟨⟨h1, h2, h3, h4, h5⟩, rfl⟩
    | panic => exact ⟨⟨h1, h2, h3, h4, h5⟩, rfl⟩

theorem outsides_alike {own : Upload → Bool} {s s' : Loop} (h : Alike own s s') (xs : List Outside) :
    Alike own (s.outsides xs).1 (s'.outsides (xs.filter (relevant own))).1 ∧
      (s.outsides xs).2.filter visible = (s'.outsides (xs.filter (relevant own))).2.filter visible := by
  induction xs generalizing s s' with
  | nil => exact ⟨h, rfl⟩
  | cons x xs ih =>
    cases hx : relevant own x with
    | true =>
      rw [List.filter_cons_of_pos hx]
      obtain ⟨a1, a2⟩ := outside_relevant h x hx
      obtain ⟨b1, b2⟩ := ih a1
      refine ⟨b1, ?_⟩
      simp only [outsides, List.filter_append, a2, b2]
    | false =>
      rw [List.filter_cons_of_neg (by simp [hx])]
      obtain ⟨a1, a2⟩ := outside_irrelevant h x hx
      obtain ⟨b1, b2⟩ := ih a1
      refine ⟨b1, ?_⟩
      simp only [outsides, List.filter_append, a2, b2, List.nil_append]

/-- Directories stay. -/
theorem outside_dir (s : Loop) (x : Outside) (icc : UInt64) (h : s.fs icc ≠ none) : (s.outside x).1.fs icc ≠ none := by
  cases x with
  | addHandler id g => cases g <;> exact h
  | addRequest r => exact h
  | write f seq data o => exact (write_dir ⟨f.icc, f.msgID, f.tag⟩ f.sum seq data o s.fs icc).2 (.inl h)
  | merge f o =>
    simp only [outside]
    cases hm : f.merge o s.fs with
    | ok r => exact ((merge_dir (u := ⟨f.icc, f.msgID, f.tag⟩) (n := f.sum) hm icc).1).2 h
    | err e => exact h
    | panic => exact h

theorem outsides_dir (s : Loop) (xs : List Outside) (icc : UInt64) (h : s.fs icc ≠ none) : (s.outsides xs).1.fs icc ≠ none := by
  induction xs generalizing s with
  | nil => exact h
  | cons x xs ih => exact ih _ (outside_dir s x icc h)

theorem message_same {own : Upload → Bool} {s s' : Loop} (h : Alike own s s') (a b : Around) (hc : a.callback = b.callback) (m : Message Entity) :
    Same own (s.message a m) (s'.message b m) := by
  have h' : Alike own (if m.header.iccID > 0 then { s with icc := m.header.iccID } else s)
      (if m.header.iccID > 0 then { s' with icc := m.header.iccID } else s') := by
    by_cases hi : m.header.iccID > 0
    · rw [if_pos hi, if_pos hi]
      exact ⟨h.files, h.handlers, h.requests, rfl, h.running⟩
    · rw [if_neg hi, if_neg hi]
      exact h
  unfold message
  simp only
  generalize (if m.header.iccID > 0 then { s with icc := m.header.iccID } else s) = t at h' ⊢
  generalize (if m.header.iccID > 0 then { s' with icc := m.header.iccID } else s') = t' at h' ⊢
  rw [← hc, ← h'.requests]
  cases Session.replySerial m with
  | err e => rfl
  | panic => trivial
  | ok serial =>
    simp only [bind, Res.bind]
    by_cases h0 : serial = 0
    · rw [if_pos h0, if_pos h0]
      exact ⟨h', rfl⟩
    · rw [if_neg h0, if_neg h0]
      cases Session.takeRequest serial t.requests with
      | none => exact ⟨h', rfl⟩
      | some r =>
        cases a.callback <;> exact ⟨⟨h'.files, h'.handlers, rfl, h'.icc, h'.running⟩, rfl⟩

theorem dispatch_same {own : Upload → Bool} {s s' : Loop} (h : Alike own s s') (a b : Around) (hc : a.handler = b.handler) (m : Message Entity) :
    Same own (s.dispatch a m) (s'.dispatch b m) := by
  unfold dispatch
  rw [← hc, ← h.handlers]
  cases s.handlers m.header.msgID with
  | none => exact ⟨h, rfl⟩
  | some g => cases a.handler <;> exact ⟨h, rfl⟩

/-- `a` without the steps that do not matter. -/
abbrev quiet (own : Upload → Bool) (a : Around) : Around :=
  { a with
    afterWrite := a.afterWrite.filter (relevant own)
    afterCheck := a.afterCheck.filter (relevant own)
    afterMerge := a.afterMerge.filter (relevant own)
    beforeDispatch := a.beforeDispatch.filter (relevant own) }

theorem deliver_same {own : Upload → Bool} {s s' : Loop} (h : Alike own s s') (a : Around) (m : Message Entity) :
    Same own (s.deliver a m) (s'.deliver (quiet own a) m) := by
  unfold deliver
  refine Same.bind (message_same h a (quiet own a) rfl m) ?_
  rintro ⟨t, x⟩ ⟨t', x'⟩ g1 g2
  obtain ⟨k1, k2⟩ := outsides_alike g1 a.beforeDispatch
  refine Same.bind (dispatch_same k1 a (quiet own a) rfl m) ?_
  rintro ⟨u, y⟩ ⟨u', y'⟩ l1 l2
  refine ⟨l1, ?_⟩
  simp only at g2 k2 l2 ⊢
  simp only [List.filter_append, g2, k2, l2]

theorem complete_same {own : Upload → Bool} {s s' : Loop} (h : Alike own s s') (a : Around) (m : Message Entity) (b : T0801) (p : Packet)
    (hu : own ⟨m.header.iccID, m.header.msgID, b.mediaID⟩ = true) (hd : s'.fs m.header.iccID ≠ none) :
    Same own (s.complete a m b p) (s'.complete (quiet own a) m b p) := by
  obtain ⟨r, r', e1, e2, e3, e4⟩ := h.files.merge (partFile m b p) hu hd a.merge
  unfold complete
  simp only [e1, e2, bind, Res.bind, e3]
  have h' : Alike own { s with fs := r.1 } { s' with fs := r'.1 } := ⟨e4, h.handlers, h.requests, h.icc, h.running⟩
  cases r'.2 with
  | none => exact ⟨h', rfl⟩
  | some content =>
    obtain ⟨k1, k2⟩ := outsides_alike h' a.afterMerge
    refine Same.bind (deliver_same k1 a _) ?_
    rintro ⟨u, y⟩ ⟨u', y'⟩ l1 l2
    refine ⟨l1, ?_⟩
    simp only at l2 ⊢
    simp only [List.filter_cons, List.filter_append, k2, l2]

theorem check_same {own : Upload → Bool} {s s' : Loop} (h : Alike own s s') (a : Around) (m : Message Entity) (b : T0801) (p : Packet)
    (hu : own ⟨m.header.iccID, m.header.msgID, b.mediaID⟩ = true) (hd : s'.fs m.header.iccID ≠ none) :
    Same own (s.check a m b p) (s'.check (quiet own a) m b p) := by
  unfold check
  by_cases hs : p.seq ≠ p.sum
  · rw [if_pos hs, if_pos hs]
    exact ⟨h, rfl⟩
  · rw [if_neg hs, if_neg hs]
    obtain ⟨full, e1, e2⟩ := isFull_same h.files (partFile m b p) hu hd
    simp only [e1, e2, bind, Res.bind]
    cases full with
    | false => exact ⟨h, rfl⟩
    | true =>
      obtain ⟨k1, k2⟩ := outsides_alike h a.afterCheck
      refine Same.bind (complete_same k1 a m b p hu (outsides_dir _ _ _ hd)) ?_
      rintro ⟨u, y⟩ ⟨u', y'⟩ l1 l2
      refine ⟨l1, ?_⟩
      simp only at l2 ⊢
      simp only [List.filter_append, k2, l2]

theorem part_same {own : Upload → Bool} {s s' : Loop} (h : Alike own s s') (a : Around) (m : Message Entity) (b : T0801) (p : Packet) (data : Bytes)
    (hu : own ⟨m.header.iccID, m.header.msgID, b.mediaID⟩ = true) : Same own (s.part a m b p data) (s'.part (quiet own a) m b p data) := by
  obtain ⟨e1, e2⟩ := h.files.write (partFile m b p) hu a.write p.seq data
  have h' : Alike own { s with fs := ((partFile m b p).write a.write p.seq data s.fs).1 }
      { s' with fs := ((partFile m b p).write a.write p.seq data s'.fs).1 } := ⟨e1, h.handlers, h.requests, h.icc, h.running⟩
  have hd : ((partFile m b p).write a.write p.seq data s'.fs).2 = true → ((partFile m b p).write a.write p.seq data s'.fs).1 m.header.iccID ≠ none := by
    intro ho
    refine (write_dir ⟨m.header.iccID, m.header.msgID, b.mediaID⟩ p.sum p.seq data a.write s'.fs _).2 (.inr ⟨rfl, ?_⟩)
    intro hn
    rw [hn] at ho
    cases ho
  unfold part
  simp only
  rw [e2]
  generalize ((partFile m b p).write a.write p.seq data s'.fs).2 = ok at hd ⊢
  cases ok with
  | false => exact ⟨h', rfl⟩
  | true =>
    obtain ⟨k1, k2⟩ := outsides_alike h' a.afterWrite
    refine Same.bind (check_same k1 a m b p hu (outsides_dir _ _ _ (hd rfl))) ?_
    rintro ⟨u, y⟩ ⟨u', y'⟩ l1 l2
    refine ⟨l1, ?_⟩
    simp only at l2 ⊢
    simp only [List.filter_append, k2, l2]

theorem process_same {own : Upload → Bool} {s s' : Loop} (h : Alike own s s') (auto : Bool) (a : Around) (m : Message Entity)
    (hu : ∀ u p data, partOf auto m = some (u, p, data) → own u = true) : Same own (s.process auto a m) (s'.process auto (quiet own a) m) := by
  unfold process
  split
  · rename_i e he
    split
    · exact deliver_same h a m
    · rename_i hc
      simp only [Bool.or_eq_true, Bool.not_eq_true', not_or, Bool.not_eq_false] at hc
      split
      · rename_i b
        split
        · rename_i p data hp hb
          refine part_same h a m b p data (hu ⟨m.header.iccID, m.header.msgID, b.mediaID⟩ p data ?_)
          have : isPart auto m = true := by
            unfold isPart
            rw [he, hc.1, ← Property.isEnablePacket_spec, hc.2]
            rfl
          unfold partOf
          rw [if_pos this, he, hp]
          simp [hb]
        · trivial
      · exact deliver_same h a m
  · exact ⟨h, rfl⟩

/-- Without the other uploads the session shows the same. -/
theorem run_same {own : Upload → Bool} {s s' : Loop} (h : Alike own s s') (auto : Bool) (is : List Input) (hu : Uploads auto own is) :
    Same own (s.run auto is) (s'.run auto (withoutOthers own is)) := by
  induction is generalizing s s' with
  | nil => exact ⟨h, rfl⟩
  | cons i is ih =>
    have hu' : Uploads auto own is := fun m a hm => hu m a (List.mem_cons_of_mem _ hm)
    cases i with
    | outside x =>
      cases hx : relevant own x with
      | true =>
        rw [withoutOthers, if_pos hx]
        obtain ⟨a1, a2⟩ := outside_relevant h x hx
        refine Same.bind (own := own) (r := .ok (s.outside x)) (r' := .ok (s'.outside x)) ⟨a1, a2⟩ ?_
        rintro ⟨t, y⟩ ⟨t', y'⟩ g1 g2
        refine Same.bind (ih g1 hu') ?_
        rintro ⟨u, z⟩ ⟨u', z'⟩ l1 l2
        refine ⟨l1, ?_⟩
        simp only at g2 l2 ⊢
        simp only [List.filter_append, g2, l2]
      | false =>
        rw [withoutOthers, if_neg (by simp [hx])]
        obtain ⟨a1, a2⟩ := outside_irrelevant h x hx
        have := ih a1 hu'
        show Same own (do let (t, y) ← (s.outside x).1.run auto is; Res.ok (t, (s.outside x).2 ++ y)) _
        cases hr : (s.outside x).1.run auto is with
        | err e => rw [hr] at this; exact this
        | panic => rw [hr] at this; exact this
        | ok r =>
          rw [hr] at this
          cases hr' : s'.run auto (withoutOthers own is) with
          | err e => rw [hr'] at this; exact this.elim
          | panic => rw [hr'] at this; exact this.elim
          | ok r' =>
            rw [hr'] at this
            refine ⟨this.1, ?_⟩
            simp only [List.filter_append, a2, List.nil_append]
            exact this.2
    | receive r a =>
      rw [withoutOthers]
      have hstep : Same own (s.step auto (.receive r a)) (s'.step auto (.receive r (quiet own a))) := by
        unfold step
        simp only
        rw [h.running]
        cases s'.running with
        | false => exact ⟨h, rfl⟩
        | true =>
          cases r with
          | ok m => exact process_same h auto a m (hu m a (by simp))
          | err e => exact ⟨⟨h.files, h.handlers, h.requests, h.icc, rfl⟩, rfl⟩
          | panic => trivial
      refine Same.bind hstep ?_
      rintro ⟨t, y⟩ ⟨t', y'⟩ g1 g2
      refine Same.bind (ih g1 hu') ?_
      rintro ⟨u, z⟩ ⟨u', z'⟩ l1 l2
      refine ⟨l1, ?_⟩
      simp only at g2 l2 ⊢
      simp only [List.filter_append, g2, l2]

end Handler.Loop

end Verif
