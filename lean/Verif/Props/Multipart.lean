import Verif.Lemmas.Multipart
/-! # Multi-part uploads on disk (C39, C40, C42, C44) -/

namespace Verif

open Spec

/-- C39. Into fresh storage, with any calls for other uploads in between and every part of the upload `u` stored at least once, in any order and
with any retransmissions, all with numbers 1..n: merging returns the latest contents of parts 1..n, in order. -/
theorem C39_merge (ops : List FileOp) (fs : FS) (u : Upload) (n : UInt16) (hr : storage ops empty = .ok fs) (hn : 1 ≤ n.toNat)
    (hin : ∀ s d o, FileOp.write u s d o ∈ ops → 1 ≤ s.toNat ∧ s.toNat ≤ n.toNat ∧ o = .ok)
    (hall : ∀ s : UInt16, 1 ≤ s.toNat → s.toNat ≤ n.toNat → ∃ d, FileOp.write u s d .ok ∈ ops)
    (hnew : ∀ o, FileOp.merge u o ∉ ops) :
    ∃ fs', (u.multipart n).merge .ok fs = .ok (fs', some (joined (latest ops u) 1 n.toNat)) := by
  have ha := storage_empty ops fs hr
  have hd : hasDir ops.reverse u.icc := by
    obtain ⟨d, hm⟩ := hall n hn (Nat.le_refl _)
    exact ⟨_, List.mem_reverse.2 hm, rfl, u, n, d, .ok, rfl, by simp⟩
  obtain ⟨fs', h1, _⟩ := after_merge ha u n .ok hd
  refine ⟨fs', ?_⟩
  rw [h1, if_pos rfl, mergedIn, if_pos rfl, mergedIn_none fun o hx => hnew o (List.mem_reverse.1 hx)]
  have hj : joined (fun s => latestIn u s ops.reverse) 0 65536 = joined (latest ops u) 1 n.toNat := by
    rw [joined_trim _ n]
    · rfl
    · intro s c hc
      obtain ⟨d, o, hm, _⟩ := latestIn_mem hc
      have := hin s d o (List.mem_reverse.1 hm)
      exact ⟨this.1, this.2.1⟩
  rw [hj]
  simp [leaves]

namespace Sample

/-- Two uploads of one terminal and one of another. -/
def upload : Upload := ⟨13812345678, 0x0801, 7⟩
def otherTag : Upload := ⟨13812345678, 0x0801, 70⟩
def otherTerminal : Upload := ⟨13812345679, 0x0801, 7⟩

/-- Parts 2, 1, 3 and again 2 of a three-part upload, between parts of other uploads. -/
def uploadOps : List FileOp :=
  [.write upload 2 [20] .ok, .write otherTag 1 [99] .ok, .write upload 1 [10, 11] .ok, .write upload 3 [30] .ok,
    .write otherTerminal 2 [88] .ok, .write upload 2 [21, 22] .ok, .merge otherTag .ok]

end Sample

/-- The hypotheses of C39 are met by `uploadOps`, and the result is as expected. -/
example : ∃ fs, storage Sample.uploadOps empty = .ok fs ∧ (1 ≤ (3 : UInt16).toNat) ∧
    (∀ s d o, FileOp.write Sample.upload s d o ∈ Sample.uploadOps → 1 ≤ s.toNat ∧ s.toNat ≤ (3 : UInt16).toNat ∧ o = .ok) ∧
    (∀ s : UInt16, 1 ≤ s.toNat → s.toNat ≤ (3 : UInt16).toNat → ∃ d, FileOp.write Sample.upload s d .ok ∈ Sample.uploadOps) ∧
    (∀ o, FileOp.merge Sample.upload o ∉ Sample.uploadOps) ∧
    joined (latest Sample.uploadOps Sample.upload) 1 3 = [10, 11, 21, 22, 30] := by
  refine ⟨_, rfl, by decide, ?_, ?_, ?_, by decide⟩
  · intro s d o h
    simp [Sample.uploadOps, Sample.upload, Sample.otherTag, Sample.otherTerminal] at h
    rcases h with ⟨rfl, _, rfl⟩ | ⟨rfl, _, rfl⟩ | ⟨rfl, _, rfl⟩ | ⟨rfl, _, rfl⟩ <;> decide
  · intro s h1 h2
    have h2 : s.toNat ≤ 3 := h2
    have : s = 1 ∨ s = 2 ∨ s = 3 := by
      have h : s.toNat = 1 ∨ s.toNat = 2 ∨ s.toNat = 3 := by omega
      rcases h with h | h | h
      · exact .inl (UInt16.toNat_inj.1 h)
      · exact .inr (.inl (UInt16.toNat_inj.1 h))
      · exact .inr (.inr (UInt16.toNat_inj.1 h))
    rcases this with rfl | rfl | rfl
    · exact ⟨[10, 11], by simp [Sample.uploadOps]⟩
    · exact ⟨[20], by simp [Sample.uploadOps]⟩
    · exact ⟨[30], by simp [Sample.uploadOps]⟩
  · intro o h
    simp [Sample.uploadOps, Sample.upload, Sample.otherTag] at h

/-- C40. After any history of calls for any uploads, in which no write for `u` broke off, `IsFull` is true exactly when all parts 1..n of `u` were
stored. -/
theorem C40_full_iff_all_stored (ops : List FileOp) (fs : FS) (u : Upload) (n : UInt16) (hr : storage ops empty = .ok fs)
    (hd : hasDir ops u.icc) (hok : ∀ s d k, FileOp.write u s d (.torn k) ∉ ops) :
    ∃ b, (u.multipart n).isFull fs = .ok b ∧
      (b = true ↔ ∀ s : UInt16, 1 ≤ s.toNat → s.toNat ≤ n.toNat → ∃ d, FileOp.write u s d .ok ∈ ops) := by
  have ha := storage_empty ops fs hr
  obtain ⟨b, h1, h2⟩ := isFull_spec ha.stored u n ((ha.dirs u.icc).2 ((hasDir_reverse ops u.icc).2 hd))
  refine ⟨b, h1, h2.trans ⟨?_, ?_⟩⟩
  · intro h s s1 s2
    obtain ⟨c, hc⟩ := Option.isSome_iff_exists.1 (h s s1 s2)
    obtain ⟨d, o, hm, hl⟩ := latestIn_mem hc
    have hm := List.mem_reverse.1 hm
    cases o with
    | ok => exact ⟨d, hm⟩
    | torn k => exact absurd hm (hok s d k)
    | noDir => simp [leaves] at hl
    | noFile => simp [leaves] at hl
  · intro h s s1 s2
    obtain ⟨d, hm⟩ := h s s1 s2
    exact latestIn_of_mem (List.mem_reverse.2 hm) (by simp [leaves])

/-- The hypotheses are met by `uploadOps`. -/
example : hasDir Sample.uploadOps Sample.upload.icc ∧ (∀ s d k, FileOp.write Sample.upload s d (.torn k) ∉ Sample.uploadOps) := by
  refine ⟨⟨.write Sample.upload 2 [20] .ok, by simp [Sample.uploadOps], rfl, _, _, _, _, rfl, by simp⟩, ?_⟩
  intro s d k h
  simp [Sample.uploadOps] at h

/-- C40. Calls for other uploads have no influence: two histories with the same calls for `u` give the same answer of `IsFull` and the same result of
`Merge`, whatever happened to other uploads, including failures. -/
theorem C40_isolation (ops ops' : List FileOp) (fs fs' : FS) (u : Upload) (n : UInt16) (o : Outcome)
    (hr : storage ops empty = .ok fs) (hr' : storage ops' empty = .ok fs')
    (hd : hasDir ops u.icc) (hd' : hasDir ops' u.icc)
    (hsame : (ops.filter fun op => op.upload = u) = ops'.filter fun op => op.upload = u) :
    (u.multipart n).isFull fs = (u.multipart n).isFull fs' ∧
    ∃ fs1 fs1' r, (u.multipart n).merge o fs = .ok (fs1, r) ∧ (u.multipart n).merge o fs' = .ok (fs1', r) := by
  have ha := storage_empty ops fs hr
  have ha' := storage_empty ops' fs' hr'
  have hrev : (ops.reverse.filter fun op => op.upload = u) = ops'.reverse.filter fun op => op.upload = u := by
    rw [List.filter_reverse, List.filter_reverse, hsame]
  have hl : ∀ s, latestIn u s ops.reverse = latestIn u s ops'.reverse := fun s => by
    rw [latestIn_own, hrev, ← latestIn_own]
  constructor
  · obtain ⟨b, h1, h2⟩ := isFull_spec ha.stored u n ((ha.dirs u.icc).2 ((hasDir_reverse ops u.icc).2 hd))
    obtain ⟨b', h1', h2'⟩ := isFull_spec ha'.stored u n ((ha'.dirs u.icc).2 ((hasDir_reverse ops' u.icc).2 hd'))
    rw [h1, h1']
    congr 1
    rw [Bool.eq_iff_iff, h2, h2']
    simp only [hl]
  · obtain ⟨fs1, h1, _⟩ := after_merge ha u n o ((hasDir_reverse ops u.icc).2 hd)
    obtain ⟨fs1', h1', _⟩ := after_merge ha' u n o ((hasDir_reverse ops' u.icc).2 hd')
    refine ⟨fs1, fs1', _, h1, ?_⟩
    rw [h1']
    have : mergedIn u (.merge u o :: ops.reverse) = mergedIn u (.merge u o :: ops'.reverse) := by
      rw [mergedIn_own, List.filter_cons_of_pos (by simp [FileOp.upload]), hrev, ← List.filter_cons_of_pos (by simp [FileOp.upload]), ← mergedIn_own]
    rw [this]

/-- The hypotheses are met by `uploadOps` and the same history with only the calls for the upload. -/
example : hasDir (Sample.uploadOps.filter fun op => op.upload = Sample.upload) Sample.upload.icc ∧
    (Sample.uploadOps.filter fun op => op.upload = Sample.upload).length = 4 ∧
    ((Sample.uploadOps.filter fun op => op.upload = Sample.upload).filter fun op => op.upload = Sample.upload) =
      Sample.uploadOps.filter fun op => op.upload = Sample.upload := by
  refine ⟨⟨.write Sample.upload 2 [20] .ok, by decide, rfl, _, _, _, _, rfl, by simp⟩, by decide, by decide⟩

/-- C40 does not extend to writes that break off: a part of which only a beginning was stored, and which was answered with failure, counts as
stored. -/
theorem C40_torn_write : ∃ (ops : List FileOp) (fs : FS) (u : Upload), storage ops empty = .ok fs ∧ (∀ s d, FileOp.write u s d .ok ∉ ops) ∧
    (u.multipart 1).isFull fs = .ok true := by
  refine ⟨[.write Sample.upload 1 [1, 2, 3] (.torn 1)], _, Sample.upload, rfl, ?_, by decide⟩
  intro s d h
  simp at h

/-- C42. A second upload with the same media id delivers its own content if it stores at least all the part numbers that the first one stored and its
content is at least as long. Missing for the full property: shorter second uploads, see `C42_refuted`. -/
theorem C42_second_upload_partial (first second : List FileOp) (fs : FS) (u : Upload) (n : UInt16)
    (hr : storage (first ++ .merge u .ok :: second) empty = .ok fs)
    (hfirst : ∀ s d o, FileOp.write u s d o ∈ first → 1 ≤ s.toNat ∧ s.toNat ≤ n.toNat)
    (hin : ∀ s d o, FileOp.write u s d o ∈ second → 1 ≤ s.toNat ∧ s.toNat ≤ n.toNat)
    (hall : ∀ s : UInt16, 1 ≤ s.toNat → s.toNat ≤ n.toNat → ∃ d, FileOp.write u s d .ok ∈ second)
    (hone : (∀ o, FileOp.merge u o ∉ first) ∧ ∀ o, FileOp.merge u o ∉ second)
    (hlong : (joined (latest first u) 1 n.toNat).length ≤ (joined (latest second u) 1 n.toNat).length) :
    ∃ fs', (u.multipart n).merge .ok fs = .ok (fs', some (joined (latest second u) 1 n.toNat)) := by
  have ha := storage_empty _ fs hr
  have hd : hasDir (first ++ .merge u .ok :: second).reverse u.icc := by
    have hdir := (ha.dirs u.icc).1
    -- the merge in the middle did not panic
    apply Classical.byContradiction
    intro hno
    have hno' : ¬ hasDir first u.icc := fun ⟨op, hm, hx⟩ => hno ⟨op, List.mem_reverse.2 (List.mem_append_left _ hm), hx⟩
    have hstep : ∀ (a b : List FileOp) (x y : FS), storage (a ++ b) x = .ok y → ∃ z, storage a x = .ok z ∧ storage b z = .ok y := by
      intro a b
      induction a with
      | nil => intro x y h; exact ⟨x, rfl, h⟩
      | cons op a ih =>
        intro x y h
        cases op with
        | write u' s d o => exact ih _ _ h
        | merge u' o =>
          rw [List.cons_append, storage] at h
          rw [storage]
          cases hm : (u'.multipart 0).merge o x with
          | panic => rw [hm] at h; simp at h
          | err e => rw [hm] at h; simp at h
          | ok r =>
            rw [hm] at h
            exact ih _ _ h
    obtain ⟨z, hz1, hz2⟩ := hstep first _ _ _ hr
    have haz := storage_empty first z hz1
    rw [storage] at hz2
    cases hm : (u.multipart 0).merge .ok z with
    | panic => rw [hm] at hz2; simp at hz2
    | err e => rw [hm] at hz2; simp at hz2
    | ok r =>
      obtain ⟨z', r'⟩ := r
      exact hno' ((hasDir_reverse first u.icc).1 ((haz.dirs u.icc).1 (merge_dir hm u.icc).2))
  obtain ⟨fs', h1, _⟩ := after_merge ha u n .ok hd
  refine ⟨fs', ?_⟩
  have hlate : ∀ s, latestIn u s (first ++ .merge u .ok :: second).reverse = (latest second u s).or (latest first u s) := by
    intro s
    rw [List.reverse_append, List.reverse_cons, List.append_assoc, latestIn_append]
    rfl
  have hboth : joined (fun s => latestIn u s (first ++ .merge u .ok :: second).reverse) 0 65536 = joined (latest second u) 1 n.toNat := by
    rw [joined_trim _ n]
    · have hn := n.toNat_lt
      have : ∀ k lo, 1 ≤ lo → lo + k ≤ n.toNat + 1 →
          joined (fun s => latestIn u s (first ++ .merge u .ok :: second).reverse) lo k = joined (latest second u) lo k := by
        intro k
        induction k with
        | zero => intros; rfl
        | succ k ih =>
          intro lo h1 h2
          rw [joined_succ, joined_succ, ih (lo + 1) (by omega) (by omega), hlate]
          have hlt : (UInt16.ofNat lo).toNat = lo := by rw [UInt16.toNat_ofNat_of_lt']; simp only [UInt16.size]; omega
          obtain ⟨d, hm⟩ := hall (UInt16.ofNat lo) (by omega) (by omega)
          obtain ⟨c, hc⟩ := Option.isSome_iff_exists.1 (latestIn_of_mem (List.mem_reverse.2 hm) (by simp [leaves]))
          have hc : latest second u (UInt16.ofNat lo) = some c := hc
          rw [hc]
          rfl
      exact this n.toNat 1 (by omega) (by omega)
    · intro s c hc
      obtain ⟨d, o, hm, _⟩ := latestIn_mem hc
      rcases List.mem_append.1 (List.mem_reverse.1 hm) with hm | hm
      · exact hfirst s d o hm
      · exact hin s d o (by simpa using hm)
  have hold : mergedIn u (first ++ .merge u .ok :: second).reverse = some (joined (latest first u) 1 n.toNat) := by
    rw [List.reverse_append, List.reverse_cons, List.append_assoc, mergedIn_append u _ _ fun o hx => hone.2 o (List.mem_reverse.1 hx)]
    rw [List.cons_append, List.nil_append, mergedIn, if_pos rfl, mergedIn_none fun o hx => hone.1 o (List.mem_reverse.1 hx)]
    have : joined (fun s => latestIn u s first.reverse) 0 65536 = joined (latest first u) 1 n.toNat := by
      rw [joined_trim _ n]
      · rfl
      · intro s c hc
        obtain ⟨d, o, hm, _⟩ := latestIn_mem hc
        exact hfirst s d o (List.mem_reverse.1 hm)
    rw [this]
    simp [leaves]
  rw [h1, if_pos rfl, mergedIn, if_pos rfl, hboth, hold]
  simp only [leaves, Option.elim, Option.getD_some]
  rw [List.drop_eq_nil_of_le hlong, List.append_nil]

/-- The hypotheses are met by two uploads of two parts, the second of which is longer. -/
example : ∃ fs, storage ([.write Sample.upload 1 [65] .ok, .write Sample.upload 2 [66] .ok] ++ .merge Sample.upload .ok ::
      [.write Sample.upload 2 [68] .ok, .write Sample.upload 1 [67, 67] .ok]) empty = .ok fs ∧
    ∃ fs', (Sample.upload.multipart 2).merge .ok fs = .ok (fs', some [67, 67, 68]) := by
  refine ⟨_, rfl, ?_⟩
  have h := C42_second_upload_partial [.write Sample.upload 1 [65] .ok, .write Sample.upload 2 [66] .ok]
    [.write Sample.upload 2 [68] .ok, .write Sample.upload 1 [67, 67] .ok] _ Sample.upload 2 rfl ?_ ?_ ?_ (by simp) (by decide)
  · exact h
  · intro s d o hs
    simp only [List.mem_cons, List.not_mem_nil, or_false, FileOp.write.injEq, true_and] at hs
    rcases hs with ⟨rfl, -⟩ | ⟨rfl, -⟩ <;> decide
  · intro s d o hs
    simp only [List.mem_cons, List.not_mem_nil, or_false, FileOp.write.injEq, true_and] at hs
    rcases hs with ⟨rfl, -⟩ | ⟨rfl, -⟩ <;> decide
  · intro s h1 h2
    have h2' : s.toNat ≤ 2 := h2
    have : s = 1 ∨ s = 2 := by
      rcases (by omega : s.toNat = 1 ∨ s.toNat = 2) with h | h
      · exact .inl (UInt16.toNat.inj h)
      · exact .inr (UInt16.toNat.inj h)
    rcases this with rfl | rfl
    · exact ⟨_, .tail _ (.head _)⟩
    · exact ⟨_, .head _⟩

/-- C42 exactly, after any history of calls: if the terminal has no directory, `Merge` panics; otherwise the file delivered is the content of all parts of
the upload ever stored (of whatever number), in order, followed by what the file merged last had beyond that length. -/
theorem C42_exact (ops : List FileOp) (fs : FS) (u : Upload) (n : UInt16) (hr : storage ops empty = .ok fs) :
    (hasDir ops u.icc → ∃ fs', (u.multipart n).merge .ok fs =
      .ok (fs', some (joined (latest ops u) 0 65536 ++ ((merged ops u).getD []).drop (joined (latest ops u) 0 65536).length))) ∧
    (¬ hasDir ops u.icc → (u.multipart n).merge .ok fs = .panic) := by
  have ha := storage_empty ops fs hr
  have hd : fs u.icc ≠ none ↔ hasDir ops u.icc := (ha.dirs u.icc).trans (hasDir_reverse ops u.icc)
  constructor
  · intro h
    obtain ⟨fs', h1, -⟩ := after_merge ha u n .ok ((hasDir_reverse ops u.icc).2 h)
    refine ⟨fs', ?_⟩
    rw [h1, if_pos rfl, mergedIn, if_pos rfl]
    rfl
  · intro h
    have h0 : fs (u.multipart n).icc = none := Classical.byContradiction fun hx => h (hd.1 hx)
    unfold Multipart.merge Multipart.walkParts
    rw [h0]
    rfl

/-- C42: exactly when a later upload delivers its own content. Before, anything may have happened. The later upload stores every part 1..n at least once
and no other. Then its own content is delivered exactly when no non-empty part 0 or beyond n is left from before, and the file merged before is not
longer. -/
theorem C42_right_iff (first second : List FileOp) (fs : FS) (u : Upload) (n : UInt16) (hr : storage (first ++ second) empty = .ok fs)
    (hn : 1 ≤ n.toNat)
    (hin : ∀ s d o, FileOp.write u s d o ∈ second → 1 ≤ s.toNat ∧ s.toNat ≤ n.toNat)
    (hall : ∀ s : UInt16, 1 ≤ s.toNat → s.toNat ≤ n.toNat → ∃ d, FileOp.write u s d .ok ∈ second)
    (hone : ∀ o, FileOp.merge u o ∉ second) :
    (∃ fs', (u.multipart n).merge .ok fs = .ok (fs', some (joined (latest second u) 1 n.toNat))) ↔
      (∀ s : UInt16, s.toNat = 0 ∨ n.toNat < s.toNat → (latest first u s).getD [] = []) ∧
        ((merged first u).getD []).length ≤ (joined (latest second u) 1 n.toNat).length := by
  have hdir : hasDir (first ++ second) u.icc := by
    obtain ⟨d, hm⟩ := hall n hn (Nat.le_refl _)
    exact ⟨_, List.mem_append_right _ hm, rfl, u, n, d, .ok, rfl, by simp⟩
  obtain ⟨fs', h1⟩ := (C42_exact (first ++ second) fs u n hr).1 hdir
  have hm : merged (first ++ second) u = merged first u := by
    unfold merged
    rw [List.reverse_append, mergedIn_append u _ _ fun o hx => hone o (List.mem_reverse.1 hx)]
  have hl : ∀ s, latest (first ++ second) u s = (latest second u s).or (latest first u s) := by
    intro s
    unfold latest
    rw [List.reverse_append, latestIn_append]
  have hn' := n.toNat_lt
  have hto : ∀ i, i < 65536 → (UInt16.ofNat i).toNat = i := fun i hi => UInt16.toNat_ofNat_of_lt' (by simp only [UInt16.size]; omega)
  have hout : ∀ s : UInt16, s.toNat = 0 ∨ n.toNat < s.toNat → latest second u s = none := by
    intro s hs
    cases hc : latest second u s with
    | none => rfl
    | some c =>
      obtain ⟨d, o, hmem, -⟩ := latestIn_mem hc
      have := hin s d o (List.mem_reverse.1 hmem)
      omega
  have hmid : joined (latest (first ++ second) u) 1 n.toNat = joined (latest second u) 1 n.toNat := by
    refine joined_congr _ _ fun i i1 i2 => ?_
    rw [hl]
    obtain ⟨d, hmem⟩ := hall (UInt16.ofNat i) (by rw [hto i (by omega)]; omega) (by rw [hto i (by omega)]; omega)
    obtain ⟨c, hc⟩ := Option.isSome_iff_exists.1 (latestIn_of_mem (List.mem_reverse.2 hmem) (by simp [leaves]))
    rw [show latest second u (UInt16.ofNat i) = some c from hc]
    rfl
  have hthree : joined (latest (first ++ second) u) 0 65536 =
      joined (latest first u) 0 1 ++ (joined (latest second u) 1 n.toNat ++ joined (latest first u) (n.toNat + 1) (65535 - n.toNat)) := by
    rw [show (65536 : Nat) = 1 + (n.toNat + (65535 - n.toNat)) by omega, joined_add, joined_add, show 0 + 1 = 1 from rfl, hmid,
      joined_congr (f := latest (first ++ second) u) (g := latest first u) 1 0,
      joined_congr (f := latest (first ++ second) u) (g := latest first u) (65535 - n.toNat) (1 + n.toNat),
      show n.toNat + 1 = 1 + n.toNat by omega]
    · intro i i1 i2
      rw [hl, hout _ (by rw [hto i (by omega)]; omega)]
      rfl
    · intro i i1 i2
      rw [hl, hout _ (by rw [hto i (by omega)]; omega)]
      rfl
  have hempty : (∀ s : UInt16, s.toNat = 0 ∨ n.toNat < s.toNat → (latest first u s).getD [] = []) ↔
      joined (latest first u) 0 1 = [] ∧ joined (latest first u) (n.toNat + 1) (65535 - n.toNat) = [] := by
    rw [joined_eq_nil_iff, joined_eq_nil_iff]
    constructor
    · intro h
      exact ⟨fun i i1 i2 => h _ (by rw [hto i (by omega)]; omega), fun i i1 i2 => h _ (by rw [hto i (by omega)]; omega)⟩
    · rintro ⟨ha, hb⟩ s hs
      have hlt := s.toNat_lt
      rcases hs with hs | hs
      · have := ha s.toNat (by omega) (by omega)
        rwa [UInt16.ofNat_toNat] at this
      · have := hb s.toNat (by omega) (by omega)
        rwa [UInt16.ofNat_toNat] at this
  rw [hempty, h1, hm, hthree]
  constructor
  · rintro ⟨fs'', he⟩
    simp only [Res.ok.injEq, Prod.mk.injEq, Option.some.injEq] at he
    have hlen := congrArg List.length he.2
    simp only [List.length_append, List.length_drop] at hlen
    exact ⟨⟨List.eq_nil_of_length_eq_zero (by omega), List.eq_nil_of_length_eq_zero (by omega)⟩, by omega⟩
  · rintro ⟨⟨ha, hb⟩, hc⟩
    refine ⟨fs', ?_⟩
    rw [ha, hb]
    simp only [List.nil_append, List.append_nil]
    rw [List.drop_eq_nil_of_le hc, List.append_nil]

/-- Two parts stored and merged. -/
def Sample.firstUpload : List FileOp := [.write Sample.upload 1 [65, 66] .ok, .write Sample.upload 2 [67, 68] .ok, .merge Sample.upload .ok]

/-- The hypotheses are met, and both sides hold or fail: after parts "AB" and "CD" were merged, a second upload of "EF" and "GH" delivers its own
content, one of the single part "X" does not. -/
example : (∀ s : UInt16, s.toNat = 0 ∨ 2 < s.toNat → (latest Sample.firstUpload Sample.upload s).getD [] = []) ∧
    merged Sample.firstUpload Sample.upload = some [65, 66, 67, 68] ∧
    joined (latest [.write Sample.upload 1 [69, 70] .ok, .write Sample.upload 2 [71, 72] .ok] Sample.upload) 1 2 = [69, 70, 71, 72] ∧
    (latest Sample.firstUpload Sample.upload 2).getD [] = [67, 68] := by
  have out : ∀ s : UInt16, s.toNat = 0 ∨ 2 < s.toNat → latest Sample.firstUpload Sample.upload s = none := by
    intro s hs
    have h1 : (1 : UInt16) ≠ s := by rintro rfl; exact absurd hs (by decide)
    have h2 : (2 : UInt16) ≠ s := by rintro rfl; exact absurd hs (by decide)
    simp [Sample.firstUpload, latest, latestIn, h1, h2]
  refine ⟨fun s hs => by rw [out s hs]; rfl, ?_, by decide, by decide⟩
  have := joined_trim (latest Sample.firstUpload Sample.upload) 2 fun s c hc => by
    refine Classical.byContradiction fun hx => ?_
    rw [out s (by have : (2 : UInt16).toNat = 2 := rfl; omega)] at hc
    cases hc
  unfold merged Sample.firstUpload
  simp only [List.reverse_cons, List.reverse_nil, List.nil_append, List.cons_append]
  rw [mergedIn, if_pos rfl]
  change some (joined (latest Sample.firstUpload Sample.upload) 0 65536 ++ List.drop _ []) = _
  rw [this, List.drop_nil]
  decide

/-- C42 fails: after an upload of the parts "AB" and "CD", a second upload with the same media id and the single part "X" delivers "XCDD": the old
part 2 is still there, and the old merged file is not truncated. -/
theorem C42_refuted : ¬ ∀ (first second : List FileOp) (fs : FS) (u : Upload) (n : UInt16),
    storage (first ++ .merge u .ok :: second) empty = .ok fs →
    (∀ s d o, FileOp.write u s d o ∈ second → 1 ≤ s.toNat ∧ s.toNat ≤ n.toNat ∧ o = .ok) →
    (∀ s : UInt16, 1 ≤ s.toNat → s.toNat ≤ n.toNat → ∃ d, FileOp.write u s d .ok ∈ second) →
    ∃ fs', (u.multipart n).merge .ok fs = .ok (fs', some (joined (latest second u) 1 n.toNat)) := by
  intro h
  have hx := h [.write Sample.upload 1 [65, 66] .ok, .write Sample.upload 2 [67, 68] .ok] [.write Sample.upload 1 [88] .ok] _ Sample.upload 1 rfl
    (by intro s d o hm; simp at hm; obtain ⟨rfl, _, rfl⟩ := hm; decide)
    (by
      intro s h1 h2
      have h2 : s.toNat ≤ 1 := h2
      have : s = 1 := UInt16.toNat_inj.1 (show s.toNat = 1 by omega)
      subst this
      exact ⟨[88], by simp⟩)
  obtain ⟨fs', hx⟩ := hx
  have hres : ∀ r : Res (FS × Option Bytes), r = .ok (fs', some (joined (latest [.write Sample.upload 1 [88] .ok] Sample.upload) 1 1)) →
      (match r with | .ok (_, x) => x | _ => none) = some [88] := by
    intro r hr
    rw [hr]
    show some (joined (latest [.write Sample.upload 1 [88] .ok] Sample.upload) 1 1) = some [88]
    decide
  have := hres _ hx
  revert this
  decide

/-- The hypotheses of `C42_second_upload_partial` are met by two uploads of two parts each. -/
example : (storage ([.write Sample.upload 1 [65, 66] .ok, .write Sample.upload 2 [67, 68] .ok] ++ .merge Sample.upload .ok ::
      [.write Sample.upload 2 [71, 72, 73] .ok, .write Sample.upload 1 [70] .ok]) empty).isOk = true ∧
    (joined (latest [.write Sample.upload 1 [65, 66] .ok, .write Sample.upload 2 [67, 68] .ok] Sample.upload) 1 2).length ≤
      (joined (latest [.write Sample.upload 2 [71, 72, 73] .ok, .write Sample.upload 1 [70] .ok] Sample.upload) 1 2).length := by decide

/-- C44. `IsFull` reports false if no part of the upload was stored, it has at least one part, and the terminal's directory exists. Missing for the full
property: see `C44_refuted`. -/
theorem C44_not_full_partial (ops : List FileOp) (fs : FS) (u : Upload) (n : UInt16) (hr : storage ops empty = .ok fs) (hd : hasDir ops u.icc)
    (hn : 1 ≤ n.toNat) (hnone : ∀ s d o, FileOp.write u s d o ∉ ops) : (u.multipart n).isFull fs = .ok false := by
  have ha := storage_empty ops fs hr
  obtain ⟨b, h1, h2⟩ := isFull_spec ha.stored u n ((ha.dirs u.icc).2 ((hasDir_reverse ops u.icc).2 hd))
  rw [h1]
  congr 1
  rw [Bool.eq_false_iff]
  intro hb
  obtain ⟨c, hc⟩ := Option.isSome_iff_exists.1 (h2.1 hb n hn (Nat.le_refl _))
  obtain ⟨d, o, hm, _⟩ := latestIn_mem hc
  exact hnone n d o (List.mem_reverse.1 hm)

/-- The hypotheses are met by an upload of the same terminal with another tag. -/
example : ∃ fs, storage [.write Sample.otherTag 1 [99] .ok] empty = .ok fs ∧ hasDir [.write Sample.otherTag 1 [99] .ok] Sample.upload.icc ∧
    ∀ s d o, FileOp.write Sample.upload s d o ∉ [.write Sample.otherTag 1 [99] .ok] := by
  refine ⟨_, rfl, ⟨_, List.mem_cons_self, rfl, _, _, _, _, rfl, by simp⟩, ?_⟩
  intro s d o h
  simp [Sample.upload, Sample.otherTag] at h

/-- C44 exactly, after any history of calls: if the terminal has no directory, `IsFull` panics; otherwise it reports whether every part 1..n of the upload
has a file. -/
theorem C44_exact (ops : List FileOp) (fs : FS) (u : Upload) (n : UInt16) (hr : storage ops empty = .ok fs) :
    (hasDir ops u.icc → ∃ b, (u.multipart n).isFull fs = .ok b ∧
      (b = true ↔ ∀ s : UInt16, 1 ≤ s.toNat → s.toNat ≤ n.toNat → (latest ops u s).isSome)) ∧
    (¬ hasDir ops u.icc → (u.multipart n).isFull fs = .panic) := by
  have ha := storage_empty ops fs hr
  have hd : fs u.icc ≠ none ↔ hasDir ops u.icc := (ha.dirs u.icc).trans (hasDir_reverse ops u.icc)
  refine ⟨fun h => isFull_spec ha.stored u n (hd.2 h), fun h => ?_⟩
  have h0 : fs (u.multipart n).icc = none := Classical.byContradiction fun hx => h (hd.1 hx)
  unfold Multipart.isFull Multipart.walkParts
  rw [h0]
  rfl

/-- Both cases occur. -/
example : hasDir Sample.uploadOps Sample.upload.icc ∧ ¬ hasDir [] Sample.upload.icc := by
  refine ⟨⟨.write Sample.upload 2 [20] .ok, by simp [Sample.uploadOps], rfl, _, _, _, _, rfl, by simp⟩, ?_⟩
  rintro ⟨_, h, -⟩
  cases h

/-- C44 fails: for a terminal that has stored nothing yet, `IsFull` panics. -/
theorem C44_refuted : ¬ ∀ (ops : List FileOp) (fs : FS) (u : Upload) (n : UInt16), storage ops empty = .ok fs → 1 ≤ n.toNat →
    (∀ s d o, FileOp.write u s d o ∉ ops) → (u.multipart n).isFull fs = .ok false := by
  intro h
  have := h [] empty Sample.upload 1 rfl (by decide) (by simp)
  revert this
  decide

/-- The name of a file that has something other than a number in the place of the part's number. -/
def strayName (m : Multipart) (junk : Bytes) : Bytes :=
  fmtUint m.msgID.toNat ++ [45] ++ fmtUint m.tag.toNat ++ [45] ++ junk ++ [46, 112, 97, 114, 116]

/-- C40, files that somebody else put into the directory: one that has something other than a number in the place of the part's number does not count as
one of the parts 1..n. -/
theorem C40_stray_file (m : Multipart) (fs : FS) (d : Dir) (hd : fs m.icc = some d) (junk content : Bytes) (h46 : (46 : UInt8) ∉ junk) (h45 : (45 : UInt8) ∉ junk)
    (h43 : (43 : UInt8) ∉ junk) (hj : ∃ b ∈ junk, isDigit b = false) :
    m.isFull (fs.set m.icc ((strayName m junk, content) :: d)) = m.isFull fs := by
  have h0 : (fs.set m.icc ((strayName m junk, content) :: d)) m.icc = some ((strayName m junk, content) :: d) := if_pos rfl
  have h1 : m.partSeq (strayName m junk) = some 0 := Multipart.partSeq_stray m junk h46 h45 h43 hj
  unfold Multipart.isFull Multipart.walkParts
  rw [h0, hd]
  simp only [List.filterMap_cons, h1, Option.map_some]
  show Res.ok _ = Res.ok _
  congr 1
  rw [Bool.eq_iff_iff, List.all_eq_true, List.all_eq_true]
  refine forall_congr' fun i => forall_congr' fun hi => ?_
  have hlt : i < m.sum.toNat := List.mem_range.1 hi
  have := m.sum.toNat_lt
  have hne : ¬ (0 : UInt16) = UInt16.ofNat (i + 1) := by
    intro h
    have h := congrArg UInt16.toNat h
    rw [UInt16.toNat_ofNat', Nat.mod_eq_of_lt (by omega)] at h
    cases h
  rw [List.any_cons, decide_eq_false hne, Bool.false_or]

/-- But it is merged, before all parts: C39 and C42 speak of directories that only the library writes to. -/
theorem C39_stray_file_merged (m : Multipart) (fs : FS) (d : Dir) (hd : fs m.icc = some d) (junk content : Bytes) (h46 : (46 : UInt8) ∉ junk)
    (h45 : (45 : UInt8) ∉ junk) (h43 : (43 : UInt8) ∉ junk) (hj : ∃ b ∈ junk, isDigit b = false) (hf : d.get m.fullName = none) :
    ∃ whole, (m.merge .ok fs).bind (fun r => .ok r.2) = .ok (some whole) ∧
      (m.merge .ok (fs.set m.icc ((strayName m junk, content) :: d))).bind (fun r => .ok r.2) = .ok (some (content ++ whole)) := by
  have h0 : (fs.set m.icc ((strayName m junk, content) :: d)) m.icc = some ((strayName m junk, content) :: d) := if_pos rfl
  have h1 : m.partSeq (strayName m junk) = some 0 := Multipart.partSeq_stray m junk h46 h45 h43 hj
  have h2 : strayName m junk ≠ m.fullName := fun h => by
    have := Multipart.partSeq_fullName m m
    rw [← h, h1] at this
    cases this
  have h3 : Dir.get ((strayName m junk, content) :: d) m.fullName = none := by
    unfold Dir.get at hf ⊢
    rw [List.find?_cons_of_neg (by simpa using h2)]
    exact hf
  have h4 : ∀ ps : List (UInt16 × Bytes), Multipart.insertPart (0, content) ps = (0, content) :: ps := by
    intro ps
    cases ps with
    | nil => rfl
    | cons q ps => exact if_pos (UInt16.le_iff_toNat_le.2 (Nat.zero_le _))
  unfold Multipart.merge Multipart.walkParts
  rw [h0, hd]
  simp only [List.filterMap_cons, h1, Option.map_some, Option.getD_some, hf, h3, Option.getD_none]
  refine ⟨_, rfl, ?_⟩
  simp [Multipart.sortParts, h4, bind, Res.bind, Multipart.overwrite]

/-- Such a file: 2049-7-x.part for the upload with media id 7. -/
example : strayName ⟨13800000000, 0x0801, 7, 2⟩ [120] = "2049-7-x.part".toUTF8.toList ∧ ∃ b ∈ ([120] : Bytes), isDigit b = false := by
  decide +kernel

end Verif
