import Verif.Spec.Lives
import Verif.Lemmas.Upload
/-! # Lemmas: an upload that is completed on files of earlier processes -/

namespace Verif
open Handler Spec

/-- The last part of an upload arrives, when earlier calls have left files. -/
theorem last_part_merges (auto : Bool) {fs0 : FS} {g : List FileOp} (hg : After g fs0) (is : List Input) (hin : ∀ i ∈ is, Arrived i)
    (hend : ∀ e a, Input.receive (.err e) a ∉ is)
    (m : Message Entity) (a : Around) (hm : Delivered m) (b : T0801) (hb : m.body = .val (.m0801 b)) (u : Upload) (p : Packet) (data : Bytes)
    (hu : partOf auto m = some (u, p, data)) (hseq : p.seq = p.sum) (hwrite : a.write = .ok) (hmerge : a.merge = .ok)
    (hq : ∀ i ∈ is ++ [.receive (.ok m) a], Undisturbed u i)
    (hparts : ∀ x ∈ receivedIn is, ∀ q d, partOf auto x.1 = some (u, q, d) → q.seq.toNat < p.sum.toNat ∧ q.sum = p.sum ∧ x.2.write = .ok)
    (hall : ∀ i : UInt16, 1 ≤ i.toNat → i.toNat < p.sum.toNat →
      (∃ x ∈ receivedIn is, ∃ q d, partOf auto x.1 = some (u, q, d) ∧ q.seq = i) ∨ (latestIn u i g).isSome) :
    ∃ s log, ({ fs := fs0 } : Loop).run auto (is ++ [.receive (.ok m) a]) = .ok (s, log) ∧
      (offered log).filter (belongs auto u) = [mergedMessage m b
        ((mergedIn u (.merge u .ok :: ((partWrites auto u (receivedIn (is ++ [.receive (.ok m) a]))).reverse ++ g.filter fun op => op.upload = u))).getD [])] := by
  have hlast : NoLast auto u (receivedIn is) := by
    intro x hx q d hq
    have := hparts x hx q d hq
    intro he
    rw [he, this.2.1] at this
    omega
  obtain ⟨s, log, h1, ht, _, _, h2, h3⟩ := run_spec auto { fs := fs0 } is rfl hin
  obtain ⟨ho, hn⟩ := h2 u (fun i hi => hq i (by simp [hi])) hlast
  have hrun := h3 hend
  have ha := tr_after ht hg
  -- the last part
  have hpm : isPart auto m = true := by
    unfold partOf at hu
    split at hu
    · assumption
    · simp at hu
  have hdat : m.header.packet = some p ∧ b.packet = some data ∧ (Loop.partFile m b p).upload = u := by
    unfold partOf at hu
    rw [if_pos hpm, hb] at hu
    cases hpk : m.header.packet with
    | none => simp [hpk] at hu
    | some p' =>
      simp only [hpk, Option.map_eq_some_iff, Prod.mk.injEq] at hu
      obtain ⟨d, k1, k2, rfl, rfl⟩ := hu
      exact ⟨rfl, k1, k2⟩
  obtain ⟨hpk, hdata, hup⟩ := hdat
  have hflags : auto = true ∧ Property.isEnablePacket m.header.property = true := by
    unfold isPart at hpm
    rw [Property.isEnablePacket_spec]
    simp only [Bool.and_eq_true] at hpm
    exact hpm.1
  have hproc : s.process auto a m = s.part a m b p data := by
    unfold Loop.process
    rw [hb]
    simp [hflags, hpk, hdata]
  have hrev : ((fileOps log).reverse ++ g).filter (fun op => op.upload = u) =
      (partWrites auto u (receivedIn is)).reverse ++ g.filter (fun op => op.upload = u) := by
    rw [List.filter_append, List.filter_reverse]
    exact congrArg (· ++ _) (congrArg List.reverse ho)
  have mem_writes : ∀ x ∈ receivedIn is, ∀ q d, partOf auto x.1 = some (u, q, d) → FileOp.write u q.seq d x.2.write ∈ partWrites auto u (receivedIn is) := by
    intro x hx q d hq
    rw [partWrites, List.mem_filterMap]
    exact ⟨x, hx, by simp [hq]⟩
  obtain ⟨s', x, k1, k2⟩ := last_spec s a m b p data (hm.type _ hb).symm _ ha (by rw [hup]; exact hq (.receive (.ok m) a) (by simp)) hwrite hmerge hseq (by
    intro i i1 i2
    rw [hup, latestIn_own, List.filter_cons_of_pos (by simp [FileOp.upload]), hrev]
    by_cases hi : i = p.seq
    · subst hi
      simp [latestIn, leaves]
    · have hlt : i.toNat < p.sum.toNat := by
        rcases Nat.lt_or_ge i.toNat p.sum.toNat with h | h
        · exact h
        · exact absurd (UInt16.toNat_inj.1 (show i.toNat = p.seq.toNat by rw [hseq]; omega)) hi
      rcases hall i i1 hlt with ⟨y, hy, q, d, j1, j2⟩ | hi
      · have hw := mem_writes y hy q d j1
        rw [(hparts y hy q d j1).2.2, j2] at hw
        exact latestIn_of_mem (List.mem_cons_of_mem _ (List.mem_append_left _ (List.mem_reverse.2 hw))) (by simp [leaves])
      · rw [← List.cons_append, latestIn_append, ← latestIn_own, Option.isSome_or, hi, Bool.or_true])
  rw [hup, hrev] at k2
  have hrec : receivedIn (is ++ [.receive (.ok m) a]) = receivedIn is ++ [(m, a)] := receivedIn_snoc is hin hend m a
  have hwrites : partWrites auto u (receivedIn is ++ [(m, a)]) = partWrites auto u (receivedIn is) ++ [.write u p.seq data .ok] := by
    rw [partWrites, List.filterMap_append]
    show _ = List.filterMap _ _ ++ _
    simp [hu, hwrite]
  rw [hrec, hwrites, List.reverse_append]
  refine ⟨s', log ++ x, ?_, ?_⟩
  · rw [run_append, h1]
    simp only [Res.bind]
    rw [run_cons auto s s' _ x [] (by unfold Loop.step; rw [hrun]; exact hproc.trans k1)]
    simp [Loop.run, Res.bind]
  · rw [offered_append, List.filter_append, hn, k2, List.nil_append]
    rw [List.filter_cons_of_pos]
    · rfl
    · have : ∀ c, partOf auto (mergedMessage m b c) = some (u, p, c) := by
        intro c
        unfold partOf isPart
        rw [← Property.isEnablePacket_spec]
        simp [hflags, hpk, ← hup, Loop.partFile, T0801.getTag]
      simp [belongs, this]

/-! ## The content -/

/-- The calls store parts of the file. -/
def FileUpload.Stored (f : FileUpload) (h : List FileOp) : Prop :=
  ∀ sq d o, .write f.upload sq d o ∈ h → ∃ i, i < f.parts.length ∧ sq.toNat = i + 1 ∧ d = f.content i

theorem content_eq (f : FileUpload) {i : Nat} (h : i < f.parts.length) : f.content i = f.parts[i].2 := by
  unfold FileUpload.content
  rw [List.getD_eq_getElem?_getD, List.getElem?_map, List.getElem?_eq_getElem h]
  rfl

theorem leaves_length {d c : Bytes} {o : Outcome} (h : leaves d o = some c) : c.length ≤ d.length := by
  cases o <;> simp only [leaves, Option.some.injEq, reduceCtorEq] at h <;> subst h
  · exact Nat.le_refl _
  · rw [List.length_take]; omega

theorem flatMap_length_le {f g : Nat → Bytes} {l : List Nat} (h : ∀ i ∈ l, (f i).length ≤ (g i).length) : (l.flatMap f).length ≤ (l.flatMap g).length := by
  induction l with
  | nil => exact Nat.le_refl _
  | cons x l ih =>
    rw [List.flatMap_cons, List.flatMap_cons, List.length_append, List.length_append]
    have := h x (by simp)
    have := ih fun i hi => h i (by simp [hi])
    omega

theorem stored_trim {f : FileUpload} {h : List FileOp} (hf : FileUpload.Stored f h) (hn : f.parts.length ≤ 65535) :
    joined (fun s => latestIn f.upload s h) 0 65536 = joined (fun s => latestIn f.upload s h) 1 f.parts.length := by
  have e : (UInt16.ofNat f.parts.length).toNat = f.parts.length := ofNat_toNat_lt (by omega)
  rw [joined_trim _ (UInt16.ofNat f.parts.length), e]
  intro s c hc
  obtain ⟨d, o, hm, -⟩ := latestIn_mem hc
  obtain ⟨i, h1, h2, -⟩ := hf s d o hm
  rw [e]
  omega

theorem whole_file {f : FileUpload} {g : UInt16 → Option Bytes} (h : ∀ i, i < f.parts.length → g (UInt16.ofNat (i + 1)) = some (f.content i)) :
    joined g 1 f.parts.length = f.parts.flatMap (·.2) := by
  unfold joined
  refine flatMap_index f.parts (·.2) (fun i => g (UInt16.ofNat i)) ?_
  intro i hi
  rw [← content_eq f hi]
  exact h i hi

theorem stored_length {f : FileUpload} {h : List FileOp} (hf : FileUpload.Stored f h) (hn : f.parts.length ≤ 65535) :
    (joined (fun s => latestIn f.upload s h) 0 65536).length ≤ (f.parts.flatMap (·.2)).length := by
  rw [stored_trim hf hn, ← whole_file (g := fun s => some (f.content (s.toNat - 1)))]
  · refine flatMap_length_le ?_
    intro i hi
    show ((latestIn f.upload (UInt16.ofNat i) h).getD []).length ≤ _
    cases hc : latestIn f.upload (UInt16.ofNat i) h with
    | none => exact Nat.zero_le _
    | some c =>
      obtain ⟨d, o, hm, hl⟩ := latestIn_mem hc
      obtain ⟨j, h1, h2, rfl⟩ := hf _ d o hm
      simp only [Option.getD_some, h2, Nat.add_sub_cancel]
      exact leaves_length hl
  · intro i hi
    have e : (UInt16.ofNat (i + 1)).toNat = i + 1 := ofNat_toNat_lt (by omega)
    rw [e, Nat.add_sub_cancel]

/-- A merged file is never longer than the file. -/
theorem merged_length {f : FileUpload} {h : List FileOp} (hf : FileUpload.Stored f h) (hn : f.parts.length ≤ 65535) :
    ((mergedIn f.upload h).getD []).length ≤ (f.parts.flatMap (·.2)).length := by
  induction h with
  | nil => simp [mergedIn]
  | cons op h ih =>
    have hf' : FileUpload.Stored f h := fun sq d o hm => hf sq d o (List.mem_cons_of_mem _ hm)
    have ih := ih hf'
    cases op with
    | write u sq d o => exact ih
    | merge u o =>
      unfold mergedIn
      split
      · have hs := stored_length hf' hn
        generalize hl : leaves (joined (fun s => latestIn f.upload s h) 0 65536) o = c
        cases c with
        | none => exact ih
        | some c =>
          have := leaves_length hl
          simp only [Option.elim, Option.getD_some, List.length_append, List.length_drop]
          omega
      · exact ih

/-- A merge of all parts leaves the file. -/
theorem merged_whole {f : FileUpload} {h : List FileOp} (hf : FileUpload.Stored f h) (hn : f.parts.length ≤ 65535)
    (hall : ∀ i, i < f.parts.length → latestIn f.upload (UInt16.ofNat (i + 1)) h = some (f.content i)) :
    mergedIn f.upload (.merge f.upload .ok :: h) = some (f.parts.flatMap (·.2)) := by
  have e : joined (fun s => latestIn f.upload s h) 0 65536 = f.parts.flatMap (·.2) := by
    rw [stored_trim hf hn]
    exact whole_file hall
  have hl := merged_length hf hn
  unfold mergedIn
  rw [if_pos rfl, e]
  simp only [leaves, Option.elim, Option.some.injEq]
  rw [List.drop_eq_nil_of_le hl, List.append_nil]

end Verif
