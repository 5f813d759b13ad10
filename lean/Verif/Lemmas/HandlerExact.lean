import Verif.Spec.Deliveries
import Verif.Lemmas.HandlerRun
/-! # Exactly which files the receive loop delivers -/

namespace Verif.Handler
open Spec

theorem allStored_iff (u : Upload) (n : UInt16) (h : List FileOp) :
    allStored u n.toNat h = true ↔ ∀ i : UInt16, 1 ≤ i.toNat → i.toNat ≤ n.toNat → (latestIn u i h).isSome := by
  unfold allStored
  rw [List.all_eq_true]
  have := n.toNat_lt
  constructor
  · intro hx i i1 i2
    have := hx i.toNat (List.mem_range'_1.2 ⟨i1, by omega⟩)
    rwa [UInt16.ofNat_toNat] at this
  · intro hx i hi
    have hi := List.mem_range'_1.1 hi
    have hto : (UInt16.ofNat i).toNat = i := UInt16.toNat_ofNat_of_lt' (by simp only [UInt16.size]; omega)
    exact hx _ (by omega) (by omega)

theorem opsFor_quiet {u : Upload} {x : List Act} (g : List FileOp) (hx : opsFor u x = []) :
    ((fileOps x).reverse ++ g).filter (fun op => op.upload = u) = g.filter fun op => op.upload = u := by
  rw [List.filter_append, List.filter_reverse]
  rw [opsFor] at hx
  rw [hx]
  rfl

/-- A part with the highest number. -/
theorem last_exact (s : Loop) (a : Around) (m : Message Entity) (b : T0801) (p : Packet) (data : Bytes) (hid : m.header.msgID = 0x0801)
    (u : Upload) (hu : (Loop.partFile m b p).upload = u) (g h : List FileOp) (hs : After g s.fs) (hg : g.filter (fun op => op.upload = u) = h)
    (hq : Quiet u a) (hseq : p.seq = p.sum) :
    ∃ s' x, s.part a m b p data = .ok (s', x) ∧
      (if completes u p a (.write u p.seq data a.write :: h) then
        (opsFor u x).reverse = [.merge u a.merge, .write u p.seq data a.write] ∧
          offered x = if a.merge = .ok then [mergedMessage m b ((mergedIn u (.merge u a.merge :: .write u p.seq data a.write :: h)).getD [])] else []
      else (opsFor u x).reverse = [.write u p.seq data a.write] ∧ offered x = []) := by
  have hm1 : Loop.partFile m b p = u.multipart p.sum := by rw [← hu]; rfl
  have hicc : m.header.iccID = u.icc := by rw [← hu]; rfl
  have hup : (⟨(u.multipart p.sum).icc, (u.multipart p.sum).msgID, (u.multipart p.sum).tag⟩ : Upload) = u := rfl
  unfold Loop.part
  simp only [hm1]
  have hok : ((u.multipart p.sum).write a.write p.seq data s.fs).2 = decide (a.write = .ok) := by
    unfold Multipart.write; cases a.write <;> rfl
  by_cases ho : a.write = .ok
  · have hd : ((u.multipart p.sum).write a.write p.seq data s.fs).1 m.header.iccID ≠ none :=
      (write_dir u _ p.seq data a.write s.fs m.header.iccID).2 (.inr ⟨hicc.symm, by simp [ho]⟩)
    have ha := after_write hs u p.sum p.seq data a.write
    have h2 : ((u.multipart p.sum).write a.write p.seq data s.fs).2 = true := by rw [hok]; simp [ho]
    generalize (u.multipart p.sum).write a.write p.seq data s.fs = w at h2 hd ha ⊢
    simp only [h2, Bool.not_true, Bool.false_eq_true, if_false]
    -- after the write
    have t1 := outsides_tr { s with fs := w.1 } a.afterWrite
    have q1 := outsides_quiet { s with fs := w.1 } u _ (quiet_write hq)
    have a1 := tr_after t1 ha
    have hr1 := outsides_offered { s with fs := w.1 } a.afterWrite
    have d1 := tr_dirs t1 _ hd
    generalize ({ s with fs := w.1 } : Loop).outsides a.afterWrite = r1 at t1 q1 a1 d1 hr1 ⊢
    have own1 : ((fileOps r1.2).reverse ++ .write u p.seq data a.write :: g).filter (fun op => op.upload = u) = .write u p.seq data a.write :: h := by
      rw [opsFor_quiet _ q1, List.filter_cons_of_pos (by simp [FileOp.upload]), hg]
    obtain ⟨bb, f1, f2⟩ := isFull_spec a1.stored u p.sum (by rw [← hicc]; exact d1)
    have hbb : bb = allStored u p.sum.toNat (.write u p.seq data a.write :: h) := by
      rw [Bool.eq_iff_iff, f2, allStored_iff]
      constructor
      · intro hx i i1 i2
        have := hx i i1 i2
        rwa [latestIn_own, own1] at this
      · intro hx i i1 i2
        rw [latestIn_own, own1]
        exact hx i i1 i2
    have hcomp : completes u p a (.write u p.seq data a.write :: h) = bb := by
      unfold completes
      rw [hbb, hseq, ho]
      simp
    rw [hcomp]
    unfold Loop.check
    simp only [hseq, ne_eq, not_true, if_false, hm1, f1, Res.ok_bind]
    cases hb : bb with
    | false =>
      simp only [Bool.not_false, if_true, Bool.false_eq_true, if_false, Res.ok_bind]
      refine ⟨_, _, rfl, ?_, ?_⟩
      · rw [opsFor_append, opsFor_append, q1]
        simp [opsFor, fileOps, FileOp.upload, hup]
      · rw [offered_append, offered_append, hr1]
        rfl
    | true =>
      simp only [Bool.not_true, Bool.false_eq_true, if_false, if_true]
      have t2 := outsides_tr r1.1 a.afterCheck
      have q2 := outsides_quiet r1.1 u _ (quiet_check hq)
      have a2 := tr_after t2 a1
      have d2 := tr_dirs t2 _ d1
      have hoff2 := outsides_offered r1.1 a.afterCheck
      generalize r1.1.outsides a.afterCheck = r2 at t2 q2 a2 d2 hoff2 ⊢
      obtain ⟨r, s', x, c1, c2, c3, c4, c5, c6, c7⟩ := complete_spec r2.1 a m b p hid d2
      rw [c2]
      simp only [Res.ok_bind]
      refine ⟨s', _, rfl, ?_, ?_⟩
      · rw [opsFor_append, opsFor_append, opsFor_append, q1, q2]
        have c8 : opsFor u (.merged (Loop.partFile m b p) a.merge :: x) = [.merge u a.merge] := by
          have : opsFor u ([Act.merged (Loop.partFile m b p) a.merge] ++ x) = [.merge u a.merge] := by
            rw [opsFor_append, c7 u hq, hm1]
            simp [opsFor, fileOps, FileOp.upload, hup]
          exact this
        rw [c8]
        simp [opsFor, fileOps, FileOp.upload, hup, hseq]
      · rw [offered_append, offered_append, hr1, offered_append, hoff2]
        show offered x = _
        rw [c6]
        obtain ⟨fs', g1, g2⟩ := after_merge a2 u p.sum a.merge ((a2.dirs _).1 (by rw [← hicc]; exact d2))
        rw [hm1] at c1
        have hreq : r.2 = if a.merge = .ok then
            mergedIn u (.merge u a.merge :: ((fileOps r2.2).reverse ++ ((fileOps r1.2).reverse ++ .write u p.seq data a.write :: g))) else none := by
          have := c1.symm.trans g1
          simp only [Res.ok.injEq] at this
          rw [this]
        rw [mergedIn_own, List.filter_cons_of_pos (by simp [FileOp.upload]), opsFor_quiet _ q2, own1] at hreq
        by_cases hmg : a.merge = .ok
        · rw [if_pos hmg] at hreq
          rw [if_pos hmg]
          have hsome : ∃ c, r.2 = some c := by
            rw [hreq, mergedIn, if_pos rfl, hmg]
            exact ⟨_, rfl⟩
          obtain ⟨c, hc⟩ := hsome
          rw [hseq] at hreq
          rw [← hreq, hc]
          rfl
        · rw [if_neg hmg] at hreq
          rw [if_neg hmg, hreq]
          rfl
  · have h2 : ((u.multipart p.sum).write a.write p.seq data s.fs).2 = false := by rw [hok]; simp [ho]
    have hc : completes u p a (.write u p.seq data a.write :: h) = false := by simp [completes, ho]
    rw [hc]
    simp only [h2, Bool.not_false, if_true, Bool.false_eq_true, if_false]
    refine ⟨_, _, rfl, ?_, rfl⟩
    simp [opsFor, fileOps, FileOp.upload, hup]

/-- A message that is a part. -/
theorem partOf_some {auto : Bool} {m : Message Entity} {u : Upload} {p : Packet} {data : Bytes} (h : partOf auto m = some (u, p, data)) :
    auto = true ∧ Property.isEnablePacket m.header.property = true ∧ ∃ b, m.body = .val (.m0801 b) ∧ m.header.packet = some p ∧ b.packet = some data ∧
      (Loop.partFile m b p).upload = u := by
  unfold partOf at h
  split at h
  · next hp =>
    unfold isPart at hp
    rw [← Property.isEnablePacket_spec] at hp
    simp only [Bool.and_eq_true] at hp
    split at h
    · next b p' hb hp' =>
      simp only [Option.map_eq_some_iff, Prod.mk.injEq] at h
      obtain ⟨d, k1, k2, rfl, rfl⟩ := h
      exact ⟨hp.1.1, hp.1.2, b, hb, hp', k1, k2⟩
    · cases h
  · cases h

theorem partOf_merged {auto : Bool} {m : Message Entity} {u : Upload} {p : Packet} {data : Bytes} (h : partOf auto m = some (u, p, data)) (b : T0801)
    (hb : m.body = .val (.m0801 b)) (c : Bytes) : partOf auto (mergedMessage m b c) = some (u, p, c) := by
  obtain ⟨h1, h2, b', k1, k2, k3, k4⟩ := partOf_some h
  rw [hb] at k1
  cases k1
  unfold partOf isPart
  rw [← Property.isEnablePacket_spec]
  simp [h1, h2, k2]
  rw [← k4]
  rfl

/-- What the loop delivers of an upload, in any history. -/
theorem run_exact (auto : Bool) (u : Upload) (is : List Input) (hin : ∀ i ∈ is, Arrived i) (hq : ∀ i ∈ is, Undisturbed u i) (s : Loop)
    (hs : s.running = true) (g : List FileOp) (hg : After g s.fs) :
    ∃ s' x, s.run auto is = .ok (s', x) ∧
      (offered x).filter (belongs auto u) = deliveries auto u (g.filter fun op => op.upload = u) (receivedIn is) := by
  induction is generalizing s g with
  | nil => exact ⟨s, [], rfl, rfl⟩
  | cons i is ih =>
    have hin' : ∀ i ∈ is, Arrived i := fun j hj => hin j (by simp [hj])
    have hq' : ∀ i ∈ is, Undisturbed u i := fun j hj => hq j (by simp [hj])
    have hqi := hq i (by simp)
    cases i with
    | outside o =>
      have hg' := tr_after (outside_tr s o) hg
      obtain ⟨s', x, h1, h2⟩ := ih hin' hq' (s.outside o).1 (by rw [outside_running, hs]) _ hg'
      rw [opsFor_quiet _ (outside_quiet s u o hqi)] at h2
      refine ⟨s', (s.outside o).2 ++ x, ?_, ?_⟩
      · rw [run_cons auto s (s.outside o).1 _ (s.outside o).2 is rfl, h1]; rfl
      · rw [offered_append, foreign_offered _ (outside_foreign s o)]; exact h2
    | receive r a =>
      have ha := hin (.receive r a) (by simp)
      cases r with
      | panic => exact absurd ha (by simp [Arrived])
      | err e =>
        obtain ⟨s', x, h1, h2, h3, h4⟩ := run_closed auto { s with running := false } is rfl
        refine ⟨s', .closed :: x, ?_, ?_⟩
        · rw [run_cons auto s _ _ [.closed] is (by unfold Loop.step; rw [hs]; rfl), h1]; rfl
        · show (offered x).filter _ = _
          rw [foreign_offered x h4]
          rfl
      | ok m =>
        obtain ⟨s1, y, k1, k2, k3, k4, k5, _, k7⟩ := process_spec auto s a m ha
        have hg' := tr_after k2 hg
        obtain ⟨s', x, h1, h2⟩ := ih hin' hq' s1 (by rw [k3, hs]) _ hg'
        refine ⟨s', y ++ x, ?_, ?_⟩
        · rw [run_cons auto s s1 _ y is (by unfold Loop.step; rw [hs]; exact k1), h1]; rfl
        rw [offered_append, List.filter_append, h2, List.filter_append, List.filter_reverse]
        change _ ++ deliveries auto u ((opsFor u y).reverse ++ _) _ = deliveries auto u _ ((m, a) :: receivedIn is)
        by_cases hlast : ∃ p d, partOf auto m = some (u, p, d) ∧ p.seq = p.sum
        · obtain ⟨p, data, hp, hseq⟩ := hlast
          obtain ⟨e1, e2, b, e3, e4, e5, e6⟩ := partOf_some hp
          obtain ⟨s2, y2, j1, j2⟩ := last_exact s a m b p data (ha.type _ e3).symm u e6 g _ hg rfl hqi hseq
          have hproc : s.process auto a m = s.part a m b p data := by
            unfold Loop.process
            rw [e3]
            simp [e1, e2, e4, e5]
          rw [hproc, j1] at k1
          simp only [Res.ok.injEq, Prod.mk.injEq] at k1
          obtain ⟨rfl, rfl⟩ := k1
          rw [deliveries, hp]
          simp only [ne_eq, not_true, if_false]
          split at j2
          · next hc =>
            rw [if_pos hc, j2.1, j2.2]
            congr 1
            split
            · rw [List.filter_cons_of_pos (by simp [belongs, partOf_merged hp b e3])]
              unfold withContent
              rw [e3]
              rfl
            · rfl
          · next hc =>
            rw [if_neg hc, j2.1, j2.2]
            rfl
        · obtain ⟨i1, i2⟩ := k7 u hqi (fun p d hp he => hlast ⟨p, d, hp, he⟩)
          rw [i1, i2, List.nil_append, deliveries]
          cases hp : partOf auto m with
          | none => simp [partWrites, hp]
          | some t =>
            obtain ⟨u', p, data⟩ := t
            simp only
            by_cases hu : u' = u
            · subst hu
              have hne : p.seq ≠ p.sum := fun he => hlast ⟨p, data, hp, he⟩
              rw [if_neg (by simp), if_neg (by simp [completes, hne])]
              simp [partWrites, hp]
            · rw [if_pos hu]
              simp [partWrites, hp, hu]

theorem deliveries_count (auto : Bool) (u : Upload) (n : UInt16) (hn : 1 ≤ n.toNat) (ms : List (Message Entity × Around))
    (hparts : ∀ x ∈ ms, ∀ p d, partOf auto x.1 = some (u, p, d) → 1 ≤ p.seq.toNat ∧ p.seq.toNat ≤ n.toNat ∧ p.sum = n ∧ x.2.write = .ok ∧ x.2.merge = .ok)
    (h : List FileOp) (seen : List UInt16) (hs : ∀ i : UInt16, (latestIn u i h).isSome ↔ i ∈ seen) :
    (deliveries auto u h ms).length = completions n seen (partNumbers auto u ms) := by
  induction ms generalizing h seen with
  | nil => rfl
  | cons x ms ih =>
    obtain ⟨m, a⟩ := x
    have ih := ih fun y hy => hparts y (List.mem_cons_of_mem _ hy)
    rw [deliveries]
    cases hp : partOf auto m with
    | none =>
      simp only
      rw [ih h seen hs]
      simp [partNumbers, hp]
    | some t =>
      obtain ⟨u', p, data⟩ := t
      simp only
      by_cases hu : u' = u
      · subst hu
        rw [if_neg (by simp)]
        obtain ⟨p1, p2, p3, p4, p5⟩ := hparts (m, a) (by simp) p data hp
        simp only at p4 p5
        have hnum : partNumbers auto u' ((m, a) :: ms) = p.seq :: partNumbers auto u' ms := by simp [partNumbers, hp]
        have hw : ∀ i : UInt16, (latestIn u' i (.write u' p.seq data a.write :: h)).isSome ↔ i ∈ p.seq :: seen := by
          intro i
          rw [latestIn, p4]
          simp only [leaves, true_and, List.mem_cons]
          by_cases hi : p.seq = i
          · rw [if_pos hi]
            simp [hi]
          · rw [if_neg hi, hs]
            simp [Ne.symm hi]
        rw [hnum, completions]
        have hc : completes u' p a (.write u' p.seq data a.write :: h) = true ↔
            p.seq = n ∧ (List.range' 1 (n.toNat - 1)).all (fun i => seen.contains (UInt16.ofNat i)) = true := by
          unfold completes
          rw [p3, p4]
          simp only [BEq.rfl, Bool.true_and, Bool.and_eq_true, beq_iff_eq]
          refine and_congr_right fun hseq => ?_
          rw [allStored_iff, List.all_eq_true]
          have hlt := n.toNat_lt
          constructor
          · intro hx i hi
            have hi := List.mem_range'_1.1 hi
            have hto : (UInt16.ofNat i).toNat = i := UInt16.toNat_ofNat_of_lt' (by simp only [UInt16.size]; omega)
            have := (hw _).1 (p4 ▸ hx (UInt16.ofNat i) (by omega) (by omega))
            rcases List.mem_cons.1 this with he | hm
            · rw [hseq] at he
              rw [he] at hto
              omega
            · simpa using hm
          · intro hx i i1 i2
            rw [← p4, hw]
            by_cases hi : i = n
            · rw [hi, hseq]; simp
            · have : i.toNat ≠ n.toNat := fun he => hi (UInt16.toNat_inj.1 he)
              have := hx i.toNat (List.mem_range'_1.2 ⟨i1, by omega⟩)
              rw [UInt16.ofNat_toNat] at this
              exact List.mem_cons_of_mem _ (by simpa using this)
        by_cases hcc : completes u' p a (.write u' p.seq data a.write :: h) = true
        · rw [if_pos hcc, if_pos (hc.1 hcc), if_pos p5]
          rw [List.length_append, ih (.merge u' a.merge :: .write u' p.seq data a.write :: h) (p.seq :: seen) (fun i => hw i)]
          rfl
        · rw [if_neg hcc, if_neg fun h => hcc (hc.2 h), ih _ (p.seq :: seen) hw]
          omega
      · rw [if_pos hu, ih h seen hs]
        simp [partNumbers, hp, hu]

theorem completions_pos (n : UInt16) (seqs seen : List UInt16) :
    0 < completions n seen seqs ↔ ∃ pre post, seqs = pre ++ n :: post ∧ ∀ i : UInt16, 1 ≤ i.toNat → i.toNat < n.toNat → i ∈ seen ∨ i ∈ pre := by
  have hlt := n.toNat_lt
  have hall : ∀ l : List UInt16, (List.range' 1 (n.toNat - 1)).all (fun i => l.contains (UInt16.ofNat i)) = true ↔
      ∀ i : UInt16, 1 ≤ i.toNat → i.toNat < n.toNat → i ∈ l := by
    intro l
    rw [List.all_eq_true]
    constructor
    · intro hx i i1 i2
      have := hx i.toNat (List.mem_range'_1.2 ⟨i1, by omega⟩)
      rw [UInt16.ofNat_toNat] at this
      simpa using this
    · intro hx i hi
      have hi := List.mem_range'_1.1 hi
      have hto : (UInt16.ofNat i).toNat = i := UInt16.toNat_ofNat_of_lt' (by simp only [UInt16.size]; omega)
      simpa using hx _ (by omega) (by omega)
  induction seqs generalizing seen with
  | nil =>
    simp [completions]
  | cons s rest ih =>
    rw [completions]
    constructor
    · intro h
      split at h
      · next hc =>
        exact ⟨[], rest, by rw [hc.1]; rfl, fun i i1 i2 => Or.inl ((hall seen).1 hc.2 i i1 i2)⟩
      · rw [Nat.zero_add] at h
        obtain ⟨pre, post, h1, h2⟩ := (ih (s :: seen)).1 h
        refine ⟨s :: pre, post, by rw [h1]; rfl, fun i i1 i2 => ?_⟩
        have := h2 i i1 i2
        simp only [List.mem_cons] at this ⊢
        rcases this with (h | h) | h
        · exact Or.inr (Or.inl h)
        · exact Or.inl h
        · exact Or.inr (Or.inr h)
    · rintro ⟨pre, post, h1, h2⟩
      cases pre with
      | nil =>
        simp only [List.nil_append, List.cons.injEq] at h1
        rw [if_pos ⟨h1.1, (hall seen).2 fun i i1 i2 => (h2 i i1 i2).resolve_right (by simp)⟩]
        omega
      | cons t pre =>
        simp only [List.cons_append, List.cons.injEq] at h1
        have := (ih (s :: seen)).2 ⟨pre, post, h1.2, fun i i1 i2 => by
          have := h2 i i1 i2
          simp only [List.mem_cons] at this ⊢
          rcases this with h | h | h
          · exact Or.inl (Or.inr h)
          · exact Or.inl (Or.inl (h.trans h1.1.symm))
          · exact Or.inr h⟩
        omega

end Verif.Handler
