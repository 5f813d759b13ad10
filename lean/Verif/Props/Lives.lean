import Verif.Lemmas.Lives
import Verif.Lemmas.LivesUpload
import Verif.Props.Syscall
/-! # C99: uploads survive a restart of the server -/

namespace Verif
open Handler Spec Codec
open Syscall (Event State Item Life lives)

/-! ## One connection alone -/

theorem sendable_again {env : Env} {f : FileUpload} (hok : f.OK env) {i : Nat} (hi : i < f.parts.length) (serial : UInt16) :
    Sendable env (f.message i serial).1 (f.message i serial).2 := by
  have hlen : (f.parts.set i (serial, f.content i)).length = f.parts.length := by simp
  have hmem : f.message i serial ∈ uploadMessages f.icc f.media (f.parts.set i (serial, f.content i)) := by
    unfold uploadMessages
    refine List.mem_map.2 ⟨((serial, f.content i), i), List.mem_zipIdx_iff_getElem?.2 (by simp [hi]), ?_⟩
    rw [hlen]
    rfl
  refine sendable_upload hok.icc0 hok.icc1 hok.location hok.extras ?_ _ hmem
  intro p hp
  rcases List.mem_or_eq_of_mem_set hp with hp | rfl
  · exact hok.sizes p hp
  · show (f.content i).length ≤ 987
    rw [content_eq f hi]
    exact hok.sizes _ (List.getElem_mem hi)

theorem sentPart_again (f : FileUpload) (i : Nat) (serial : UInt16) :
    sentPart (f.message i serial) = some (f.upload, ⟨UInt16.ofNat f.parts.length, UInt16.ofNat (i + 1)⟩, f.content i) := rfl

theorem successes_again (f : FileUpload) (xs : List (Nat × UInt16)) :
    successes (xs.map fun x => f.message x.1 x.2) = xs.map fun x => (x.2, 0x0801, 0) := by
  induction xs with
  | nil => rfl
  | cons x xs ih => exact congrArg (_ :: ·) ih

/-- What arrives from a terminal that sends parts of a file. -/
theorem again_arrivals {env : Env} (key : Option DecKey) (endErr : Err) {f : FileUpload} (hok : f.OK env) {xs : List (Nat × UInt16)}
    (hlt : ∀ x ∈ xs, x.1 < f.parts.length) {sent : List Bytes}
    (hsent : (xs.map fun x => sendBytes (entityCodec env) none (f.message x.1 x.2).1) = sent.map .ok) {reads : List Bytes} (hr : ∀ c ∈ reads, c.length ≤ 128)
    (hs : reads.flatten = sent.flatten) {m : Message Entity} (h : ArrivesOn env key endErr reads m) :
    ∃ x ∈ xs, m.header.serial = x.2 ∧ partOf true m = some (f.upload, ⟨UInt16.ofNat f.parts.length, UInt16.ofNat (x.1 + 1)⟩, f.content x.1) := by
  obtain ⟨sent', h1, h2⟩ := C12_end_to_end env key endErr (xs.map fun x => f.message x.1 x.2) (by
    intro y hy
    obtain ⟨x, hx, rfl⟩ := List.mem_map.1 hy
    exact sendable_again hok (hlt x hx) x.2)
  rw [List.map_map] at h1
  obtain rfl : sent' = sent := List.map_inj_right (f := Res.ok) (by simp) |>.1 (h1.symm.trans hsent)
  obtain ⟨n, hm⟩ := h
  obtain ⟨ds, e1, e2, e3⟩ := h2 reads hr hs n
  rw [System.receiveMany_take (C := entityCodec env) (key := key) (endErr := endErr) n (xs.map fun x => f.message x.1 x.2).length, Nat.add_comm, e3] at hm
  have hmem := List.mem_of_mem_take hm
  simp only [List.mem_append, List.mem_map, Res.ok.injEq, exists_eq_right, List.mem_replicate, reduceCtorEq, and_false, or_false] at hmem
  obtain ⟨i, hi, rfl⟩ := List.mem_iff_getElem.1 hmem
  have hi' : i < (xs.map fun x => f.message x.1 x.2).length := by omega
  have hc := e2 ((xs.map fun x => f.message x.1 x.2)[i], ds[i]) (by
    rw [List.mem_iff_getElem]
    exact ⟨i, by simp at e1 hi' ⊢; omega, by simp⟩)
  refine ⟨xs[i]'(by simpa using hi'), List.getElem_mem _, by rw [hc.2.2.1, List.getElem_map]; rfl, ?_⟩
  rw [partOf_carries hc, List.getElem_map, sentPart_again]

/-- Parts of a file arrive on one connection and the last part at the end, when earlier calls have left files. -/
theorem completes_alone (env : Env) (key : Option DecKey) (endErr : Err) (f : FileUpload) (hok : f.OK env) (hne : f.parts ≠ []) {fs0 : FS} {g : List FileOp}
    (hg : After g fs0) (hstored : FileUpload.Stored f g) (again : List (Nat × UInt16)) (hagain : ∀ x ∈ again, x.1 + 1 < f.parts.length) (serial : UInt16)
    (hkept : ∀ i, i + 1 < f.parts.length → (∃ s, (i, s) ∈ again) ∨ latestIn f.upload (UInt16.ofNat (i + 1)) g = some (f.content i))
    (reads : List Bytes) (ds : List (Message Entity)) (e1 : ds.length = again.length)
    (d : Message Entity) (e2 : ∀ p ∈ (again.map fun x => f.message x.1 x.2).zip ds, Carries p.1.1 p.1.2 p.2)
    (hc : Carries (f.message (f.parts.length - 1) serial).1 (f.message (f.parts.length - 1) serial).2 d)
    (e4 : (receiveMany (entityCodec env) key endErr (ds.length + 1) ⟨[], reads⟩).1 = (ds ++ [d]).map .ok)
    (turns : List (List Outside × Around)) (ht : turns.length = again.length + 1) (hsm : ∀ t ∈ turns, Smooth f.upload t) :
    ∃ s log, ({ fs := fs0 } : Loop).run true (inputs env key endErr turns ⟨[], reads⟩) = .ok (s, log) ∧
      ∃ d, d.body = .val (.m0801 { f.media with packet := some (f.parts.flatMap (·.2)) }) ∧ d.header.iccID = f.icc ∧
        (offered log).filter (belongs true f.upload) = [d] ∧ Given log d ∧
        replies log = (again ++ [(f.parts.length - 1, serial)]).map fun x => (x.2, 0x0801, 0) := by
  have hpos : 0 < f.parts.length := List.length_pos_iff.2 hne
  have hcount := hok.count
  have hn : ∀ i, i ≤ f.parts.length → (UInt16.ofNat i).toNat = i := fun i hi => ofNat_toNat_lt (by omega)
  obtain ⟨turns, ⟨o, a⟩, rfl⟩ : ∃ ts t, turns = ts ++ [t] := by
    rcases List.eq_nil_or_concat turns with h | ⟨ts, t, h⟩
    · subst h; simp at ht
    · exact ⟨ts, t, by simpa using h⟩
  have htl : turns.length = ds.length := by simp at ht; omega
  obtain ⟨i1, i2⟩ := inputs_snoc env key endErr turns o a ⟨[], reads⟩ ds d htl e4
  obtain ⟨j1, j2, -⟩ := inputs_received env key endErr (turns ++ [(o, a)]) ⟨[], reads⟩ (ds ++ [d]) 0 (by simp; omega) (by simpa using e4)
  have hq : ∀ i ∈ inputs env key endErr (turns ++ [(o, a)]) ⟨[], reads⟩, Undisturbed f.upload i := by
    intro i hi
    obtain ⟨t, ht, h⟩ := inputs_mem hi
    obtain ⟨-, -, s3, s4⟩ := hsm t ht
    rcases h with ⟨x, hx, rfl⟩ | ⟨r, rfl⟩
    · exact s3 x hx
    · exact s4
  have hw : ∀ x ∈ receivedIn (inputs env key endErr (turns ++ [(o, a)]) ⟨[], reads⟩), x.2.write = .ok := by
    intro x hx
    obtain ⟨t, ht, h⟩ := inputs_mem (receivedIn_mem hx)
    rcases h with ⟨y, -, h⟩ | ⟨r, h⟩
    · cases h
    · injection h with _ h
      rw [h]
      exact (hsm t ht).1
  rw [i1] at j1 j2 hq hw
  generalize his : inputs env key endErr turns ⟨[], reads⟩ ++ o.map Input.outside = is at i1 j1 j2 hq hw
  have hin : ∀ i ∈ is, Arrived i := fun i hi => j2 i (List.mem_append_left _ hi)
  have hend : ∀ e a, Input.receive (.err e) a ∉ is := by
    intro e b hb
    rw [← his] at hb
    rcases List.mem_append.1 hb with hb | hb
    · exact i2 e b hb
    · obtain ⟨x, -, hx⟩ := List.mem_map.1 hb
      cases hx
  have hd : Delivered d := j2 (.receive (.ok d) a) (by simp)
  have hrec := receivedIn_snoc is hin hend d a
  rw [hrec] at j1 hw
  have j3 : (receivedIn is).map (·.1) = ds := by
    simpa using j1
  have hpm : ((receivedIn is).map (·.1)).map (partOf true) = (again.map fun x => f.message x.1 x.2).map sentPart := by
    rw [j3]
    exact partOf_map (by simpa using e1) e2
  have hpd : partOf true d = some (f.upload, ⟨UInt16.ofNat f.parts.length, UInt16.ofNat (f.parts.length - 1 + 1)⟩, f.content (f.parts.length - 1)) :=
    (partOf_carries hc).trans (sentPart_again f _ serial)
  rw [Nat.sub_add_cancel hpos] at hpd
  -- which parts are stored
  have hone : ∀ x ∈ receivedIn is, ∃ i s, (i, s) ∈ again ∧ partOf true x.1 = some (f.upload, ⟨UInt16.ofNat f.parts.length, UInt16.ofNat (i + 1)⟩, f.content i) := by
    intro x hx
    have : partOf true x.1 ∈ (again.map fun x => f.message x.1 x.2).map sentPart := by
      rw [← hpm]
      exact List.mem_map_of_mem (List.mem_map_of_mem hx)
    rw [List.map_map] at this
    obtain ⟨y, hy, hyx⟩ := List.mem_map.1 this
    exact ⟨y.1, y.2, hy, hyx.symm⟩
  have hback : ∀ i s, (i, s) ∈ again → ∃ x ∈ receivedIn is, partOf true x.1 = some (f.upload, ⟨UInt16.ofNat f.parts.length, UInt16.ofNat (i + 1)⟩, f.content i) := by
    intro i s hi
    have : sentPart (f.message i s) ∈ ((receivedIn is).map (·.1)).map (partOf true) := by
      rw [hpm]
      exact List.mem_map_of_mem (List.mem_map_of_mem (f := fun x : Nat × UInt16 => f.message x.1 x.2) hi)
    rw [List.map_map] at this
    obtain ⟨x, hx, hxi⟩ := List.mem_map.1 this
    exact ⟨x, hx, hxi⟩
  have hwrite : ∀ sq dd oo, FileOp.write f.upload sq dd oo ∈ partWrites true f.upload (receivedIn (is ++ [.receive (.ok d) a])) →
      oo = .ok ∧ ∃ i, i < f.parts.length ∧ sq = UInt16.ofNat (i + 1) ∧ dd = f.content i := by
    intro sq dd oo hm
    rw [partWrites, List.mem_filterMap] at hm
    obtain ⟨x, hx, h⟩ := hm
    rw [hrec] at hx
    have hx' : ∃ i, i < f.parts.length ∧ partOf true x.1 = some (f.upload, ⟨UInt16.ofNat f.parts.length, UInt16.ofNat (i + 1)⟩, f.content i) := by
      rcases List.mem_append.1 hx with hx | hx
      · obtain ⟨i, s, h1, h2⟩ := hone x hx
        have := hagain _ h1
        exact ⟨i, by simp at this; omega, h2⟩
      · obtain rfl : x = (d, a) := by simpa using hx
        exact ⟨f.parts.length - 1, by omega, by rw [hpd, Nat.sub_add_cancel hpos]⟩
    obtain ⟨i, hi, hp⟩ := hx'
    simp only [hp, Option.bind_some, if_true, Option.some.injEq, FileOp.write.injEq] at h
    obtain ⟨-, rfl, rfl, rfl⟩ := h
    exact ⟨hw x hx, i, hi, rfl, rfl⟩
  have hwritten : ∀ i, i < f.parts.length → ((∃ s, (i, s) ∈ again) ∨ i + 1 = f.parts.length) →
      ∃ oo, FileOp.write f.upload (UInt16.ofNat (i + 1)) (f.content i) oo ∈ partWrites true f.upload (receivedIn (is ++ [.receive (.ok d) a])) := by
    intro i hi h
    rw [partWrites, hrec]
    rcases h with ⟨s, h⟩ | h
    · obtain ⟨x, hx, hxi⟩ := hback i s h
      exact ⟨x.2.write, List.mem_filterMap.2 ⟨x, List.mem_append_left _ hx, by simp [hxi]⟩⟩
    · refine ⟨a.write, List.mem_filterMap.2 ⟨(d, a), by simp, ?_⟩⟩
      simp only [hpd]
      rw [← h, Nat.add_sub_cancel]
      simp
  obtain ⟨s, log, k1, k2⟩ := last_part_merges true hg is hin hend d a hd _ hc.1 f.upload _ _ hpd rfl (hsm (o, a) (by simp)).1
    (hsm (o, a) (by simp)).2.1 hq (by
      intro x hx q dd hx1
      obtain ⟨i, s, h1, h2⟩ := hone x hx
      rw [h2] at hx1
      cases hx1
      have := hagain _ h1
      simp only at this
      refine ⟨?_, rfl, hw x (by simp [hx])⟩
      show (UInt16.ofNat (i + 1)).toNat < (UInt16.ofNat f.parts.length).toNat
      rw [hn _ (by omega), hn _ (Nat.le_refl _)]
      omega) (by
      intro i g1 g2
      simp only [hn _ (Nat.le_refl _)] at g2
      have hi : UInt16.ofNat (i.toNat - 1 + 1) = i := by rw [Nat.sub_add_cancel g1]; simp
      rcases hkept (i.toNat - 1) (by omega) with ⟨s, h⟩ | h
      · obtain ⟨x, hx, hxi⟩ := hback _ s h
        exact .inl ⟨x, hx, _, _, hxi, hi⟩
      · rw [hi] at h
        right; rw [h]; rfl)
  -- the content
  have hcontent : mergedIn f.upload (.merge f.upload .ok :: ((partWrites true f.upload (receivedIn (is ++ [.receive (.ok d) a]))).reverse ++
      g.filter fun op => op.upload = f.upload)) = some (f.parts.flatMap (·.2)) := by
    refine merged_whole ?_ hok.count ?_
    · intro sq dd oo hm
      rcases List.mem_append.1 hm with hm | hm
      · obtain ⟨-, i, h1, rfl, rfl⟩ := hwrite sq dd oo (List.mem_reverse.1 hm)
        exact ⟨i, h1, hn _ (by omega), rfl⟩
      · exact hstored sq dd oo (List.mem_filter.1 hm).1
    · intro i hi
      rw [latestIn_append, ← latestIn_own]
      cases hl : latestIn f.upload (UInt16.ofNat (i + 1)) (partWrites true f.upload (receivedIn (is ++ [.receive (.ok d) a]))).reverse with
      | some c =>
        obtain ⟨dd, oo, hm, hle⟩ := latestIn_mem hl
        obtain ⟨rfl, j, h1, h2, rfl⟩ := hwrite _ dd oo (List.mem_reverse.1 hm)
        have h2 := congrArg UInt16.toNat h2
        rw [hn _ (by omega), hn _ (by omega)] at h2
        obtain rfl : i = j := by omega
        cases hle
        rfl
      | none =>
        have hno : ¬ ((∃ s, (i, s) ∈ again) ∨ i + 1 = f.parts.length) := by
          intro h
          obtain ⟨oo, hm⟩ := hwritten i hi h
          obtain ⟨rfl, -⟩ := hwrite _ _ _ hm
          have := latestIn_of_mem (List.mem_reverse.2 hm) (by simp [leaves])
          rw [hl] at this
          cases this
        rcases hkept i (by omega) with h | h
        · exact absurd (.inl h) hno
        · exact h
  rw [hcontent] at k2
  obtain ⟨D, hD1, hD2, k2⟩ : ∃ D : Message Entity, D.body = .val (.m0801 { f.media with packet := some (f.parts.flatMap (·.2)) }) ∧ D.header.iccID = f.icc ∧
      (offered log).filter (belongs true f.upload) = [D] := by
    refine ⟨_, ?_, ?_, k2⟩
    · rfl
    · exact hc.2.2.2.1
  refine ⟨s, log, by rw [i1, k1], D, hD1, hD2, k2, ?_, ?_⟩
  · obtain ⟨s', log', h1, htr, -⟩ := run_spec true { fs := fs0 } _ rfl j2
    rw [k1] at h1
    obtain ⟨rfl, rfl⟩ : s = s' ∧ log = log' := by simpa using h1
    have hmem : D ∈ (offered log).filter (belongs true f.upload) := by rw [k2]; simp
    have hmem := (List.mem_filter.1 hmem).1
    obtain ⟨act, ha, hact⟩ := List.mem_filterMap.1 hmem
    obtain ⟨l1, l2, rfl⟩ := List.append_of_mem ha
    have hl := tr_handled htr [] (fun _ => rfl) l1 l2 _ rfl
    rw [List.nil_append] at hl
    refine ⟨l1, l2, ?_⟩
    congr 2
    cases act <;> simp only [reduceCtorEq, Option.some.injEq] at hact
    · subst hact
      rw [hl.1 _ _ rfl]
    · subst hact
      rw [hl.2 _ rfl]
  · obtain ⟨s', log', h1, -, h2, -⟩ := run_spec true { fs := fs0 } _ rfl j2
    rw [k1] at h1
    obtain ⟨rfl, rfl⟩ : s = s' ∧ log = log' := by simpa using h1
    rw [h2, hrec, ← successes_again]
    have hzip : ∀ p ∈ ((again ++ [(f.parts.length - 1, serial)]).map fun x => f.message x.1 x.2).zip (ds ++ [d]), Carries p.1.1 p.1.2 p.2 := by
      intro p hp
      rw [List.map_append, List.zip_append (by simpa using e1.symm)] at hp
      rcases List.mem_append.1 hp with hp | hp
      · exact e2 p hp
      · obtain rfl : p = (f.message (f.parts.length - 1) serial, d) := by simpa using hp
        exact hc
    refine due_map ?_ ?_ ?_ hw
    · have := congrArg List.length j1
      simp at this ⊢
      omega
    · rw [j1]
      exact hzip
    · intro x hx b hb
      obtain ⟨y, -, rfl⟩ := List.mem_map.1 hx
      cases hb
      rfl

/-! ## What is left -/

/-- C99: a server process may end at any moment, also in the middle of a call, and be started again any number of times. A part that was stored without
error and that no process tried to store again is there afterwards with its content, whatever else was interrupted. -/
theorem C99_kept (env : Env) (key : Option DecKey) (endErr : Err) (auto : Bool) (ls : List Life) (hown : ∀ l ∈ ls, OwnUploads env key endErr auto l.reads)
    (fs : FS) (logs : List (List Item)) (h : lives env key endErr auto (fun _ => none) ls = .ok (fs, logs)) (hlist : ∀ log ∈ logs, AllListed log)
    (u : Upload) (i : UInt16) (d : Bytes) (hk : Kept u i d logs) : Files.content fs (u.icc, (u.multipart 0).partName i) = some d := by
  obtain ⟨new, g1, -, g2, -⟩ := Syscall.lives_rests Files.rests_empty hown h hlist
  exact (g1.parts u i).trans (g2 u i d hk)

/-- C99: a part that a process leaves behind is the beginning of a part that arrived. -/
theorem C99_only_what_arrived (env : Env) (key : Option DecKey) (endErr : Err) (auto : Bool) (ls : List Life)
    (hown : ∀ l ∈ ls, OwnUploads env key endErr auto l.reads) (fs : FS) (logs : List (List Item))
    (h : lives env key endErr auto (fun _ => none) ls = .ok (fs, logs)) (hlist : ∀ log ∈ logs, AllListed log)
    (u : Upload) (i : UInt16) (c : Bytes) (hc : Files.content fs (u.icc, (u.multipart 0).partName i) = some c) :
    ∃ l ∈ ls, ∃ k m p d, ArrivesOn env key endErr (l.reads k) m ∧ partOf auto m = some (u, p, d) ∧ p.seq = i ∧ c <+: d := by
  obtain ⟨new, g1, g2, -⟩ := Syscall.lives_rests Files.rests_empty hown h hlist
  have hl : latestIn u i new.reverse = some c := ((g1.parts u i).symm.trans hc :)
  obtain ⟨d, o, hm, hle⟩ := latestIn_mem hl
  obtain ⟨l, hl, k, m, p, e1, e2, e3⟩ := g2 u i d o (List.mem_reverse.1 hm)
  refine ⟨l, hl, k, m, p, d, e1, e2, e3, ?_⟩
  cases o <;> simp only [leaves, Option.some.injEq, reduceCtorEq] at hle <;> subst hle
  · exact List.prefix_refl _
  · exact List.take_prefix _ _

/-- C99: also on files that earlier processes left behind it makes no difference to handlers, terminals and sessions that system calls interleave (C93): every
call that stores, checks or merges could have been made at once. -/
theorem C99_as_if_at_once (env : Env) (key : Option DecKey) (endErr : Err) (auto : Bool) (ls : List Life) (hown : ∀ l ∈ ls, OwnUploads env key endErr auto l.reads)
    (fs : FS) (logs : List (List Item)) (h0 : lives env key endErr auto (fun _ => none) ls = .ok (fs, logs)) (hlist0 : ∀ log ∈ logs, AllListed log)
    (reads : Nat → List Bytes) (hown' : OwnUploads env key endErr auto reads) (es : List Event) (s : State) (log : List Item)
    (h : (Syscall.startOn fs reads).run env key endErr auto es = .ok (s, log)) (hlist : AllListed log) :
    ∃ es' t alog, (System.startOn fs reads).run env key endErr auto es' = .ok (t, alog) ∧ Each (SameAct auto) (actsIn log) alog ∧
      (∀ k, Each (Told auto) (gotBy k log) (handledBy k alog)) ∧ ∀ k, ((s.conns k).place = .ended ↔ (t.conns k).place = .ended) := by
  obtain ⟨new, g1, -⟩ := Syscall.lives_rests Files.rests_empty hown h0 hlist0
  obtain ⟨t, y, g⟩ := (Syscall.rests_sim g1).run hown' h (Syscall.allListed_rests hlist)
  obtain ⟨es', h'⟩ := g.atOnce
  have hacts := g.acts
  rw [actsIn_append, actsIn_file, List.nil_append] at hacts
  refine ⟨es', t, _, h', hacts, ?_, ?_⟩
  · intro k
    have := g.told k
    unfold gotBy at this ⊢
    rw [List.foldl_append] at this
    have e : ((new.map Files.asObs).map Item.file).foldl (gotNext k) [] = [] := Syscall.gotBy_files _ _
    rw [List.nil_append, e] at this
    exact this
  · intro k
    have := g.place k
    generalize (s.conns k).place = p at this
    generalize (t.conns k).place = q at this
    cases this <;> simp

/-- C99: uploads survive a restart of the server. Processes of the server end at any moment, also in the middle of calls, and are started again. A terminal
uploads a file in parts of at most 987 bytes; no other parts of this upload arrived. In the last process it sends again parts before the last one, in any
order, among them all that were not stored, or for which another attempt was made afterwards; and then the last part. Whatever the other connections do:
when its connection has ended, storing and merging did not fail for it and no directory was unreadable, then all these parts were answered with "success",
exactly one message was passed on for it, to the handler registered last, with the number of the terminal and the media data, and whenever the handler has
read in the file it was given, it has read a beginning of the file the terminal has and nothing else, and the whole file if it has read to the end. -/
theorem C99_upload_completes (env : Env) (key : Option DecKey) (endErr : Err) (f : FileUpload) (hok : f.OK env) (hne : f.parts ≠ [])
    (ls : List Life) (hown : ∀ l ∈ ls, OwnUploads env key endErr true l.reads)
    (hfits : ∀ l ∈ ls, ∀ k m, ArrivesOn env key endErr (l.reads k) m → f.Fits m)
    (fs : FS) (logs : List (List Item)) (h0 : lives env key endErr true (fun _ => none) ls = .ok (fs, logs)) (hlist0 : ∀ log ∈ logs, AllListed log)
    (again : List (Nat × UInt16)) (hagain : ∀ x ∈ again, x.1 + 1 < f.parts.length) (serial : UInt16)
    (hkept : ∀ i, i + 1 < f.parts.length → (∃ s, (i, s) ∈ again) ∨ Kept f.upload (UInt16.ofNat (i + 1)) (f.content i) logs) :
    ∃ sent : List Bytes,
      ((again ++ [(f.parts.length - 1, serial)]).map fun x => sendBytes (entityCodec env) none (f.message x.1 x.2).1) = sent.map .ok ∧
      ∀ (reads : Nat → List Bytes) (k : Nat), (∀ c ∈ reads k, c.length ≤ 128) → (reads k).flatten = sent.flatten → OwnUploads env key endErr true reads →
        ∀ es s log, (Syscall.startOn fs reads).run env key endErr true es = .ok (s, log) → AllListed log →
          (s.conns k).place = .ended → (∀ a ∈ actsOf k (actsIn log), Succeeded a) →
          replies (actsOf k (actsIn log)) = ((again ++ [(f.parts.length - 1, serial)]).map fun x => (x.2, 0x0801, 0)) ∧
          ∃ d, d.body = .val (.m0801 { f.media with packet := none }) ∧ d.header.iccID = f.icc ∧
            offered (actsOf k (actsIn log)) = [d] ∧ Given ((actsIn log).filterMap (seenBy k)) d ∧
            ∀ g ∈ gotBy k log, g.message = d ∧ g.read <+: f.parts.flatMap (·.2) ∧ (g.toEnd = true → g.read = f.parts.flatMap (·.2)) := by
  have hpos : 0 < f.parts.length := List.length_pos_iff.2 hne
  generalize hxs : again ++ [(f.parts.length - 1, serial)] = xs
  have hlt : ∀ x ∈ xs, x.1 < f.parts.length := by
    intro x hx
    rw [← hxs] at hx
    rcases List.mem_append.1 hx with hx | hx
    · have := hagain x hx; omega
    · obtain rfl : x = _ := by simpa using hx
      exact Nat.sub_lt hpos Nat.one_pos
  obtain ⟨sent, h1, h2⟩ := C12_end_to_end env key endErr (xs.map fun x => f.message x.1 x.2) (by
    intro y hy
    obtain ⟨x, hx, rfl⟩ := List.mem_map.1 hy
    exact sendable_again hok (hlt x hx) x.2)
  rw [List.map_map] at h1
  refine ⟨sent, h1, ?_⟩
  intro reads k hr hs hown' es s log h hlist hend hsucc
  have h3 := h2 (reads k) hr hs
  -- what arrives
  have harrive : ∀ m, ArrivesOn env key endErr (reads k) m → belongs true f.upload m = true := by
    intro m hm
    obtain ⟨x, -, -, hx⟩ := again_arrivals key endErr hok hlt h1 hr hs hm
    unfold belongs
    rw [hx]
    simp
  have hfirst : ∃ m, ArrivesOn env key endErr (reads k) m := by
    obtain ⟨ds, e1, -, e3⟩ := h3 0
    have hxl : 0 < xs.length := by rw [← hxs]; simp
    refine ⟨ds[0]'(by rw [e1]; simpa using hxl), (xs.map fun x => f.message x.1 x.2).length + 0, ?_⟩
    rw [e3]
    exact List.mem_append_left _ (List.mem_map_of_mem (List.getElem_mem _))
  have hothers : ∀ j, j ≠ k → ∀ m', ArrivesOn env key endErr (reads j) m' → belongs true f.upload m' = false := by
    intro j hj m' hm'
    obtain ⟨m, hm⟩ := hfirst
    cases hb : belongs true f.upload m' with
    | false => rfl
    | true => exact absurd (hown' j k f.upload m' m hm' hm hb (harrive m hm)) hj
  -- the files that are left
  obtain ⟨new, g1, g2, g3, -⟩ := Syscall.lives_rests Files.rests_empty hown h0 hlist0
  rw [List.nil_append] at g1 g3
  have hstored : FileUpload.Stored f new.reverse := by
    intro sq d o hm
    obtain ⟨l, hl, j, m, p, e1, e2, rfl⟩ := g2 _ _ _ _ (List.mem_reverse.1 hm)
    exact hfits l hl j m e1 p d e2
  obtain ⟨es', t, alog, h', hacts, htold, hc⟩ := C99_as_if_at_once env key endErr true ls hown fs logs h0 hlist0 reads hown' es s log h hlist
  obtain ⟨log0, log1, ⟨d', k1, k2, k3, k4, k5⟩, hlog, ho, hp'⟩ := alone_to_system_on fs env key endErr (xs.map fun x => f.message x.1 x.2) f.upload
    (fun log => ∃ d, d.body = .val (.m0801 { f.media with packet := some (f.parts.flatMap (·.2)) }) ∧ d.header.iccID = f.icc ∧
      (offered log).filter (belongs true f.upload) = [d] ∧ Given log d ∧ replies log = xs.map fun x => (x.2, 0x0801, 0))
    reads k h3 (by
      intro turns ht hsm
      obtain ⟨ds', e1, e2, e3⟩ := h3 0
      subst hxs
      obtain ⟨ds, d, rfl⟩ : ∃ ds d, ds' = ds ++ [d] := by
        rcases List.eq_nil_or_concat ds' with h | ⟨ds, d, h⟩
        · subst h; simp at e1
        · exact ⟨ds, d, by simpa using h⟩
      have hlen : ds.length = again.length := by simpa using e1
      rw [List.map_append, List.zip_append (by simpa using hlen.symm)] at e2
      refine completes_alone env key endErr f hok hne g1.after hstored again hagain serial ?_ (reads k) ds hlen d
        (fun p hp => e2 p (List.mem_append_left _ hp)) (e2 (f.message (f.parts.length - 1) serial, d) (by simp)) ?_ turns (by simpa using ht) hsm
      · intro i hi
        rcases hkept i hi with h | h
        · exact .inl h
        · exact .inr (g3 _ _ _ h)
      · have : ((again ++ [(f.parts.length - 1, serial)]).map fun x => f.message x.1 x.2).length + 0 = ds.length + 1 := by simp [hlen]
        rw [this] at e3
        simpa using e3) hothers es' t alog h' ((hc k).1 hend) (Syscall.succeeded_same hacts k hsucc)
  have k3 : offered (actsOf k alog) = [d'] := by
    rw [← System.offered_bound_on (u := f.upload) harrive h', ← System.offered_seen, hlog, offered_append, ho, List.append_nil, k3]
  have k4 : Given (alog.filterMap (seenBy k)) d' := by
    obtain ⟨before, after, hg⟩ := k4
    refine ⟨before, after ++ log1, ?_⟩
    rw [hlog, hg]
    simp
  have k5 : replies (actsOf k alog) = xs.map fun x => (x.2, 0x0801, 0) := by
    rw [← System.replies_seen, hlog, replies_append, hp', List.append_nil, k5]
  refine ⟨by rw [Syscall.replies_same hacts, k5], ?_⟩
  have hoff := Syscall.offered_same hacts k
  rw [k3] at hoff
  have hpart : isPart true d' = true := by
    have : d' ∈ (offered (actsOf k alog)).filter (belongs true f.upload) := by
      rw [System.offered_bound_on (u := f.upload) harrive h', k3]
      simp
    exact Syscall.isPart_of_belongs (List.mem_filter.1 this).2
  obtain ⟨d, hx, hsame⟩ : ∃ d, offered (actsOf k (actsIn log)) = [d] ∧ SameToRead true d d' := by
    generalize offered (actsOf k (actsIn log)) = x at hoff
    cases hoff with
    | cons h1 h2 => cases h2; exact ⟨_, rfl, h1⟩
  have unread : ∀ {m : Message Entity} {c : Bytes}, Unread m d' c →
      m = { d' with body := .val (.m0801 { f.media with packet := none }) } ∧ c = f.parts.flatMap (·.2) := by
    rintro ⟨hd, bd⟩ c ⟨b, rfl, rfl⟩
    simp only [Body.val.injEq, Entity.m0801.injEq] at k1
    obtain ⟨b1, b2, b3, b4, b5, b6, b7⟩ := b
    generalize f.media = md at k1
    obtain ⟨c1, c2, c3, c4, c5, c6, c7⟩ := md
    simp only [T0801.mk.injEq] at k1
    obtain ⟨rfl, rfl, rfl, rfl, rfl, rfl, k1⟩ := k1
    exact ⟨rfl, Option.some.inj k1⟩
  rcases hsame with ⟨h0, -⟩ | ⟨-, c, hu⟩
  · rw [hpart] at h0; cases h0
  obtain ⟨rfl, -⟩ := unread hu
  refine ⟨{ d' with body := .val (.m0801 { f.media with packet := none }) }, rfl, k2, hx, ?_, ?_⟩
  · obtain ⟨d2, hs2, hg⟩ := Syscall.given_same hacts k4
    rcases hs2 with ⟨h0, -⟩ | ⟨-, c2, hu2⟩
    · rw [hpart] at h0; cases h0
    · obtain ⟨rfl, -⟩ := unread hu2
      exact hg
  · intro g hg
    obtain ⟨x, hx, -, ht⟩ := Syscall.each_mem (htold k) hg
    have := Syscall.handled_offered hx
    rw [k3, List.mem_singleton] at this
    rw [this] at ht
    rcases ht with ⟨h0, -⟩ | ⟨-, c3, hu3, h2, h3⟩
    · rw [hpart] at h0; cases h0
    · obtain ⟨h4, rfl⟩ := unread hu3
      exact ⟨h4, h2, h3⟩

/-- The condition on what arrived holds for a terminal that sends nothing but parts of the file. -/
theorem C99_parts_fit (env : Env) (key : Option DecKey) (endErr : Err) (f : FileUpload) (hok : f.OK env) (xs : List (Nat × UInt16))
    (hlt : ∀ x ∈ xs, x.1 < f.parts.length) (sent : List Bytes)
    (hsent : (xs.map fun x => sendBytes (entityCodec env) none (f.message x.1 x.2).1) = sent.map .ok) (reads : List Bytes) (hr : ∀ c ∈ reads, c.length ≤ 128)
    (hs : reads.flatten = sent.flatten) (m : Message Entity) (h : ArrivesOn env key endErr reads m) : f.Fits m := by
  obtain ⟨x, hx, -, hp⟩ := again_arrivals key endErr hok hlt hsent hr hs h
  intro p d hpd
  rw [hp] at hpd
  cases hpd
  have := hlt x hx
  exact ⟨x.1, this, ofNat_toNat_lt (by have := hok.count; omega), rfl⟩

/-- C99: what earlier processes left behind does not crash the server: also then no schedule of system calls does, with the exceptions of C93. -/
theorem C99_no_crash (env : Env) (key : Option DecKey) (hkey : ∀ k, key = some k → 0 < k.size) (endErr : Err) (auto : Bool)
    (ls : List Life) (hown : ∀ l ∈ ls, OwnUploads env key endErr auto l.reads)
    (fs : FS) (logs : List (List Item)) (h0 : lives env key endErr auto (fun _ => none) ls = .ok (fs, logs)) (hlist0 : ∀ log ∈ logs, AllListed log)
    (reads : Nat → List Bytes) (hclean : ∀ k x, ¬ [0x7e, x, 0x7e] <:+: (reads k).flatten) (hown' : OwnUploads env key endErr auto reads) (es : List Event) :
    (∃ s log, (Syscall.startOn fs reads).run env key endErr auto es = .ok (s, log) ∧ AllListed log) ∨
      ∃ before k after s log m b p, es = before ++ .sys k .fail :: after ∧ (Syscall.startOn fs reads).run env key endErr auto before = .ok (s, log) ∧
        ((s.conns k).place = .checking m b p ∨ (s.conns k).place = .merging m b p) := by
  obtain ⟨new, g1, -⟩ := Syscall.lives_rests Files.rests_empty hown h0 hlist0
  refine (Syscall.rests_sim g1).run_ok hown' (fun k => System.noCrash_of_clean hkey (hclean k)) ?_ es
  have := Syscall.allListed_rests (ops := [] ++ new) (log := []) (by simp [AllListed])
  rwa [List.append_nil] at this

/-! ## Concrete cases -/

/-- Only the last part of the file of connection 1 arrives, with this serial number. -/
def Sample.lastOnly (serial : UInt16) : Nat → List Bytes
  | 1 => match sendBytes (entityCodec Sample.env) none ((Sample.files 1).message 1 serial).1 with
    | .ok b => [b.take 30, b.drop 30]
    | _ => []
  | _ => []

/-- The steps of connection 1 for the last part until the handler is called. -/
def Sample.lastPart (names : List Bytes) : List Event :=
  [.receive 1, .process 1 .returns] ++ Sample.writing 1 ++ [.check 1] ++ Sample.walk 1 names false ++ [.merge 1] ++ Sample.walk 1 names.reverse true ++
    [.sys 1 .ok, .sys 1 (.bytes 1), .sys 1 (.bytes 1), .sys 1 (.bytes 1), .sys 1 (.bytes 1), .sys 1 (.bytes 1), .sys 1 .ok, .sys 1 .ok, .note 1 .returns,
      .dispatch 1]

/-- The first process ends while the last part is stored: its file has been made and is still empty. Another terminal uploads at the same time. -/
def Sample.firstLife : Life :=
  ⟨Sample.pieces, Sample.alternate ([.receive 1, .process 1 .returns] ++ Sample.writing 1 ++ [.check 1, .receive 1, .process 1 .panics, .sys 1 .ok, .sys 1 .ok])
    ([.receive 2, .process 2 .returns] ++ Sample.writing 2 ++ [.check 2])⟩

/-- The second process ends while the parts are merged. -/
def Sample.secondLife : Life := ⟨Sample.lastOnly 40, (Sample.lastPart (Sample.partNames 1)).take 24⟩

/-- What the first two processes leave. -/
def Sample.left : FS :=
  match lives Sample.env none .eof true (fun _ => none) [Sample.firstLife, Sample.secondLife] with
  | .ok r => r.1
  | _ => fun _ => none

/-- What they have done. -/
def Sample.logs : List (List Item) :=
  match lives Sample.env none .eof true (fun _ => none) [Sample.firstLife, Sample.secondLife] with
  | .ok r => r.2
  | _ => []

/-- What is observed in a process with the files that were left, when the last part is sent once more; whether the connection has ended. -/
def Sample.thirdLife : Bool × List Item :=
  match (Syscall.startOn Sample.left (Sample.lastOnly 41)).run Sample.env none .eof true (.addHandler 0x0801 (some 9) :: Sample.lastPart (Sample.partNames 1 ++
      [(⟨19901234567, 0x0801, Sample.media.mediaID, 2⟩ : Multipart).fullName]) ++ Sample.handling 1) with
  | .ok (s, log) => (decide ((s.conns 1).place = .ended), log)
  | _ => (false, [])

/-- What is left: part 1 as it was sent, part 2, and the beginning of the merged file. -/
example : ((Sample.partNames 1).map fun n => Files.content Sample.left (19901234567, n)) = [some [1, 2], some [3]] ∧
    Files.content Sample.left (19901234567, (⟨19901234567, 0x0801, Sample.media.mediaID, 2⟩ : Multipart).fullName) = some [1] := by
  refine ⟨?_, ?_⟩ <;> decide +kernel

/-- In the third process the handler reads the file. -/
example : Sample.thirdLife.1 = true ∧ ((gotBy 1 Sample.thirdLife.2).map fun g => (g.handler, g.read, g.toEnd)) = [(9, [1, 2, 3], true)] ∧
    replies (actsOf 1 (actsIn Sample.thirdLife.2)) = [(41, 0x0801, 0)] := by
  refine ⟨?_, ?_, ?_⟩ <;> decide +kernel

theorem Sample.lives_run : lives Sample.env none .eof true (fun _ => none) [Sample.firstLife, Sample.secondLife] = .ok (Sample.left, Sample.logs) := by
  have h : (match lives Sample.env none .eof true (fun _ => none) [Sample.firstLife, Sample.secondLife] with
    | .ok _ => true | _ => false) = true := by decide +kernel
  unfold Sample.left Sample.logs
  generalize lives Sample.env none .eof true (fun _ => none) [Sample.firstLife, Sample.secondLife] = r at h ⊢
  cases r <;> first | rfl | cases h

instance : DecidablePred Succeeded := fun a => by cases a <;> unfold Succeeded <;> infer_instance

theorem allListed_of {log : List Item} (h : (log.all fun | .file (.unlisted _ _) => false | _ => true) = true) : AllListed log := by
  intro k m hm
  exact absurd (List.all_eq_true.1 h _ hm) (by simp)

theorem arrives_empty {env : Env} {key : Option DecKey} {endErr : Err} {m : Message Entity} : ¬ ArrivesOn env key endErr [] m := by
  intro h
  obtain ⟨sent, h1, h2⟩ := C12_end_to_end env key endErr [] (by simp)
  obtain rfl : sent = [] := by cases sent with
    | nil => rfl
    | cons a b => simp at h1
  obtain ⟨n, hm⟩ := h
  obtain ⟨ds, e1, -, e3⟩ := h2 [] (by simp) rfl n
  rw [List.length_nil, Nat.zero_add] at e3
  rw [e3, List.eq_nil_of_length_eq_zero e1] at hm
  simp at hm

theorem Sample.files_ok (k : Nat) : (Sample.files k).OK Sample.env := by
  unfold Sample.files
  split
  all_goals exact ⟨by decide, by decide, Sample.media_ok, rfl, by decide, by decide⟩

theorem Sample.lastOnly_own (serial : UInt16) : OwnUploads Sample.env none .eof true (Sample.lastOnly serial) := by
  have h : ∀ j m, ArrivesOn Sample.env none .eof (Sample.lastOnly serial j) m → j = 1 := by
    intro j m hm
    unfold Sample.lastOnly at hm
    split at hm
    · rfl
    · exact absurd hm arrives_empty
  intro j k u m m' h1 h2 _ _
  rw [h j m h1, h k m' h2]

/-- What the terminals of the first process send fits the file of connection 1. -/
theorem Sample.pieces_fit (k : Nat) (m : Message Entity) (h : ArrivesOn Sample.env none .eof (Sample.pieces k) m) : (Sample.files 1).Fits m := by
  by_cases hk : k = 1
  · subst hk
    exact C99_parts_fit Sample.env none .eof (Sample.files 1) (Sample.files_ok 1) [(0, 7), (1, 8)] (by decide) (Sample.sentBy 1) (by decide +kernel)
      (Sample.pieces 1) (by decide +kernel) (by decide +kernel) m h
  · obtain ⟨-, harr⟩ := files_arrivals Sample.env none .eof Sample.files Sample.files_ok Sample.sentBy
      (fun
        | 0 => rfl
        | 1 => by decide +kernel
        | 2 => by decide +kernel
        | _ + 3 => rfl)
      Sample.pieces
      (fun
        | 0 => ⟨by simp [Sample.pieces, Sample.files, FileUpload.messages, uploadMessages], rfl⟩
        | 1 => by decide +kernel
        | 2 => by decide +kernel
        | _ + 3 => ⟨by simp [Sample.pieces, Sample.files, FileUpload.messages, uploadMessages], rfl⟩)
    obtain ⟨h1, h2⟩ := harr k m h
    intro p d hp
    have hb : belongs true (Sample.files 1).upload m = true := by simp [belongs, hp]
    have := (h2 _).1 hb
    exfalso
    clear h2 hb hp h p d
    unfold Sample.files at h1 this
    split at h1 <;> simp_all <;> revert this <;> decide

theorem Sample.lastOnly_fit (k : Nat) (m : Message Entity) (h : ArrivesOn Sample.env none .eof (Sample.lastOnly 40 k) m) : (Sample.files 1).Fits m := by
  by_cases hk : k = 1
  · subst hk
    exact C99_parts_fit Sample.env none .eof (Sample.files 1) (Sample.files_ok 1) [(1, 40)] (by decide) [(Sample.lastOnly 40 1).flatten] (by decide +kernel)
      (Sample.lastOnly 40 1) (by decide +kernel) (by simp) m h
  · have : Sample.lastOnly 40 k = [] := by
      unfold Sample.lastOnly
      split
      · exact absurd rfl hk
      · rfl
    rw [this] at h
    exact absurd h arrives_empty

/-- Part 1 was stored in the first process, and nobody tried to store it again. -/
theorem Sample.kept : Kept (Sample.files 1).upload 1 ((Sample.files 1).content 0) Sample.logs := by
  have h1 : Sample.logs = [Sample.logs.getD 0 [], Sample.logs.getD 1 []] := by decide +kernel
  have h2 : Sample.logs.getD 0 [] = (Sample.logs.getD 0 []).take 9 ++
      .file (.wrote 1 ⟨19901234567, 0x0801, Sample.media.mediaID, 2⟩ 1 [1, 2] .ok) :: (Sample.logs.getD 0 []).drop 10 := by decide +kernel
  refine ⟨[], _, [_], h1, ⟨_, 1, _, _, h2, rfl, ?_⟩, ?_⟩
  · decide +kernel
  · have : ∀ x ∈ Sample.logs.getD 1 [], ¬ Storing (Sample.files 1).upload 1 x := by decide +kernel
    simpa using this

/-- The conditions of `C99_upload_completes` are met: nothing but the last part has to be sent again. -/
example : ∃ sent : List Bytes, ∀ (reads : Nat → List Bytes) (k : Nat), (∀ c ∈ reads k, c.length ≤ 128) → (reads k).flatten = sent.flatten →
    OwnUploads Sample.env none .eof true reads → ∀ es s log, (Syscall.startOn Sample.left reads).run Sample.env none .eof true es = .ok (s, log) → AllListed log →
      (s.conns k).place = .ended → (∀ a ∈ actsOf k (actsIn log), Succeeded a) → ∀ g ∈ gotBy k log, g.toEnd = true → g.read = [1, 2, 3] := by
  obtain ⟨sent, -, h⟩ := C99_upload_completes Sample.env none .eof (Sample.files 1) (Sample.files_ok 1) (by decide) [Sample.firstLife, Sample.secondLife]
    (by
      intro l hl
      rcases List.mem_cons.1 hl with rfl | hl
      · exact Sample.pieces_own
      · obtain rfl : l = _ := by simpa using hl
        exact Sample.lastOnly_own 40)
    (by
      intro l hl
      rcases List.mem_cons.1 hl with rfl | hl
      · exact Sample.pieces_fit
      · obtain rfl : l = _ := by simpa using hl
        exact Sample.lastOnly_fit)
    Sample.left Sample.logs Sample.lives_run
    (by
      have : ∀ log ∈ Sample.logs, (log.all fun | .file (.unlisted _ _) => false | _ => true) = true := by decide +kernel
      exact fun log hl => allListed_of (this log hl))
    [] (by simp) 41 (by
      intro i hi
      obtain rfl : i = 0 := by simp [Sample.files] at hi; omega
      exact .inr Sample.kept)
  refine ⟨sent, ?_⟩
  intro reads k a1 a2 a3 es s log a4 a5 a6 a7 g hg he
  obtain ⟨-, d, -, -, -, -, hx⟩ := h reads k a1 a2 a3 es s log a4 a5 a6 a7
  exact (hx g hg).2.2 he

/-- All this can happen in the third process: no call fails and no directory is unreadable. -/
example : (∀ a ∈ actsOf 1 (actsIn Sample.thirdLife.2), Succeeded a) ∧ AllListed Sample.thirdLife.2 ∧ OwnUploads Sample.env none .eof true (Sample.lastOnly 41) :=
  ⟨by decide +kernel, allListed_of (by decide +kernel), Sample.lastOnly_own 41⟩

/-! ## Without the conditions -/

/-- A process that ends when one byte of the two of part 1 has been written. -/
def Sample.tearing : Life := ⟨Sample.pieces, [.receive 1, .process 1 .returns, .sys 1 .ok, .sys 1 .ok, .sys 1 (.bytes 1)]⟩

/-- The next one: only the last part arrives. -/
def Sample.unaware : Life := ⟨Sample.lastOnly 40, .addHandler 0x0801 (some 9) :: Sample.lastPart (Sample.partNames 1) ++ Sample.handling 1⟩

/-- C99 needs that parts are sent again that were not answered with "success": the server does not notice that a part was torn when it ended. Here the file
is [1, 2, 3] in two parts, the process ends while part 1 is stored, and when part 2 arrives at the next process, no call fails, the part is answered with
"success", and the handler reads to the end a file that nobody sent. -/
theorem C99_torn_part_matters : ∃ fs log1 log2, lives Sample.env none .eof true (fun _ => none) [Sample.tearing, Sample.unaware] = .ok (fs, [log1, log2]) ∧
    (Sample.files 1).parts.flatMap (·.2) = [1, 2, 3] ∧ ((gotBy 1 log2).map fun g => (g.read, g.toEnd)) = [([1, 3], true)] ∧
    replies (actsOf 1 (actsIn log2)) = [(40, 0x0801, 0)] ∧ ∀ a ∈ actsOf 1 (actsIn log2), Succeeded a := by
  have h : (match lives Sample.env none .eof true (fun _ => none) [Sample.tearing, Sample.unaware] with
      | .ok (_, [_, log]) => some ((gotBy 1 log).map fun g => (g.read, g.toEnd), replies (actsOf 1 (actsIn log)), decide (∀ a ∈ actsOf 1 (actsIn log), Succeeded a))
      | _ => none) = some ([([1, 3], true)], [(40, 0x0801, 0)], true) := by decide +kernel
  split at h
  · rename_i fs log1 log2 hr
    simp only [Option.some.injEq, Prod.mk.injEq, decide_eq_true_eq] at h
    exact ⟨fs, log1, log2, hr, rfl, h.1, h.2.1, h.2.2⟩
  · cases h

end Verif
