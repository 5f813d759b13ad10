import Verif.Lemmas.Syscall
/-! # Lemmas: a run in which system calls interleave, step by step along a run in which calls are made at once -/

namespace Verif.Syscall
open Handler Session Spec Codec
open Files (By Elsewhere Basic OpFor opsOf_append heard_append)

/-- A part of the upload arrives on connection `k`. -/
def Owns (env : Env) (key : Option DecKey) (endErr : Err) (auto : Bool) (reads : Nat → List Bytes) (k : Nat) (u : Upload) : Prop :=
  ∃ m, ArrivesOn env key endErr (reads k) m ∧ belongs auto u m = true

variable {env : Env} {key : Option DecKey} {endErr : Err} {auto : Bool} {reads : Nat → List Bytes} {fs0 : FS}

/-- Connection `k` has the merged file of an upload open, with content `c`. -/
def Reading (env : Env) (key : Option DecKey) (endErr : Err) (auto : Bool) (reads : Nat → List Bytes) (f : Files.State) (log : List Item) (k : Nat) (c : Bytes) :
    Prop :=
  ∃ file pos, f.reader k = some (file, pos) ∧ merged (opsOf (filesIn log)) (uploadOf file) = some c ∧ Owns env key endErr auto reads k (uploadOf file)

/-- The message `m'` is a merged upload with content `c`, and `m` is the same with the merged file as reader. -/
def Opened (auto : Bool) (m m' : Message Entity) (c : Bytes) : Prop := isPart auto m' = true ∧ Unread m m' c

/-- Messages of this kind are put together. -/
def Flagged (auto : Bool) (m : Message Entity) : Prop := (auto && packetFlag m.header.property.toNat) = true

/-- Where a connection is when calls are made at once. -/
inductive Linked (env : Env) (key : Option DecKey) (endErr : Err) (auto : Bool) (reads : Nat → List Bytes) (f : Files.State) (log : List Item)
    (alog : List (Nat × Act)) (k : Nat) : Place → System.Place → Prop where
  | waiting : f.doing k = none → Linked env key endErr auto reads f log alog k .waiting .waiting
  | received (m : Message Entity) : f.doing k = none → Linked env key endErr auto reads f log alog k (.received m) (.received m)
  | storing {m : Message Entity} {b : T0801} {p : Packet} {data : Bytes} : f.doing k = some (.write (Loop.partFile m b p) p.seq data) →
      m.body = .val (.m0801 b) → m.header.packet = some p → b.packet = some data → ¬ (!auto || !Property.isEnablePacket m.header.property) = true →
      Linked env key endErr auto reads f log alog k (.storing m b p) (.received m)
  | stored (m : Message Entity) (b : T0801) (p : Packet) : f.doing k = none → hasDir (opsOf (filesIn log)) m.header.iccID → Flagged auto m →
      Linked env key endErr auto reads f log alog k (.stored m b p) (.stored m b p)
  | checking {m : Message Entity} {b : T0801} {p : Packet} : f.doing k = some (.isFull (Loop.partFile m b p)) →
      hasDir (opsOf (filesIn log)) m.header.iccID → p.seq = p.sum → Flagged auto m → Linked env key endErr auto reads f log alog k (.checking m b p) (.stored m b p)
  | full (m : Message Entity) (b : T0801) (p : Packet) : f.doing k = none → hasDir (opsOf (filesIn log)) m.header.iccID → Flagged auto m →
      Linked env key endErr auto reads f log alog k (.full m b p) (.full m b p)
  | merging {m : Message Entity} {b : T0801} {p : Packet} : f.doing k = some (.merge (Loop.partFile m b p)) →
      hasDir (opsOf (filesIn log)) m.header.iccID → Flagged auto m → Linked env key endErr auto reads f log alog k (.merging m b p) (.full m b p)
  | merged {m m' : Message Entity} {c : Bytes} : Opened auto m m' c → Reading env key endErr auto reads f log k c → heard k (filesIn log) = [] →
      Linked env key endErr auto reads f log alog k (.merged m) (.merged m')
  | noted (m : Message Entity) : f.doing k = none → isPart auto m = false → Linked env key endErr auto reads f log alog k (.noted m) (.noted m)
  | notedUpload {m m' : Message Entity} {c : Bytes} : Opened auto m m' c → Reading env key endErr auto reads f log k c → heard k (filesIn log) = [] →
      Linked env key endErr auto reads f log alog k (.noted m) (.noted m')
  | handling : f.doing k = none → Linked env key endErr auto reads f log alog k .handling .waiting
  | handlingUpload {m' : Message Entity} {c : Bytes} {h : Nat} {g : Got} {gs : List Got} {hs : List (Nat × Message Entity)} : Opened auto g.message m' c →
      Reading env key endErr auto reads f log k c → gotBy k log = g :: gs → g.read = heard k (filesIn log) → handledBy k alog = (h, m') :: hs →
      Linked env key endErr auto reads f log alog k .handling .waiting
  | ended : f.doing k = none → Linked env key endErr auto reads f log alog k .ended .ended

/-- Both runs have come to the same point. -/
structure Sim (env : Env) (key : Option DecKey) (endErr : Err) (auto : Bool) (reads : Nat → List Bytes) (fs0 : FS) (s : State) (log : List Item) (t : System.State)
    (alog : List (Nat × Act)) : Prop where
  files : ∃ log0 evs l, Files.Founded fs0 log0 ∧ ({ fs := fs0 } : Files.State).run evs = .ok (s.files, l) ∧ filesIn log = log0 ++ l
  atOnce : ∃ es, (System.startOn fs0 reads).run env key endErr auto es = .ok (t, alog)
  acts : Each (SameAct auto) (actsIn log) alog
  store : After (opsOf (filesIn log)).reverse t.fs
  handlers : s.handlers = t.handlers
  recv : ∀ k, (s.conns k).recv = (t.conns k).recv
  requests : ∀ k, (s.conns k).requests = (t.conns k).requests
  icc : ∀ k, (s.conns k).icc = (t.conns k).icc
  place : ∀ k, Linked env key endErr auto reads s.files log alog k (s.conns k).place (t.conns k).place
  owner : ∀ k c, .began k c ∈ filesIn log → Owns env key endErr auto reads k (callUpload c)
  told : ∀ k, Each (Told auto) (gotBy k log) (handledBy k alog)

theorem hasDir_more {a b : List FileOp} {icc : UInt64} (h : hasDir a icc) : hasDir (a ++ b) icc := by
  obtain ⟨op, hm, h⟩ := h
  exact ⟨op, List.mem_append_left _ hm, h⟩

theorem merged_more {a b : List FileOp} {u : Upload} (h : ∀ op ∈ b, op.upload ≠ u) : merged (a ++ b) u = merged a u := by
  unfold merged
  rw [List.reverse_append, mergedIn_append]
  intro o ho
  exact h _ (List.mem_reverse.1 ho) rfl

/-- A connection to which nothing happens stays where it is. -/
theorem Linked.aside {f f' : Files.State} {log x : List Item} {alog y : List (Nat × Act)} {i : Nat} {p : Place} {q : System.Place}
    (h : Linked env key endErr auto reads f log alog i p q) (hd : f'.doing i = f.doing i) (hr : f'.reader i = f.reader i)
    (hh : ∀ z, (filesIn x).foldl (hear i) z = z) (hg : ∀ l, x.foldl (gotNext i) l = l) (ha : handledBy i y = [])
    (ho : ∀ op ∈ opsOf (filesIn x), ¬ Owns env key endErr auto reads i op.upload) :
    Linked env key endErr auto reads f' (log ++ x) (alog ++ y) i p q := by
  have hears : heard i (filesIn (log ++ x)) = heard i (filesIn log) := by rw [filesIn_append, heard_append, hh]
  have gots : gotBy i (log ++ x) = gotBy i log := by rw [gotBy_append, hg]
  have handleds : handledBy i (alog ++ y) = handledBy i alog := by rw [handledBy_append, ha, List.nil_append]
  have dirs : ∀ {icc}, hasDir (opsOf (filesIn log)) icc → hasDir (opsOf (filesIn (log ++ x))) icc := by
    intro icc hx
    rw [filesIn_append, opsOf_append]
    exact hasDir_more hx
  have reads : ∀ {c}, Reading env key endErr auto reads f log i c → Reading env key endErr auto reads f' (log ++ x) i c := by
    rintro c ⟨file, pos, h1, h2, h3⟩
    refine ⟨file, pos, by rw [hr, h1], ?_, h3⟩
    rw [filesIn_append, opsOf_append, merged_more, h2]
    intro op hop hu
    exact ho op hop (hu ▸ h3)
  cases h with
  | waiting h1 => exact .waiting (hd.trans h1)
  | received m h1 => exact .received m (hd.trans h1)
  | storing h1 h2 h3 h4 h5 => exact .storing (hd.trans h1) h2 h3 h4 h5
  | stored m b p h1 h2 h3 => exact .stored m b p (hd.trans h1) (dirs h2) h3
  | checking h1 h2 h3 h4 => exact .checking (hd.trans h1) (dirs h2) h3 h4
  | full m b p h1 h2 h3 => exact .full m b p (hd.trans h1) (dirs h2) h3
  | merging h1 h2 h3 => exact .merging (hd.trans h1) (dirs h2) h3
  | merged h1 h2 h3 => exact .merged h1 (reads h2) (hears.trans h3)
  | noted m h1 h2 => exact .noted m (hd.trans h1) h2
  | notedUpload h1 h2 h3 => exact .notedUpload h1 (reads h2) (hears.trans h3)
  | handling h1 => exact .handling (hd.trans h1)
  | handlingUpload h1 h2 h3 h4 h5 => exact .handlingUpload h1 (reads h2) (gots.trans h3) (h4.trans hears.symm) (handleds.trans h5)
  | ended h1 => exact .ended (hd.trans h1)

/-- The step on files that a step of connection `k` makes, if any. -/
def Moves (k : Nat) (f f' : Files.State) (l : List Files.Obs) : Prop := (f' = f ∧ l = []) ∨ ∃ ev, By k ev ∧ f.step ev = .ok (f', l)

/-- The step of the run in which calls are made at once, if any. -/
def Follows (env : Env) (key : Option DecKey) (endErr : Err) (auto : Bool) (t t' : System.State) (y : List (Nat × Act)) : Prop :=
  (t' = t ∧ y = []) ∨ ∃ e, t.step env key endErr auto e = .ok (t', y)

theorem Sim.basic {s : State} {log : List Item} {t : System.State} {alog : List (Nat × Act)} (h : Sim env key endErr auto reads fs0 s log t alog) :
    Basic s.files (filesIn log) := by
  obtain ⟨log0, evs, l, h0, he, hl⟩ := h.files
  rw [hl]
  exact h0.basic.run he

/-- One step of connection `k` in both runs. -/
theorem Sim.next {s s' : State} {log x : List Item} {t t' : System.State} {alog y : List (Nat × Act)} (k : Nat) (hown : OwnUploads env key endErr auto reads)
    (h : Sim env key endErr auto reads fs0 s log t alog) (hm : Moves k s.files s'.files (filesIn x)) (hf : Follows env key endErr auto t t' y)
    (htag : ∀ j a, .act j a ∈ x → j = k) (hacts : Each (SameAct auto) (actsIn x) y) (hstore : After (opsOf (filesIn (log ++ x))).reverse t'.fs)
    (hhand : s'.handlers = t'.handlers) (hs : ∀ i, i ≠ k → s'.conns i = s.conns i) (ht : ∀ i, i ≠ k → t'.conns i = t.conns i)
    (hrecv : (s'.conns k).recv = (t'.conns k).recv) (hreq : (s'.conns k).requests = (t'.conns k).requests) (hicc : (s'.conns k).icc = (t'.conns k).icc)
    (hplace : Linked env key endErr auto reads s'.files (log ++ x) (alog ++ y) k (s'.conns k).place (t'.conns k).place)
    (howner : ∀ j c, .began j c ∈ filesIn x → Owns env key endErr auto reads j (callUpload c))
    (htold : Each (Told auto) (gotBy k (log ++ x)) (handledBy k (alog ++ y))) : Sim env key endErr auto reads fs0 s' (log ++ x) t' (alog ++ y) := by
  have hb := h.basic
  have else' : Elsewhere s.files s'.files k (filesIn x) := by
    rcases hm with ⟨h1, h2⟩ | ⟨ev, h1, h2⟩
    · rw [h1, h2]; exact .none s.files k
    · exact Files.elsewhere hb h1 h2
  have owns : ∀ op ∈ opsOf (filesIn x), ∀ i, i ≠ k → ¬ Owns env key endErr auto reads i op.upload := by
    rintro op hop i hi ⟨m, m1, m2⟩
    obtain ⟨c, hc, hop⟩ := else'.ops op hop
    have hbeg : .began k c ∈ filesIn log := Files.inProgress_began ((hb.prog k).trans hc)
    obtain ⟨m', m3, m4⟩ := h.owner k c hbeg
    have : callUpload c = op.upload := by
      rcases hop with ⟨m, sq, d, o, rfl, rfl⟩ | ⟨m, o, rfl, rfl⟩ <;> rfl
    rw [this] at m4
    exact hi (hown i k op.upload m m' m1 m3 m2 m4)
  have tags : ∀ z ∈ y, z.1 = k := by
    apply each_tag hacts
    intro z hz
    obtain ⟨w, hw, hz⟩ := List.mem_filterMap.1 hz
    cases w with
    | act j a => cases hz; exact htag j a hw
    | file o => cases hz
  have got : ∀ i, i ≠ k → ∀ l, x.foldl (gotNext i) l = l := fun i hi l => got_other hi htag else'.got else'.eof l
  refine ⟨?_, ?_, ?_, hstore, hhand, ?_, ?_, ?_, ?_, ?_, ?_⟩
  · obtain ⟨log0, evs, l, h0, he, hl⟩ := h.files
    rw [filesIn_append]
    rcases hm with ⟨h1, h2⟩ | ⟨ev, h1, h2⟩
    · rw [h1, h2, List.append_nil]; exact ⟨log0, evs, l, h0, he, hl⟩
    · exact ⟨log0, evs ++ [ev], _, h0, Files.run_snoc he h2, by rw [hl, List.append_assoc]⟩
  · obtain ⟨es, he⟩ := h.atOnce
    rcases hf with ⟨rfl, rfl⟩ | ⟨e, h1⟩
    · rw [List.append_nil]; exact ⟨es, he⟩
    · exact ⟨es ++ [e], System.run_snoc he h1⟩
  · rw [actsIn_append]; exact each_append h.acts hacts
  · intro i
    by_cases hi : i = k
    · subst hi; exact hrecv
    · rw [hs i hi, ht i hi]; exact h.recv i
  · intro i
    by_cases hi : i = k
    · subst hi; exact hreq
    · rw [hs i hi, ht i hi]; exact h.requests i
  · intro i
    by_cases hi : i = k
    · subst hi; exact hicc
    · rw [hs i hi, ht i hi]; exact h.icc i
  · intro i
    by_cases hi : i = k
    · subst hi; exact hplace
    · rw [hs i hi, ht i hi]
      exact (h.place i).aside (else'.doing i hi) (else'.reader i hi) (else'.hear i hi) (got i hi) (handled_other hi tags) (fun op hop => owns op hop i hi)
  · intro j c hx
    rw [filesIn_append] at hx
    rcases List.mem_append.1 hx with hx | hx
    · exact h.owner j c hx
    · exact howner j c hx
  · intro i
    by_cases hi : i = k
    · subst hi; exact htold
    · rw [gotBy_append, got i hi, handledBy_append, handled_other hi tags, List.nil_append]
      exact h.told i

/-- No call for an upload begins while another one for it is under way. -/
theorem inTurn_of_owner {evs : List Files.Event} {f : Files.State} {log0 log : List Files.Obs} (h0 : Files.Founded fs0 log0)
    (hr : ({ fs := fs0 } : Files.State).run evs = .ok (f, log))
    (hown : OwnUploads env key endErr auto reads) (ho : ∀ k c, .began k c ∈ log0 ++ log → Owns env key endErr auto reads k (callUpload c)) (u : Upload) :
    InTurn u (log0 ++ log) := by
  intro l1 k1 c1 l2 hl hu k2 c2 hp hu2
  obtain ⟨m1, a1, b1⟩ := ho k1 c1 (by rw [hl]; simp)
  obtain ⟨m2, a2, b2⟩ := ho k2 c2 (by rw [hl]; exact List.mem_append_left _ (Files.inProgress_began hp))
  rw [hu] at b1
  rw [hu2] at b2
  have := hown k1 k2 u m1 m2 a1 a2 b1 b2
  subst this
  rcases Files.split_append hl with ⟨r, hr'⟩ | ⟨r, rfl, hr'⟩
  · exact absurd (by rw [hr']; simp) (h0.after k1 c1)
  · rw [Files.began_free h0.basic hr hr'] at hp
    cases hp

/-- What a step on files observes is what calls made one after the other would give. -/
theorem Sim.good {s : State} {log : List Item} {t : System.State} {alog : List (Nat × Act)} (hown : OwnUploads env key endErr auto reads)
    (h : Sim env key endErr auto reads fs0 s log t alog) {ev : Files.Event} {f' : Files.State} {l : List Files.Obs} (hs : s.files.step ev = .ok (f', l))
    (hbeg : ∀ j c, .began j c ∉ l) (hlist : ∀ j m, .unlisted j m ∉ filesIn log ++ l) (u : Upload) :
    ∀ l1 o l2, l = l1 ++ o :: l2 → Files.Good u (filesIn log ++ l1) o := by
  obtain ⟨log0, evs, la, h0, he, hl⟩ := h.files
  have hr := Files.run_snoc he hs
  have hturn : InTurn u (log0 ++ (la ++ l)) := by
    refine inTurn_of_owner h0 hr hown ?_ u
    intro k c hx
    rw [← List.append_assoc, ← hl] at hx
    rcases List.mem_append.1 hx with hx | hx
    · exact h.owner k c hx
    · exact absurd hx (hbeg k c)
  have := (h0.turn u).run h0.basic hr hturn (by
    intro j m hx
    rw [← List.append_assoc, ← hl] at hx
    exact absurd hx (hlist j m))
  intro l1 o l2 hl'
  have g := this.2 (la ++ l1) o l2 (by rw [hl', List.append_assoc])
  rwa [← List.append_assoc, ← hl] at g

end Verif.Syscall
