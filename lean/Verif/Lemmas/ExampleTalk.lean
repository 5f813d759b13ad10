import Verif.Lemmas.Programs
/-! # The course of the conversation of the example programs -/

namespace Verif.Programs
open Session Handler Spec Converse

/-- The location as it is on the wire: `Encode` sets the bit for western longitude. -/
def fixed (now : Time) : T0200 := { location now with status := 8 }

/-- The media data as they are on the wire. -/
def fixedMedia (now : Time) : T0801 := { media now with location := fixed now }

/-- The messages of the client, as the server receives them. -/
structure Arrival (now : Nat → Time) (key : PubKey) (c1 c2 c3 c4 : Bytes) (d1 d2 d3 d4 d5 d6 d7 : Message Entity) : Prop where
  b1 : d1.body = .val (.m0102 { authKey := authKey })
  b2 : d2.body = .val (.m0200 (fixed (now 0)))
  b3 : d3.body = .val (.m0a00 { publicKey := some key })
  b4 : d4.body = .val (.m0801 { fixedMedia (now 1) with packet := some c1 })
  b5 : d5.body = .val (.m0801 { fixedMedia (now 2) with packet := some c2 })
  b6 : d6.body = .val (.m0801 { fixedMedia (now 3) with packet := some c3 })
  b7 : d7.body = .val (.m0801 { fixedMedia (now 4) with packet := some c4 })
  id1 : d1.header.msgID = 0x0102
  id2 : d2.header.msgID = 0x0200
  id3 : d3.header.msgID = 0x0a00
  id4 : d4.header.msgID = 0x0801
  id5 : d5.header.msgID = 0x0801
  id6 : d6.header.msgID = 0x0801
  id7 : d7.header.msgID = 0x0801
  icc1 : d1.header.iccID = icc
  icc2 : d2.header.iccID = icc
  icc3 : d3.header.iccID = icc
  icc4 : d4.header.iccID = icc
  icc5 : d5.header.iccID = icc
  icc6 : d6.header.iccID = icc
  icc7 : d7.header.iccID = icc
  s1 : d1.header.serial = 1
  s2 : d2.header.serial = 2
  s3 : d3.header.serial = 3
  s4 : d4.header.serial = 3
  s5 : d5.header.serial = 3
  s6 : d6.header.serial = 3
  s7 : d7.header.serial = 3
  p4 : partOf true d4 = some (⟨icc, 0x0801, 1024⟩, ⟨4, 1⟩, c1)
  p5 : partOf true d5 = some (⟨icc, 0x0801, 1024⟩, ⟨4, 2⟩, c2)
  p6 : partOf true d6 = some (⟨icc, 0x0801, 1024⟩, ⟨4, 3⟩, c3)
  p7 : partOf true d7 = some (⟨icc, 0x0801, 1024⟩, ⟨4, 4⟩, c4)

theorem not_part {m : Message Entity} {e : Entity} (hb : m.body = .val e) (he : ∀ b, e ≠ .m0801 b) : isPart true m = false := by
  unfold isPart
  rw [hb]
  cases e <;> simp_all

/-- The history of the storage when the parts have arrived. -/
def parts4 (c1 c2 c3 c4 : Bytes) : List FileOp :=
  [.write ⟨icc, 0x0801, 1024⟩ 4 c4 .ok, .write ⟨icc, 0x0801, 1024⟩ 3 c3 .ok, .write ⟨icc, 0x0801, 1024⟩ 2 c2 .ok, .write ⟨icc, 0x0801, 1024⟩ 1 c1 .ok]

theorem latestIn_parts4 (c1 c2 c3 c4 : Bytes) (i : UInt16) : latestIn ⟨icc, 0x0801, 1024⟩ i (parts4 c1 c2 c3 c4) =
    if 4 = i then some c4 else if 3 = i then some c3 else if 2 = i then some c2 else if 1 = i then some c1 else none := by
  simp only [parts4, latestIn, true_and, leaves]
  split
  · rfl
  · split
    · rfl
    · split
      · rfl
      · split <;> rfl

theorem parts4_complete (c1 c2 c3 c4 : Bytes) : ¬ Missing (parts4 c1 c2 c3 c4) ⟨icc, 0x0801, 1024⟩ ⟨4, 4⟩ := by
  rintro (h | ⟨i, h1, h2, h3⟩)
  · exact h rfl
  · rw [latestIn_parts4] at h3
    have h2' : i.toNat ≤ 4 := h2
    have : i = 1 ∨ i = 2 ∨ i = 3 ∨ i = 4 := by
      have : i.toNat = 1 ∨ i.toNat = 2 ∨ i.toNat = 3 ∨ i.toNat = 4 := by omega
      rcases this with h | h | h | h
      · exact .inl (UInt16.toNat_inj.1 h)
      · exact .inr (.inl (UInt16.toNat_inj.1 h))
      · exact .inr (.inr (.inl (UInt16.toNat_inj.1 h)))
      · exact .inr (.inr (.inr (UInt16.toNat_inj.1 h)))
    rcases this with rfl | rfl | rfl | rfl <;> simp at h3

theorem parts4_merged (c1 c2 c3 c4 : Bytes) :
    mergedIn ⟨icc, 0x0801, 1024⟩ (.merge ⟨icc, 0x0801, 1024⟩ .ok :: parts4 c1 c2 c3 c4) = some (c1 ++ c2 ++ c3 ++ c4) := by
  have hj : joined (fun s => latestIn ⟨icc, 0x0801, 1024⟩ s (parts4 c1 c2 c3 c4)) 0 65536 = c1 ++ c2 ++ c3 ++ c4 := by
    rw [joined_trim _ 4 (fun s c h => by
      rw [latestIn_parts4] at h
      split at h
      · rename_i h'; subst h'; decide
      · split at h
        · rename_i h'; subst h'; decide
        · split at h
          · rename_i h'; subst h'; decide
          · split at h
            · rename_i h'; subst h'; decide
            · cases h)]
    show joined _ 1 4 = _
    rw [joined_succ, joined_succ, joined_succ, joined_succ]
    simp only [latestIn_parts4]
    simp [joined]
  simp only [mergedIn, leaves, hj, if_true, Option.elim]
  simp [parts4, mergedIn]

theorem icc_ne : icc ≠ 0 := by decide

/-- What the example server does with the messages of the example client. -/
theorem example_talk {now : Nat → Time} {key own : PubKey} {c1 c2 c3 c4 : Bytes} {d1 d2 d3 d4 d5 d6 d7 : Message Entity}
    (ha : Arrival now key c1 c2 c3 c4 d1 d2 d3 d4 d5 d6 d7) {log : List Ev} {k : Knows Data}
    (ht : Talk true (server (some own)) { user := none } ([d1, d2, d3, d4, d5, d6, d7].map fun d => (d, .ok, .ok)) log k)
    (hr : ∀ m, .refused m ∉ log) :
    sentIn log = exampleMessages own ∧ ranIn log = [] ∧
    handledIn log = [(0, .val (.m0102 { authKey := authKey })), (1, .val (.m0200 (fixed (now 0)))), (3, .val (.m0a00 { publicKey := some key })),
      (2, .val (.m0801 { fixedMedia (now 4) with packet := some (c1 ++ c2 ++ c3 ++ c4) }))] ∧
    k.table = Table.put (fun _ => none) 0x8104 (some (2, 0)) ∧ k.user = some key := by
  simp only [List.map_cons, List.map_nil] at ht
  cases ht with
  | cons t1 ht =>
  cases ht with
  | cons t2 ht =>
  cases ht with
  | cons t3 ht =>
  cases ht with
  | cons t4 ht =>
  cases ht with
  | cons t5 ht =>
  cases ht with
  | cons t6 ht =>
  cases ht with
  | cons t7 ht =>
  cases ht
  rename_i k1 x1 k2 x2 k3 x3 k4 x4 k5 x5 k6 x6 x7
  simp only [List.mem_cons, List.mem_append, reduceCtorEq, false_or, List.append_nil, not_or] at hr
  -- the authentication
  obtain ⟨y1, rfl, q1, i1, f1⟩ := turn_handler t1 ha.b1 (not_part ha.b1 (by simp)) rfl (by rw [ha.icc1]; exact icc_ne) (h := 0)
    (by rw [ha.id1]; rfl)
  obtain ⟨z1, rfl, r1⟩ := performs_send q1 (by intro m hm; exact (hr m).1 (by simp [hm]))
  obtain ⟨z2, rfl, r2⟩ := performs_request r1 (by intro m hm; exact (hr m).1 (by simp [hm]))
  obtain ⟨rfl, n1, tb1, u1⟩ := performs_returns r2
  -- the location
  obtain ⟨y2, rfl, q2, i2, f2⟩ := turn_handler t2 ha.b2 (not_part ha.b2 (by simp)) rfl (by rw [ha.icc2]; exact icc_ne) (h := 1)
    (by rw [ha.id2]; rfl)
  have hloc : (server (some own)).handler 1 k1.user d2 =
      .send (.m8001 { replySerial := d2.header.serial, replyID := d2.header.msgID, result := 0 }) fun _ => .returns k1.user := by
    simp [server, reportLocation, ha.b2, fixed, location]
  rw [hloc] at q2
  obtain ⟨z3, rfl, r3⟩ := performs_send q2 (by intro m hm; exact (hr m).2.1 (by simp [hm]))
  obtain ⟨rfl, n2, tb2, u2⟩ := performs_returns r3
  -- the key
  obtain ⟨y3, rfl, q3, i3, f3⟩ := turn_handler t3 ha.b3 (not_part ha.b3 (by simp)) rfl (by rw [ha.icc3]; exact icc_ne) (h := 3)
    (by rw [ha.id3]; rfl)
  have hkey : (server (some own)).handler 3 k2.user d3 =
      .send (.m8001 { replySerial := d3.header.serial, replyID := d3.header.msgID, result := 0 }) fun _ =>
        .send (.m8a00 { publicKey := some own }) fun _ => .returns (some key) := by
    simp [server, uploadKey, ha.b3]
  rw [hkey] at q3
  obtain ⟨z4, rfl, r4⟩ := performs_send q3 (by intro m hm; exact (hr m).2.2.1 (by simp [hm]))
  obtain ⟨z5, rfl, r5⟩ := performs_send r4 (by intro m hm; exact (hr m).2.2.1 (by simp [hm]))
  obtain ⟨rfl, n3, tb3, u3⟩ := performs_returns r5
  -- the parts
  obtain ⟨rfl, rfl⟩ := turn_stored t4 (fun m hm => (hr m).2.2.2.1 hm) ha.p4 (by decide)
  obtain ⟨rfl, rfl⟩ := turn_stored t5 (fun m hm => (hr m).2.2.2.2.1 hm) ha.p5 (by decide)
  obtain ⟨rfl, rfl⟩ := turn_stored t6 (fun m hm => (hr m).2.2.2.2.2.1 hm) ha.p6 (by decide)
  have hfiles : k3.files = [] := by rw [f3, f2, f1]
  obtain ⟨content, w, g1, rfl, q7, i7⟩ := turn_merged t7 (fun m hm => (hr m).2.2.2.2.2.2 hm) ha.p7 ha.b7
    (by simp only [hfiles]; exact parts4_complete c1 c2 c3 c4) (by rw [ha.icc7]; exact icc_ne) (h := 2) (by rw [ha.id7]; rfl)
  have hcontent : content = c1 ++ c2 ++ c3 ++ c4 := by
    simp only [hfiles] at g1
    have := parts4_merged c1 c2 c3 c4
    exact Option.some.inj (g1.symm.trans this)
  subst hcontent
  have hmed : ∀ u : Data, (server (some own)).handler 2 u (mergedMessage d7 { fixedMedia (now 4) with packet := some c4 } (c1 ++ c2 ++ c3 ++ c4)) =
      .send (.m8800 { mediaID := 1024 }) fun _ => .returns u := by
    intro u
    simp [server, uploadMedia, fixedMedia, media]
  rw [hmed] at q7
  obtain ⟨z6, rfl, r7⟩ := performs_send q7 (by intro m hm; exact (hr m).2.2.2.2.2.2 (by simp [hm]))
  obtain ⟨rfl, n7, tb7, u7⟩ := performs_returns r7
  simp only at n7 tb7 u7 tb3 tb2 tb1
  have m1 : k1.count = 2 := n1
  have m2 : k2.count = 3 := by rw [n2, m1]
  have m3 : k3.count = 5 := by rw [n3, m2]
  refine ⟨?_, ?_, ?_, ?_, ?_⟩
  · simp [sentIn, exampleMessages, ha.icc1, ha.icc2, ha.icc3, ha.icc7, i3, ha.id1, ha.id2, ha.id3, ha.id4, ha.id5, ha.id6, ha.id7, ha.s1, ha.s2, ha.s3, ha.s4,
      ha.s5, ha.s6, ha.s7, m1, m2, m3, icc]
  · simp [ranIn]
  · simp [handledIn, ha.b1, ha.b2, ha.b3]
  · rw [tb7, tb3, tb2, tb1]
    rfl
  · rw [u7, u3]

/-- What the server does with the answer of the client. -/
theorem example_answer {own : PubKey} {d : Message Entity} {b : T0104} (hb : d.body = .val (.m0104 b)) (hs : b.replySerial = 2) (hid : d.header.msgID = 0x0104)
    {k k' : Knows Data} (hk : k.table = Table.put (fun _ => none) 0x8104 (some (2, 0))) {o : Outcome × Outcome} {x : List Ev}
    (ht : Turn true (server (some own)) k d o x k') : x = [.ran 0 d, .unhandled d] ∧ k'.user = k.user := by
  have hp : isPart true d = false := not_part hb (by simp)
  have hpart : ∀ u p c, partOf true d ≠ some (u, p, c) := by
    intro u p c
    unfold partOf
    simp [hp]
  have hans : Answers d 2 := ⟨_, hb, by simp [answered, hs], by decide⟩
  cases ht with
  | unsupported hb' => simp [hasBody, hb] at hb'
  | ordinary _ _ hn hd =>
    cases hn with
    | ran ha' hw hc =>
      obtain ⟨e', h1, h2, -⟩ := ha'
      rw [hb] at h1
      cases h1
      simp only [answered, hs, Option.some.injEq] at h2
      subst h2
      rw [hk] at hw
      unfold Table.put at hw
      split at hw
      · cases hw
        have hcode : (server (some own)).callback 0 k.user d = .returns k.user := by simp [server, parameters, hb]
        rw [hcode] at hc
        obtain ⟨rfl, rfl, rfl, rfl⟩ := performs_returns hc
        cases hd with
        | handled hh' => simp [hid, server] at hh'
        | unhandled hh' => exact ⟨rfl, rfl⟩
      · cases hw
    | none hno => exact absurd (by rw [hk]; rfl) (hno 2 0x8104 0 hans)
  | lost hp' => exact absurd hp' (hpart _ _ _)
  | stored hp' => exact absurd hp' (hpart _ _ _)
  | unmerged hp' => exact absurd hp' (hpart _ _ _)
  | merged hp' => exact absurd hp' (hpart _ _ _)

end Verif.Programs
