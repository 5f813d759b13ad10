import Verif.Lemmas.Upload
import Verif.Model.Example
import Verif.Props.Requests
/-! # C72: a file uploaded in parts arrives, from the terminal to the handler; C73: the example client -/

namespace Verif
open Handler Spec Codec

/-- C72 from end to end: a terminal sends messages, among them the parts of an upload: every part but the last at least once, in any order, with
anything in between (also parts of other uploads), and the last part at the end. The bytes arrive in arbitrary pieces. Then the server gives exactly
one message of the upload to the handler registered last: it has the header data and the media data of the last part, and its content is the
concatenation of the parts in order of their numbers, as they were sent last. Every part is answered with "success". -/
theorem C72_upload_arrives (env : Env) (key : Option DecKey) (endErr : Err) (ms : List (Message Entity × Entity)) (m : Message Entity) (b : T0801)
    (p : Packet) (u : Upload) (hu : u = ⟨m.header.iccID, 0x0801, b.mediaID⟩)
    (hms : ∀ x ∈ ms, Sendable env x.1 x.2) (hm : Sendable env m (.m0801 b)) (hp : m.header.packet = some p)
    (hlast : p.seq = p.sum) (hsum : 1 ≤ p.sum.toNat)
    (hparts : ∀ x ∈ ms, ∀ q d, sentPart x = some (u, q, d) → 1 ≤ q.seq.toNat ∧ q.seq.toNat < p.sum.toNat ∧ q.sum = p.sum)
    (hall : ∀ i : UInt16, 1 ≤ i.toNat → i.toNat < p.sum.toNat → ∃ x ∈ ms, ∃ q d, sentPart x = some (u, q, d) ∧ q.seq = i) :
    ∃ sent : List Bytes, (ms ++ [(m, Entity.m0801 b)]).map (fun x => sendBytes (entityCodec env) none x.1) = sent.map .ok ∧
      ∀ (reads : List Bytes), (∀ c ∈ reads, c.length ≤ 128) → reads.flatten = sent.flatten →
        ∀ turns : List (List Outside × Around), turns.length = ms.length + 1 → (∀ t ∈ turns, Smooth u t) →
          ∃ s log d, serve env key endErr true turns reads = .ok (s, log) ∧
            Carries m (.m0801 { b with packet := some (joined (lastSent u (ms ++ [(m, Entity.m0801 b)])) 1 p.sum.toNat) }) d ∧
            (offered log).filter (belongs true u) = [d] ∧ Given log d ∧ replies log = successes (ms ++ [(m, Entity.m0801 b)]) := by
  have hall' : ∀ x ∈ ms ++ [(m, Entity.m0801 b)], Sendable env x.1 x.2 := by
    intro x hx
    rcases List.mem_append.1 hx with hx | hx
    · exact hms x hx
    · obtain rfl : x = (m, .m0801 b) := by simpa using hx
      exact hm
  obtain ⟨sent, h1, h2⟩ := C12_end_to_end env key endErr (ms ++ [(m, Entity.m0801 b)]) hall'
  refine ⟨sent, h1, ?_⟩
  intro reads hr hs turns' ht hsm
  obtain ⟨turns, ⟨o, a⟩, rfl⟩ : ∃ ts t, turns' = ts ++ [t] := by
    rcases List.eq_nil_or_concat turns' with h | ⟨ts, t, h⟩
    · subst h; simp at ht
    · exact ⟨ts, t, by simpa using h⟩
  obtain ⟨ds', e1, e2, e3⟩ := h2 reads hr hs 0
  obtain ⟨ds, d, rfl⟩ : ∃ ds d, ds' = ds ++ [d] := by
    rcases List.eq_nil_or_concat ds' with h | ⟨ds, d, h⟩
    · subst h; simp at e1
    · exact ⟨ds, d, by simpa using h⟩
  have hlen : ds.length = ms.length := by simpa using e1
  have htl : turns.length = ds.length := by simp at ht; omega
  have hz : ∀ q ∈ ms.zip ds, Carries q.1.1 q.1.2 q.2 := by
    intro q hq
    refine e2 q ?_
    rw [List.zip_append hlen.symm]
    exact List.mem_append_left _ hq
  have hc : Carries m (.m0801 b) d := by
    refine e2 ((m, .m0801 b), d) ?_
    rw [List.zip_append hlen.symm]
    simp
  have e4 : (receiveMany (entityCodec env) key endErr (ds.length + 1) ⟨[], reads⟩).1 = (ds ++ [d]).map .ok := by
    have : (ms ++ [(m, Entity.m0801 b)]).length + 0 = ds.length + 1 := by simp [hlen]
    rw [this] at e3
    simpa using e3
  obtain ⟨i1, i2⟩ := inputs_snoc env key endErr turns o a ⟨[], reads⟩ ds d htl e4
  obtain ⟨j1, j2, -⟩ := inputs_received env key endErr (turns ++ [(o, a)]) ⟨[], reads⟩ (ds ++ [d]) 0 (by simp; omega) (by simpa using e4)
  have hq : ∀ i ∈ inputs env key endErr (turns ++ [(o, a)]) ⟨[], reads⟩, Undisturbed u i := by
    intro i hi
    obtain ⟨t, ht, h⟩ := inputs_mem hi
    obtain ⟨-, -, s3, s4⟩ := hsm t ht
    rcases h with ⟨x, hx, rfl⟩ | ⟨r, rfl⟩
    · exact s3 x hx
    · exact s4
  have hw : ∀ x ∈ receivedIn (inputs env key endErr (turns ++ [(o, a)]) ⟨[], reads⟩), x.2.write = .ok := by
    intro x hx
    obtain ⟨t, ht, h⟩ := inputs_mem (receivedIn_mem hx)
    rcases h with ⟨y, -, h⟩ | ⟨r, h⟩
    · cases h
    · injection h with _ h
      rw [h]
      exact (hsm t ht).1
  rw [i1] at j1 j2 hq hw
  generalize his : inputs env key endErr turns ⟨[], reads⟩ ++ o.map Input.outside = is at i1 j1 j2 hq hw
  have hin : ∀ i ∈ is, Arrived i := fun i hi => j2 i (List.mem_append_left _ hi)
  have hend : ∀ e a, Input.receive (.err e) a ∉ is := by
    intro e b hb
    rw [← his] at hb
    rcases List.mem_append.1 hb with hb | hb
    · exact i2 e b hb
    · obtain ⟨x, -, hx⟩ := List.mem_map.1 hb
      cases hx
  have hd : Delivered d := j2 (.receive (.ok d) a) (by simp)
  have hrec := receivedIn_snoc is hin hend d a
  rw [hrec] at j1 hw
  have j3 : (receivedIn is).map (·.1) = ds := by
    simpa using j1
  have hpm : ((receivedIn is).map (·.1)).map (partOf true) = ms.map sentPart := by
    rw [j3]
    exact partOf_map hlen hz
  have hpd : partOf true d = sentPart (m, .m0801 b) := partOf_carries hc
  obtain ⟨data, hdata⟩ := Option.isSome_iff_exists.1 (show b.packet.isSome from hm.range.2.2)
  have hsp : sentPart (m, .m0801 b) = some (u, p, data) := by
    subst hu
    simp [sentPart, hp, hdata]
  obtain ⟨s, log, k1, k2⟩ := C41_last_part_last_partial true is hin hend d a hd b hc.1 u p data (by rw [hpd, hsp]) hlast hsum (hsm (o, a) (by simp)).1
    (hsm (o, a) (by simp)).2.1 hq (by
      intro x hx q dd hx1
      have hmem : partOf true x.1 ∈ ms.map sentPart := by
        rw [← hpm]
        exact List.mem_map_of_mem (List.mem_map_of_mem hx)
      obtain ⟨y, hy, hyx⟩ := List.mem_map.1 hmem
      rw [hx1] at hyx
      obtain ⟨c1, c2, c3⟩ := hparts y hy q dd hyx
      exact ⟨c1, c2, c3, hw x (by simp [hx])⟩) (by
      intro i g1 g2
      obtain ⟨y, hy, q, dd, hyx, hqi⟩ := hall i g1 g2
      have hmem : sentPart y ∈ ((receivedIn is).map (·.1)).map (partOf true) := by
        rw [hpm]
        exact List.mem_map_of_mem hy
      obtain ⟨z, hz1, hz2⟩ := List.mem_map.1 hmem
      obtain ⟨x, hx, rfl⟩ := List.mem_map.1 hz1
      exact ⟨x, hx, q, dd, by rw [hz2, hyx], hqi⟩)
  have hlat : latest (partWrites true u (receivedIn (is ++ [.receive (.ok d) a]))) u = lastSent u (ms ++ [(m, Entity.m0801 b)]) := by
    rw [hrec]
    refine latest_sent u _ _ ?_ hw
    simp [hpm, hpd]
  rw [hlat] at k2
  refine ⟨s, log, _, ?_, ?_, k2, ?_, ?_⟩
  · unfold serve
    rw [i1, k1]
  · obtain ⟨-, c2, c3, c4, c5, c6⟩ := hc
    exact ⟨rfl, c2, c3, c4, c5, c6⟩
  · have hmem : mergedMessage d b (joined (lastSent u (ms ++ [(m, Entity.m0801 b)])) 1 p.sum.toNat) ∈ (offered log).filter (belongs true u) := by
      rw [k2]; simp
    have hmem := (List.mem_filter.1 hmem).1
    obtain ⟨act, ha, hact⟩ := List.mem_filterMap.1 hmem
    obtain ⟨l1, l2, rfl⟩ := List.append_of_mem ha
    have hl := C32_last_registered_handler true _ j2 s _ l1 l2 k1
    refine ⟨l1, l2, ?_⟩
    congr 2
    cases act <;> simp only [reduceCtorEq, Option.some.injEq] at hact
    · subst hact
      rw [hl.1 _ _ rfl]
    · subst hact
      rw [hl.2 _ rfl]
  · obtain ⟨s', log', k3, k4⟩ := C43_replies_partial true _ j2
    rw [k1] at k3
    obtain ⟨rfl, rfl⟩ : s = s' ∧ log = log' := by simpa using k3
    rw [k4, hrec]
    refine due_map ?_ ?_ ?_ hw
    · have := congrArg List.length j1
      simp at this ⊢
      omega
    · rw [j1]
      exact e2
    · intro x hx bb hb
      have := (hall' x hx).range
      rw [hb] at this
      exact this.2.2

/-- C72 for a file cut into parts of at most 987 bytes that are sent in order: the handler gets the file. -/
theorem C72_file_arrives (env : Env) (key : Option DecKey) (endErr : Err) (icc : UInt64) (b : T0801) (parts : List (UInt16 × Bytes))
    (h0 : 0 < icc.toNat) (h1 : icc.toNat < 10 ^ 12) (hb : BaseOK env b.location) (hx : b.location.extras = [])
    (hn1 : 1 ≤ parts.length) (hn2 : parts.length ≤ 65535) (hd : ∀ p ∈ parts, p.2.length ≤ 987) :
    ∃ sent : List Bytes, (uploadMessages icc b parts).map (fun x => sendBytes (entityCodec env) none x.1) = sent.map .ok ∧
      ∀ (reads : List Bytes), (∀ c ∈ reads, c.length ≤ 128) → reads.flatten = sent.flatten →
        ∀ turns : List (List Outside × Around), turns.length = parts.length → (∀ t ∈ turns, Smooth ⟨icc, 0x0801, b.mediaID⟩ t) →
          ∃ s log d, serve env key endErr true turns reads = .ok (s, log) ∧
            d.body = .val (.m0801 { b with packet := some (parts.flatMap (·.2)) }) ∧ d.header.iccID = icc ∧
            (offered log).filter (belongs true ⟨icc, 0x0801, b.mediaID⟩) = [d] ∧ Given log d ∧
            replies log = parts.map fun p => (p.1, 0x0801, 0) := by
  generalize hu : (⟨icc, 0x0801, b.mediaID⟩ : Upload) = u
  have hsend := sendable_upload (parts := parts) h0 h1 hb hx hd
  have hlast : ∀ i (hi : i < parts.length), lastSent u (uploadMessages icc b parts) (UInt16.ofNat (i + 1)) = some parts[i].2 := by
    subst hu
    exact lastSent_upload icc b parts (by omega)
  have hsucc : successes (uploadMessages icc b parts) = parts.map fun p => (p.1, 0x0801, 0) := by
    unfold successes uploadMessages
    rw [List.filterMap_map]
    have : ∀ l : List ((UInt16 × Bytes) × Nat), l.filterMap ((fun x => (sentPart x).map fun _ => (x.1.header.serial, (0x0801 : UInt16), (0 : UInt8))) ∘
        fun x => (partMessage icc b parts.length x.2 x.1, Entity.m0801 { b with packet := some x.1.2 })) =
        l.map fun x => (x.1.1, 0x0801, 0) := by
      intro l
      rw [← List.filterMap_eq_map]
      rfl
    rw [this]
    have h2 : (parts.zipIdx.map Prod.fst) = parts := by simp
    conv => rhs; rw [← h2]
    rw [List.map_map]
    rfl
  have hmem : ∀ x ∈ uploadMessages icc b parts, ∀ q d, sentPart x = some (u, q, d) →
      q.sum = UInt16.ofNat parts.length ∧ ∃ i, i < parts.length ∧ q.seq = UInt16.ofNat (i + 1) := by
    intro x hx' q d hs
    unfold uploadMessages at hx'
    obtain ⟨⟨p, j⟩, hj, rfl⟩ := List.mem_map.1 hx'
    have hj := List.mem_zipIdx_iff_getElem?.1 hj
    obtain ⟨hj1, -⟩ := List.getElem?_eq_some_iff.1 hj
    have hs : (_, (⟨UInt16.ofNat parts.length, UInt16.ofNat (j + 1)⟩ : Packet), p.2) = (u, q, d) := Option.some.inj hs
    cases hs
    exact ⟨rfl, j, hj1, rfl⟩
  -- the parts before the last
  obtain ⟨init, last, rfl⟩ : ∃ l x, parts = l ++ [x] := by
    rcases List.eq_nil_or_concat parts with h | ⟨l, x, h⟩
    · subst h; simp at hn1
    · exact ⟨l, x, by simpa using h⟩
  have hlen : (init ++ [last]).length = init.length + 1 := by simp
  rw [hlen] at hn1 hn2
  have htn : (UInt16.ofNat (init ++ [last]).length).toNat = init.length + 1 := by rw [hlen]; exact ofNat_toNat_lt (by omega)
  have hsplit : uploadMessages icc b (init ++ [last]) =
      (init.zipIdx.map fun x =>
        (partMessage icc b (init ++ [last]).length x.2 x.1, Entity.m0801 { b with packet := some x.1.2 })) ++
        [((partMessage icc b (init ++ [last]).length init.length last), Entity.m0801 { b with packet := some last.2 })] := by
    unfold uploadMessages
    rw [List.zipIdx_append, List.map_append]
    simp
  generalize hall : uploadMessages icc b (init ++ [last]) = all at *
  generalize hms : (init.zipIdx.map fun x =>
        (partMessage icc b (init ++ [last]).length x.2 x.1, Entity.m0801 { b with packet := some x.1.2 })) = ms at *
  have hmsl : ms.length = init.length := by rw [← hms]; simp
  subst hsplit
  obtain ⟨sent, g1, g2⟩ := C72_upload_arrives env key endErr ms
    (partMessage icc b (init ++ [last]).length init.length last) { b with packet := some last.2 }
    ⟨UInt16.ofNat (init ++ [last]).length, UInt16.ofNat (init.length + 1)⟩ u hu.symm
    (fun x hx => hsend x (List.mem_append_left _ hx)) (hsend _ (List.mem_append_right _ (List.mem_singleton.2 rfl))) rfl
    (by simp) (by rw [htn]; omega) (by
      intro x hx' q d hs
      obtain ⟨c1, -⟩ := hmem x (List.mem_append_left _ hx') q d hs
      rw [htn]
      rw [← hms] at hx'
      obtain ⟨⟨p, j⟩, hj, rfl⟩ := List.mem_map.1 hx'
      have hj := List.mem_zipIdx_iff_getElem?.1 hj
      obtain ⟨hj1, -⟩ := List.getElem?_eq_some_iff.1 hj
      have hs : (_, (⟨UInt16.ofNat (init ++ [last]).length, UInt16.ofNat (j + 1)⟩ : Packet), p.2) = (u, q, d) := Option.some.inj hs
      cases hs
      refine ⟨?_, ?_, rfl⟩
      · show 1 ≤ (UInt16.ofNat (j + 1)).toNat
        rw [ofNat_toNat_lt (by omega)]; omega
      · show (UInt16.ofNat (j + 1)).toNat < _
        rw [ofNat_toNat_lt (by omega)]; omega) (by
      intro i i1 i2
      rw [htn] at i2
      have hi : i.toNat - 1 < init.length := by omega
      refine ⟨(partMessage icc b (init ++ [last]).length (i.toNat - 1) init[i.toNat - 1], Entity.m0801 { b with packet := some init[i.toNat - 1].2 }),
        ?_, ⟨UInt16.ofNat (init ++ [last]).length, i⟩, init[i.toNat - 1].2, ?_, rfl⟩
      · rw [← hms]
        exact List.mem_map.2 ⟨(init[i.toNat - 1], i.toNat - 1), List.mem_zipIdx_iff_getElem?.2 (by simp [hi]), rfl⟩
      · have : UInt16.ofNat (i.toNat - 1 + 1) = i := by
          rw [Nat.sub_add_cancel i1]; simp
        rw [← hu]
        show some (_, (⟨_, UInt16.ofNat (i.toNat - 1 + 1)⟩ : Packet), _) = _
        rw [this]
        rfl)
  refine ⟨sent, g1, ?_⟩
  intro reads hr hs turns ht hsm
  obtain ⟨s, log, d, k1, k2, k3, k4, k5⟩ := g2 reads hr hs turns (by rw [ht, hlen, hmsl]) hsm
  refine ⟨s, log, d, k1, ?_, k2.2.2.2.1, k3, k4, ?_⟩
  · rw [k2.1]
    have : joined (lastSent u (ms ++ [((partMessage icc b (init ++ [last]).length init.length last), Entity.m0801 { b with packet := some last.2 })])) 1
        (UInt16.ofNat (init ++ [last]).length).toNat = (init ++ [last]).flatMap (·.2) := by
      unfold joined
      rw [htn, ← hlen]
      exact flatMap_index (init ++ [last]) (·.2) (fun i => lastSent u _ (UInt16.ofNat i)) hlast
    rw [this]
    rfl
  · rw [k5, hsucc]

/-! ## The example client -/

/-- C73: the messages sent by the example client for a file whose length is a multiple of 512 (such as the one in the source) are those of an upload
in order of parts of 512 bytes that make up the file; by `C72_file_arrives` the handler gets the file. -/
theorem C73_client_upload_partial (icc : UInt64) (b : T0801) (media : Bytes) (k : Nat) (hk : media.length = 512 * k) :
    ∃ parts : List (UInt16 × Bytes), Example.messages icc b media = .ok ((uploadMessages icc b parts).map (·.1)) ∧
      parts.length = k ∧ (∀ p ∈ parts, p.2.length = 512) ∧ parts.flatMap (·.2) = media :=
  Example.messages_multiple icc b media 512 k (by omega) hk rfl

/-- C73 exactly, for files of at most 65535 bytes: what the example client sends is an upload of the file, in order, in parts of equal length, exactly
when the length of the file is a multiple of 512, or less than 512 and the missing bytes divide 512 (256, 384, 448, 480, 496, 504, 508, 510 and 511). -/
theorem C73_client_upload_iff (icc : UInt64) (b : T0801) (media : Bytes) (hlen : media.length ≤ 65535) :
    (∃ parts : List (UInt16 × Bytes), Example.messages icc b media = .ok ((uploadMessages icc b parts).map (·.1)) ∧ parts.flatMap (·.2) = media) ↔
      512 ∣ media.length ∨ media.length < 512 ∧ (512 - media.length) ∣ 512 := by
  constructor
  · rintro ⟨parts, hm, -⟩
    have hsum : ∀ ps, Example.upload media 0 512 = .ok ps → ∀ x ∈ ps, x.1.sum = UInt16.ofNat parts.length := by
      intro ps hps x hx
      unfold Example.messages at hm
      rw [hps] at hm
      simp only [Res.ok.injEq] at hm
      have : Example.message icc b x ∈ (uploadMessages icc b parts).map (·.1) := hm ▸ List.mem_map_of_mem hx
      unfold uploadMessages at this
      rw [List.map_map] at this
      obtain ⟨y, -, hy⟩ := List.mem_map.1 this
      have hy := congrArg (fun m : Message Entity => m.header.packet.map (·.sum)) hy
      simp [Example.message, partMessage] at hy
      exact hy.symm
    obtain ⟨ps, hps⟩ : ∃ ps, Example.upload media 0 512 = .ok ps := by
      unfold Example.messages at hm
      split at hm
      · exact ⟨_, ‹_›⟩
      · cases hm
      · cases hm
    have hsum := hsum ps hps
    have key : ∀ L, 0 < L → L ≤ media.length → Example.upload media 0 L = .ok ps → L ∣ media.length := by
      intro L hL hle h
      refine Classical.byContradiction fun hne => ?_
      obtain ⟨x, hx, y, hy, hxy⟩ := Example.upload_differs media L hL hle hlen hne ps h
      exact hxy ((hsum x hx).trans (hsum y hy).symm)
    rcases Nat.lt_or_ge media.length 512 with h | h
    · rcases Nat.eq_zero_or_pos media.length with h0 | h0
      · left; rw [h0]; exact Nat.dvd_zero _
      · right
        refine ⟨h, ?_⟩
        rw [Example.upload_short media 512 h0 h] at hps
        split at hps
        · cases hps
        · have := key (512 - media.length) (by omega) (by omega) hps
          have h2 := Nat.dvd_add this (Nat.dvd_refl (512 - media.length))
          rwa [show media.length + (512 - media.length) = 512 by omega] at h2
    · exact Or.inl (key 512 (by omega) h hps)
  · intro h
    rcases h with ⟨k, hk⟩ | ⟨h, k, hk⟩
    · obtain ⟨parts, h1, -, -, h2⟩ := Example.messages_multiple icc b media 512 k (by omega) hk rfl
      exact ⟨parts, h1, h2⟩
    · rcases Nat.eq_zero_or_pos media.length with h0 | h0
      · obtain ⟨parts, h1, -, -, h2⟩ := Example.messages_multiple icc b media 512 0 (by omega) h0 rfl
        exact ⟨parts, h1, h2⟩
      · have hk2 : 2 ≤ k := by
          rcases k with _ | _ | k
          · omega
          · omega
          · omega
        have hlt : 2 * (512 - media.length) ≤ 512 := by
          have := Nat.mul_le_mul_left (512 - media.length) hk2
          omega
        have hu := Example.upload_short media 512 h0 h
        rw [if_neg (by omega)] at hu
        obtain ⟨parts, h1, -, -, h2⟩ := Example.messages_multiple icc b media (512 - media.length) (k - 1) (by omega)
          (by rw [Nat.mul_sub, ← hk]; omega) hu
        exact ⟨parts, h1, h2⟩

/-- Lengths for which the example client works, and lengths for which it does not. -/
example : ([2048, 512, 256, 384, 511].all fun n => decide (512 ∣ n ∨ n < 512 ∧ (512 - n) ∣ 512)) ∧
    ([100, 300, 513, 700, 768, 1000].all fun n => !decide (512 ∣ n ∨ n < 512 ∧ (512 - n) ∣ 512)) := by decide

/-- C73: for other lengths this fails. With 700 bytes the client panics after the first part. -/
theorem C73_refuted_panics (icc : UInt64) (b : T0801) (media : Bytes) (h : media.length = 700) : Example.messages icc b media = .panic := by
  have : Example.upload media 0 512 = .panic := by
    rw [Example.upload]
    simp only [h, Nat.reduceLeDiff, dite_false, Nat.reduceAdd, Nat.reduceLT, if_false, Nat.reduceEqDiff]
    rw [Example.upload]
    simp [h]
  unfold Example.messages
  rw [this]

/-- C73: with 768 bytes the client sends part 1 of 2 and then part 3 of 3: there is no part 2. -/
theorem C73_refuted_numbers (icc : UInt64) (b : T0801) (media : Bytes) (h : media.length = 768) :
    ∃ ms, Example.messages icc b media = .ok ms ∧ ms.map (·.header.packet) = [some ⟨2, 1⟩, some ⟨3, 3⟩] := by
  have : Example.upload media 0 512 = .ok [(⟨2, 1⟩, media.take 512), (⟨3, 3⟩, (media.drop 512).take 256)] := by
    rw [Example.upload]
    simp only [h, Nat.reduceLeDiff, dite_false, Nat.reduceAdd, Nat.reduceLT, if_false, Nat.reduceEqDiff]
    rw [Example.upload]
    simp only [h, Nat.reduceLeDiff, dite_false, Nat.reduceAdd, Nat.reduceLT, if_true, if_false, Nat.reduceEqDiff, Nat.reduceSub, Nat.lt_irrefl]
    rw [Example.upload]
    simp [h, Example.parts]
  unfold Example.messages
  rw [this]
  exact ⟨_, rfl, rfl⟩

/-! ## Concrete cases -/

/-- Media data as in the example client, with the hemisphere bit set. -/
def Sample.media : T0801 :=
  { mediaID := 1024, type := 1, coding := 0, event := 13, channelID := 28,
    location := { alarm := 2342, status := 8, lat := ⟨23562345, -6⟩, lng := ⟨-128323123, -6⟩, altitude := 2345, speed := 160, direction := 72, time := 1700000000 } }

theorem Sample.media_ok : BaseOK Sample.env Sample.media.location :=
  ⟨⟨rfl, by decide⟩, ⟨rfl, by decide⟩, ⟨by decide, by decide⟩, ⟨by decide, by decide⟩, by decide, by decide⟩

/-- Three parts; during the connection a handler registers, and another terminal's upload goes on. -/
example : ∃ sent : List Bytes,
    (uploadMessages 19901234567 Sample.media [(7, [1, 2]), (8, []), (9, [3])]).map (fun x => sendBytes (entityCodec Sample.env) none x.1) =
      sent.map .ok ∧
    ∀ reads : List Bytes, (∀ c ∈ reads, c.length ≤ 128) → reads.flatten = sent.flatten →
      ∃ s log d, serve Sample.env none .eof true [([.addHandler 0x0801 (some 5)], {}), ([.write ⟨2, 0x0801, 7, 3⟩ 1 [9] .ok], {}), ([], {})] reads = .ok (s, log) ∧
        d.body = .val (.m0801 { Sample.media with packet := some [1, 2, 3] }) ∧ Given log d ∧
        replies log = [(7, 0x0801, 0), (8, 0x0801, 0), (9, 0x0801, 0)] := by
  obtain ⟨sent, h1, h2⟩ := C72_file_arrives Sample.env none .eof 19901234567 Sample.media [(7, [1, 2]), (8, []), (9, [3])] (by decide) (by decide)
    Sample.media_ok rfl (by decide) (by decide) (by decide)
  refine ⟨sent, h1, fun reads hr hs => ?_⟩
  obtain ⟨s, log, d, k1, k2, -, -, k3, k4⟩ := h2 reads hr hs [([.addHandler 0x0801 (some 5)], {}), ([.write ⟨2, 0x0801, 7, 3⟩ 1 [9] .ok], {}), ([], {})] rfl (by
    intro t ht
    unfold Smooth Quiet
    revert t
    decide)
  exact ⟨s, log, d, k1, k2, k3, k4⟩

/-- The file of the example client. -/
example : (List.replicate 2048 (0 : UInt8)).length = 512 * 4 := by rw [List.length_replicate]

end Verif
