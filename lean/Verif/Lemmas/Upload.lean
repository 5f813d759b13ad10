import Verif.Spec.Upload
import Verif.Lemmas.HandlerRun
import Verif.Lemmas.RoundTrip1
import Verif.Model.Connection
import Verif.Model.Example
/-! # Lemmas about uploads on their way from the terminal to the handler -/

namespace Verif
open Handler Spec

/-- Everything that happens in the course of a connection belongs to one of its turns. -/
theorem inputs_mem {env : Env} {key : Option DecKey} {endErr : Err} {turns : List (List Outside × Around)} {s : RecvState} {i : Input}
    (h : i ∈ inputs env key endErr turns s) : ∃ t ∈ turns, (∃ x ∈ t.1, i = .outside x) ∨ ∃ r, i = .receive r t.2 := by
  induction turns generalizing s with
  | nil => simp [inputs] at h
  | cons t turns ih =>
    obtain ⟨o, a⟩ := t
    simp only [inputs, List.mem_append, List.mem_map, List.mem_cons] at h
    rcases h with ⟨x, hx, rfl⟩ | rfl | h
    · exact ⟨(o, a), by simp, .inl ⟨x, hx, rfl⟩⟩
    · exact ⟨(o, a), by simp, .inr ⟨_, rfl⟩⟩
    · split at h
      · obtain ⟨t, ht, h⟩ := ih h
        exact ⟨t, by simp [ht], h⟩
      · simp at h

theorem receivedIn_mem {is : List Input} {x : Message Entity × Around} (h : x ∈ receivedIn is) : .receive (.ok x.1) x.2 ∈ is := by
  induction is with
  | nil => simp [receivedIn] at h
  | cons i is ih =>
    cases i with
    | outside o => exact List.mem_cons_of_mem _ (ih (by simpa [receivedIn] using h))
    | receive r a =>
      cases r with
      | ok m =>
        simp only [receivedIn, List.mem_cons] at h
        rcases h with rfl | h
        · simp
        · exact List.mem_cons_of_mem _ (ih h)
      | err e => simp [receivedIn] at h
      | panic => simp [receivedIn] at h

/-- A received message is a part of an upload exactly if the message sent is. -/
theorem partOf_carries {x : Message Entity × Entity} {d : Message Entity} (h : Carries x.1 x.2 d) : partOf true d = sentPart x := by
  obtain ⟨h1, h2, -, h4, h5, h6⟩ := h
  obtain ⟨m, e⟩ := x
  simp only at h1 h2 h4 h5 h6
  unfold partOf isPart sentPart
  rw [h1, h2, h4, h5, h6]
  cases e <;> cases m.header.packet <;> simp [Spec.Entity.dropCache, Verif.Entity.msgID]

theorem partOf_map {xs : List (Message Entity × Entity)} {ds : List (Message Entity)} (hl : ds.length = xs.length)
    (h : ∀ p ∈ xs.zip ds, Carries p.1.1 p.1.2 p.2) : ds.map (partOf true) = xs.map sentPart := by
  induction xs generalizing ds with
  | nil => simp at hl; simp [hl]
  | cons x xs ih =>
    cases ds with
    | nil => simp at hl
    | cons d ds =>
      simp only [List.map_cons, List.cons.injEq]
      exact ⟨partOf_carries (h (x, d) (by simp)), ih (by simpa using hl) fun p hp => h p (by simp [hp])⟩

theorem latestIn_parts (u : Upload) (seq : UInt16) (ys : List (Upload × Packet × Bytes)) :
    latestIn u seq (ys.filterMap fun y => if y.1 = u then some (.write u y.2.1.seq y.2.2 .ok) else none) =
      (ys.find? fun y => y.1 == u && y.2.1.seq == seq).map fun y => y.2.2 := by
  induction ys with
  | nil => rfl
  | cons y ys ih =>
    by_cases h1 : y.1 = u
    · rw [List.filterMap_cons_some (by rw [if_pos h1])]
      by_cases h2 : y.2.1.seq = seq
      · simp [latestIn, h1, h2, leaves]
      · simp [latestIn, h1, h2, ih]
    · rw [List.filterMap_cons_none (by rw [if_neg h1])]
      simp [h1, ih]

/-- The latest content of a part in the storage is the one sent last. -/
theorem latest_sent (u : Upload) (xs : List (Message Entity × Entity)) (rs : List (Message Entity × Around))
    (hparts : (rs.map (·.1)).map (partOf true) = xs.map sentPart) (hw : ∀ r ∈ rs, r.2.write = .ok) :
    latest (partWrites true u rs) u = lastSent u xs := by
  have h1 : partWrites true u rs =
      ((rs.map (·.1)).map (partOf true)).filterMap fun o => o.bind fun y => if y.1 = u then some (.write u y.2.1.seq y.2.2 .ok) else none := by
    clear hparts
    unfold partWrites
    induction rs with
    | nil => rfl
    | cons r rs ih =>
      have hr := hw r (by simp)
      have ih := ih fun x hx => hw x (by simp [hx])
      simp only [List.map_cons, List.filterMap_cons, ih, hr]
  have h2 : partWrites true u rs = (xs.filterMap sentPart).filterMap fun y => if y.1 = u then some (.write u y.2.1.seq y.2.2 .ok) else none := by
    rw [h1, hparts, List.filterMap_map, List.filterMap_filterMap]
    rfl
  funext seq
  unfold latest lastSent
  rw [h2, ← List.filterMap_reverse, latestIn_parts]

theorem due_map {xs : List (Message Entity × Entity)} {rs : List (Message Entity × Around)} (hl : rs.length = xs.length)
    (h : ∀ p ∈ xs.zip (rs.map (·.1)), Carries p.1.1 p.1.2 p.2) (hc : ∀ x ∈ xs, ∀ b, x.2 = .m0801 b → b.packet.isSome) (hw : ∀ r ∈ rs, r.2.write = .ok) :
    (rs.flatMap fun r => due true r.1 r.2) = successes xs := by
  induction xs generalizing rs with
  | nil => simp at hl; simp [hl, successes]
  | cons x xs ih =>
    cases rs with
    | nil => simp at hl
    | cons r rs =>
      have hx := h (x, r.1) (by simp)
      have ih := ih (rs := rs) (by simpa using hl) (fun p hp => h p (by simp at hp ⊢; exact .inr hp)) (fun y hy => hc y (by simp [hy])) fun y hy => hw y (by simp [hy])
      have hr := hw r (by simp)
      have hcx := hc x (by simp)
      have one : due true r.1 r.2 = ((sentPart x).map fun _ => (x.1.header.serial, (0x0801 : UInt16), (0 : UInt8))).toList := by
        have hp := partOf_carries hx
        obtain ⟨h1, h2, h3, h4, h5, h6⟩ := hx
        obtain ⟨m, e⟩ := x
        simp only at h1 h2 h3 h4 h5 h6
        unfold due hasBody isPart sentPart
        rw [h1, h2, h3, h6, hr]
        cases e
        case m0801 b =>
          obtain ⟨d, hd⟩ := Option.isSome_iff_exists.1 (hcx b rfl)
          cases m.header.packet <;> simp [Spec.Entity.dropCache, Verif.Entity.msgID, hd]
        all_goals cases m.header.packet <;> simp [Spec.Entity.dropCache]
      unfold successes at ih ⊢
      rw [List.flatMap_cons, ih, one]
      cases hs : sentPart x <;> simp [hs]

/-! ## The parts in order -/

theorem find?_unique {α : Type} {P : α → Bool} {l : List α} {y : α} (hy : y ∈ l) (hP : P y = true) (h : ∀ z ∈ l, P z = true → z = y) :
    l.find? P = some y := by
  cases hf : l.find? P with
  | none => exact absurd hP (by simpa using List.find?_eq_none.1 hf y hy)
  | some z => rw [h z (List.mem_of_find?_eq_some hf) (List.find?_some hf)]

theorem flatMap_index {α : Type} (l : List α) (g : α → Bytes) (f : Nat → Option Bytes) (h : ∀ i (hi : i < l.length), f (i + 1) = some (g l[i])) :
    (List.range' 1 l.length).flatMap (fun i => (f i).getD []) = l.flatMap g := by
  have key : (List.range' 1 l.length).map (fun i => (f i).getD []) = l.map g := by
    apply List.ext_getElem
    · simp
    · intro i h1 h2
      have hi : i < l.length := by simpa using h2
      simp only [List.getElem_map, List.getElem_range', Nat.one_mul]
      rw [Nat.add_comm 1 i, h i hi]
      rfl
  rw [List.flatMap_def, key, List.flatMap_def]

theorem sent_upload (icc : UInt64) (b : T0801) (parts : List (UInt16 × Bytes)) :
    (uploadMessages icc b parts).filterMap sentPart =
      parts.zipIdx.map fun x => ((⟨icc, 0x0801, b.mediaID⟩ : Upload), (⟨UInt16.ofNat parts.length, UInt16.ofNat (x.2 + 1)⟩ : Packet), x.1.2) := by
  unfold uploadMessages
  rw [List.filterMap_map, ← List.filterMap_eq_map]
  rfl

theorem ofNat_toNat_lt {n : Nat} (h : n < 65536) : (UInt16.ofNat n).toNat = n := by
  simp; omega

theorem lastSent_upload (icc : UInt64) (b : T0801) (parts : List (UInt16 × Bytes)) (hn : parts.length < 65536) (i : Nat) (hi : i < parts.length) :
    lastSent ⟨icc, 0x0801, b.mediaID⟩ (uploadMessages icc b parts) (UInt16.ofNat (i + 1)) = some parts[i].2 := by
  unfold lastSent
  rw [sent_upload, find?_unique (y := ((⟨icc, 0x0801, b.mediaID⟩ : Upload), (⟨UInt16.ofNat parts.length, UInt16.ofNat (i + 1)⟩ : Packet), parts[i].2))]
  · rfl
  · rw [List.mem_reverse, List.mem_map]
    exact ⟨(parts[i], i), List.mem_zipIdx_iff_getElem?.2 (by simp [hi]), rfl⟩
  · simp
  · intro z hz hP
    rw [List.mem_reverse, List.mem_map] at hz
    obtain ⟨⟨p, j⟩, hj, rfl⟩ := hz
    have hj := List.mem_zipIdx_iff_getElem?.1 hj
    obtain ⟨hj1, hj2⟩ := List.getElem?_eq_some_iff.1 hj
    simp only [beq_self_eq_true, Bool.true_and, beq_iff_eq] at hP
    have := congrArg UInt16.toNat hP
    rw [ofNat_toNat_lt (by omega), ofNat_toNat_lt (by omega)] at this
    obtain rfl : j = i := by omega
    simp only at hj2
    rw [hj2]

/-- A part of at most 987 bytes can be sent. -/
theorem sendable_part {env : Env} {icc : UInt64} {b : T0801} {m : Message Entity} {data : Bytes} (h0 : 0 < icc.toNat) (h1 : icc.toNat < 10 ^ 12)
    (hb : BaseOK env b.location) (hx : b.location.extras = []) (hd : data.length ≤ 987) (hi : m.header.iccID = icc)
    (hm : m.body = .val (.m0801 { b with packet := some data })) (hp : m.header.property = 0) :
    Sendable env m (.m0801 { b with packet := some data }) where
  body := hm
  range := ⟨hb, hx, rfl⟩
  icc0 := by rw [hi]; exact h0
  icc1 := by rw [hi]; exact h1
  size := by
    intro w e' he
    obtain rfl : w = put32 b.mediaID ++ [b.type, b.coding, b.event, b.channelID] ++ baseBytes env b.location ++ data := by
      obtain ⟨g1, -⟩ := T0200.base env b.location hb hx
      have g3 : T0801.encode env { b with packet := some data } =
          .ok (put32 b.mediaID ++ [b.type, b.coding, b.event, b.channelID] ++ baseBytes env b.location ++ data, { b with packet := some [] }) := by
        unfold T0801.encode
        simp only [g1]
        rfl
      simp only [Entity.encode, g3] at he
      cases he
      rfl
    have := baseBytes_length env b.location hb.2.2.2.2
    simp [this]
    omega
  plain := by rw [hp]; decide
  packet := fun h => absurd (hp ▸ h) (by decide)

theorem sendable_upload {env : Env} {icc : UInt64} {b : T0801} {parts : List (UInt16 × Bytes)} (h0 : 0 < icc.toNat) (h1 : icc.toNat < 10 ^ 12)
    (hb : BaseOK env b.location) (hx : b.location.extras = []) (hd : ∀ p ∈ parts, p.2.length ≤ 987) :
    ∀ x ∈ uploadMessages icc b parts, Sendable env x.1 x.2 := by
  intro x hx'
  unfold uploadMessages at hx'
  obtain ⟨⟨p, j⟩, hj, rfl⟩ := List.mem_map.1 hx'
  have hp : p ∈ parts := by
    have hj := List.mem_zipIdx_iff_getElem?.1 hj
    exact List.mem_of_getElem? hj
  exact sendable_part h0 h1 hb hx (hd p hp) rfl rfl rfl

/-! ## The example client -/

theorem Example.parts_mul (L k : Nat) (hL : 0 < L) : Example.parts (L * k) L = k := by
  unfold Example.parts
  rw [Nat.mul_div_cancel_left _ hL, Nat.mul_mod_right]
  simp

/-- From the part with number `j + 1` on. -/
theorem Example.upload_multiple (media : Bytes) (L k : Nat) (hL : 0 < L) (hk : media.length = L * k) (j : Nat) (hj : j ≤ k) :
    Example.upload media (L * j) L =
      .ok ((List.range' j (k - j)).map fun i => (⟨UInt16.ofNat k, UInt16.ofNat (i + 1)⟩, (media.drop (L * i)).take L)) := by
  obtain ⟨n, hn⟩ : ∃ n, n = k - j := ⟨_, rfl⟩
  induction n generalizing j with
  | zero =>
    have : j = k := by omega
    subst this
    rw [Example.upload, dif_pos (by omega)]
    simp
  | succ n ih =>
    have h1 : L * j + L ≤ L * k := by
      rw [← Nat.mul_succ]
      exact Nat.mul_le_mul_left _ (by omega)
    rw [Example.upload, dif_neg (by omega)]
    simp only
    rw [if_neg (by omega), dif_neg (by omega), if_neg (by omega), ← Nat.mul_succ, ih (j + 1) (by omega) (by omega), hk,
      Example.parts_mul L k hL, Example.parts_mul L (j + 1) hL, ← hn, show k - (j + 1) = n by omega, List.range'_succ]
    rfl

theorem Example.chunks_join (L k : Nat) (media : Bytes) (hk : media.length = L * k) :
    ((List.range k).flatMap fun i => (media.drop (L * i)).take L) = media := by
  have key : ∀ j, j ≤ k → ((List.range j).flatMap fun i => (media.drop (L * i)).take L) = media.take (L * j) := by
    intro j hj
    induction j with
    | zero => simp
    | succ j ih =>
      rw [List.range_succ, List.flatMap_append, ih (by omega), Nat.mul_succ, List.take_add]
      simp
  rw [key k (Nat.le_refl _), ← hk, List.take_length]

/-- If the length is not a multiple of the part size, a part with another total number of parts follows. -/
theorem Example.upload_other (media : Bytes) (L : Nat) (hL : 0 < L) (hne : ¬ L ∣ media.length) (n off : Nat) (hn : n = media.length - off)
    (hd : L ∣ off) (hle : off ≤ media.length) (ps : List (Packet × Bytes)) (h : Example.upload media off L = .ok ps) :
    ∃ y ∈ ps, ∃ L', 0 < L' ∧ 2 * L' ≤ L ∧ y.1.sum = UInt16.ofNat (Example.parts media.length L') := by
  induction n using Nat.strongRecOn generalizing off ps with
  | ind n ih =>
    have hlt : off < media.length := by
      rcases Nat.lt_or_ge off media.length with h | h
      · exact h
      · exact absurd (show L ∣ media.length by rw [show media.length = off by omega]; exact hd) hne
    rw [Example.upload, dif_neg (by omega)] at h
    simp only at h
    by_cases hs : media.length < off + L
    · rw [if_pos hs] at h
      rw [dif_neg (by omega)] at h
      split at h
      · cases h
      · split at h
        · cases h
          exact ⟨_, List.mem_cons_self, off + L - media.length, by omega, by omega, rfl⟩
        · cases h
        · cases h
    · rw [if_neg hs] at h
      rw [dif_neg (by omega), if_neg (by omega)] at h
      split at h
      · next rest hr =>
        cases h
        obtain ⟨y, hy, hL'⟩ := ih (media.length - (off + L)) (by omega) (off + L) rfl (Nat.dvd_add hd (Nat.dvd_refl _)) (by omega) rest hr
        exact ⟨y, List.mem_cons_of_mem _ hy, hL'⟩
      · cases h
      · cases h

theorem Example.parts_lt (N L L' : Nat) (h0 : 0 < L') (h2 : 2 * L' ≤ L) (hL : L ≤ N) : Example.parts N L < Example.parts N L' := by
  have key : ∀ k, 0 < k → N ≤ k * Example.parts N k := by
    intro k hk
    have := Nat.div_add_mod N k
    unfold Example.parts
    have hm := Nat.mod_lt N hk
    split
    · rw [Nat.mul_add, Nat.mul_one]; omega
    · rw [Nat.add_zero]; omega
  have key2 : L * Example.parts N L < N + L := by
    have := Nat.div_add_mod N L
    have hm := Nat.mod_lt N (show 0 < L by omega)
    unfold Example.parts
    split
    · rw [Nat.mul_add, Nat.mul_one]; omega
    · rw [Nat.add_zero]; omega
  have k1 := key L' h0
  rcases Nat.lt_or_ge (Example.parts N L) (Example.parts N L') with h | h
  · exact h
  · exfalso
    have a : 2 * L' * Example.parts N L' ≤ L * Example.parts N L := Nat.mul_le_mul h2 h
    have b : 2 * L' * Example.parts N L' = 2 * (L' * Example.parts N L') := Nat.mul_assoc ..
    omega

theorem Example.parts_le (N L : Nat) (h : 0 < L) : Example.parts N L ≤ N := by
  have e := Nat.div_add_mod N L
  have : N / L ≤ L * (N / L) := Nat.le_mul_of_pos_left _ h
  unfold Example.parts
  split <;> omega

theorem Example.upload_differs (media : Bytes) (L : Nat) (hL : 0 < L) (hle : L ≤ media.length) (hlen : media.length ≤ 65535)
    (hne : ¬ L ∣ media.length) (ps : List (Packet × Bytes)) (h : Example.upload media 0 L = .ok ps) :
    ∃ x ∈ ps, ∃ y ∈ ps, x.1.sum ≠ y.1.sum := by
  obtain ⟨y, hy, L', h0, h2, hs⟩ := Example.upload_other media L hL hne _ 0 rfl (Nat.dvd_zero _) (Nat.zero_le _) ps h
  rw [Example.upload, dif_neg (by omega)] at h
  simp only at h
  rw [if_neg (by omega), dif_neg (by omega), if_neg (by omega)] at h
  split at h
  · cases h
    refine ⟨_, List.mem_cons_self, y, hy, ?_⟩
    rw [hs]
    intro he
    have he := congrArg UInt16.toNat he
    have a := Example.parts_le media.length L hL
    have b := Example.parts_le media.length L' h0
    have c := Example.parts_lt media.length L L' h0 h2 hle
    simp only [UInt16.toNat_ofNat'] at he
    rw [Nat.mod_eq_of_lt (by omega), Nat.mod_eq_of_lt (by omega)] at he
    omega
  · cases h
  · cases h

/-- A file shorter than a part. -/
theorem Example.upload_short (media : Bytes) (L : Nat) (h0 : 0 < media.length) (hs : media.length < L) :
    Example.upload media 0 L = if 2 * media.length < L then .panic else Example.upload media 0 (L - media.length) := by
  rw [Example.upload, dif_neg (by omega)]
  simp only [Nat.zero_add]
  rw [if_pos hs, dif_neg (by omega)]
  by_cases h : 2 * media.length < L
  · rw [if_pos (by omega), if_pos h]
  · rw [if_neg (by omega), if_neg h]
    conv => rhs; rw [Example.upload]
    rw [dif_neg (by omega)]
    simp only [Nat.zero_add]
    rw [if_neg (by omega), dif_neg (by omega), if_neg (by omega)]

theorem Example.messages_multiple (icc : UInt64) (b : T0801) (media : Bytes) (L k : Nat) (hL : 0 < L) (hk : media.length = L * k)
    (hu : Example.upload media 0 512 = Example.upload media 0 L) :
    ∃ parts : List (UInt16 × Bytes), Example.messages icc b media = .ok ((uploadMessages icc b parts).map (·.1)) ∧
      parts.length = k ∧ (∀ p ∈ parts, p.2.length = L) ∧ parts.flatMap (·.2) = media := by
  refine ⟨(List.range k).map fun i => (3, (media.drop (L * i)).take L), ?_, by simp, ?_, ?_⟩
  · unfold Example.messages
    have h := Example.upload_multiple media L k (by omega) hk 0 (by omega)
    simp only [Nat.mul_zero, Nat.sub_zero] at h
    rw [hu, h]
    simp only [Res.ok.injEq]
    unfold uploadMessages
    apply List.ext_getElem
    · simp
    · intro i h1 h2
      simp [Example.message, partMessage]
  · intro p hp
    obtain ⟨i, hi, rfl⟩ := List.mem_map.1 hp
    have := List.mem_range.1 hi
    have : L * (i + 1) ≤ L * k := Nat.mul_le_mul_left _ (by omega)
    rw [Nat.mul_add] at this
    simp
    omega
  · rw [List.flatMap_map]
    exact Example.chunks_join L k media hk

theorem sentPart_upload {f : FileUpload} {x : Message Entity × Entity} (h : x ∈ f.messages) : ∃ q d, sentPart x = some (f.upload, q, d) := by
  unfold FileUpload.messages uploadMessages at h
  obtain ⟨y, -, rfl⟩ := List.mem_map.1 h
  exact ⟨_, _, rfl⟩

end Verif
