import Verif.Lemmas.ExampleTalk
import Verif.Props.Converse
/-! # The bytes of the conversation of the example programs -/

namespace Verif.Programs
open Session Handler Spec Converse Codec

/-- The frames and what they are decoded to. -/
def Frames (env : Env) (key : Option DecKey) (xs : List (Bytes × Message Entity)) : Prop :=
  ∀ x ∈ xs, Delimited x.1 ∧ x.1.length ≤ 65408 ∧ Message.decode (entityCodec env) key {} x.1 = .ok x.2

/-- The bytes of the frames. -/
def joinedFrames (xs : List (Bytes × Message Entity)) : Bytes := xs.flatMap (·.1)

theorem joinedFrames_take (xs : List (Bytes × Message Entity)) (n : Nat) : joinedFrames (xs.take n) <+: joinedFrames xs := by
  conv => rhs; rw [← List.take_append_drop n xs]
  unfold joinedFrames
  rw [List.flatMap_append]
  exact List.prefix_append _ _

theorem zip_ok {α : Type} (ys : List (α × Message Entity)) (n : Nat) (h : ys.length = n) :
    (ys.map (·.2)).zip (List.replicate n ((.ok, .ok) : Outcome × Outcome)) = ys.map fun x => (x.2, .ok, .ok) := by
  subst h
  induction ys with
  | nil => rfl
  | cons y ys ih => simp [List.replicate_succ, ih]

theorem serve_prefix {σ : Type} (env : Env) (key : Option DecKey) (endErr : Err) (P : Program σ) (s : Converse.State σ) (xs : List (Bytes × Message Entity))
    (hx : Frames env key xs) (reads : List Bytes) (hr : ∀ c ∈ reads, c.length ≤ 128) (hp : reads.flatten <+: joinedFrames xs) (turns : Nat)
    (ht : xs.length < turns) :
    ∃ n, n ≤ xs.length ∧ (joinedFrames (xs.take n)).length ≤ reads.flatten.length ∧
      (n < xs.length → reads.flatten.length < (joinedFrames (xs.take (n + 1))).length) ∧
      s.serve env key endErr true P (List.replicate turns (.ok, .ok)) ⟨[], reads⟩ =
        (s.run true P ((xs.take n).map fun x => (x.2, .ok, .ok))).bind fun r => .ok (r.1, r.2 ++ [.closed]) := by
  obtain ⟨k, hk⟩ : ∃ k, k = turns - xs.length := ⟨_, rfl⟩
  have hex : ∃ n, n ≤ xs.length ∧ (joinedFrames (xs.take n)).length ≤ reads.flatten.length ∧
      (n < xs.length → reads.flatten.length < (joinedFrames (xs.take (n + 1))).length) ∧
      ∀ k, (receiveMany (entityCodec env) key endErr (n + k) ⟨[], reads⟩).1 = (xs.take n).map (fun x => .ok x.2) ++ List.replicate k (.err endErr) := by
    obtain ⟨n, n1, n2, n3, -⟩ := C12_cut_anywhere (entityCodec env) key endErr xs hx reads hr hp 0
    refine ⟨n, n1, n2, n3, fun k => ?_⟩
    obtain ⟨n', m1, m2, m3, m4⟩ := C12_cut_anywhere (entityCodec env) key endErr xs hx reads hr hp k
    have hmono : ∀ a b, a ≤ b → (joinedFrames (xs.take a)).length ≤ (joinedFrames (xs.take b)).length := by
      intro a b hab
      have h := (joinedFrames_take (xs.take b) a).length_le
      rwa [List.take_take, Nat.min_eq_left hab] at h
    have : n' = n := by
      rcases Nat.lt_trichotomy n' n with h | h | h
      · exact absurd (m3 (by omega)) (by have := hmono (n' + 1) n (by omega); unfold joinedFrames at this; omega)
      · exact h
      · exact absurd (n3 (by omega)) (by have := hmono (n + 1) n' (by omega); unfold joinedFrames at this; omega)
    rw [← this]
    exact m4
  obtain ⟨n, n1, n2, n3, n4⟩ := hex
  refine ⟨n, n1, n2, n3, ?_⟩
  have hl : (xs.take n).length = n := by simp; omega
  have := serve_run env key endErr true P ((xs.take n).map (·.2)) (List.replicate n (.ok, .ok)) (List.replicate (turns - n) (.ok, .ok)) (by rw [List.length_map, hl, List.length_replicate])
    ⟨[], reads⟩ (by rw [List.length_map, hl, List.length_replicate, n4, List.map_map]; rfl) s
  rw [List.replicate_append_replicate, show n + (turns - n) = turns by omega] at this
  rw [this]
  have hz : ((xs.take n).map (·.2)).zip (List.replicate n ((.ok, .ok) : Outcome × Outcome)) = (xs.take n).map fun x => (x.2, .ok, .ok) := by
    exact zip_ok _ _ hl
  have hne : List.replicate (turns - n) ((.ok, .ok) : Outcome × Outcome) ≠ [] := by
    intro h
    have := congrArg List.length h
    simp at this
    omega
  rw [hz]
  simp [hne]

theorem listen_received (env : Env) (endErr : Err) (ds : List (Message Entity)) (k : Nat) (hk : 0 < k) (c : RecvState)
    (h : (receiveMany (entityCodec env) none endErr (ds.length + k) c).1 = ds.map .ok ++ List.replicate k (.err endErr)) :
    listen env endErr (ds.length + k) c = .ok ds := by
  induction ds generalizing c with
  | nil =>
    obtain ⟨k, rfl⟩ : ∃ j, k = j + 1 := ⟨k - 1, by omega⟩
    simp only [List.length_nil, Nat.zero_add, receiveMany, List.map_nil, List.nil_append, List.replicate_succ, List.cons.injEq] at h
    simp only [List.length_nil, Nat.zero_add, listen]
    rw [show receive (entityCodec env) none endErr c = ((receive (entityCodec env) none endErr c).1, (receive (entityCodec env) none endErr c).2) from rfl, h.1]
  | cons d ds ih =>
    rw [show (d :: ds).length + k = (ds.length + k) + 1 by simp; omega] at h ⊢
    simp only [receiveMany, List.map_cons, List.cons_append, List.cons.injEq] at h
    simp only [listen]
    rw [show receive (entityCodec env) none endErr c = ((receive (entityCodec env) none endErr c).1, (receive (entityCodec env) none endErr c).2) from rfl, h.1]
    simp only [ih _ h.2, Res.ok_bind]

theorem listen_prefix (env : Env) (endErr : Err) (ys : List (Bytes × Message Entity)) (hy : Frames env none ys) (reads : List Bytes)
    (hr : ∀ c ∈ reads, c.length ≤ 128) (hp : reads.flatten <+: joinedFrames ys) (turns : Nat) (ht : ys.length < turns) :
    ∃ n, n ≤ ys.length ∧ (joinedFrames (ys.take n)).length ≤ reads.flatten.length ∧
      (n < ys.length → reads.flatten.length < (joinedFrames (ys.take (n + 1))).length) ∧ listen env endErr turns ⟨[], reads⟩ = .ok ((ys.take n).map (·.2)) := by
  -- the number of turns left is only known when the number of messages is
  have key : ∀ k, ∃ n, n ≤ ys.length ∧ (joinedFrames (ys.take n)).length ≤ reads.flatten.length ∧
      (n < ys.length → reads.flatten.length < (joinedFrames (ys.take (n + 1))).length) ∧
      (receiveMany (entityCodec env) none endErr (n + k) ⟨[], reads⟩).1 = (ys.take n).map (fun x => .ok x.2) ++ List.replicate k (.err endErr) :=
    fun k => C12_cut_anywhere (entityCodec env) none endErr ys hy reads hr hp k
  have hmono : ∀ a b, a ≤ b → (joinedFrames (ys.take a)).length ≤ (joinedFrames (ys.take b)).length := by
    intro a b hab
    have h := (joinedFrames_take (ys.take b) a).length_le
    rwa [List.take_take, Nat.min_eq_left hab] at h
  obtain ⟨n, n1, n2, n3, -⟩ := key 0
  obtain ⟨n', m1, m2, m3, m4⟩ := key (turns - n)
  have hnn : n' = n := by
    rcases Nat.lt_trichotomy n' n with h | h | h
    · exact absurd (m3 (by omega)) (by have := hmono (n' + 1) n (by omega); omega)
    · exact h
    · exact absurd (n3 (by omega)) (by have := hmono (n + 1) n' (by omega); omega)
  subst hnn
  refine ⟨n', n1, n2, n3, ?_⟩
  have hl : ((ys.take n').map (·.2)).length = n' := by simp; omega
  have := listen_received env endErr ((ys.take n').map (·.2)) (turns - n') (by omega) ⟨[], reads⟩ (by rw [hl, m4, List.map_map]; rfl)
  rwa [hl, show n' + (turns - n') = turns by omega] at this

/-- What `Encode` writes depends only on the encoded body. -/
theorem encode_congr (env : Env) (h : Header) {e e' : Entity} (he : Verif.Entity.encode env e = Verif.Entity.encode env e') (hi : e.msgID = e'.msgID) :
    Message.encode (entityCodec env) none { header := h, body := .val e } = Message.encode (entityCodec env) none { header := h, body := .val e' } := by
  unfold Message.encode Message.encodeBody Message.bodyMsgID
  simp only [entityCodec, he, hi]

theorem marks (s : UInt32) (hs : s = 0 ∨ s = 8) :
    (do let st ← markNegative s (micro ⟨23562345, -6⟩) 2; markNegative st (micro ⟨-128323123, -6⟩) 3) = .ok 8 := by
  rcases hs with rfl | rfl <;> decide +kernel

theorem location_encode (env : Env) (now : Time) (s : UInt32) (hs : s = 0 ∨ s = 8) :
    T0200.encode env { location now with status := s } =
      .ok (put32 2342 ++ put32 8 ++ put32 (absU32 (micro ⟨23562345, -6⟩)) ++ put32 (absU32 (micro ⟨-128323123, -6⟩)) ++ put16 2345 ++ put16 160 ++ put16 72 ++
        putTime env now ++ [], fixed now) := by
  have h := marks s hs
  cases h1 : markNegative s (micro ⟨23562345, -6⟩) 2 with
  | err e => rw [h1] at h; cases h
  | panic => rw [h1] at h; cases h
  | ok st =>
    rw [h1] at h
    simp only [Res.ok_bind] at h
    unfold T0200.encode
    simp only [location, h1, Res.ok_bind, h]
    rfl

theorem location_fixed (env : Env) (now : Time) : T0200.encode env (location now) = T0200.encode env (fixed now) :=
  (location_encode env now 0 (.inl rfl)).trans (location_encode env now 8 (.inr rfl)).symm

theorem media_fixed (env : Env) (now : Time) (c : Bytes) :
    T0801.encode env { media now with packet := some c } = T0801.encode env { fixedMedia now with packet := some c } := by
  unfold T0801.encode
  have : T0200.encode env { (location now) with extras := [] } = T0200.encode env { (fixed now) with extras := [] } := location_fixed env now
  simp only [media, fixedMedia, this]

/-- The bytes of the messages of the client. -/
theorem encodeAll_frames (env : Env) (ms : List (Message Entity)) (bytes : List Bytes)
    (h : ms.map (fun m => sendBytes (entityCodec env) none m) = bytes.map .ok) : encodeAll env ms = .ok bytes.flatten := by
  induction ms generalizing bytes with
  | nil =>
    cases bytes with
    | nil => rfl
    | cons b bs => simp at h
  | cons m ms ih =>
    cases bytes with
    | nil => simp at h
    | cons b bs =>
      simp only [List.map_cons, List.cons.injEq] at h
      obtain ⟨h1, h2⟩ := h
      unfold sendBytes at h1
      simp only at h1
      cases he : Message.encode (entityCodec env) none m with
      | err e => rw [he] at h1; cases h1
      | panic => rw [he] at h1; cases h1
      | ok r =>
        rw [he] at h1
        cases h1
        simp only [encodeAll, he, Res.ok_bind, ih bs h2, List.flatten_cons]

/-! ## What the client sends -/

/-- The parts of the file. -/
def chunk (file : Bytes) (i : Nat) : Bytes := (file.drop (512 * i)).take 512

theorem chunk_length (file : Bytes) (i : Nat) : (chunk file i).length ≤ 512 := by
  unfold chunk
  rw [List.length_take]
  omega

theorem chunks_file {file : Bytes} (h : file.length = 2048) : chunk file 0 ++ chunk file 1 ++ chunk file 2 ++ chunk file 3 = file := by
  have := Example.chunks_join 512 4 file h
  rw [show List.range 4 = [0, 1, 2, 3] from rfl] at this
  simpa [chunk] using this

/-- The parameters of the answer. -/
def params (env : Env) : T0104 :=
  { replySerial := 2,
    params := [Param.setByte 0x0084 24, Param.setBytes 0x0110 [1, 2, 3, 4, 5, 6, 7, 8], Param.setUint16 0x0031 100,
               Param.setUint32 0x0046 64000, Param.setString env 0x0083 plate] }

/-- The message for a part, as it is on the wire. -/
def partPair (now : Nat → Time) (file : Bytes) (i : Nat) : Message Entity × Entity :=
  (Example.message icc (fixedMedia (now (i + 1))) (⟨4, UInt16.ofNat (i + 1)⟩, chunk file i),
    .m0801 { fixedMedia (now (i + 1)) with packet := some (chunk file i) })

/-- The first messages of the client, as they are on the wire. -/
def firstPairs (now : Nat → Time) (key : PubKey) (file : Bytes) : List (Message Entity × Entity) :=
  [({ header := { iccID := icc, serial := 1 }, body := .val (.m0102 { authKey := authKey }) }, .m0102 { authKey := authKey }),
   ({ header := { iccID := icc, serial := 2 }, body := .val (.m0200 (fixed (now 0))) }, .m0200 (fixed (now 0))),
   ({ header := { iccID := icc, serial := 3 }, body := .val (.m0a00 { publicKey := some key }) }, .m0a00 { publicKey := some key }),
   partPair now file 0, partPair now file 1, partPair now file 2, partPair now file 3]

/-- The answer of the client. -/
def answerPair (env : Env) : Message Entity × Entity :=
  ({ header := { iccID := icc, serial := 1000 }, body := .val (.m0104 (params env)) }, .m0104 (params env))

theorem opening_parts (now : Nat → Time) (key : PubKey) {file : Bytes} (h : file.length = 2048) :
    opening now key file = .ok
      [{ header := { iccID := icc, serial := 1 }, body := .val (.m0102 { authKey := authKey }) },
       { header := { iccID := icc, serial := 2 }, body := .val (.m0200 (location (now 0))) },
       { header := { iccID := icc, serial := 3 }, body := .val (.m0a00 { publicKey := some key }) },
       Example.message icc (media (now 1)) (⟨4, 1⟩, chunk file 0), Example.message icc (media (now 2)) (⟨4, 2⟩, chunk file 1),
       Example.message icc (media (now 3)) (⟨4, 3⟩, chunk file 2), Example.message icc (media (now 4)) (⟨4, 4⟩, chunk file 3)] := by
  have := Example.upload_multiple file 512 4 (by omega) h 0 (by omega)
  rw [Nat.mul_zero] at this
  unfold opening
  rw [this]
  rfl

theorem part_bytes (env : Env) (now : Time) (p : Packet × Bytes) :
    sendBytes (entityCodec env) none (Example.message icc (media now) p) = sendBytes (entityCodec env) none (Example.message icc (fixedMedia now) p) := by
  unfold sendBytes Example.message
  have : Verif.Entity.encode env (.m0801 { media now with packet := some p.2 }) = Verif.Entity.encode env (.m0801 { fixedMedia now with packet := some p.2 }) := by
    simp only [Verif.Entity.encode, media_fixed]
  rw [encode_congr env _ this rfl]

/-- The bytes are those of the fixed messages. -/
theorem opening_bytes (env : Env) (now : Nat → Time) (key : PubKey) {file : Bytes} (h : file.length = 2048) :
    ∃ ms, opening now key file = .ok ms ∧
      ms.map (fun m => sendBytes (entityCodec env) none m) = (firstPairs now key file).map fun x => sendBytes (entityCodec env) none x.1 := by
  refine ⟨_, opening_parts now key h, ?_⟩
  have hl : sendBytes (entityCodec env) none { header := { iccID := icc, serial := 2 }, body := .val (.m0200 (location (now 0))) } =
      sendBytes (entityCodec env) none { header := { iccID := icc, serial := 2 }, body := .val (.m0200 (fixed (now 0))) } := by
    unfold sendBytes
    rw [encode_congr env _ (show Verif.Entity.encode env (.m0200 (location (now 0))) = Verif.Entity.encode env (.m0200 (fixed (now 0))) by
      simp only [Verif.Entity.encode, location_fixed]) rfl]
  simp only [List.map_cons, List.map_nil, firstPairs, partPair, hl, part_bytes]
  rfl

theorem fixed_base (env : Env) {now : Time} (h : TimeOK env now) : BaseOK env (fixed now) := by
  have h1 : Coord ⟨23562345, -6⟩ := ⟨rfl, by decide⟩
  have h2 : Coord ⟨-128323123, -6⟩ := ⟨rfl, by decide⟩
  have h3 : Hemisphere ((8 : UInt32).toNat.testBit 2) ⟨23562345, -6⟩ := ⟨by decide, by decide⟩
  have h4 : Hemisphere ((8 : UInt32).toNat.testBit 3) ⟨-128323123, -6⟩ := ⟨by decide, by decide⟩
  exact ⟨h1, h2, h3, h4, h⟩

theorem part_sendable {env : Env} {now : Nat → Time} (file : Bytes) (i : Nat) (h : TimeOK env (now (i + 1))) :
    Sendable env (partPair now file i).1 (partPair now file i).2 :=
  sendable_part (icc := icc) (b := fixedMedia (now (i + 1))) (by decide) (by decide) (fixed_base env h) rfl
    (by have := chunk_length file i; omega) rfl rfl rfl

theorem key_size {k : Option PubKey} (h : KeyOK k) {b : Bytes} (hb : T0A00.encode { publicKey := k } = .ok b) : b.length ≤ 1023 := by
  obtain ⟨n, e, rfl, h1, -, -⟩ := h
  unfold T0A00.encode at hb
  simp only [h1] at hb
  cases hb
  have : (putFixed (natBytes n) 128).length = 128 := by
    unfold putFixed
    split <;> simp <;> omega
  simp [this]

theorem keep_ok {r : Res Bytes} {e e' : Entity} {b : Bytes} (h : Verif.Entity.keep r e = .ok (b, e')) : r = .ok b := by
  cases r with
  | ok x => cases h; rfl
  | err x => cases h
  | panic => cases h

theorem plain_sendable {env : Env} {e : Entity} (s : UInt16) (h : InRange env e) (hs : ∀ b e', Verif.Entity.encode env e = .ok (b, e') → b.length ≤ 1023) :
    Sendable env { header := { iccID := icc, serial := s }, body := .val e } e :=
  ⟨rfl, h, show 0 < icc.toNat by decide, show icc.toNat < 10 ^ 12 by decide, hs, show encryptFlag (0 : UInt16).toNat = false by decide,
    fun hp => absurd (show packetFlag (0 : UInt16).toNat = true from hp) (by decide)⟩

theorem first_sendable {env : Env} {now : Nat → Time} {key own : PubKey} {file : Bytes} (h : ExampleOK env now key own file) :
    ∀ x ∈ firstPairs now key file, Sendable env x.1 x.2 := by
  intro x hx
  simp only [firstPairs, List.mem_cons, List.not_mem_nil, or_false] at hx
  rcases hx with rfl | rfl | rfl | rfl | rfl | rfl | rfl
  · refine plain_sendable 1 ⟨by decide, ⟨_, h.auth⟩⟩ ?_
    intro b e' hb
    obtain ⟨-, w, h1, h2, -⟩ := h.auth
    have h3 : T0102.encode env { authKey := authKey } = .ok b := keep_ok hb
    simp only [T0102.encode, putStrNonempty] at h3
    rw [if_pos (by decide)] at h3
    simp only [putStr, h1] at h3
    cases h3
    exact h2
  · refine plain_sendable 2 ⟨fixed_base env (h.times 0 (by omega)), by simp [fixed, location]⟩ ?_
    intro b e' hb
    have h1 : T0200.encode env (fixed (now 0)) = _ := location_encode env (now 0) 8 (.inr rfl)
    simp only [Verif.Entity.encode, h1] at hb
    cases hb
    simp [putTime_length env (now 0) (h.times 0 (by omega))]
  · refine plain_sendable 3 h.key ?_
    intro b e' hb
    exact key_size h.key (keep_ok hb)
  · exact part_sendable file 0 (h.times 1 (by omega))
  · exact part_sendable file 1 (h.times 2 (by omega))
  · exact part_sendable file 2 (h.times 3 (by omega))
  · exact part_sendable file 3 (h.times 4 (by omega))

theorem plate_size {env : Env} (h : ∀ b, env.gbEnc plate = some b → b.length < 256) : (Param.setString env 0x0083 plate).serialized.length < 256 := by
  unfold Param.setString
  rw [if_neg (by decide)]
  cases hp : env.gbEnc plate with
  | none => simp [Param.setBytes]
  | some b => exact h b hp

theorem answer_sendable {env : Env} {now : Nat → Time} {key own : PubKey} {file : Bytes} (h : ExampleOK env now key own file) :
    Sendable env (answerPair env).1 (answerPair env).2 := by
  have hp := plate_size h.plate
  refine plain_sendable 1000 ⟨by simp [params], by simp [params], ?_⟩ ?_
  · intro p hp'
    simp only [params, List.mem_cons, List.not_mem_nil, or_false] at hp'
    rcases hp' with rfl | rfl | rfl | rfl | rfl
    · decide
    · decide
    · decide
    · decide
    · exact hp
  · intro b e' hb
    have h1 : T0104.encode (params env) = .ok b := keep_ok hb
    simp only [T0104.encode, params, encList, Param.encodeItem, Res.ok_bind, Res.ok.injEq] at h1
    subst h1
    simp [Param.setByte, Param.setBytes, Param.setUint16, Param.setUint32]
    omega

/-! ## What the server sends -/

/-- The messages of the server with their bodies. -/
def replyPairs (own : PubKey) : List (Message Entity × Entity) :=
  (exampleMessages own).filterMap fun m => match m.body with | .val e => some (m, e) | _ => none

theorem replyPairs_fst (own : PubKey) : (replyPairs own).map (·.1) = exampleMessages own := rfl

theorem outgoing_sendable {env : Env} {e : Entity} (n : Nat) (h : InRange env e) (hs : ∀ b e', Verif.Entity.encode env e = .ok (b, e') → b.length ≤ 1023) :
    Sendable env (outgoing 19901234567 n e) e :=
  ⟨rfl, h, show 0 < (19901234567 : UInt64).toNat by decide, show (19901234567 : UInt64).toNat < 10 ^ 12 by decide, hs, show encryptFlag (0 : UInt16).toNat = false by decide,
    fun hp => absurd (show packetFlag (0 : UInt16).toNat = true from hp) (by decide)⟩

theorem reply_sendable {env : Env} {own : PubKey} (h : KeyOK (some own)) : ∀ x ∈ replyPairs own, Sendable env x.1 x.2 := by
  have h1 : ∀ n b, Sendable env (outgoing 19901234567 n (.m8001 b)) (.m8001 b) := by
    intro n b
    refine outgoing_sendable n trivial ?_
    intro w e' hw
    have : T8001.encode b = .ok w := keep_ok hw
    cases this
    simp
  intro x hx
  simp only [replyPairs, exampleMessages, outgoing, List.filterMap_cons, List.filterMap_nil, List.mem_cons, List.not_mem_nil, or_false] at hx
  rcases hx with rfl | rfl | rfl | rfl | rfl | rfl | rfl | rfl | rfl | rfl
  · exact h1 _ _
  · refine outgoing_sendable 1 trivial ?_
    intro w e' hw
    have : TEmpty.encode {} = .ok w := keep_ok hw
    cases this
    simp
  · exact h1 _ _
  · exact h1 _ _
  · refine outgoing_sendable 4 h ?_
    intro w e' hw
    exact key_size h (keep_ok hw)
  · exact h1 _ _
  · exact h1 _ _
  · exact h1 _ _
  · exact h1 _ _
  · refine outgoing_sendable 9 (show ([] : List UInt16).length < 256 by decide) ?_
    intro w e' hw
    have : T8800.encode { mediaID := 1024 } = .ok w := keep_ok hw
    cases this
    simp

end Verif.Programs
