import Verif.Lemmas.Cipher
import Verif.Props.Oaep
import Verif.Props.Converse
/-! # C92: a terminal may encrypt any of its messages -/

namespace Verif
open Spec Codec Session Handler Converse Oaep

variable {σ : Type}

/-- C92: the terminal encrypts some of its messages with the key of the server and sends others in plain text. However the bytes are split, the server does
what C76 says for messages with the contents sent; of the encryption only the flag in the header is left. -/
theorem C92_end_to_end (env : Env) (key : Option DecKey) (auto : Bool) (P : Program σ) (u : σ) (accepts : List Bool)
    (ms : List (Message Entity × Entity × Option EncKey)) (hms : ∀ x ∈ ms, SendableAs env key x.1 x.2.1 x.2.2) :
    ∃ (bytes : List Bytes) (ds : List (Message Entity)),
      ms.map (fun x => (Message.encode (entityCodec env) x.2.2 x.1).bind fun r => .ok r.1) = bytes.map .ok ∧ ds.length = ms.length ∧
      (∀ p ∈ ms.zip ds, Carries p.1.1 p.1.2.1 p.2 ∧ encryptFlag p.2.header.property.toNat = p.1.2.2.isSome) ∧
      ∀ os : List (Outcome × Outcome), os.length = ms.length → ∃ s log k, Talk auto P { user := u } (ds.zip os) log k ∧ s.user = k.user ∧
        ∀ (endErr : Err) (o : Outcome × Outcome) (reads : List Bytes), (∀ c ∈ reads, c.length ≤ 128) → reads.flatten = bytes.flatten →
          ({ user := u, accepts := accepts } : Converse.State σ).serve env key endErr auto P os ⟨[], reads⟩ = .ok (s, log) ∧
          ({ user := u, accepts := accepts } : Converse.State σ).serve env key endErr auto P (os ++ [o]) ⟨[], reads⟩ = .ok (s, log ++ [.closed]) := by
  obtain ⟨xs, h1, h2, h3, h4⟩ := sendableAs_frames env key ms hms
  refine ⟨xs.map (·.1), xs.map (·.2), by rw [h2]; simp, by simp [h1], h4, ?_⟩
  intro os ho
  obtain ⟨s, log, k, r1, r2, r3⟩ := run_spec auto P _ (shows_fresh u accepts) (delivered_frames h3 os)
  refine ⟨s, log, k, r2, r3.user, ?_⟩
  intro endErr o reads hr hs
  have hold : Codec.Holds ⟨[], reads⟩ (xs.flatMap (·.1) ++ []) 65408 := ⟨by simpa [List.flatMap_def] using hs, hr, by simp⟩
  constructor
  · obtain ⟨c, -, h⟩ := serve_frames (σ := σ) env key endErr auto P [] [] xs h3 os _ (by rw [ho, h1]) hold
    rw [List.append_nil] at h
    rw [h, r1]
    show Res.ok (s, log ++ []) = _
    rw [List.append_nil]
  · obtain ⟨c, hc, h⟩ := serve_frames (σ := σ) env key endErr auto P [o] [] xs h3 os _ (by rw [ho, h1]) hold
    rw [h, r1]
    have hend := receive_end (C := entityCodec env) (key := key) (endErr := endErr) hc (.inl rfl) (by simp) (Nat.le_refl _)
    simp only [State.serve, hend]
    rfl

/-- C92: for handlers and callbacks that do not look at the encryption, the same happens as if the terminal had sent the same messages in plain text: the same calls in the
same order, the same answers with the same numbers, and the same data of the program in the end. -/
theorem C92_same_as_plain (env : Env) (key : Option DecKey) (auto : Bool) (P : Program σ) (hP : Blind P) (u : σ) (accepts : List Bool)
    (ms : List (Message Entity × Entity × Option EncKey)) (hms : ∀ x ∈ ms, SendableAs env key x.1 x.2.1 x.2.2)
    (hplain : ∀ x ∈ ms, Sendable env x.1 x.2.1) (bytes plain : List Bytes)
    (hb : ms.map (fun x => (Message.encode (entityCodec env) x.2.2 x.1).bind fun r => .ok r.1) = bytes.map .ok)
    (hp : ms.map (fun x => (Message.encode (entityCodec env) none x.1).bind fun r => .ok r.1) = plain.map .ok)
    (reads reads' : List Bytes) (hr : ∀ c ∈ reads, c.length ≤ 128) (hr' : ∀ c ∈ reads', c.length ≤ 128) (hs : reads.flatten = bytes.flatten)
    (hs' : reads'.flatten = plain.flatten) (endErr endErr' : Err) (key' : Option DecKey) (os : List (Outcome × Outcome)) (ho : os.length = ms.length) :
    ∃ s log log', ({ user := u, accepts := accepts } : Converse.State σ).serve env key endErr auto P os ⟨[], reads⟩ = .ok (s, log) ∧
      ({ user := u, accepts := accepts } : Converse.State σ).serve env key' endErr' auto P os ⟨[], reads'⟩ = .ok (s, log') ∧ Each SameEvent log log' := by
  obtain ⟨xs, h1, h2, h3, h4⟩ := sendableAs_frames env key ms hms
  obtain ⟨ys, i1, i2, i3, i4⟩ := sendable_frames env key' (ms.map fun x => (x.1, x.2.1)) (by
    intro x hx
    obtain ⟨y, hy, rfl⟩ := List.mem_map.1 hx
    exact hplain y hy)
  have e1 : bytes = xs.map (·.1) := by
    have : bytes.map (Res.ok (α := Bytes)) = (xs.map (·.1)).map .ok := by rw [← hb, h2]; simp
    exact map_ok_inj this
  have e2 : plain = ys.map (·.1) := by
    have : plain.map (Res.ok (α := Bytes)) = (ys.map (·.1)).map .ok := by
      rw [← hp, show (ys.map (·.1)).map (Res.ok (α := Bytes)) = ys.map (fun x => .ok x.1) by simp, ← i2, List.map_map]
      rfl
    exact map_ok_inj this
  have hsame : Each SameContent (xs.map (·.2)) (ys.map (·.2)) := by
    refine each_of_zip (ms := ms) (by simp [h1]) (by simpa using i1) ?_
    intro m d d' hd hd'
    obtain ⟨a1, a2, a3, a4, a5, a6⟩ := (h4 (m, d) hd).1
    have hz : ((m.1, m.2.1), d') ∈ (ms.map fun x => (x.1, x.2.1)).zip (ys.map (·.2)) := by
      rw [List.zip_map_left]
      exact List.mem_map.2 ⟨(m, d'), hd', rfl⟩
    obtain ⟨b1, b2, b3, b4, b5, b6⟩ := i4 _ hz
    exact ⟨a1.trans b1.symm, a2.trans b2.symm, a3.trans b3.symm, a4.trans b4.symm, a5.trans b5.symm, a6.trans b6.symm⟩
  obtain ⟨s, log, k, r1, -, -⟩ := run_spec auto P _ (shows_fresh u accepts) (delivered_frames h3 os)
  have halike := run_alike hP auto hsame os { user := u, accepts := accepts }
  rw [r1] at halike
  generalize hy : State.run auto P _ ((ys.map (·.2)).zip os) = y at halike
  cases halike with
  | ok _ hx =>
    rename_i log'
    refine ⟨s, log, log', ?_, ?_, hx⟩
    · obtain ⟨c, -, h⟩ := serve_frames (σ := σ) env key endErr auto P [] [] xs h3 os ⟨[], reads⟩ (by rw [ho, h1])
        ⟨by simpa [List.flatMap_def, ← e1] using hs, hr, by simp⟩
      rw [List.append_nil] at h
      rw [h, r1]
      show Res.ok (s, log ++ []) = _
      rw [List.append_nil]
    · obtain ⟨c, -, h⟩ := serve_frames (σ := σ) env key' endErr' auto P [] [] ys i3 os ⟨[], reads'⟩ (by rw [ho, i1]; simp)
        ⟨by simpa [List.flatMap_def, ← e2] using hs', hr', by simp⟩
      rw [List.append_nil] at h
      rw [h, hy]
      show Res.ok (s, log' ++ []) = _
      rw [List.append_nil]

/-- C92: a message the server cannot decrypt, because it has no key or another one, ends the session: the messages before it are handled, then the session is
closed, and nothing that follows is looked at. -/
theorem C92_unreadable (env : Env) (key : Option DecKey) (auto : Bool) (P : Program σ) (u : σ) (accepts : List Bool)
    (ms : List (Message Entity × Entity × Option EncKey)) (hms : ∀ x ∈ ms, SendableAs env key x.1 x.2.1 x.2.2)
    (m : Message Entity) (e : Entity) (k : EncKey) (d : DecKey) (hm : SendableAs env (some d) m e (some k))
    (hkey : ∀ d', key = some d' → ∀ b e' x, Entity.encode env e = .ok (b, e') → encryptOAEP k b = .ok x → ∃ err, decryptOAEP d' x = .err err) :
    ∃ (bytes : List Bytes) (f : Bytes) (ds : List (Message Entity)),
      ms.map (fun x => (Message.encode (entityCodec env) x.2.2 x.1).bind fun r => .ok r.1) = bytes.map .ok ∧ ds.length = ms.length ∧
      (∀ p ∈ ms.zip ds, Carries p.1.1 p.1.2.1 p.2) ∧ (∃ m', Message.encode (entityCodec env) (some k) m = .ok (f, m')) ∧
      ∀ os : List (Outcome × Outcome), os.length = ms.length → ∃ s log k, Talk auto P { user := u } (ds.zip os) log k ∧ s.user = k.user ∧
        ∀ (endErr : Err) (o : Outcome × Outcome) (os' : List (Outcome × Outcome)) (reads : List Bytes) (rest : Bytes), (∀ c ∈ reads, c.length ≤ 128) →
          reads.flatten = bytes.flatten ++ f ++ rest →
          ({ user := u, accepts := accepts } : Converse.State σ).serve env key endErr auto P (os ++ o :: os') ⟨[], reads⟩ = .ok (s, log ++ [.closed]) := by
  obtain ⟨xs, h1, h2, h3, h4⟩ := sendableAs_frames env key ms hms
  obtain ⟨f, m', g1, g2, g3, g4⟩ := unreadable_frame key hm hkey
  refine ⟨xs.map (·.1), f, xs.map (·.2), by rw [h2]; simp, by simp [h1], fun p hp => (h4 p hp).1, ⟨m', g1⟩, ?_⟩
  intro os ho
  obtain ⟨s, log, k, r1, r2, r3⟩ := run_spec auto P _ (shows_fresh u accepts) (delivered_frames h3 os)
  refine ⟨s, log, k, r2, r3.user, ?_⟩
  intro endErr o os' reads rest hr hs
  obtain ⟨c, hc, h⟩ := serve_frames (σ := σ) env key endErr auto P (o :: os') (f ++ rest) xs h3 os ⟨[], reads⟩ (by rw [ho, h1])
    ⟨by simpa [List.flatMap_def] using hs, hr, by simp⟩
  rw [h, r1]
  obtain ⟨c', k1, -⟩ := receive_frame (C := entityCodec env) (key := key) (endErr := endErr) hc g3 (by rw [g2]; simp) (by omega) (Nat.le_refl _)
  simp only [State.serve, k1, g2]
  rfl

/-- C92, for a real RSA key of 1024 bits and real encryption: every message of a registered type whose body has at most 602 bytes can be sent encrypted. -/
theorem C92_rsa (env : Env) {k : PrivKey} {primes : List Nat} (h : RsaKey k primes) {n : Nat} (hn : k.pub.n = some n) (hs : keySize n = 128)
    {seeds : Nat → Bytes} (hr : Seeds seeds) (m : Message Entity) (e : Entity) (hm : m.body = .val e) (he : InRange env e)
    (hicc0 : 0 < m.header.iccID.toNat) (hicc1 : m.header.iccID.toNat < 10 ^ 12) (hsize : ∀ b e', Entity.encode env e = .ok (b, e') → b.length ≤ 602)
    (hpacket : packetFlag m.header.property.toNat = true → m.header.packet.isSome) :
    SendableAs env (some k.decKey) m e (some (k.pub.encKey seeds)) := by
  refine ⟨hm, he, hicc0, hicc1, hpacket, by simp, ?_⟩
  intro k' hk
  obtain rfl := Option.some.inj hk
  refine ⟨_, 128, rfl, hs ▸ C91_key_pair h hn (by omega) hr, ?_⟩
  intro b e' hb
  have := hsize b e' hb
  rw [show blockCount (128 - 42) b.length = (b.length + 85) / 86 from rfl]
  omega

/-- The handlers and the callback of the example server do not look at the encryption. -/
theorem C92_example_server (own : Option PubKey) : Blind (Programs.server own) := by
  intro m m' h
  obtain ⟨h1, h2, h3, -⟩ := h
  constructor
  · intro n u
    simp only [Programs.server, Programs.authentication, Programs.reportLocation, Programs.uploadMedia, Programs.uploadKey, h1, h2, h3]
  · intro n u
    simp only [Programs.server, Programs.parameters, h1, h2, h3]

/-! ## A case that meets the hypotheses -/

/-- The authentication in plain text and an answer encrypted with a key of 1024 bits. -/
def Sample.mixed : List (Message Entity × Entity × Option EncKey) :=
  [({ header := { iccID := 19901234567, serial := 1 }, body := .val (.m0102 { authKey := [49, 50] }) }, .m0102 { authKey := [49, 50] }, none),
   ({ header := { iccID := 19901234567, serial := 2 }, body := .val (.m0001 { replySerial := 1, replyID := 0x8104 }) }, .m0001 { replySerial := 1, replyID := 0x8104 },
    some (Sample.rsaKey.pub.encKey fun _ => Sample.seed))]

theorem Sample.authKey_in_range : InRange Sample.env (.m0102 { authKey := [49, 50] }) := ⟨by simp, 2, by decide, [49, 50], rfl, by decide, by simp, by
  intro k
  show (if ([49, 50] ++ List.replicate k 0 : Bytes).all (· < 128) then some ([49, 50] ++ List.replicate k 0) else none) = _
  simp⟩

/-- The hypotheses of `C92_end_to_end` and `C92_same_as_plain` hold for it. -/
example : (∀ x ∈ Sample.mixed, SendableAs Sample.env (some Sample.rsaKey.decKey) x.1 x.2.1 x.2.2) ∧ ∀ x ∈ Sample.mixed, Sendable Sample.env x.1 x.2.1 := by
  constructor
  · intro x hx
    simp only [Sample.mixed, List.mem_cons, List.not_mem_nil, or_false] at hx
    rcases hx with rfl | rfl
    · exact ⟨rfl, Sample.authKey_in_range, by decide, by decide, by decide, fun _ => ⟨by decide, by intro b e' h; cases h; decide⟩, by simp⟩
    · exact C92_rsa Sample.env Sample.rsaKey_valid rfl (by decide +kernel) (fun _ => show Sample.seed.length = 20 by decide +kernel) _ _ rfl trivial (by decide) (by decide)
        (by intro b e' h; cases h; decide) (by decide)
  · intro x hx
    simp only [Sample.mixed, List.mem_cons, List.not_mem_nil, or_false] at hx
    rcases hx with rfl | rfl
    · exact ⟨rfl, Sample.authKey_in_range, by decide, by decide, by intro b e' h; cases h; decide, by decide, by decide⟩
    · exact ⟨rfl, trivial, by decide, by decide, by intro b e' h; cases h; decide, by decide, by decide⟩

/-- The hypotheses of `C92_unreadable` hold for a server without key that gets the two messages. -/
example : (∀ x ∈ Sample.mixed.take 1, SendableAs Sample.env none x.1 x.2.1 x.2.2) ∧
    (∀ x ∈ Sample.mixed.drop 1, ∃ k, x.2.2 = some k ∧ SendableAs Sample.env (some Sample.rsaKey.decKey) x.1 x.2.1 (some k)) := by
  constructor
  · intro x hx
    simp only [Sample.mixed, List.take_succ_cons, List.take_zero, List.mem_cons, List.not_mem_nil, or_false] at hx
    subst hx
    exact ⟨rfl, Sample.authKey_in_range, by decide, by decide, by decide, fun _ => ⟨by decide, by intro b e' h; cases h; decide⟩, by simp⟩
  · intro x hx
    simp only [Sample.mixed, List.drop_succ_cons, List.drop_zero, List.mem_cons, List.not_mem_nil, or_false] at hx
    subst hx
    exact ⟨_, rfl, C92_rsa Sample.env Sample.rsaKey_valid rfl (by decide +kernel) (fun _ => show Sample.seed.length = 20 by decide +kernel) _ _ rfl trivial (by decide) (by decide)
        (by intro b e' h; cases h; decide) (by decide)⟩

end Verif
