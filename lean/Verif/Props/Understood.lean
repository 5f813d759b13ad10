import Verif.Spec.Understood
import Verif.Props.Connection
import Verif.Props.Receive

/-! # C32 from the bytes: which frames the server understands -/

namespace Verif
open Spec Handler

open Classical in
/-- C32 from the bytes on the wire, for frames that need not come from this library. Frames with any headers and body bytes arrive in arbitrary pieces (if a
body is encrypted, it can be decrypted). The server answers "unsupported" to exactly those it does not understand, with their serial numbers and message ids,
and offers exactly the others to its handlers (apart from the parts of an upload that it puts together), all in the order of their arrival. -/
theorem C32_frames (env : Env) (key : Option DecKey) (hkey : ∀ k, key = some k → 0 < k.size) (endErr : Err) (auto : Bool) (fs : List (Bytes × Header × Bytes))
    (hfs : ∀ x ∈ fs, Delimited x.1 ∧ x.1.length ≤ 65408 ∧ Arrives x.1 x.2.1 x.2.2 ∧
      (x.2.2.length % 65536 = sizeField x.2.1.property.toNat → ∃ plain, Decrypted key x.2.1 x.2.2 plain))
    (reads : List Bytes) (hr : ∀ c ∈ reads, c.length ≤ 128) (hs : reads.flatten = fs.flatMap (·.1)) (turns : List (List Outside × Around))
    (ht : fs.length ≤ turns.length) :
    ∃ (s : Loop) (log : List Act), serve env key endErr auto turns reads = .ok (s, log) ∧
      (replies log).filter (fun r => r.2.2 = 3) =
        (fs.filter fun x => ¬ Understood env key x.2.1 x.2.2).map (fun x => (x.2.1.serial, x.2.1.msgID, 3)) ∧
      ((offered log).filter fun m => !isPart auto m).map (·.header) =
        (fs.filter fun x => Understood env key x.2.1 x.2.2 ∧ ¬ (auto = true ∧ packetFlag x.2.1.property.toNat = true ∧ x.2.1.msgID = 0x0801)).map (·.2.1) := by
  have hC : ∀ id b, (entityCodec env).decode id b ≠ .panic := fun id b => C15_message_body_never_panics env id b
  -- what each frame is received as
  have hm : ∀ x ∈ fs, ∃ m : Message Entity, Message.decode (entityCodec env) key {} x.1 = .ok m ∧ m.header = x.2.1 ∧
      (hasBody m = true ↔ Understood env key x.2.1 x.2.2) ∧ (∀ e, m.body = .val e → e.msgID = m.header.msgID) ∧ (∀ i, m.body ≠ .nilPtr i) := by
    intro x hx
    obtain ⟨-, -, ha, hd⟩ := hfs x hx
    by_cases hu : Understood env key x.2.1 x.2.2
    · obtain ⟨u1, plain, u2, u3⟩ := hu
      obtain ⟨e, he⟩ := (C71_body_iff env key hkey x.1 x.2.1).2 ⟨x.2.2, plain, ha, u1, u2, u3⟩
      exact ⟨_, he, rfl, ⟨fun _ => ⟨u1, plain, u2, u3⟩, fun _ => rfl⟩, (C49_decoded_messages_are_delivered env key x.1 _ he).1, fun i h => by cases h⟩
    · have hn : Message.decode (entityCodec env) key {} x.1 = .ok { header := x.2.1, body := .nil } := by
        refine (C71_received_iff _ hC key hkey x.1 _).2 ⟨x.2.2, ha, ?_⟩
        by_cases hl : x.2.2.length % 65536 = sizeField x.2.1.property.toNat
        · obtain ⟨plain, hp⟩ := hd hl
          refine .inr ⟨hl, plain, hp, .inr ⟨?_, rfl⟩⟩
          exact (C70_rejects_iff env _ _).2 fun h => hu ⟨hl, plain, hp, h⟩
        · exact .inl ⟨hl, rfl⟩
      exact ⟨_, hn, rfl, ⟨fun h => absurd h (by simp [hasBody]), fun h => absurd h hu⟩, fun e h => (nomatch h), fun i h => (nomatch h)⟩
  obtain ⟨ms, h1, h2⟩ : ∃ ms : List (Message Entity), ms.length = fs.length ∧ ∀ p ∈ fs.zip ms,
      Message.decode (entityCodec env) key {} p.1.1 = .ok p.2 ∧ p.2.header = p.1.2.1 ∧ (hasBody p.2 = true ↔ Understood env key p.1.2.1 p.1.2.2) ∧
      (∀ e, p.2.body = .val e → e.msgID = p.2.header.msgID) ∧ (∀ i, p.2.body ≠ .nilPtr i) := by
    clear hs ht hfs
    induction fs with
    | nil => exact ⟨[], rfl, by simp⟩
    | cons x fs ih =>
      obtain ⟨m, g⟩ := hm x (by simp)
      obtain ⟨ms, i1, i2⟩ := ih fun y hy => hm y (by simp [hy])
      refine ⟨m :: ms, by simp [i1], ?_⟩
      intro p hp
      rcases List.mem_cons.1 hp with rfl | hp
      · exact g
      · exact i2 p hp
  have hre := C12_reassembly (entityCodec env) key endErr ((fs.map (·.1)).zip ms) (by
      intro p hp
      rw [List.zip_map_left] at hp
      obtain ⟨q, hq, rfl⟩ := List.mem_map.1 hp
      obtain ⟨f1, f2, -⟩ := hfs q.1 (List.of_mem_zip hq).1
      exact ⟨f1, f2, (h2 q hq).1⟩) reads hr (by
      rw [hs, List.flatMap_def, List.flatMap_def, List.map_fst_zip (by simp [h1])]) (turns.length - fs.length)
  have hlen : ((fs.map (·.1)).zip ms).length = ms.length := by simp [h1]
  rw [hlen, show ((fs.map (·.1)).zip ms).map (fun x => (Res.ok x.2 : Res (Message Entity))) = ms.map .ok by
    rw [show (fun x : Bytes × Message Entity => (Res.ok x.2 : Res (Message Entity))) = Res.ok ∘ Prod.snd from rfl, ← List.map_map,
      List.map_snd_zip (by simp [h1])]] at hre
  obtain ⟨j1, j2, -⟩ := inputs_received env key endErr turns ⟨[], reads⟩ ms (turns.length - fs.length) (by omega) hre
  obtain ⟨s, log, l1, l2⟩ := C32_each_once_in_order auto _ j2
  obtain ⟨s', log', l1', l3⟩ := C32_unsupported auto _ j2
  rw [l1] at l1'
  cases l1'
  refine ⟨s, log, l1, ?_, ?_⟩
  · rw [l3, j1]
    clear hs ht hfs hm hre hlen j1 j2 l1 l2 l3 s log
    induction fs generalizing ms with
    | nil =>
      obtain rfl : ms = [] := List.length_eq_zero_iff.1 h1
      rfl
    | cons x fs ih =>
      match ms, h1 with
      | m :: ms, h1 =>
        obtain ⟨-, g2, g3, -⟩ := h2 (x, m) (by simp)
        have hrest := ih ms (by simpa using h1) fun p hp => h2 p (by simp [hp])
        rw [List.filter_cons, List.filter_cons]
        by_cases hu : Understood env key x.2.1 x.2.2
        · rw [if_neg (by simp [g3.2 hu]), if_neg (by simp [hu]), hrest]
        · have : hasBody m = false := by rw [← Bool.not_eq_true]; exact fun h => hu (g3.1 h)
          simp only at g2
          rw [if_pos (by simp [this]), if_pos (by simp [hu]), List.map_cons, List.map_cons, hrest, g2]
  · rw [l2, j1]
    clear hs ht hfs hm hre hlen j1 j2 l1 l2 l3 s log
    induction fs generalizing ms with
    | nil =>
      obtain rfl : ms = [] := List.length_eq_zero_iff.1 h1
      rfl
    | cons x fs ih =>
      match ms, h1 with
      | m :: ms, h1 =>
        obtain ⟨-, g2, g3, g4, g5⟩ := h2 (x, m) (by simp)
        simp only at g2 g3 g4
        have hrest := ih ms (by simpa using h1) fun p hp => h2 p (by simp [hp])
        have hpart : hasBody m = true → (isPart auto m = true ↔ auto = true ∧ packetFlag x.2.1.property.toNat = true ∧ x.2.1.msgID = 0x0801) := by
          intro hb
          unfold isPart
          rw [g2, Bool.and_eq_true, Bool.and_eq_true, and_assoc]
          cases hbody : m.body with
          | nil => rw [hasBody, hbody] at hb; cases hb
          | nilPtr i => rw [hasBody, hbody] at hb; cases hb
          | val e =>
            have := g4 e hbody
            rw [g2] at this
            rw [← this]
            cases e <;> simp [Entity.msgID]
        rw [List.filter_cons, List.filter_cons]
        by_cases hu : Understood env key x.2.1 x.2.2
        · have hb := g3.2 hu
          by_cases hp : auto = true ∧ packetFlag x.2.1.property.toNat = true ∧ x.2.1.msgID = 0x0801
          · rw [if_neg (by simp [(hpart hb).2 hp]), if_neg (by simp [hp]), hrest]
          · have : isPart auto m = false := by rw [← Bool.not_eq_true]; exact fun h => hp ((hpart hb).1 h)
            rw [if_pos (by simp [hb, this]), if_pos (decide_eq_true ⟨hu, hp⟩), List.map_cons, List.map_cons, hrest, g2]
        · have : hasBody m = false := by rw [← Bool.not_eq_true]; exact fun h => hu (g3.1 h)
          rw [if_neg (by simp [this]), if_neg (by simp [hu]), hrest]

namespace Sample

/-- Frames of a terminal: a general answer with one body byte escaped, the same with a length in the header that is wrong, and a message with an id nobody
knows. -/
def framesIn : List (Bytes × Header × Bytes) :=
  [([0x7e, 0, 1, 0, 5, 0, 0, 0, 0, 0, 0x42, 0, 9, 0x7d, 1, 3, 2, 0, 0, 0x33, 0x7e], { msgID := 1, property := 5, iccID := 42, serial := 9 }, [0x7d, 3, 2, 0, 0]),
   ([0x7e, 0, 1, 0, 4, 0, 0, 0, 0, 0, 0x42, 0, 9, 0x7d, 1, 3, 2, 0, 0, 0x32, 0x7e], { msgID := 1, property := 4, iccID := 42, serial := 9 }, [0x7d, 3, 2, 0, 0]),
   ([0x7e, 0x77, 1, 0, 0, 0, 0, 0, 0, 0, 0x42, 0, 8, 0x3c, 0x7e], { msgID := 0x7701, property := 0, iccID := 42, serial := 8 }, [])]

theorem framesIn_arrive : ∀ x ∈ framesIn, Delimited x.1 ∧ x.1.length ≤ 65408 ∧ Arrives x.1 x.2.1 x.2.2 ∧
    (x.2.2.length % 65536 = sizeField x.2.1.property.toNat → ∃ plain, Decrypted none x.2.1 x.2.2 plain) := by
  intro x hx
  simp only [framesIn, List.mem_cons, List.not_mem_nil, or_false] at hx
  rcases hx with rfl | rfl | rfl
  · refine ⟨⟨[0, 1, 0, 5, 0, 0, 0, 0, 0, 0x42, 0, 9, 0x7d, 1, 3, 2, 0, 0, 0x33], rfl, by decide⟩, by decide,
      ⟨⟨[0, 1, 0, 5, 0, 0, 0, 0, 0, 0x42, 0, 9, 0x7d, 1, 3, 2, 0, 0], [0x33], rfl, ?_, Or.inl rfl⟩, by decide, by decide, rfl⟩, fun _ => ⟨_, rfl⟩⟩
    repeat first
      | exact .nil
      | apply Unstuffed.esc
      | (apply Unstuffed.plain; decide)
  · refine ⟨⟨[0, 1, 0, 4, 0, 0, 0, 0, 0, 0x42, 0, 9, 0x7d, 1, 3, 2, 0, 0, 0x32], rfl, by decide⟩, by decide,
      ⟨⟨[0, 1, 0, 4, 0, 0, 0, 0, 0, 0x42, 0, 9, 0x7d, 1, 3, 2, 0, 0], [0x32], rfl, ?_, Or.inl rfl⟩, by decide, by decide, rfl⟩, fun _ => ⟨_, rfl⟩⟩
    repeat first
      | exact .nil
      | apply Unstuffed.esc
      | (apply Unstuffed.plain; decide)
  · refine ⟨⟨[0x77, 1, 0, 0, 0, 0, 0, 0, 0, 0x42, 0, 8, 0x3c], rfl, by decide⟩, by decide,
      ⟨⟨[0x77, 1, 0, 0, 0, 0, 0, 0, 0, 0x42, 0, 8], [0x3c], rfl, ?_, Or.inl rfl⟩, by decide, by decide, rfl⟩, fun _ => ⟨_, rfl⟩⟩
    repeat first
      | exact .nil
      | apply Unstuffed.esc
      | (apply Unstuffed.plain; decide)

end Sample

/-- The sample frames meet the hypotheses; the first is understood, the others are not. -/
example (e : Env) : (∀ x ∈ Sample.framesIn, Delimited x.1 ∧ x.1.length ≤ 65408 ∧ Arrives x.1 x.2.1 x.2.2 ∧
      (x.2.2.length % 65536 = sizeField x.2.1.property.toNat → ∃ plain, Decrypted none x.2.1 x.2.2 plain)) ∧
    Sample.framesIn.map (fun x => Understood e none x.2.1 x.2.2) = [True, False, False] := by
  refine ⟨Sample.framesIn_arrive, ?_⟩
  simp only [Sample.framesIn, List.map_cons, List.map_nil, List.cons.injEq, eq_iff_iff, iff_true, iff_false, and_true]
  refine ⟨⟨rfl, _, rfl, (C70_accepts_iff _ _ _).1 ⟨_, _, rfl⟩⟩, fun h => absurd h.1 (by decide), ?_⟩
  rintro ⟨-, plain, -, r, hr⟩
  exact hr

end Verif
