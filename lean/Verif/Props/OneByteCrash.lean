import Verif.Props.Split
import Verif.Spec.OneByteCrash
/-! # C51: which changes of one byte crash the server -/

namespace Verif
open Spec Handler Codec

variable {E : Type}

theorem panicsAfter_step {C : BodyCodec E} {key : Option DecKey} {endErr : Err} {s : RecvState} :
    PanicsAfter C key endErr s ↔ (receive C key endErr s).1 = .panic ∨
      ∃ d, (receive C key endErr s).1 = .ok d ∧ PanicsAfter C key endErr (receive C key endErr s).2 := by
  constructor
  · rintro ⟨ds, h⟩
    cases ds with
    | nil => left; simpa [receiveMany] using h
    | cons d ds =>
      simp only [receiveMany, List.map_cons, List.cons_append, List.cons.injEq, List.length_cons] at h
      exact .inr ⟨d, h.1, ds, by simpa [receiveMany] using h.2⟩
  · rintro (h | ⟨d, h, ds, hs⟩)
    · exact ⟨[], by simp [receiveMany, h]⟩
    · refine ⟨d :: ds, ?_⟩
      rw [List.length_cons, receiveMany]
      simp only [List.map_cons, List.cons_append, List.cons.injEq]
      exact ⟨h, hs⟩

theorem panicsAfter_err {C : BodyCodec E} {key : Option DecKey} {endErr e : Err} {s s' : RecvState} (h : receive C key endErr s = (.err e, s')) :
    ¬ PanicsAfter C key endErr s := by
  rw [panicsAfter_step, h]
  simp

/-- **C51, exactly which changes crash.** Clients send any messages, each of a size the receiver accepts, and one byte of the stream changes on the way.
However the stream is cut into pieces, the server delivers messages until `Receive` panics if and only if the byte is the second one behind the opening
delimiter of some message and becomes a delimiter. (`a` is what comes before the byte, `y` what it becomes. Body decoders do not panic, and a private key has
a size: both are true of the registered types, and of keys.) -/
theorem C51_one_byte_exact_partial (C : BodyCodec E) (hC : ∀ id b, C.decode id b ≠ .panic) (key : Option DecKey)
    (hkey : ∀ k, key = some k → 0 < k.size) (endErr : Err) (ms : List (Bytes × Message E))
    (hms : ∀ x ∈ ms, (∃ ekey m m', Message.encode C ekey m = .ok (x.1, m')) ∧ x.1.length ≤ 65407 ∧ Message.decode C key {} x.1 = .ok x.2)
    (reads : List Bytes) (hr : ∀ c ∈ reads, c.length ≤ 128) (a b : Bytes) (x y : UInt8) (hxy : x ≠ y) (hs : ms.flatMap (·.1) = a ++ x :: b)
    (hs' : reads.flatten = a ++ y :: b) :
    PanicsAfter C key endErr ⟨[], reads⟩ ↔
      y = 0x7e ∧ ∃ before m after, ms = before ++ m :: after ∧ a.length = (before.flatMap (·.1)).length + 2 := by
  have shape : ∀ x ∈ ms, ∃ w, x.1 = [0x7e] ++ w ++ [0x7e] ∧ (0x7e : UInt8) ∉ w ∧ 2 ≤ w.length := by
    intro x hx
    obtain ⟨ekey, m, m', henc⟩ := (hms x hx).1
    obtain ⟨_, _, _, _, ⟨w, hw0, hw⟩, -⟩ := Message.encode_shape henc
    refine ⟨w, hw0, by rw [(stuffed_iff _ _).1 hw]; exact escape_no_flag _, ?_⟩
    rw [(stuffed_iff _ _).1 hw]
    refine Nat.le_trans ?_ (escape_length_le _).1
    simp only [List.length_append, put16_length]
    omega
  have delim : ∀ x ∈ ms, Delimited x.1 := fun x hx => by
    obtain ⟨w, h1, h2, -⟩ := shape x hx
    exact ⟨w, h1, h2⟩
  have panics := C05_decode_panics_iff_partial C hC key hkey {}
  -- one call on a frame that is not of three bytes
  have frame : ∀ (s : RecvState) (f rest : Bytes), Holds s (f ++ rest) 65408 → Delimited f → f.length ≤ 65408 → f.length ≠ 3 →
      ∃ s', receive C key endErr s = (Message.decode C key {} f, s') ∧ Holds s' rest 65408 := by
    intro s f rest h hf hl h3
    refine receive_frame (endErr := endErr) h hf ?_ hl (Nat.le_refl _)
    intro hp
    obtain ⟨z, rfl⟩ := (panics f).1 hp
    simp at h3
  have frame' : ∀ (s : RecvState) (f rest : Bytes), Holds s (f ++ rest) 65408 → Delimited f → f.length ≤ 65408 → f.length ≠ 3 →
      (∀ s', Holds s' rest 65408 → ¬ PanicsAfter C key endErr s') → ¬ PanicsAfter C key endErr s := by
    intro s f rest h hf hl h3 hrest
    obtain ⟨s', r1, r2⟩ := frame s f rest h hf hl h3
    rw [panicsAfter_step, r1]
    rintro (hp | ⟨d, -, hp⟩)
    · obtain ⟨z, rfl⟩ := (panics f).1 hp
      simp at h3
    · exact hrest s' r2 hp
  -- a stream without change
  have good : ∀ (l : List (Bytes × Message E)), (∀ x ∈ l, x ∈ ms) → ∀ s : RecvState, Holds s (l.flatMap (·.1)) 65408 → ¬ PanicsAfter C key endErr s := by
    intro l
    induction l with
    | nil =>
      intro _ s h
      exact panicsAfter_err (receive_end (C := C) (key := key) (endErr := endErr) h (.inl rfl) (by simp) (Nat.le_refl _))
    | cons x l ih =>
      intro hl s h
      have hx := hl x (by simp)
      obtain ⟨w, hxw, -, hw2⟩ := shape x hx
      exact frame' s x.1 (l.flatMap (·.1)) (by simpa using h) (delim x hx) (by have := (hms x hx).2.1; omega) (by rw [hxw]; simp; omega)
        (ih fun y hy => hl y (by simp [hy]))
  have main : ∀ (l : List (Bytes × Message E)), (∀ x ∈ l, x ∈ ms) → ∀ (s : RecvState) (a : Bytes), Holds s (a ++ y :: b) 65408 →
      l.flatMap (·.1) = a ++ x :: b →
      (PanicsAfter C key endErr s ↔ y = 0x7e ∧ ∃ before m after, l = before ++ m :: after ∧ a.length = (before.flatMap (·.1)).length + 2) := by
    clear hs hs'
    intro l
    induction l with
    | nil => intro _ s a _ h; simp at h
    | cons z l ih =>
      intro hl s a h h1
      have hz := hl z (by simp)
      have hl' : ∀ y ∈ l, y ∈ ms := fun y hy => hl y (by simp [hy])
      obtain ⟨-, hlen, hdec⟩ := hms z hz
      obtain ⟨w, hxw, hw, hw0⟩ := shape z hz
      have hzl : z.1.length = w.length + 2 := by rw [hxw]; simp
      rw [List.flatMap_cons] at h1
      -- the change is behind this message
      have behind : ∀ a', a = z.1 ++ a' → l.flatMap (·.1) = a' ++ x :: b →
          (PanicsAfter C key endErr s ↔ y = 0x7e ∧ ∃ before m after, z :: l = before ++ m :: after ∧ a.length = (before.flatMap (·.1)).length + 2) := by
        rintro a' rfl hb'
        rw [List.append_assoc] at h
        obtain ⟨s', r1, r2⟩ := frame s z.1 _ h (delim z hz) (by omega) (by omega)
        rw [panicsAfter_step, r1, hdec]
        simp only [reduceCtorEq, false_or, Res.ok.injEq, exists_eq_left']
        rw [ih hl' s' a' r2 hb']
        constructor
        · rintro ⟨hy, before, m, after, rfl, e⟩
          exact ⟨hy, z :: before, m, after, rfl, by simp [e]; omega⟩
        · rintro ⟨hy, before, m, after, e1, e2⟩
          cases before with
          | nil => simp at e2; omega
          | cons z' before =>
            simp only [List.cons_append, List.cons.injEq] at e1
            obtain ⟨rfl, rfl⟩ := e1
            exact ⟨hy, before, m, after, rfl, by rw [List.flatMap_cons, List.length_append, List.length_append] at e2; omega⟩
      -- the change is in this message
      have within : a.length < z.1.length → ((∃ before m after, z :: l = before ++ m :: after ∧ a.length = (before.flatMap (·.1)).length + 2) ↔ a.length = 2) := by
        intro hlt
        constructor
        · rintro ⟨before, m, after, e1, e2⟩
          cases before with
          | nil => simpa using e2
          | cons z' before =>
            simp only [List.cons_append, List.cons.injEq] at e1
            obtain ⟨rfl, rfl⟩ := e1
            simp at e2
            omega
        · intro e
          exact ⟨[], z, l, rfl, by simpa using e⟩
      have hR : l.flatMap (·.1) = [] ∨ ∃ w2 R2, l.flatMap (·.1) = 0x7e :: (w2 ++ 0x7e :: R2) ∧ (0x7e : UInt8) ∉ w2 ∧ w2 ≠ [] := by
        cases l with
        | nil => exact .inl rfl
        | cons z l =>
          obtain ⟨w2, e1, e2, e3⟩ := shape z (hl' z (by simp))
          exact .inr ⟨w2, l.flatMap (·.1), by simp [e1], e2, by rintro rfl; simp at e3⟩
      rcases List.append_eq_append_iff.1 h1 with ⟨a', ha', hb'⟩ | ⟨c', hc', hb'⟩
      · exact behind a' ha' hb'
      · cases c' with
        | nil =>
          simp only [List.append_nil, List.nil_append] at hc' hb'
          exact behind [] (by simp [hc']) (by simp [hb'])
        | cons c0 c' =>
          rw [within (by rw [hc']; simp)]
          simp only [List.cons_append, List.cons.injEq] at hb'
          obtain ⟨rfl, rfl⟩ := hb'
          rw [hxw] at hc'
          have no : ¬ PanicsAfter C key endErr s → ¬ (y = 0x7e ∧ a.length = 2) →
              (PanicsAfter C key endErr s ↔ y = 0x7e ∧ a.length = 2) := fun h1 h2 => ⟨fun h => (h1 h).elim, fun h => (h2 h).elim⟩
          cases a with
          | nil =>
            simp only [List.cons_append, List.nil_append, List.cons.injEq] at hc'
            obtain ⟨rfl, rfl⟩ := hc'
            obtain ⟨s', j', r, -⟩ := receive_junk (C := C) (key := key) (endErr := endErr) (j := y :: w) (rest := 0x7e :: l.flatMap (·.1))
              (by simpa using h) (by simp) (by simpa [Junk, hw] using hxy) (.inr ⟨_, rfl⟩)
            exact no (panicsAfter_err r) (by simp)
          | cons a0 a =>
            simp only [List.cons_append, List.nil_append, List.cons.injEq] at hc'
            obtain ⟨rfl, hc'⟩ := hc'
            rcases List.eq_nil_or_concat c' with rfl | ⟨c'', z', hz'⟩
            · obtain ⟨rfl, hz'⟩ := List.append_inj' hc' rfl
              simp only [List.cons.injEq, and_true] at hz'
              subst hz'
              refine no ?_ (by simp; omega)
              rcases hR with hR | ⟨w2, R2, hR, hw2, hw20⟩
              · rw [hR] at h
                exact panicsAfter_err (receive_end (C := C) (key := key) (endErr := endErr) h (.inr ⟨w ++ [y], by simp, by simpa [hw] using hxy⟩)
                  (by simp; omega) (Nat.le_refl _))
              · rw [hR] at h
                refine frame' s ([0x7e] ++ (w ++ [y]) ++ [0x7e]) (w2 ++ 0x7e :: R2) (by simpa using h)
                  ⟨w ++ [y], rfl, by simpa [hw] using hxy⟩ (by simp; omega) (by simp only [List.length_append, List.length_cons, List.length_nil]; omega) fun s' g2 => ?_
                obtain ⟨s', j', r, -⟩ := receive_junk (C := C) (key := key) (endErr := endErr) g2 hw20 hw2 (.inr ⟨_, rfl⟩)
                exact panicsAfter_err r
            · rw [List.concat_eq_append] at hz'
              subst hz'
              rw [show a ++ x :: (c'' ++ [z']) = (a ++ x :: c'') ++ [z'] by simp] at hc'
              obtain ⟨rfl, hz'⟩ := List.append_inj' hc' rfl
              simp only [List.cons.injEq, and_true] at hz'
              subst hz'
              simp only [List.mem_append, List.mem_cons, not_or] at hw
              simp only [List.length_append, List.length_cons] at hzl hw0
              by_cases hy : y = 0x7e
              · subst hy
                by_cases ha1 : a.length = 1
                · obtain ⟨p, rfl⟩ := List.length_eq_one_iff.1 ha1
                  refine ⟨fun _ => ⟨rfl, rfl⟩, fun _ => panicsAfter_step.2 (.inl ?_)⟩
                  exact receive_frame_panic (endErr := endErr) (f := [0x7e, p, 0x7e]) (rest := c'' ++ 0x7e :: l.flatMap (·.1)) (by simpa using h)
                    ⟨[p], rfl, hw.1⟩ ((panics _).2 ⟨p, rfl⟩) (by simp) (Nat.le_refl _)
                · refine no ?_ (by simpa using ha1)
                  refine frame' s ([0x7e] ++ a ++ [0x7e]) (c'' ++ 0x7e :: l.flatMap (·.1)) (by simpa using h) ⟨a, rfl, hw.1⟩
                    (by simp; omega) (by simp; omega) fun s' g2 => ?_
                  by_cases hc0 : c'' = []
                  · subst hc0
                    rcases hR with hR | ⟨w2, R2, hR, hw2, hw20⟩
                    · rw [hR] at g2
                      exact panicsAfter_err (receive_end (C := C) (key := key) (endErr := endErr) g2 (.inr ⟨[], by simp, by simp⟩) (by simp) (Nat.le_refl _))
                    · rw [hR] at g2
                      have he : Message.decode C key {} [0x7e, 0x7e] = .err .invalidMessage := by
                        rw [Message.decode_eq, show ([0x7e, 0x7e] : Bytes) = [0x7e] ++ [] ++ [0x7e] by rfl, decodeEnvelope_delim, decodeInner_nil]
                        rfl
                      obtain ⟨s', r1, -⟩ := receive_frame (C := C) (key := key) (endErr := endErr) (f := [0x7e, 0x7e]) (rest := w2 ++ 0x7e :: R2)
                        (by simpa using g2) ⟨[], rfl, by simp⟩ (by rw [he]; simp) (by simp) (Nat.le_refl _)
                      rw [he] at r1
                      exact panicsAfter_err r1
                  · obtain ⟨s', j', r, -⟩ := receive_junk (C := C) (key := key) (endErr := endErr) g2 hc0 hw.2.2 (.inr ⟨_, rfl⟩)
                    exact panicsAfter_err r
              · have hy' : (0x7e : UInt8) ≠ y := fun h => hy h.symm
                refine no ?_ (fun h => hy h.1)
                exact frame' s ([0x7e] ++ (a ++ y :: c'') ++ [0x7e]) (l.flatMap (·.1)) (by simpa using h)
                  ⟨a ++ y :: c'', rfl, by simp [hw.1, hw.2.2, hy']⟩ (by simp; omega) (by simp; omega) (good l hl')
  exact main ms (fun _ h => h) ⟨[], reads⟩ a ⟨by simp [hs'], hr, by simp⟩ hs

/-- Both sides happen: two messages, of which the second is hit in its second or in its third byte. -/
example : PanicsAfter Sample.codec none .eof ⟨[],
      [[0x7e, 0x07, 0x00, 0x00, 0x03, 0x01, 0x38, 0x00, 0x13, 0x80, 0x00, 0x00, 0x07, 0x00, 0x01, 0x01, 0xa9, 0x7e],
        [0x7e, 0x07, 0x7e, 0x00, 0x03, 0x01, 0x38, 0x00, 0x13, 0x80, 0x00, 0x00, 0x07, 0x00, 0x01, 0x01, 0xa9, 0x7e]]⟩ ∧
    ¬ PanicsAfter Sample.codec none .eof ⟨[],
      [[0x7e, 0x07, 0x00, 0x00, 0x03, 0x01, 0x38, 0x00, 0x13, 0x80, 0x00, 0x00, 0x07, 0x00, 0x01, 0x01, 0xa9, 0x7e],
        [0x7e, 0x07, 0x00, 0x7e, 0x03, 0x01, 0x38, 0x00, 0x13, 0x80, 0x00, 0x00, 0x07, 0x00, 0x01, 0x01, 0xa9, 0x7e]]⟩ := by
  obtain ⟨d, hd⟩ : ∃ d, Message.decode Sample.codec none {}
      [0x7e, 0x07, 0x00, 0x00, 0x03, 0x01, 0x38, 0x00, 0x13, 0x80, 0x00, 0x00, 0x07, 0x00, 0x01, 0x01, 0xa9, 0x7e] = .ok d := ⟨_, rfl⟩
  have hms : ∀ x ∈ List.replicate 2
      (([0x7e, 0x07, 0x00, 0x00, 0x03, 0x01, 0x38, 0x00, 0x13, 0x80, 0x00, 0x00, 0x07, 0x00, 0x01, 0x01, 0xa9, 0x7e] : Bytes), d),
      (∃ ekey m m', Message.encode Sample.codec ekey m = .ok (x.1, m')) ∧ x.1.length ≤ 65407 ∧ Message.decode Sample.codec none {} x.1 = .ok x.2 := by
    intro x hx
    obtain rfl := List.eq_of_mem_replicate hx
    exact ⟨⟨none, { header := Sample.header, body := .val (.m0700 { replySerial := 1, cmd := 0x01, data := [] }) }, _, rfl⟩, by simp, hd⟩
  have exact := C51_one_byte_exact_partial Sample.codec (fun id b => C15_message_body_never_panics Sample.env id b) none (by simp) .eof _ hms
  constructor
  · refine (exact _ (by decide) ([0x7e, 0x07, 0x00, 0x00, 0x03, 0x01, 0x38, 0x00, 0x13, 0x80, 0x00, 0x00, 0x07, 0x00, 0x01, 0x01, 0xa9, 0x7e] ++ [0x7e, 0x07])
      [0x00, 0x03, 0x01, 0x38, 0x00, 0x13, 0x80, 0x00, 0x00, 0x07, 0x00, 0x01, 0x01, 0xa9, 0x7e] 0x00 0x7e (by decide) rfl rfl).2 ⟨rfl, [_], _, [], rfl, rfl⟩
  · intro h
    obtain ⟨-, before, m, after, e1, e2⟩ := (exact _ (by decide)
      ([0x7e, 0x07, 0x00, 0x00, 0x03, 0x01, 0x38, 0x00, 0x13, 0x80, 0x00, 0x00, 0x07, 0x00, 0x01, 0x01, 0xa9, 0x7e] ++ [0x7e, 0x07, 0x00])
      [0x03, 0x01, 0x38, 0x00, 0x13, 0x80, 0x00, 0x00, 0x07, 0x00, 0x01, 0x01, 0xa9, 0x7e] 0x00 0x7e (by decide) rfl rfl).1 h
    match before with
    | [] => simp at e2
    | [z] =>
      simp only [List.replicate, List.cons_append, List.cons.injEq] at e1
      rw [← e1.1] at e2
      simp at e2
    | [z, z'] => simp [List.replicate] at e1
    | _ :: _ :: _ :: _ => simp [List.replicate] at e1

end Verif
