import Verif.Lemmas.System
import Verif.Props.Connection
/-! # Lemmas: the server with many connections does not crash -/

namespace Verif
open Handler Session Spec _root_.Verif.System Codec

namespace System

variable {env : Env} {key : Option DecKey} {endErr : Err} {auto : Bool} {fs0 : FS} {k : Nat}

/-- Receiving from the connection never crashes. -/
def NoCrash (env : Env) (key : Option DecKey) (endErr : Err) (reads : List Bytes) : Prop :=
  ∀ n, .panic ∉ (receiveMany (entityCodec env) key endErr n ⟨[], reads⟩).1

/-- This is so if no byte stands alone between two delimiters. -/
theorem noCrash_of_clean (hkey : ∀ k, key = some k → 0 < k.size) {reads : List Bytes} (h : ∀ x, ¬ [0x7e, x, 0x7e] <:+: reads.flatten) :
    NoCrash env key endErr reads := by
  have main : ∀ n (s : RecvState), (∀ x, ¬ [0x7e, x, 0x7e] <:+: s.buffer ++ s.reads.flatten) →
      .panic ∉ (receiveMany (entityCodec env) key endErr n s).1 := by
    intro n
    induction n with
    | zero => intro s _ hp; simp [receiveMany] at hp
    | succ n ih =>
      intro s hs
      obtain ⟨f1, -, f3⟩ := receive_facts (C := entityCodec env) (key := key) (endErr := endErr) s
      simp only [receiveMany, List.mem_cons, not_or]
      refine ⟨?_, ih _ fun x hx => hs x (hx.trans f1.isInfix)⟩
      intro hp
      obtain ⟨f, hin, hf⟩ := f3 hp.symm
      obtain ⟨x, rfl⟩ := (C05_registered_panics_iff_partial env key hkey {} f).1 hf
      exact hs x hin
  intro n
  exact main n ⟨[], reads⟩ (by simpa using h)

theorem received_delivered {T T' : RecvState} {m : Message Entity} (h : Codec.receive (entityCodec env) key endErr T = (.ok m, T')) : Delivered m := by
  obtain ⟨-, f2, -⟩ := receive_facts (C := entityCodec env) (key := key) (endErr := endErr) T
  obtain ⟨f, hf⟩ := f2 m (by rw [h])
  exact C49_decoded_messages_are_delivered env key f m hf

/-- The rest of a turn does not crash. -/
theorem Mid.ok {reads : List Bytes} {recv : RecvState} {V : Loop} {log : List (Nat × Act)} {p : Place} {a0 : Around}
    (h : Mid env key endErr auto fs0 k reads recv V log p a0) (a : Around) (ha : Continues a0 [] a p) : ∃ r, rest auto p V a = .ok r := by
  obtain ⟨turns, outs, T, L, l, m, pre, -, -, hr, -, -, hm, -, -⟩ := h
  obtain ⟨s', x, hp, -⟩ := process_spec auto L a m (received_delivered hr)
  have := hm [] a ha
  rw [hp] at this
  simp only [Loop.outsides] at this
  cases hrest : rest auto p V a with
  | ok r => exact ⟨r, rfl⟩
  | err e => rw [hrest] at this; cases this
  | panic => rw [hrest] at this; cases this

theorem message_ok {s : State} {j : Nat} {u : UserCode} {m : Message Entity} (h : ∃ r a, (s.view j).message a m = .ok r) :
    ∃ r, s.message j u m = .ok r := by
  obtain ⟨r, a, h⟩ := h
  unfold State.message
  rw [message_any _ _ a, h]
  exact ⟨_, rfl⟩

theorem received_of_inv {reads : List Bytes} {s : State} {log : List (Nat × Act)} {m : Message Entity}
    (h : Inv env key endErr auto fs0 k reads s log) (hp : (s.conns k).place = .received m) : Delivered m := by
  simp only [Inv, hp] at h
  obtain ⟨_, _, T, -, -, hr⟩ := h
  exact received_delivered hr

/-- A step does not crash. -/
theorem step_ok {reads : Nat → List Bytes} (hc : ∀ k, NoCrash env key endErr (reads k)) {s : State} {log : List (Nat × Act)}
    (hi : ∀ k, Inv env key endErr auto fs0 k (reads k) s log) (e : Event) : ∃ r, s.step env key endErr auto e = .ok r := by
  cases e with
  | receive j =>
    simp only [State.step]
    split
    · rename_i hp
      split
      · exact ⟨_, rfl⟩
      · exact ⟨_, rfl⟩
      · rename_i hr
        have := hi j
        simp only [Inv, hp] at this
        obtain ⟨turns, -, -, ds, hd⟩ := this
        refine absurd ?_ (hc j (turns.length + 1))
        rw [receiveMany_snoc, hd, hr]
        simp
    · exact ⟨_, rfl⟩
  | process j o u =>
    simp only [State.step]
    split
    · rename_i m hp
      have hd := received_of_inv (hi j) hp
      cases hb : m.body with
      | val e =>
        have hmsg : ∃ r, s.message j u m = .ok r := by
          obtain ⟨s', x, h, -⟩ := message_spec (s.view j) {} m e hb (hd.type e hb)
          exact message_ok ⟨_, _, h⟩
        simp only
        split
        · exact hmsg
        · rename_i hne
          cases e with
          | m0801 b =>
            simp only
            obtain ⟨data, hdata⟩ := Option.isSome_iff_exists.1 (hd.content b hb)
            obtain ⟨p, hp'⟩ := Option.isSome_iff_exists.1 (hd.packet (by simp at hne; rw [← Property.isEnablePacket_spec]; exact hne.2))
            simp only [hp', hdata]
            exact ⟨_, rfl⟩
          | _ => exact hmsg
      | _ => exact ⟨_, rfl⟩
    · exact ⟨_, rfl⟩
  | check j =>
    simp only [State.step]
    split
    · rename_i m b p hp
      obtain ⟨a0, hm⟩ := (inv_mid hp (by simp)).1 (hi j)
      obtain ⟨r, hr⟩ := hm.ok a0 ⟨rfl, by simp⟩
      split
      · exact ⟨_, rfl⟩
      · rename_i hne
        simp only [rest, Loop.check, hne, if_false] at hr
        obtain ⟨full, hfull, -⟩ := Res.bind_ok hr
        have hfull : (Loop.partFile m b p).isFull s.fs = .ok full := hfull
        rw [hfull]
        cases full <;> exact ⟨_, rfl⟩
    · exact ⟨_, rfl⟩
  | merge j o =>
    simp only [State.step]
    split
    · rename_i m b p hp
      obtain ⟨a0, hm⟩ := (inv_mid hp (by simp)).1 (hi j)
      obtain ⟨r, hr⟩ := hm.ok { a0 with merge := o } ⟨rfl, rfl, by simp⟩
      simp only [rest, Loop.complete] at hr
      obtain ⟨⟨f, content⟩, hf, -⟩ := Res.bind_ok hr
      have hf : (Loop.partFile m b p).merge o s.fs = .ok (f, content) := hf
      rw [hf]
      cases content <;> exact ⟨_, rfl⟩
    · exact ⟨_, rfl⟩
  | note j u =>
    simp only [State.step]
    split
    · rename_i m hp
      obtain ⟨a0, hm⟩ := (inv_mid hp (by simp)).1 (hi j)
      obtain ⟨r, hr⟩ := hm.ok a0 ⟨rfl, rfl, rfl, rfl, by simp⟩
      simp only [rest, Loop.deliver] at hr
      obtain ⟨q, hq, -⟩ := Res.bind_ok hr
      exact message_ok ⟨_, _, hq⟩
    · exact ⟨_, rfl⟩
  | dispatch j u =>
    simp only [State.step]
    split
    · rename_i m hp
      obtain ⟨a0, hm⟩ := (inv_mid hp (by simp)).1 (hi j)
      obtain ⟨r, hr⟩ := hm.ok a0 ⟨rfl, rfl, rfl, rfl, rfl, rfl, by simp⟩
      simp only [rest] at hr
      rw [dispatch_any _ _ a0, hr]
      exact ⟨_, rfl⟩
    · exact ⟨_, rfl⟩
  | addHandler id g => cases g <;> exact ⟨_, rfl⟩
  | addRequest j r => exact ⟨_, rfl⟩

theorem run_ok {reads : Nat → List Bytes} (hc : ∀ k, NoCrash env key endErr (reads k)) {s : State} {log : List (Nat × Act)}
    (hi : ∀ k, Inv env key endErr auto fs0 k (reads k) s log) (es : List Event) : ∃ r, s.run env key endErr auto es = .ok r := by
  induction es generalizing s log with
  | nil => exact ⟨_, rfl⟩
  | cons e es ih =>
    obtain ⟨⟨s1, x⟩, h1⟩ := step_ok hc hi e
    obtain ⟨⟨s2, y⟩, h2⟩ := ih (fun k => (hi k).step h1)
    refine ⟨(s2, x ++ y), ?_⟩
    unfold State.run
    rw [h1]
    simp only [Res.ok_bind]
    rw [h2]
    rfl

end System
end Verif
