import Verif.Lemmas.CrowdTalk
import Verif.Lemmas.Connection
/-! # What can crash a server with any number of connections -/

namespace Verif.Crowd
open Converse Session Handler Spec

variable {σ : Type}

/-- Receiving does not panic, and so on. -/
def NoPanic (env : Env) (key : Option DecKey) (endErr : Err) (N : RecvState → Prop) : Prop :=
  ∀ c, N c → (Codec.receive (entityCodec env) key endErr c).1 ≠ .panic ∧
    ∀ m, (Codec.receive (entityCodec env) key endErr c).1 = .ok m → N (Codec.receive (entityCodec env) key endErr c).2

/-- What holds of every connection: what is unread does no harm, and the loop can go on. -/
structure Safe (N : RecvState → Prop) (fs : FS) (c : Conn σ) : Prop where
  unread : c.place ≠ .ended → N c.recv
  place : match c.place with
    | .received m => Delivered m
    | .written m b p done => m.body = .val (.m0801 b) ∧ m.header.msgID = 0x0801 ∧ (done = true → fs (Loop.partFile m b p).icc ≠ none)
    | .stored m b p | .full m b p => m.body = .val (.m0801 b) ∧ m.header.msgID = 0x0801 ∧ fs (Loop.partFile m b p).icc ≠ none
    | .passing m => ∃ e, m.body = .val e ∧ e.msgID = m.header.msgID
    | _ => True

/-- Directories are not removed. -/
def Keeps (fs fs' : FS) : Prop := ∀ x, fs x ≠ none → fs' x ≠ none

theorem Safe.keeps {N : RecvState → Prop} {fs fs' : FS} {c : Conn σ} (h : Safe N fs c) (hk : Keeps fs fs') : Safe N fs' c := by
  refine ⟨h.unread, ?_⟩
  have := h.place
  cases hp : c.place with
  | written m b p done => rw [hp] at this; exact ⟨this.1, this.2.1, fun hd => hk _ (this.2.2 hd)⟩
  | stored m b p => rw [hp] at this; exact ⟨this.1, this.2.1, hk _ this.2.2⟩
  | full m b p => rw [hp] at this; exact ⟨this.1, this.2.1, hk _ this.2.2⟩
  | received m => rw [hp] at this; exact this
  | passing m => rw [hp] at this; exact this
  | _ => trivial

/-- A turn works, unless receiving panics. -/
theorem Safe.turn {env : Env} {key : Option DecKey} {endErr : Err} {auto : Bool} {P : Program σ} {N : RecvState → Prop} {fs : FS} {c : Conn σ} (h : Safe N fs c)
    (hno : c.place = .waiting → (Codec.receive (entityCodec env) key endErr c.recv).1 ≠ .panic ∧
      ∀ m, (Codec.receive (entityCodec env) key endErr c.recv).1 = .ok m → N (Codec.receive (entityCodec env) key endErr c.recv).2) (o : Outcome) :
    ∃ r, c.turn env key endErr auto P o fs = .ok r ∧ Keeps fs r.1 ∧ Safe N r.1 r.2.1 := by
  have refl : Keeps fs fs := fun _ h => h
  obtain ⟨h1, h2⟩ := h
  obtain ⟨place, recv, gone, sess⟩ := c
  unfold Conn.turn
  cases place with
  | waiting =>
    simp only
    split
    · exact ⟨_, rfl, refl, h1, trivial⟩
    · obtain ⟨-, f2, -⟩ := receive_facts (C := entityCodec env) (key := key) (endErr := endErr) recv
      obtain ⟨n1, n2⟩ := hno rfl
      cases hr : Codec.receive (entityCodec env) key endErr recv with
      | mk a r =>
        rw [hr] at f2 n1 n2
        cases a with
        | ok m =>
          obtain ⟨f, hf⟩ := f2 m rfl
          exact ⟨_, rfl, refl, fun _ => n2 m rfl, C49_decoded_messages_are_delivered env key f m hf⟩
        | err e => exact ⟨_, rfl, refl, fun h => absurd rfl h, trivial⟩
        | panic => exact absurd rfl n1
  | received m =>
    have hd : Delivered m := h2
    simp only
    cases hb : m.body with
    | val e =>
      have pass : ∃ r, (.ok (fs, { place := .passing m, recv := recv, gone := gone, sess := sess }, []) : Res (FS × Conn σ × List Ev)) = .ok r ∧ Keeps fs r.1 ∧
          Safe N r.1 r.2.1 := ⟨_, rfl, refl, fun _ => h1 (by simp), e, hb, hd.type e hb⟩
      by_cases ha : (!auto || !Property.isEnablePacket m.header.property) = true
      · simp only [if_pos ha]; exact pass
      · simp only [if_neg ha]
        have hf : packetFlag m.header.property.toNat = true := by
          rw [← Property.isEnablePacket_spec]
          simp only [Bool.or_eq_true, Bool.not_eq_true', not_or, Bool.not_eq_false] at ha
          exact ha.2
        have hp := hd.packet hf
        cases e with
        | m0801 b =>
          have hc := hd.content b hb
          cases hp' : m.header.packet with
          | none => rw [hp'] at hp; cases hp
          | some p =>
            cases hc' : b.packet with
            | none => rw [hc'] at hc; cases hc
            | some data =>
              refine ⟨(((Loop.partFile m b p).write o p.seq data fs).1, { place := .written m b p ((Loop.partFile m b p).write o p.seq data fs).2, recv := recv, gone := gone, sess := sess },
                [.stored (Loop.partFile m b p) p.seq data o]), by simp only [hc'], fun x hx => write_keeps _ o p.seq data fs x hx, fun _ => h1 (by simp), hb, (hd.type _ hb).symm, fun hdone => ?_⟩
              exact Crowd.write_dir _ _ _ _ _ hdone
        | _ => exact pass
    | _ => exact ⟨_, rfl, refl, fun _ => h1 (by simp), trivial⟩
  | written m b p done =>
    refine ⟨_, rfl, refl, fun _ => h1 (by simp), ?_⟩
    cases done with
    | true => exact ⟨h2.1, h2.2.1, h2.2.2 rfl⟩
    | false => trivial
  | stored m b p =>
    simp only
    split
    · exact ⟨_, rfl, refl, fun _ => h1 (by simp), trivial⟩
    · obtain ⟨full, hf⟩ := isFull_ok (Loop.partFile m b p) fs h2.2.2
      rw [hf]
      refine ⟨_, rfl, refl, fun _ => h1 (by simp), ?_⟩
      cases full with
      | true => exact h2
      | false => trivial
  | full m b p =>
    simp only
    obtain ⟨r, hr⟩ := merge_ok (Loop.partFile m b p) o fs h2.2.2
    rw [hr, Res.ok_bind]
    cases hw : r.2 with
    | none => exact ⟨_, rfl, fun x hx => merge_keeps _ o fs r hr x hx, fun _ => h1 (by simp), trivial⟩
    | some content => exact ⟨_, rfl, fun x hx => merge_keeps _ o fs r hr x hx, fun _ => h1 (by simp), _, rfl, h2.2.1.symm⟩
  | passing m =>
    obtain ⟨e, hb, hid⟩ := h2
    simp only
    rw [replySerial_val hb hid, Res.ok_bind]
    split
    · exact ⟨_, rfl, refl, fun _ => h1 (by simp), trivial⟩
    · split <;> exact ⟨_, rfl, refl, fun _ => h1 (by simp), trivial⟩
  | running code after =>
    cases code <;> (refine ⟨_, rfl, refl, fun _ => h1 (by simp), ?_⟩; cases after <;> trivial)
  | noted m =>
    simp only
    split <;> exact ⟨_, rfl, refl, fun _ => h1 (by simp), trivial⟩
  | ended => exact ⟨_, rfl, refl, h1, trivial⟩

/-- What is unread is the end of what has arrived. -/
def Within (arrived : Bytes) (c : RecvState) : Prop := c.buffer ++ c.reads.flatten <:+ arrived

theorem noPanic_within {env : Env} {key : Option DecKey} (endErr : Err) {arrived : Bytes}
    (hno : ∀ f, f <:+: arrived → Message.decode (entityCodec env) key {} f ≠ .panic) : NoPanic env key endErr (Within arrived) := by
  intro c hc
  obtain ⟨f1, -, f3⟩ := receive_facts (C := entityCodec env) (key := key) (endErr := endErr) c
  refine ⟨fun hp => ?_, fun _ _ => f1.trans hc⟩
  obtain ⟨f, hin, hf⟩ := f3 hp
  exact hno f (hin.trans hc.isInfix) hf

theorem Safe.step {env : Env} {key : Option DecKey} {endErr : Err} {auto : Bool} {P : Program σ} {arrived : Bytes} {fs : FS} {c : Conn σ}
    (h : Safe (Within arrived) fs c) (e : Event) (hno : ∀ f, f <:+: arrived ++ (arrivedOn e.conn [e]).flatten → Message.decode (entityCodec env) key {} f ≠ .panic) :
    ∃ r, c.step env key endErr auto P e fs = .ok r ∧ Keeps fs r.1 ∧ Safe (Within (arrived ++ (arrivedOn e.conn [e]).flatten)) r.1 r.2.1 := by
  have refl : Keeps fs fs := fun _ h => h
  cases e with
  | arrive k piece =>
    refine ⟨_, rfl, refl, fun hp => ?_, h.place⟩
    obtain ⟨t, ht⟩ := h.unread hp
    exact ⟨t, by rw [← ht]; simp [arrivedOn, Event.conn]⟩
  | turn k o =>
    have := h.turn (endErr := endErr) (auto := auto) (P := P) (fun hw =>
      noPanic_within endErr (fun f hf => hno f (hf.trans (List.prefix_append _ _).isInfix)) _ (h.unread (by rw [hw]; simp))) o
    simpa [arrivedOn, Conn.step] using this
  | hangUp k => exact ⟨_, rfl, refl, by simpa [arrivedOn] using h.unread, h.place⟩
  | send k e => exact ⟨_, rfl, refl, by simpa [arrivedOn] using h.unread, h.place⟩
  | request k e cb => exact ⟨_, rfl, refl, by simpa [arrivedOn] using h.unread, h.place⟩

/-- After a turn that worked, the loop can go on. -/
theorem Safe.after_turn {env : Env} {key : Option DecKey} {endErr : Err} {auto : Bool} {P : Program σ} {fs : FS} {c : Conn σ} (h : Safe (fun _ => True) fs c)
    {o : Outcome} {r : FS × Conn σ × List Ev} (hr : c.turn env key endErr auto P o fs = .ok r) : Keeps fs r.1 ∧ Safe (fun _ => True) r.1 r.2.1 := by
  have hno : c.place = .waiting → (Codec.receive (entityCodec env) key endErr c.recv).1 ≠ .panic := by
    intro hw hp
    unfold Conn.turn at hr
    rw [hw] at hr
    simp only at hr
    split at hr
    · rename_i hs
      simp only [Bool.and_eq_true] at hs
      rw [receive_starved endErr hs.2] at hp
      cases hp
    · split at hr
      · rename_i hm; rw [hm] at hp; cases hp
      · rename_i hm; rw [hm] at hp; cases hp
      · cases hr
  obtain ⟨r', h1, h2⟩ := h.turn (endErr := endErr) (auto := auto) (P := P) (env := env) (key := key) (fun hw => ⟨hno hw, fun _ _ => trivial⟩) o
  rw [hr] at h1
  cases h1
  exact h2

/-- After a run that worked, every loop can go on. -/
theorem run_safe_after {env : Env} {key : Option DecKey} {endErr : Err} {auto : Bool} {P : Program σ} (es : List Event) : ∀ {s t : State σ} {log : List (Nat × Ev)},
    (∀ k, Safe (fun _ => True) s.fs (s.conns k)) → s.run env key endErr auto P es = .ok (t, log) → ∀ k, Safe (fun _ => True) t.fs (t.conns k) := by
  induction es with
  | nil => intro s t log h hr; cases hr; exact h
  | cons e es ih =>
    intro s t log h hr
    obtain ⟨r, y, g1, g2, -⟩ := State.run_cons hr
    have hstep : Keeps s.fs r.1 ∧ Safe (fun _ => True) r.1 r.2.1 := by
      cases e with
      | turn k o => exact (h k).after_turn g1
      | arrive k piece => cases g1; exact ⟨fun _ h => h, fun _ => trivial, (h k).place⟩
      | hangUp k => cases g1; exact ⟨fun _ h => h, fun _ => trivial, (h k).place⟩
      | send k e => cases g1; exact ⟨fun _ h => h, fun _ => trivial, (h k).place⟩
      | request k e cb => cases g1; exact ⟨fun _ h => h, fun _ => trivial, (h k).place⟩
    refine ih (fun k => ?_) g2
    by_cases hk : k = e.conn
    · simp only [hk, if_true]; exact hstep.2
    · simp only [hk, if_false]; exact (h k).keeps hstep.1

theorem safe_start (N : RecvState → Prop) (hN : N ⟨[], []⟩) (user : Nat → σ) (accepts : Nat → List Bool) (k : Nat) :
    Safe N (State.start user accepts).fs ((State.start user accepts).conns k) := ⟨fun _ => hN, trivial⟩

theorem arrivedOn_other {k : Nat} {e : Event} (h : e.conn ≠ k) : arrivedOn k [e] = [] := by
  cases e with
  | arrive j piece => have h : j ≠ k := h; simp [arrivedOn, h]
  | _ => rfl

/-- The server goes on. -/
theorem run_safe {env : Env} {key : Option DecKey} {endErr : Err} {auto : Bool} {P : Program σ} (es : List Event) : ∀ {s : State σ} {arrived : Nat → Bytes},
    (∀ k, Safe (Within (arrived k)) s.fs (s.conns k)) → (∀ k f, f <:+: arrived k ++ (arrivedOn k es).flatten → Message.decode (entityCodec env) key {} f ≠ .panic) →
    ∃ r, s.run env key endErr auto P es = .ok r ∧ ∀ k, Safe (Within (arrived k ++ (arrivedOn k es).flatten)) r.1.fs (r.1.conns k) := by
  induction es with
  | nil => intro s arrived h _; exact ⟨_, rfl, by simpa [arrivedOn] using h⟩
  | cons e es ih =>
    intro s arrived hs hno
    obtain ⟨r, h1, h2, h3⟩ := (hs e.conn).step (env := env) (key := key) (endErr := endErr) (auto := auto) (P := P) e (fun f hf => hno e.conn f (by
      rw [arrivedOn_cons, List.flatten_append, ← List.append_assoc]
      exact hf.trans (List.prefix_append _ _).isInfix))
    obtain ⟨q, hq, hsafe⟩ := ih (s := { fs := r.1, conns := fun j => if j = e.conn then r.2.1 else s.conns j }) (arrived := fun j => arrived j ++ (arrivedOn j [e]).flatten) (by
      intro k
      by_cases hk : k = e.conn
      · subst hk; simpa using h3
      · have := (hs k).keeps h2
        simpa [hk, arrivedOn_other (Ne.symm hk)] using this) (by
      intro k f hf
      refine hno k f ?_
      rwa [arrivedOn_cons, List.flatten_append, ← List.append_assoc])
    refine ⟨(q.1, r.2.2.map (fun x => (e.conn, x)) ++ q.2), ?_, fun k => ?_⟩
    · rw [State.run, h1, Res.ok_bind, hq]
      rfl
    · rw [arrivedOn_cons, List.flatten_append, ← List.append_assoc]
      exact hsafe k

end Verif.Crowd
