import Verif.Lemmas.StopFair
import Verif.Lemmas.WorldSafe
/-! # Lemmas: a server that is stopped does not crash -/

namespace Verif.Shutdown
open Handler Session Spec
variable {env : Env} {key : Option DecKey} {endErr : Err} {auto : Bool} {ka : Int} {rsa : Option Nat} {s0 : Server.State} {reads : Nat → List Bytes}

theorem onWorld_safe {s : State} {evs : List World.Event} {log : List World.Obs} (h0 : Server.newServer ka rsa = .ok s0)
    (hkey : ∀ k, key = some k → 0 < k.size) (hc : ∀ k x, ¬ [0x7e, x, 0x7e] <:+: (reads k).flatten)
    (h : (World.start s0 reads).run env key endErr auto evs = .ok (s.world, log)) (e : World.Event) :
    ∃ t x, s.onWorld env key endErr auto e = .ok (t, x) ∧ ∃ evs' log', (World.start s0 reads).run env key endErr auto evs' = .ok (t.world, log') := by
  obtain ⟨⟨w, x⟩, hr⟩ := World.step_ok h0 hkey hc h e
  exact ⟨{ s with world := w }, x.map .world, by rw [State.onWorld, hr]; rfl, _, _, World.run_snoc h hr⟩

theorem step_ok {s : State} {evs : List World.Event} {log : List World.Obs} (h0 : Server.newServer ka rsa = .ok s0)
    (hkey : ∀ k, key = some k → 0 < k.size) (hc : ∀ k x, ¬ [0x7e, x, 0x7e] <:+: (reads k).flatten)
    (h : (World.start s0 reads).run env key endErr auto evs = .ok (s.world, log)) (e : Event) : ∃ r, s.step env key endErr auto e = .ok r := by
  have w (e : World.Event) : ∃ r, s.onWorld env key endErr auto e = .ok r := by
    obtain ⟨t, x, g, -⟩ := onWorld_safe h0 hkey hc h e
    exact ⟨_, g⟩
  cases e with
  | world e =>
    cases e with
    | accept => exact ⟨_, rfl⟩
    | _ => exact w _
  | enter =>
    simp only [State.step]
    split
    · exact ⟨_, rfl⟩
    · obtain ⟨t, x, g, evs', log', h'⟩ := onWorld_safe h0 hkey hc h .accept
      simp only [State.enter, g, Res.ok_bind]
      split
      · obtain ⟨u, y, g', -⟩ := onWorld_safe h0 hkey hc h' (.move (s.world.server.count + 1) .close)
        simp only [g', Res.ok_bind]
        exact ⟨_, rfl⟩
      · exact ⟨_, rfl⟩
  | closeNext k =>
    simp only [State.step]
    split
    · split
      · obtain ⟨r, g⟩ := w (.move k .close)
        simp only [g, Res.ok_bind]
        exact ⟨_, rfl⟩
      · exact ⟨_, rfl⟩
    · exact ⟨_, rfl⟩
  | _ =>
    simp only [State.step]
    repeat' split
    all_goals exact ⟨_, rfl⟩

theorem run_ok (h0 : Server.newServer ka rsa = .ok s0) (hkey : ∀ k, key = some k → 0 < k.size) (hc : ∀ k x, ¬ [0x7e, x, 0x7e] <:+: (reads k).flatten)
    (es : List Event) : ∃ r, (start s0 reads).run env key endErr auto es = .ok r := by
  suffices ∀ (s : State) (evs : List World.Event) (log : List World.Obs), (World.start s0 reads).run env key endErr auto evs = .ok (s.world, log) →
      ∃ r, s.run env key endErr auto es = .ok r from this (start s0 reads) [] [] rfl
  induction es with
  | nil => intro s _ _ _; exact ⟨_, rfl⟩
  | cons e es ih =>
    intro s evs log h
    obtain ⟨⟨t, x⟩, h1⟩ := step_ok h0 hkey hc h e
    obtain ⟨evs', h2⟩ := world_step h1
    obtain ⟨r, h3⟩ := ih t _ _ (world_append h h2)
    exact ⟨(r.1, x ++ r.2), by rw [State.run, h1, Res.ok_bind]; simp only [h3, Res.ok_bind]⟩

end Verif.Shutdown
