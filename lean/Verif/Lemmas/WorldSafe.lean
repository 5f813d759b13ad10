import Verif.Lemmas.WorldRun
import Verif.Lemmas.SystemSafe
/-! # No schedule of the whole server crashes it -/

namespace Verif.World
open Spec Handler Session

variable {env : Env} {key : Option DecKey} {endErr : Err} {auto : Bool}

theorem run_snoc {s t u : State} {es : List Event} {e : Event} {x y : List Obs} (h : s.run env key endErr auto es = .ok (t, x))
    (h' : t.step env key endErr auto e = .ok (u, y)) : s.run env key endErr auto (es ++ [e]) = .ok (u, x ++ y) := by
  induction es generalizing s x with
  | nil => cases h; simp [State.run, h']
  | cons a es ih =>
    obtain ⟨b, p, q, h1, h2, rfl⟩ := run_cons_inv h
    rw [List.cons_append, State.run, h1, Res.ok_bind]
    simp only [ih h2, Res.ok_bind, List.append_assoc]

/-- Single bytes between delimiters do not appear in a part of a stream where they do not. -/
theorem clean_prefix {fs rs : List Bytes} (hp : fs <+: rs) (h : ∀ x, ¬ [0x7e, x, 0x7e] <:+: rs.flatten) : ∀ x, ¬ [0x7e, x, 0x7e] <:+: fs.flatten := by
  obtain ⟨e, rfl⟩ := hp
  intro x hx
  refine h x (hx.trans ?_)
  rw [List.flatten_append]
  exact (List.prefix_append _ _).isInfix

section
variable {ka : Int} {rsa : Option Nat} {s0 : Server.State} {reads : Nat → List Bytes} {s : State} {es : List Event} {log : List Obs}

/-- A step of a loop does not crash, even if only a part of the bytes is still to come. -/
theorem sys_ok (hkey : ∀ k, key = some k → 0 < k.size) (hc : ∀ k x, ¬ [0x7e, x, 0x7e] <:+: (reads k).flatten)
    (h : (start s0 reads).run env key endErr auto es = .ok (s, log)) (f : Nat → List Bytes) (hf : ∀ k, f k <+: readsOf s.sys k) (e : System.Event) :
    ∃ r, (setReads s.sys f).step env key endErr auto e = .ok r := by
  obtain ⟨g, evs, hg, hr⟩ := loops_run f hf h
  have hg (k : Nat) : g k <+: reads k := hg k
  have hr : (System.start g).run env key endErr auto evs = .ok (setReads s.sys f, log.filterMap loopView) := hr
  refine System.step_ok (fs0 := fun _ => none) (reads := g) (fun k => System.noCrash_of_clean hkey (clean_prefix (hg k) (hc k))) (log := log.filterMap loopView) (fun k => ?_) e
  have := (System.inv_start (env := env) (key := key) (endErr := endErr) (auto := auto) (k := k) g).run hr
  simpa using this

theorem onServer_ok {p : Int} (hg : Good p s log) (e : Server.Event) : ∃ r, s.onServer e = .ok r := by
  obtain ⟨t, o, h, -⟩ := Server.step_inv hg.server e
  exact ⟨_, by rw [State.onServer, h]; rfl⟩

theorem onServer_ok' {p : Int} {s' : State} (hg : Good p s log) (hs : s'.server = s.server) (e : Server.Event) : ∃ r, s'.onServer e = .ok r := by
  obtain ⟨t, o, h, -⟩ := Server.step_inv hg.server e
  exact ⟨_, by rw [State.onServer, hs, h]; rfl⟩

theorem step_ok (h0 : Server.newServer ka rsa = .ok s0) (hkey : ∀ k, key = some k → 0 < k.size) (hc : ∀ k x, ¬ [0x7e, x, 0x7e] <:+: (reads k).flatten)
    (h : (start s0 reads).run env key endErr auto es = .ok (s, log)) (e : Event) : ∃ r, s.step env key endErr auto e = .ok r := by
  have hg : Good (keepalivePeriod ka) s log := by simpa using good_run (good_start h0 reads) h
  have sys (e : System.Event) : ∃ r, s.onSystem env key endErr auto e = .ok r := by
    obtain ⟨r, hr⟩ := sys_ok hkey hc h (readsOf s.sys) (fun k => List.prefix_refl _) e
    rw [setReads_self] at hr
    exact ⟨_, by rw [State.onSystem, hr]; rfl⟩
  have hung (k : Nat) (e : System.Event) : ∃ r, State.onSystem env key endErr auto { s with sys := hangUp s.sys k } e = .ok r := by
    obtain ⟨r, hr⟩ := sys_ok hkey hc h (fun j => if j = k then [] else readsOf s.sys j) (fun j => by
      split
      · exact List.nil_prefix
      · exact List.prefix_refl _) e
    have he : setReads s.sys (fun j => if j = k then [] else readsOf s.sys j) = hangUp s.sys k := by
      unfold setReads hangUp System.State.put readsOf
      congr 1
      funext j
      by_cases hj : j = k <;> simp [hj]
    rw [he] at hr
    exact ⟨_, by rw [State.onSystem, hr]; rfl⟩
  cases e with
  | accept => exact onServer_ok hg _
  | move k m =>
    cases m with
    | leave => exact ⟨_, rfl⟩
    | restart n =>
      simp only [State.step]
      split
      · exact ⟨_, rfl⟩
      · exact onServer_ok hg _
    | _ => exact onServer_ok hg _
  | tick n => exact onServer_ok hg _
  | lookup => exact onServer_ok hg _
  | closeFound => exact onServer_ok hg _
  | receive k =>
    simp only [State.step]
    split
    · unfold State.receive
      have key' : ∃ s1 x, State.onSystem env key endErr auto (if isClosed s.server k then { s with sys := hangUp s.sys k } else s) (.receive k) = .ok (s1, x) ∧
          s1.server = s.server := by
        obtain ⟨⟨s1, x⟩, h1⟩ : ∃ r, State.onSystem env key endErr auto (if isClosed s.server k then { s with sys := hangUp s.sys k } else s) (.receive k) = .ok r := by
          split
          · exact hung k _
          · exact sys _
        refine ⟨s1, x, h1, ?_⟩
        obtain ⟨t, -, h3⟩ := Res.bind_ok h1
        cases h3
        simp only
        split <;> rfl
      obtain ⟨s1, x, h1, h2⟩ := key'
      simp only [h1, Res.ok_bind]
      split
      · exact ⟨_, rfl⟩
      · obtain ⟨r, hr⟩ := onServer_ok' hg h2 (.move k .leave)
        rw [hr]
        exact ⟨_, rfl⟩
      · exact ⟨_, rfl⟩
    · exact ⟨_, rfl⟩
  | process k o u => exact sys _
  | check k => exact sys _
  | merge k o => exact sys _
  | note k u => exact sys _
  | dispatch k n =>
    simp only [State.step]
    split
    · unfold State.dispatch
      obtain ⟨⟨s1, x⟩, h1⟩ := sys (.dispatch k .returns)
      have h2 : s1.server = s.server := by
        obtain ⟨t, -, h3⟩ := Res.bind_ok h1
        cases h3
        rfl
      simp only [h1, Res.ok_bind]
      split
      · exact ⟨_, rfl⟩
      · obtain ⟨r, hr⟩ := onServer_ok' hg h2 (.move k (.restart n))
        rw [hr]
        exact ⟨_, rfl⟩
    · exact ⟨_, rfl⟩
  | call k =>
    simp only [State.step]
    split
    · split <;> exact ⟨_, rfl⟩
    · exact ⟨_, rfl⟩
  | finish k u =>
    simp only [State.step]
    split
    · rw [Server.call_recovered]
      exact ⟨_, rfl⟩
    · exact ⟨_, rfl⟩
  | addHandler id g => exact sys _
  | addRequest k r => exact sys _

theorem run_ok (h0 : Server.newServer ka rsa = .ok s0) (hkey : ∀ k, key = some k → 0 < k.size) (hc : ∀ k x, ¬ [0x7e, x, 0x7e] <:+: (reads k).flatten)
    (h : (start s0 reads).run env key endErr auto es = .ok (s, log)) (es' : List Event) :
    ∃ r, s.run env key endErr auto es' = .ok r := by
  induction es' generalizing s es log with
  | nil => exact ⟨_, rfl⟩
  | cons e es' ih =>
    obtain ⟨⟨t, x⟩, h1⟩ := step_ok h0 hkey hc h e
    obtain ⟨r, h2⟩ := ih (run_snoc h h1)
    exact ⟨(r.1, x ++ r.2), by rw [State.run, h1, Res.ok_bind]; simp only [h2, Res.ok_bind]⟩

end
end Verif.World
