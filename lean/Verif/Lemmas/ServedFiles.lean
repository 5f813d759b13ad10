import Verif.Lemmas.Served
import Verif.Spec.ServedFiles
/-! # Lemmas on the parts a server stores -/

namespace Verif.Converse
open Session Handler Spec

variable {σ : Type} {P : Program σ}

theorem storedOf_append (x y : List Ev) : storedOf (x ++ y) = storedOf x ++ storedOf y := by simp [storedOf]
theorem storedOf_stored (f : Multipart) (n : UInt16) (d : Bytes) (o : Outcome) (x : List Ev) : storedOf (.stored f n d o :: x) = (f, n, d) :: storedOf x := rfl
theorem storedOf_merged (f : Multipart) (o : Outcome) (x : List Ev) : storedOf (.merged f o :: x) = storedOf x := rfl
theorem storedOf_nil : storedOf [] = [] := rfl

theorem turn_stores {auto : Bool} {k k' : Knows σ} {m : Message Entity} {o : Outcome × Outcome} {x : List Ev} (h : Turn auto P k m o x k') :
    ∀ y ∈ storedOf x, ∃ u p, partOf auto m = some (u, p, y.2.2) ∧ y.1 = u.file p ∧ y.2.1 = p.seq := by
  have perf : ∀ {icc n t c x n' t' u}, Performs (σ := σ) icc n t c x n' t' u → storedOf x = [] := by
    intro icc n t c x n' t' u h
    induction h <;> simp_all [storedOf]
  have noted : ∀ {k k' : Knows σ} {m x}, Noted P k m x k' → storedOf x = [] := by
    intro k k' m x h
    cases h with
    | ran _ _ hc => simpa [storedOf] using perf hc
    | none => rfl
  have disp : ∀ {k k' : Knows σ} {m x}, Dispatched P k m x k' → storedOf x = [] := by
    intro k k' m x h
    cases h with
    | handled _ hc => simpa [storedOf] using perf hc
    | unhandled => rfl
  have repl : ∀ {k k' : Knows σ} {m r x}, Replied k m r x k' → storedOf x = [] := by
    intro k k' m r x h
    cases h <;> rfl
  have one : ∀ {u : Upload} {p : Packet} {data : Bytes}, partOf auto m = some (u, p, data) → ∀ y ∈ [(u.file p, p.seq, data)],
      ∃ u p, partOf auto m = some (u, p, y.2.2) ∧ y.1 = u.file p ∧ y.2.1 = p.seq := by
    intro u p data hp y hy
    obtain rfl := List.mem_singleton.1 hy
    exact ⟨u, p, hp, rfl, rfl⟩
  cases h with
  | unsupported _ hr => rw [repl hr]; simp
  | ordinary _ _ hn hd => rw [storedOf_append, noted hn, disp hd]; simp
  | lost hp _ hr => rw [storedOf_stored, repl hr]; exact one hp
  | stored hp _ hr => rw [storedOf_stored, repl hr]; exact one hp
  | unmerged hp _ hr => rw [storedOf_stored, storedOf_append, repl hr, storedOf_merged, storedOf_nil]; exact one hp
  | merged hp _ _ hr _ _ _ hn hd =>
    rw [storedOf_stored, storedOf_append, repl hr, storedOf_merged, storedOf_append, noted hn, disp hd]
    exact one hp

theorem talk_stores {auto : Bool} {k k' : Knows σ} {ms : List (Message Entity × Outcome × Outcome)} {log : List Ev} (h : Talk auto P k ms log k') :
    ∀ y ∈ storedOf log, ∃ m ∈ receivedOf log, ∃ u p, partOf auto m = some (u, p, y.2.2) ∧ y.1 = u.file p ∧ y.2.1 = p.seq := by
  induction h with
  | nil => simp [storedOf]
  | @cons k k' k'' m o x z ms ht _ ih =>
    intro y hy
    have hm : storedOf (.received m :: (x ++ z)) = storedOf x ++ storedOf z := by simp [storedOf]
    have hr : receivedOf (.received m :: (x ++ z)) = m :: (receivedOf x ++ receivedOf z) := by simp [receivedOf]
    rw [hm, List.mem_append] at hy
    rw [hr]
    rcases hy with hy | hy
    · exact ⟨m, by simp, turn_stores ht y hy⟩
    · obtain ⟨m', h1, h2⟩ := ih y hy
      exact ⟨m', by simp [h1], h2⟩

theorem serve_stores {env : Env} {key : Option DecKey} {endErr : Err} {auto : Bool} {u : σ} {accepts : List Bool}
    {os : List (Outcome × Outcome)} {c : RecvState} {s : State σ} {log : List Ev}
    (h : ({ user := u, accepts := accepts } : State σ).serve env key endErr auto P os c = .ok (s, log)) :
    ∀ y ∈ storedOf log, ∃ m ∈ receivedOf log, ∃ u p, partOf auto m = some (u, p, y.2.2) ∧ y.1 = u.file p ∧ y.2.1 = p.seq := by
  obtain ⟨ms, log', h1, h2, h3, h4, -⟩ := serve_calls h
  have hz : ∀ x ∈ ms.zip os, Decoded x.1 := fun x hx => h3 _ (List.of_mem_zip (a := x.1) (b := x.2) hx).1
  obtain ⟨s', log'', k, r1, r2, r3⟩ := run_spec auto P (ms.zip os) (shows_fresh u accepts) fun x hx => (hz x hx).1
  obtain ⟨rfl, rfl⟩ : s = s' ∧ log' = log'' := by simpa [h4] using r1
  have ht := talk_stores r2
  rcases h1 with rfl | rfl
  · exact ht
  · simpa [storedOf, receivedOf] using ht

end Verif.Converse
