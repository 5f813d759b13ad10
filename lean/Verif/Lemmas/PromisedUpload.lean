import Verif.Lemmas.Promised
import Verif.Lemmas.Upload
/-! # Lemmas on what servers promise for an upload in parts -/

namespace Verif.Converse
open Session Handler Spec

/-- The first `j` parts are stored. -/
structure PartsIn (u : Upload) (cs : List Bytes) (j : Nat) (h : List FileOp) : Prop where
  bound : ∀ s c, latestIn u s h = some c → 1 ≤ s.toNat ∧ s.toNat ≤ cs.length
  stored : ∀ i (_ : i < j) (hi : i < cs.length), latestIn u (UInt16.ofNat (i + 1)) h = some cs[i]
  unmerged : ∀ o, FileOp.merge u o ∉ h

theorem PartsIn.next {u : Upload} {cs : List Bytes} {j : Nat} {h : List FileOp} (hp : PartsIn u cs j h) (hj : j < cs.length) (hn : cs.length ≤ 65535) :
    PartsIn u cs (j + 1) (.write u (UInt16.ofNat (j + 1)) cs[j] .ok :: h) where
  bound s c hs := by
    unfold latestIn at hs
    split at hs
    · rename_i he
      rw [← he.2, ofNat_toNat_lt (by omega)]
      omega
    · exact hp.bound s c hs
  stored i h1 hi := by
    unfold latestIn
    by_cases hij : i = j
    · subst hij
      simp [leaves]
    · rw [if_neg, hp.stored i (by omega) hi]
      rintro ⟨-, he⟩
      have := congrArg UInt16.toNat he
      rw [ofNat_toNat_lt (by omega), ofNat_toNat_lt (by omega)] at this
      omega
  unmerged o hm := by
    simp only [List.mem_cons, reduceCtorEq, false_or] at hm
    exact hp.unmerged o hm

theorem PartsIn.allStored {u : Upload} {cs : List Bytes} {h : List FileOp} (hp : PartsIn u cs cs.length h) : allStored u cs.length h = true := by
  unfold Spec.allStored
  rw [List.all_eq_true]
  intro i hi
  rw [List.mem_range'_1] at hi
  have := hp.stored (i - 1) (by omega) (by omega)
  rw [show i - 1 + 1 = i by omega] at this
  rw [this]
  rfl

theorem PartsIn.merged {u : Upload} {cs : List Bytes} {h : List FileOp} (hp : PartsIn u cs cs.length h) (hn : cs.length ≤ 65535) :
    mergedIn u (.merge u .ok :: h) = some cs.flatten := by
  unfold mergedIn
  rw [if_pos rfl, mergedIn_none hp.unmerged]
  simp only [leaves, Option.elim_some, Option.getD_none, List.drop_nil, List.append_nil]
  have hl : (UInt16.ofNat cs.length).toNat = cs.length := ofNat_toNat_lt (by omega)
  rw [joined_trim _ (UInt16.ofNat cs.length) (by rw [hl]; exact hp.bound), hl]
  unfold joined
  rw [flatMap_index cs id (fun i => latestIn u (UInt16.ofNat i) h) (fun i hi => hp.stored i hi hi)]
  simp

variable {answers : Message Entity → List Entity}

/-- What happens from the part with number `j + 1` on. -/
theorem upload_rest {u : Upload} {cs : List Bytes} {ds : List (Message Entity)} (hn : cs.length ≤ 65535) (hl : ds.length = cs.length)
    (hd : ∀ i (hi : i < cs.length), partOf true (ds[i]'(by omega)) = some (u, ⟨UInt16.ofNat cs.length, UInt16.ofNat (i + 1)⟩, cs[i]))
    (icc : UInt64) (k : Nat) : ∀ (j : Nat) (h : List FileOp) (hj : j + (k + 1) = cs.length), PartsIn u cs j h →
      givenTo true h ((ds.drop j).zip (List.replicate (k + 1) (.ok, .ok))) = [withContent (ds[cs.length - 1]'(by omega)) cs.flatten] ∧
      promised answers true icc h ((ds.drop j).zip (List.replicate (k + 1) (.ok, .ok))) =
        (ds.drop j).map (fun m => (icc, resultTo m 0)) ++
          (answers (withContent (ds[cs.length - 1]'(by omega)) cs.flatten)).map (terminalAfter icc (ds[cs.length - 1]'(by omega)), ·) := by
  induction k with
  | zero =>
    intro j h hj hp
    have hp1 := hp.next (by omega) hn
    have hjl : j = cs.length - 1 := by omega
    subst hjl
    have hpart := hd (cs.length - 1) (by omega)
    have hb := hasBody_of_partOf hpart
    rw [show cs.length - 1 + 1 = cs.length by omega] at hp1 hpart
    have hlt : (UInt16.ofNat cs.length).toNat = cs.length := ofNat_toNat_lt (by omega)
    have hmd : mergeDue u ⟨UInt16.ofNat cs.length, UInt16.ofNat cs.length⟩ (.ok, .ok)
        (.write u (UInt16.ofNat cs.length) (cs[cs.length - 1]'(by omega)) .ok :: h) = some (some cs.flatten) := by
      unfold mergeDue
      rw [if_pos ⟨rfl, rfl, by simp only; rw [hlt]; exact hp1.allStored⟩, if_pos rfl, hp1.merged hn]
    have hdrop : ds.drop (cs.length - 1) = [ds[cs.length - 1]'(by omega)] := by
      rw [List.drop_eq_getElem_cons (by omega), List.drop_eq_nil_of_le (by omega)]
    rw [hdrop]
    simp only [Nat.zero_add, List.replicate_one, List.zip_cons_cons, List.zip_nil_right, givenTo_cons, promised_cons]
    rw [if_neg (by simp [hb]), if_neg (by simp [hb]), hpart]
    simp only
    rw [hmd]
    simp [givenTo, promised]
  | succ k ih =>
    intro j h hj hp
    have hp1 := hp.next (by omega) hn
    have hpart := hd j (by omega)
    have hb := hasBody_of_partOf hpart
    have hmd : mergeDue u ⟨UInt16.ofNat cs.length, UInt16.ofNat (j + 1)⟩ (.ok, .ok)
        (.write u (UInt16.ofNat (j + 1)) (cs[j]'(by omega)) .ok :: h) = none := by
      unfold mergeDue
      rw [if_neg]
      rintro ⟨-, he, -⟩
      have := congrArg UInt16.toNat he
      rw [ofNat_toNat_lt (by omega), ofNat_toNat_lt (by omega)] at this
      omega
    obtain ⟨i1, i2⟩ := ih (j + 1) _ (by omega) hp1
    rw [List.drop_eq_getElem_cons (show j < ds.length by omega), List.replicate_succ]
    simp only [List.zip_cons_cons, givenTo_cons, promised_cons]
    rw [if_neg (by simp [hb]), if_neg (by simp [hb]), hpart]
    simp only
    rw [hmd]
    simp only
    rw [i1, i2]
    exact ⟨rfl, rfl⟩

theorem partsIn_nil (u : Upload) (cs : List Bytes) : PartsIn u cs 0 [] :=
  ⟨fun s c h => (by cases h), fun i h => (by omega), fun o h => (by cases h)⟩

/-- What happens for the messages of a whole upload. -/
theorem upload_all {u : Upload} {cs : List Bytes} {ds : List (Message Entity)} (h1 : 1 ≤ cs.length) (hn : cs.length ≤ 65535) (hl : ds.length = cs.length)
    (hd : ∀ i (hi : i < cs.length), partOf true (ds[i]'(by omega)) = some (u, ⟨UInt16.ofNat cs.length, UInt16.ofNat (i + 1)⟩, cs[i])) (icc : UInt64) :
    givenTo true [] (ds.zip (List.replicate cs.length (.ok, .ok))) = [withContent (ds[cs.length - 1]'(by omega)) cs.flatten] ∧
      promised answers true icc [] (ds.zip (List.replicate cs.length (.ok, .ok))) =
        ds.map (fun m => (icc, resultTo m 0)) ++
          (answers (withContent (ds[cs.length - 1]'(by omega)) cs.flatten)).map (terminalAfter icc (ds[cs.length - 1]'(by omega)), ·) := by
  obtain ⟨k, hk⟩ : ∃ k, cs.length = k + 1 := ⟨cs.length - 1, by omega⟩
  have := upload_rest (answers := answers) hn hl hd icc k 0 [] (by omega) (partsIn_nil u cs)
  rw [List.drop_zero] at this
  rw [show List.replicate cs.length ((.ok, .ok) : Outcome × Outcome) = List.replicate (k + 1) (.ok, .ok) by rw [hk]]
  exact this

theorem length_flatMap_replicate {α : Type} (n : Nat) (a : α) (g : α → Bytes) : ((List.replicate n a).flatMap g).length = n * (g a).length := by
  induction n with
  | zero => simp
  | succ n ih => rw [List.replicate_succ, List.flatMap_cons, List.length_append, ih, Nat.succ_mul, Nat.add_comm]

end Verif.Converse
