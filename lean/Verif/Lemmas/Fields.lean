import Verif.Spec.Ranges
import Verif.Spec.Strings
import Verif.Lemmas.Reader
import Verif.Lemmas.Bits
import Verif.Props.Times
/-! # Reading back single fields -/

namespace Verif

open Spec (Plain Text AnyText TimeOK Coord Hemisphere)

/-! ## Strings -/

@[simp] theorem putFixed_length (p : Bytes) (n : Nat) : (putFixed p n).length = n := by
  unfold putFixed
  split
  · simp; omega
  · simp; omega

theorem putFixed_padded (s : Bytes) (n : Nat) : putFixed s n = Spec.padded n s := by
  unfold putFixed Spec.padded
  split
  · rename_i h
    rw [List.take_append_of_le_length h]
  · rename_i h
    rw [List.take_append, List.take_of_length_le (by omega), List.take_replicate, Nat.min_eq_left (by omega)]

theorem takeWhile_append_zeros (s : Bytes) (k : Nat) (h : 0 ∉ s) : (s ++ List.replicate k 0).takeWhile (· ≠ 0) = s := by
  induction s with
  | nil => cases k <;> simp [List.replicate]
  | cons a s ih =>
    simp only [List.mem_cons, not_or] at h
    rw [List.cons_append, List.takeWhile_cons_of_pos (by simp [Ne.symm h.1]), ih h.2]

theorem bytesToString_pad (s : Bytes) (k : Nat) (h : 0 ∉ s) : bytesToString (s ++ List.replicate k 0) = s :=
  takeWhile_append_zeros s k h

theorem bytesToString_self (s : Bytes) (h : 0 ∉ s) : bytesToString s = s := by
  have := bytesToString_pad s 0 h
  simpa using this

theorem bytesToString_putFixed (s : Bytes) (n : Nat) (h : Plain s n) : bytesToString (putFixed s n) = s := by
  obtain ⟨h1, h2⟩ := h
  unfold putFixed
  split
  · rw [List.take_of_length_le (by omega), bytesToString_self s h2]
  · exact bytesToString_pad s _ h2

/-- What is known about the encoding `b` of a text `s`. -/
structure TextBytes (env : Env) (s b : Bytes) : Prop where
  enc : env.gbEnc s = some b
  nul : 0 ∉ s
  ne : s ≠ [] → b ≠ []
  dec : ∀ k, env.gbDec (b ++ List.replicate k 0) = some (s ++ List.replicate k 0)

theorem Spec.Text.bytes {env : Env} {s : Bytes} {n : Nat} (h : Text env s n) : ∃ b, TextBytes env s b ∧ b.length ≤ n := by
  obtain ⟨h0, b, h1, h2, h3, h4⟩ := h
  exact ⟨b, ⟨h1, h0, h3, h4⟩, h2⟩

theorem Spec.AnyText.bytes {env : Env} {s : Bytes} (h : AnyText env s) : ∃ b, TextBytes env s b := by
  obtain ⟨n, h⟩ := h
  obtain ⟨b, hb, -⟩ := h.bytes
  exact ⟨b, hb⟩

namespace TextBytes
variable {env : Env} {s b : Bytes}

theorem put (h : TextBytes env s b) : putStr env s = .ok b := by simp [putStr, h.enc]

theorem putFixed (h : TextBytes env s b) (n : Nat) : putStrFixed env s n = .ok (Verif.putFixed b n) := by
  simp [putStrFixed, h.enc]

theorem put8 (h : TextBytes env s b) : putStr8 env s = .ok ([u8 b.length] ++ b) := by simp [putStr8, h.put]

theorem decode (h : TextBytes env s b) : decodeStr env b = .ok s := by
  have := h.dec 0
  simp only [List.replicate_zero, List.append_nil] at this
  simp [decodeStr, this, bytesToString_self s h.nul]

theorem decodeFixed (h : TextBytes env s b) (n : Nat) (hn : b.length ≤ n) : decodeStr env (Verif.putFixed b n) = .ok s := by
  unfold Verif.putFixed
  split
  · rw [List.take_of_length_le (by omega)]
    exact h.decode
  · have := h.dec (n - b.length)
    simp [decodeStr, this, bytesToString_pad s _ h.nul]

theorem nonempty (h : TextBytes env s b) (hs : s ≠ []) : putStrNonempty env s = .ok b := by
  unfold putStrNonempty
  rw [if_pos (by cases s <;> simp at hs ⊢)]
  exact h.put

/-- Text behind a one-byte length. -/
theorem str8 (h : TextBytes env s b) (hn : b.length ≤ 255) (rest : Bytes) :
    Rd.str8 env (u8 b.length :: (b ++ rest)) = .ok (s, rest) := by
  unfold Rd.str8
  rw [Rd.bind_byte_cons]
  have : (u8 b.length).toNat = b.length := by simp; omega
  unfold Rd.str
  rw [this]
  refine Eq.trans (Rd.bind_read_append b rest _ _ rfl) ?_
  rw [h.decode]
  rfl

/-- Text behind a two-byte length. -/
theorem str16 (h : TextBytes env s b) (hn : b.length ≤ 65535) (rest : Bytes) :
    Rd.str16 env (put16 (UInt16.ofNat b.length) ++ (b ++ rest)) = .ok (s, rest) := by
  unfold Rd.str16
  rw [Rd.bind_u16_put16]
  have : (UInt16.ofNat b.length).toNat = b.length := by simp; omega
  unfold Rd.str
  rw [this]
  refine Eq.trans (Rd.bind_read_append b rest _ _ rfl) ?_
  rw [h.decode]
  rfl

/-- Text of fixed width. -/
theorem strFixed (h : TextBytes env s b) (n : Nat) (hn : b.length ≤ n) (rest : Bytes) :
    Rd.str env n (Verif.putFixed b n ++ rest) = .ok (s, rest) := by
  unfold Rd.str
  refine Eq.trans (Rd.bind_read_append _ rest _ _ (by simp)) ?_
  rw [h.decodeFixed n hn]
  rfl

/-- Text up to the end. -/
theorem strRest (h : TextBytes env s b) : Rd.strRest env b = .ok (s, []) := by
  unfold Rd.strRest
  refine Eq.trans (Rd.bind_rest b _) ?_
  rw [h.decode]
  rfl

/-- Optional text up to the end, read into an empty field. -/
theorem optional (h : TextBytes env s b) : ∃ b', putStrNonempty env s = .ok b' ∧ Rd.strIfMore env [] b' = .ok (s, []) := by
  unfold Rd.strIfMore
  by_cases hs : s = []
  · refine ⟨[], by simp [putStrNonempty, hs], ?_⟩
    rw [hs]
    rfl
  · refine ⟨b, h.nonempty hs, ?_⟩
    rw [Rd.bind_len, if_pos (by have := h.ne hs; cases b <;> simp at this ⊢)]
    exact h.strRest

end TextBytes

/-! ## Times -/

theorem putTime_length (env : Env) (t : Time) (h : TimeOK env t) : (putTime env t).length = 6 :=
  (C22_time_round_trip_partial env.tz t h.1 h.2).1

theorem bcdTime_putTime (env : Env) (t : Time) (h : TimeOK env t) (rest : Bytes) :
    Rd.bcdTime env (putTime env t ++ rest) = .ok (t, rest) := by
  have hl := putTime_length env t h
  have hr := (C22_time_round_trip_partial env.tz t h.1 h.2).2
  unfold Rd.bcdTime
  rw [if_neg (by simp [hl]), List.take_left' hl, List.drop_left' hl]
  unfold putTime
  rw [hr]

theorem bind_bcdTime {β : Type} (env : Env) (t : Time) (h : TimeOK env t) (rest : Bytes) (f : Time → Rd β) :
    (Rd.bcdTime env >>= f) (putTime env t ++ rest) = f t rest := Rd.bind_ok f (bcdTime_putTime env t h rest)

/-! ## Coordinates -/

theorem bmod_small (v : Int) (h : v.natAbs < 2 ^ 32) : v.bmod (2 ^ 64) = v := by
  rw [Int.bmod_def]
  omega

theorem micro_coord (d : Dec) (h : Coord d) : micro d = d.value := by
  obtain ⟨v, e⟩ := d
  obtain ⟨h1, h2⟩ := h
  simp only at h1 h2
  subst h1
  unfold micro Dec.intPart Dec.mul Dec.million Dec.rescale
  simp only
  rw [if_pos (by decide)]
  simp only [Int.mul_one]
  exact bmod_small v h2

theorem absU32_toNat (v : Int) (h : v.natAbs < 2 ^ 32) : (absU32 v).toNat = v.natAbs := by
  simp [absU32]; omega

/-- One coordinate of `getGeoPoint`. -/
def geoCoord (n : UInt32) (neg : Bool) : Dec :=
  (if neg then Dec.zero.sub ((Dec.ofInt n.toNat).div Dec.million) else (Dec.ofInt n.toNat).div Dec.million).truncate 6

theorem getGeoPoint_eq (lat : UInt32) (s : Bool) (lng : UInt32) (w : Bool) :
    getGeoPoint lat s lng w = (geoCoord lat s, geoCoord lng w) := rfl

theorem geoCoord_eq (n : UInt32) (neg : Bool) : geoCoord n neg = ⟨if neg then -(n.toNat : Int) else n.toNat, -6⟩ := by
  have hdiv : (Dec.ofInt n.toNat).div Dec.million = ⟨(n.toNat : Int) * 10000000000, -16⟩ := by
    unfold Dec.ofInt Dec.div Dec.million
    simp
  unfold geoCoord
  rw [hdiv]
  cases neg
  · simp [Dec.truncate, Dec.rescale]
  · have hmin : min (1 : Int) (-16) = -16 := by decide
    simp [Dec.truncate, Dec.rescale, Dec.sub, Dec.zero, hmin]

theorem geoCoord_coord (d : Dec) (bit : Bool) (h : Coord d) (hb : Hemisphere bit d) : geoCoord (absU32 (micro d)) bit = d := by
  rw [micro_coord d h, geoCoord_eq, absU32_toNat _ h.2]
  obtain ⟨v, e⟩ := d
  obtain ⟨h1, h2⟩ := h
  obtain ⟨b1, b2⟩ := hb
  simp only at *
  subst h1
  congr 1
  cases bit
  · simp at b1 ⊢; omega
  · simp at b2 ⊢; omega

end Verif
