import Verif.Spec.Standards
import Verif.Model.Sha1

/-! # Lemmas: SHA-1 as in the standard -/

namespace Verif.Standards
open Spec Spec.Fips180

/-! ## Words -/

theorem append_bits (w x y z : BitVec 8) (i : Nat) : (w ++ x ++ y ++ z).getLsbD i =
    if i < 8 then z.getLsbD i else if i < 16 then y.getLsbD (i - 8) else if i < 24 then x.getLsbD (i - 16) else w.getLsbD (i - 24) := by
  rw [BitVec.getLsbD_append, BitVec.getLsbD_append, BitVec.getLsbD_append]
  by_cases h : i < 8
  · simp [h]
  · by_cases h1 : i < 16
    · simp [h, h1, show i - 8 < 8 by omega]
    · by_cases h2 : i < 24
      · simp [h, h1, h2, show ¬ i - 8 < 8 by omega, show i - 8 - 8 = i - 16 by omega]
        intro h3
        omega
      · simp [h, h1, h2, show ¬ i - 8 < 8 by omega, show ¬ i - 8 - 8 < 8 by omega, show i - 8 - 8 - 8 = i - 24 by omega]

theorem word_bits (w x y z : UInt8) : ((w.toUInt32 <<< 24) ||| (x.toUInt32 <<< 16) ||| (y.toUInt32 <<< 8) ||| z.toUInt32).toBitVec =
    w.toBitVec ++ x.toBitVec ++ y.toBitVec ++ z.toBitVec := by
  apply BitVec.eq_of_getLsbD_eq
  intro i hi
  refine Eq.trans ?_ (append_bits _ _ _ _ i).symm
  simp [BitVec.getLsbD_or, BitVec.getLsbD_shiftLeft]
  have big : ∀ (b : BitVec 8) (j : Nat), 8 ≤ j → b.getLsbD j = false := fun b j h => BitVec.getLsbD_of_ge _ _ h
  by_cases h : i < 8
  · simp [h, hi, show i < 16 by omega, show i < 24 by omega]
  · by_cases h1 : i < 16
    · simp [h, hi, h1, show i < 24 by omega, big z.toBitVec i (by omega), show i - 8 < 32 by omega]
    · by_cases h2 : i < 24
      · simp [h, hi, h1, h2, big z.toBitVec i (by omega), big y.toBitVec (i - 8) (by omega), show i - 16 < 32 by omega]
      · simp [h, hi, h1, h2, big z.toBitVec i (by omega), big y.toBitVec (i - 8) (by omega), big x.toBitVec (i - 16) (by omega), show i - 24 < 32 by omega]

theorem ch (x y z : BitVec 32) : (x &&& y) ||| (~~~x &&& z) = (x &&& y) ^^^ (~~~x &&& z) := by
  apply BitVec.eq_of_getLsbD_eq
  intro i hi
  simp only [BitVec.getLsbD_or, BitVec.getLsbD_and, BitVec.getLsbD_xor, BitVec.getLsbD_not, hi, decide_true, Bool.true_and]
  cases x.getLsbD i <;> cases y.getLsbD i <;> cases z.getLsbD i <;> rfl

theorem maj (x y z : BitVec 32) : (x &&& y) ||| (x &&& z) ||| (y &&& z) = (x &&& y) ^^^ (x &&& z) ^^^ (y &&& z) := by
  apply BitVec.eq_of_getLsbD_eq
  intro i hi
  simp only [BitVec.getLsbD_or, BitVec.getLsbD_and, BitVec.getLsbD_xor]
  cases x.getLsbD i <;> cases y.getLsbD i <;> cases z.getLsbD i <;> rfl

theorem rotl5 (x : UInt32) : (Sha1.rotl x 5).toBitVec = x.toBitVec.rotateLeft 5 := by
  unfold Sha1.rotl
  rw [BitVec.rotateLeft_def]
  simp

theorem rotl1 (x : UInt32) : (Sha1.rotl x 1).toBitVec = x.toBitVec.rotateLeft 1 := by
  unfold Sha1.rotl
  rw [BitVec.rotateLeft_def]
  simp

theorem rotl30 (x : UInt32) : (Sha1.rotl x 30).toBitVec = x.toBitVec.rotateLeft 30 := by
  unfold Sha1.rotl
  rw [BitVec.rotateLeft_def]
  simp

/-! ## Rounds -/

/-- The state as five words. -/
def five (s : Sha1.State) : Five := (s.a.toBitVec, s.b.toBitVec, s.c.toBitVec, s.d.toBitVec, s.e.toBitVec)

theorem add_swap (a b c d e : BitVec 32) : a + b + c + d + e = a + b + c + e + d := by
  rw [BitVec.add_assoc (a + b + c), BitVec.add_comm d e, ← BitVec.add_assoc]

theorem round_bits (s : Sha1.State) (t : Nat) (w : UInt32) : five (Sha1.round s t w) =
    (s.a.toBitVec.rotateLeft 5 + f t s.b.toBitVec s.c.toBitVec s.d.toBitVec + s.e.toBitVec + K t + w.toBitVec, s.a.toBitVec, s.b.toBitVec.rotateLeft 30,
      s.c.toBitVec, s.d.toBitVec) := by
  unfold five
  rw [← rotl30, ← rotl5]
  refine congrArg (·, _) ?_
  unfold Sha1.round f K
  split
  · simp [ch]; exact add_swap ..
  · split
    · simp; exact add_swap ..
    · split
      · simp [maj]; exact add_swap ..
      · simp; exact add_swap ..

theorem rounds_append (ws vs : List UInt32) : ∀ t s, Sha1.rounds t (ws ++ vs) s = Sha1.rounds (t + ws.length) vs (Sha1.rounds t ws s) := by
  induction ws with
  | nil => intro t s; rfl
  | cons w ws ih =>
    intro t s
    rw [List.cons_append, Sha1.rounds, ih, Sha1.rounds, List.length_cons]
    congr 1
    omega

theorem rounds_bits (m : Nat → Word) (s : Sha1.State) : ∀ n (ws : List UInt32), ws.map UInt32.toBitVec = (List.range n).map (W m) →
    five (Sha1.rounds 0 ws s) = rounds m (five s) n := by
  intro n
  induction n with
  | zero =>
    intro ws h
    have : ws = [] := by simpa using h
    subst this
    rfl
  | succ n ih =>
    intro ws h
    rw [List.range_succ, List.map_append] at h
    obtain ⟨ws', vs, rfl, h1, h2⟩ := List.map_eq_append_iff.mp h
    have hlen : ws'.length = n := by simpa using congrArg List.length h1
    cases vs with
    | nil => cases h2
    | cons v vs =>
      simp only [List.map_cons, List.map_nil, List.cons.injEq, List.map_eq_nil_iff] at h2
      obtain ⟨hv, rfl⟩ := h2
      rw [rounds_append, Sha1.rounds, Sha1.rounds, round_bits, hlen, Nat.zero_add, rounds, ← ih ws' h1, hv]
      rfl

/-! ## The schedule -/

theorem getD_bits (ws : List UInt32) (j : Nat) : (ws.getD j 0).toBitVec = (ws.map UInt32.toBitVec).getD j 0 := by
  rw [List.getD_eq_getElem?_getD, List.getD_eq_getElem?_getD, List.getElem?_map]
  cases ws[j]? <;> rfl

theorem reverse_range_getD (m : Nat → Word) {n j : Nat} (h : j < n) : ((List.range n).map (W m)).reverse.getD j 0 = W m (n - 1 - j) := by
  rw [List.getD_eq_getElem?_getD, List.getElem?_reverse (by simpa using h)]
  simp [List.getElem?_range (show n - 1 - j < n by omega)]

theorem extend_bits (m : Nat → Word) : ∀ n k (ws : List UInt32), 16 ≤ k → ws.map UInt32.toBitVec = ((List.range k).map (W m)).reverse →
    (Sha1.extend n ws).map UInt32.toBitVec = ((List.range (k + n)).map (W m)).reverse := by
  intro n
  induction n with
  | zero => intro k ws _ h; exact h
  | succ n ih =>
    intro k ws hk h
    rw [Sha1.extend, show k + (n + 1) = k + 1 + n by omega]
    apply ih (k + 1) _ (by omega)
    rw [List.map_cons, h, List.range_succ, List.map_append, List.reverse_append, rotl1]
    simp only [UInt32.toBitVec_xor, getD_bits, h]
    rw [reverse_range_getD m (by omega), reverse_range_getD m (by omega), reverse_range_getD m (by omega), reverse_range_getD m (by omega)]
    show _ = W m k :: _
    rw [W.eq_def m k, if_neg (by omega)]
    rw [show k - 1 - 2 = k - 3 by omega, show k - 1 - 7 = k - 8 by omega, show k - 1 - 13 = k - 14 by omega, show k - 1 - 15 = k - 16 by omega]
    rfl

theorem W_small (m : Nat → Word) {k : Nat} (h : k ≤ 16) : (List.range k).map (W m) = (List.range k).map m := by
  apply List.map_congr_left
  intro t ht
  rw [W.eq_def, if_pos (by have := List.mem_range.mp ht; omega)]

/-- Word `t` of some bytes. -/
def word (b : Bytes) (t : Nat) : Word :=
  (b.getD (4 * t) 0).toBitVec ++ (b.getD (4 * t + 1) 0).toBitVec ++ (b.getD (4 * t + 2) 0).toBitVec ++ (b.getD (4 * t + 3) 0).toBitVec

theorem words_bits : ∀ n (b : Bytes), b.length = 4 * n → (Sha1.words b).map UInt32.toBitVec = (List.range n).map (word b) := by
  intro n
  induction n with
  | zero => intro b h; rw [List.length_eq_zero_iff.mp h]; rfl
  | succ n ih =>
    intro b h
    match b, h with
    | w :: x :: y :: z :: rest, h =>
      rw [Sha1.words, List.map_cons, word_bits, ih rest (by simp only [List.length_cons] at h; omega), List.range_succ_eq_map, List.map_cons, List.map_map]
      rfl

theorem block_bits (p : Bytes) (i : Nat) (s : Sha1.State) (h : 64 * i + 64 ≤ p.length) (hs : five s = H p i) :
    five (Sha1.block s ((p.drop (64 * i)).take 64)) = H p (i + 1) := by
  have hw : (Sha1.words ((p.drop (64 * i)).take 64)).map UInt32.toBitVec = (List.range 16).map (M p i) := by
    rw [words_bits 16 _ (by rw [List.length_take, List.length_drop]; omega)]
    apply List.map_congr_left
    intro t ht
    have ht := List.mem_range.mp ht
    have hg : ∀ j, j < 4 → ((p.drop (64 * i)).take 64).getD (4 * t + j) 0 = p.getD (64 * i + 4 * t + j) 0 := by
      intro j hj
      rw [List.getD_eq_getElem?_getD, List.getD_eq_getElem?_getD, List.getElem?_take_of_lt (by omega), List.getElem?_drop, Nat.add_assoc]
    unfold word M
    dsimp only
    rw [← hg 0 (by omega), ← hg 1 (by omega), ← hg 2 (by omega), ← hg 3 (by omega)]
    rfl
  have he := extend_bits (M p i) 64 16 (Sha1.words ((p.drop (64 * i)).take 64)).reverse (Nat.le_refl _)
    (by rw [List.map_reverse, hw, W_small _ (Nat.le_refl _)])
  have hr := rounds_bits (M p i) s 80 (Sha1.extend 64 (Sha1.words ((p.drop (64 * i)).take 64)).reverse).reverse
    (by rw [List.map_reverse, he, List.reverse_reverse])
  rw [H, ← hs, ← hr]
  unfold Sha1.block
  generalize Sha1.rounds _ _ _ = r
  simp only [plus, five, UInt32.toBitVec_add, BitVec.add_comm]

theorem blocks_bits (p : Bytes) (k : Nat) (hp : p.length = 64 * k) : ∀ n i (s : Sha1.State), i ≤ k → k - i ≤ n → five s = H p i →
    five (Sha1.blocks n s (p.drop (64 * i))) = H p k := by
  intro n
  induction n with
  | zero => intro i s h1 h2 hs; rw [show k = i by omega]; exact hs
  | succ n ih =>
    intro i s h1 h2 hs
    rw [Sha1.blocks]
    split
    · rename_i he
      have := congrArg List.length (List.isEmpty_iff.mp he)
      rw [List.length_drop, List.length_nil] at this
      rw [show k = i by omega]
      exact hs
    · rename_i he
      have hne : p.drop (64 * i) ≠ [] := by simpa using he
      have hlen := List.length_pos_iff.mpr hne
      rw [List.length_drop] at hlen
      rw [List.drop_drop, show 64 * i + 64 = 64 * (i + 1) by omega]
      exact ih (i + 1) _ (by omega) (by omega) (block_bits p i s (by omega) hs)

/-! ## The hash -/

theorem bytes_word (x : UInt32) : Sha1.bytes x = i2osp x.toBitVec.toNat 4 := by
  have h : ∀ k : Nat, k < 32 → (x >>> UInt32.ofNat k).toUInt8 = UInt8.ofNat (x.toNat / 2 ^ k % 256) := by
    intro k hk
    apply UInt8.toNat_inj.mp
    simp [Nat.shiftRight_eq_div_pow, Nat.mod_eq_of_lt (show k < 4294967296 by omega), Nat.mod_eq_of_lt hk]
  have h0 := h 0 (by omega)
  have h8 := h 8 (by omega)
  have h16 := h 16 (by omega)
  have h24 := h 24 (by omega)
  have hz : (x >>> UInt32.ofNat 0).toUInt8 = x.toUInt8 := by simp
  rw [hz] at h0
  show [(x >>> UInt32.ofNat 24).toUInt8, (x >>> UInt32.ofNat 16).toUInt8, (x >>> UInt32.ofNat 8).toUInt8, x.toUInt8] = _
  rw [h24, h16, h8, h0]
  rfl

theorem pad_padded (msg : Bytes) : Padded msg (Sha1.pad msg) := by
  refine ⟨(119 - msg.length % 64) % 64, by omega, ?_, ?_⟩
  · unfold Sha1.pad i2osp
    rw [List.append_assoc msg [0x80], List.append_assoc msg, List.append_assoc msg]
    congr 1
    rw [List.singleton_append, List.cons_append, List.cons_append]
    congr 2
    apply List.map_congr_left
    intro i _
    apply UInt8.toNat_inj.mp
    simp [Nat.mul_comm]
  · simp [Sha1.pad]
    omega

theorem sum_standard (msg : Bytes) : Spec.Fips180.Sha1 msg (Sha1.sum msg) := by
  refine ⟨Sha1.pad msg, pad_padded msg, ?_⟩
  obtain ⟨z, hz, hp, hm⟩ := pad_padded msg
  have hl : (Sha1.pad msg).length = msg.length + 1 + z + 8 := by
    rw [hp]
    simp [i2osp]
    omega
  have hb := blocks_bits (Sha1.pad msg) ((Sha1.pad msg).length / 64) (by omega) (msg.length + 2) 0 Sha1.init (Nat.zero_le _) (by omega) rfl
  rw [Nat.mul_zero, List.drop_zero] at hb
  refine ⟨_, _, _, _, _, hb.symm, ?_⟩
  unfold Sha1.sum
  simp only [bytes_word, List.flatMap_cons, List.flatMap_nil, List.append_nil, List.append_assoc]

theorem padded_unique {msg p q : Bytes} (hp : Padded msg p) (hq : Padded msg q) : p = q := by
  obtain ⟨y, h1, rfl, h2⟩ := hp
  obtain ⟨z, h3, rfl, h4⟩ := hq
  have : y = z := by
    simp [i2osp] at h2 h4
    omega
  rw [this]

theorem sum_unique {msg h : Bytes} (hh : Spec.Fips180.Sha1 msg h) : h = Sha1.sum msg := by
  obtain ⟨p, hp, a, b, c, d, e, h1, h2⟩ := hh
  obtain ⟨q, hq, a', b', c', d', e', h3, h4⟩ := sum_standard msg
  cases padded_unique hp hq
  rw [h1] at h3
  cases h3
  rw [h2, h4]

end Verif.Standards
