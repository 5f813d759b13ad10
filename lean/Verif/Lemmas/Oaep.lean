import Verif.Spec.Oaep
import Verif.Lemmas.RoundTrip1
import Verif.Lemmas.Layout
import Mathlib.FieldTheory.Finite.Basic
import Mathlib.NumberTheory.LucasPrimality

/-! # Lemmas on RSA-OAEP -/

namespace Verif
namespace Oaep
open Spec

/-! ## Exponentiation -/

theorem powModAux_eq (n : Nat) : ∀ fuel b e, e < 2 ^ fuel → powModAux n fuel b e = b ^ e % n := by
  intro fuel
  induction fuel with
  | zero =>
    intro b e h
    have : e = 0 := by simpa using h
    subst this
    simp [powModAux]
  | succ fuel ih =>
    intro b e h
    have h2 : e / 2 < 2 ^ fuel := by rw [Nat.pow_succ] at h; omega
    unfold powModAux
    rw [ih _ _ h2]
    have key : (b * b % n) ^ (e / 2) % n = b ^ (2 * (e / 2)) % n := by
      rw [← Nat.pow_mod, Nat.pow_mul, Nat.pow_two]
    split
    · rename_i h0
      simp [h0]
    · split
      · rename_i h1
        rw [key, Nat.mul_mod_mod, ← Nat.pow_succ', show (2 * (e / 2)).succ = e by omega]
      · rw [key, show 2 * (e / 2) = e by omega]

theorem powMod_eq (n b e : Nat) : powMod n b e = b ^ e % n := powModAux_eq n _ b e Nat.lt_log2_self

theorem pow_prime {p : Nat} (hp : p.Prime) (m x : Nat) (h : x % (p - 1) = 1 % (p - 1)) (hx : 0 < x) : m ^ x ≡ m [MOD p] := by
  haveI := Fact.mk hp
  rw [← ZMod.natCast_eq_natCast_iff]
  push_cast
  by_cases h0 : (m : ZMod p) = 0
  · rw [h0, zero_pow (by omega)]
  · have h1 := ZMod.pow_card_sub_one_eq_one h0
    obtain ⟨t, ht⟩ : ∃ t, x = t * (p - 1) + 1 := by
      have h2 := hp.two_le
      have h3 := Nat.div_add_mod x (p - 1)
      by_cases h4 : p - 1 = 1
      · exact ⟨x - 1, by rw [h4]; omega⟩
      · rw [h, Nat.mod_eq_of_lt (by omega : 1 < p - 1)] at h3
        exact ⟨x / (p - 1), by rw [Nat.mul_comm]; omega⟩
    rw [ht, pow_succ, mul_comm t, pow_mul, h1, one_pow, one_mul]

theorem coprime_foldr {p : Nat} (hp : p.Prime) : ∀ (l : List Nat), (∀ q ∈ l, q.Prime) → p ∉ l → Nat.Coprime p (l.foldr (· * ·) 1)
  | [], _, _ => by simp
  | q :: l, h1, h2 => by
    rw [List.foldr_cons]
    have hq := h1 q (by simp)
    have hpq : p ≠ q := fun h => h2 (by simp [h])
    exact Nat.Coprime.mul_right ((Nat.coprime_primes hp hq).2 hpq) (coprime_foldr hp l (fun x hx => h1 x (by simp [hx])) fun h => h2 (by simp [h]))

theorem pow_modulus (m x : Nat) (hx : 0 < x) : ∀ (l : List Nat), (∀ p ∈ l, p.Prime) → l.Nodup → (∀ p ∈ l, x % (p - 1) = 1 % (p - 1)) →
    m ^ x ≡ m [MOD l.foldr (· * ·) 1]
  | [], _, _, _ => by simp [Nat.modEq_one]
  | p :: l, h1, h2, h3 => by
    rw [List.foldr_cons]
    rw [List.nodup_cons] at h2
    exact (Nat.modEq_and_modEq_iff_modEq_mul (coprime_foldr (h1 p (by simp)) l (fun x hx => h1 x (by simp [hx])) h2.1)).1
      ⟨pow_prime (h1 p (by simp)) m x (h3 p (by simp)) hx,
        pow_modulus m x hx l (fun x hx => h1 x (by simp [hx])) h2.2 fun x hx => h3 x (by simp [hx])⟩

/-- Decryption undoes encryption, before the padding. -/
theorem pow_inverse {k : PrivKey} {primes : List Nat} (h : RsaKey k primes) {n : Nat} (hn : k.pub.n = some n) {m : Nat} (hm : m < n) :
    powMod n (powMod n m k.pub.e.toNat) k.d = m := by
  have hn' : n = primes.foldr (· * ·) 1 := by have := h.modulus; rw [hn] at this; exact Option.some.inj this
  have he : 0 < k.pub.e.toNat := by have := h.exponent; omega
  rw [powMod_eq, powMod_eq, ← Nat.pow_mod, ← Nat.pow_mul]
  have := pow_modulus m (k.pub.e.toNat * k.d) (Nat.mul_pos he h.positive) primes h.prime h.different h.inverse
  rw [← hn'] at this
  rw [this, Nat.mod_eq_of_lt hm]

/-! ## Masks -/

theorem sha1_length (b : Bytes) : (Sha1.sum b).length = 20 := by simp [Sha1.sum, Sha1.bytes]

theorem zipWith_xor_self : ∀ (a h : Bytes), a.length ≤ h.length → List.zipWith (· ^^^ ·) (List.zipWith (· ^^^ ·) a h) h = a
  | [], _, _ => by simp
  | a :: as, [], hl => by simp at hl
  | a :: as, h :: hs, hl => by
    simp only [List.zipWith_cons_cons]
    rw [zipWith_xor_self as hs (by simpa using hl)]
    congr 1
    rw [UInt8.xor_assoc, UInt8.xor_self, UInt8.xor_zero]

theorem maskAux_length (seed : Bytes) : ∀ fuel c (out : Bytes), out.length ≤ fuel → (maskAux seed fuel c out).length = out.length
  | 0, _, out, _ => rfl
  | fuel + 1, c, out, h => by
    unfold maskAux
    split
    · rename_i he
      rw [List.isEmpty_iff] at he
      simp [he]
    · rename_i he
      have h1 : out.length ≠ 0 := by
        intro h0
        rw [List.length_eq_zero_iff] at h0
        exact he (by simp [h0])
      rw [List.length_append, List.length_zipWith, List.length_take, sha1_length, maskAux_length seed fuel _ _ (by rw [List.length_drop]; omega),
        List.length_drop]
      omega

theorem maskAux_twice (seed : Bytes) : ∀ fuel c (out : Bytes), out.length ≤ fuel → maskAux seed fuel c (maskAux seed fuel c out) = out
  | 0, _, out, _ => rfl
  | fuel + 1, c, out, h => by
    by_cases he : out = []
    · subst he
      rfl
    · have h1 : out.length ≠ 0 := by simpa using he
      have hstep : ∀ o : Bytes, o ≠ [] → maskAux seed (fuel + 1) c o =
          List.zipWith (· ^^^ ·) (o.take 20) (Sha1.sum (seed ++ put32 (UInt32.ofNat c))) ++ maskAux seed fuel (c + 1) (o.drop 20) := by
        intro o ho
        rw [maskAux, if_neg (by simpa using ho)]
      have hlen := maskAux_length seed (fuel + 1) c out h
      have hne : maskAux seed (fuel + 1) c out ≠ [] := by
        intro h0
        rw [h0] at hlen
        exact h1 hlen.symm
      rw [hstep _ hne]
      have hz : (List.zipWith (· ^^^ ·) (out.take 20) (Sha1.sum (seed ++ put32 (UInt32.ofNat c)))).length = min 20 out.length := by
        rw [List.length_zipWith, List.length_take, sha1_length]
        omega
      have hd : (out.drop 20).length ≤ fuel := by rw [List.length_drop]; omega
      have ht : (maskAux seed (fuel + 1) c out).take 20 = List.zipWith (· ^^^ ·) (out.take 20) (Sha1.sum (seed ++ put32 (UInt32.ofNat c))) ∧
          (maskAux seed (fuel + 1) c out).drop 20 = maskAux seed fuel (c + 1) (out.drop 20) := by
        rw [hstep _ he]
        by_cases h20 : 20 ≤ out.length
        · rw [Nat.min_eq_left h20] at hz
          exact ⟨by rw [List.take_append_of_le_length (by omega), List.take_of_length_le (by omega)],
            List.drop_left' hz⟩
        · have hnil : maskAux seed fuel (c + 1) (out.drop 20) = [] := by
            rw [← List.length_eq_zero_iff, maskAux_length _ _ _ _ hd, List.length_drop]
            omega
          rw [hnil, List.append_nil]
          exact ⟨List.take_of_length_le (by omega), List.drop_of_length_le (by omega)⟩
      rw [ht.1, ht.2, maskAux_twice seed fuel _ _ hd, zipWith_xor_self _ _ (by rw [sha1_length, List.length_take]; omega), List.take_append_drop]

theorem mask_length (seed out : Bytes) : (mask seed out).length = out.length := maskAux_length _ _ _ _ (Nat.le_refl _)

theorem mask_twice (seed out : Bytes) : mask seed (mask seed out) = out := by
  have h : mask seed (mask seed out) = maskAux seed out.length 0 (mask seed out) := by
    unfold mask
    rw [maskAux_length _ _ _ _ (Nat.le_refl _)]
  rw [h]
  exact maskAux_twice _ _ _ _ (Nat.le_refl _)

/-! ## Packing -/

theorem pack_length {size : Nat} {seed msg : Bytes} (hs : seed.length = 20) (hm : msg.length + 42 ≤ size) : (pack size seed msg).length = size := by
  unfold pack
  simp only [List.length_cons, List.length_append, mask_length, hs, sha1_length, List.length_replicate]
  omega

theorem afterOne_zeros (k : Nat) (msg : Bytes) : afterOne (List.replicate k 0 ++ 1 :: msg) = some msg := by
  induction k with
  | zero => simp [afterOne]
  | succ k ih => rw [List.replicate_succ, List.cons_append, afterOne, if_pos rfl, ih]

theorem unpack_pack {size : Nat} {seed msg : Bytes} (hs : seed.length = 20) : unpack (pack size seed msg) = some msg := by
  have hdb : ∀ (m d : Bytes), m.length = 20 → (0 :: m ++ d).drop 21 = d ∧ ((0 :: m ++ d).drop 1).take 20 = m := by
    intro m d hm
    constructor
    · rw [show 21 = (0 :: m).length by simp [hm], List.drop_left]
    · rw [List.cons_append, List.drop_succ_cons, List.drop_zero, ← hm, List.take_left]
  unfold pack unpack
  simp only []
  obtain ⟨h1, h2⟩ := hdb (mask (mask seed (Sha1.sum [] ++ List.replicate (size - msg.length - 42) 0 ++ 1 :: msg)) seed)
    (mask seed (Sha1.sum [] ++ List.replicate (size - msg.length - 42) 0 ++ 1 :: msg)) (by rw [mask_length, hs])
  rw [h1, h2, mask_twice, mask_twice]
  have h3 : (Sha1.sum [] ++ List.replicate (size - msg.length - 42) 0 ++ 1 :: msg).take 20 = Sha1.sum [] := by
    rw [List.append_assoc, ← sha1_length [], List.take_left]
  have h4 : (Sha1.sum [] ++ List.replicate (size - msg.length - 42) 0 ++ 1 :: msg).drop 20 = List.replicate (size - msg.length - 42) 0 ++ 1 :: msg := by
    rw [List.append_assoc, ← sha1_length [], List.drop_left]
  rw [h3, h4, afterOne_zeros, if_pos ⟨rfl, rfl⟩]

/-! ## Numbers and bytes -/

theorem bytesNat_lt (b : Bytes) : bytesNat b < 256 ^ b.length := by
  induction b using List.reverseRecOn with
  | nil => simp [bytesNat]
  | append_singleton b x ih =>
    rw [bytesNat_append, List.length_append, List.length_singleton, Nat.pow_succ]
    have := x.toNat_lt
    omega

theorem bytesNat_zeros (k : Nat) (b : Bytes) : bytesNat (List.replicate k 0 ++ b) = bytesNat b := by
  induction k with
  | zero => simp
  | succ k ih =>
    rw [List.replicate_succ, List.cons_append]
    rw [← ih]
    simp [bytesNat]

theorem leftPad_spec {x size : Nat} (h : x < 256 ^ size) : (leftPad (natBytes x) size).length = size ∧ bytesNat (leftPad (natBytes x) size) = x := by
  obtain ⟨h1, h2, h3⟩ := natBytesAux_spec x x (Nat.le_refl x)
  have hl : (natBytes x).length ≤ size := by
    by_cases hx : x = 0
    · subst hx
      simp [natBytes, natBytesAux]
    · have h4 : 256 ^ (natBytes x).length ≤ x * 256 := h3 hx
      have h5 : 256 ^ (natBytes x).length < 256 ^ (size + 1) := by rw [Nat.pow_succ]; omega
      have := (Nat.pow_lt_pow_iff_right (by decide : 1 < 256)).1 h5
      omega
  unfold leftPad
  exact ⟨by rw [List.length_append, List.length_replicate]; omega, by rw [bytesNat_zeros]; exact h1⟩

theorem leftPad_bytesNat {b : Bytes} {size : Nat} (h : b.length = size) : leftPad (natBytes (bytesNat b)) size = b := by
  subst h
  obtain ⟨h1, h2⟩ := leftPad_spec (bytesNat_lt b)
  have := beBytes_bytesNat (leftPad (natBytes (bytesNat b)) b.length)
  rw [h1, h2, beBytes_bytesNat] at this
  exact this.symm

theorem keySize_bounds {n : Nat} (h : 0 < keySize n) : 256 ^ (keySize n - 1) ≤ n ∧ n < 256 ^ keySize n := by
  unfold keySize at h ⊢
  split
  · rename_i h0
    simp [h0] at h
  · rename_i h0
    have h1 := Nat.log2_self_le h0
    have h2 := @Nat.lt_log2_self n
    rw [show (256 : Nat) = 2 ^ 8 by decide, ← Nat.pow_mul, ← Nat.pow_mul]
    generalize Nat.log2 n = l at h1 h2
    exact ⟨Nat.le_trans (Nat.pow_le_pow_right (by decide) (by omega)) h1, Nat.lt_of_lt_of_le h2 (Nat.pow_le_pow_right (by decide) (by omega))⟩

/-! ## One block -/

theorem encrypt_decrypt_block {k : PrivKey} {primes : List Nat} (h : RsaKey k primes) {n : Nat} (hn : k.pub.n = some n) {seed msg : Bytes}
    (hs : seed.length = 20) (hm : msg.length + 42 ≤ keySize n) : ∃ x, encrypt k.pub seed msg = some x ∧ x.length = keySize n ∧ decrypt k x = some msg := by
  have he : exponentOK k.pub.e = true := by
    have := h.exponent
    simp only [exponentOK, Bool.and_eq_true, decide_eq_true_eq]
    exact this
  obtain ⟨b1, b2⟩ := keySize_bounds (n := n) (by omega)
  have hp : (pack (keySize n) seed msg).length = keySize n := pack_length hs hm
  have hlt : bytesNat (pack (keySize n) seed msg) < n := by
    refine Nat.lt_of_lt_of_le ?_ b1
    have hc : ∃ r, pack (keySize n) seed msg = 0 :: r := ⟨_, by unfold pack; rfl⟩
    obtain ⟨r, hr⟩ := hc
    rw [hr] at hp ⊢
    have := bytesNat_zeros 1 r
    rw [List.replicate_one, List.singleton_append] at this
    rw [this]
    have hl : r.length = keySize n - 1 := by rw [List.length_cons] at hp; omega
    rw [← hl]
    exact bytesNat_lt r
  have hc : powMod n (bytesNat (pack (keySize n) seed msg)) k.pub.e.toNat < n := by
    rw [powMod_eq]
    exact Nat.mod_lt _ (by omega)
  obtain ⟨l1, l2⟩ := leftPad_spec (Nat.lt_trans hc b2)
  refine ⟨_, ?_, l1, ?_⟩
  · rw [encrypt, hn]
    simp only []
    rw [if_neg (by simp [he]), if_neg (by omega)]
  · rw [decrypt, hn]
    simp only []
    rw [if_neg (by simp [he]), if_neg (by omega), l2, if_neg (by omega), pow_inverse h hn hlt, leftPad_bytesNat hp, unpack_pack hs]

theorem pow_inverse' {k : PrivKey} {primes : List Nat} (h : RsaKey k primes) {n : Nat} (hn : k.pub.n = some n) {c : Nat} (hc : c < n) :
    powMod n (powMod n c k.d) k.pub.e.toNat = c := by
  have h1 := pow_inverse h hn hc
  rw [powMod_eq, powMod_eq, ← Nat.pow_mod, ← Nat.pow_mul] at h1 ⊢
  rw [Nat.mul_comm, h1]

theorem afterOne_some : ∀ (b msg : Bytes), afterOne b = some msg → ∃ j, b = List.replicate j 0 ++ 1 :: msg
  | [], _, h => by simp [afterOne] at h
  | x :: b, msg, h => by
    unfold afterOne at h
    split at h
    · rename_i hx
      obtain ⟨j, hj⟩ := afterOne_some b msg h
      exact ⟨j + 1, by rw [hj, hx, List.replicate_succ]; rfl⟩
    · split at h
      · rename_i _ hx
        cases h
        exact ⟨0, by rw [hx]; rfl⟩
      · cases h

theorem pack_unpack {size : Nat} {em msg : Bytes} (hl : em.length = size) (hs : 42 ≤ size) (h : unpack em = some msg) :
    ∃ seed, seed.length = 20 ∧ msg.length + 42 ≤ size ∧ em = pack size seed msg := by
  unfold unpack at h
  simp only [] at h
  split at h
  · rename_i hc
    obtain ⟨h0, h1⟩ := hc
    obtain ⟨j, hj⟩ := afterOne_some _ _ h
    have hms : ((em.drop 1).take 20).length = 20 := by rw [List.length_take, List.length_drop]; omega
    refine ⟨mask (em.drop 21) ((em.drop 1).take 20), by rw [mask_length, hms], ?_⟩
    generalize hdb : mask (mask (em.drop 21) ((em.drop 1).take 20)) (em.drop 21) = db at h1 hj
    have hdbl : db.length = size - 21 := by rw [← hdb, mask_length, List.length_drop, hl]
    have hd : db = Sha1.sum [] ++ List.replicate j 0 ++ 1 :: msg := by
      rw [List.append_assoc, ← hj, ← h1, List.take_append_drop]
    have hj2 : j + msg.length + 42 = size := by
      rw [hd] at hdbl
      simp only [List.length_append, sha1_length, List.length_replicate, List.length_cons] at hdbl
      omega
    refine ⟨by omega, ?_⟩
    unfold pack
    rw [show size - msg.length - 42 = j by omega, ← hd, ← hdb]
    simp only []
    rw [mask_twice, mask_twice]
    match em, hl with
    | [], hl => simp at hl; omega
    | x :: em, hl =>
      have hx : x = 0 := by simpa using h0
      subst hx
      rw [List.cons_append]
      congr 1
      rw [show (0 :: em : Bytes).drop 21 = em.drop 20 from rfl, show (0 :: em : Bytes).drop 1 = em from rfl, List.take_append_drop]
  · cases h

/-- A block that decrypts is an encryption. -/
theorem decrypt_encrypts {k : PrivKey} {primes : List Nat} (h : RsaKey k primes) {n : Nat} (hn : k.pub.n = some n) {c msg : Bytes}
    (hl : c.length = keySize n) (hne : bytesNat c ≠ n) (hd : decrypt k c = some msg) : ∃ seed, seed.length = 20 ∧ encrypt k.pub seed msg = some c := by
  have he : exponentOK k.pub.e = true := by
    have := h.exponent
    simp only [exponentOK, Bool.and_eq_true, decide_eq_true_eq]
    exact this
  rw [decrypt, hn] at hd
  simp only [] at hd
  rw [if_neg (by simp [he])] at hd
  split at hd
  · cases hd
  · rename_i hs
    split at hd
    · cases hd
    · rename_i hlt
      have hc : bytesNat c < n := by omega
      obtain ⟨b1, b2⟩ := keySize_bounds (n := n) (by omega)
      have hm : powMod n (bytesNat c) k.d < 256 ^ keySize n := by
        rw [powMod_eq]
        exact Nat.lt_trans (Nat.mod_lt _ (by omega)) b2
      obtain ⟨l1, l2⟩ := leftPad_spec hm
      obtain ⟨seed, s1, s2, s3⟩ := pack_unpack l1 (by omega) hd
      refine ⟨seed, s1, ?_⟩
      rw [encrypt, hn]
      simp only []
      rw [if_neg (by simp [he]), if_neg (by omega), ← s3, l2, pow_inverse' h hn hc, leftPad_bytesNat hl]

/-! ## Primes -/

theorem natCast_pow_eq_one {p a x : Nat} (hp : 1 < p) : ((a : ZMod p) ^ x = 1) ↔ powMod p a x = 1 := by
  rw [powMod_eq, ← Nat.cast_pow, ← Nat.cast_one, ZMod.natCast_eq_natCast_iff, Nat.ModEq, Nat.mod_eq_of_lt hp]

/-- Lucas' test: a number is prime if the powers of some `a` show that it has order `p - 1`. -/
theorem prime_of_powMod (p a : Nat) (fs : List Nat) (hp : 1 < p) (h1 : powMod p a (p - 1) = 1) (h2 : ∀ q, q.Prime → q ∣ p - 1 → q ∈ fs)
    (h3 : ∀ q ∈ fs, powMod p a ((p - 1) / q) ≠ 1) : p.Prime :=
  lucas_primality p (a : ZMod p) ((natCast_pow_eq_one hp).2 h1) fun q hq hd => mt (natCast_pow_eq_one hp).1 (h3 q (h2 q hq hd))

end Oaep
end Verif
