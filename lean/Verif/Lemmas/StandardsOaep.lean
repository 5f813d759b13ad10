import Verif.Lemmas.Standards
import Verif.Lemmas.Oaep
import Verif.Lemmas.Rsa
import Verif.Lemmas.Encode

/-! # Lemmas: RSA-OAEP as in the standard -/

namespace Verif.Standards
open Spec Spec.Rfc8017 Oaep

/-! ## Numbers -/

theorem os2ip_append (b : Bytes) (x : UInt8) : os2ip (b ++ [x]) = os2ip b * 256 + x.toNat := by
  induction b with
  | nil => simp [os2ip]
  | cons y b ih =>
    rw [List.cons_append, os2ip, ih, os2ip, List.length_append, List.length_singleton, Nat.pow_succ, Nat.add_mul, Nat.mul_assoc]
    omega

theorem bytesNat_os2ip (b : Bytes) : bytesNat b = os2ip b := by
  induction b using List.reverseRecOn with
  | nil => rfl
  | append_singleton b x ih =>
    rw [os2ip_append, ← ih]
    simp [bytesNat]

theorem i2osp_length (x len : Nat) : (i2osp x len).length = len := by simp [i2osp]

theorem beBytes_i2osp : ∀ (len x : Nat), beBytes len x = i2osp x len := by
  intro len
  induction len with
  | zero => intro x; rfl
  | succ len ih =>
    intro x
    rw [beBytes, ih]
    unfold i2osp
    rw [List.range_succ, List.map_append]
    congr 1
    · apply List.map_congr_left
      intro i hi
      have hi := List.mem_range.mp hi
      rw [Nat.div_div_eq_div_mul, ← Nat.pow_succ', show (len - 1 - i).succ = len + 1 - 1 - i by omega]
    · simp

theorem leftPad_i2osp {x size : Nat} (h : x < 256 ^ size) : leftPad (natBytes x) size = i2osp x size := by
  obtain ⟨h1, h2⟩ := leftPad_spec h
  have := beBytes_bytesNat (leftPad (natBytes x) size)
  rw [h1, h2, beBytes_i2osp] at this
  exact this.symm

theorem put32_i2osp (i : Nat) : put32 (UInt32.ofNat i) = i2osp i 4 := by
  have h : ∀ a b : Nat, a % 256 = b % 256 → UInt8.ofNat a = UInt8.ofNat b := by
    intro a b h
    apply UInt8.toNat_inj.mp
    simpa using h
  show [_, _, _, _] = [UInt8.ofNat (i / 256 ^ 3 % 256), UInt8.ofNat (i / 256 ^ 2 % 256), UInt8.ofNat (i / 256 ^ 1 % 256), UInt8.ofNat (i / 256 ^ 0 % 256)]
  simp only [UInt32.toNat_ofNat']
  rw [h (i % 2 ^ 32 / 16777216) (i / 256 ^ 3 % 256) (by omega), h (i % 2 ^ 32 / 65536) (i / 256 ^ 2 % 256) (by omega),
    h (i % 2 ^ 32 / 256) (i / 256 ^ 1 % 256) (by omega), h (i % 2 ^ 32) (i / 256 ^ 0 % 256) (by omega)]

/-! ## The mask -/

/-- The hashes from number `c` on. -/
def stream (seed : Bytes) (c n : Nat) : Bytes := (List.range n).flatMap fun i => Sha1.sum (seed ++ i2osp (c + i) 4)

theorem stream_succ (seed : Bytes) (c n : Nat) : stream seed c (n + 1) = Sha1.sum (seed ++ i2osp c 4) ++ stream seed (c + 1) n := by
  unfold stream
  rw [List.range_succ_eq_map, List.flatMap_cons, List.flatMap_map]
  congr 1
  congr 1
  funext i
  rw [show c + Nat.succ i = c + 1 + i by omega]

theorem zipWith_long {α : Type} (f : α → α → α) : ∀ (a h s : List α), a.length ≤ h.length → List.zipWith f a (h ++ s) = List.zipWith f a h
  | [], _, _, _ => by simp
  | a :: as, [], _, hl => by simp at hl
  | a :: as, h :: hs, s, hl => by
    simp only [List.cons_append, List.zipWith_cons_cons]
    rw [zipWith_long f as hs s (by simpa using hl)]

theorem zipWith_take {α : Type} (f : α → α → α) : ∀ (a h : List α), List.zipWith f a (h.take a.length) = List.zipWith f a h
  | [], _ => by simp
  | a :: as, [] => by simp
  | a :: as, h :: hs => by simp only [List.length_cons, List.take_succ_cons, List.zipWith_cons_cons, zipWith_take f as hs]

theorem maskAux_stream (seed : Bytes) : ∀ fuel c n (out : Bytes), out.length ≤ fuel → out.length ≤ 20 * n →
    maskAux seed fuel c out = xor out (stream seed c n) := by
  intro fuel
  induction fuel with
  | zero =>
    intro c n out h _
    rw [List.length_eq_zero_iff.mp (Nat.le_zero.mp h)]
    rfl
  | succ fuel ih =>
    intro c n out h hn
    rw [maskAux]
    split
    · rename_i he
      rw [List.isEmpty_iff.mp he]
      rfl
    · rename_i he
      have h0 : 0 < out.length := List.length_pos_iff.mpr (by simpa using he)
      cases n with
      | zero => omega
      | succ n =>
        rw [stream_succ, ih (c + 1) n (out.drop 20) (by rw [List.length_drop]; omega) (by rw [List.length_drop]; omega), put32_i2osp]
        unfold Rfc8017.xor
        by_cases h20 : 20 ≤ out.length
        · conv => rhs; rw [← List.take_append_drop 20 out]
          rw [List.zipWith_append (by rw [List.length_take, sha1_length]; omega)]
        · rw [List.take_of_length_le (by omega), List.drop_of_length_le (by omega), List.zipWith_nil_left, List.append_nil,
            zipWith_long _ _ _ _ (by rw [sha1_length]; omega)]

theorem mask_mgf1 (seed out : Bytes) : mask seed out = xor out (mgf1 Sha1.sum seed out.length) := by
  unfold mask mgf1
  rw [maskAux_stream seed _ 0 ((out.length + 19) / 20) out (Nat.le_refl _) (by omega)]
  unfold Rfc8017.xor
  rw [zipWith_take]
  unfold stream
  simp only [Nat.zero_add]

theorem pack_encoded {size : Nat} {seed msg : Bytes} (hs : seed.length = 20) (hm : msg.length + 42 ≤ size) : pack size seed msg = encoded Sha1.sum size seed msg := by
  unfold pack encoded
  simp only [List.append_assoc, List.singleton_append]
  have hz : size - msg.length - 42 = size - msg.length - 2 * 20 - 2 := by omega
  rw [hz]
  generalize hdb : Sha1.sum [] ++ (List.replicate (size - msg.length - 2 * 20 - 2) 0 ++ 1 :: msg) = db
  have hl : db.length = size - 20 - 1 := by
    rw [← hdb]
    simp only [List.length_append, sha1_length, List.length_replicate, List.length_cons]
    omega
  rw [mask_mgf1 seed db, hl, mask_mgf1 _ seed, hs]

/-! ## Blocks -/

theorem bytes_keySize {n k : Nat} (h : 0 < k ∧ 256 ^ (k - 1) ≤ n ∧ n < 256 ^ k) : k = keySize n := by
  obtain ⟨h0, h1, h2⟩ := h
  have hn : 0 < n := Nat.lt_of_lt_of_le (Nat.pow_pos (by decide)) h1
  have hs : 0 < keySize n := by
    unfold keySize
    rw [if_neg (by omega)]
    omega
  obtain ⟨g1, g2⟩ := keySize_bounds hs
  have a := (Nat.pow_lt_pow_iff_right (by decide : 1 < 256)).1 (Nat.lt_of_le_of_lt h1 g2)
  have b := (Nat.pow_lt_pow_iff_right (by decide : 1 < 256)).1 (Nat.lt_of_le_of_lt g1 h2)
  omega

theorem encrypt_iff {k : PubKey} {n : Nat} (hn : k.n = some n) {seed msg c : Bytes} (hs : seed.length = 20) :
    Oaep.encrypt k seed msg = some c ↔ (2 ≤ k.e ∧ k.e < 2 ^ 31) ∧ Encrypts Sha1.sum n k.e.toNat (keySize n) seed msg c := by
  have hval : ∀ hm : msg.length + 42 ≤ keySize n, leftPad (natBytes (powMod n (bytesNat (pack (keySize n) seed msg)) k.e.toNat)) (keySize n) =
      i2osp (os2ip (encoded Sha1.sum (keySize n) seed msg) ^ k.e.toNat % n) (keySize n) := by
    intro hm
    obtain ⟨h1, h2⟩ := keySize_bounds (n := n) (by omega)
    have hpos : 0 < n := Nat.lt_of_lt_of_le (Nat.pow_pos (by decide)) h1
    rw [powMod_eq, leftPad_i2osp (Nat.lt_trans (Nat.mod_lt _ hpos) h2), bytesNat_os2ip, pack_encoded hs hm]
  unfold Oaep.encrypt Encrypts
  rw [hn]
  simp only []
  by_cases he : exponentOK k.e = false
  · rw [if_pos he]
    have : ¬ (2 ≤ k.e ∧ k.e < 2 ^ 31) := by
      simp [exponentOK] at he
      omega
    exact ⟨fun h => (by cases h), fun h => absurd h.1 this⟩
  · rw [if_neg he]
    have hE : 2 ≤ k.e ∧ k.e < 2 ^ 31 := by
      simp [exponentOK] at he
      omega
    by_cases hm : keySize n < msg.length + 42
    · rw [if_pos hm]
      constructor
      · intro h; cases h
      · rintro ⟨-, -, h1, h2, -⟩; omega
    · rw [if_neg hm, Option.some.injEq, hval (by omega)]
      exact ⟨fun h => ⟨hE, hs, by omega, by omega, h.symm⟩, fun h => h.2.2.2.2.symm⟩

theorem encryptLoop_sealed {k : PubKey} {n : Nat} (hn : k.n = some n) {seeds : Nat → Bytes} (hr : Seeds seeds) :
    ∀ (chunks : List Bytes) (i : Nat) (x : Bytes), encryptLoop (k.encKey seeds) i chunks = .ok x →
      Sealed Sha1.sum n k.e.toNat (keySize n) ((chunks.zipIdx i).map fun t => (seeds t.2, t.1)) x := by
  intro chunks
  induction chunks with
  | nil => intro i x h; cases h; exact .nil
  | cons c cs ih =>
    intro i x h
    rw [encryptLoop] at h
    split at h
    · cases h
    · rename_i y hy
      obtain ⟨rest, h1, h2⟩ := Res.bind_ok h
      cases h2
      exact .cons ((encrypt_iff hn (hr i)).mp hy).2 (ih (i + 1) rest h1)

theorem sealed_decrypt {k : PrivKey} {primes : List Nat} (h : RsaKey k primes) {n : Nat} (hn : k.pub.n = some n) {texts : List (Bytes × Bytes)} {x : Bytes}
    (hx : Sealed Sha1.sum n k.pub.e.toNat (keySize n) texts x) :
    ∃ xs : List Bytes, x = xs.flatten ∧ (∀ y ∈ xs, y.length = keySize n) ∧ decryptLoop k.decKey xs = .ok (texts.map (·.2)).flatten := by
  induction hx with
  | nil => exact ⟨[], rfl, by simp, rfl⟩
  | @cons seed text c out texts hc hout ih =>
    obtain ⟨xs, rfl, h2, h3⟩ := ih
    have hexp := h.exponent
    have henc : Oaep.encrypt k.pub seed text = some c := (encrypt_iff hn hc.1).mpr ⟨⟨hexp.1, by omega⟩, hc⟩
    obtain ⟨y, g1, g2, g3⟩ := encrypt_decrypt_block h hn hc.1 (msg := text) (by have := hc.2.1; have := hc.2.2.1; omega)
    rw [henc] at g1
    cases g1
    refine ⟨c :: xs, rfl, ?_, ?_⟩
    · intro z hz
      rcases List.mem_cons.mp hz with rfl | hz
      · exact g2
      · exact h2 z hz
    · rw [decryptLoop, show k.decKey.dec c = some text from g3]
      simp only [h3, Res.ok_bind]
      rfl

end Verif.Standards
