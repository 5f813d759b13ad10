import Verif.Lemmas.Relay
import Verif.Lemmas.Encode
/-! # Every decoded body that satisfies the conditions of `Spec.Relayable` is in range -/

namespace Verif

open Spec

section
variable {env : Env} {data : Bytes} {n : Nat}

theorem T0100.relay {e : T0100} (h : T0100.decode env {} data = .ok (e, n)) (hr : Relayable env (.m0100 e)) : InRange env (.m0100 e) := by
  unfold T0100.decode at h
  have := decodeMin_post (Q := fun e : T0100 => Plain e.manufactureID 5 ∧ Plain e.model 20 ∧ Plain e.terminalID 7) (by
    rd_any
    rd_any
    refine Rd.Post.bind (Rd.Post.read 5) fun m hm => ?_
    refine Rd.Post.bind (Rd.Post.read 20) fun mo hmo => ?_
    refine Rd.Post.bind (Rd.Post.read 7) fun t ht => ?_
    rd_any
    rd_any
    exact Rd.Post.pure ⟨plain_bytesToString (by omega), plain_bytesToString (by omega), plain_bytesToString (by omega)⟩) h
  exact ⟨this.1, this.2.1, this.2.2, hr⟩

theorem Param.decodeItem_post : Rd.Post Param.decodeItem (fun p => p.serialized.length < 256) := by
  unfold Param.decodeItem
  rd_any
  refine Rd.Post.bind (Rd.Post.any _) fun k _ => ?_
  refine Rd.Post.bind (Rd.Post.read _) fun v hv => Rd.Post.pure ?_
  have := u8_lt k
  show v.length < 256
  omega

theorem T0104.relay {e : T0104} (h : T0104.decode {} data = .ok (e, n)) (hr : Relayable env (.m0104 e)) : InRange env (.m0104 e) := by
  unfold T0104.decode at h
  refine ⟨hr, decodeMin_post (Q := fun e : T0104 => e.params.length < 256 ∧ ∀ p ∈ e.params, p.serialized.length < 256) ?_ h⟩
  rd_any
  refine Rd.Post.bind (Rd.Post.any _) fun k _ => ?_
  refine Rd.Post.bind (Rd.Post.times _ Param.decodeItem_post) fun v hv => Rd.Post.pure ⟨?_, hv.2⟩
  have := u8_lt k
  have := hv.1
  show v.length < 256
  omega

theorem T8103.relay {e : T8103} (h : T8103.decode {} data = .ok (e, n)) (hr : Relayable env (.m8103 e)) : InRange env (.m8103 e) := by
  unfold T8103.decode at h
  refine ⟨hr, decodeMin_post (Q := fun e : T8103 => e.params.length < 256 ∧ ∀ p ∈ e.params, p.serialized.length < 256) ?_ h⟩
  refine Rd.Post.bind (Rd.Post.any _) fun k _ => ?_
  refine Rd.Post.bind (Rd.Post.times _ Param.decodeItem_post) fun v hv => Rd.Post.pure ⟨?_, hv.2⟩
  have := u8_lt k
  have := hv.1
  show v.length < 256
  omega

theorem unpack_ge (d : Bytes) : ∀ c ∈ d.flatMap unpackByte, 48 ≤ c := by
  intro c hc
  obtain ⟨b, -, hb⟩ := List.mem_flatMap.1 hc
  obtain ⟨x, y, h, hx, hy⟩ := unpackByte_eq b
  rw [h] at hb
  simp only [List.mem_cons, List.not_mem_nil, or_false] at hb
  rcases hb with rfl | rfl
  · rw [UInt8.le_iff_toNat_le]; simp; omega
  · rw [UInt8.le_iff_toNat_le]; simp; omega

theorem mem_of_mem_dropWhile {α : Type} {p : α → Bool} {a : α} {l : List α} (h : a ∈ l.dropWhile p) : a ∈ l :=
  (List.dropWhile_sublist p).mem h

theorem head_dropWhile (l : Bytes) : (l.dropWhile (· = 48)).head? ≠ some 48 := by
  induction l with
  | nil => simp
  | cons x l ih =>
    rw [List.dropWhile_cons]
    split
    · exact ih
    · rename_i hx
      simp only [decide_eq_true_eq] at hx
      simpa using hx

/-- The packed digits of a number come without leading zero. -/
theorem bcdToString_shape (d : Bytes) : (bcdToString d).length ≤ 2 * d.length ∧ (∀ c ∈ bcdToString d, 48 ≤ c) ∧ (bcdToString d).head? ≠ some 48 := by
  refine ⟨?_, ?_, ?_⟩
  · have h1 := bcdToString_length_le d false
    have h2 := length_dropWhile_le (· = (0 : UInt8)) d
    omega
  · intro c hc
    unfold bcdToString at hc
    simp only [Bool.false_eq_true, if_false] at hc
    split at hc
    · exact unpack_ge _ c hc
    · exact unpack_ge _ c (mem_of_mem_dropWhile hc)
  · unfold bcdToString
    simp only [Bool.false_eq_true, if_false]
    split
    · rename_i hall
      -- all zero digits: nothing is left after dropping the zero bytes
      have : d.dropWhile (· = 0) = [] := by
        cases hd : d.dropWhile (· = 0) with
        | nil => rfl
        | cons b bs =>
          exfalso
          have hb : b ≠ 0 := by
            have := List.head?_dropWhile_not (fun x : UInt8 => decide (x = 0)) d
            rw [hd] at this
            simpa using this
          rw [hd] at hall
          obtain ⟨x, y, hxy, hx, hy⟩ := unpackByte_eq b
          rw [List.flatMap_cons, hxy] at hall
          simp only [List.cons_append, List.nil_append, List.all_cons, Bool.and_eq_true, decide_eq_true_eq] at hall
          obtain ⟨rfl, rfl, -⟩ := hall
          apply hb
          apply UInt8.toNat.inj
          simp at hx hy ⊢
          omega
      rw [this]
      simp
    · exact head_dropWhile _

theorem T0107.relay {e : T0107} (h : T0107.decode {} data = .ok (e, n)) (hr : Relayable env (.m0107 e)) : InRange env (.m0107 e) := by
  unfold T0107.decode at h
  have := decodeMin_post (Q := fun e : T0107 => Plain e.manufactureID 5 ∧ Plain e.model 20 ∧ Plain e.terminalID 7 ∧
      (e.sim.length ≤ 20 ∧ (∀ c ∈ e.sim, 48 ≤ c) ∧ e.sim.head? ≠ some 48) ∧ Plain e.hardwareVersion 255 ∧ Plain e.softwareVersion 255) (by
    rd_any
    refine Rd.Post.bind (Rd.Post.read 5) fun m hm => ?_
    refine Rd.Post.bind (Rd.Post.read 20) fun mo hmo => ?_
    refine Rd.Post.bind (Rd.Post.read 7) fun t ht => ?_
    refine Rd.Post.bind (Rd.Post.read 10) fun sim hsim => ?_
    refine Rd.Post.bind (Rd.Post.any _) fun hn _ => ?_
    refine Rd.Post.bind (Rd.Post.read _) fun hw hhw => ?_
    refine Rd.Post.bind (Rd.Post.any _) fun sn _ => ?_
    refine Rd.Post.bind (Rd.Post.read _) fun sw hsw => ?_
    refine Rd.Post.bind (Q := fun x : Bytes => x.length ≤ 255) (Rd.Post.lift fun x hx => ?_) fun sv hsv => ?_
    · have := slice_from_zero sw sn.toNat (by omega)
      rw [this] at hx
      rw [← Res.ok.inj hx, List.length_take]
      have := u8_lt sn
      omega
    rd_any
    rd_any
    have := u8_lt hn
    have := bcdToString_shape sim
    exact Rd.Post.pure ⟨plain_bytesToString (by omega), plain_bytesToString (by omega), plain_bytesToString (by omega),
      ⟨by show (bcdToString sim).length ≤ 20; omega, this.2⟩, plain_bytesToString (by omega), plain_bytesToString hsv⟩) h
  obtain ⟨h1, h2, h3, ⟨h4, h5, h6⟩, h7⟩ := this
  exact ⟨h1, h2, h3, ⟨h4, fun c hc => ⟨h5 c hc, hr c hc⟩, h6⟩, h7⟩

theorem T0200.relay {self e : T0200} (h : T0200.decode env self data = .ok (e, n)) (hr : e.extras = []) : LocationOK env e :=
  ⟨T0200.decode_base_ok h, by rw [hr]; simp⟩

theorem T0201.decode_result {e : T0201} (h : T0201.decode env {} data = .ok (e, n)) : ∃ d k, T0200.decode env {} d = .ok (e.result, k) := by
  unfold T0201.decode at h
  split at h
  · cases h
  · obtain ⟨⟨s, rest⟩, -, h⟩ := Res.bind_ok h
    obtain ⟨buf, -, h⟩ := Res.bind_ok h
    obtain ⟨⟨r, size⟩, hr, h⟩ := Res.bind_ok h
    simp only [Res.ok.injEq, Prod.mk.injEq] at h
    obtain ⟨rfl, -⟩ := h
    exact ⟨_, _, hr⟩

theorem parseDate_ok {tz : Int} {b : Bytes} {t : Time} (hb : b.length = 4)
    (h : parse14 tz (bcdToString b ++ [48, 48, 48, 48, 48, 48]) = .ok t) :
    (t + tz) % 86400 = 0 ∧ (-30610224000 : Int) ≤ t + tz ∧ t + tz < (253402300800 : Int) := by
  have hp : (bcdToString b ++ [48, 48, 48, 48, 48, 48]).length = 14 ∧ (bcdToString b ++ [48, 48, 48, 48, 48, 48]).all isDigit = true := by
    have h' := h
    unfold parse14 at h'
    split at h'
    · cases h'
    · rename_i hc
      simpa using hc
  obtain ⟨hp1, hp2⟩ := hp
  match b, hb with
  | [b0, b1, b2, b3], _ =>
    obtain ⟨e1, e2⟩ := bcdToString_full (b := b0) (bs := [b1, b2, b3]) (by simp at hp1 ⊢; omega)
    rw [e1, List.all_append, List.all_flatMap] at hp2
    simp only [List.all_cons, List.all_nil, Bool.and_true, Bool.and_eq_true] at hp2
    obtain ⟨⟨d0, d1, d2, d3⟩, -⟩ := hp2
    obtain ⟨n0, l0, rfl, g0⟩ := packTwo_of_digits d0
    obtain ⟨n1, l1, rfl, -⟩ := packTwo_of_digits d1
    obtain ⟨n2, l2, rfl, -⟩ := packTwo_of_digits d2
    obtain ⟨n3, l3, rfl, -⟩ := packTwo_of_digits d3
    have g0 := g0 e2
    have hs : bcdToString [packTwo n0, packTwo n1, packTwo n2, packTwo n3] ++ ([48, 48, 48, 48, 48, 48] : Bytes) =
        [n0, n1, n2, n3, 0, 0, 0].flatMap pad2 := by
      have := unpack_groups [n0, n1, n2, n3] (by simp [l0, l1, l2, l3])
      rw [e1]
      rw [show [n0, n1, n2, n3, 0, 0, 0] = [n0, n1, n2, n3] ++ [0, 0, 0] by rfl, List.flatMap_append, ← this]
      rfl
    rw [hs] at h
    obtain ⟨v, -⟩ := parse14_groups_valid (by simp [l0, l1, l2, l3]) h
    rw [parse14_groups tz n0 n1 n2 n3 0 0 0 l0 l1 ⟨v.1, v.2.1⟩ ⟨v.2.2.1, v.2.2.2⟩ (by omega) (by omega) (by omega)] at h
    have h := Res.ok.inj h
    have hb : daysFromCivil ((n0 * 100 + n1 : Nat) : Int) n2 n3 < daysFromCivil 10000 1 1 := daysFromCivil_before v (by omega)
    have ha : daysFromCivil 1000 1 1 ≤ daysFromCivil ((n0 * 100 + n1 : Nat) : Int) n2 n3 := by
      have h31 : daysIn n2 ((n0 * 100 + n1 : Nat) : Int) ≤ 31 := by unfold daysIn; split; (split <;> omega); (split <;> omega)
      obtain ⟨v1, v2, v3, v4⟩ := v
      unfold daysFromCivil
      by_cases hc : n2 ≤ 2
      · simp only [hc, if_true, show (1 : Nat) ≤ 2 by omega]; omega
      · simp only [hc, if_false, if_true, show (1 : Nat) ≤ 2 by omega]; omega
    have e1000 : daysFromCivil 1000 1 1 = -354285 := by decide
    have e10000 : daysFromCivil 10000 1 1 = 2932897 := by decide
    unfold instantOf at h
    simp only at h
    generalize daysFromCivil ((n0 * 100 + n1 : Nat) : Int) n2 n3 = D at *
    subst h
    show (_ : Int) = 0 ∧ (_ : Int) ≤ _ ∧ @LT.lt Int _ _ _
    omega

theorem T0702.relay {e : T0702} (h : T0702.decode env {} data = .ok (e, n)) (hr : Relayable env (.m0702 e)) : InRange env (.m0702 e) := by
  unfold T0702.decode at h
  have := decodeMin_post (Q := fun e : T0702 => TimeOK env e.time ∧ DateOK env e.expiryDate) (by
    rd_any
    refine Rd.Post.bind (Rd.Post.bcdTime env) fun t ht => ?_
    rd_any
    rd_any
    rd_any
    rd_any
    refine Rd.Post.bind (Rd.Post.read 4) fun b hb => ?_
    refine Rd.Post.bind (Q := DateOK env) (Rd.Post.lift fun x hx => parseDate_ok hb hx) fun d hd => ?_
    exact Rd.Post.pure ⟨ht, hd⟩) h
  exact ⟨this.1, hr.1, hr.2.1, hr.2.2, this.2⟩

theorem T0704.items_ok {e : T0704} (h : T0704.decode env {} data = .ok (e, n)) : e.items.length < 65536 ∧ ∀ i ∈ e.items, BaseOK env i := by
  unfold T0704.decode at h
  exact decodeMin_post (Q := fun e : T0704 => e.items.length < 65536 ∧ ∀ i ∈ e.items, BaseOK env i) (by
    refine Rd.Post.bind (Rd.Post.any _) fun k _ => ?_
    rd_any
    refine Rd.Post.bind (Rd.Post.times _ (Q := BaseOK env) (by
      unfold T0704.decodeItem
      rd_any
      rd_any
      refine Rd.Post.bind (Q := fun r : T0200 × Nat => BaseOK env r.1) (Rd.Post.lift fun r hr => T0200.decode_base_ok (n := r.2) hr) fun r hr => ?_
      exact Rd.Post.pure hr)) fun l hl => Rd.Post.pure ⟨?_, hl.2⟩
    have := u16_lt k
    have := hl.1
    show l.length < 65536
    omega) h

theorem T0704.relay {e : T0704} (h : T0704.decode env {} data = .ok (e, n)) (hr : Relayable env (.m0704 e)) : InRange env (.m0704 e) := by
  have := T0704.items_ok h
  refine ⟨this.1, fun i hi => ⟨⟨this.2 i hi, ?_⟩, ?_⟩⟩
  · rw [hr i hi]; simp
  · rw [hr i hi]; decide

theorem T0705.relay {e : T0705} (h : T0705.decode {} data = .ok (e, n)) (hr : Relayable env (.m0705 e)) : InRange env (.m0705 e) := by
  unfold T0705.decode at h
  refine ⟨hr.1, hr.2, decodeMin_post (Q := fun e : T0705 => e.receiveTime % 1000000 = 0 ∧ e.items.length < 65536 ∧
    ∀ i ∈ e.items, i.id.length = 4 ∧ i.data.length = 8) ?_ h⟩
  refine Rd.Post.bind (Rd.Post.any _) fun k _ => ?_
  rd_any
  dsimp only
  refine Rd.Post.ite (fun _ => Rd.Post.fail) fun _ => ?_
  refine Rd.Post.bind (Rd.Post.any _) fun h1 _ => ?_
  refine Rd.Post.bind (Rd.Post.any _) fun h2 _ => ?_
  refine Rd.Post.bind (Rd.Post.any _) fun h3 _ => ?_
  refine Rd.Post.bind (Rd.Post.any _) fun h4 _ => ?_
  refine Rd.Post.bind (Rd.Post.times _ (Q := fun i : CanItem => i.id.length = 4 ∧ i.data.length = 8) (by
    unfold CanItem.decodeItem
    refine Rd.Post.bind (Rd.Post.read 4) fun a ha => ?_
    refine Rd.Post.bind (Rd.Post.read 8) fun b hb => ?_
    exact Rd.Post.pure ⟨ha, hb⟩)) fun l hl => Rd.Post.pure ⟨?_, ?_, hl.2⟩
  · show ((atoi0 h1 : Int) * 3600000000000 + atoi0 h2 * 60000000000 + atoi0 h3 * 1000000000 + atoi0 h4 * 1000000) % 1000000 = 0
    omega
  have := u16_lt k
  have := hl.1
  show l.length < 65536
  omega

theorem T0801.relay {e : T0801} (h : T0801.decodePacket env {} data = .ok e) : InRange env (.m0801 e) := by
  unfold T0801.decodePacket at h
  obtain ⟨⟨d, k⟩, hd, h⟩ := Res.bind_ok h
  obtain ⟨p, -, h⟩ := Res.bind_ok h
  unfold T0801.decode at hd
  have := decodeMin_post (Q := fun e : T0801 => BaseOK env e.location ∧ e.location.extras = []) (by
    rd_any
    rd_any
    rd_any
    rd_any
    rd_any
    refine Rd.Post.bind (Rd.Post.read 28) fun buf hbuf => ?_
    refine Rd.Post.bind (Q := fun r : T0200 × Nat => BaseOK env r.1 ∧ r.1.extras = []) (Rd.Post.lift fun r hr =>
      ⟨T0200.decode_base_ok (n := r.2) hr, T0200.decode_28 (n := r.2) hbuf hr⟩) fun r hr => ?_
    exact Rd.Post.pure hr) hd
  simp only [Res.ok.injEq] at h
  subst h
  exact ⟨this.1, this.2, rfl⟩

theorem T0802.relay {e : T0802} (h : T0802.decode env {} data = .ok (e, n)) : InRange env (.m0802 e) := by
  unfold T0802.decode at h
  refine decodeMin_post (Q := fun e : T0802 => e.items.length < 65536 ∧ ∀ i ∈ e.items, BaseOK env i.location ∧ i.location.extras = []) ?_ h
  rd_any
  refine Rd.Post.bind (Rd.Post.any _) fun k _ => ?_
  refine Rd.Post.bind (Rd.Post.times _ (Q := fun i : MediaItem => BaseOK env i.location ∧ i.location.extras = []) (by
    unfold MediaItem.decodeItem
    rd_any
    rd_any
    rd_any
    rd_any
    refine Rd.Post.bind (Rd.Post.read 28) fun buf hbuf => ?_
    refine Rd.Post.bind (Q := fun r : T0200 × Nat => BaseOK env r.1 ∧ r.1.extras = []) (Rd.Post.lift fun r hr =>
      ⟨T0200.decode_base_ok (n := r.2) hr, T0200.decode_28 (n := r.2) hbuf hr⟩) fun r hr => ?_
    exact Rd.Post.pure hr)) fun l hl => Rd.Post.pure ⟨?_, hl.2⟩
  have := u16_lt k
  have := hl.1
  show l.length < 65536
  omega

theorem T0805.relay {e : T0805} (h : T0805.decode {} data = .ok (e, n)) : InRange env (.m0805 e) := by
  unfold T0805.decode at h
  refine decodeMin_post (Q := fun e : T0805 => e.mediaIDs.length < 65536) ?_ h
  rd_any
  rd_any
  refine Rd.Post.bind (Rd.Post.any _) fun k _ => ?_
  refine Rd.Post.bind (Rd.Post.times _ (Rd.Post.any _)) fun l hl => Rd.Post.pure ?_
  have := u16_lt k
  have := hl.1
  show l.length < 65536
  omega

theorem T8003.relay {e : T8003} (h : T8003.decode {} data = .ok (e, n)) : InRange env (.m8003 e) := by
  unfold T8003.decode at h
  refine decodeMin_post (Q := fun e : T8003 => e.packetIDs.length < 256) ?_ h
  rd_any
  refine Rd.Post.bind (Rd.Post.any _) fun k _ => ?_
  refine Rd.Post.bind (Rd.Post.times _ (Rd.Post.any _)) fun l hl => Rd.Post.pure ?_
  have := u8_lt k
  have := hl.1
  show ([] ++ l).length < 256
  simp
  omega

theorem T8607.relay {e : TIDs} (h : T8607.decode {} data = .ok (e, n)) : e.ids.length < 256 := by
  unfold T8607.decode at h
  refine decodeMin_post (Q := fun e : TIDs => e.ids.length < 256) ?_ h
  refine Rd.Post.bind (Rd.Post.any _) fun k _ => ?_
  refine Rd.Post.bind (Rd.Post.times _ (Rd.Post.any _)) fun l hl => Rd.Post.pure ?_
  have := u8_lt k
  have := hl.1
  show ([] ++ l).length < 256
  simp
  omega

theorem TIDs.relay {e : TIDs} (h : TIDs.decode {} data = .ok (e, n)) : e.ids.length < 256 := by
  unfold TIDs.decode at h
  split at h
  · cases h
  · obtain ⟨k, -, h⟩ := Res.bind_ok h
    obtain ⟨tail, -, h⟩ := Res.bind_ok h
    obtain ⟨⟨l, rest⟩, hl, h⟩ := Res.bind_ok h
    simp only [Res.ok.injEq, Prod.mk.injEq] at h
    obtain ⟨rfl, -⟩ := h
    have := (Rd.Post.times _ (Rd.Post.any _) _ _ _ hl).1
    have := u8_lt k
    simp only
    omega

theorem T8108.relay {e : T8108} (h : T8108.decode env {} data = .ok (e, n)) (hr : Relayable env (.m8108 e)) : InRange env (.m8108 e) := by
  unfold T8108.decode at h
  refine ⟨decodeMin_post (Q := fun e : T8108 => Plain e.manufactureID 5) ?_ h, hr⟩
  rd_any
  refine Rd.Post.bind (Rd.Post.read 5) fun m hm => ?_
  rd_any
  rd_any
  rd_any
  exact Rd.Post.pure (plain_bytesToString (by omega))

theorem T8301.relay {e : T8301} (h : T8301.decode env {} data = .ok (e, n)) (hr : Relayable env (.m8301 e)) : InRange env (.m8301 e) := by
  unfold T8301.decode at h
  refine ⟨decodeMin_post (Q := fun e : T8301 => e.events.length < 256) ?_ h, hr⟩
  rd_any
  refine Rd.Post.bind (Rd.Post.any _) fun k _ => ?_
  refine Rd.Post.bind (Rd.Post.times _ (Rd.Post.any _)) fun l hl => Rd.Post.pure ?_
  have := u8_lt k
  have := hl.1
  show ([] ++ l).length < 256
  simp
  omega

theorem T8303.relay {e : T8303} (h : T8303.decode env {} data = .ok (e, n)) (hr : Relayable env (.m8303 e)) : InRange env (.m8303 e) := by
  unfold T8303.decode at h
  refine ⟨decodeMin_post (Q := fun e : T8303 => e.items.length < 256) ?_ h, hr⟩
  rd_any
  refine Rd.Post.bind (Rd.Post.any _) fun k _ => ?_
  refine Rd.Post.bind (Rd.Post.times _ (Rd.Post.any _)) fun l hl => Rd.Post.pure ?_
  have := u8_lt k
  have := hl.1
  show ([] ++ l).length < 256
  simp
  omega

theorem T8401.relay {e : T8401} (h : T8401.decode env {} data = .ok (e, n)) (hr : Relayable env (.m8401 e)) : InRange env (.m8401 e) := by
  unfold T8401.decode at h
  refine ⟨decodeMin_post (Q := fun e : T8401 => e.contacts.length < 256) ?_ h, hr⟩
  rd_any
  refine Rd.Post.bind (Rd.Post.any _) fun k _ => ?_
  refine Rd.Post.bind (Rd.Post.times _ (Rd.Post.any _)) fun l hl => Rd.Post.pure ?_
  have := u8_lt k
  have := hl.1
  show ([] ++ l).length < 256
  simp
  omega

theorem T8600.items_ok {e : T8600} (h : T8600.decode env {} data = .ok (e, n)) : e.items.length < 256 ∧ ∀ a ∈ e.items, CircleOK env a := by
  unfold T8600.decode at h
  refine decodeMin_post (Q := fun e : T8600 => e.items.length < 256 ∧ ∀ a ∈ e.items, CircleOK env a) ?_ h
  rd_any
  refine Rd.Post.bind (Rd.Post.any _) fun k _ => ?_
  refine Rd.Post.bind (Rd.Post.times _ (CircleArea.decodeItem_post env)) fun l hl => Rd.Post.pure ⟨?_, hl.2⟩
  have := u8_lt k
  have := hl.1
  show l.length < 256
  omega

theorem T8600.relay {e : T8600} (h : T8600.decode env {} data = .ok (e, n)) (hr : Relayable env (.m8600 e)) : InRange env (.m8600 e) :=
  ⟨hr, T8600.items_ok h⟩

theorem T8602.items_ok {e : T8602} (h : T8602.decode env {} data = .ok (e, n)) : e.items.length < 256 ∧ ∀ a ∈ e.items, RectOK env a := by
  unfold T8602.decode at h
  refine decodeMin_post (Q := fun e : T8602 => e.items.length < 256 ∧ ∀ a ∈ e.items, RectOK env a) ?_ h
  rd_any
  refine Rd.Post.bind (Rd.Post.any _) fun k _ => ?_
  refine Rd.Post.bind (Rd.Post.times _ (RectArea.decodeItem_post env)) fun l hl => Rd.Post.pure ⟨?_, hl.2⟩
  have := u8_lt k
  have := hl.1
  show l.length < 256
  omega

theorem T8602.relay {e : T8602} (h : T8602.decode env {} data = .ok (e, n)) (hr : Relayable env (.m8602 e)) : InRange env (.m8602 e) :=
  ⟨hr, T8602.items_ok h⟩

theorem T8604.vertexes_ok {e : T8604} (h : T8604.decode env {} data = .ok (e, n)) : e.vertexes.length < 65536 ∧
    (∀ v ∈ e.vertexes, VertexOK e.attr v) ∧ TailOK env e.attr e.startTime e.endTime e.maxSpeed e.duration := by
  unfold T8604.decode at h
  refine decodeMin_post (Q := fun e : T8604 => e.vertexes.length < 65536 ∧ (∀ v ∈ e.vertexes, VertexOK e.attr v) ∧
    TailOK env e.attr e.startTime e.endTime e.maxSpeed e.duration) ?_ h
  rd_any
  refine Rd.Post.bind (Rd.Post.any _) fun a _ => ?_
  refine Rd.Post.bind (decodeAreaTail_post env a) fun t ht => ?_
  refine Rd.Post.bind (Rd.Post.any _) fun k _ => ?_
  refine Rd.Post.bind (Rd.Post.times _ (Vertex.decodeItem_post a)) fun l hl => Rd.Post.pure ⟨?_, hl.2, ht⟩
  have := u16_lt k
  have := hl.1
  show l.length < 65536
  omega

theorem T8604.relay {e : T8604} (h : T8604.decode env {} data = .ok (e, n)) (hr : Relayable env (.m8604 e)) : InRange env (.m8604 e) :=
  ⟨hr, T8604.vertexes_ok h⟩

theorem T8606.relay {e : T8606} (h : T8606.decode env {} data = .ok (e, n)) : InRange env (.m8606 e) := by
  unfold T8606.decode at h
  refine decodeMin_post (Q := fun e : T8606 => TimeOK env e.startTime ∧ TimeOK env e.endTime ∧ e.points.length < 65536 ∧ ∀ p ∈ e.points, PointOK p) ?_ h
  rd_any
  rd_any
  refine Rd.Post.bind (Rd.Post.bcdTime env) fun s hs => ?_
  refine Rd.Post.bind (Rd.Post.bcdTime env) fun f hf => ?_
  refine Rd.Post.bind (Rd.Post.any _) fun k _ => ?_
  refine Rd.Post.bind (Rd.Post.times _ RoutePoint.decodeItem_post) fun l hl => Rd.Post.pure ⟨hs, hf, ?_, by simpa using hl.2⟩
  have := u16_lt k
  have := hl.1
  show ([] ++ l).length < 65536
  simp
  omega

theorem T8800.relay {e : T8800} (h : T8800.decode {} data = .ok (e, n)) : InRange env (.m8800 e) := by
  unfold T8800.decode at h
  refine decodeMin_post (Q := fun e : T8800 => e.retryIDs.length < 256) ?_ h
  rd_any
  rd_any
  refine Rd.Post.ite (fun _ => Rd.Post.pure (by simp)) fun _ => ?_
  refine Rd.Post.bind (Rd.Post.any _) fun k _ => ?_
  refine Rd.Post.bind (Rd.Post.times _ (Rd.Post.any _)) fun l hl => Rd.Post.pure ?_
  have := u8_lt k
  have := hl.1
  show ([] ++ l).length < 256
  simp
  omega

theorem T8802.relay {e : T8802} (h : T8802.decode env {} data = .ok (e, n)) : InRange env (.m8802 e) := by
  unfold T8802.decode at h
  refine decodeMin_post (Q := fun e : T8802 => TimeOK env e.startTime ∧ TimeOK env e.endTime) ?_ h
  rd_any
  rd_any
  rd_any
  refine Rd.Post.bind (Rd.Post.bcdTime env) fun s hs => ?_
  refine Rd.Post.bind (Rd.Post.bcdTime env) fun f hf => ?_
  exact Rd.Post.pure ⟨hs, hf⟩

theorem T8803.relay {e : T8803} (h : T8803.decode env {} data = .ok (e, n)) : InRange env (.m8803 e) := by
  unfold T8803.decode at h
  refine decodeMin_post (Q := fun e : T8803 => TimeOK env e.startTime ∧ TimeOK env e.endTime) ?_ h
  rd_any
  rd_any
  rd_any
  refine Rd.Post.bind (Rd.Post.bcdTime env) fun s hs => ?_
  refine Rd.Post.bind (Rd.Post.bcdTime env) fun f hf => ?_
  rd_any
  exact Rd.Post.pure ⟨hs, hf⟩

theorem T0A00.relay {e : T0A00} (h : T0A00.decode {} data = .ok (e, n))
    (hr : ∀ k n, e.publicKey = some k → k.n = some n → keySize n = 128) : KeyOK e.publicKey := by
  unfold T0A00.decode at h
  obtain ⟨k, x, h1, h2, h3⟩ := decodeMin_post (Q := fun e : T0A00 => ∃ n x, e.publicKey = some ⟨some n, x⟩ ∧ 0 ≤ x ∧ x < 2 ^ 32) (by
    refine Rd.Post.bind (Rd.Post.any _) fun x _ => ?_
    refine Rd.Post.bind (Rd.Post.any _) fun b _ => ?_
    refine Rd.Post.pure ⟨_, _, rfl, by omega, ?_⟩
    have := x.toNat_lt
    omega) h
  exact ⟨k, x, h1, hr _ _ h1 rfl, h2, h3⟩

end

open Entity in
/-- Every decoded body that can be passed on is in range. -/
theorem decoded_inRange {env : Env} {id : UInt16} {data : Bytes} {e : Entity} {n : Nat}
    (h : Entity.decodeBody env id data = .ok (e, n)) (hr : Relayable env e) : InRange env e := by
  unfold decodeBody at h
  split at h
  · cases h
  rename_i e0 he
  unfold create at he
  repeat (
    rcases ite_some he with ⟨-, rfl⟩ | he
    · first
      | (obtain ⟨a, ha, rfl⟩ := wrapDec_ok h
         first
          | exact True.intro
          | exact hr
          | exact T0200.relay ha hr
          | exact (T0201.decode_result ha).elim fun _ hd => hd.elim fun _ hd => T0200.relay hd hr
          | exact TIDs.relay ha
          | exact T8607.relay ha
          | exact T0A00.relay ha hr
          | exact T0100.relay ha hr
          | exact T0104.relay ha hr
          | exact T0107.relay ha hr
          | exact T0702.relay ha hr
          | exact T0704.relay ha hr
          | exact T0705.relay ha hr
          | exact T0802.relay ha
          | exact T0805.relay ha
          | exact T8003.relay ha
          | exact T8103.relay ha hr
          | exact T8108.relay ha hr
          | exact T8301.relay ha hr
          | exact T8303.relay ha hr
          | exact T8401.relay ha hr
          | exact T8600.relay ha hr
          | exact T8602.relay ha hr
          | exact T8604.relay ha hr
          | exact T8606.relay ha
          | exact T8800.relay ha
          | exact T8802.relay ha
          | exact T8803.relay ha)
      | (change Res.ok (_, 0) = _ at h
         simp only [Res.ok.injEq, Prod.mk.injEq] at h
         obtain ⟨rfl, -⟩ := h
         exact True.intro)
      | (simp only at h
         split at h
         · rename_i b' hb
           simp only [Res.ok.injEq, Prod.mk.injEq] at h
           obtain ⟨rfl, -⟩ := h
           exact T0801.relay hb
         · cases h
         · cases h))
  cases he

end Verif
