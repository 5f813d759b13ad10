import Verif.Lemmas.Reader
import Verif.Lemmas.Entity
/-! # No body decoder panics -/

namespace Verif

theorem getBitByte_safe (v : UInt8) (i : Int) (h : 0 ≤ i) : getBitByte v i ≠ .panic := by
  unfold getBitByte
  split
  · simp
  · rw [if_neg (by omega)]; simp

theorem getBitUint16_safe (v : UInt16) (i : Int) (h : 0 ≤ i) : getBitUint16 v i ≠ .panic := by
  unfold getBitUint16
  split
  · simp
  · rw [if_neg (by omega)]; simp

theorem getBitUint32_safe (v : UInt32) (i : Int) (h : 0 ≤ i) : getBitUint32 v i ≠ .panic := by
  unfold getBitUint32
  split
  · simp
  · rw [if_neg (by omega)]; simp

theorem decodeStr_safe (env : Env) (d : Bytes) : decodeStr env d ≠ .panic := by
  unfold decodeStr; split <;> simp

theorem parse14_safe (tz : Int) (s : Bytes) : parse14 tz s ≠ .panic := by
  unfold parse14
  split
  · simp
  · simp only
    split <;> simp

theorem fromBCDTime_safe (tz : Int) (s : Bytes) : fromBCDTime tz s ≠ .panic := by
  unfold fromBCDTime
  split
  · simp
  · exact parse14_safe _ _

namespace Rd
variable {α β : Type}

theorem Safe.str (env : Env) (n : Nat) : Safe (str env n) :=
  Safe.bind (Safe.read n) fun _ => Safe.lift (decodeStr_safe env _)

theorem Safe.strRest (env : Env) : Safe (strRest env) :=
  Safe.bind Safe.rest fun _ => Safe.lift (decodeStr_safe env _)

theorem Safe.bcdTime (env : Env) : Safe (bcdTime env) := by
  intro s
  unfold Rd.bcdTime
  split
  · simp
  · have := fromBCDTime_safe env.tz (s.take 6)
    split <;> simp_all

theorem Safe.ite {p : Prop} [Decidable p] {x y : Rd α} (hx : Safe x) (hy : Safe y) : Safe (if p then x else y) := by
  split <;> assumption

theorem Safe.strIfMore (env : Env) (old : Bytes) : Safe (strIfMore env old) :=
  Safe.bind Safe.len fun _ => Safe.ite (Safe.strRest env) (Safe.pure _)

theorem Safe.str8 (env : Env) : Safe (str8 env) := Safe.bind Safe.byte fun _ => Safe.str env _

theorem Safe.str16 (env : Env) : Safe (str16 env) := Safe.bind Safe.u16 fun _ => Safe.str env _

/-- The result of `Read(n)` has `n` bytes. -/
theorem Safe.bind_read {n : Nat} {f : Bytes → Rd β} (hf : ∀ a : Bytes, a.length = n → Safe (f a)) :
    Safe (Rd.read n >>= f) := by
  intro s
  rw [bind_apply]
  unfold Rd.read
  split
  · rename_i h
    split at h
    · simp at h
    · simp only [Res.ok.injEq, Prod.mk.injEq] at h
      exact hf _ (by rw [← h.1]; simp; omega) _
  · simp
  · rename_i h
    split at h <;> simp at h

end Rd

/-- Closes goals `Rd.Safe p` for programs built from the reader operations. -/
macro "rd_safe" : tactic => `(tactic| repeat' (first
  | assumption
  | exact Rd.Safe.u16 | exact Rd.Safe.u32 | exact Rd.Safe.byte | exact Rd.Safe.read _ | exact Rd.Safe.rest
  | exact Rd.Safe.len | exact Rd.Safe.fail _ | exact Rd.Safe.pure _ | exact Rd.Safe.str _ _ | exact Rd.Safe.strRest _
  | exact Rd.Safe.bcdTime _ | exact Rd.Safe.strIfMore _ _ | exact Rd.Safe.str8 _ | exact Rd.Safe.str16 _
  | exact Rd.Safe.lift (getBitByte_safe _ _ (by decide))
  | exact Rd.Safe.lift (getBitUint16_safe _ _ (by decide))
  | exact Rd.Safe.lift (getBitUint32_safe _ _ (by decide))
  | exact Rd.Safe.lift (parse14_safe _ _)
  | refine Rd.Safe.bind ?_ (fun _ => ?_)
  | refine Rd.Safe.ite ?_ ?_
  | refine Rd.Safe.ignoreErr _ ?_
  | refine Rd.Safe.times _ ?_))

/-! ## Extras and locations -/

theorem be32_safe (b : Bytes) (h : 4 ≤ b.length) : Param.be32 b ≠ .panic := by
  match b, h with
  | _ :: _ :: _ :: _ :: _, _ => simp [Param.be32]

theorem be16_safe (b : Bytes) (h : 2 ≤ b.length) : Param.be16 b ≠ .panic := by
  match b, h with
  | _ :: _ :: _, _ => simp [Param.be16]

theorem Res.bind_safe {α β : Type} {x : Res α} {f : α → Res β} (hx : x ≠ .panic) (hf : ∀ a, x = .ok a → f a ≠ .panic) :
    (x >>= f) ≠ .panic := by
  cases h : x with
  | ok a => exact hf a h
  | err e => simp
  | panic => exact absurd h hx

theorem idx_safe {α : Type} (xs : List α) (i : Nat) (h : i < xs.length) : idx xs (i : Int) ≠ .panic := by
  rw [idx_ofNat _ _ h]; simp

theorem slice_safe {α : Type} (xs : List α) (lo hi : Nat) (h1 : lo ≤ hi) (h2 : hi ≤ xs.length) : slice xs lo hi ≠ .panic := by
  rw [slice_ok _ _ _ h1 h2]; simp

theorem Extra.decode_safe (t : UInt8) (d : Bytes) : Extra.decode t d ≠ .panic := by
  have h32 : ∀ mk, dec32 mk d ≠ .panic := by
    intro mk; unfold dec32
    split
    · simp
    · exact Res.bind_safe (be32_safe _ (by omega)) fun _ _ => by simp
  have h16 : ∀ mk, dec16 mk d ≠ .panic := by
    intro mk; unfold dec16
    split
    · simp
    · exact Res.bind_safe (be16_safe _ (by omega)) fun _ _ => by simp
  have h8 : ∀ mk, dec8 mk d ≠ .panic := by
    intro mk; unfold dec8
    split
    · simp
    · exact Res.bind_safe (idx_safe d 0 (by omega)) fun _ _ => by simp
  have h11 : dec11 d ≠ .panic := by
    unfold dec11
    split
    · simp
    · refine Res.bind_safe (idx_safe d 0 (by omega)) fun t _ => ?_
      split
      · simp
      · refine Res.bind_safe (slice_safe _ _ _ (by omega) (by omega)) fun tl _ => ?_
        split
        · simp
        · exact Res.bind_safe (be32_safe _ (by omega)) fun _ _ => by simp
  have h12 : dec12 d ≠ .panic := by
    unfold dec12
    split
    · simp
    · refine Res.bind_safe (idx_safe d 0 (by omega)) fun t _ => ?_
      refine Res.bind_safe ?_ fun a _ => Res.bind_safe (idx_safe d 5 (by omega)) fun _ _ => by simp
      rw [slice_ok _ _ _ (by omega) (by omega)]
      exact be32_safe _ (by simp; omega)
  have h13 : dec13 d ≠ .panic := by
    unfold dec13
    split
    · simp
    · refine Res.bind_safe ?_ fun a _ => Res.bind_safe ?_ fun _ _ =>
        Res.bind_safe (idx_safe d 6 (by omega)) fun _ _ => by simp
      · rw [slice_ok _ _ _ (by omega) (by omega)]
        exact be32_safe _ (by simp; omega)
      · rw [slice_ok _ _ _ (by omega) (by omega)]
        exact be16_safe _ (by simp; omega)
  have hite : ∀ (p : Prop) [Decidable p] (x y : Res (Extra × Nat)), x ≠ .panic → y ≠ .panic →
      (if p then x else y) ≠ .panic := by
    intro p _ x y hx hy; split <;> assumption
  unfold Extra.decode
  refine hite _ _ _ (h32 _) <| hite _ _ _ (h16 _) <| hite _ _ _ (h16 _) <| hite _ _ _ (h16 _) <|
    hite _ _ _ h11 <| hite _ _ _ h12 <| hite _ _ _ h13 <| hite _ _ _ (h32 _) <| hite _ _ _ (h16 _) <|
    hite _ _ _ (h32 _) <| hite _ _ _ (h8 _) <| hite _ _ _ (h8 _) <| by simp

theorem decodeExtras_safe (fuel : Nat) (b : Bytes) : decodeExtras fuel b ≠ .panic := by
  induction fuel generalizing b with
  | zero => simp [decodeExtras]
  | succ fuel ih =>
    unfold decodeExtras
    split
    · simp
    · refine Res.bind_safe (idx_safe b 0 (by omega)) fun id _ => Res.bind_safe (idx_safe b 1 (by omega)) fun n _ =>
        Res.bind_safe (slice_safe _ _ _ (by omega) (by omega)) fun b' _ => ?_
      split
      · simp
      · refine Res.bind_safe (slice_safe _ _ _ (by omega) (by omega)) fun d _ =>
          Res.bind_safe (slice_safe _ _ _ (by omega) (by omega)) fun rest _ => ?_
        have := Extra.decode_safe id d
        split
        · exact ih _
        · simp
        · simp_all
        · split
          · simp
          · exact Res.bind_safe (ih _) fun _ _ => by simp

theorem T0200.decode_safe (env : Env) (self : T0200) (data : Bytes) : T0200.decode env self data ≠ .panic := by
  have hx : ∀ left, (Rd.lift (slice data (data.length - left) data.length)).Safe :=
    fun left => Rd.Safe.lift (slice_safe _ _ _ (by omega) (by omega))
  have hy : ∀ b : Bytes, (Rd.lift (decodeExtras b.length b)).Safe := fun b => Rd.Safe.lift (decodeExtras_safe _ _)
  refine decodeMin_safe _ ?_ _
  rd_safe
  all_goals first | exact hx _ | exact hy _

theorem T0201.decode_safe (env : Env) (self : T0201) (data : Bytes) : T0201.decode env self data ≠ .panic := by
  unfold T0201.decode
  split
  · simp
  · refine Res.bind_safe (Rd.Safe.u16 data) fun r _ => ?_
    obtain ⟨s, rest⟩ := r
    refine Res.bind_safe (slice_safe _ _ _ (by omega) (by omega)) fun buf _ => ?_
    refine Res.bind_safe (T0200.decode_safe env {} buf) fun r _ => ?_
    simp

theorem T0704.decodeItem_safe (env : Env) : (T0704.decodeItem env).Safe := by
  have hx : ∀ b : Bytes, (Rd.lift (T0200.decode env {} b)).Safe := fun b => Rd.Safe.lift (T0200.decode_safe _ _ _)
  unfold T0704.decodeItem
  rd_safe
  all_goals exact hx _

theorem MediaItem.decodeItem_safe (env : Env) : (MediaItem.decodeItem env).Safe := by
  have hx : ∀ b : Bytes, (Rd.lift (T0200.decode env {} b)).Safe := fun b => Rd.Safe.lift (T0200.decode_safe _ _ _)
  unfold MediaItem.decodeItem
  rd_safe
  all_goals exact hx _

theorem T0801.decode_safe (env : Env) (self : T0801) (data : Bytes) : T0801.decode env self data ≠ .panic := by
  have hx : ∀ b : Bytes, (Rd.lift (T0200.decode env self.location b)).Safe := fun b => Rd.Safe.lift (T0200.decode_safe _ _ _)
  refine decodeMin_safe _ ?_ _
  rd_safe
  all_goals exact hx _

theorem runDecode_count {α : Type} {p : Rd α} {data : Bytes} {a : α} {n : Nat} (h : runDecode p data = .ok (a, n)) :
    n ≤ data.length := by
  unfold runDecode at h
  split at h
  · simp only [Res.ok.injEq, Prod.mk.injEq] at h; omega
  · simp at h
  · simp at h

theorem decodeMin_count {α : Type} {p : Rd α} {m : Nat} {data : Bytes} {a : α} {n : Nat}
    (h : decodeMin m p data = .ok (a, n)) : n ≤ data.length := by
  unfold decodeMin at h
  split at h
  · simp at h
  · exact runDecode_count h

theorem T0801.decodePacket_safe (env : Env) (self : T0801) (data : Bytes) : T0801.decodePacket env self data ≠ .panic := by
  unfold T0801.decodePacket
  refine Res.bind_safe (T0801.decode_safe env self data) fun r hr => ?_
  obtain ⟨e, n⟩ := r
  have hn := decodeMin_count hr
  exact Res.bind_safe (slice_safe _ _ _ hn (by omega)) fun _ _ => by simp

theorem T0107.decode_safe (self : T0107) (data : Bytes) : T0107.decode self data ≠ .panic := by
  refine decodeMin_safe _ ?_ _
  refine Rd.Safe.bind Rd.Safe.u16 fun _ => Rd.Safe.bind (Rd.Safe.read _) fun _ => Rd.Safe.bind (Rd.Safe.read _) fun _ =>
    Rd.Safe.bind (Rd.Safe.read _) fun _ => Rd.Safe.bind (Rd.Safe.read _) fun _ => Rd.Safe.bind Rd.Safe.byte fun _ =>
    Rd.Safe.bind (Rd.Safe.read _) fun _ => Rd.Safe.bind Rd.Safe.byte fun sn => Rd.Safe.bind_read fun s hs =>
    Rd.Safe.bind (Rd.Safe.lift (slice_safe _ _ _ (by omega) (by omega))) fun _ => ?_
  rd_safe

theorem T0705.decode_safe (self : T0705) (data : Bytes) : T0705.decode self data ≠ .panic := by
  refine decodeMin_safe _ ?_ _
  refine Rd.Safe.bind Rd.Safe.u16 fun n => Rd.Safe.bind (Rd.Safe.read 5) fun buf => ?_
  simp only
  split
  · exact Rd.Safe.fail _
  · rename_i hl
    have hl' : (bcdToString buf true).length = 10 := by
      apply Decidable.byContradiction; intro hc; exact hl hc
    have hi : CanItem.decodeItem.Safe := by unfold CanItem.decodeItem; rd_safe
    rd_safe
    all_goals exact Rd.Safe.lift (slice_safe _ _ _ (by omega) (by omega))

theorem decodeAnswers_safe (env : Env) (fuel : Nat) : (decodeAnswers env fuel).Safe := by
  have hi : (IdText.decodeItem env).Safe := by unfold IdText.decodeItem; rd_safe
  induction fuel with
  | zero => exact Rd.Safe.pure _
  | succ fuel ih => unfold decodeAnswers; rd_safe

theorem T0108.decode_safe (self : T0108) (data : Bytes) : T0108.decode self data ≠ .panic := by
  unfold T0108.decode
  split
  · simp
  · exact Res.bind_safe (idx_safe data 0 (by omega)) fun _ _ =>
      Res.bind_safe (idx_safe data 1 (by omega)) fun _ _ => by simp

theorem T0301.decode_safe (self : T0301) (data : Bytes) : T0301.decode self data ≠ .panic := by
  unfold T0301.decode
  split
  · simp
  · exact Res.bind_safe (idx_safe data 0 (by omega)) fun _ _ => by simp

theorem T8500.decode_safe (self : T8500) (data : Bytes) : T8500.decode self data ≠ .panic := by
  unfold T8500.decode
  split
  · simp
  · exact Res.bind_safe (idx_safe data 0 (by omega)) fun _ _ => by simp

theorem T0303.decode_safe (self : T0303) (data : Bytes) : T0303.decode self data ≠ .panic := by
  unfold T0303.decode
  split
  · simp
  · exact Res.bind_safe (idx_safe data 0 (by omega)) fun _ _ =>
      Res.bind_safe (idx_safe data 1 (by omega)) fun _ _ => by simp

theorem T0900.decode_safe (self : T0900) (data : Bytes) : T0900.decode self data ≠ .panic := by
  unfold T0900.decode
  split
  · simp
  · exact Res.bind_safe (idx_safe data 0 (by omega)) fun _ _ =>
      Res.bind_safe (slice_safe _ _ _ (by omega) (by omega)) fun _ _ => by simp

theorem TByteText.decode_safe (env : Env) (self : TByteText) (data : Bytes) : TByteText.decode env self data ≠ .panic := by
  unfold TByteText.decode
  split
  · simp
  · exact Res.bind_safe (slice_safe _ _ _ (by omega) (by omega)) fun _ _ =>
      Res.bind_safe (Rd.Safe.strIfMore _ _ _) fun _ _ =>
      Res.bind_safe (idx_safe data 0 (by omega)) fun _ _ => by simp

theorem TIDs.decode_safe (self : TIDs) (data : Bytes) : TIDs.decode self data ≠ .panic := by
  unfold TIDs.decode
  split
  · simp
  · exact Res.bind_safe (idx_safe data 0 (by omega)) fun _ _ =>
      Res.bind_safe (slice_safe _ _ _ (by omega) (by omega)) fun _ _ =>
      Res.bind_safe (Rd.Safe.times _ Rd.Safe.u32 _) fun _ _ => by simp

theorem decodeAreaTail_safe (env : Env) (a : UInt16) (old : Time × Time × UInt16 × UInt8) :
    (decodeAreaTail env a old).Safe := by
  unfold decodeAreaTail; rd_safe

theorem CircleArea.decodeItem_safe (env : Env) : (CircleArea.decodeItem env).Safe := by
  have := decodeAreaTail_safe env
  unfold CircleArea.decodeItem; rd_safe; all_goals apply this

theorem RectArea.decodeItem_safe (env : Env) : (RectArea.decodeItem env).Safe := by
  have := decodeAreaTail_safe env
  unfold RectArea.decodeItem; rd_safe; all_goals apply this

theorem RoutePoint.decodeItem_safe : RoutePoint.decodeItem.Safe := by
  unfold RoutePoint.decodeItem; rd_safe

theorem Vertex.decodeItem_safe (attr : UInt16) : (Vertex.decodeItem attr).Safe := by
  unfold Vertex.decodeItem; rd_safe

theorem T8604.decode_safe (env : Env) (self : T8604) (data : Bytes) : T8604.decode env self data ≠ .panic := by
  refine decodeMin_safe _ ?_ _
  refine Rd.Safe.bind Rd.Safe.u32 fun _ => Rd.Safe.bind Rd.Safe.u16 fun a => Rd.Safe.bind (decodeAreaTail_safe _ _ _) fun _ =>
    Rd.Safe.bind Rd.Safe.u16 fun _ => Rd.Safe.bind (Rd.Safe.times _ (Vertex.decodeItem_safe _)) fun _ => Rd.Safe.pure _

theorem T0901.decode_safe (env : Env) (self : T0901) (data : Bytes) : T0901.decode env self data ≠ .panic := by
  refine decodeMin_safe _ ?_ _
  refine Rd.Safe.bind Rd.Safe.u32 fun _ => Rd.Safe.bind (Rd.Safe.read _) fun z => ?_
  split
  · exact Rd.Safe.fail _
  · exact Rd.Safe.pure _

theorem T0102.decode_safe (env : Env) (self : T0102) (data : Bytes) : T0102.decode env self data ≠ .panic := by
  unfold T0102.decode
  split
  · simp
  · refine runDecode_safe ?_ _
    rd_safe

theorem T8302.decode_safe (env : Env) (self : T8302) (data : Bytes) : T8302.decode env self data ≠ .panic := by
  have := decodeAnswers_safe env
  refine decodeMin_safe _ ?_ _
  rd_safe
  all_goals apply this

/-- Closes `Txxxx.decode … ≠ .panic` for the decoders of the common shape. -/
macro "dm_safe" : tactic => `(tactic| (refine decodeMin_safe _ ?_ _; rd_safe))

theorem Entity.wrapDec_safe {α : Type} (mk : α → Entity) (r : Res (α × Nat)) (h : r ≠ .panic) : Entity.wrapDec mk r ≠ .panic := by
  unfold Entity.wrapDec; split <;> simp_all

theorem Param.decodeItem_safe : Param.decodeItem.Safe := by unfold Param.decodeItem; rd_safe
theorem IdText.decodeItem_safe (env : Env) : (IdText.decodeItem env).Safe := by unfold IdText.decodeItem; rd_safe
theorem Contact.decodeItem_safe (env : Env) : (Contact.decodeItem env).Safe := by unfold Contact.decodeItem; rd_safe

theorem T0001.decode_safe (self : T0001) (data : Bytes) : T0001.decode self data ≠ .panic := by
  dm_safe

theorem TEmpty.decode_safe (self : TEmpty) (data : Bytes) : TEmpty.decode self data ≠ .panic := by
  simp [TEmpty.decode]

theorem T0100.decode_safe (env : Env) (self : T0100) (data : Bytes) : T0100.decode env self data ≠ .panic := by
  dm_safe

theorem T0104.decode_safe (self : T0104) (data : Bytes) : T0104.decode self data ≠ .panic := by
  have := Param.decodeItem_safe
  dm_safe

theorem T0302.decode_safe (self : T0302) (data : Bytes) : T0302.decode self data ≠ .panic := by
  dm_safe

theorem T0700.decode_safe (self : T0700) (data : Bytes) : T0700.decode self data ≠ .panic := by
  dm_safe

theorem T0701.decode_safe (self : T0701) (data : Bytes) : T0701.decode self data ≠ .panic := by
  dm_safe

theorem T0702.decode_safe (env : Env) (self : T0702) (data : Bytes) : T0702.decode env self data ≠ .panic := by
  dm_safe

theorem T0704.decode_safe (env : Env) (self : T0704) (data : Bytes) : T0704.decode env self data ≠ .panic := by
  have := T0704.decodeItem_safe env
  dm_safe

theorem T0800.decode_safe (self : T0800) (data : Bytes) : T0800.decode self data ≠ .panic := by
  dm_safe

theorem T0802.decode_safe (env : Env) (self : T0802) (data : Bytes) : T0802.decode env self data ≠ .panic := by
  have := MediaItem.decodeItem_safe env
  dm_safe

theorem T0805.decode_safe (self : T0805) (data : Bytes) : T0805.decode self data ≠ .panic := by
  dm_safe

theorem T8001.decode_safe (self : T0001) (data : Bytes) : T8001.decode self data ≠ .panic := by
  dm_safe

theorem T8003.decode_safe (self : T8003) (data : Bytes) : T8003.decode self data ≠ .panic := by
  dm_safe

theorem T8100.decode_safe (env : Env) (self : T8100) (data : Bytes) : T8100.decode env self data ≠ .panic := by
  dm_safe

theorem T8103.decode_safe (self : T8103) (data : Bytes) : T8103.decode self data ≠ .panic := by
  have := Param.decodeItem_safe
  dm_safe

theorem T8108.decode_safe (env : Env) (self : T8108) (data : Bytes) : T8108.decode env self data ≠ .panic := by
  dm_safe

theorem T8202.decode_safe (self : T8202) (data : Bytes) : T8202.decode self data ≠ .panic := by
  dm_safe

theorem T8203.decode_safe (self : T8203) (data : Bytes) : T8203.decode self data ≠ .panic := by
  dm_safe

theorem T8301.decode_safe (env : Env) (self : T8301) (data : Bytes) : T8301.decode env self data ≠ .panic := by
  have := IdText.decodeItem_safe env
  dm_safe

theorem T8303.decode_safe (env : Env) (self : T8303) (data : Bytes) : T8303.decode env self data ≠ .panic := by
  dm_safe

theorem T8304.decode_safe (env : Env) (self : T8304) (data : Bytes) : T8304.decode env self data ≠ .panic := by
  dm_safe

theorem T8400.decode_safe (env : Env) (self : T8400) (data : Bytes) : T8400.decode env self data ≠ .panic := by
  dm_safe

theorem T8401.decode_safe (env : Env) (self : T8401) (data : Bytes) : T8401.decode env self data ≠ .panic := by
  have := Contact.decodeItem_safe env
  dm_safe

theorem T8600.decode_safe (env : Env) (self : T8600) (data : Bytes) : T8600.decode env self data ≠ .panic := by
  have := CircleArea.decodeItem_safe env
  dm_safe

theorem T8602.decode_safe (env : Env) (self : T8602) (data : Bytes) : T8602.decode env self data ≠ .panic := by
  have := RectArea.decodeItem_safe env
  dm_safe

theorem T8606.decode_safe (env : Env) (self : T8606) (data : Bytes) : T8606.decode env self data ≠ .panic := by
  have := RoutePoint.decodeItem_safe
  dm_safe

theorem T8607.decode_safe (self : TIDs) (data : Bytes) : T8607.decode self data ≠ .panic := by
  dm_safe

theorem T8700.decode_safe (self : T8700) (data : Bytes) : T8700.decode self data ≠ .panic := by
  dm_safe

theorem T8800.decode_safe (self : T8800) (data : Bytes) : T8800.decode self data ≠ .panic := by
  dm_safe

theorem T8801.decode_safe (self : T8801) (data : Bytes) : T8801.decode self data ≠ .panic := by
  dm_safe

theorem T8802.decode_safe (env : Env) (self : T8802) (data : Bytes) : T8802.decode env self data ≠ .panic := by
  dm_safe

theorem T8803.decode_safe (env : Env) (self : T8803) (data : Bytes) : T8803.decode env self data ≠ .panic := by
  dm_safe

theorem T8804.decode_safe (self : T8804) (data : Bytes) : T8804.decode self data ≠ .panic := by
  dm_safe

theorem T8805.decode_safe (self : T8805) (data : Bytes) : T8805.decode self data ≠ .panic := by
  dm_safe

theorem T0A00.decode_safe (self : T0A00) (data : Bytes) : T0A00.decode self data ≠ .panic := by
  dm_safe

theorem Entity.decode_safe (env : Env) (e : Entity) (data : Bytes) : Entity.decode env e data ≠ .panic :=
  match e with
  | .m0001 b => wrapDec_safe _ _ (T0001.decode_safe b data)
  | .m0002 b => wrapDec_safe _ _ (TEmpty.decode_safe b data)
  | .m0003 b => wrapDec_safe _ _ (TEmpty.decode_safe b data)
  | .m0100 b => wrapDec_safe _ _ (T0100.decode_safe env b data)
  | .m0102 b => wrapDec_safe _ _ (T0102.decode_safe env b data)
  | .m0104 b => wrapDec_safe _ _ (T0104.decode_safe b data)
  | .m0107 b => wrapDec_safe _ _ (T0107.decode_safe b data)
  | .m0108 b => wrapDec_safe _ _ (T0108.decode_safe b data)
  | .m0200 b => wrapDec_safe _ _ (T0200.decode_safe env b data)
  | .m0201 b => wrapDec_safe _ _ (T0201.decode_safe env b data)
  | .m0301 b => wrapDec_safe _ _ (T0301.decode_safe b data)
  | .m0302 b => wrapDec_safe _ _ (T0302.decode_safe b data)
  | .m0303 b => wrapDec_safe _ _ (T0303.decode_safe b data)
  | .m0500 b => wrapDec_safe _ _ (T0201.decode_safe env b data)
  | .m0700 b => wrapDec_safe _ _ (T0700.decode_safe b data)
  | .m0701 b => wrapDec_safe _ _ (T0701.decode_safe b data)
  | .m0702 b => wrapDec_safe _ _ (T0702.decode_safe env b data)
  | .m0704 b => wrapDec_safe _ _ (T0704.decode_safe env b data)
  | .m0705 b => wrapDec_safe _ _ (T0705.decode_safe b data)
  | .m0800 b => wrapDec_safe _ _ (T0800.decode_safe b data)
  | .m0801 b => wrapDec_safe _ _ (T0801.decode_safe env b data)
  | .m0802 b => wrapDec_safe _ _ (T0802.decode_safe env b data)
  | .m0805 b => wrapDec_safe _ _ (T0805.decode_safe b data)
  | .m8001 b => wrapDec_safe _ _ (T8001.decode_safe b data)
  | .m8003 b => wrapDec_safe _ _ (T8003.decode_safe b data)
  | .m8100 b => wrapDec_safe _ _ (T8100.decode_safe env b data)
  | .m8103 b => wrapDec_safe _ _ (T8103.decode_safe b data)
  | .m8104 b => wrapDec_safe _ _ (TEmpty.decode_safe b data)
  | .m8105 b => wrapDec_safe _ _ (TByteText.decode_safe env b data)
  | .m8106 b => wrapDec_safe _ _ (TIDs.decode_safe b data)
  | .m8107 b => wrapDec_safe _ _ (TEmpty.decode_safe b data)
  | .m8108 b => wrapDec_safe _ _ (T8108.decode_safe env b data)
  | .m8201 b => wrapDec_safe _ _ (TEmpty.decode_safe b data)
  | .m8202 b => wrapDec_safe _ _ (T8202.decode_safe b data)
  | .m8203 b => wrapDec_safe _ _ (T8203.decode_safe b data)
  | .m8300 b => wrapDec_safe _ _ (TByteText.decode_safe env b data)
  | .m8301 b => wrapDec_safe _ _ (T8301.decode_safe env b data)
  | .m8302 b => wrapDec_safe _ _ (T8302.decode_safe env b data)
  | .m8303 b => wrapDec_safe _ _ (T8303.decode_safe env b data)
  | .m8304 b => wrapDec_safe _ _ (T8304.decode_safe env b data)
  | .m8400 b => wrapDec_safe _ _ (T8400.decode_safe env b data)
  | .m8401 b => wrapDec_safe _ _ (T8401.decode_safe env b data)
  | .m8500 b => wrapDec_safe _ _ (T8500.decode_safe b data)
  | .m8600 b => wrapDec_safe _ _ (T8600.decode_safe env b data)
  | .m8601 b => wrapDec_safe _ _ (TIDs.decode_safe b data)
  | .m8602 b => wrapDec_safe _ _ (T8602.decode_safe env b data)
  | .m8603 b => wrapDec_safe _ _ (TIDs.decode_safe b data)
  | .m8604 b => wrapDec_safe _ _ (T8604.decode_safe env b data)
  | .m8605 b => wrapDec_safe _ _ (TIDs.decode_safe b data)
  | .m8606 b => wrapDec_safe _ _ (T8606.decode_safe env b data)
  | .m8607 b => wrapDec_safe _ _ (T8607.decode_safe b data)
  | .m8700 b => wrapDec_safe _ _ (T8700.decode_safe b data)
  | .m8701 b => wrapDec_safe _ _ (T8700.decode_safe b data)
  | .m8702 b => wrapDec_safe _ _ (TEmpty.decode_safe b data)
  | .m8800 b => wrapDec_safe _ _ (T8800.decode_safe b data)
  | .m8801 b => wrapDec_safe _ _ (T8801.decode_safe b data)
  | .m8802 b => wrapDec_safe _ _ (T8802.decode_safe env b data)
  | .m8803 b => wrapDec_safe _ _ (T8803.decode_safe env b data)
  | .m8804 b => wrapDec_safe _ _ (T8804.decode_safe b data)
  | .m8805 b => wrapDec_safe _ _ (T8805.decode_safe b data)
  | .m8900 b => wrapDec_safe _ _ (T0900.decode_safe b data)
  | .m0900 b => wrapDec_safe _ _ (T0900.decode_safe b data)
  | .m0901 b => wrapDec_safe _ _ (T0901.decode_safe env b data)
  | .m0a00 b => wrapDec_safe _ _ (T0A00.decode_safe b data)
  | .m8a00 b => wrapDec_safe _ _ (T0A00.decode_safe b data)

theorem Entity.decodeBody_safe (env : Env) (id : UInt16) (data : Bytes) : Entity.decodeBody env id data ≠ .panic := by
  unfold Entity.decodeBody
  split
  · simp
  · split
    · rename_i b _
      have := T0801.decodePacket_safe env b data
      split <;> simp_all
    · exact Entity.decode_safe env _ data

end Verif
