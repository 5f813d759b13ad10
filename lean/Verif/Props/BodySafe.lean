import Verif.Lemmas.Safe
import Verif.Props.Frame
/-! # C15: body decoders never panic; C05 for the registered body types -/

namespace Verif

/-- C15: every body type's `Decode`, called on any previous value of the body and any bytes, returns. -/
theorem C15_decode_never_panics (env : Env) (e : Entity) (data : Bytes) : Entity.decode env e data ≠ .panic :=
  Entity.decode_safe env e data

/-- C15: decoding the body of a received message, including the file packets of 0x0801, never panics. -/
theorem C15_message_body_never_panics (env : Env) (id : UInt16) (data : Bytes) : Entity.decodeBody env id data ≠ .panic :=
  Entity.decodeBody_safe env id data

/-- C15: the same for a single extra of a location report. -/
theorem C15_extra_never_panics (id : UInt8) (data : Bytes) : Extra.decode id data ≠ .panic := Extra.decode_safe id data

/-- C15: reading a received terminal parameter with any getter never panics. -/
theorem C15_param_getters_never_panic (env : Env) (p : Param) :
    p.getByte ≠ .panic ∧ p.getBytes ≠ .panic ∧ p.getUint16 ≠ .panic ∧ p.getUint32 ≠ .panic ∧ p.getString env ≠ .panic := by
  refine ⟨?_, by simp [Param.getBytes], ?_, ?_, ?_⟩
  · unfold Param.getByte
    split
    · simp
    · exact idx_safe _ 0 (by omega)
  · unfold Param.getUint16
    split
    · simp
    · rw [slice_ok _ _ _ (by omega) (by omega), Res.ok_bind]
      exact be16_safe _ (by simp; omega)
  · unfold Param.getUint32
    split
    · simp
    · rw [slice_ok _ _ _ (by omega) (by omega), Res.ok_bind]
      exact be32_safe _ (by simp; omega)
  · unfold Param.getString
    split <;> simp

/-- The decoders do accept data: a location report with a mileage extra and one unknown extra. -/
example : ∃ t n, Entity.decodeBody Sample.env 0x0200
    ([0, 0, 0, 1] ++ [0, 0, 0, 4] ++ [1, 0, 0, 0] ++ [2, 0, 0, 0] ++ [0, 1, 0, 2, 0, 3] ++ [0x21, 0x10, 0x12, 0x23, 0x59, 0x58] ++
      [1, 4, 0, 0, 0, 9] ++ [0x77, 1, 5]) = .ok (.m0200 t, n) ∧ t.extras.length = 1 := ⟨_, _, rfl, rfl⟩

/-- C05 for the registered body types: without a private key, and with one of positive size, `Decode` panics exactly
on a single byte between two delimiters. -/
theorem C05_registered_panics_iff_partial (env : Env) (key : Option DecKey) (hkey : ∀ k, key = some k → 0 < k.size)
    (self : Message Entity) (data : Bytes) :
    Message.decode (entityCodec env) key self data = .panic ↔ ∃ x, data = [0x7e, x, 0x7e] :=
  C05_decode_panics_iff_partial (entityCodec env) (fun id b => Entity.decodeBody_safe env id b) key hkey self data

/-- The hypothesis is met by every key of 128 bytes. -/
example (dec : Bytes → Option Bytes) : Message.decode Sample.codec (some ⟨128, dec⟩) Sample.message [0x7e, 0, 0x7e] = .panic :=
  (C05_registered_panics_iff_partial Sample.env _ (fun k hk => by cases hk; exact (by decide : (0 : Int) < 128)) _ _).2 ⟨_, rfl⟩

end Verif
