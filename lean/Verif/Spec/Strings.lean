import Verif.Model.Basic
/-! # Specification of fixed-width string fields and of parameter values -/

namespace Verif.Spec

/-- The `n` bytes of a fixed-width field that holds `s`: cut, or padded with NUL. -/
def padded (n : Nat) (s : Bytes) : Bytes := (s ++ List.replicate n 0).take n

/-- What a reader of a fixed-width field of width `n` sees: the part before the first NUL of the first `n` bytes. -/
def seen (n : Nat) (s : Bytes) : Bytes := (s.take n).takeWhile (· ≠ 0)

end Verif.Spec
