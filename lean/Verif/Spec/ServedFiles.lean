import Verif.Spec.Promised
/-! # What a server stores -/

namespace Verif.Converse

/-- The parts a server writes to its storage, successfully or not, in order: the file, the number of the part, the content. -/
def storedOf (log : List Ev) : List (Multipart × UInt16 × Bytes) := log.filterMap fun | .stored f n d _ => some (f, n, d) | _ => none

end Verif.Converse
