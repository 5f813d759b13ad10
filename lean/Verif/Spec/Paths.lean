import Verif.Spec.Handler
/-! # Where uploads are stored -/

namespace Verif.Spec
open Handler

/-- The components of a path. -/
def components : Bytes → List Bytes
  | [] => [[]]
  | b :: t =>
    match components t with
    | [] => [[b]]
    | c :: cs => if b = 47 then [] :: c :: cs else (b :: c) :: cs

/-- A decimal number: digits, at least one. -/
def DecimalName (s : Bytes) : Prop := s ≠ [] ∧ ∀ b ∈ s, 48 ≤ b ∧ b ≤ 57

/-- "<number>-<number>-<number>.part". -/
def PartFileName (s : Bytes) : Prop := ∃ a b c, DecimalName a ∧ DecimalName b ∧ DecimalName c ∧ s = a ++ "-".toUTF8.data.toList ++ b ++ "-".toUTF8.data.toList ++ c ++ ".part".toUTF8.data.toList

/-- "<number>-<number>.full". -/
def FullFileName (s : Bytes) : Prop := ∃ a b, DecimalName a ∧ DecimalName b ∧ s = a ++ "-".toUTF8.data.toList ++ b ++ ".full".toUTF8.data.toList

/-- The path is that of a file directly in the directory of a terminal below `tmp`: its components are those of `tmp`, then "go808", then a number, then
the name of a part or of a merged upload. -/
def Confined (tmp path : Bytes) : Prop :=
  ∃ terminal name, components path = components tmp ++ ["go808".toUTF8.data.toList, terminal, name] ∧ DecimalName terminal ∧ (PartFileName name ∨ FullFileName name)

/-- The storage contains a file with this path and content. -/
def StoredAt (tmp : Bytes) (fs : FS) (path content : Bytes) : Prop :=
  ∃ icc d name, fs icc = some d ∧ (name, content) ∈ d ∧ path = ({ icc := icc, msgID := 0, tag := 0, sum := 0 } : Multipart).rootDir tmp ++ [47] ++ name

/-- A step of another goroutine that stores or merges something. -/
def storing : Outside → Bool
  | .write _ _ _ _ => true
  | .merge _ _ => true
  | _ => false

/-- No other goroutine stores or merges anything. -/
def StoresNothing : Input → Prop
  | .outside x => storing x = false
  | .receive _ a => ∀ x ∈ a.afterWrite ++ a.afterCheck ++ a.afterMerge ++ a.beforeDispatch, storing x = false

end Verif.Spec
