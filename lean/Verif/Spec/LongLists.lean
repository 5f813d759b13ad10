import Verif.Model.Entity
/-! # Lists that do not fit their count field, nor a message -/

namespace Verif.Spec

/-- The body is a list of ids, parameters, reports, CAN items, areas, vertexes or points with more items than its count field can say. -/
def LongList : Entity → Prop
  | .m8106 e | .m8601 e | .m8603 e | .m8605 e | .m8607 e => 256 ≤ e.ids.length
  | .m8103 e => 256 ≤ e.params.length
  | .m0104 e => 256 ≤ e.params.length
  | .m8600 e => 256 ≤ e.items.length
  | .m8602 e => 256 ≤ e.items.length
  | .m0704 e => 65536 ≤ e.items.length
  | .m0705 e => 65536 ≤ e.items.length ∧ ∀ i ∈ e.items, i.id.length = 4
  | .m0802 e => 65536 ≤ e.items.length
  | .m0805 e => 65536 ≤ e.mediaIDs.length
  | .m8604 e => 65536 ≤ e.vertexes.length
  | .m8606 e => 65536 ≤ e.points.length
  | _ => False

end Verif.Spec
