import Verif.Model.RdfSled
import Verif.Model.SledRemove

/-!
# `remove_node` of the RDF layer over sled, scanning piece by piece

As `RdfSled.removeNode`, with the `remove_node` of `Model/SledRemove.lean`.
-/

namespace Verif

namespace RdfSled

/-- `remove_node` (src/rdf/remove.rs:13-17), the scans of the triple store (src/sled/remove.rs:18-122) being made in pieces. -/
def removeNodePieces (cl : Codec String) (cr : Codec Ulid) (fs bs : List Nat) (e : Entity) : Task Unit :=
  (lookupEntity cl cr e).andThen (fun id => onGraph (Sled.removeNodePieces fs bs id))

end RdfSled

end Verif
