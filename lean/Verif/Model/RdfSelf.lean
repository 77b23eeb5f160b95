import Verif.Model.SledSelf
import Verif.Model.Rdf

/-!
# `extend` and `merge` with another RDF store on the same database

`a.extend(b)` and `a.merge(b)` read `b` lazily while they write to `a` (src/rdf/extend.rs:20-36, src/rdf/merge.rs:20-38).  When both are
handles on one `sled::Db`, the loops write to the trees they are traversing, and look names up in trees to which they may write
(src/rdf/iter.rs:106-125).
-/

namespace Verif

namespace RdfSelf

variable {NP EP : Type} (cl : Codec String) (cr : Codec Ulid) (c : Codecs NP EP) (mN : NP → NP → NP) (mE : EP → EP → EP)

/-- An RDF store on sled. -/
abbrev Store := Rdf IndexDb (SledStore Ulid)

abbrev Err := RdfErr (SledIndexErr String Ulid) SErr

/-- the result of a loop -/
abbrev Out := Store × Except (LR Err Err) Unit

/-- What the node iterator makes of an entry now (src/rdf/iter.rs:111-117). -/
def nodeItem (r : Store) (e : Bytes × Bytes) : Except Err (Entity × NP) :=
  Rdf.vertexItem (SledIndex.impl cl cr) r.nameIndex (Sled.vertexItem Ulid c e)

/-- What the edge iterator makes of an entry now (src/rdf/iter.rs:119-125). -/
def edgeItem (r : Store) (e : Bytes × Bytes) : Except Err (Triple Entity × EP) :=
  Rdf.edgeItem (SledIndex.impl cl cr) r.nameIndex (Sled.intoEdgeItem Ulid c r.graph.db e)

/-- one turn of the node loop of `extend` (src/rdf/extend.rs:22-27) -/
def extendTurnN (r : Store) (e : Bytes × Bytes) : Out :=
  r.extend (SledIndex.impl cl cr) (SledStore.impl c mN mE) { nodes := [nodeItem cl cr c r e], edges := [] }

/-- one turn of the edge loop of `extend` (src/rdf/extend.rs:29-34) -/
def extendTurnE (r : Store) (e : Bytes × Bytes) : Out :=
  r.extend (SledIndex.impl cl cr) (SledStore.impl c mN mE) { nodes := [], edges := [edgeItem cl cr c r e] }

/-- one turn of the node loop of `merge` (src/rdf/merge.rs:22-27) -/
def mergeTurnN (r : Store) (e : Bytes × Bytes) : Out :=
  r.merge (SledIndex.impl cl cr) (SledStore.impl c mN mE) { nodes := [nodeItem cl cr c r e], edges := [] }

/-- one turn of the edge loop of `merge` (src/rdf/merge.rs:29-34) -/
def mergeTurnE (r : Store) (e : Bytes × Bytes) : Out :=
  r.merge (SledIndex.impl cl cr) (SledStore.impl c mN mE) { nodes := [], edges := [edgeItem cl cr c r e] }

/-- `r.extend(other)`, `other` being another store on the same database: what it can lead to. -/
def Extend (r : Store) (out : Out) : Prop :=
  Sled.Both (fun r => Sled.Loop (fun r => r.graph.db.nodeProps) (extendTurnN cl cr c mN mE) r ⟨[], none⟩)
    (fun r => Sled.Loop (fun r => r.graph.db.spo) (extendTurnE cl cr c mN mE) r ⟨[], none⟩) r out

/-- `r.merge(other)`, `other` being another store on the same database: what it can lead to. -/
def Merge (r : Store) (out : Out) : Prop :=
  Sled.Both (fun r => Sled.Loop (fun r => r.graph.db.nodeProps) (mergeTurnN cl cr c mN mE) r ⟨[], none⟩)
    (fun r => Sled.Loop (fun r => r.graph.db.spo) (mergeTurnE cl cr c mN mE) r ⟨[], none⟩) r out

end RdfSelf

end Verif
