import Verif.Model.Closure
import Verif.Model.RdfSledScan

/-!
# Queries on an RDF store on sled, while others write

`Rdf.run` reads everything at one moment.  When others write in the meantime, each name in the query, each entry and each name in the
result may be looked up at another moment.
-/

namespace Verif

namespace RdfSled

variable {NP EP : Type}

abbrev LazyErr := Rdf.RunErr (SledIndexErr String Ulid) SErr Unit

/-- a look-up in a name index (`lookup_entity`, src/rdf.rs:95-107) -/
def entityIn (cl : Codec String) (cr : Codec Ulid) (i : IndexDb) (e : Entity) : Except (RdfErr (SledIndexErr String Ulid) SErr) Ulid :=
  Rdf.lookupEntity (SledIndex.impl cl cr) (⟨i, (), fun _ => 0⟩ : Rdf IndexDb Unit) e

/-- The translation of the query (src/rdf/query.rs:33-36): `ask k` is the name index when the closure is called for the `k`th time. -/
def translate (cl : Codec String) (cr : Codec Ulid) (ask : Nat → IndexDb) (q : Query Entity) :
    Except (RdfErr (SledIndexErr String Ulid) SErr) (Query Ulid) :=
  (q.tryMapMut (fun k e => (k + 1, entityIn cl cr (ask k) e)) 0).2

/-- The loop body that records the name of an id (src/rdf/query.rs:50-56, 64-70): `tell k` is the name index at the `k`th look-up. -/
def recordAt (cl : Codec String) (cr : Codec Ulid) (tell : Nat → IndexDb) (x : Nat × MemIndex String Ulid) (id : Ulid) :
    Except LazyErr (Nat × MemIndex String Ulid) :=
  match Rdf.record (SledIndex.impl cl cr) (⟨tell x.1, (), fun _ => 0⟩ : Rdf IndexDb Unit) x.2 id with
  | .error e => .error e
  | .ok m => .ok (x.1 + 1, m)

/-- The loop over the edges of the result (src/rdf/query.rs:59-72). -/
def recordEdgesAt (cl : Codec String) (cr : Codec Ulid) (tell : Nat → IndexDb) :
    Nat × MemIndex String Ulid → List (Except Unit (Triple Ulid × EP)) → Except LazyErr (Nat × MemIndex String Ulid)
  | x, [] => .ok x
  | _, .error e :: _ => .error (.right (.graph e))
  | x, .ok (t, _) :: l =>
    match Sled.tryFold (recordAt cl cr tell) x [t.sub, t.pred, t.obj] with
    | .error e => .error e
    | .ok x => recordEdgesAt cl cr tell x l

/-- `run` (src/rdf/query.rs:26-75), as `Rdf.run`, the reads being made while others write. -/
def runLazy (cl : Codec String) (cr : Codec Ulid) (c : Codecs NP EP) (ask tell : Nat → IndexDb) (ρ : Sled.Reads) (g u : Gen Ulid)
    (q : Query Entity) : Except LazyErr (Rdf (MemIndex String Ulid) (Mem Ulid NP EP)) :=
  match translate cl cr ask q with
  | .error e => .error (.left e)
  | .ok q =>
    match Sled.runLazy c g ρ q with
    | .error e => .error (.left (.graph e))
    | .ok res =>
      match Sled.tryFold (recordAt cl cr tell) (0, .new) res.vertices with
      | .error e => .error e
      | .ok x =>
        match recordEdgesAt cl cr tell x (res.iterEdges .SPO) with
        | .error e => .error e
        | .ok x => .ok (Rdf.new x.2 res u)

end RdfSled

end Verif
