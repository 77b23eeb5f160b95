import Verif.Model.RdfSled
import Verif.Model.SledScan

/-!
# The closures of the lazy iterators of the RDF store on sled

`Rdf.iterEdges` looks all names up at one moment.  When others write in the meantime, each name may be looked up at another
moment; these are the functions applied to one item of the triple store, `i1`, `i2`, … being the name index at these moments.
-/

namespace Verif

namespace RdfSled

variable {NP EP : Type}

/-- What `iter_edges` makes of an item (src/rdf/iter.rs:80-86, `Triple::try_map`: src/triple.rs:22-31): the names of the subject, the
predicate and the object are looked up in this order. -/
def edgeItem (cl : Codec String) (cr : Codec Ulid) (i1 i2 i3 : IndexDb) :
    Except SErr (Triple Ulid × EP) → Except (RdfErr (SledIndexErr String Ulid) SErr) (Triple Entity × EP)
  | .error e => .error (.graph e)
  | .ok (t, p) =>
    match Rdf.lookupId (SledIndex.impl cl cr) i1 t.sub with
    | .error e => .error e
    | .ok s =>
      match Rdf.lookupId (SledIndex.impl cl cr) i2 t.pred with
      | .error e => .error e
      | .ok q =>
        match Rdf.lookupId (SledIndex.impl cl cr) i3 t.obj with
        | .error e => .error e
        | .ok o => .ok ({ sub := s, pred := q, obj := o }, p)

/-- What `iter_edges_with_props` makes of an item (src/rdf/iter.rs:67-73). -/
def propsItem (cl : Codec String) (cr : Codec Ulid) (i1 i2 i3 : IndexDb) :
    Except SErr (PropsTriple Ulid NP EP) → Except (RdfErr (SledIndexErr String Ulid) SErr) (PropsTriple Entity NP EP)
  | .error e => .error (.graph e)
  | .ok t =>
    match Rdf.lookupId (SledIndex.impl cl cr) i1 t.sub.1 with
    | .error e => .error e
    | .ok s =>
      match Rdf.lookupId (SledIndex.impl cl cr) i2 t.pred.1 with
      | .error e => .error e
      | .ok q =>
        match Rdf.lookupId (SledIndex.impl cl cr) i3 t.obj.1 with
        | .error e => .error e
        | .ok o => .ok { sub := (s, t.sub.2), pred := (q, t.pred.2), obj := (o, t.obj.2) }

/-- What `iter_vertices` makes of an item (src/rdf/iter.rs:56-59): one look-up. -/
def vertexItem (cl : Codec String) (cr : Codec Ulid) (i : IndexDb) :
    Except SErr (Ulid × NP) → Except (RdfErr (SledIndexErr String Ulid) SErr) (Entity × NP) :=
  Rdf.vertexItem (SledIndex.impl cl cr) i

end RdfSled

end Verif
