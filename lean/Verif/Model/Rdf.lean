import Verif.Model.Index
import Verif.Model.MemSet

/-!
# The RDF layer  (src/rdf.rs, src/rdf/*.rs)

`RdfTripleStore` works with any `BidirIndex` and any `TripleStore`, so the model takes the records of their methods.
-/

namespace Verif

/-- The methods of a `TripleStore<Id, NodeProps, EdgeProps>` (src/traits/triplestore.rs and src/traits/{insert,remove,merge,
iter}.rs) that the RDF layer calls.  `S` is the implementing type, `X` its `Error`. -/
structure StoreImpl (S X Id NP EP : Type) where
  insertNode : S → Id → NP → S × Except X Unit
  insertEdge : S → Triple Id → EP → S × Except X Unit
  removeNode : S → Id → S × Except X Unit
  removeEdge : S → Triple Id → S × Except X Unit
  mergeNode : S → Id → NP → S × Except X Unit
  mergeEdge : S → Triple Id → EP → S × Except X Unit
  vertices : S → Except X (List Id)
  iterNodes : S → EdgeOrder → Source X Id NP EP
  iterVertices : S → List (Except X (Id × NP))
  iterEdgesWithProps : S → EdgeOrder → List (Except X (PropsTriple Id NP EP))
  iterEdges : S → EdgeOrder → List (Except X (Triple Id × EP))
  intoIterNodes : S → EdgeOrder → Source X Id NP EP
  intoIterVertices : S → List (Except X (Id × NP))
  intoIterEdgesWithProps : S → EdgeOrder → List (Except X (PropsTriple Id NP EP))
  intoIterEdges : S → EdgeOrder → List (Except X (Triple Id × EP))

/-- `TripleStoreQuery::run`; `Q` is the `QueryResult`, the second argument the stream of the generator given to it. -/
abbrev RunImpl (S X Q QX Id : Type) := S → Gen Id → Query Id → Except (LR X QX) Q

section
variable {Id NP EP : Type} [LinearOrder Id] [ConcreteId Id]

/-- `MemTripleStore` as a `TripleStore`; its `Error` is `()`. -/
def Mem.impl (mN : NP → NP → NP) (mE : EP → EP → EP) : StoreImpl (Mem Id NP EP) Unit Id NP EP where
  insertNode s n p := (s.insertNode n p, .ok ())
  insertEdge s t p := (s.insertEdge t p, .ok ())
  removeNode s n := (s.removeNode n, .ok ())
  removeEdge s t := (s.removeEdge t, .ok ())
  mergeNode s n p := (s.mergeNode mN n p, .ok ())
  mergeEdge s t p := (s.mergeEdge mE t p, .ok ())
  vertices s := .ok s.vertices
  iterNodes := Mem.iterNodes
  iterVertices := Mem.iterVertices
  iterEdgesWithProps := Mem.iterEdgesWithProps
  iterEdges := Mem.iterEdges
  intoIterNodes := Mem.intoIterNodes
  intoIterVertices := Mem.intoIterVertices
  intoIterEdgesWithProps := Mem.intoIterEdgesWithProps
  intoIterEdges := Mem.intoIterEdges

def Mem.runImpl : RunImpl (Mem Id NP EP) Unit (Mem Id NP EP) Unit Id := fun s g q => .ok (s.run g q)

/-- `SledTripleStore` as a `TripleStore`. -/
def SledStore.impl (c : Codecs NP EP) (mN : NP → NP → NP) (mE : EP → EP → EP) :
    StoreImpl (SledStore Id) SErr Id NP EP where
  insertNode s n p := s.insertNode c n p
  insertEdge s t p := s.insertEdge c t p
  removeNode s n := s.removeNode n
  removeEdge s t := s.removeEdge t
  mergeNode s n p := s.mergeNode c mN n p
  mergeEdge s t p := s.mergeEdge c mE t p
  vertices s := Sled.vertices Id s.db
  iterNodes s o := Sled.iterNodes c s.db o
  iterVertices s := Sled.iterVertices Id c s.db
  iterEdgesWithProps s o := Sled.iterEdgesWithProps Id c s.db o
  iterEdges s o := Sled.iterEdges Id c s.db o
  intoIterNodes s o := Sled.intoIterNodes c s.db o
  intoIterVertices s := Sled.intoIterVertices Id c s.db
  intoIterEdgesWithProps s o := Sled.intoIterEdgesWithProps Id c s.db o
  intoIterEdges s o := Sled.intoIterEdges Id c s.db o

def SledStore.runImpl (c : Codecs NP EP) : RunImpl (SledStore Id) SErr (Mem Id NP EP) Unit Id :=
  fun s g q => Sled.runQuery c s.db g q

end

/-- `enum Entity` (src/rdf.rs:12-16). -/
inductive Entity where
  | string (s : String)
  | ulid (u : Ulid)
deriving DecidableEq, Repr

/-- `enum RdfTripleStoreError` (src/rdf.rs:37-42). -/
inductive RdfErr (IX SX : Type) where
  | nameIndex (e : IX)
  | graph (e : SX)
  | nameNotFound (s : String)
deriving DecidableEq, Repr

/-- `struct RdfTripleStore` (src/rdf.rs:44-53), with the stream of ids `Ulid::new()` is going to return to it. -/
structure Rdf (I S : Type) where
  nameIndex : I
  graph : S
  ulid : Gen Ulid

namespace Rdf

variable {I S Q IX SX QX NP EP E : Type}

/-- `RdfTripleStore::new` (src/rdf.rs:62-68). -/
def new (i : I) (g : S) (u : Gen Ulid) : Rdf I S := { nameIndex := i, graph := g, ulid := u }

section
variable (ix : BidirIndex I IX String Ulid)

/-- `lookup_or_create_entity` (src/rdf.rs:70-93). -/
def lookupOrCreateEntity (r : Rdf I S) : Entity → Rdf I S × Except (RdfErr IX SX) Ulid
  | .string s =>
    match ix.leftToRight r.nameIndex s with
    | .error e => (r, .error (.nameIndex e))
    | .ok (some id) => (r, .ok id)
    | .ok none =>
      let (id, u) := Gen.fresh r.ulid
      let r := { r with ulid := u }
      match ix.set r.nameIndex s id with
      | (i, .error e) => ({ r with nameIndex := i }, .error (.nameIndex e))
      | (i, .ok ()) => ({ r with nameIndex := i }, .ok id)
  | .ulid id => (r, .ok id)

/-- `lookup_entity` (src/rdf.rs:95-107). -/
def lookupEntity (r : Rdf I S) : Entity → Except (RdfErr IX SX) Ulid
  | .string s =>
    match ix.leftToRight r.nameIndex s with
    | .error e => .error (.nameIndex e)
    | .ok (some id) => .ok id
    | .ok none => .error (.nameNotFound s)
  | .ulid id => .ok id

/-- `lookup_id` (src/rdf.rs:109-122). -/
def lookupId (i : I) (id : Ulid) : Except (RdfErr IX SX) Entity :=
  match ix.rightToLeft i id with
  | .error e => .error (.nameIndex e)
  | .ok (some s) => .ok (.string s)
  | .ok none => .ok (.ulid id)

/-- `triple.try_map(|entity| self.lookup_or_create_entity(&entity))`: `Triple::try_map` (src/triple.rs:22-31) with a closure
that changes the store. -/
def createTriple (r : Rdf I S) (t : Triple Entity) : Rdf I S × Except (RdfErr IX SX) (Triple Ulid) :=
  match r.lookupOrCreateEntity ix t.sub with
  | (r, .error e) => (r, .error e)
  | (r, .ok s) =>
    match r.lookupOrCreateEntity ix t.pred with
    | (r, .error e) => (r, .error e)
    | (r, .ok p) =>
      match r.lookupOrCreateEntity ix t.obj with
      | (r, .error e) => (r, .error e)
      | (r, .ok o) => (r, .ok { sub := s, pred := p, obj := o })

/-- `self.graph.f(..).map_err(GraphStorageError)`. -/
def onGraph (r : Rdf I S) (x : S × Except SX Unit) : Rdf I S × Except (RdfErr IX SX) Unit :=
  match x with
  | (g, .ok ()) => ({ r with graph := g }, .ok ())
  | (g, .error e) => ({ r with graph := g }, .error (.graph e))

variable (st : StoreImpl S SX Ulid NP EP)

/-- `insert_node` (src/rdf/insert.rs:16-21). -/
def insertNode (r : Rdf I S) (e : Entity) (p : NP) : Rdf I S × Except (RdfErr IX SX) Unit :=
  match r.lookupOrCreateEntity ix e with
  | (r, .error x) => (r, .error x)
  | (r, .ok id) => r.onGraph (st.insertNode r.graph id p)

/-- `insert_edge` (src/rdf/insert.rs:23-28). -/
def insertEdge (r : Rdf I S) (t : Triple Entity) (p : EP) : Rdf I S × Except (RdfErr IX SX) Unit :=
  match r.createTriple ix t with
  | (r, .error x) => (r, .error x)
  | (r, .ok t) => r.onGraph (st.insertEdge r.graph t p)

/-- `merge_node` (src/rdf/merge.rs:39-45). -/
def mergeNode (r : Rdf I S) (e : Entity) (p : NP) : Rdf I S × Except (RdfErr IX SX) Unit :=
  match r.lookupOrCreateEntity ix e with
  | (r, .error x) => (r, .error x)
  | (r, .ok id) => r.onGraph (st.mergeNode r.graph id p)

/-- `merge_edge` (src/rdf/merge.rs:47-56). -/
def mergeEdge (r : Rdf I S) (t : Triple Entity) (p : EP) : Rdf I S × Except (RdfErr IX SX) Unit :=
  match r.createTriple ix t with
  | (r, .error x) => (r, .error x)
  | (r, .ok t) => r.onGraph (st.mergeEdge r.graph t p)

/-- `remove_node` (src/rdf/remove.rs:13-17). -/
def removeNode (r : Rdf I S) (e : Entity) : Rdf I S × Except (RdfErr IX SX) Unit :=
  match r.lookupEntity ix e with
  | .error x => (r, .error x)
  | .ok id => r.onGraph (st.removeNode r.graph id)

/-- `remove_edge` (src/rdf/remove.rs:19-23). -/
def removeEdge (r : Rdf I S) (t : Triple Entity) : Rdf I S × Except (RdfErr IX SX) Unit :=
  match t.tryMap (fun e => r.lookupEntity ix e) with
  | .error x => (r, .error x)
  | .ok t => r.onGraph (st.removeEdge r.graph t)

/-- `for r in it { let x = r.map_err(Right)?; f(self, x).map_err(Left)?; }`: the loops of `extend` and `merge`. -/
def absorb {X σ α : Type} (f : σ → α → σ × Except X Unit) : σ → List (Except E α) → σ × Except (LR X E) Unit
  | r, [] => (r, .ok ())
  | r, .error e :: _ => (r, .error (.right e))
  | r, .ok a :: l =>
    match f r a with
    | (r, .error x) => (r, .error (.left x))
    | (r, .ok ()) => absorb f r l

/-- `extend` (src/rdf/extend.rs:16-37). -/
def extend (r : Rdf I S) (other : Source E Entity NP EP) : Rdf I S × Except (LR (RdfErr IX SX) E) Unit :=
  match absorb (fun r x => insertNode ix st r x.1 x.2) r other.nodes with
  | (r, .error e) => (r, .error e)
  | (r, .ok ()) => absorb (fun r x => insertEdge ix st r x.1 x.2) r other.edges

/-- `merge` (src/rdf/merge.rs:16-37). -/
def merge (r : Rdf I S) (other : Source E Entity NP EP) : Rdf I S × Except (LR (RdfErr IX SX) E) Unit :=
  match absorb (fun r x => mergeNode ix st r x.1 x.2) r other.nodes with
  | (r, .error e) => (r, .error e)
  | (r, .ok ()) => absorb (fun r x => mergeEdge ix st r x.1 x.2) r other.edges

/-! ## Iterators (src/rdf/iter.rs) -/

/-- The closure for the items of `iter_vertices` (src/rdf/iter.rs:37-40, 56-59, 110-116, 131-134). -/
def vertexItem (i : I) : Except SX (Ulid × NP) → Except (RdfErr IX SX) (Entity × NP)
  | .error e => .error (.graph e)
  | .ok (id, p) =>
    match lookupId ix i id with
    | .error e => .error e
    | .ok e => .ok (e, p)

/-- The closure for the items of `iter_edges` (src/rdf/iter.rs:42-48, 80-86, 118-124, 158-164). -/
def edgeItem (i : I) : Except SX (Triple Ulid × EP) → Except (RdfErr IX SX) (Triple Entity × EP)
  | .error e => .error (.graph e)
  | .ok (t, p) =>
    match t.tryMap (fun id => lookupId ix i id) with
    | .error e => .error e
    | .ok t => .ok (t, p)

/-- The closure for the items of `iter_edges_with_props` (src/rdf/iter.rs:67-73, 144-150). -/
def propsItem (i : I) : Except SX (PropsTriple Ulid NP EP) → Except (RdfErr IX SX) (PropsTriple Entity NP EP)
  | .error e => .error (.graph e)
  | .ok t =>
    match lookupId ix i t.sub.1 with
    | .error e => .error e
    | .ok s =>
      match lookupId ix i t.pred.1 with
      | .error e => .error e
      | .ok p =>
        match lookupId ix i t.obj.1 with
        | .error e => .error e
        | .ok o => .ok { sub := (s, t.sub.2), pred := (p, t.pred.2), obj := (o, t.obj.2) }

/-- `vertices` (src/rdf/iter.rs:18-26). -/
def vertices (r : Rdf I S) : Except (RdfErr IX SX) (List Entity) :=
  match st.vertices r.graph with
  | .error e => .error (.graph e)
  | .ok l => Sled.collect (l.map (fun id => lookupId ix r.nameIndex id))

/-- `iter_nodes` (src/rdf/iter.rs:28-51). -/
def iterNodes (r : Rdf I S) (o : EdgeOrder) : Source (RdfErr IX SX) Entity NP EP :=
  { nodes := (st.iterNodes r.graph o).nodes.map (vertexItem ix r.nameIndex)
    edges := (st.iterNodes r.graph o).edges.map (edgeItem ix r.nameIndex) }

/-- `iter_vertices` (src/rdf/iter.rs:53-60). -/
def iterVertices (r : Rdf I S) : List (Except (RdfErr IX SX) (Entity × NP)) :=
  (st.iterVertices r.graph).map (vertexItem ix r.nameIndex)

/-- `iter_edges_with_props` (src/rdf/iter.rs:62-74). -/
def iterEdgesWithProps (r : Rdf I S) (o : EdgeOrder) : List (Except (RdfErr IX SX) (PropsTriple Entity NP EP)) :=
  (st.iterEdgesWithProps r.graph o).map (propsItem ix r.nameIndex)

/-- `iter_edges` (src/rdf/iter.rs:76-87). -/
def iterEdges (r : Rdf I S) (o : EdgeOrder) : List (Except (RdfErr IX SX) (Triple Entity × EP)) :=
  (st.iterEdges r.graph o).map (edgeItem ix r.nameIndex)

/-- `into_iter_nodes` (src/rdf/iter.rs:98-127). -/
def intoIterNodes (r : Rdf I S) (o : EdgeOrder) : Source (RdfErr IX SX) Entity NP EP :=
  { nodes := (st.intoIterNodes r.graph o).nodes.map (vertexItem ix r.nameIndex)
    edges := (st.intoIterNodes r.graph o).edges.map (edgeItem ix r.nameIndex) }

/-- `into_iter_vertices` (src/rdf/iter.rs:129-135). -/
def intoIterVertices (r : Rdf I S) : List (Except (RdfErr IX SX) (Entity × NP)) :=
  (st.intoIterVertices r.graph).map (vertexItem ix r.nameIndex)

/-- `into_iter_edges_with_props` (src/rdf/iter.rs:137-151). -/
def intoIterEdgesWithProps (r : Rdf I S) (o : EdgeOrder) :
    List (Except (RdfErr IX SX) (PropsTriple Entity NP EP)) :=
  (st.intoIterEdgesWithProps r.graph o).map (propsItem ix r.nameIndex)

/-- `into_iter_edges` (src/rdf/iter.rs:153-165). -/
def intoIterEdges (r : Rdf I S) (o : EdgeOrder) : List (Except (RdfErr IX SX) (Triple Entity × EP)) :=
  (st.intoIterEdges r.graph o).map (edgeItem ix r.nameIndex)

/-! ## Queries (src/rdf/query.rs) -/

/-- The error type of `run`: `QueryError<Self::Error, QueryResult::Error>`. -/
abbrev RunErr (IX SX QX : Type) := LR (RdfErr IX SX) (RdfErr (MemIndexErr String Ulid) QX)

/-- The loop body that records the name of an id in the index of the result (src/rdf/query.rs:50-56, 64-70). -/
def record (r : Rdf I S) (m : MemIndex String Ulid) (id : Ulid) :
    Except (RunErr IX SX QX) (MemIndex String Ulid) :=
  match lookupId ix r.nameIndex id with
  | .error e => .error (.left e)
  | .ok (.string s) =>
    match m.set s id with
    | (_, .error e) => .error (.right (.nameIndex e))
    | (m, .ok ()) => .ok m
  | .ok (.ulid _) => .ok m

/-- The loop over the edges of the result (src/rdf/query.rs:59-72). -/
def recordEdges (r : Rdf I S) : MemIndex String Ulid → List (Except QX (Triple Ulid × EP)) →
    Except (RunErr IX SX QX) (MemIndex String Ulid)
  | m, [] => .ok m
  | _, .error e :: _ => .error (.right (.graph e))
  | m, .ok (t, _) :: l =>
    match Sled.tryFold (record ix r) m [t.sub, t.pred, t.obj] with
    | .error e => .error e
    | .ok m => recordEdges r m l

/-- `run` (src/rdf/query.rs:26-75); `g` is the stream of the generator given to the result graph, `u` what `Ulid::new()` is
going to return to the result. -/
def run (runS : RunImpl S SX Q QX Ulid) (qst : StoreImpl Q QX Ulid NP EP) (r : Rdf I S) (g : Gen Ulid) (u : Gen Ulid)
    (q : Query Entity) : Except (RunErr IX SX QX) (Rdf (MemIndex String Ulid) Q) :=
  match q.tryMap (fun e => r.lookupEntity ix e) with
  | .error e => .error (.left e)
  | .ok q =>
    match runS r.graph g q with
    | .error (.left e) => .error (.left (.graph e))
    | .error (.right e) => .error (.right (.graph e))
    | .ok res =>
      match qst.vertices res with
      | .error e => .error (.right (.graph e))
      | .ok vs =>
        match Sled.tryFold (record ix r) .new vs with
        | .error e => .error e
        | .ok m =>
          match recordEdges ix r m (qst.iterEdges res .SPO) with
          | .error e => .error e
          | .ok m => .ok (new m res u)

end

end Rdf

end Verif
