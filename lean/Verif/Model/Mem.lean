import Verif.Model.BMap
import Verif.Model.Query

/-!
# The in-memory store  (src/mem.rs, src/mem/*.rs)
-/

namespace Verif

/-- `trait IdGenerator<Id>` (src/traits/id_generator.rs): the stream of ids the generator is going to
yield.  The theorems quantify over the stream, so it covers every generator, including ones that repeat
ids. -/
abbrev Gen (Id : Type) := Nat → Id

/-- `fresh()`. -/
def Gen.fresh {Id : Type} (g : Gen Id) : Id × Gen Id := (g 0, fun n => g (n + 1))

/-- What `extend`, `merge` and the set operations see of their argument `other`: the two iterators
returned by `other.into_iter_nodes(EdgeOrder::SPO)`, including errors. -/
structure Source (E Id NP EP : Type) where
  nodes : List (Except E (Id × NP))
  edges : List (Except E (Triple Id × EP))

/-- `ExtendError`, `MergeError`, `QueryError`, `TryEqError`: `Left` is the receiver's error, `Right` the
argument's (or the query result's). -/
inductive LR (L R : Type) where
  | left (e : L)
  | right (e : R)
deriving DecidableEq, Repr

/-- `SetOpsError` (src/traits/set.rs). -/
inductive SetErr (L R Res : Type) where
  | left (e : L)
  | right (e : R)
  | result (e : Res)
deriving DecidableEq, Repr

/-- `struct MemTripleStore` (src/mem.rs:111-118). -/
structure Mem (Id NP EP : Type) [LinearOrder Id] [ConcreteId Id] where
  nodeProps : BMap Id NP
  edgeProps : BMap Id EP
  spo : BMap (TKey Id) Id
  pos : BMap (TKey Id) Id
  osp : BMap (TKey Id) Id
  gen : Gen Id

namespace Mem

variable {Id NP EP : Type} [LinearOrder Id] [ConcreteId Id]

open ConcreteId

/-- `MemTripleStore::new` / `new_from_boxed_id_generator` (src/mem.rs:291-306). -/
def new (g : Gen Id) : Mem Id NP EP :=
  { nodeProps := .empty, edgeProps := .empty, spo := .empty, pos := .empty, osp := .empty, gen := g }

/-! ## insert (src/mem/insert.rs) -/

/-- `insert_edge_data_internal` (src/mem/insert.rs:8-15). -/
def insertEdgeDataInternal (s : Mem Id NP EP) (t : Triple Id) (i : Id) : Mem Id NP EP :=
  { s with
    spo := s.spo.insert (encodeSpo t) i
    pos := s.pos.insert (encodePos t) i
    osp := s.osp.insert (encodeOsp t) i }

/-- `insert_edge_create_data` (src/mem/insert.rs:19-33). -/
def insertEdgeCreateData (s : Mem Id NP EP) (old : Option Id) (data : EP) : Mem Id NP EP × Id :=
  let s := match old with
    | some o => { s with edgeProps := s.edgeProps.erase o }
    | none => s
  let (i, g) := Gen.fresh s.gen
  ({ s with edgeProps := s.edgeProps.insert i data, gen := g }, i)

/-- `insert_node` (src/mem/insert.rs:39-49); always `Ok(())`. -/
def insertNode (s : Mem Id NP EP) (n : Id) (data : NP) : Mem Id NP EP :=
  match s.nodeProps.get n with
  | some _ => { s with nodeProps := s.nodeProps.insert n data }
  | none => { s with nodeProps := s.nodeProps.insert n data }

/-- `insert_edge` (src/mem/insert.rs:51-62); always `Ok(())`. -/
def insertEdge (s : Mem Id NP EP) (t : Triple Id) (data : EP) : Mem Id NP EP :=
  let old := s.spo.get (encodeSpo t)
  let (s, i) := s.insertEdgeCreateData old data
  s.insertEdgeDataInternal t i

/-! ## remove (src/mem/remove.rs) -/

/-- `get_spo_edge_range` (src/mem/remove.rs:15-24). -/
def getSpoEdgeRange (s : Mem Id NP EP) (n : Id) : List (Triple Id) × List Id :=
  let r := s.spo.range (keyBounds1 n)
  (r.map (fun e => decodeSpo e.1), r.map (fun e => e.2))

/-- `get_osp_edge_range` (src/mem/remove.rs:27-36). -/
def getOspEdgeRange (s : Mem Id NP EP) (n : Id) : List (Triple Id) × List Id :=
  let r := s.osp.range (keyBounds1 n)
  (r.map (fun e => decodeOsp e.1), r.map (fun e => e.2))

/-- `remove_edge` (src/mem/remove.rs:69-82); always `Ok(())`. -/
def removeEdge (s : Mem Id NP EP) (t : Triple Id) : Mem Id NP EP :=
  match s.spo.get (encodeSpo t) with
  | some i =>
    { s with
      spo := s.spo.erase (encodeSpo t)
      pos := s.pos.erase (encodePos t)
      osp := s.osp.erase (encodeOsp t)
      edgeProps := s.edgeProps.erase i }
  | none => s

/-- `remove_node` (src/mem/remove.rs:42-67); always `Ok(())`. -/
def removeNode (s : Mem Id NP EP) (n : Id) : Mem Id NP EP :=
  let (fwd, fwdIds) := s.getSpoEdgeRange n
  let (bwd, bwdIds) := s.getOspEdgeRange n
  let s := { s with nodeProps := s.nodeProps.erase n }
  let s := (fwdIds ++ bwdIds).foldl
    (fun s i => { s with edgeProps := s.edgeProps.erase i }) s
  (fwd ++ bwd).foldl removeEdge s

/-! ## merge (src/mem/merge.rs)
`mergeN`, `mergeE` are `Mergeable::merge` of the two property types: `a.merge(b)` leaves `merge a b` in `a`. -/

/-- `merge_edge_create_data` (src/mem/merge.rs:11-29). -/
def mergeEdgeCreateData (mergeE : EP → EP → EP) (s : Mem Id NP EP) (old : Option Id) (data : EP) :
    Mem Id NP EP × Id :=
  match old with
  | some o =>
    match s.edgeProps.get o with
    | some cur => ({ s with edgeProps := s.edgeProps.insert o (mergeE cur data) }, o)
    | none => ({ s with edgeProps := s.edgeProps.insert o data }, o)
  | none => s.insertEdgeCreateData none data

/-- `merge_node` (src/mem/merge.rs:55-65); always `Ok(())`. -/
def mergeNode (mergeN : NP → NP → NP) (s : Mem Id NP EP) (n : Id) (data : NP) : Mem Id NP EP :=
  match s.nodeProps.get n with
  | some cur => { s with nodeProps := s.nodeProps.insert n (mergeN cur data) }
  | none => { s with nodeProps := s.nodeProps.insert n data }

/-- `merge_edge` (src/mem/merge.rs:67-78); always `Ok(())`. -/
def mergeEdge (mergeE : EP → EP → EP) (s : Mem Id NP EP) (t : Triple Id) (data : EP) :
    Mem Id NP EP :=
  let old := s.spo.get (encodeSpo t)
  let (s, i) := s.mergeEdgeCreateData mergeE old data
  s.insertEdgeDataInternal t i

/-- `for r in it { let x = r.map_err(Right)?; self = f(self, x); }`: the loop of extend and merge.  The
state reached when the error occurs is kept (`&mut self`). -/
def absorb {E σ α : Type} (f : σ → α → σ) : σ → List (Except E α) → σ × Except E Unit
  | s, [] => (s, .ok ())
  | s, .error e :: _ => (s, .error e)
  | s, .ok a :: l => absorb f (f s a) l

/-- `merge` (src/mem/merge.rs:35-53). -/
def merge {E : Type} (mergeN : NP → NP → NP) (mergeE : EP → EP → EP) (s : Mem Id NP EP)
    (other : Source E Id NP EP) : Mem Id NP EP × Except (LR Unit E) Unit :=
  match absorb (fun s (x : Id × NP) => s.mergeNode mergeN x.1 x.2) s other.nodes with
  | (s, .error e) => (s, .error (.right e))
  | (s, .ok ()) =>
    match absorb (fun s (x : Triple Id × EP) => s.mergeEdge mergeE x.1 x.2) s other.edges with
    | (s, .error e) => (s, .error (.right e))
    | (s, .ok ()) => (s, .ok ())

/-! ## extend (src/mem/extend.rs) -/

/-- Body of the node loop (src/mem/extend.rs:15-23). -/
def extendNode (s : Mem Id NP EP) (x : Id × NP) : Mem Id NP EP :=
  match s.nodeProps.get x.1 with
  | some _ => { s with nodeProps := s.nodeProps.insert x.1 x.2 }
  | none => { s with nodeProps := s.nodeProps.insert x.1 x.2 }

/-- Body of the edge loop (src/mem/extend.rs:29-60). -/
def extendEdge (s : Mem Id NP EP) (x : Triple Id × EP) : Mem Id NP EP :=
  match s.spo.get (encodeSpo x.1) with
  | none =>
    let (i, g) := Gen.fresh s.gen
    { s with
      gen := g
      spo := s.spo.insert (encodeSpo x.1) i
      pos := s.pos.insert (encodePos x.1) i
      osp := s.osp.insert (encodeOsp x.1) i
      edgeProps := s.edgeProps.insert i x.2 }
  | some i =>
    match s.edgeProps.get i with
    | none => { s with edgeProps := s.edgeProps.insert i x.2 }
    | some _ => { s with edgeProps := s.edgeProps.insert i x.2 }

/-- `extend` (src/mem/extend.rs:8-64). -/
def extend {E : Type} (s : Mem Id NP EP) (other : Source E Id NP EP) :
    Mem Id NP EP × Except (LR Unit E) Unit :=
  match absorb extendNode s other.nodes with
  | (s, .error e) => (s, .error (.right e))
  | (s, .ok ()) =>
    match absorb extendEdge s other.edges with
    | (s, .error e) => (s, .error (.right e))
    | (s, .ok ()) => (s, .ok ())

/-! ## iterators (src/mem/iter.rs)
Iterators are the lists of items they yield. -/

/-- `iter_impl` (src/mem/iter.rs:14-32). -/
def iterImpl (nodeProps : BMap Id NP) (edgeProps : BMap Id EP) (t : Triple Id) (v : Id) :
    Option (Except Unit (PropsTriple Id NP EP)) :=
  match nodeProps.get t.sub, edgeProps.get v, nodeProps.get t.obj with
  | some sp, some pp, some op => some (.ok { sub := (t.sub, sp), pred := (t.pred, pp), obj := (t.obj, op) })
  | _, _, _ => none

/-- `vertices` (src/mem/iter.rs:38-40); always `Ok`. -/
def vertices (s : Mem Id NP EP) : List Id := s.nodeProps.entries.map (fun e => e.1)

/-- `iter_vertices` (src/mem/iter.rs:52-56). -/
def iterVertices (s : Mem Id NP EP) : List (Except Unit (Id × NP)) :=
  s.nodeProps.entries.map (fun e => .ok (e.1, e.2))

/-- The boxed iterator `edges` of src/mem/iter.rs:62-78, 89-105. -/
def orderedEdges (s : Mem Id NP EP) : EdgeOrder → List (Triple Id × Id)
  | .SPO => s.spo.entries.map (fun e => (decodeSpo e.1, e.2))
  | .POS => s.pos.entries.map (fun e => (decodePos e.1, e.2))
  | .OSP => s.osp.entries.map (fun e => (decodeOsp e.1, e.2))

/-- `iter_edges_with_props` (src/mem/iter.rs:58-83). -/
def iterEdgesWithProps (s : Mem Id NP EP) (o : EdgeOrder) :
    List (Except Unit (PropsTriple Id NP EP)) :=
  (s.orderedEdges o).filterMap (fun e => iterImpl s.nodeProps s.edgeProps e.1 e.2)

/-- `iter_edges` (src/mem/iter.rs:85-111). -/
def iterEdges (s : Mem Id NP EP) (o : EdgeOrder) : List (Except Unit (Triple Id × EP)) :=
  (s.orderedEdges o).filterMap (fun e =>
    match s.edgeProps.get e.2 with
    | some v => some (.ok (e.1, v))
    | none => none)

/-- `iter_nodes` (src/mem/iter.rs:42-50). -/
def iterNodes (s : Mem Id NP EP) (o : EdgeOrder) : Source Unit Id NP EP :=
  { nodes := s.iterVertices, edges := s.iterEdges o }

/-- `into_iter_nodes` (src/mem/iter.rs:117-152). -/
def intoIterNodes (s : Mem Id NP EP) (o : EdgeOrder) : Source Unit Id NP EP :=
  let edges : List (Triple Id × Id) :=
    match o with
    | .SPO => s.spo.entries.map (fun e => (decodeSpo e.1, e.2))
    | .POS => s.pos.entries.map (fun e => (decodePos e.1, e.2))
    | .OSP => s.osp.entries.map (fun e => (decodeOsp e.1, e.2))
  { nodes := s.nodeProps.entries.map .ok
    edges := edges.filterMap (fun e =>
      match s.edgeProps.get e.2 with
      | some v => some (.ok (e.1, v))
      | none => none) }

/-- `into_iter_vertices` (src/mem/iter.rs:154-156). -/
def intoIterVertices (s : Mem Id NP EP) : List (Except Unit (Id × NP)) :=
  s.nodeProps.entries.map .ok

/-- `into_iter_edges_with_props` (src/mem/iter.rs:158-183). -/
def intoIterEdgesWithProps (s : Mem Id NP EP) (o : EdgeOrder) :
    List (Except Unit (PropsTriple Id NP EP)) :=
  let edges : List (Triple Id × Id) :=
    match o with
    | .SPO => s.spo.entries.map (fun e => (decodeSpo e.1, e.2))
    | .POS => s.pos.entries.map (fun e => (decodePos e.1, e.2))
    | .OSP => s.osp.entries.map (fun e => (decodeOsp e.1, e.2))
  edges.filterMap (fun e => iterImpl s.nodeProps s.edgeProps e.1 e.2)

/-- `into_iter_edges` (src/mem/iter.rs:185-211). -/
def intoIterEdges (s : Mem Id NP EP) (o : EdgeOrder) : List (Except Unit (Triple Id × EP)) :=
  let edges : List (Triple Id × Id) :=
    match o with
    | .SPO => s.spo.entries.map (fun e => (decodeSpo e.1, e.2))
    | .POS => s.pos.entries.map (fun e => (decodePos e.1, e.2))
    | .OSP => s.osp.entries.map (fun e => (decodeOsp e.1, e.2))
  edges.filterMap (fun e =>
    match s.edgeProps.get e.2 with
    | some v => some (.ok (e.1, v))
    | none => none)

/-! ## queries (src/mem/query.rs) -/

/-- The loop `for (key, data_id) in <range> { if let Some(data) = self.edge_props.get(&data_id) {
result.insert_edge(decode(key), data.clone())?; } }` (e.g. src/mem/query.rs:53-59). -/
def addRange (s : Mem Id NP EP) (decode : TKey Id → Triple Id) (result : Mem Id NP EP)
    (range : List (TKey Id × Id)) : Mem Id NP EP :=
  range.foldl (fun r e =>
    match s.edgeProps.get e.2 with
    | some d => r.insertEdge (decode e.1) d
    | none => r) result

/-- `run` (src/mem/query.rs:14-139).  `g` is the stream of the cloned generator
(`self.id_generator.clone()`).  Mem's `insert_edge` cannot fail, so `run` always returns `Ok`. -/
def run (s : Mem Id NP EP) (g : Gen Id) : Query Id → Mem Id NP EP
  | .NodeProps nodes =>
    nodes.foldl (fun r n =>
      match s.nodeProps.get n with
      | some d => { r with nodeProps := r.nodeProps.insert n d }
      | none => r) (new g)
  | .SPO triples =>
    triples.foldl (fun r x =>
      let t : Triple Id := { sub := x.1, pred := x.2.1, obj := x.2.2 }
      match s.spo.get (encodeSpo t) with
      | some i =>
        match s.edgeProps.get i with
        | some d => r.insertEdge t d
        | none => r
      | none => r) (new g)
  | .S items => items.foldl (fun r x => s.addRange decodeSpo r (s.spo.range (keyBounds1 x))) (new g)
  | .SP items =>
    items.foldl (fun r x => s.addRange decodeSpo r (s.spo.range (keyBounds2 x.1 x.2))) (new g)
  | .SO items =>
    items.foldl (fun r x => s.addRange decodeOsp r (s.osp.range (keyBounds2 x.2 x.1))) (new g)
  | .P items => items.foldl (fun r x => s.addRange decodePos r (s.pos.range (keyBounds1 x))) (new g)
  | .PO items =>
    items.foldl (fun r x => s.addRange decodePos r (s.pos.range (keyBounds2 x.1 x.2))) (new g)
  | .O items => items.foldl (fun r x => s.addRange decodeOsp r (s.osp.range (keyBounds1 x))) (new g)

end Mem

end Verif
