import Verif.Model.Prog
import Verif.Model.Mem

/-!
# The sled back-end  (src/sled.rs, src/sled/*.rs)

A `sled::Tree` is an ordered map from byte strings to byte strings; `bincode::serialize`/`deserialize` of the two property
types are arbitrary partial functions (`Codec`).  Ids that a function draws from a generator are arguments of the
corresponding program.  Payloads of `sled::Error` and `bincode::Error` are dropped.
-/

namespace Verif

open ConcreteId

/-- `sled::Tree`. -/
abbrev Tree := BMap Bytes Bytes

/-- `bincode::serialize` and `bincode::deserialize` at some type. -/
structure Codec (P : Type) where
  ser : P → Option Bytes
  de : Bytes → Option P

/-- The two property types of a store. -/
structure Codecs (NP EP : Type) where
  n : Codec NP
  e : Codec EP

/-- `enum SledTripleStoreError` (src/sled.rs:21-27). -/
inductive SErr where
  | sled
  | serialization
  | keySize
  | missing
deriving DecidableEq, Repr

/-- The trees of a store, opened in `SledTripleStore::new` (src/sled.rs:157-178).  Stores opened on the same `sled::Db`
share them. -/
structure Db where
  nodeProps : Tree
  edgeProps : Tree
  spo : Tree
  pos : Tree
  osp : Tree

namespace Db

/-- A `sled::Db` in which the trees have not been written yet. -/
def empty : Db := { nodeProps := .empty, edgeProps := .empty, spo := .empty, pos := .empty, osp := .empty }

end Db

/-- `tree.range(bounds)` with `TripleByteArrayType` bounds. -/
def Tree.rangeArr {n : Nat} (t : Tree) (b : Bound (ByteArr n) × Bound (ByteArr n)) : List (Bytes × Bytes) :=
  let conv : Bound (ByteArr n) → Bound Bytes := fun
    | .included k => .included k.1
    | .excluded k => .excluded k.1
    | .unbounded => .unbounded
  t.range (conv b.1, conv b.2)

/-- `transaction(|..| ..)`: the closure either commits or aborts, leaving the trees as they were. -/
def transaction (f : Db → Except SErr Db) : Prog Db (Except SErr Unit) :=
  .call
    (fun d => match f d with | .ok d' => d' | .error _ => d)
    (fun d => .ret (match f d with | .ok _ => .ok () | .error e => .error e))

namespace Sled

variable {Id NP EP E : Type} [LinearOrder Id] [ConcreteId Id]

/-! ## insert (src/sled/insert.rs) -/

/-- `insert_node` (src/sled/insert.rs:18-23). -/
def insertNode (c : Codecs NP EP) (n : Id) (p : NP) : Prog Db (Except SErr Unit) :=
  match c.n.ser p with
  | none => .ret (.error .serialization)
  | some b =>
    .call (fun d => { d with nodeProps := d.nodeProps.insert (toBeBytes n).1 b }) (fun _ => .ret (.ok ()))

/-- `insert_edge` (src/sled/insert.rs:25-65); `i` is the id drawn by `id_generator.fresh()` in its first line. -/
def insertEdge (c : Codecs NP EP) (i : Id) (t : Triple Id) (p : EP) : Prog Db (Except SErr Unit) :=
  match c.e.ser p with
  | none => .ret (.error .serialization)
  | some b =>
    transaction (fun d => .ok
      { d with
        edgeProps := d.edgeProps.insert (toBeBytes i).1 b
        spo := d.spo.insert (encodeSpo t).1 (toBeBytes i).1
        pos := d.pos.insert (encodePos t).1 (toBeBytes i).1
        osp := d.osp.insert (encodeOsp t).1 (toBeBytes i).1 })

/-! ## remove (src/sled/remove.rs) -/

/-- The four `sled::Batch`es `try_fold` accumulates in `remove_node`: the keys to remove from each tree. -/
structure Batch where
  spo : List Bytes
  pos : List Bytes
  osp : List Bytes
  edge : List Bytes

/-- The first `try_fold` of `remove_node` (src/sled/remove.rs:20-51). -/
def forwardBatch (Id : Type) [LinearOrder Id] [ConcreteId Id] :
    Batch → List (Bytes × Bytes) → Except SErr Batch
  | b, [] => .ok b
  | b, (k, v) :: l =>
    match ByteArr.tryFrom (tripleLen (Id := Id)) k with
    | none => .error .keySize
    | some key =>
      let t : Triple Id := decodeSpo key
      forwardBatch Id
        { spo := b.spo ++ [k], pos := b.pos ++ [(encodePos t).1], osp := b.osp ++ [(encodeOsp t).1],
          edge := b.edge ++ [v] } l

/-- The second `try_fold` of `remove_node` (src/sled/remove.rs:54-86). -/
def backwardBatch (Id : Type) [LinearOrder Id] [ConcreteId Id] :
    Batch → List (Bytes × Bytes) → Except SErr Batch
  | b, [] => .ok b
  | b, (k, v) :: l =>
    match ByteArr.tryFrom (tripleLen (Id := Id)) k with
    | none => .error .keySize
    | some key =>
      let t : Triple Id := decodeOsp key
      backwardBatch Id
        { osp := b.osp ++ [k], pos := b.pos ++ [(encodePos t).1], spo := b.spo ++ [(encodeSpo t).1],
          edge := b.edge ++ [v] } l

/-- `apply_batch` of a batch of removals. -/
def applyBatch (t : Tree) (ks : List Bytes) : Tree := ks.foldl (fun t k => t.erase k) t

/-- The transaction of `remove_node` (src/sled/remove.rs:88-120). -/
def removeNodeTx (n : Id) (fwd bwd : Batch) : Prog Db (Except SErr Unit) :=
  transaction (fun d => .ok
    { nodeProps := d.nodeProps.erase (toBeBytes n).1
      edgeProps := applyBatch (applyBatch d.edgeProps fwd.edge) bwd.edge
      spo := applyBatch (applyBatch d.spo fwd.spo) bwd.spo
      pos := applyBatch (applyBatch d.pos fwd.pos) bwd.pos
      osp := applyBatch (applyBatch d.osp fwd.osp) bwd.osp })

/-- `remove_node` after its two range scans have returned `fwd` and `bwd`. -/
def removeNodeScanned (n : Id) (fwd bwd : List (Bytes × Bytes)) : Prog Db (Except SErr Unit) :=
  match forwardBatch Id ⟨[], [], [], []⟩ fwd with
  | .error e => .ret (.error e)
  | .ok fb =>
    match backwardBatch Id ⟨[], [], [], []⟩ bwd with
    | .error e => .ret (.error e)
    | .ok bb => removeNodeTx n fb bb

/-- `remove_node` (src/sled/remove.rs:18-122), each of the two range scans being one step.  (The scans are lazy in sled and
can observe other threads' writes on the way; see `removeNodeScanned` for arbitrary scan results.) -/
def removeNode (n : Id) : Prog Db (Except SErr Unit) :=
  .call id (fun d1 =>
    match forwardBatch Id ⟨[], [], [], []⟩ (d1.spo.rangeArr (keyBounds1 n)) with
    | .error e => .ret (.error e)
    | .ok fb =>
      .call id (fun d2 =>
        match backwardBatch Id ⟨[], [], [], []⟩ (d2.osp.rangeArr (keyBounds1 n)) with
        | .error e => .ret (.error e)
        | .ok bb => removeNodeTx n fb bb))

/-- `remove_edge` (src/sled/remove.rs:124-169): a transaction, followed by the same removals once more without a
transaction. -/
def removeEdge (t : Triple Id) : Prog Db (Except SErr Unit) :=
  .call
    (fun d =>
      { d with
        spo := d.spo.erase (encodeSpo t).1
        pos := d.pos.erase (encodePos t).1
        osp := d.osp.erase (encodeOsp t).1
        edgeProps :=
          match d.spo.get (encodeSpo t).1 with
          | some i => d.edgeProps.erase i
          | none => d.edgeProps })
    (fun _ =>
      .call (fun d => { d with spo := d.spo.erase (encodeSpo t).1 }) (fun d1 =>
        .call (fun d => { d with pos := d.pos.erase (encodePos t).1 }) (fun _ =>
          .call (fun d => { d with osp := d.osp.erase (encodeOsp t).1 }) (fun _ =>
            match d1.spo.get (encodeSpo t).1 with
            | some i => .call (fun d => { d with edgeProps := d.edgeProps.erase i }) (fun _ => .ret (.ok ()))
            | none => .ret (.ok ())))))

/-! ## merge (src/sled/merge.rs) -/

/-- `merge_node` (src/sled/merge.rs:38-83). -/
def mergeNode (c : Codecs NP EP) (mN : NP → NP → NP) (n : Id) (p : NP) : Prog Db (Except SErr Unit) :=
  transaction (fun d =>
    match d.nodeProps.get (toBeBytes n).1 with
    | none =>
      match c.n.ser p with
      | none => .error .serialization
      | some b => .ok { d with nodeProps := d.nodeProps.insert (toBeBytes n).1 b }
    | some v =>
      match c.n.de v with
      | none => .error .serialization
      | some old =>
        match c.n.ser (mN old p) with
        | none => .error .serialization
        | some b => .ok { d with nodeProps := d.nodeProps.insert (toBeBytes n).1 b })

/-- `merge_edge` (src/sled/merge.rs:85-160); `i` is the id drawn in its first line. -/
def mergeEdge (c : Codecs NP EP) (mE : EP → EP → EP) (i : Id) (t : Triple Id) (p : EP) :
    Prog Db (Except SErr Unit) :=
  transaction (fun d =>
    let old := d.spo.get (encodeSpo t).1
    let d := { d with
      spo := d.spo.insert (encodeSpo t).1 (toBeBytes i).1
      pos := d.pos.insert (encodePos t).1 (toBeBytes i).1
      osp := d.osp.insert (encodeOsp t).1 (toBeBytes i).1 }
    match old with
    | none =>
      match c.e.ser p with
      | none => .error .serialization
      | some b => .ok { d with edgeProps := d.edgeProps.insert (toBeBytes i).1 b }
    | some o =>
      let oldValue := d.edgeProps.get o
      let d := { d with edgeProps := d.edgeProps.erase o }
      match oldValue with
      | none =>
        match c.e.ser p with
        | none => .error .serialization
        | some b => .ok { d with edgeProps := d.edgeProps.insert (toBeBytes i).1 b }
      | some v =>
        match c.e.de v with
        | none => .error .serialization
        | some oldProps =>
          match c.e.ser (mE oldProps p) with
          | none => .error .serialization
          | some b => .ok { d with edgeProps := d.edgeProps.insert (toBeBytes i).1 b })

/-- The node loop of `merge` (src/sled/merge.rs:24-27), followed by `k`. -/
def mergeNodes (c : Codecs NP EP) (mN : NP → NP → NP) {α : Type} (k : Except (LR SErr E) Unit → Prog Db α) :
    List (Except E (Id × NP)) → Prog Db α
  | [] => k (.ok ())
  | .error e :: _ => k (.error (.right e))
  | .ok x :: l =>
    (mergeNode c mN x.1 x.2).bind (fun
      | .error e => k (.error (.left e))
      | .ok () => mergeNodes c mN k l)

/-- The edge loop of `merge` (src/sled/merge.rs:29-33).  Each call of `merge_edge` draws an id from the generator; the
stream is returned with the result. -/
def mergeEdges (c : Codecs NP EP) (mE : EP → EP → EP) (g : Gen Id) :
    List (Except E (Triple Id × EP)) → Prog Db (Gen Id × Except (LR SErr E) Unit)
  | [] => .ret (g, .ok ())
  | .error e :: _ => .ret (g, .error (.right e))
  | .ok x :: l =>
    (mergeEdge c mE (Gen.fresh g).1 x.1 x.2).bind (fun
      | .error e => .ret ((Gen.fresh g).2, .error (.left e))
      | .ok () => mergeEdges c mE (Gen.fresh g).2 l)

/-- `merge` (src/sled/merge.rs:18-36). -/
def merge (c : Codecs NP EP) (mN : NP → NP → NP) (mE : EP → EP → EP) (g : Gen Id) (other : Source E Id NP EP) :
    Prog Db (Gen Id × Except (LR SErr E) Unit) :=
  mergeNodes c mN (fun
    | .error e => .ret (g, .error e)
    | .ok () => mergeEdges c mE g other.edges) other.nodes

/-! ## extend (src/sled/extend.rs) -/

/-- The node loop of `extend` (src/sled/extend.rs:25-31), followed by `k`. -/
def extendNodes (c : Codecs NP EP) {α : Type} (k : Except (LR SErr E) Unit → Prog Db α) :
    List (Except E (Id × NP)) → Prog Db α
  | [] => k (.ok ())
  | .error e :: _ => k (.error (.right e))
  | .ok x :: l =>
    match c.n.ser x.2 with
    | none => k (.error (.left .serialization))
    | some b =>
      .call (fun d => { d with nodeProps := d.nodeProps.insert (toBeBytes x.1).1 b })
        (fun _ => extendNodes c k l)

/-- The edge loop of `extend` (src/sled/extend.rs:33-61).  The ids are `Ulid::new()`, whatever the id type of the store: `u`
is the stream of their values. -/
def extendEdges (c : Codecs NP EP) (u : Gen Ulid) :
    List (Except E (Triple Id × EP)) → Prog Db (Gen Ulid × Except (LR SErr E) Unit)
  | [] => .ret (u, .ok ())
  | .error e :: _ => .ret (u, .error (.right e))
  | .ok x :: l =>
    let i := (toBeBytes (Gen.fresh u).1).1
    let u := (Gen.fresh u).2
    match c.e.ser x.2 with
    | none => .ret (u, .error (.left .serialization))
    | some b =>
      .call (fun d => { d with edgeProps := d.edgeProps.insert i b }) (fun _ =>
        .call (fun d => { d with spo := d.spo.insert (encodeSpo x.1).1 i }) (fun d1 =>
          .call (fun d => { d with pos := d.pos.insert (encodePos x.1).1 i }) (fun _ =>
            .call (fun d => { d with osp := d.osp.insert (encodeOsp x.1).1 i }) (fun _ =>
              match d1.spo.get (encodeSpo x.1).1 with
              | some o =>
                .call (fun d => { d with edgeProps := d.edgeProps.erase o })
                  (fun _ => extendEdges c u l)
              | none => extendEdges c u l))))

/-- `extend` (src/sled/extend.rs:19-64). -/
def extend (c : Codecs NP EP) (u : Gen Ulid) (other : Source E Id NP EP) :
    Prog Db (Gen Ulid × Except (LR SErr E) Unit) :=
  extendNodes c (fun
    | .error e => .ret (u, .error e)
    | .ok () => extendEdges c u other.edges) other.nodes

/-! ## iterators (src/sled/iter.rs)
As for the in-memory store, iterators are the lists of items they yield; here on a database nobody writes to in the
meantime. -/

/-- `decode_id` (src/sled/iter.rs:10-12). -/
def decodeId (b : Bytes) : Except SErr Id :=
  match tryFromBeBytes b with
  | some x => .ok x
  | none => .error .keySize

/-- `bincode::deserialize(..).map_err(SerializationError)`. -/
def deser {P : Type} (c : Codec P) (b : Bytes) : Except SErr P :=
  match c.de b with
  | some p => .ok p
  | none => .error .serialization

/-- `get_node_data_internal`, `get_edge_data_internal` (src/sled/iter.rs:20-48). -/
def getData {P : Type} (c : Codec P) (t : Tree) (k : Bytes) : Except SErr (Option P) :=
  match t.get k with
  | none => .ok none
  | some b =>
    match c.de b with
    | some p => .ok (some p)
    | none => .error .serialization

/-- `iter_impl` (src/sled/iter.rs:50-66): the three look-ups are made in this order, the first error is returned. -/
def iterImpl (c : Codecs NP EP) (d : Db) (t : Triple Id) (v : Bytes) :
    Except SErr (PropsTriple Id NP EP) :=
  match getData c.n d.nodeProps (toBeBytes t.sub).1 with
  | .error e => .error e
  | .ok sp =>
    match getData c.e d.edgeProps v with
    | .error e => .error e
    | .ok pp =>
      match getData c.n d.nodeProps (toBeBytes t.obj).1 with
      | .error e => .error e
      | .ok op =>
        match sp, pp, op with
        | some sp, some pp, some op =>
          .ok { sub := (t.sub, sp), pred := (t.pred, pp), obj := (t.obj, op) }
        | _, _, _ => .error .missing

/-- `collect::<Result<Vec<_>, _>>()`. -/
def collect {X α : Type} : List (Except X α) → Except X (List α)
  | [] => .ok []
  | .error e :: _ => .error e
  | .ok a :: l =>
    match collect l with
    | .error e => .error e
    | .ok as => .ok (a :: as)

/-- `vertices` (src/sled/iter.rs:75-87). -/
def vertices (Id : Type) [LinearOrder Id] [ConcreteId Id] (d : Db) : Except SErr (List Id) :=
  collect (d.nodeProps.entries.map (fun e => decodeId e.1))

/-- `iter_vertices` (src/sled/iter.rs:99-111). -/
def iterVertices (Id : Type) [LinearOrder Id] [ConcreteId Id] (c : Codecs NP EP) (d : Db) :
    List (Except SErr (Id × NP)) :=
  d.nodeProps.entries.map (fun e =>
    match decodeId e.1 with
    | .error x => .error x
    | .ok k =>
      match deser c.n e.2 with
      | .error x => .error x
      | .ok v => .ok (k, v))

/-- An item of the boxed iterator `edges` (e.g. src/sled/iter.rs:119-130): the key is checked and decoded. -/
def decodeEntry (dec : TKey Id → Triple Id) (e : Bytes × Bytes) : Except SErr (Triple Id × Bytes) :=
  match ByteArr.tryFrom (tripleLen (Id := Id)) e.1 with
  | some k => .ok (dec k, e.2)
  | none => .error .keySize

/-- The boxed iterator `edges` (src/sled/iter.rs:118-158, 166-206). -/
def orderedEdges (Id : Type) [LinearOrder Id] [ConcreteId Id] (d : Db) :
    EdgeOrder → List (Except SErr (Triple Id × Bytes))
  | .SPO => d.spo.entries.map (decodeEntry decodeSpo)
  | .POS => d.pos.entries.map (decodeEntry decodePos)
  | .OSP => d.osp.entries.map (decodeEntry decodeOsp)

/-- `iter_edges_with_props` (src/sled/iter.rs:113-160). -/
def iterEdgesWithProps (Id : Type) [LinearOrder Id] [ConcreteId Id] (c : Codecs NP EP) (d : Db) (o : EdgeOrder) :
    List (Except SErr (PropsTriple Id NP EP)) :=
  (orderedEdges Id d o).map (fun
    | .error e => .error e
    | .ok (t, v) => iterImpl c d t v)

/-- `iter_edges` (src/sled/iter.rs:162-217). -/
def iterEdges (Id : Type) [LinearOrder Id] [ConcreteId Id] (c : Codecs NP EP) (d : Db) (o : EdgeOrder) :
    List (Except SErr (Triple Id × EP)) :=
  (orderedEdges Id d o).map (fun
    | .error e => .error e
    | .ok (t, v) =>
      match getData c.e d.edgeProps v with
      | .error e => .error e
      | .ok (some p) => .ok (t, p)
      | .ok none => .error .missing)

/-- `iter_nodes` (src/sled/iter.rs:89-97). -/
def iterNodes (c : Codecs NP EP) (d : Db) (o : EdgeOrder) : Source SErr Id NP EP :=
  { nodes := iterVertices Id c d, edges := iterEdges Id c d o }

/-- `into_iter_nodes` (src/sled/iter.rs:226-305); the edge iterator has its own copy of the look-up (285-303). -/
def intoIterNodes (c : Codecs NP EP) (d : Db) (o : EdgeOrder) : Source SErr Id NP EP :=
  { nodes := d.nodeProps.entries.map (fun e =>
      match decodeId e.1 with
      | .error x => .error x
      | .ok k =>
        match deser c.n e.2 with
        | .error x => .error x
        | .ok v => .ok (k, v))
    edges :=
      let edges : List (Except SErr (Triple Id × Bytes)) :=
        match o with
        | .SPO => d.spo.entries.map (decodeEntry decodeSpo)
        | .POS => d.pos.entries.map (decodeEntry decodePos)
        | .OSP => d.osp.entries.map (decodeEntry decodeOsp)
      edges.map (fun
      | .error e => .error e
      | .ok (t, v) =>
        match d.edgeProps.get v with
        | none => .error .missing
        | some b =>
          match deser c.e b with
          | .error e => .error e
          | .ok p => .ok (t, p)) }

/-- `into_iter_vertices` (src/sled/iter.rs:307-317). -/
def intoIterVertices (Id : Type) [LinearOrder Id] [ConcreteId Id] (c : Codecs NP EP) (d : Db) :
    List (Except SErr (Id × NP)) :=
  d.nodeProps.entries.map (fun e =>
    match decodeId e.1 with
    | .error x => .error x
    | .ok k =>
      match deser c.n e.2 with
      | .error x => .error x
      | .ok v => .ok (k, v))

/-- `into_iter_edges_with_props` (src/sled/iter.rs:319-365). -/
def intoIterEdgesWithProps (Id : Type) [LinearOrder Id] [ConcreteId Id] (c : Codecs NP EP) (d : Db)
    (o : EdgeOrder) : List (Except SErr (PropsTriple Id NP EP)) :=
  let edges : List (Except SErr (Triple Id × Bytes)) :=
    match o with
    | .SPO => d.spo.entries.map (decodeEntry decodeSpo)
    | .POS => d.pos.entries.map (decodeEntry decodePos)
    | .OSP => d.osp.entries.map (decodeEntry decodeOsp)
  edges.map (fun
    | .error e => .error e
    | .ok (t, v) => iterImpl c d t v)

/-- `into_iter_edges` (src/sled/iter.rs:367-422). -/
def intoIterEdges (Id : Type) [LinearOrder Id] [ConcreteId Id] (c : Codecs NP EP) (d : Db) (o : EdgeOrder) :
    List (Except SErr (Triple Id × EP)) :=
  let edges : List (Except SErr (Triple Id × Bytes)) :=
    match o with
    | .SPO => d.spo.entries.map (decodeEntry decodeSpo)
    | .POS => d.pos.entries.map (decodeEntry decodePos)
    | .OSP => d.osp.entries.map (decodeEntry decodeOsp)
  edges.map (fun
    | .error e => .error e
    | .ok (t, v) =>
      match getData c.e d.edgeProps v with
      | .error e => .error e
      | .ok (some p) => .ok (t, p)
      | .ok none => .error .missing)

/-! ## queries (src/sled/query.rs) -/

/-- `for x in l { r = f(r, x)?; }`. -/
def tryFold {X σ α : Type} (f : σ → α → Except X σ) : σ → List α → Except X σ
  | s, [] => .ok s
  | s, a :: l =>
    match f s a with
    | .error e => .error e
    | .ok s => tryFold f s l

/-- The inner loop of the range queries (e.g. src/sled/query.rs:81-101): an entry whose property record is missing is
skipped; otherwise the key is checked first, then the record is deserialized. -/
def addRange (c : Codecs NP EP) (d : Db) (dec : TKey Id → Triple Id) (r : Mem Id NP EP)
    (l : List (Bytes × Bytes)) : Except SErr (Mem Id NP EP) :=
  tryFold (fun r e =>
    match d.edgeProps.get e.2 with
    | none => .ok r
    | some b =>
      match ByteArr.tryFrom (tripleLen (Id := Id)) e.1 with
      | none => .error .keySize
      | some k =>
        match c.e.de b with
        | none => .error .serialization
        | some p => .ok (r.insertEdge (dec k) p)) r l

/-- The body of `run` (src/sled/query.rs:19-251); `g` is the stream of the cloned generator.  All errors are `Left`: the
result is an in-memory store, whose insertions cannot fail. -/
def runQ (c : Codecs NP EP) (d : Db) (g : Gen Id) : Query Id → Except SErr (Mem Id NP EP)
  | .NodeProps nodes =>
    tryFold (fun r n =>
      match d.nodeProps.get (toBeBytes n).1 with
      | none => .ok r
      | some b =>
        match c.n.de b with
        | none => .error .serialization
        | some p => .ok (r.insertNode n p)) (Mem.new g) nodes
  | .SPO triples =>
    tryFold (fun r x =>
      let t : Triple Id := { sub := x.1, pred := x.2.1, obj := x.2.2 }
      match d.spo.get (encodeSpo t).1 with
      | none => .ok r
      | some i =>
        match d.edgeProps.get i with
        | none => .ok r
        | some b =>
          match c.e.de b with
          | none => .error .serialization
          | some p => .ok (r.insertEdge t p)) (Mem.new g) triples
  | .S items =>
    tryFold (fun r x => addRange c d decodeSpo r (d.spo.rangeArr (keyBounds1 x))) (Mem.new g) items
  | .SP items =>
    tryFold (fun r x => addRange c d decodeSpo r (d.spo.rangeArr (keyBounds2 x.1 x.2))) (Mem.new g) items
  | .SO items =>
    tryFold (fun r x => addRange c d decodeOsp r (d.osp.rangeArr (keyBounds2 x.2 x.1))) (Mem.new g) items
  | .P items =>
    tryFold (fun r x => addRange c d decodePos r (d.pos.rangeArr (keyBounds1 x))) (Mem.new g) items
  | .PO items =>
    tryFold (fun r x => addRange c d decodePos r (d.pos.rangeArr (keyBounds2 x.1 x.2))) (Mem.new g) items
  | .O items =>
    tryFold (fun r x => addRange c d decodeOsp r (d.osp.rangeArr (keyBounds1 x))) (Mem.new g) items

/-- `run` (src/sled/query.rs:19-251). -/
def runQuery (c : Codecs NP EP) (d : Db) (g : Gen Id) (q : Query Id) :
    Except (LR SErr Unit) (Mem Id NP EP) :=
  match runQ c d g q with
  | .ok r => .ok r
  | .error e => .error (.left e)

end Sled

/-! ## The store -/

/-- `struct SledTripleStore` (src/sled.rs:137-149) in a process where nobody else writes to the database: the trees, the store's
generator, and the values `Ulid::new()` is going to return. -/
structure SledStore (Id : Type) where
  db : Db
  gen : Gen Id
  ulid : Gen Ulid

namespace SledStore

variable {Id NP EP E : Type} [LinearOrder Id] [ConcreteId Id]

/-- `SledTripleStore::new` (src/sled.rs:157-178) on a database with the given contents. -/
def new (d : Db) (g : Gen Id) (u : Gen Ulid) : SledStore Id := { db := d, gen := g, ulid := u }

def insertNode (c : Codecs NP EP) (s : SledStore Id) (n : Id) (p : NP) : SledStore Id × Except SErr Unit :=
  let r := (Sled.insertNode c n p).run s.db
  ({ s with db := r.1 }, r.2)

def insertEdge (c : Codecs NP EP) (s : SledStore Id) (t : Triple Id) (p : EP) :
    SledStore Id × Except SErr Unit :=
  let r := (Sled.insertEdge c (Gen.fresh s.gen).1 t p).run s.db
  ({ s with db := r.1, gen := (Gen.fresh s.gen).2 }, r.2)

def removeNode (s : SledStore Id) (n : Id) : SledStore Id × Except SErr Unit :=
  let r := (Sled.removeNode n).run s.db
  ({ s with db := r.1 }, r.2)

def removeEdge (s : SledStore Id) (t : Triple Id) : SledStore Id × Except SErr Unit :=
  let r := (Sled.removeEdge t).run s.db
  ({ s with db := r.1 }, r.2)

def mergeNode (c : Codecs NP EP) (mN : NP → NP → NP) (s : SledStore Id) (n : Id) (p : NP) :
    SledStore Id × Except SErr Unit :=
  let r := (Sled.mergeNode c mN n p).run s.db
  ({ s with db := r.1 }, r.2)

def mergeEdge (c : Codecs NP EP) (mE : EP → EP → EP) (s : SledStore Id) (t : Triple Id) (p : EP) :
    SledStore Id × Except SErr Unit :=
  let r := (Sled.mergeEdge c mE (Gen.fresh s.gen).1 t p).run s.db
  ({ s with db := r.1, gen := (Gen.fresh s.gen).2 }, r.2)

def merge (c : Codecs NP EP) (mN : NP → NP → NP) (mE : EP → EP → EP) (s : SledStore Id)
    (other : Source E Id NP EP) : SledStore Id × Except (LR SErr E) Unit :=
  let r := (Sled.merge c mN mE s.gen other).run s.db
  ({ s with db := r.1, gen := r.2.1 }, r.2.2)

def extend (c : Codecs NP EP) (s : SledStore Id) (other : Source E Id NP EP) :
    SledStore Id × Except (LR SErr E) Unit :=
  let r := (Sled.extend c s.ulid other).run s.db
  ({ s with db := r.1, ulid := r.2.1 }, r.2.2)

end SledStore

end Verif
