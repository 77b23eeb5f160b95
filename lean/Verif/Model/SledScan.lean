import Verif.Model.Sled

/-!
# The closures of the lazy iterators and queries of the sled back-end

`Sled.iterEdges` and `Sled.runQ` read the database as it is at one moment.  When other handles write to it in the meantime, each
entry of an ordering and its property record are read at different moments; these are the functions applied to one
entry, `d` being the database at the moment of the look-up.
-/

namespace Verif

open ConcreteId

namespace Sled

variable {Id NP EP : Type} [LinearOrder Id] [ConcreteId Id]

/-- the decoder an ordering's keys are decoded with -/
def decoder : EdgeOrder → TKey Id → Triple Id
  | .SPO => decodeSpo
  | .POS => decodePos
  | .OSP => decodeOsp

/-- the bounds as `sled::Tree::range` takes them -/
def boundBytes {n : Nat} (b : Bound (ByteArr n) × Bound (ByteArr n)) : Bound Bytes × Bound Bytes :=
  let conv : Bound (ByteArr n) → Bound Bytes := fun
    | .included k => .included k.1
    | .excluded k => .excluded k.1
    | .unbounded => .unbounded
  (conv b.1, conv b.2)

/-- What `iter_edges` makes of an entry (src/sled/iter.rs:168-176, 208-216). -/
def edgeItem (Id : Type) [LinearOrder Id] [ConcreteId Id] (c : Codecs NP EP) (d : Db) (o : EdgeOrder) (e : Bytes × Bytes) :
    Except SErr (Triple Id × EP) :=
  match decodeEntry (decoder o) e with
  | .error e => .error e
  | .ok (t, v) =>
    match getData c.e d.edgeProps v with
    | .error e => .error e
    | .ok (some p) => .ok (t, p)
    | .ok none => .error .missing

/-- What `iter_vertices` makes of an entry (src/sled/iter.rs:102-110). -/
def vertexItem (Id : Type) [LinearOrder Id] [ConcreteId Id] (c : Codecs NP EP) (e : Bytes × Bytes) : Except SErr (Id × NP) :=
  match decodeId e.1 with
  | .error x => .error x
  | .ok k =>
    match deser c.n e.2 with
    | .error x => .error x
    | .ok v => .ok (k, v)

/-- What `iter_edges_with_props` makes of an entry (src/sled/iter.rs:119-159, `iter_impl`: 50-66): the subject, the edge's record and
the object are looked up in this order, at the moments `ds`, `de`, `dt`. -/
def propsItem (Id : Type) [LinearOrder Id] [ConcreteId Id] (c : Codecs NP EP) (ds de dt : Db) (o : EdgeOrder) (e : Bytes × Bytes) :
    Except SErr (PropsTriple Id NP EP) :=
  match decodeEntry (decoder o) e with
  | .error e => .error e
  | .ok (t, v) =>
    match getData c.n ds.nodeProps (toBeBytes t.sub).1 with
    | .error e => .error e
    | .ok sp =>
      match getData c.e de.edgeProps v with
      | .error e => .error e
      | .ok pp =>
        match getData c.n dt.nodeProps (toBeBytes t.obj).1 with
        | .error e => .error e
        | .ok op =>
          match sp, pp, op with
          | some sp, some pp, some op => .ok { sub := (t.sub, sp), pred := (t.pred, pp), obj := (t.obj, op) }
          | _, _, _ => .error .missing

/-- What the reads of one `run` see.  `nodes`: the database at each look-up of a node; `points`: the database when an edge is looked
up in `spo_data`, and when its record is; `ranges`: for each range the entries, with the database at the look-up of its record. -/
structure Reads where
  nodes : List Db
  points : List (Db × Db)
  ranges : List (List (Db × Bytes × Bytes))

/-- The ranges which `run` traverses, in this order (src/sled/query.rs:81, 110, 139, 168, 197, 226). -/
def ranges : Query Id → List (EdgeOrder × (Bound Bytes × Bound Bytes))
  | .NodeProps _ => []
  | .SPO _ => []
  | .S items => items.map (fun x => (.SPO, boundBytes (keyBounds1 x)))
  | .SP items => items.map (fun x => (.SPO, boundBytes (keyBounds2 x.1 x.2)))
  | .SO items => items.map (fun x => (.OSP, boundBytes (keyBounds2 x.2 x.1)))
  | .P items => items.map (fun x => (.POS, boundBytes (keyBounds1 x)))
  | .PO items => items.map (fun x => (.POS, boundBytes (keyBounds2 x.1 x.2)))
  | .O items => items.map (fun x => (.OSP, boundBytes (keyBounds1 x)))

/-- The inner loop of the range queries (e.g. src/sled/query.rs:81-101), as `addRange`. -/
def addSeen (c : Codecs NP EP) (dec : TKey Id → Triple Id) (r : Mem Id NP EP) (l : List (Db × Bytes × Bytes)) :
    Except SErr (Mem Id NP EP) :=
  tryFold (fun r x =>
    match x.1.edgeProps.get x.2.2 with
    | none => .ok r
    | some b =>
      match ByteArr.tryFrom (tripleLen (Id := Id)) x.2.1 with
      | none => .error .keySize
      | some k =>
        match c.e.de b with
        | none => .error .serialization
        | some p => .ok (r.insertEdge (dec k) p)) r l

/-- The body of `run` (src/sled/query.rs:19-251), as `runQ`, the reads being made while others write. -/
def runLazy (c : Codecs NP EP) (g : Gen Id) (ρ : Reads) : Query Id → Except SErr (Mem Id NP EP)
  | .NodeProps nodes =>
    tryFold (fun r x =>
      match x.2.nodeProps.get (toBeBytes x.1).1 with
      | none => .ok r
      | some b =>
        match c.n.de b with
        | none => .error .serialization
        | some p => .ok (r.insertNode x.1 p)) (Mem.new g) (nodes.zip ρ.nodes)
  | .SPO triples =>
    tryFold (fun r x =>
      let t : Triple Id := { sub := x.1.1, pred := x.1.2.1, obj := x.1.2.2 }
      match x.2.1.spo.get (encodeSpo t).1 with
      | none => .ok r
      | some i =>
        match x.2.2.edgeProps.get i with
        | none => .ok r
        | some b =>
          match c.e.de b with
          | none => .error .serialization
          | some p => .ok (r.insertEdge t p)) (Mem.new g) (triples.zip ρ.points)
  | .S _ => tryFold (fun r l => addSeen c decodeSpo r l) (Mem.new g) ρ.ranges
  | .SP _ => tryFold (fun r l => addSeen c decodeSpo r l) (Mem.new g) ρ.ranges
  | .SO _ => tryFold (fun r l => addSeen c decodeOsp r l) (Mem.new g) ρ.ranges
  | .P _ => tryFold (fun r l => addSeen c decodePos r l) (Mem.new g) ρ.ranges
  | .PO _ => tryFold (fun r l => addSeen c decodePos r l) (Mem.new g) ρ.ranges
  | .O _ => tryFold (fun r l => addSeen c decodeOsp r l) (Mem.new g) ρ.ranges

end Sled

end Verif
