import Verif.Spec.SledConc

/-!
# Parts of a database

Which entries of the five trees a query, or a call that writes, has to do with.  Nothing is asked of what the database contains.
-/

namespace Verif

open Spec ConcreteId

variable {Id NP EP E : Type} [LinearOrder Id] [ConcreteId Id]

/-- the trees of src/sled.rs:161-168 -/
inductive Table where
  | nodes | edges | spo | pos | osp

/-- what is stored in a tree under a key -/
def Db.at (d : Db) : Table → Bytes → Option Bytes
  | .nodes => d.nodeProps.get
  | .edges => d.edgeProps.get
  | .spo => d.spo.get
  | .pos => d.pos.get
  | .osp => d.osp.get

namespace Spec

/-- the bytes of an id -/
def be (x : Id) : Bytes := (toBeBytes x).1

/-- The entries a query is about, as the documentation says (src/lib.rs:15-19): each kind of query looks into one of the three orderings, at
the keys beginning with the ids given. -/
def Query.Covers : Query Id → Table → Bytes → Prop
  | .NodeProps l, .nodes, k => ∃ n ∈ l, k = be n
  | .SPO l, .spo, k => ∃ x ∈ l, k = be x.1 ++ be x.2.1 ++ be x.2.2
  | .S l, .spo, k => ∃ s ∈ l, be s <+: k
  | .SP l, .spo, k => ∃ x ∈ l, be x.1 ++ be x.2 <+: k
  | .P l, .pos, k => ∃ p ∈ l, be p <+: k
  | .PO l, .pos, k => ∃ x ∈ l, be x.1 ++ be x.2 <+: k
  | .O l, .osp, k => ∃ o ∈ l, be o <+: k
  | .SO l, .osp, k => ∃ x ∈ l, be x.2 ++ be x.1 <+: k
  | _, _, _ => False

/-- The two databases are alike where the query is about them: they have the same entries there, and the same records for the edges
among these. -/
structure Query.Alike (q : Query Id) (d d' : Db) : Prop where
  entries : ∀ T k, Covers q T k → d.at T k = d'.at T k
  records : ∀ T k v, T ≠ .nodes → Covers q T k → d.at T k = some v → d.at .edges v = d'.at .edges v

/-- the id an in-memory store has for an edge in an ordering -/
def memId (s : Mem Id NP EP) : EdgeOrder → Triple Id → Option Id
  | .SPO, t => s.spo.get (encodeSpo t)
  | .POS, t => s.pos.get (encodePos t)
  | .OSP, t => s.osp.get (encodeOsp t)

/-- The two in-memory stores are alike where the query is about them. -/
structure Query.MemAlike (q : Query Id) (s s' : Mem Id NP EP) : Prop where
  nodes : ∀ n, Query.Asks n q → s.nodeProps.get n = s'.nodeProps.get n
  entries : ∀ t, Query.Hits t q → memId s (Query.order q) t = memId s' (Query.order q) t
  records : ∀ t i, Query.Hits t q → memId s (Query.order q) t = some i → s.edgeProps.get i = s'.edgeProps.get i

/-- A part of the database: some nodes, some edges, some nodes that may be removed with all their edges, and some keys of records. -/
structure Zone (Id : Type) where
  nodes : Id → Prop
  edges : Triple Id → Prop
  gone : Id → Prop
  recs : Bytes → Prop

namespace Zone

/-- the entries in the part -/
def Cell (P : Zone Id) : Table → Bytes → Prop
  | .nodes, k => ∃ n, P.nodes n ∧ k = be n
  | .edges, k => P.recs k
  | .spo, k => (∃ t, P.edges t ∧ k = be t.sub ++ be t.pred ++ be t.obj) ∨ ∃ n, P.gone n ∧ be n <+: k
  | .pos, k => ∃ t, P.edges t ∧ k = be t.pred ++ be t.obj ++ be t.sub
  | .osp, k => (∃ t, P.edges t ∧ k = be t.obj ++ be t.sub ++ be t.pred) ∨ ∃ n, P.gone n ∧ be n <+: k

/-- With a node that may be removed it has the node and its edges. -/
def Whole (P : Zone Id) : Prop := ∀ n, P.gone n → P.nodes n ∧ ∀ t : Triple Id, t.sub = n ∨ t.obj = n → P.edges t

/-- It has the records that are under the ids stored in it. -/
def Closed (P : Zone Id) (d : Db) : Prop :=
  ∀ k v, P.Cell .spo k ∧ d.spo.get k = some v ∨ P.Cell .osp k ∧ d.osp.get k = some v → P.recs v

/-- the same contents in the part -/
def Same (P : Zone Id) (d d' : Db) : Prop := ∀ T k, P.Cell T k → d.at T k = d'.at T k

/-- the same contents outside of the part -/
def Rest (P : Zone Id) (d d' : Db) : Prop := ∀ T k, ¬ P.Cell T k → d.at T k = d'.at T k

/-- no entry is in both -/
def Apart (P Q : Zone Id) : Prop := ∀ T k, P.Cell T k → ¬ Q.Cell T k

/-- What the call is about is in the part: its nodes and edges, and the keys of the records it makes. -/
def Has (P : Zone Id) : Sled.Call E Id NP EP → Prop
  | .insertNode n _ => P.nodes n
  | .mergeNode n _ => P.nodes n
  | .insertEdge i t _ => P.edges t ∧ P.recs (be i)
  | .mergeEdge i t _ => P.edges t ∧ P.recs (be i)
  | .removeNode n => P.gone n
  | .removeNodeScan n fwd bwd => P.gone n ∧ ∀ e, e ∈ fwd ∨ e ∈ bwd → be n <+: e.1 ∧ P.recs e.2
  | .removeEdge t => P.edges t
  | .extend u src => (∀ n p, .ok (n, p) ∈ src.nodes → P.nodes n) ∧ ∀ x ∈ Sled.Call.drawnFor u src.edges, P.edges x.2 ∧ P.recs x.1
  | .merge g src => (∀ n p, .ok (n, p) ∈ src.nodes → P.nodes n) ∧ ∀ x ∈ Sled.Call.drawnFor g src.edges, P.edges x.2 ∧ P.recs x.1

/-- the zone of a node: the node, its edges, and the records under the ids stored for these -/
def ofNode (d : Db) (n : Id) : Zone Id :=
  let Z : Zone Id := { nodes := fun m => m = n, edges := fun t => t.sub = n ∨ t.obj = n, gone := fun m => m = n, recs := fun _ => False }
  { Z with recs := fun v => ∃ k, Z.Cell .spo k ∧ d.spo.get k = some v ∨ Z.Cell .osp k ∧ d.osp.get k = some v }

end Zone

end Spec

/-- the program of a call, with its result -/
def Sled.Call.full (c : Codecs NP EP) (mN : NP → NP → NP) (mE : EP → EP → EP) :
    Sled.Call E Id NP EP → Prog Db (Except (LR SErr E) Unit)
  | .insertNode n p => (Sled.insertNode c n p).bind (fun r => .ret (r.mapError .left))
  | .insertEdge i t p => (Sled.insertEdge c i t p).bind (fun r => .ret (r.mapError .left))
  | .removeNode n => (Sled.removeNode n).bind (fun r => .ret (r.mapError .left))
  | .removeNodeScan n fwd bwd => (Sled.removeNodeScanned n fwd bwd).bind (fun r => .ret (r.mapError .left))
  | .removeEdge t => (Sled.removeEdge t).bind (fun r => .ret (r.mapError .left))
  | .mergeNode n p => (Sled.mergeNode c mN n p).bind (fun r => .ret (r.mapError .left))
  | .mergeEdge i t p => (Sled.mergeEdge c mE i t p).bind (fun r => .ret (r.mapError .left))
  | .extend u src => (Sled.extend c u src).bind (fun r => .ret r.2)
  | .merge g src => (Sled.merge c mN mE g src).bind (fun r => .ret r.2)

/-- The calls one after the other, while nobody else uses the database: the results, and what is left. -/
def Sled.runCalls (c : Codecs NP EP) (mN : NP → NP → NP) (mE : EP → EP → EP) :
    Db → List (Sled.Call E Id NP EP) → List (Except (LR SErr E) Unit) × Db
  | d, [] => ([], d)
  | d, x :: l =>
    let r := (x.full c mN mE).run d
    let r' := Sled.runCalls c mN mE r.1 l
    (r.2 :: r'.1, r'.2)

end Verif
