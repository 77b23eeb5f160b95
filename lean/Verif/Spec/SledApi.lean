import Verif.Model.Sled
import Verif.Spec.MemApi

/-!
# What a client of SledTripleStore can do and see

Only dispatch to the API functions of the model, no logic of its own.
-/

namespace Verif

open Spec ConcreteId

variable {Id NP EP E : Type} [LinearOrder Id] [ConcreteId Id]

/-- the key under which an edge is stored in an ordering -/
def encOf : EdgeOrder → Triple Id → TKey Id
  | .SPO => encodeSpo
  | .POS => encodePos
  | .OSP => encodeOsp

def Db.tree (d : Db) : EdgeOrder → Tree
  | .SPO => d.spo
  | .POS => d.pos
  | .OSP => d.osp

/-- the id of the property record stored for an edge in an ordering -/
def Db.idIn (d : Db) (o : EdgeOrder) (t : Triple Id) : Option Bytes := (d.tree o).get (encOf o t).1

/-- What a serialization format owes its user: what was written can be read back. -/
def Codec.RoundTrips {P : Type} (c : Codec P) : Prop := ∀ p b, c.ser p = some b → c.de b = some p

def Codecs.RoundTrip (c : Codecs NP EP) : Prop := c.n.RoundTrips ∧ c.e.RoundTrips

/-- Every value can be serialized. -/
def Codecs.Total (c : Codecs NP EP) : Prop := (∀ p, (c.n.ser p).isSome) ∧ ∀ p, (c.e.ser p).isSome

/-- how many ids an operation on a sled store may draw from the store's generator -/
def Spec.Op.genDraws : Op E Id NP EP → Nat
  | .insertEdge _ _ => 1
  | .mergeEdge _ _ => 1
  | .merge src => src.edges.length
  | _ => 0

/-- how many times an operation on a sled store may call `Ulid::new()` -/
def Spec.Op.ulidDraws : Op E Id NP EP → Nat
  | .extend src => src.edges.length
  | _ => 0

def Spec.genDraws (h : List (Op E Id NP EP)) : Nat := (h.map Op.genDraws).sum
def Spec.ulidDraws (h : List (Op E Id NP EP)) : Nat := (h.map Op.ulidDraws).sum

/-- The next `n` ids of the generator and the next `m` results of `Ulid::new()` are pairwise different, as the byte
strings under which property records are stored. -/
def Spec.FreshIds (n m : Nat) (g : Gen Id) (u : Gen Ulid) : Prop :=
  Fresh n g ∧ Fresh m u ∧ ∀ i < n, ∀ j < m, (toBeBytes (g i)).1 ≠ (toBeBytes (u j)).1

namespace Sled

/-- what iterating a sled database shows -/
def obs (c : Codecs NP EP) (d : Db) : Obs SErr Id NP EP :=
  { vertices := iterVertices Id c d, edges := iterEdges Id c d }

end Sled

/-! ## What is to be read from arbitrary database contents -/

/-- One item of `iter_vertices`, from the entry it stands for. -/
inductive Spec.VertexItem (c : Codecs NP EP) : Bytes × Bytes → Except SErr (Id × NP) → Prop
  | badKey {k v : Bytes} (h : k.length ≠ idLen (Id := Id)) : VertexItem c (k, v) (.error .keySize)
  | undecodable {n : Id} {v : Bytes} (h : c.n.de v = none) : VertexItem c ((toBeBytes n).1, v) (.error .serialization)
  | good {n : Id} {v : Bytes} {p : NP} (h : c.n.de v = some p) : VertexItem c ((toBeBytes n).1, v) (.ok (n, p))

/-- One item of `iter_edges`, from the entry of the ordering it stands for. -/
inductive Spec.EdgeItem (c : Codecs NP EP) (d : Db) (o : EdgeOrder) :
    Bytes × Bytes → Except SErr (Triple Id × EP) → Prop
  | badKey {k v : Bytes} (h : k.length ≠ tripleLen (Id := Id)) : EdgeItem c d o (k, v) (.error .keySize)
  | missing {t : Triple Id} {v : Bytes} (h : d.edgeProps.get v = none) :
      EdgeItem c d o ((encOf o t).1, v) (.error .missing)
  | undecodable {t : Triple Id} {v b : Bytes} (h : d.edgeProps.get v = some b) (hb : c.e.de b = none) :
      EdgeItem c d o ((encOf o t).1, v) (.error .serialization)
  | good {t : Triple Id} {v b : Bytes} {p : EP} (h : d.edgeProps.get v = some b) (hb : c.e.de b = some p) :
      EdgeItem c d o ((encOf o t).1, v) (.ok (t, p))

/-- a stored value that cannot be read -/
def Spec.Undecodable {P : Type} (c : Codec P) (t : Tree) (k : Bytes) : Prop := ∃ b, t.get k = some b ∧ c.de b = none
/-- a stored value that can be read -/
def Spec.Reads {P : Type} (c : Codec P) (t : Tree) (k : Bytes) (p : P) : Prop := ∃ b, t.get k = some b ∧ c.de b = some p

/-- One item of `iter_edges_with_props`, from the entry of the ordering it stands for. -/
inductive Spec.PropsItem (c : Codecs NP EP) (d : Db) (o : EdgeOrder) :
    Bytes × Bytes → Except SErr (PropsTriple Id NP EP) → Prop
  | badKey {k v : Bytes} (h : k.length ≠ tripleLen (Id := Id)) : PropsItem c d o (k, v) (.error .keySize)
  | undecodable {t : Triple Id} {v : Bytes}
      (h : Undecodable c.n d.nodeProps (toBeBytes t.sub).1 ∨ Undecodable c.e d.edgeProps v ∨
        Undecodable c.n d.nodeProps (toBeBytes t.obj).1) :
      PropsItem c d o ((encOf o t).1, v) (.error .serialization)
  | missing {t : Triple Id} {v : Bytes} (h1 : ¬ Undecodable c.n d.nodeProps (toBeBytes t.sub).1)
      (h2 : ¬ Undecodable c.e d.edgeProps v) (h3 : ¬ Undecodable c.n d.nodeProps (toBeBytes t.obj).1)
      (h : d.nodeProps.get (toBeBytes t.sub).1 = none ∨ d.edgeProps.get v = none ∨
        d.nodeProps.get (toBeBytes t.obj).1 = none) :
      PropsItem c d o ((encOf o t).1, v) (.error .missing)
  | good {t : Triple Id} {v : Bytes} {ps po : NP} {p : EP} (h1 : Reads c.n d.nodeProps (toBeBytes t.sub).1 ps)
      (h2 : Reads c.e d.edgeProps v p) (h3 : Reads c.n d.nodeProps (toBeBytes t.obj).1 po) :
      PropsItem c d o ((encOf o t).1, v) (.ok { sub := (t.sub, ps), pred := (t.pred, p), obj := (t.obj, po) })

/-- the ordering a query is answered from (`NodeProps` needs none) -/
def Spec.Query.order : Query Id → EdgeOrder
  | .NodeProps _ => .SPO
  | .SPO _ => .SPO
  | .S _ => .SPO
  | .SP _ => .SPO
  | .P _ => .POS
  | .PO _ => .POS
  | .O _ => .OSP
  | .SO _ => .OSP

/-- the query asks for this edge -/
def Spec.Query.Hits (t : Triple Id) : Query Id → Prop
  | .NodeProps _ => False
  | .SPO l => (t.sub, t.pred, t.obj) ∈ l
  | .S l => t.sub ∈ l
  | .P l => t.pred ∈ l
  | .O l => t.obj ∈ l
  | .SP l => (t.sub, t.pred) ∈ l
  | .PO l => (t.pred, t.obj) ∈ l
  | .SO l => (t.sub, t.obj) ∈ l

/-- the query asks for this node -/
def Spec.Query.Asks (n : Id) : Query Id → Prop
  | .NodeProps l => n ∈ l
  | _ => False

/-- `G` consists of everything that can be read, the edges from ordering `o`. -/
structure Spec.Readable (c : Codecs NP EP) (d : Db) (o : EdgeOrder) (G : Graph Id NP EP) : Prop where
  nodes : ∀ n p, G.nodes n = some p ↔ Reads c.n d.nodeProps (toBeBytes n).1 p
  edges : ∀ t p, G.edges t = some p ↔ ∃ v, d.idIn o t = some v ∧ Reads c.e d.edgeProps v p

namespace SledStore

/-- what iterating a SledTripleStore shows -/
def obs (c : Codecs NP EP) (s : SledStore Id) : Obs SErr Id NP EP := Sled.obs c s.db

/-- number of edges shown by a store -/
def edgeCount (c : Codecs NP EP) (s : SledStore Id) : Nat := (Sled.iterEdges Id c s.db .SPO).length

/-- the answer to a query -/
def run (c : Codecs NP EP) (s : SledStore Id) (g : Gen Id) (q : Query Id) : Except (LR SErr Unit) (Mem Id NP EP) :=
  Sled.runQuery c s.db g q

/-- the result of a function that works on one item, in the error type of the functions that read a source -/
def tag : Except SErr Unit → Except (LR SErr E) Unit
  | .ok () => .ok ()
  | .error e => .error (.left e)

/-- Call the API function named by `op`. -/
def call (c : Codecs NP EP) (mN : NP → NP → NP) (mE : EP → EP → EP) (s : SledStore Id) :
    Op E Id NP EP → SledStore Id × Except (LR SErr E) Unit
  | .insertNode n p => ((s.insertNode c n p).1, tag (s.insertNode c n p).2)
  | .insertEdge t p => ((s.insertEdge c t p).1, tag (s.insertEdge c t p).2)
  | .removeNode n => ((s.removeNode n).1, tag (s.removeNode n).2)
  | .removeEdge t => ((s.removeEdge t).1, tag (s.removeEdge t).2)
  | .mergeNode n p => ((s.mergeNode c mN n p).1, tag (s.mergeNode c mN n p).2)
  | .mergeEdge t p => ((s.mergeEdge c mE t p).1, tag (s.mergeEdge c mE t p).2)
  | .extend src => s.extend c src
  | .merge src => s.merge c mN mE src

/-- Call the API function named by `op`, dropping its result. -/
def apply (c : Codecs NP EP) (mN : NP → NP → NP) (mE : EP → EP → EP) (s : SledStore Id)
    (op : Op E Id NP EP) : SledStore Id := (s.call c mN mE op).1

def applyAll (c : Codecs NP EP) (mN : NP → NP → NP) (mE : EP → EP → EP) (s : SledStore Id)
    (h : List (Op E Id NP EP)) : SledStore Id := h.foldl (apply c mN mE) s

/-- What can be left in the database if the process is killed, or sled fails, during a call. -/
def crashStates (c : Codecs NP EP) (mN : NP → NP → NP) (mE : EP → EP → EP) (s : SledStore Id) :
    Op E Id NP EP → List Db
  | .insertNode n p => (Sled.insertNode c n p).states s.db
  | .insertEdge t p => (Sled.insertEdge c (Gen.fresh s.gen).1 t p).states s.db
  | .removeNode n => (Sled.removeNode n).states s.db
  | .removeEdge t => (Sled.removeEdge t).states s.db
  | .mergeNode n p => (Sled.mergeNode c mN n p).states s.db
  | .mergeEdge t p => (Sled.mergeEdge c mE (Gen.fresh s.gen).1 t p).states s.db
  | .extend src => (Sled.extend c s.ulid src).states s.db
  | .merge src => (Sled.merge c mN mE s.gen src).states s.db

/-- None of the next `n` ids of `g` and `m` ids of `u` is in use in the database. -/
def Unused (n m : Nat) (g : Gen Id) (u : Gen Ulid) (d : Db) : Prop :=
  ∀ e ∈ d.spo.entries, (∀ i < n, e.2 ≠ (toBeBytes (g i)).1) ∧ ∀ j < m, e.2 ≠ (toBeBytes (u j)).1

/-- `Reach n m s`: `s` is a store that a client can hold, having created it on an empty database and made any API calls,
closed the database and opened it again any number of times, whether regularly or after a crash in the middle of any
call but `extend`.  No id was drawn while in use, and the next `n` ids of the generator and `m` of `Ulid::new()` are
different from each other and from those in use. -/
inductive Reach (E : Type) (c : Codecs NP EP) (mN : NP → NP → NP) (mE : EP → EP → EP) :
    Nat → Nat → SledStore Id → Prop
  | new {n m : Nat} {g : Gen Id} {u : Gen Ulid} (h : FreshIds n m g u) : Reach E c mN mE n m (.new Db.empty g u)
  | op {n m : Nat} {s : SledStore Id} (o : Op E Id NP EP) (h : Reach E c mN mE (n + o.genDraws) (m + o.ulidDraws) s) :
      Reach E c mN mE n m (s.apply c mN mE o)
  | reopen {n m n' m' : Nat} {s : SledStore Id} {g : Gen Id} {u : Gen Ulid} (hs : Reach E c mN mE n' m' s)
      (h : FreshIds n m g u) (hu : Unused n m g u s.db) : Reach E c mN mE n m (.new s.db g u)
  | crash {n m n' m' : Nat} {s : SledStore Id} (o : Op E Id NP EP) {d : Db} {g : Gen Id} {u : Gen Ulid}
      (hs : Reach E c mN mE (n' + o.genDraws) (m' + o.ulidDraws) s) (hd : d ∈ s.crashStates c mN mE o)
      (ho : ∀ src, o ≠ .extend src) (h : FreshIds n m g u) (hu : Unused n m g u d) :
      Reach E c mN mE n m (.new d g u)

/-- None of the next `m` ids of `u` is in use in any ordering of the database. -/
def UnusedUlids (m : Nat) (u : Gen Ulid) (d : Db) : Prop :=
  ∀ o, ∀ e ∈ (d.tree o).entries, ∀ j < m, e.2 ≠ (toBeBytes (u j)).1

/-- `Interrupted src d d'`: starting with `d`, `extend` with the same source was attempted any number of times, and each
time the process crashed somewhere in it; `d'` is left. -/
inductive Interrupted (c : Codecs NP EP) (src : Source E Id NP EP) (d : Db) : Db → Prop
  | start : Interrupted c src d d
  | crash {d1 d2 : Db} {u : Gen Ulid} (h : Interrupted c src d d1) (hu : Fresh src.edges.length u)
      (hn : UnusedUlids src.edges.length u d1) (h2 : d2 ∈ (Sled.extend c u src).states d1) : Interrupted c src d d2

/-- A database over several runs of the process: in each, a store is created on it with new generators and used for a
history of calls. -/
def runs (c : Codecs NP EP) (mN : NP → NP → NP) (mE : EP → EP → EP) :
    Db → List (Gen Id × Gen Ulid × List (Op E Id NP EP)) → Db
  | d, [] => d
  | d, r :: l => runs c mN mE ((SledStore.new d r.1 r.2.1).applyAll c mN mE r.2.2).db l

/-- the ids that may be drawn in one run -/
def drawn (r : Gen Id × Gen Ulid × List (Op E Id NP EP)) : List Bytes :=
  (List.range (genDraws r.2.2)).map (fun i => (toBeBytes (r.1 i)).1) ++
    (List.range (ulidDraws r.2.2)).map (fun j => (toBeBytes (r.2.1 j)).1)

end SledStore

/-! ## What the operations do to the abstract graph when some values cannot be serialized -/

namespace Spec

/-- how an operation ends -/
inductive Outcome (E : Type) where
  | done
  | unserializable
  | source (e : E)
deriving DecidableEq

/-- what the caller sees of it -/
def Outcome.result {E : Type} : Outcome E → Except (LR SErr E) Unit
  | .done => .ok ()
  | .unserializable => .error (.left .serialization)
  | .source e => .error (.right e)

/-- Take in the items of an iterator up to the first error, or the first item that cannot be stored. -/
def takeIn {E α σ : Type} (f : σ → α → Option σ) : σ → List (Except E α) → σ × Outcome E
  | G, [] => (G, .done)
  | G, .error e :: _ => (G, .source e)
  | G, .ok a :: l =>
    match f G a with
    | none => (G, .unserializable)
    | some G' => takeIn f G' l

section
variable [DecidableEq Id] (okN : NP → Bool) (okE : EP → Bool) (mN : NP → NP → NP) (mE : EP → EP → EP)
  (G : Graph Id NP EP)

def storeNode (n : Id) (p : NP) : Option (Graph Id NP EP) := if okN p then some (G.insertNode n p) else none
def storeEdge (t : Triple Id) (p : EP) : Option (Graph Id NP EP) := if okE p then some (G.insertEdge t p) else none

/-- what merging puts in the place of `old` -/
def merged {P : Type} (f : P → P → P) (old : Option P) (p : P) : P :=
  match old with
  | some q => f q p
  | none => p

/-- the value which merging stores has to be storable -/
def storeMergedNode (n : Id) (p : NP) : Option (Graph Id NP EP) :=
  storeNode okN G n (merged mN (G.nodes n) p)
def storeMergedEdge (t : Triple Id) (p : EP) : Option (Graph Id NP EP) :=
  storeEdge okE G t (merged mE (G.edges t) p)

/-- a single change: all or nothing -/
def one : Option (Graph Id NP EP) → Graph Id NP EP × Outcome E
  | some G' => (G', .done)
  | none => (G, .unserializable)

/-- nodes first, then edges unless the nodes failed -/
def both (fN : Graph Id NP EP → Id × NP → Option (Graph Id NP EP))
    (fE : Graph Id NP EP → Triple Id × EP → Option (Graph Id NP EP)) (src : Source E Id NP EP) :
    Graph Id NP EP × Outcome E :=
  match takeIn fN G src.nodes with
  | (G', .done) => takeIn fE G' src.edges
  | r => r

/-- An operation on the abstract graph, when only the properties satisfying `okN` and `okE` can be stored. -/
def Op.step : Op E Id NP EP → Graph Id NP EP × Outcome E
  | .insertNode n p => one G (storeNode okN G n p)
  | .insertEdge t p => one G (storeEdge okE G t p)
  | .removeNode n => (G.removeNode n, .done)
  | .removeEdge t => (G.removeEdge t, .done)
  | .mergeNode n p => one G (storeMergedNode okN mN G n p)
  | .mergeEdge t p => one G (storeMergedEdge okE mE G t p)
  | .extend src => both G (fun G x => storeNode okN G x.1 x.2) (fun G x => storeEdge okE G x.1 x.2) src
  | .merge src => both G (fun G x => storeMergedNode okN mN G x.1 x.2) (fun G x => storeMergedEdge okE mE G x.1 x.2) src

/-- `src` cut off somewhere: some of the nodes, or all nodes and some of the edges. -/
def Source.CutOff (src' src : Source E Id NP EP) : Prop :=
  src'.nodes <+: src.nodes ∧ src'.edges <+: src.edges ∧ (src'.nodes = src.nodes ∨ src'.edges = [])

def stepAll (h : List (Op E Id NP EP)) : Graph Id NP EP :=
  h.foldl (fun G op => (op.step okN okE mN mE G).1) G

end

end Spec

/-- which properties the store can serialize -/
def Codecs.okN (c : Codecs NP EP) (p : NP) : Bool := (c.n.ser p).isSome
def Codecs.okE (c : Codecs NP EP) (p : EP) : Bool := (c.e.ser p).isSome

end Verif
