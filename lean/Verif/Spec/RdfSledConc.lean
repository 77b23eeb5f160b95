import Verif.Spec.RdfSled
import Verif.Spec.SledConc

/-!
# Concurrent use of RDF stores on one sled database

Any number of threads, each with its own `RdfTripleStore<_, _, SledHashIndex, SledTripleStore>` on the same `sled::Db`, call
API functions.  A call is the sequence of sled calls it makes; `Steps` interleaves those of different threads in any way, and
lets any call fail with a storage error.
-/

namespace Verif

open Spec ConcreteId

variable {NP EP E : Type}

namespace RdfSled

/-- An API call, with what `Ulid::new()` and the id generator are going to return to it. -/
structure Call (E NP EP : Type) where
  op : Op E Entity NP EP
  ids : Ids

variable (cl : Codec String) (cr : Codec Ulid) (c : Codecs NP EP) (mN : NP → NP → NP) (mE : EP → EP → EP)

namespace Call

/-- the program of a call, dropping its result -/
def prog (x : Call E NP EP) : Prog RdfDb Unit := (RdfSled.prog cl cr c mN mE x.op x.ids).bind (fun _ => .ret ())

/-- the ids a call may give to names -/
def ulids (x : Call E NP EP) : List Ulid := (List.range x.op.creations).map x.ids.ulid

/-- the ids a call may store edge properties under -/
def records (x : Call E NP EP) : List Ulid := (List.range x.op.draws).map x.ids.gen

/-- the names a call creates if they are unknown -/
def Creates (s : String) (x : Call E NP EP) : Prop :=
  match x.op with
  | .removeNode _ => False
  | .removeEdge _ => False
  | op => .string s ∈ op.entities

/-- the edges a call may write -/
def Writes (t : Triple Entity) (x : Call E NP EP) : Prop :=
  match x.op with
  | .insertEdge t' _ => t' = t
  | .mergeEdge t' _ => t' = t
  | .extend src => ∃ p, .ok (t, p) ∈ src.edges
  | .merge src => ∃ p, .ok (t, p) ∈ src.edges
  | _ => False

/-- `remove_edge t` -/
def Removes (t : Triple Entity) (x : Call E NP EP) : Prop :=
  match x.op with
  | .removeEdge t' => t' = t
  | _ => False

/-- not `remove_node` -/
def Simple (x : Call E NP EP) : Prop :=
  match x.op with
  | .removeNode _ => False
  | _ => True

end Call

/-- the state of the process at the start -/
def start (d : RdfDb) (threads : List (List (Call E NP EP))) : RdfDb × List (List (Prog RdfDb Unit)) :=
  (d, threads.map (List.map (Call.prog cl cr c mN mE)))

/-- The database `d` is a possible one at some moment while the threads run. -/
def Moment (d0 : RdfDb) (threads : List (List (Call E NP EP))) (d : RdfDb) : Prop :=
  ∃ rest, Steps (start cl cr c mN mE d0 threads) (d, rest)

/-- All threads have finished all their calls, no call having failed with a storage error, and left `d`. -/
def Final (d0 : RdfDb) (threads : List (List (Call E NP EP))) (d : RdfDb) : Prop :=
  ∃ rest, CalmSteps (start cl cr c mN mE d0 threads) (d, rest) ∧ ∀ th ∈ rest, th = []

/-- The ids drawn by all the threads are distinct.  Those for names neither name anything in the database, nor occur in its
graph, nor are given explicitly (in `C`).  No edge has its properties under those for edge properties. -/
structure DistinctIds (C : List Ulid) (d0 : RdfDb) (threads : List (List (Call E NP EP))) : Prop where
  ulids : (threads.flatten.flatMap Call.ulids).Nodup
  records : (threads.flatten.flatMap Call.records).Nodup
  names : ∀ u ∈ threads.flatten.flatMap Call.ulids, (SledIndex.impl cl cr).rightToLeft d0.names u = .ok none
  nodes : ∀ u ∈ threads.flatten.flatMap Call.ulids, ∀ p, .ok (u, p) ∉ Sled.iterVertices Ulid c d0.data
  edges : ∀ u ∈ threads.flatten.flatMap Call.ulids, ∀ t p, .ok (t, p) ∈ Sled.iterEdges Ulid c d0.data .SPO →
    t.sub ≠ u ∧ t.pred ≠ u ∧ t.obj ≠ u
  explicit : ∀ u ∈ threads.flatten.flatMap Call.ulids, u ∉ C
  unused : ∀ v ∈ threads.flatten.flatMap Call.records, ∀ e ∈ d0.data.spo.entries, e.2 ≠ (toBeBytes v).1

/-- No thread calls `remove_edge t` while another may write the edge `t`. -/
def NoRace (threads : List (List (Call E NP EP))) : Prop :=
  threads.Pairwise (fun th th' => ∀ x ∈ th, ∀ y ∈ th', ∀ t,
    (x.Removes t → ¬ y.Writes t) ∧ (y.Removes t → ¬ x.Writes t))

/-- Two threads create the same name only if it is known from the start. -/
def NoNameRace (known : String → Bool) (threads : List (List (Call E NP EP))) : Prop :=
  threads.Pairwise (fun th th' => ∀ x ∈ th, ∀ y ∈ th', ∀ s, x.Creates s → y.Creates s → known s = true)

/-- What the threads may do: no `remove_node`, no explicit ULIDs but those in `C`, ids different from those in use, no
`remove_edge` racing with a write. -/
structure Fair (C : List Ulid) (d0 : RdfDb) (threads : List (List (Call E NP EP))) : Prop where
  simple : ∀ th ∈ threads, ∀ x ∈ th, x.Simple
  explicit : ∀ th ∈ threads, ∀ x ∈ th, ∀ v ∈ ulids x.op.entities, v ∈ C
  ids : DistinctIds cl cr c C d0 threads
  race : NoRace threads

/-- The databases that can come about: an empty one; what a call, completed or broken off by a crash, leaves in one, through a
store opened on it; what threads make of one up to some moment. -/
inductive Life (E : Type) (C : List Ulid) : RdfDb → Prop
  | new : Life E C { names := .empty, data := .empty }
  | call {d0 d : RdfDb} (h : Life E C d0) (op : Op E Entity NP EP) (hC : ∀ v ∈ ulids op.entities, v ∈ C) {u g : Gen Ulid}
      (hi : NewIds cl cr c C op.draws op.creations u g d0) (hd : d ∈ crashStates cl cr c mN mE (openOn d0 u g) op) :
      Life E C d
  | threads {d0 d : RdfDb} (h : Life E C d0) (threads : List (List (Call E NP EP))) (hf : Fair cl cr c C d0 threads)
      (hm : Moment cl cr c mN mE d0 threads d) : Life E C d

end RdfSled

namespace Spec

/-- the names in a list of entities -/
def names : List Entity → List String
  | [] => []
  | .string s :: l => s :: names l
  | .ulid _ :: l => names l

/-- What happens in one moment: a name is made known, or an operation is done. -/
inductive RdfDeed (E NP EP : Type) where
  | learn (s : String)
  | op (o : Op E Entity NP EP)

/-- the state after a deed -/
def RdfState.deed (okN : NP → Bool) (okE : EP → Bool) (mN : NP → NP → NP) (mE : EP → EP → EP) (x : RdfState NP EP) :
    RdfDeed E NP EP → RdfState NP EP
  | .learn s => x.learn [.string s]
  | .op o => (x.step okN okE mN mE o).1

/-- an operation preceded by learning its names one by one -/
def RdfDeed.after (es : List Entity) (o : Op E Entity NP EP) : List (RdfDeed E NP EP) := (names es).map .learn ++ [.op o]

/-- The deeds of an operation, in order: a bulk operation is as many operations as there are items. -/
def Op.deeds : Op E Entity NP EP → List (RdfDeed E NP EP)
  | .insertNode e p => RdfDeed.after [e] (.insertNode e p)
  | .insertEdge t p => RdfDeed.after (RdfState.parts t) (.insertEdge t p)
  | .mergeNode e p => RdfDeed.after [e] (.mergeNode e p)
  | .mergeEdge t p => RdfDeed.after (RdfState.parts t) (.mergeEdge t p)
  | .removeNode e => [.op (.removeNode e)]
  | .removeEdge t => [.op (.removeEdge t)]
  | .extend src =>
    (oks src.nodes).flatMap (fun x => RdfDeed.after [x.1] (.insertNode x.1 x.2)) ++
      if fails src.nodes then []
      else (oks src.edges).flatMap (fun x => RdfDeed.after (RdfState.parts x.1) (.insertEdge x.1 x.2))
  | .merge src =>
    (oks src.nodes).flatMap (fun x => RdfDeed.after [x.1] (.mergeNode x.1 x.2)) ++
      if fails src.nodes then []
      else (oks src.edges).flatMap (fun x => RdfDeed.after (RdfState.parts x.1) (.mergeEdge x.1 x.2))

end Spec

end Verif
