import Verif.Spec.RdfSledConc
import Verif.Spec.SledSessions
import Verif.Model.RdfSledRemove

/-!
# RDF stores in processes which race and crash

Threads with RDF stores on one sled database make calls on its name index and on its triple store.  What is needed to say which
calls on the triple store these are: the calls an API function makes when all goes well, with entities for ids; the ids the
entities have got; and why a call may stop halfway.
-/

namespace Verif

open Spec ConcreteId

variable {NP EP E : Type}

namespace RdfSled

/-- An API call, and the sizes of the pieces in which its range scans read the orderings if it is a `remove_node`. -/
abbrev PieceCall (E NP EP : Type) := Call E NP EP × List Nat × List Nat

/-- the program of a call, dropping its result -/
def PieceCall.prog (cl : Codec String) (cr : Codec Ulid) (c : Codecs NP EP) (mN : NP → NP → NP) (mE : EP → EP → EP)
    (x : PieceCall E NP EP) : Prog RdfDb Unit :=
  match x.1.op with
  | .removeNode e => (single (E := E) (removeNodePieces cl cr x.2.1 x.2.2 e) x.1.ids).bind (fun _ => .ret ())
  | _ => x.1.prog cl cr c mN mE

/-- a process: what its threads call, and whether it crashes -/
structure Session (E NP EP : Type) where
  crash : Bool
  threads : List (List (PieceCall E NP EP))

/-- what it may make of the database: anything that is there at some moment if it crashes, otherwise what is there in the end -/
def Session.Leads (cl : Codec String) (cr : Codec Ulid) (c : Codecs NP EP) (mN : NP → NP → NP) (mE : EP → EP → EP) (d : RdfDb)
    (s : Session E NP EP) (d' : RdfDb) : Prop :=
  match s.crash with
  | true => ∃ rest, Steps (d, s.threads.map (List.map (PieceCall.prog cl cr c mN mE))) (d', rest)
  | false => ∃ rest, CalmSteps (d, s.threads.map (List.map (PieceCall.prog cl cr c mN mE))) (d', rest) ∧ ∀ th ∈ rest, th = []

/-! ## the calls on the triple store -/

/-- calls for one edge after the other, each drawing an id -/
def edgeCalls (mk : Entity → Triple Entity → EP → Sled.Call E Entity NP EP) :
    Gen Ulid → List (Triple Entity × EP) → List (Sled.Call E Entity NP EP)
  | _, [] => []
  | g, x :: l => mk (.ulid (Gen.fresh g).1) x.1 x.2 :: edgeCalls mk (Gen.fresh g).2 l

/-- The calls on the triple store which an API call is to make, in order: one for each node and each edge. -/
def Call.wants (x : Call E NP EP) : List (Sled.Call E Entity NP EP) :=
  match x.op with
  | .insertNode e p => [.insertNode e p]
  | .insertEdge t p => [.insertEdge (.ulid (x.ids.gen 0)) t p]
  | .removeNode e => [.removeNode e]
  | .removeEdge t => [.removeEdge t]
  | .mergeNode e p => [.mergeNode e p]
  | .mergeEdge t p => [.mergeEdge (.ulid (x.ids.gen 0)) t p]
  | .extend src =>
    (oks src.nodes).map (fun y => .insertNode y.1 y.2) ++
      if fails src.nodes then [] else edgeCalls .insertEdge x.ids.gen (oks src.edges)
  | .merge src =>
    (oks src.nodes).map (fun y => .mergeNode y.1 y.2) ++
      if fails src.nodes then [] else edgeCalls .mergeEdge x.ids.gen (oks src.edges)

/-- the same with the sizes of pieces -/
def PieceCall.wants (x : PieceCall E NP EP) : List (Sled.PieceCall E Entity NP EP) := x.1.wants.map (fun y => (y, x.2))

/-- the id of an entity -/
def idIn (f : String → Option Ulid) : Entity → Option Ulid
  | .string s => f s
  | .ulid u => some u

/-- the ids of the entities in a triple -/
def tripleIn (f : String → Option Ulid) (t : Triple Entity) : Option (Triple Ulid) :=
  match idIn f t.sub, idIn f t.pred, idIn f t.obj with
  | some s, some p, some o => some { sub := s, pred := p, obj := o }
  | _, _, _ => none

/-- a call on the triple store, entities being replaced by their ids -/
def callIn (f : String → Option Ulid) : Sled.Call E Entity NP EP → Option (Sled.Call E Ulid NP EP)
  | .insertNode e p => (idIn f e).map (fun u => .insertNode u p)
  | .mergeNode e p => (idIn f e).map (fun u => .mergeNode u p)
  | .removeNode e => (idIn f e).map (fun u => .removeNode u)
  | .removeEdge t => (tripleIn f t).map (fun u => .removeEdge u)
  | .insertEdge i t p => (idIn f i).bind (fun i => (tripleIn f t).map (fun u => .insertEdge i u p))
  | .mergeEdge i t p => (idIn f i).bind (fun i => (tripleIn f t).map (fun u => .mergeEdge i u p))
  | _ => none

/-- the same with the sizes of pieces -/
def pieceIn (f : String → Option Ulid) (y : Sled.PieceCall E Entity NP EP) : Option (Sled.PieceCall E Ulid NP EP) :=
  (callIn f y.1).map (fun z => (z, y.2))

/-- the ids a thread may give to names -/
def mine (th : List (PieceCall E NP EP)) : List Ulid := th.flatMap (fun x => x.1.ulids)

/-- Why a thread may be unable to make the call, `f` being the names there were at the start (of the process, or of the API call), `f'`
those at the end: a name in a removal was unknown at the start.  A name that is to be created was unknown at the start, and got an id
drawn by some other thread. -/
def Fails (f f' : String → Option Ulid) (th : List (PieceCall E NP EP)) : Sled.Call E Entity NP EP → Prop
  | .removeNode e => ∃ s, e = .string s ∧ f s = none
  | .removeEdge t => ∃ s, .string s ∈ RdfState.parts t ∧ f s = none
  | .insertNode e _ => ∃ s v, e = .string s ∧ f s = none ∧ f' s = some v ∧ v ∉ mine th
  | .mergeNode e _ => ∃ s v, e = .string s ∧ f s = none ∧ f' s = some v ∧ v ∉ mine th
  | .insertEdge _ t _ => ∃ s v, .string s ∈ RdfState.parts t ∧ f s = none ∧ f' s = some v ∧ v ∉ mine th
  | .mergeEdge _ t _ => ∃ s v, .string s ∈ RdfState.parts t ∧ f s = none ∧ f' s = some v ∧ v ∉ mine th
  | _ => False

/-- An API call of the thread `th` has made the calls `l` on the triple store: the first of those it was to make; unless the
process crashes, it has made all of them or was unable to make the next one. -/
def CallDid (crash : Bool) (f f' : String → Option Ulid) (th : List (PieceCall E NP EP)) (x : PieceCall E NP EP)
    (l : List (Sled.PieceCall E Ulid NP EP)) : Prop :=
  l.map some <+: x.wants.map (pieceIn f') ∧
    (crash = true ∨ l.length = x.wants.length ∨ ∃ y, x.wants[l.length]? = some y ∧ Fails f f' th y.1)

/-- a thread has made the calls `l` on the triple store -/
def ThreadDid (crash : Bool) (f f' : String → Option Ulid) (th : List (PieceCall E NP EP)) (l : List (Sled.PieceCall E Ulid NP EP)) :
    Prop :=
  ∃ ls, List.Forall₂ (CallDid crash f f' th) th ls ∧ l = ls.flatten

/-- the names keep their ids -/
def Keeps (f f' : String → Option Ulid) : Prop := ∀ s u, f s = some u → f' s = some u

/-- The names and their ids remain, and each new name has got an id from a call that creates it. -/
def Learns (f f' : String → Option Ulid) (threads : List (List (PieceCall E NP EP))) : Prop :=
  Keeps f f' ∧ ∀ s u, f' s = some u → f s = some u ∨ ∃ th ∈ threads, ∃ x ∈ th, x.1.Creates s ∧ u ∈ x.1.ulids

/-- The names known after a step of threads: those known before, and names created by the call whose program performs the step, with
an id drawn by that call. -/
def Named (x y : List (List (Prog RdfDb Unit))) (threads : List (List (PieceCall E NP EP))) (f f' : String → Option Ulid) : Prop :=
  ∀ s u, f' s = some u → f s = some u ∨ ∃ (i : Nat) (th : List (PieceCall E NP EP)) (l l' : List (Prog RdfDb Unit)) (z : PieceCall E NP EP),
    threads[i]? = some th ∧ x[i]? = some l ∧ y = x.set i l' ∧ l'.length = l.length ∧ l ≠ [] ∧
      th[th.length - l.length]? = some z ∧ z.1.Creates s ∧ u ∈ z.1.ulids

/-- Processes with RDF stores, and the same processes as users of the triple store; the names become more. -/
def Did : (String → Option Ulid) → List (Session E NP EP) → List (Sled.Session E Ulid NP EP) → (String → Option Ulid) → Prop
  | f, [], [], f' => f' = f
  | f, s :: ss, z :: zs, f'' => ∃ f', Learns f f' s.threads ∧ z.crash = s.crash ∧
      List.Forall₂ (ThreadDid s.crash f f') s.threads z.threads ∧ Did f' ss zs f''
  | _, _, _, _ => False

/-! ## hypotheses -/

/-- the calls of all threads of all processes -/
def everyCall (ss : List (Session E NP EP)) : List (Call E NP EP) := (ss.flatMap (fun s => s.threads.flatten)).map Prod.fst

/-- The ids which all these calls may give to names are distinct, and name nothing at the start; those for edge properties are
distinct, and unused at the start. -/
structure NewIdsFor (f : String → Option Ulid) (d : Db) (xs : List (Call E NP EP)) : Prop where
  ulids : (xs.flatMap Call.ulids).Nodup
  names : ∀ u ∈ xs.flatMap Call.ulids, ∀ s, f s ≠ some u
  records : (xs.flatMap Call.records).Nodup
  unused : ∀ v ∈ xs.flatMap Call.records, d.edgeProps.get (toBeBytes v).1 = none

end RdfSled

end Verif
