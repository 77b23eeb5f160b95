import Verif.Spec.SledWell
import Verif.Spec.RdfSledLoose

/-!
# What concurrent calls return

What a call has to return, judging from its arguments, and for RDF stores from the names known at the start and the calls of the other
threads.
-/

namespace Verif

open Spec ConcreteId

variable {Id NP EP E : Type}

namespace Spec

/-- the result of writing one property -/
def saved {P : Type} (k : Codec P) (p : P) : Except SErr Unit := if (k.ser p).isSome then .ok () else .error .serialization

/-- The result of a function that takes in the items of a source one by one, up to the first failure of the source or of an item, and
then goes on to what returns `next`. -/
def absorbed {X α : Type} (item : α → Except X Unit) (next : Except (LR X E) Unit) : List (Except E α) → Except (LR X E) Unit
  | [] => next
  | .error e :: _ => .error (.right e)
  | .ok a :: l =>
    match item a with
    | .error x => .error (.left x)
    | .ok () => absorbed item next l

/-- the same if taking in an item may have different results -/
def Absorbs {X α : Type} (item : α → Except X Unit → Prop) (next : Except (LR X E) Unit → Prop) :
    List (Except E α) → Except (LR X E) Unit → Prop
  | [], r => next r
  | .error e :: _, r => r = .error (.right e)
  | .ok a :: l, r => (∃ x, item a (.error x) ∧ r = .error (.left x)) ∨ item a (.ok ()) ∧ Absorbs item next l r

/-- Merging does not decide whether a property can be serialized: it can if the new one can. -/
def Mixes {P : Type} (k : Codec P) (m : P → P → P) : Prop :=
  ∀ old p, (k.ser old).isSome → (k.ser (m old p)).isSome = (k.ser p).isSome

end Spec

/-- What a call on a triple store returns. -/
def Sled.Call.expected (c : Codecs NP EP) : Sled.Call E Id NP EP → Except (LR SErr E) Unit
  | .insertNode _ p => SledStore.tag (saved c.n p)
  | .insertEdge _ _ p => SledStore.tag (saved c.e p)
  | .removeNode _ => .ok ()
  | .removeNodeScan _ _ _ => .ok ()
  | .removeEdge _ => .ok ()
  | .mergeNode _ p => SledStore.tag (saved c.n p)
  | .mergeEdge _ _ p => SledStore.tag (saved c.e p)
  | .extend _ src => absorbed (fun x => saved c.n x.2) (absorbed (fun x => saved c.e x.2) (.ok ()) src.edges) src.nodes
  | .merge _ src => absorbed (fun x => saved c.n x.2) (absorbed (fun x => saved c.e x.2) (.ok ()) src.edges) src.nodes

namespace RdfSled

/-- the program of a call, with its result -/
def Call.result (cl : Codec String) (cr : Codec Ulid) (c : Codecs NP EP) (mN : NP → NP → NP) (mE : EP → EP → EP)
    (x : Call E NP EP) : Prog RdfDb (Except (LR Err E) Unit) :=
  (RdfSled.prog cl cr c mN mE x.op x.ids).bind (fun r => .ret r.2)

/-- What writing something about the entities `es` may return: what the triple store returns; or that a name among them just got some
other id than the one drawn for it.  `rival s u`: the name `s` was unknown at the start, and another thread may give it the id `u`;
`mine`: the ids drawn by the call itself. -/
def Puts (rival : String → Ulid → Prop) (mine : List Ulid) (es : List Entity) (g : Except SErr Unit) (r : Except Err Unit) : Prop :=
  r = g.mapError .graph ∨
    ∃ s u v, .string s ∈ es ∧ rival s u ∧ v ∈ mine ∧ r = .error (.nameIndex (.duplicateRight s u v))

/-- What removing something about the entities `es` may return: success, if each name among them is known at the start or created by
some call; or that a name is not found, if it is unknown at the start. -/
def Finds (known : String → Bool) (made : String → Prop) (es : List Entity) (r : Except Err Unit) : Prop :=
  (r = .ok () ∧ ∀ s, .string s ∈ es → known s = true ∨ made s) ∨
    ∃ s, .string s ∈ es ∧ known s = false ∧ r = .error (.nameNotFound s)

/-- What a call on an RDF store may return. -/
def Call.Gives (c : Codecs NP EP) (known : String → Bool) (rival : String → Ulid → Prop) (made : String → Prop) (x : Call E NP EP)
    (r : Except (LR Err E) Unit) : Prop :=
  match x.op with
  | .insertNode e p => ∃ r', Puts rival x.ulids [e] (saved c.n p) r' ∧ r = Rdf.tag r'
  | .insertEdge t p => ∃ r', Puts rival x.ulids (RdfState.parts t) (saved c.e p) r' ∧ r = Rdf.tag r'
  | .mergeNode e p => ∃ r', Puts rival x.ulids [e] (saved c.n p) r' ∧ r = Rdf.tag r'
  | .mergeEdge t p => ∃ r', Puts rival x.ulids (RdfState.parts t) (saved c.e p) r' ∧ r = Rdf.tag r'
  | .removeNode e => ∃ r', Finds known made [e] r' ∧ r = Rdf.tag r'
  | .removeEdge t => ∃ r', Finds known made (RdfState.parts t) r' ∧ r = Rdf.tag r'
  | .extend src => Absorbs (fun y => Puts rival x.ulids [y.1] (saved c.n y.2))
      (Absorbs (fun y => Puts rival x.ulids (RdfState.parts y.1) (saved c.e y.2)) (fun r => r = .ok ()) src.edges) src.nodes r
  | .merge src => Absorbs (fun y => Puts rival x.ulids [y.1] (saved c.n y.2))
      (Absorbs (fun y => Puts rival x.ulids (RdfState.parts y.1) (saved c.e y.2)) (fun r => r = .ok ()) src.edges) src.nodes r

/-- What a call on an RDF store returns if nobody interferes and the names in removals are known. -/
def Call.expected (c : Codecs NP EP) (x : Call E NP EP) : Except (LR Err E) Unit :=
  match x.op with
  | .insertNode _ p => Rdf.tag ((saved c.n p).mapError .graph)
  | .insertEdge _ p => Rdf.tag ((saved c.e p).mapError .graph)
  | .mergeNode _ p => Rdf.tag ((saved c.n p).mapError .graph)
  | .mergeEdge _ p => Rdf.tag ((saved c.e p).mapError .graph)
  | .removeNode _ => .ok ()
  | .removeEdge _ => .ok ()
  | .extend src => absorbed (fun y => (saved c.n y.2).mapError .graph)
      (absorbed (fun y => (saved c.e y.2).mapError .graph) (.ok ()) src.edges) src.nodes
  | .merge src => absorbed (fun y => (saved c.n y.2).mapError .graph)
      (absorbed (fun y => (saved c.e y.2).mapError .graph) (.ok ()) src.edges) src.nodes

/-- some call of the threads creates the name -/
def Made (threads : List (List (Call E NP EP))) (s : String) : Prop := ∃ th ∈ threads, ∃ x ∈ th, x.Creates s

/-- some call of a thread other than the thread number `i` creates the name, and may give it the id -/
def MadeElsewhere (threads : List (List (Call E NP EP))) (i : Nat) (s : String) (u : Ulid) : Prop :=
  ∃ j th, j ≠ i ∧ threads[j]? = some th ∧ ∃ x ∈ th, x.Creates s ∧ u ∈ x.ulids

end RdfSled

end Verif
