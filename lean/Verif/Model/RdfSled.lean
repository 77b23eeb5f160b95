import Verif.Model.Rdf

/-!
# The RDF layer over sled, call by call

`Model/Rdf.lean` describes each function of the RDF layer by its whole effect, on any name index and any store.  When both
are kept in sled, a function is a sequence of sled calls, between which the process can crash and other processes' handles can
work.  This file describes the functions of src/rdf.rs and src/rdf/{insert,remove,merge,extend}.rs as such sequences, for
`RdfTripleStore<_, _, SledHashIndex, SledTripleStore>`, the index and the store being opened on the same `sled::Db`.
-/

namespace Verif

/-- The trees of `SledHashIndex::new(db)` (src/sled.rs:367-373) and `SledTripleStore::new(db, ..)` (src/sled.rs:157-178). -/
structure RdfDb where
  names : IndexDb
  data : Db

namespace Prog

variable {α : Type}

/-- a function of the index -/
def onNames : Prog IndexDb α → Prog RdfDb α
  | .ret a => .ret a
  | .call f k => .call (fun d => { d with names := f d.names }) (fun d => (k d.names).onNames)

/-- a function of the store -/
def onData : Prog Db α → Prog RdfDb α
  | .ret a => .ret a
  | .call f k => .call (fun d => { d with data := f d.data }) (fun d => (k d.data).onData)

end Prog

/-- `left_to_right` (src/sled.rs:449-461) as a program: the argument is serialized, then looked up. -/
def SledIndex.leftToRightProg {L R : Type} (cl : Codec L) (cr : Codec R) (l : L) :
    Prog IndexDb (Except (SledIndexErr L R) (Option R)) :=
  match cl.ser l with
  | none => .ret (.error .serialization)
  | some _ => .call id (fun d => .ret (lookup cl cr .serialization d.leftToRight l))

namespace RdfSled

variable {NP EP E α β : Type}

/-- What `Ulid::new()` is going to return to an RDF store, and the generator of the triple store in it. -/
structure Ids where
  ulid : Gen Ulid
  gen : Gen Ulid

abbrev Err := RdfErr (SledIndexErr String Ulid) SErr

/-- A function that takes `&mut self` and may fail. -/
abbrev Task (α : Type) := Ids → Prog RdfDb (Ids × Except Err α)

/-- `let a = m?; f(a)`. -/
def Task.andThen (m : Task α) (f : α → Task β) : Task β := fun i =>
  (m i).bind (fun r => match r.2 with
    | .error e => .ret (r.1, .error e)
    | .ok a => f a r.1)

/-- A call on the name index, `.map_err(NameIndexStorageError)`. -/
def onIndex (p : Prog IndexDb (Except (SledIndexErr String Ulid) α)) : Task α := fun i =>
  p.onNames.bind (fun r => .ret (i, match r with | .ok a => .ok a | .error e => .error (.nameIndex e)))

/-- A call on the triple store, `.map_err(GraphStorageError)`. -/
def onGraph (p : Prog Db (Except SErr Unit)) : Task Unit := fun i =>
  p.onData.bind (fun r => .ret (i, match r with | .ok a => .ok a | .error e => .error (.graph e)))

def done (a : α) : Task α := fun i => .ret (i, .ok a)

section
variable (cl : Codec String) (cr : Codec Ulid)

/-- `lookup_or_create_entity` (src/rdf.rs:70-93). -/
def lookupOrCreateEntity : Entity → Task Ulid
  | .string s =>
    (onIndex (SledIndex.leftToRightProg cl cr s)).andThen (fun o => match o with
      | some id => done id
      | none => fun i =>
        ((onIndex (SledIndex.setProg cl cr s (Gen.fresh i.ulid).1)).andThen (fun _ => done (Gen.fresh i.ulid).1))
          { i with ulid := (Gen.fresh i.ulid).2 })
  | .ulid id => done id

/-- `lookup_entity` (src/rdf.rs:95-107). -/
def lookupEntity : Entity → Task Ulid
  | .string s =>
    (onIndex (SledIndex.leftToRightProg cl cr s)).andThen (fun o => match o with
      | some id => done id
      | none => fun i => .ret (i, .error (.nameNotFound s)))
  | .ulid id => done id

/-- `Triple::try_map` (src/triple.rs:22-31) with one of the two functions above. -/
def tryMap (f : Entity → Task Ulid) (t : Triple Entity) : Task (Triple Ulid) :=
  (f t.sub).andThen (fun s => (f t.pred).andThen (fun p => (f t.obj).andThen (fun o =>
    done { sub := s, pred := p, obj := o })))

variable (c : Codecs NP EP) (mN : NP → NP → NP) (mE : EP → EP → EP)

/-- `insert_node` (src/rdf/insert.rs:16-21). -/
def insertNode (e : Entity) (p : NP) : Task Unit :=
  (lookupOrCreateEntity cl cr e).andThen (fun id => onGraph (Sled.insertNode c id p))

/-- `insert_edge` (src/rdf/insert.rs:23-28). -/
def insertEdge (t : Triple Entity) (p : EP) : Task Unit :=
  (tryMap (lookupOrCreateEntity cl cr) t).andThen (fun t i =>
    onGraph (Sled.insertEdge c (Gen.fresh i.gen).1 t p) { i with gen := (Gen.fresh i.gen).2 })

/-- `merge_node` (src/rdf/merge.rs:39-45). -/
def mergeNode (e : Entity) (p : NP) : Task Unit :=
  (lookupOrCreateEntity cl cr e).andThen (fun id => onGraph (Sled.mergeNode c mN id p))

/-- `merge_edge` (src/rdf/merge.rs:47-56). -/
def mergeEdge (t : Triple Entity) (p : EP) : Task Unit :=
  (tryMap (lookupOrCreateEntity cl cr) t).andThen (fun t i =>
    onGraph (Sled.mergeEdge c mE (Gen.fresh i.gen).1 t p) { i with gen := (Gen.fresh i.gen).2 })

/-- `remove_node` (src/rdf/remove.rs:13-17). -/
def removeNode (e : Entity) : Task Unit :=
  (lookupEntity cl cr e).andThen (fun id => onGraph (Sled.removeNode id))

/-- `remove_edge` (src/rdf/remove.rs:19-23). -/
def removeEdge (t : Triple Entity) : Task Unit :=
  (tryMap (lookupEntity cl cr) t).andThen (fun t => onGraph (Sled.removeEdge t))

/-- `for r in it { let x = r.map_err(Right)?; f(self, x).map_err(Left)?; }`, followed by `k`. -/
def absorb (f : α → Task Unit) (k : Ids → Prog RdfDb (Ids × Except (LR Err E) Unit)) :
    List (Except E α) → Ids → Prog RdfDb (Ids × Except (LR Err E) Unit)
  | [], i => k i
  | .error e :: _, i => .ret (i, .error (.right e))
  | .ok a :: l, i =>
    (f a i).bind (fun r => match r.2 with
      | .error e => .ret (r.1, .error (.left e))
      | .ok () => absorb f k l r.1)

/-- `extend` (src/rdf/extend.rs:16-37). -/
def extend (src : Source E Entity NP EP) (i : Ids) : Prog RdfDb (Ids × Except (LR Err E) Unit) :=
  absorb (fun x => insertNode cl cr c x.1 x.2)
    (absorb (fun x => insertEdge cl cr c x.1 x.2) (fun i => .ret (i, .ok ())) src.edges) src.nodes i

/-- `merge` (src/rdf/merge.rs:16-37). -/
def merge (src : Source E Entity NP EP) (i : Ids) : Prog RdfDb (Ids × Except (LR Err E) Unit) :=
  absorb (fun x => mergeNode cl cr c mN x.1 x.2)
    (absorb (fun x => mergeEdge cl cr c mE x.1 x.2) (fun i => .ret (i, .ok ())) src.edges) src.nodes i

end

/-- A store opened on a database: `RdfTripleStore::new(SledHashIndex::new(db), SledTripleStore::new(db, g))`
(src/rdf.rs:62-68). -/
def openOn (d : RdfDb) (u g : Gen Ulid) : Rdf IndexDb (SledStore Ulid) := Rdf.new d.names (SledStore.new d.data g u) u

end RdfSled

end Verif
