import Verif.Model.RdfSledRemove

/-!
# Transactions, from inside

In `Model/Sled.lean` and `Model/Index.lean` a transaction is one step, in which its closure runs once.  Here the closures of the crate are
transcribed call by call, and sled is allowed to run them as it likes: a closure works on an overlay, which keeps what has been read from
the trees and what is to be written to them; other threads may go on in between, and may have changed what was read.  In the end
the transaction is committed if all that was read is still what the trees hold; otherwise, or whenever sled sees fit, nothing is
written, and the closure is run again (sled 0.34: `Transactional::transaction`, `TransactionalTree`, `TransactionError`).  That writing out
the overlay is one step is what remains assumed.
-/

namespace Verif

open ConcreteId

/-- A closure given to `transaction`, on trees `T`.  `insert` and `remove` are one constructor: the value is `none` for `remove`; both
return the old value.  It ends with `Ok(())` or with `Err(ConflictableTransactionError::Abort(e))`. -/
inductive Tx (T X : Type) where
  | done
  | abort (e : X)
  | get (t : T) (k : Bytes) (next : Option Bytes → Tx T X)
  | write (t : T) (k : Bytes) (v : Option Bytes) (next : Option Bytes → Tx T X)

/-- States `S` made of trees `T`. -/
class Trees (S : Type) (T : outParam Type) where
  /-- `tree.get(key)` -/
  look : S → T → Bytes → Option Bytes
  /-- `tree.insert(key, value)`; `tree.remove(key)` -/
  put : S → T → Bytes → Option Bytes → S

namespace Tx

variable {S T X α : Type}

/-- `tree.insert(key, value)?;` -/
def insert (t : T) (k v : Bytes) (next : Tx T X) : Tx T X := .write t k (some v) (fun _ => next)

/-- `tree.remove(key)?;` -/
def remove (t : T) (k : Bytes) (next : Tx T X) : Tx T X := .write t k none (fun _ => next)

/-- `tree.apply_batch(&batch)?;` of a batch of removals -/
def removeAll (t : T) (ks : List Bytes) (next : Tx T X) : Tx T X := ks.foldr (remove t) next

/-- the same closure among more trees -/
def lift {T' X' : Type} (f : T → T') (g : X → X') : Tx T X → Tx T' X'
  | .done => .done
  | .abort e => .abort (g e)
  | .get t k next => .get (f t) k (fun v => (next v).lift f g)
  | .write t k v next => .write (f t) k v (fun o => (next o).lift f g)

/-- What is kept of each `TransactionalTree` while the closure runs. -/
structure Overlay (T : Type) where
  writes : T → Bytes → Option (Option Bytes)
  reads : T → Bytes → Option (Option Bytes)

/-- nothing yet -/
def Overlay.new : Overlay T := { writes := fun _ _ => none, reads := fun _ _ => none }

variable [DecidableEq T] [Trees S T]

namespace Overlay

/-- `HashMap::insert` -/
def upd (m : T → Bytes → Option (Option Bytes)) (t : T) (k : Bytes) (v : Option Bytes) : T → Bytes → Option (Option Bytes) :=
  fun t' k' => if t' = t ∧ k' = k then some v else m t' k'

/-- `TransactionalTree::get`: what was written, else what was read before, else what the tree holds now -/
def get (o : Overlay T) (s : S) (t : T) (k : Bytes) : Option Bytes × Overlay T :=
  match o.writes t k with
  | some v => (v, o)
  | none =>
    match o.reads t k with
    | some v => (v, o)
    | none => (Trees.look s t k, { o with reads := upd o.reads t k (Trees.look s t k) })

/-- `TransactionalTree::insert`, `TransactionalTree::remove` -/
def write (o : Overlay T) (s : S) (t : T) (k : Bytes) (v : Option Bytes) : Option Bytes × Overlay T :=
  ((o.get s t k).1, { (o.get s t k).2 with writes := upd (o.get s t k).2.writes t k v })

/-- All that was read is still what the trees hold. -/
def Valid (o : Overlay T) (s : S) : Prop := ∀ t k v, o.reads t k = some v → Trees.look s t k = v

/-- The writes are made: the state becomes `s'`. -/
def Commits (o : Overlay T) (s s' : S) : Prop :=
  ∀ t k, Trees.look s' t k = match o.writes t k with | some v => v | none => Trees.look s t k

end Overlay

/-- A transaction that is being run: the closure, how the function goes on after the transaction, what remains to be done of the
closure, and the overlay. -/
structure Busy (S T X α : Type) where
  body : Tx T X
  back : Except X Unit → Prog S α
  now : Tx T X
  over : Overlay T

/-- A thread: the functions it executes one after the other, and the transaction it is in. -/
abbrev Thread (S T X α : Type) := Option (Busy S T X α) × List (Prog S α)

/-- a thread in no transaction -/
def idle (q : List (Prog S α)) : Thread S T X α := (none, q)

/-- The closure run at once. -/
def atomic : Tx T X → S → Except X S
  | .done, s => .ok s
  | .abort e, _ => .error e
  | .get t k next, s => (next (Trees.look s t k)).atomic s
  | .write t k v next, s => (next (Trees.look s t k)).atomic (Trees.put s t k v)

/-- The step `call f k` of a function is the transaction with the closure `b`, after which the function goes on as `back`. -/
def Performs (b : Tx T X) (back : Except X Unit → Prog S α) (f : S → S) (k : S → Prog S α) : Prop :=
  ∀ s, match b.atomic s with
    | .ok s' => f s = s' ∧ k s = back (.ok ())
    | .error e => f s = s ∧ k s = back (.error e)

/-- The step `call f k` is an `insert` or a `remove` on one tree, or reads one tree. -/
def Plain (f : S → S) (k : S → Prog S α) : Prop :=
  (∃ t key v, f = (fun s => Trees.put s t key v) ∧ ∀ s s', Trees.look s t key = Trees.look s' t key → k s = k s') ∨
  (f = id ∧ ∃ t, ∀ s s', (∀ key, Trees.look s t key = Trees.look s' t key) → k s = k s')

/-- What happens in transactions; `closures` are the closures that are run. -/
inductive TxStep (closures : Tx T X → Prop) : S × List (Thread S T X α) → S × List (Thread S T X α) → Prop
  | begin (s : S) (pre post : List (Thread S T X α)) (f : S → S) (k : S → Prog S α) (q : List (Prog S α)) (b : Tx T X)
      (back : Except X Unit → Prog S α) (hb : closures b) (h : Performs b back f k) :
      TxStep closures (s, pre ++ (none, .call f k :: q) :: post) (s, pre ++ (some ⟨b, back, b, .new⟩, .call f k :: q) :: post)
  | get (s : S) (pre post : List (Thread S T X α)) (q : List (Prog S α)) (b : Tx T X) (back : Except X Unit → Prog S α) (t : T)
      (k : Bytes) (next : Option Bytes → Tx T X) (o : Overlay T) :
      TxStep closures (s, pre ++ (some ⟨b, back, .get t k next, o⟩, q) :: post)
        (s, pre ++ (some ⟨b, back, next (o.get s t k).1, (o.get s t k).2⟩, q) :: post)
  | write (s : S) (pre post : List (Thread S T X α)) (q : List (Prog S α)) (b : Tx T X) (back : Except X Unit → Prog S α) (t : T)
      (k : Bytes) (v : Option Bytes) (next : Option Bytes → Tx T X) (o : Overlay T) :
      TxStep closures (s, pre ++ (some ⟨b, back, .write t k v next, o⟩, q) :: post)
        (s, pre ++ (some ⟨b, back, next (o.write s t k v).1, (o.write s t k v).2⟩, q) :: post)
  | again (s : S) (pre post : List (Thread S T X α)) (q : List (Prog S α)) (y : Busy S T X α) :
      TxStep closures (s, pre ++ (some y, q) :: post) (s, pre ++ (none, q) :: post)
  | commit (s s' : S) (pre post : List (Thread S T X α)) (p : Prog S α) (q : List (Prog S α)) (b : Tx T X)
      (back : Except X Unit → Prog S α) (o : Overlay T) (hv : o.Valid s) (hc : o.Commits s s') :
      TxStep closures (s, pre ++ (some ⟨b, back, .done, o⟩, p :: q) :: post) (s', pre ++ (none, back (.ok ()) :: q) :: post)
  | abort (s : S) (pre post : List (Thread S T X α)) (p : Prog S α) (q : List (Prog S α)) (b : Tx T X)
      (back : Except X Unit → Prog S α) (e : X) (o : Overlay T) (hv : o.Valid s) :
      TxStep closures (s, pre ++ (some ⟨b, back, .abort e, o⟩, p :: q) :: post) (s, pre ++ (none, back (.error e) :: q) :: post)

/-- One step of the process.  A call fails with a storage error only if not `calm`. -/
inductive Fine (closures : Tx T X → Prop) (calm : Bool) : S × List (Thread S T X α) → S × List (Thread S T X α) → Prop
  | plain (s : S) (pre post : List (Thread S T X α)) (f : S → S) (k : S → Prog S α) (q : List (Prog S α)) (h : Plain f k) :
      Fine closures calm (s, pre ++ (none, .call f k :: q) :: post) (f s, pre ++ (none, k s :: q) :: post)
  | ret (s : S) (pre post : List (Thread S T X α)) (a : α) (q : List (Prog S α)) :
      Fine closures calm (s, pre ++ (none, .ret a :: q) :: post) (s, pre ++ (none, q) :: post)
  | fail (s : S) (pre post : List (Thread S T X α)) (y : Option (Busy S T X α)) (p : Prog S α) (q : List (Prog S α))
      (h : calm = false) : Fine closures calm (s, pre ++ (y, p :: q) :: post) (s, pre ++ (none, q) :: post)
  | tx (x y : S × List (Thread S T X α)) (h : TxStep closures x y) : Fine closures calm x y

/-- Any finite number of steps. -/
inductive FineSteps (closures : Tx T X → Prop) (calm : Bool) : S × List (Thread S T X α) → S × List (Thread S T X α) → Prop
  | refl (x : S × List (Thread S T X α)) : FineSteps closures calm x x
  | tail {x y z : S × List (Thread S T X α)} : FineSteps closures calm x y → Fine closures calm y z → FineSteps closures calm x z

end Tx

/-! ## The triple store -/

/-- the trees of a triple store -/
inductive DbTree where
  | nodeProps
  | edgeProps
  | spo
  | pos
  | osp
deriving DecidableEq

/-- `insert` or `remove` -/
def Tree.set (m : Tree) (k : Bytes) : Option Bytes → Tree
  | some v => m.insert k v
  | none => m.erase k

instance : Trees Db DbTree where
  look d t k := match t with
    | .nodeProps => d.nodeProps.get k
    | .edgeProps => d.edgeProps.get k
    | .spo => d.spo.get k
    | .pos => d.pos.get k
    | .osp => d.osp.get k
  put d t k v := match t with
    | .nodeProps => { d with nodeProps := d.nodeProps.set k v }
    | .edgeProps => { d with edgeProps := d.edgeProps.set k v }
    | .spo => { d with spo := d.spo.set k v }
    | .pos => { d with pos := d.pos.set k v }
    | .osp => { d with osp := d.osp.set k v }

namespace Sled

variable {Id NP EP : Type} [LinearOrder Id] [ConcreteId Id]

/-- The closure of `insert_edge` (src/sled/insert.rs:41-56). -/
def insertEdgeClosure (i : Id) (t : Triple Id) (b : Bytes) : Tx DbTree SErr :=
  .insert .edgeProps (toBeBytes i).1 b <|
  .insert .spo (encodeSpo t).1 (toBeBytes i).1 <|
  .insert .pos (encodePos t).1 (toBeBytes i).1 <|
  .insert .osp (encodeOsp t).1 (toBeBytes i).1 <|
  .done

/-- The closure of `remove_node` (src/sled/remove.rs:97-113).  A `sled::Batch` is a `HashMap`: its keys come in any order. -/
def removeNodeClosure (n : Id) (fwd bwd : Batch) : Tx DbTree SErr :=
  .remove .nodeProps (toBeBytes n).1 <|
  .removeAll .edgeProps fwd.edge <|
  .removeAll .edgeProps bwd.edge <|
  .removeAll .spo fwd.spo <|
  .removeAll .spo bwd.spo <|
  .removeAll .pos fwd.pos <|
  .removeAll .pos bwd.pos <|
  .removeAll .osp fwd.osp <|
  .removeAll .osp bwd.osp <|
  .done

/-- The closure of `remove_edge` (src/sled/remove.rs:135-143). -/
def removeEdgeClosure (t : Triple Id) : Tx DbTree SErr :=
  .write .spo (encodeSpo t).1 none (fun edgePropsId =>
    .remove .pos (encodePos t).1 <|
    .remove .osp (encodeOsp t).1 <|
    match edgePropsId with
    | some i => .remove .edgeProps i .done
    | none => .done)

/-- The closure of `merge_node` (src/sled/merge.rs:42-75). -/
def mergeNodeClosure (c : Codec NP) (mN : NP → NP → NP) (n : Id) (p : NP) : Tx DbTree SErr :=
  .get .nodeProps (toBeBytes n).1 (fun
    | none =>
      match c.ser p with
      | none => .abort .serialization
      | some b => .insert .nodeProps (toBeBytes n).1 b .done
    | some existing =>
      match c.de existing with
      | none => .abort .serialization
      | some old =>
        match c.ser (mN old p) with
        | none => .abort .serialization
        | some b => .insert .nodeProps (toBeBytes n).1 b .done)

/-- The closure of `merge_edge` (src/sled/merge.rs:97-151). -/
def mergeEdgeClosure (c : Codec EP) (mE : EP → EP → EP) (i : Id) (t : Triple Id) (p : EP) : Tx DbTree SErr :=
  .write .spo (encodeSpo t).1 (some (toBeBytes i).1) (fun oldId =>
    .insert .pos (encodePos t).1 (toBeBytes i).1 <|
    .insert .osp (encodeOsp t).1 (toBeBytes i).1 <|
    match oldId with
    | none =>
      match c.ser p with
      | none => .abort .serialization
      | some b => .insert .edgeProps (toBeBytes i).1 b .done
    | some oldId =>
      .write .edgeProps oldId none (fun oldValue =>
        match oldValue with
        | none =>
          match c.ser p with
          | none => .abort .serialization
          | some b => .insert .edgeProps (toBeBytes i).1 b .done
        | some oldValue =>
          match c.de oldValue with
          | none => .abort .serialization
          | some oldProps =>
            match c.ser (mE oldProps p) with
            | none => .abort .serialization
            | some b => .insert .edgeProps (toBeBytes i).1 b .done))

/-- The closures of the triple store. -/
inductive Closure (c : Codecs NP EP) (mN : NP → NP → NP) (mE : EP → EP → EP) : Tx DbTree SErr → Prop
  | insertEdge (i : Id) (t : Triple Id) (b : Bytes) : Closure c mN mE (insertEdgeClosure i t b)
  | removeNode (n : Id) (fwd bwd : Batch) : Closure c mN mE (removeNodeClosure n fwd bwd)
  | removeEdge (t : Triple Id) : Closure c mN mE (removeEdgeClosure t)
  | mergeNode (n : Id) (p : NP) : Closure c mN mE (mergeNodeClosure c.n mN n p)
  | mergeEdge (i : Id) (t : Triple Id) (p : EP) : Closure c mN mE (mergeEdgeClosure c.e mE i t p)

end Sled

/-! ## The name index -/

/-- the trees of a name index -/
inductive IndexTree where
  | leftToRight
  | rightToLeft
deriving DecidableEq

instance : Trees IndexDb IndexTree where
  look d t k := match t with
    | .leftToRight => d.leftToRight.get k
    | .rightToLeft => d.rightToLeft.get k
  put d t k v := match t with
    | .leftToRight => { d with leftToRight := d.leftToRight.set k v }
    | .rightToLeft => { d with rightToLeft := d.rightToLeft.set k v }

/-- The closure of `set` (src/sled.rs:392-439). -/
def SledIndex.setClosure {L R : Type} (cl : Codec L) (cr : Codec R) (l : L) (r : R) (lb rb : Bytes) :
    Tx IndexTree (SledIndexErr L R) :=
  .get .leftToRight lb (fun
    | some existing =>
      match cr.de existing with
      | none => .abort .serialization
      | some r' => .abort (.duplicateRight l r' r)
    | none =>
      .insert .leftToRight lb rb <|
      .get .rightToLeft rb (fun
        | some existing =>
          match cl.de existing with
          | none => .abort .serialization
          | some l' => .abort (.duplicateLeft r l' l)
        | none => .insert .rightToLeft rb lb .done))

/-! ## Both on one database -/

instance : Trees RdfDb (IndexTree ⊕ DbTree) where
  look d t k := match t with
    | .inl t => Trees.look d.names t k
    | .inr t => Trees.look d.data t k
  put d t k v := match t with
    | .inl t => { d with names := Trees.put d.names t k v }
    | .inr t => { d with data := Trees.put d.data t k v }

/-- The closures of both. -/
inductive RdfSled.Closure {NP EP : Type} (cl : Codec String) (cr : Codec Ulid) (c : Codecs NP EP) (mN : NP → NP → NP)
    (mE : EP → EP → EP) : Tx (IndexTree ⊕ DbTree) (SledIndexErr String Ulid ⊕ SErr) → Prop
  | index (l : String) (r : Ulid) (lb rb : Bytes) : Closure cl cr c mN mE ((SledIndex.setClosure cl cr l r lb rb).lift .inl .inl)
  | store (b : Tx DbTree SErr) (h : Sled.Closure (Id := Ulid) c mN mE b) : Closure cl cr c mN mE (b.lift .inr .inr)

end Verif
