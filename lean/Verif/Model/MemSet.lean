import Mathlib.Order.WithBot
import Verif.Model.Mem

/-!
# Set operations, equality and Debug of the in-memory store
(src/mem/set.rs, src/mem.rs, src/traits/triplestore.rs)
-/

namespace Verif

/-- `it.next().transpose()`: the next item of an iterator of results, and the rest of the iterator. -/
def nextItem {E α : Type} : List (Except E α) → Except E (Option α × List (Except E α))
  | [] => .ok (none, [])
  | .error e :: _ => .error e
  | .ok a :: l => .ok (some a, l)

theorem nextItem_len {E α : Type} {l : List (Except E α)} {o : Option α} {r : List (Except E α)}
    (h : nextItem l = .ok (o, r)) : r.length + (if o.isSome then 1 else 0) = l.length := by
  cases l with
  | nil => cases h; rfl
  | cons a l =>
    cases a with
    | error e => cases h
    | ok a => cases h; rfl

/-- What a walk over two iterators returns when one of them is exhausted. -/
structure WalkEnd (σ A E : Type) where
  st : σ
  cur : Option A
  rest : List (Except E A)

/-- The loop
```
while let (Some(l), Some(r)) = (&cur, &ocur) {
    if l.key < r.key      { onL(l);    cur  = it.next().transpose()?; }
    else if r.key < l.key { onR(r);    ocur = oit.next().transpose()?; }
    else                  { onB(l, r); cur  = it.next().transpose()?; ocur = oit.next().transpose()?; }
}
```
of src/mem/set.rs:74-88, 96-110, 136-152, 167-185; the four loops differ only in the actions. -/
def walk {σ A B E : Type} (ltAB : A → B → Bool) (ltBA : B → A → Bool)
    (onL : σ → A → σ) (onR : σ → B → σ) (onB : σ → A → B → σ) (st : σ) (cur : Option A)
    (it : List (Except E A)) (ocur : Option B) (oit : List (Except E B)) :
    Except E (WalkEnd σ A E) :=
  match cur, ocur with
  | some l, some r =>
    if ltAB l r then
      match h : nextItem it with
      | .error e => .error e
      | .ok (cur', it') => walk ltAB ltBA onL onR onB (onL st l) cur' it' (some r) oit
    else if ltBA r l then
      match h : nextItem oit with
      | .error e => .error e
      | .ok (ocur', oit') => walk ltAB ltBA onL onR onB (onR st r) (some l) it ocur' oit'
    else
      match h : nextItem it with
      | .error e => .error e
      | .ok (cur', it') =>
        match h' : nextItem oit with
        | .error e => .error e
        | .ok (ocur', oit') => walk ltAB ltBA onL onR onB (onB st l r) cur' it' ocur' oit'
  | cur, _ => .ok { st := st, cur := cur, rest := it }
termination_by (it.length + if cur.isSome then 1 else 0) + (oit.length + if ocur.isSome then 1 else 0)
decreasing_by
  · have := nextItem_len h; simp only [Option.isSome_some, if_true]; omega
  · have := nextItem_len h; simp only [Option.isSome_some, if_true]; omega
  · have := nextItem_len h; have := nextItem_len h'
    simp only [Option.isSome_some, if_true]; omega

/-- The loop `while let Some(l) = &cur { onL(l); cur = it.next().transpose()?; }` of
src/mem/set.rs:154-159 and 187-192. -/
def drain {σ A E : Type} (onL : σ → A → σ) (st : σ) : Option A → List (Except E A) → Except E σ
  | none, _ => .ok st
  | some l, [] => .ok (onL st l)
  | some _, .error e :: _ => .error e
  | some l, .ok a :: it => drain onL (onL st l) (some a) it

namespace Mem

variable {Id NP EP E : Type} [LinearOrder Id] [ConcreteId Id]

open ConcreteId

/-- `map_err(|e| SetOpsError::Left(e))` on every item. -/
def errLeft {α : Type} (l : List (Except Unit α)) : List (Except (SetErr Unit E Unit) α) :=
  l.map (fun r => match r with | .error e => .error (.left e) | .ok a => .ok a)

/-- `map_err(|e| SetOpsError::Right(e))` on every item. -/
def errRight {α : Type} (l : List (Except E α)) : List (Except (SetErr Unit E Unit) α) :=
  l.map (fun r => match r with | .error e => .error (.right e) | .ok a => .ok a)

/-- One of the four loops of `union` (src/mem/set.rs:24-29, 30-35, 38-43, 44-49): stop at the first
error. -/
def addAll {α σ F : Type} (f : σ → α → σ) (st : σ) (l : List (Except F α)) : Except F σ :=
  match absorb f st l with
  | (_, .error e) => .error e
  | (st, .ok ()) => .ok st

/-- `union` (src/mem/set.rs:17-52).  `g` is the stream of the cloned id generator. -/
def union (s : Mem Id NP EP) (g : Gen Id) (other : Source E Id NP EP) :
    Except (SetErr Unit E Unit) (Mem Id NP EP) :=
  let src := s.intoIterNodes .SPO
  match addAll (fun r (x : Id × NP) => r.insertNode x.1 x.2) (new g) (errLeft src.nodes) with
  | .error e => .error e
  | .ok r =>
    match addAll (fun r (x : Triple Id × EP) => r.insertEdge x.1 x.2) r (errLeft src.edges) with
    | .error e => .error e
    | .ok r =>
      match addAll (fun r (x : Id × NP) => r.insertNode x.1 x.2) r (errRight other.nodes) with
      | .error e => .error e
      | .ok r =>
        addAll (fun r (x : Triple Id × EP) => r.insertEdge x.1 x.2) r (errRight other.edges)

/-- `intersection` (src/mem/set.rs:54-113). -/
def intersection (s : Mem Id NP EP) (g : Gen Id) (other : Source E Id NP EP) :
    Except (SetErr Unit E Unit) (Mem Id NP EP) :=
  let src := s.intoIterNodes .SPO
  -- nodes, src/mem/set.rs:70-89
  match nextItem (errLeft src.nodes) with
  | .error e => .error e
  | .ok (selfNode, selfNodes) =>
  match nextItem (errRight other.nodes) with
  | .error e => .error e
  | .ok (otherNode, otherNodes) =>
  match walk (fun (l r : Id × NP) => decide (l.1 < r.1)) (fun (r l : Id × NP) => decide (r.1 < l.1))
      (fun st _ => st) (fun st _ => st) (fun (st : Mem Id NP EP) l _ => st.insertNode l.1 l.2)
      (new g) selfNode selfNodes otherNode otherNodes with
  | .error e => .error e
  | .ok w =>
  -- edges, src/mem/set.rs:92-111
  match nextItem (errLeft src.edges) with
  | .error e => .error e
  | .ok (selfEdge, selfEdges) =>
  match nextItem (errRight other.edges) with
  | .error e => .error e
  | .ok (otherEdge, otherEdges) =>
  match walk (fun (l r : Triple Id × EP) => Triple.ltOp l.1 r.1)
      (fun (r l : Triple Id × EP) => Triple.ltOp r.1 l.1)
      (fun st _ => st) (fun st _ => st) (fun (st : Mem Id NP EP) l _ => st.insertEdge l.1 l.2)
      w.st selfEdge selfEdges otherEdge otherEdges with
  | .error e => .error e
  | .ok w => .ok w.st

/-- `difference` (src/mem/set.rs:115-195).  The state of the node loops is the result and
`removed_nodes`. -/
def difference (s : Mem Id NP EP) (g : Gen Id) (other : Source E Id NP EP) :
    Except (SetErr Unit E Unit) (Mem Id NP EP) :=
  let src := s.intoIterNodes .SPO
  -- nodes, src/mem/set.rs:132-160
  match nextItem (errLeft src.nodes) with
  | .error e => .error e
  | .ok (selfNode, selfNodes) =>
  match nextItem (errRight other.nodes) with
  | .error e => .error e
  | .ok (otherNode, otherNodes) =>
  match walk (fun (l r : Id × NP) => decide (l.1 < r.1)) (fun (r l : Id × NP) => decide (r.1 < l.1))
      (fun (st : Mem Id NP EP × HSet Id) l => (st.1.insertNode l.1 l.2, st.2))
      (fun st r => (st.1, HSet.insert st.2 r.1))
      (fun st _ r => (st.1, HSet.insert st.2 r.1))
      (new g, []) selfNode selfNodes otherNode otherNodes with
  | .error e => .error e
  | .ok w =>
  match drain (fun (st : Mem Id NP EP) (l : Id × NP) => st.insertNode l.1 l.2) w.st.1 w.cur w.rest with
  | .error e => .error e
  | .ok r =>
  let removed := w.st.2
  -- edges, src/mem/set.rs:163-193
  match nextItem (errLeft src.edges) with
  | .error e => .error e
  | .ok (selfEdge, selfEdges) =>
  match nextItem (errRight other.edges) with
  | .error e => .error e
  | .ok (otherEdge, otherEdges) =>
  match walk (fun (l r : Triple Id × EP) => Triple.ltOp l.1 r.1)
      (fun (r l : Triple Id × EP) => Triple.ltOp r.1 l.1)
      (fun (st : Mem Id NP EP) l =>
        if !(removed.contains l.1.sub || removed.contains l.1.obj) then st.insertEdge l.1 l.2 else st)
      (fun st _ => st) (fun st _ _ => st)
      r selfEdge selfEdges otherEdge otherEdges with
  | .error e => .error e
  | .ok w => drain (fun (st : Mem Id NP EP) (l : Triple Id × EP) => st.insertEdge l.1 l.2)
      w.st w.cur w.rest

/-! ## `PartialEq` (src/mem.rs:231-286)

Properties are compared with their own `PartialEq`, an arbitrary function `==` (`BEq`, without laws: `NaN` is not equal to
itself). -/

/-- The closure `eq_edge_prop_by_id` (src/mem.rs:241-262) with its cache. -/
def eqEdgePropById [BEq EP] (a b : Mem Id NP EP) (cache : HSet (Id × Id)) (i j : Id) :
    Bool × HSet (Id × Id) :=
  let p := a.edgeProps.get i
  let q := b.edgeProps.get j
  if p.isNone || q.isNone then (false, cache)
  else if cache.contains (i, j) then (true, cache)
  else if p == q then (true, HSet.insert cache (i, j))
  else (false, cache)

/-- The loop over the zipped orderings (src/mem.rs:264-284). -/
def eqLoop [BEq EP] (a b : Mem Id NP EP) :
    HSet (Id × Id) → List ((TKey Id × Id) × (TKey Id × Id)) → Bool
  | _, [] => true
  | cache, (x, y) :: l =>
    if x.1 ≠ y.1 then false
    else
      match eqEdgePropById a b cache x.2 y.2 with
      | (false, _) => false
      | (true, cache) => eqLoop a b cache l

/-- `eq` (src/mem.rs:234-285).  `BTreeMap::eq` compares the lengths and the pairs of entries. -/
def eq [BEq NP] [BEq EP] (a b : Mem Id NP EP) : Bool :=
  if !(a.nodeProps.entries == b.nodeProps.entries) then false
  else eqLoop a b [] (a.spo.entries.zip b.spo.entries)

end Mem

/-! ## `TripleStore::try_eq` (src/traits/triplestore.rs:43-86) -/

/-- The loop over `zip_longest` (src/traits/triplestore.rs:55-68 and 70-83): `none` means the loop ran to
its end. -/
def tryEqLoop {α L R : Type} [BEq α] :
    List (Except L α) → List (Except R α) → Except (LR L R) (Option Bool)
  | [], [] => .ok none
  | x :: xs, y :: ys =>
    match x with
    | .error e => .error (.left e)
    | .ok a =>
      match y with
      | .error e => .error (.right e)
      | .ok b => if !(a == b) then .ok (some false) else tryEqLoop xs ys
  | _, _ => .ok (some false)

/-- `try_eq` (src/traits/triplestore.rs:43-86) on the results of `iter_nodes(SPO)` of the two stores. -/
def tryEq {L R Id NP EP : Type} [DecidableEq Id] [BEq NP] [BEq EP]
    (a : Source L Id NP EP) (b : Source R Id NP EP) : Except (LR L R) Bool :=
  match tryEqLoop a.nodes b.nodes with
  | .error e => .error e
  | .ok (some r) => .ok r
  | .ok none =>
    match tryEqLoop a.edges b.edges with
    | .error e => .error e
    | .ok (some r) => .ok r
    | .ok none => .ok true

/-! ## `Debug` (src/mem.rs:120-229) -/

/-- Rendering functions the output is made of: `Display` of ids, `Debug` of properties, SipHash of a key,
`{:#016x}` of a hash. -/
structure DebugFmt (Id NP EP : Type) [LinearOrder Id] [ConcreteId Id] where
  showId : Id → String
  showN : NP → String
  showE : EP → String
  hash : TKey Id → Nat
  hex : Nat → String

namespace Mem

variable {Id NP EP : Type} [LinearOrder Id] [ConcreteId Id]

open ConcreteId

/-- `ulid_to_spo_edge_hash` (src/mem.rs:137-149): later entries win on `collect`. -/
def edgeHashes (F : DebugFmt Id NP EP) (s : Mem Id NP EP) : BMap Id Nat :=
  s.spo.entries.foldl (fun m e => m.insert e.2 (F.hash e.1)) .empty

/-- `hash_to_edge_data` (src/mem.rs:156-163): keyed by `Option<&u64>` with `None` least. -/
def hashToEdgeData (F : DebugFmt Id NP EP) (s : Mem Id NP EP) : BMap (WithBot Nat) EP :=
  s.edgeProps.entries.foldl (fun m e => m.insert ((s.edgeHashes F).get e.1 : Option Nat) e.2) .empty

/-- One of the three edge sections (src/mem.rs:177-191, 194-208, 211-225). -/
def debugEdges (F : DebugFmt Id NP EP) (hashes : BMap Id Nat) (l : List (Triple Id × Id)) : List String :=
  l.map (fun e =>
    "  (" ++ F.showId e.1.sub ++ ", " ++ F.showId e.1.pred ++ ", " ++ F.showId e.1.obj ++ ") -> " ++
      (match hashes.get e.2 with
       | some h => F.hex h ++ "\n"
       | none => "_\n"))

/-- `fmt` (src/mem.rs:123-228), as the list of strings written to the formatter. -/
def debug (F : DebugFmt Id NP EP) (s : Mem Id NP EP) : List String :=
  let hashes := s.edgeHashes F
  ["MemTripleStore:\n", " Node Properties:\n"]
  ++ s.nodeProps.entries.map (fun e => "  " ++ F.showId e.1 ++ " -> " ++ F.showN e.2 ++ "\n")
  ++ [" Edge Properties:\n"]
  ++ (s.hashToEdgeData F).entries.map (fun (e : WithBot Nat × EP) =>
      match (show Option Nat from e.1) with
      | none => "  _ -> " ++ F.showE e.2 ++ "\n"
      | some h => "  " ++ F.hex h ++ " -> " ++ F.showE e.2 ++ "\n")
  ++ [" Edges (SPO):\n"]
  ++ debugEdges F hashes (s.spo.entries.map (fun e => (decodeSpo e.1, e.2)))
  ++ [" Edges (POS):\n"]
  ++ debugEdges F hashes (s.pos.entries.map (fun e => (decodePos e.1, e.2)))
  ++ [" Edges (OSP):\n"]
  ++ debugEdges F hashes (s.osp.entries.map (fun e => (decodeOsp e.1, e.2)))

end Mem

end Verif
