import Verif.Model.World

/-!
# What programs with many stores are to do

A variable holds a graph of its own or refers to the graph of a database.
-/

namespace Verif.Spec

variable {E Id NP EP : Type} [LinearOrder Id]

/-- what `difference` makes of two graphs (see C20) -/
noncomputable def Graph.difference (G H : Graph Id NP EP) : Graph Id NP EP :=
  open Classical in
  { nodes := fun n => if (H.nodes n).isSome then none else G.nodes n
    edges := fun t =>
      if H.edges t = none ∧ ((∀ u, (H.edges u).isSome → edgeLT .SPO u t) ∨
          ∀ n, n = t.sub ∨ n = t.obj → ¬ ((H.nodes n).isSome ∧ ∃ m, (G.nodes m).isSome ∧ n ≤ m))
      then G.edges t else none }

inductive Place (Id NP EP : Type) where
  | own (G : Graph Id NP EP)
  | on (b : Nat)

structure World (Id NP EP : Type) where
  dbs : Nat → Graph Id NP EP
  vars : Nat → Option (Place Id NP EP)

/-- the first error an operation meets in its source -/
def Op.firstErr : Op E Id NP EP → Option E
  | .extend src => Source.firstErr src
  | .merge src => Source.firstErr src
  | _ => none

namespace World

def start : World Id NP EP := { dbs := fun _ => .empty, vars := fun _ => none }

def setVar (S : World Id NP EP) (v : Nat) (p : Option (Place Id NP EP)) : World Id NP EP :=
  { S with vars := Function.update S.vars v p }

/-- the graph a variable shows -/
def graph (S : World Id NP EP) : Place Id NP EP → Graph Id NP EP
  | .own G => G
  | .on b => S.dbs b

/-- the graph a variable shows becomes `G` -/
def setGraph (S : World Id NP EP) (v : Nat) (G : Graph Id NP EP) : Place Id NP EP → World Id NP EP
  | .own _ => S.setVar v (some (.own G))
  | .on b => { S with dbs := Function.update S.dbs b G }

/-- `w` is consumed, `f` takes its graph into that of `v` -/
def feed (S : World Id NP EP) (v w : Nat) (f : Graph Id NP EP → Graph Id NP EP → Graph Id NP EP) : World Id NP EP × Res E :=
  match S.vars w with
  | none => (S, .noStore)
  | some q =>
    if v = w then (S, .noStore)
    else
      match S.vars v with
      | none => (S.setVar w none, .noStore)
      | some p => ((S.setVar w none).setGraph v (f (S.graph p) (S.graph q)) p, .done)

/-- `v` and `w` are consumed, `r` is the result -/
def combine (S : World Id NP EP) (v w r : Nat) (f : Graph Id NP EP → Graph Id NP EP → Graph Id NP EP) : World Id NP EP × Res E :=
  match S.vars v, S.vars w with
  | some (.own G), some q =>
    if v = w then (S, .noStore)
    else (((S.setVar v none).setVar w none).setVar r (some (.own (f G (S.graph q)))), .done)
  | _, _ => (S, .noStore)

noncomputable def step (mN : NP → NP → NP) (mE : EP → EP → EP) (S : World Id NP EP) : Cmd E Id NP EP → World Id NP EP × Res E
  | .newMem v _ => (S.setVar v (some (.own .empty)), .done)
  | .openSled v b _ => (S.setVar v (some (.on b)), .done)
  | .drop v => (S.setVar v none, .done)
  | .call v op =>
    match S.vars v with
    | none => (S, .noStore)
    | some p => (S.setGraph v (op.apply mN mE (S.graph p)) p, match op.firstErr with | none => .done | some e => .source e)
  | .extend v w => S.feed v w .overlay
  | .merge v w => S.feed v w (.mergeWith mN mE)
  | .run v q r _ =>
    match S.vars v with
    | none => (S, .noStore)
    | some p => (S.setVar r (some (.own (select (S.graph p) q))), .done)
  | .union v w r _ => S.combine v w r .overlay
  | .intersection v w r _ => S.combine v w r .inter
  | .difference v w r _ => S.combine v w r .difference

noncomputable def exec (mN : NP → NP → NP) (mE : EP → EP → EP) : World Id NP EP → List (Cmd E Id NP EP) → World Id NP EP × List (Res E)
  | S, [] => (S, [])
  | S, x :: l =>
    let r := S.step mN mE x
    let r' := exec mN mE r.1 l
    (r'.1, r.2 :: r'.2)

end World

/-- The stores of `W` show the graphs of `S`. -/
def Agrees [ConcreteId Id] (c : Codecs NP EP) (W : Verif.World Id NP EP) (S : World Id NP EP) : Prop :=
  (∀ b, Shows (Sled.obs c (W.dbs b)) (S.dbs b)) ∧
  ∀ v, match W.vars v, S.vars v with
    | none, none => True
    | some (.mem _ s), some (.own G) => Shows s.obs G
    | some (.sled _ b), some (.on b') => b = b'
    | _, _ => False

/-! ## How many ids a program may draw -/

section
variable [ConcreteId Id]

/-- ids of each generator, and of `Ulid::new()` -/
abbrev Costs := (Nat → Nat) × Nat

/-- `n` ids of generator `k` -/
def costs (k n : Nat) : Costs := (fun k' => if k' = k then n else 0, 0)

def opCosts (W : Verif.World Id NP EP) (v : Nat) (op : Op E Id NP EP) : Costs :=
  match W.vars v with
  | none => (fun _ => 0, 0)
  | some (.mem k _) => costs k op.draws
  | some (.sled k _) => ((costs k op.genDraws).1, op.ulidDraws)

/-- the number of edges `v` shows -/
def edgesOf (c : Codecs NP EP) (W : Verif.World Id NP EP) (v : Nat) : Nat :=
  match W.vars v with
  | none => 0
  | some (.mem _ s) => s.edgeCount
  | some (.sled _ b) => (Sled.iterEdges Id c (W.dbs b) .SPO).length

/-- `n` edges are fed to `v`, by `extend` or not -/
def feedCosts (W : Verif.World Id NP EP) (v n : Nat) (ext : Bool) : Costs :=
  match W.vars v with
  | none => (fun _ => 0, 0)
  | some (.mem k _) => costs k n
  | some (.sled k _) => if ext then (fun _ => 0, n) else costs k n

def cmdCosts (c : Codecs NP EP) (W : Verif.World Id NP EP) : Cmd E Id NP EP → Costs
  | .newMem _ _ => (fun _ => 0, 0)
  | .openSled _ _ _ => (fun _ => 0, 0)
  | .drop _ => (fun _ => 0, 0)
  | .call v op => opCosts W v op
  | .extend v w => feedCosts W v (edgesOf c W w) true
  | .merge v w => feedCosts W v (edgesOf c W w) false
  | .run v _ _ k => costs k (edgesOf c W v)
  | .union v w _ k => costs k (edgesOf c W v + edgesOf c W w)
  | .intersection v _ _ k => costs k (edgesOf c W v)
  | .difference v _ _ k => costs k (edgesOf c W v)

def progCosts (c : Codecs NP EP) (mN : NP → NP → NP) (mE : EP → EP → EP) : Verif.World Id NP EP → List (Cmd E Id NP EP) → Costs
  | _, [] => (fun _ => 0, 0)
  | W, x :: l =>
    let r := progCosts c mN mE (W.step c mN mE x).1 l
    (fun k => r.1 k + (cmdCosts c W x).1 k, r.2 + (cmdCosts c W x).2)

/-- The ids to be drawn are different where they have to be: those of one generator, and those of all generators which are
used with one database (`uses b k`) and of `Ulid::new()`.  In-memory stores may have generators that yield the same ids. -/
structure Apart (uses : Nat → Nat → Prop) (C : Costs) (gens : Nat → Gen Id) (ulids : Gen Ulid) : Prop where
  gen : ∀ k, Fresh (C.1 k) (gens k)
  ulid : Fresh C.2 ulids
  cross : ∀ b k k', uses b k → uses b k' → ∀ i < C.1 k, ∀ j < C.1 k', gens k i = gens k' j → k = k'
  both : ∀ b k, uses b k → ∀ i < C.1 k, ∀ j < C.2,
    (ConcreteId.toBeBytes (gens k i)).1 ≠ (ConcreteId.toBeBytes (ulids j)).1

/-- No query lists an item twice. -/
def QueriesNodup (l : List (Cmd E Id NP EP)) : Prop := ∀ x ∈ l, ∀ v q r k, x = .run v q r k → Query.Nodup q

/-- the program uses generator `k` with database `b` -/
def Uses (l : List (Cmd E Id NP EP)) (b k : Nat) : Prop := ∃ v, .openSled v b k ∈ l

end

end Verif.Spec
