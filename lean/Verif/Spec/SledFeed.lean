import Verif.Model.SledFeed
import Verif.Spec.SledScan
import Verif.Spec.History

/-!
# Copying from a store that is in use
-/

namespace Verif

open ConcreteId Spec

namespace Sled

variable {E S Id NP EP : Type} [LinearOrder Id] [ConcreteId Id]

/-- What a thread does: call something on the one database or the other, or `extend` or `merge` the one with the other, reading it
in pieces of the given sizes. -/
inductive Act (E Id NP EP : Type) where
  | dst (x : Call SErr Id NP EP)
  | src (x : Call E Id NP EP)
  | extend (u : Gen Ulid) (ns es : List Nat)
  | merge (g : Gen Id) (ns es : List Nat)

/-- its program -/
def Act.prog (L : Link S) (c : Codecs NP EP) (mN : NP → NP → NP) (mE : EP → EP → EP) : Act E Id NP EP → Prog S Unit
  | .dst x => lift L.dst L.onDst (x.prog c mN mE)
  | .src x => lift L.src L.onSrc (x.prog c mN mE)
  | .extend u ns es => feed L c (Sled.extend c (Id := Id)) ns es u
  | .merge g ns es => feed L c (Sled.merge c mN mE) ns es g

/-- It is a call on the database that is read. -/
def Act.IsSrc : Act E Id NP EP → Prop
  | .src _ => True
  | _ => False

/-- Somebody who traverses a store while it goes through `D 0`, `D 1`, … may get this. -/
def Told (c : Codecs NP EP) (D : Nat → Db) (o : Source SErr Id NP EP) : Prop :=
  ∃ l l', Scan (fun m => (D m).nodeProps) (.unbounded, .unbounded) 0 none l ∧ Reading D .SPO (.unbounded, .unbounded) l' ∧
    o = ⟨l.map (fun e => vertexItem Id c e.2), l'.map (fun e => edgeItem Id c (D e.look) .SPO (e.key, e.id))⟩

/-- The call on the database written to which an act amounts to, when the database read goes through `D 0`, `D 1`, …. -/
def Act.Is (c : Codecs NP EP) (D : Nat → Db) : Act E Id NP EP → Option (Call SErr Id NP EP) → Prop
  | .dst x, o => o = some x
  | .src _, o => o = none
  | .extend u _ _, o => ∃ s, Told c D s ∧ o = some (.extend u s)
  | .merge g _ _, o => ∃ s, Told c D s ∧ o = some (.merge g s)

/-- how many calls are left with a thread, that under way included -/
def queued (x : Nat → S × List (List (Prog S Unit))) (k i : Nat) : Option Nat := (x k).2[i]?.map List.length

/-- The moments from `a` to `b` are while the thread `i` executes the call after which `r - 1` more are to come: not before that
begins (unless it never does), and not after it has returned. -/
def While (x : Nat → S × List (List (Prog S Unit))) (N i r a b : Nat) : Prop :=
  a ≤ b ∧ b ≤ N ∧ ∀ k ≤ N, ∀ l, queued x k i = some l → (r < l → k < a ∨ a = N) ∧ (l < r → b ≤ k)

/-- The calls on the database written to which the acts of threads amount to: each `extend` and `merge` is told something which
can be read while it is executed. -/
def Amount (L : Link S) (c : Codecs NP EP) (x : Nat → S × List (List (Prog S Unit))) (N : Nat) (acts : List (List (Act E Id NP EP)))
    (threads : List (List (Call SErr Id NP EP))) : Prop :=
  ∃ os : List (List (Option (Call SErr Id NP EP))), threads = os.map List.reduceOption ∧ os.length = acts.length ∧
    ∀ (i : Nat) th o, acts[i]? = some th → os[i]? = some o → o.length = th.length ∧
      ∀ (j : Nat) y z, th[j]? = some y → o[j]? = some z → ∃ a b, While x N i (th.length - j) a b ∧
        y.Is c (fun m => L.src (x (min (a + m) b)).1) z

/-- the call on the database read -/
def Act.onSrc : Act E Id NP EP → Option (Call E Id NP EP)
  | .src x => some x
  | _ => none

/-- the call on the database written to, when it is known what the other holds -/
def Act.given (o : Source SErr Id NP EP) : Act E Id NP EP → Option (Call SErr Id NP EP)
  | .dst y => some y
  | .src _ => none
  | .extend u _ _ => some (.extend u o)
  | .merge g _ _ => some (.merge g o)

/-- no `remove_node` on the database written to has made its scans in advance -/
def NoScans (acts : List (List (Act E Id NP EP))) : Prop := ∀ th ∈ acts, ∀ y, .dst y ∈ th → ¬ y.IsScan

/-- the ids an act may draw for edges of the database written to, if what it copies has at most `n` edges -/
def Act.draws (n : Nat) : Act E Id NP EP → List Bytes
  | .dst y => y.writes.map Prod.fst
  | .src _ => []
  | .extend u _ _ => (List.range n).map (fun j => (toBeBytes (u j)).1)
  | .merge g _ _ => (List.range n).map (fun j => (toBeBytes (g j)).1)

/-- how many different edges the database read, `d` at the start, has at most -/
def mostEdges (d : Db) (acts : List (List (Act E Id NP EP))) : Nat :=
  d.spo.entries.length + (allWrites (acts.map (List.filterMap Act.onSrc))).length

/-- the calls which are not copies -/
def Act.onDst : Act E Id NP EP → Option (Call SErr Id NP EP)
  | .dst y => some y
  | _ => none

/-- how many different edges a database has at most, `d` at the start, when it is copied into itself -/
def mostOwn (d : Db) (acts : List (List (Act E Id NP EP))) : Nat :=
  d.spo.entries.length + (allWrites (acts.map (List.filterMap Act.onDst))).length

/-- The ids drawn for edges of the database `d` written to are different, and unused in it, if at most `n` edges are read. -/
def DistinctDraws (n : Nat) (d : Db) (acts : List (List (Act E Id NP EP))) : Prop :=
  (acts.flatten.flatMap (Act.draws n)).Nodup ∧ ∀ v ∈ acts.flatten.flatMap (Act.draws n), d.edgeProps.get v = none

/-- A database goes through `D 0`, …, `D N` when the threads do their calls, one step at a time or none. -/
def Through (part : Bool) (c : Codecs NP EP) (mN : NP → NP → NP) (mE : EP → EP → EP) (threads : List (List (Call E Id NP EP)))
    (D : Nat → Db) (N : Nat) (rest : List (List (Prog Db Unit))) : Prop :=
  ∃ y : Nat → Db × List (List (Prog Db Unit)), y 0 = start c mN mE (D 0) threads ∧ (∀ k ≤ N, (y k).1 = D k) ∧ (y N).2 = rest ∧
    ∀ k < N, y (k + 1) = y k ∨ if part then Step (y k) (y (k + 1)) else CalmStep (y k) (y (k + 1))

/-- `H` is a copy of the database read, which showed `G'` at the start, while others inserted edges and wrote nodes: it has what was there
at the start, and nothing that was never there. -/
structure CopyOf (c : Codecs NP EP) (D : Nat → Db) (N : Nat) (G' : Graph Id NP EP) (threads : List (List (Call E Id NP EP)))
    (H : Graph Id NP EP) : Prop where
  nodes : ∀ n p, H.nodes n = some p → ∃ k ≤ N, .ok (n, p) ∈ iterVertices Id c (D k)
  edges : ∀ t p, H.edges t = some p → ∃ k ≤ N, .ok (t, p) ∈ iterEdges Id c (D k) .SPO
  allNodes : ∀ n p, G'.nodes n = some p → ∃ q, H.nodes n = some q
  allEdges : ∀ t p, G'.edges t = some p → ∃ q, H.edges t = some q
  same : ∀ t, (∀ th ∈ threads, ∀ y ∈ th, ¬ y.TouchesEdge t) → H.edges t = G'.edges t
  sameNodes : ∀ n, (∀ th ∈ threads, ∀ y ∈ th, ¬ y.TouchesNode n) → H.nodes n = G'.nodes n

end Sled

end Verif
