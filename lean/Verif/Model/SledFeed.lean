import Verif.Model.SledSelf
import Verif.Model.SledRemove

/-!
# `extend` and `merge` with a store that is written to in the meantime

`a.extend(b)` and `a.merge(b)` take `b`, but not the database behind it: other handles on it, of this process, may write to it while
the loops read it, as others may write to `a`'s database.  `Sled.extend` and `Sled.merge` are told what `b` holds; here they read it
themselves, piece by piece (src/sled/extend.rs:23-33, src/sled/merge.rs:22-33, src/sled/iter.rs:235-303).  The results are dropped.
-/

namespace Verif

open ConcreteId

namespace Sled

/-- Where the two databases are: `dst` is the one written to, `src` the one read. -/
structure Link (S : Type) where
  dst : S → Db
  src : S → Db
  onDst : (Db → Db) → S → S
  onSrc : (Db → Db) → S → S

/-- two databases -/
def Link.two : Link (Db × Db) where
  dst := Prod.fst
  src := Prod.snd
  onDst f s := (f s.1, s.2)
  onSrc f s := (s.1, f s.2)

/-- two stores on one database -/
def Link.one : Link Db where
  dst := id
  src := id
  onDst f := f
  onSrc f := f

variable {S α γ Id NP EP : Type} [LinearOrder Id] [ConcreteId Id]

/-- a function of the back-end, used on one of the databases -/
def lift (see : S → Db) (on : (Db → Db) → S → S) : Prog Db α → Prog S α
  | .ret a => .ret a
  | .call f k => .call (on f) (fun s => lift see on (k (see s)))

/-- the loop goes on unless its body failed -/
def onward (k : γ → Prog S Unit) : γ × Except (LR SErr SErr) Unit → Prog S Unit
  | (g, .ok ()) => k g
  | (_, .error _) => .ret ()

/-- `Sled.extend` or `Sled.merge`, `γ` being the ids it draws from -/
abbrev Loops (γ Id NP EP : Type) := γ → Source SErr Id NP EP → Prog Db (γ × Except (LR SErr SErr) Unit)

variable (L : Link S) (c : Codecs NP EP) (W : Loops γ Id NP EP)

/-- the body of the node loop, for the entries which the iterator has read ahead (src/sled/extend.rs:25-31, src/sled/merge.rs:24-27) -/
def handNodes (k : γ → Prog S Unit) : List (Bytes × Bytes) → γ → Prog S Unit
  | [], g => k g
  | e :: l, g => (lift L.dst L.onDst (W g ⟨[vertexItem Id c e], []⟩)).bind (onward (handNodes k l))

/-- the node loop: the iterator reads as many entries at a time as the list says, and then all that remain -/
def feedNodes (k : γ → Prog S Unit) : List Nat → Option Bytes → γ → Prog S Unit
  | [], cur, g => .call id (fun s => handNodes L c W k (rest cur (L.src s).nodeProps.entries) g)
  | n :: ns, cur, g => .call id (fun s =>
      let l := (rest cur (L.src s).nodeProps.entries).take n
      handNodes L c W (feedNodes k ns (cursor cur l)) l g)

/-- the body of the edge loop (src/sled/extend.rs:33-61, src/sled/merge.rs:29-33): the iterator looks up the record of the edge when
it is its turn -/
def handEdges (k : γ → Prog S Unit) : List (Bytes × Bytes) → γ → Prog S Unit
  | [], g => k g
  | e :: l, g => .call id (fun s =>
      (lift L.dst L.onDst (W g ⟨[], [intoEdgeItem Id c (L.src s) e]⟩)).bind (onward (handEdges k l)))

/-- the edge loop -/
def feedEdges (k : γ → Prog S Unit) : List Nat → Option Bytes → γ → Prog S Unit
  | [], cur, g => .call id (fun s => handEdges L c W k (rest cur (L.src s).spo.entries) g)
  | n :: ns, cur, g => .call id (fun s =>
      let l := (rest cur (L.src s).spo.entries).take n
      handEdges L c W (feedEdges k ns (cursor cur l)) l g)

/-- `extend` or `merge` with a store on the database `src` -/
def feed (ns es : List Nat) (g : γ) : Prog S Unit :=
  feedNodes L c W (feedEdges L c W (fun _ => .ret ()) es none) ns none g

end Sled

end Verif
