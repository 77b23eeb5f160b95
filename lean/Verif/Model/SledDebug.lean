import Mathlib.Order.WithBot
import Verif.Model.Sled

/-!
# `Debug` of the sled back-end (src/sled.rs:198-329)

The strings written to the formatter, or `fmt::Error` (which makes `format!` and its like panic).
-/

namespace Verif

open ConcreteId

/-- Rendering functions the output is made of: `Display` of ids, `Debug` of `()` and of byte strings, SipHash of a key, `{:#016x}` of a
hash. -/
structure SledFmt (Id : Type) where
  showId : Id → String
  showUnit : String
  showBytes : Bytes → String
  hash : Bytes → Nat
  hex : Nat → String

namespace Sled

variable {Id : Type} [LinearOrder Id] [ConcreteId Id]

/-- The first loop (src/sled.rs:207-214).  `bincode::deserialize(&node_props)` has no type annotation; with the `?` the type variable
falls back to `()`, whose deserialization reads nothing and always succeeds. -/
def debugNodes (F : SledFmt Id) : List (Bytes × Bytes) → Except Unit (List String)
  | [] => .ok []
  | (k, _) :: l =>
    match tryFromBeBytes (Id := Id) k with
    | none => .error ()
    | some id =>
      match debugNodes F l with
      | .error e => .error e
      | .ok out => .ok (("  " ++ F.showId id ++ " -> " ++ F.showUnit ++ "\n") :: out)

/-- `ulid_to_spo_edge_hash` (src/sled.rs:223-238): later entries win on `collect`. -/
def debugHashes (F : SledFmt Id) (l : List (Bytes × Bytes)) : BMap Bytes Nat :=
  l.foldl (fun m e => m.insert e.2 (F.hash e.1)) .empty

/-- `hash_to_edge_data` (src/sled.rs:245-255): keyed by `Option<&u64>` with `None` least; later entries win. -/
def debugRecords (hashes : BMap Bytes Nat) (l : List (Bytes × Bytes)) : BMap (WithBot Nat) Bytes :=
  l.foldl (fun m e => m.insert (hashes.get e.1 : Option Nat) e.2) .empty

/-- The loop printing it (src/sled.rs:257-266): the bytes of the records are printed. -/
def debugProps (F : SledFmt Id) (m : BMap (WithBot Nat) Bytes) : List String :=
  m.entries.map (fun (e : WithBot Nat × Bytes) =>
    match (show Option Nat from e.1) with
    | none => "  _ -> " ++ F.showBytes e.2 ++ "\n"
    | some h => "  " ++ F.hex h ++ " -> " ++ F.showBytes e.2 ++ "\n")

/-- One of the three edge sections (src/sled.rs:268-286, 288-306, 308-326). -/
def debugEdges (F : SledFmt Id) (hashes : BMap Bytes Nat) (dec : TKey Id → Triple Id) :
    List (Bytes × Bytes) → Except Unit (List String)
  | [] => .ok []
  | (k, v) :: l =>
    match ByteArr.tryFrom (tripleLen (Id := Id)) k with
    | none => .error ()
    | some key =>
      let t := dec key
      match debugEdges F hashes dec l with
      | .error e => .error e
      | .ok out =>
        .ok (("  (" ++ F.showId t.sub ++ ", " ++ F.showId t.pred ++ ", " ++ F.showId t.obj ++ ") -> " ++
          (match hashes.get v with
           | some h => F.hex h ++ "\n"
           | none => "_\n")) :: out)

/-- `fmt` (src/sled.rs:204-328) on what its six traversals of the trees have read. -/
def debugOf (F : SledFmt Id) (nodes spo recs spo' pos osp : List (Bytes × Bytes)) : Except Unit (List String) :=
  match debugNodes F nodes with
  | .error e => .error e
  | .ok outN =>
    let hashes := debugHashes F spo
    match debugEdges F hashes decodeSpo spo' with
    | .error e => .error e
    | .ok outS =>
      match debugEdges F hashes decodePos pos with
      | .error e => .error e
      | .ok outP =>
        match debugEdges F hashes decodeOsp osp with
        | .error e => .error e
        | .ok outO =>
          .ok (["SledTripleStore:\n", " Node Properties:\n"] ++ outN ++ [" Edge Properties:\n"] ++
            debugProps F (debugRecords hashes recs) ++ [" Edges (SPO):\n"] ++ outS ++ [" Edges (POS):\n"] ++ outP ++
            [" Edges (OSP):\n"] ++ outO)

/-- `fmt` while nobody writes to the database. -/
def debug (F : SledFmt Id) (d : Db) : Except Unit (List String) :=
  debugOf F d.nodeProps.entries d.spo.entries d.edgeProps.entries d.spo.entries d.pos.entries d.osp.entries

end Sled

end Verif
