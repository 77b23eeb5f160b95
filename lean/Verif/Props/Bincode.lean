import Verif.Proof.Bincode
import Verif.Props.Sled
import Verif.Props.Index

/-! # C69 the serialization format -/

namespace Verif.Props

open Spec Bincode

/-- A value is written unless a string or a sequence in it is too long; and then it is read back, whatever follows it. -/
theorem C69_roundtrip (s : Shape) (v : s.Val) :
    (s.Fits v → ∃ b, s.format.codec.ser v = some b ∧ ∀ r, s.format.codec.de (b ++ r) = some v) ∧
    (¬ s.Fits v → s.format.codec.ser v = none) := by
  constructor
  · intro h
    obtain ⟨b, hb⟩ := Option.isSome_iff_exists.1 ((s.put_isSome v).2 h)
    exact ⟨b, hb, fun r => by simp only [Format.codec, s.lawful.get_put v b hb r, Option.map_some]⟩
  · intro h
    exact Option.not_isSome_iff_eq_none.1 fun h' => h ((s.put_isSome v).1 h')

/-- No value is written as the beginning of what another is written as; in particular, different values are written
differently. -/
theorem C69_prefixFree (s : Shape) {v w : s.Val} {b r : Bytes} (h : s.format.codec.ser v = some b)
    (h' : s.format.codec.ser w = some (b ++ r)) : v = w ∧ r = [] := by
  have h1 := s.lawful.get_put v b h r
  have h2 := s.lawful.get_put w (b ++ r) h' []
  rw [List.append_nil, h1, Option.some.injEq, Prod.mk.injEq] at h2
  exact h2

/-- If the end is missing, reading fails. -/
theorem C69_truncated (s : Shape) {v : s.Val} {b t : Bytes} (h : s.format.codec.ser v = some (b ++ t)) (ht : t ≠ []) :
    s.format.codec.de b = none := by
  cases hg : s.format.get b with
  | none => simp [Format.codec, hg]
  | some x =>
    have h1 := s.lawful.get_append b x.1 x.2 hg t
    have h2 := s.lawful.get_put v (b ++ t) h []
    rw [List.append_nil, h1, Option.some.injEq, Prod.mk.injEq] at h2
    exact absurd (List.append_eq_nil_iff.1 h2.2).2 ht

/-- What the theorems on sled stores and indices ask of the format of properties, names and ids. -/
theorem C69_codecs (s t : Shape) :
    Codecs.RoundTrip ⟨s.format.codec, t.format.codec⟩ ∧ Codecs.RoundTrip ⟨s.rust, t.rust⟩ ∧ Codecs.Total ⟨s.rust, t.rust⟩ ∧
    (s.Flat → t.Flat → Codecs.Total ⟨s.format.codec, t.format.codec⟩) := by
  have rt : ∀ s : Shape, s.format.codec.RoundTrips := fun s v b h => by
    have := s.lawful.get_put v b h []
    rw [List.append_nil] at this
    simp only [Format.codec, this, Option.map_some]
  have rt' : ∀ s : Shape, s.rust.RoundTrips := fun s v b h => by
    simp only [Shape.rust, rt s v.val b h, Option.bind_some, dif_pos v.property]; rfl
  exact ⟨⟨rt s, rt t⟩, ⟨rt' s, rt' t⟩, ⟨fun v => (s.put_isSome v.val).2 v.property, fun v => (t.put_isSome v.val).2 v.property⟩,
    fun hs ht => ⟨fun v => (s.put_isSome v).2 (s.fits_of_flat hs v), fun v => (t.put_isSome v).2 (t.fits_of_flat ht v)⟩⟩

open Classical in
/-- Sled stores with properties of such types hold what the history made of them. -/
theorem C69_store {E Id : Type} [LinearOrder Id] [ConcreteId Id] [LawfulId Id] (s t : Shape)
    (mN : s.Val → s.Val → s.Val) (mE : t.Val → t.Val → t.Val) (g : Gen Id) (u : Gen Ulid) (h : List (Op E Id s.Val t.Val))
    (hf : FreshIds (genDraws h) (ulidDraws h) g u) :
    Shows (((SledStore.new Db.empty g u).applyAll ⟨s.format.codec, t.format.codec⟩ mN mE h).obs ⟨s.format.codec, t.format.codec⟩)
      (stepAll (fun v => decide (s.Fits v)) (fun v => decide (t.Fits v)) mN mE Graph.empty h) := by
  have e : ∀ (s : Shape), (fun v => (s.format.codec.ser v).isSome) = fun v => decide (s.Fits v) := fun s => by
    funext v
    rw [Bool.eq_iff_iff, decide_eq_true_iff]
    exact s.put_isSome v
  have := C26_history (c := ⟨s.format.codec, t.format.codec⟩) (C69_codecs s t).1 mN mE g u h hf
  rw [show Codecs.okN ⟨s.format.codec, t.format.codec⟩ = _ from e s, show Codecs.okE ⟨s.format.codec, t.format.codec⟩ = _ from e t]
    at this
  exact this

/-- The name index of an RDF store, `SledHashIndex<String, Ulid>`: after any calls of `set` that succeed, on a new database,
it lists the pairs, one-to-one; and one more succeeds if and only if the name and the id are new. -/
theorem C69_names (l : List (Shape.string.Rust × Shape.ulid.Rust))
    (h : (SledIndex.impl Shape.string.rust Shape.ulid.rust).AllOk .empty l) :
    (SledIndex.impl Shape.string.rust Shape.ulid.rust).Lists (fun _ => True) (fun _ => True)
      ((SledIndex.impl Shape.string.rust Shape.ulid.rust).sets .empty l) l ∧ OneToOne l ∧
    ∀ a b, ((SledIndex.impl Shape.string.rust Shape.ulid.rust).set
        ((SledIndex.impl Shape.string.rust Shape.ulid.rust).sets .empty l) a b).2 = .ok () ↔
      a ∉ l.map Prod.fst ∧ b ∉ l.map Prod.snd := by
  have hc := C69_codecs .string .ulid
  have := C36_sled hc.2.1.1 hc.2.1.2 l h
  have c1 : Shape.string.rust.Can = fun _ => True := funext fun a => eq_true (hc.2.2.1.1 a)
  have c2 : Shape.ulid.rust.Can = fun _ => True := funext fun a => eq_true (hc.2.2.1.2 a)
  rw [c1, c2] at this
  exact ⟨this.1, this.2.1, fun a b => by simpa using this.2.2 a b⟩

/-! ## Examples -/

/-- `(3u32, Some("é"), [true, false])` -/
def Sample.shape : Shape := .pair (.uint 4) (.pair (.option .string) (.seq .bool))

def Sample.val : Sample.shape.Val := ((3 : Fin (256 ^ 4)), ((some "é" : Option String), ([true, false] : List Bool)))

example : Sample.shape.format.codec.ser Sample.val = some
    [3, 0, 0, 0, 1, 2, 0, 0, 0, 0, 0, 0, 0, 0xc3, 0xa9, 2, 0, 0, 0, 0, 0, 0, 0, 1, 0] := by decide +kernel

example : Sample.shape.Fits Sample.val := ⟨trivial, fun y h => by cases h; show String.utf8ByteSize _ < _; decide +kernel, by decide +kernel, fun _ _ => trivial⟩

/-- `Ulid(0x01234567…)`: 34 bytes -/
example : (Bincode.ulid.codec.ser (Fin.ofNat _ 0x0123456789abcdef0123456789abcdef)).map (·.map Fin.val) =
    some ([26, 0, 0, 0, 0, 0, 0, 0] ++ "014D2PF2DBSQQG28T5CY4TQKFF".toList.map Char.toNat) := by decide +kernel

/-- the text is read in lower case also, and what does not fit in 128 bits is dropped: different bytes may be read as one value -/
example : fromText ("014d2pf2dbsqqg28t5cy4tqkff".toList.map fun c => Fin.ofNat 256 c.toNat) =
      some (Fin.ofNat _ 0x0123456789abcdef0123456789abcdef) ∧
    fromText ("814D2PF2DBSQQG28T5CY4TQKFF".toList.map fun c => Fin.ofNat 256 c.toNat) =
      some (Fin.ofNat _ 0x0123456789abcdef0123456789abcdef) ∧
    fromText ("U14D2PF2DBSQQG28T5CY4TQKFF".toList.map fun c => Fin.ofNat 256 c.toNat) = none := by
  refine ⟨by decide +kernel, by decide +kernel, by decide +kernel⟩

/-- `bool`: only 0 and 1 are read -/
example : Bincode.bool.codec.de [2] = none ∧ Bincode.bool.codec.de [1, 2] = some true := by decide +kernel

/-- nodes with a value as above, edges with a ULID -/
def Sample.typed : List (Op String U64 Sample.shape.Val Shape.ulid.Val) :=
  [.insertNode 1 Sample.val, .insertEdge ⟨1, 2, 1⟩ (7 : Ulid)]

example : ∃ G, G.nodes 1 = some Sample.val ∧
    Shows (((SledStore.new Db.empty (Sample.cg 0) (Sample.ul 0)).applyAll ⟨Sample.shape.format.codec, Shape.ulid.format.codec⟩
      (fun _ x => x) (fun _ x => x) Sample.typed).obs ⟨Sample.shape.format.codec, Shape.ulid.format.codec⟩) G := by
  refine ⟨_, ?_, C69_store _ _ _ _ _ _ Sample.typed (Sample.cu_fresh _ _ _ _ (by decide) (by decide))⟩
  have f : Sample.shape.Fits Sample.val :=
    ⟨trivial, fun y h => by cases h; show String.utf8ByteSize _ < _; decide +kernel, by decide +kernel, fun _ _ => trivial⟩
  have e : Shape.ulid.Fits (7 : Ulid) := trivial
  simp [Sample.typed, stepAll, Op.step, storeNode, storeEdge, one, f, e, Graph.insertNode, Graph.insertEdge]

/-- two names -/
def Sample.two : List (Shape.string.Rust × Shape.ulid.Rust) :=
  [(⟨"alice", by show String.utf8ByteSize _ < _; decide +kernel⟩, ⟨(1 : Ulid), trivial⟩),
    (⟨"bob", by show String.utf8ByteSize _ < _; decide +kernel⟩, ⟨(2 : Ulid), trivial⟩)]

example : (SledIndex.impl Shape.string.rust Shape.ulid.rust).AllOk .empty Sample.two := by
  have h1 := ((C69_names [] trivial).2.2 (Sample.two[0]).1 (Sample.two[0]).2).2 ⟨by simp, by simp⟩
  refine ⟨h1, ((C69_names [Sample.two[0]] ⟨h1, trivial⟩).2.2 (Sample.two[1]).1 (Sample.two[1]).2).2 ⟨?_, ?_⟩, trivial⟩
  · simp only [List.map_cons, List.map_nil, List.mem_singleton, Sample.two]
    intro h
    have : "bob" = "alice" := congrArg Subtype.val h
    exact absurd this (by decide)
  · simp only [List.map_cons, List.map_nil, List.mem_singleton, Sample.two]
    intro h
    have : (2 : Ulid) = 1 := congrArg Subtype.val h
    exact absurd this (by decide)

end Verif.Props
