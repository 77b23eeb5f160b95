import Verif.Proof.SledFeed
import Verif.Proof.Repair

/-! # Copying a database into itself adds no edges -/

namespace Verif

open Spec ConcreteId

variable {Id NP EP E γ : Type} [LinearOrder Id] [ConcreteId Id] [LawfulId Id]

namespace Sled

open Verif.Db

variable {c : Codecs NP EP} {mN : NP → NP → NP} {mE : EP → EP → EP}

theorem lift_one {α : Type} (p : Prog Db α) : lift Link.one.dst Link.one.onDst p = p := by
  induction p with
  | ret a => rfl
  | call f k ih => exact congrArg (Prog.call f) (funext fun d => ih d)

section

variable {d0 : Db} {T : Triple Id → Prop} {W : Loops γ Id NP EP}

/-- edges of the database at the start, or others which may be written -/
abbrev OwnOr (d0 : Db) (T : Triple Id → Prop) (w : Bytes × Triple Id) : Prop := d0.idIn .SPO w.2 ≠ none ∨ T w.2

/-- an entry of one of these -/
def OwnEntry (d0 : Db) (T : Triple Id → Prop) (e : Bytes × Bytes) : Prop :=
  ∀ t v, decodeEntry decodeSpo e = .ok (t, v) → d0.idIn .SPO t ≠ none ∨ T t

theorem ownEntry {d : Db} (h : FromW d0 (OwnOr d0 T) d) {e : Bytes × Bytes} (he : e ∈ d.spo.entries) : OwnEntry d0 T e := by
  intro t v hd
  unfold decodeEntry at hd
  split at hd
  · next k hk =>
    cases hd
    unfold ByteArr.tryFrom at hk
    split at hk
    · cases hk
      have e1 : d.idIn .SPO (decodeSpo ⟨e.1, ‹_›⟩ : Triple Id) = some e.2 := by
        show d.spo.get (encodeSpo (decodeSpo ⟨e.1, _⟩)).1 = _
        rw [LawfulId.encSpo_dec]
        exact BMap.mem_entries.1 he
      rcases h .SPO _ _ e1 with h | h
      · exact .inl (by rw [h]; simp)
      · exact h
    · cases hk
  · cases hd

/-- the loops write what they are told -/
structure LoopsWrite (d0 : Db) (T : Triple Id → Prop) (W : Loops γ Id NP EP) : Prop where
  node : ∀ g i, Writes' d0 (OwnOr d0 T) (W g ⟨[i], []⟩)
  edge : ∀ g i, (∀ t p, i = .ok (t, p) → d0.idIn .SPO t ≠ none ∨ T t) → Writes' d0 (OwnOr d0 T) (W g ⟨[], [i]⟩)

theorem w_onward {k : γ → Prog Db Unit} (hk : ∀ g, Writes' d0 (OwnOr d0 T) (k g)) (r : γ × Except (LR SErr SErr) Unit) :
    Writes' d0 (OwnOr d0 T) (onward k r) := by
  rcases r with ⟨g, _ | _⟩
  · trivial
  · exact hk g

theorem w_handNodes (hW : LoopsWrite d0 T W) {k : γ → Prog Db Unit} (hk : ∀ g, Writes' d0 (OwnOr d0 T) (k g)) (l : List (Bytes × Bytes))
    (g : γ) : Writes' d0 (OwnOr d0 T) (handNodes Link.one c W k l g) := by
  induction l generalizing g with
  | nil => exact hk g
  | cons e l ih =>
    unfold handNodes
    rw [lift_one]
    exact (hW.node g _).bind (w_onward ih)

theorem w_feedNodes (hW : LoopsWrite d0 T W) {k : γ → Prog Db Unit} (hk : ∀ g, Writes' d0 (OwnOr d0 T) (k g)) (ns : List Nat)
    (cur : Option Bytes) (g : γ) : Writes' d0 (OwnOr d0 T) (feedNodes Link.one c W k ns cur g) := by
  induction ns generalizing cur g with
  | nil => exact fun d h => ⟨h, rfl, w_handNodes hW hk _ _⟩
  | cons n ns ih => exact fun d h => ⟨h, rfl, w_handNodes hW (ih _) _ _⟩

theorem w_handEdges (hW : LoopsWrite d0 T W) {k : γ → Prog Db Unit} (hk : ∀ g, Writes' d0 (OwnOr d0 T) (k g)) (l : List (Bytes × Bytes))
    (hl : ∀ e ∈ l, OwnEntry d0 T e) (g : γ) : Writes' d0 (OwnOr d0 T) (handEdges Link.one c W k l g) := by
  induction l generalizing g with
  | nil => exact hk g
  | cons e l ih =>
    refine fun d h => ⟨h, rfl, ?_⟩
    beta_reduce
    rw [lift_one]
    refine (hW.edge g _ (fun t p hi => ?_)).bind (w_onward (ih (fun e he => hl e (List.mem_cons_of_mem _ he))))
    unfold intoEdgeItem at hi
    split at hi
    · cases hi
    · next t' v hd =>
      split at hi
      · cases hi
      · split at hi
        · cases hi
        · cases hi
          exact hl e List.mem_cons_self t v hd

theorem w_feedEdges (hW : LoopsWrite d0 T W) {k : γ → Prog Db Unit} (hk : ∀ g, Writes' d0 (OwnOr d0 T) (k g)) (es : List Nat)
    (cur : Option Bytes) (g : γ) : Writes' d0 (OwnOr d0 T) (feedEdges Link.one c W k es cur g) := by
  induction es generalizing cur g with
  | nil => exact fun d h => ⟨h, rfl, w_handEdges hW hk _ (fun e he => ownEntry h (mem_rest.1 he).1) _⟩
  | cons n ns ih =>
    exact fun d h => ⟨h, rfl, w_handEdges hW (ih _) _ (fun e he => ownEntry h (mem_rest.1 (List.mem_of_mem_take he)).1) _⟩

theorem loops_merge : LoopsWrite d0 T (Sled.merge c mN mE : Loops (Gen Id) Id NP EP) := by
  constructor
  · intro g i
    refine w_mergeNodes _ (fun r => ?_)
    cases r <;> trivial
  · intro g i hi
    refine w_mergeNodes _ (fun r => ?_)
    cases r with
    | error e => trivial
    | ok _ =>
      refine w_mergeEdges _ _ (fun w hw => ?_)
      cases i with
      | error e => cases hw
      | ok y =>
        obtain rfl := List.mem_singleton.1 hw
        exact hi y.1 y.2 rfl

theorem loops_extend : LoopsWrite d0 T (Sled.extend c : Loops (Gen Ulid) Id NP EP) := by
  constructor
  · intro g i
    refine w_extendNodes _ (fun r => ?_)
    cases r <;> trivial
  · intro g i hi
    refine w_extendNodes _ (fun r => ?_)
    cases r with
    | error e => trivial
    | ok _ =>
      refine w_extendEdges _ _ (fun w hw => ?_)
      cases i with
      | error e => cases hw
      | ok y =>
        obtain rfl := List.mem_singleton.1 hw
        exact hi y.1 y.2 rfl

end

/-- At any moment every edge was there at the start or is written by a call which is not a copy. -/
theorem own_edges {d0 d : Db} {acts : List (List (Act E Id NP EP))} (hq : ∀ th ∈ acts, ∀ y ∈ th, ¬ y.IsSrc)
    {rest : List (List (Prog Db Unit))} (h : Steps (d0, acts.map (List.map (Act.prog Link.one c mN mE))) (d, rest)) :
    FromW d0 (OwnOr d0 (fun t => ∃ v, (v, t) ∈ allWrites (acts.map (List.filterMap Act.onDst)))) d := by
  refine (framed_steps (J := FromW d0 _) (loc := fun _ => ()) h (fun _ _ _ h => .inl h) (fun q hq' p hp => ?_)).1
  obtain ⟨th, hth, rfl⟩ := List.mem_map.1 hq'
  obtain ⟨y, hy, rfl⟩ := List.mem_map.1 hp
  have hn := hq th hth y hy
  cases y with
  | src w => exact (hn trivial).elim
  | dst w =>
    show Writes' d0 _ (lift Link.one.dst Link.one.onDst _)
    rw [lift_one]
    refine w_call w (fun u hu => .inr ⟨u.1, List.mem_flatMap.2 ⟨w, List.mem_flatten.2 ⟨_, List.mem_map_of_mem hth, ?_⟩, hu⟩⟩)
    exact List.mem_filterMap.2 ⟨_, hy, rfl⟩
  | extend u ns es => refine w_feedNodes loops_extend (fun g => w_feedEdges loops_extend (fun _ => ?_) _ _ g) _ _ _; trivial
  | merge g ns es => refine w_feedNodes loops_merge (fun g => w_feedEdges loops_merge (fun _ => ?_) _ _ g) _ _ _; trivial

end Sled

end Verif
