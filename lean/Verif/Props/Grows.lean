import Verif.Proof.GrowsCalls
import Verif.Props.Ends

/-!
# C90: trees grow by what is written, and iterations come to an end
-/

namespace Verif.Props

open Verif Verif.Spec Verif.Sled ConcreteId

theorem along_course {S α : Type} {part : Bool} {x : Nat → S × List (List (Prog S α))} {N : Nat} (hC : Course part x N) (m : Nat) :
    Steps (x (min m N)) (x (min (m + 1) N)) := by
  rcases Nat.lt_or_ge m N with h | h
  · rw [Nat.min_eq_left (by omega), Nat.min_eq_left (by omega)]
    exact .tail (.refl _) (course_step hC h)
  · rw [Nat.min_eq_right (by omega), Nat.min_eq_right (by omega)]
    exact .refl _

theorem scan_keys {T : Nat → Tree} {b : Bound Bytes × Bound Bytes} {m : Nat} {cur : Option Bytes} {l : List (Nat × Bytes × Bytes)}
    (h : Scan T b m cur l) : (l.map (fun e => e.2.1)).Pairwise (· < ·) ∧ (∀ e ∈ l, After cur e.2.1) ∧ ∀ e ∈ l, (T e.1).get e.2.1 ≠ none := by
  induction h with
  | done h => exact ⟨.nil, by simp, by simp⟩
  | @next m m' cur k v l hm hk hb hv hp rest ih =>
    obtain ⟨h1, h2, h3⟩ := ih
    refine ⟨?_, ?_, ?_⟩
    · rw [List.map_cons, List.pairwise_cons]
      refine ⟨fun a ha => ?_, h1⟩
      obtain ⟨e, he, rfl⟩ := List.mem_map.1 ha
      exact h2 e he
    · intro e he
      rcases List.mem_cons.1 he with rfl | he
      · exact hk
      · cases cur with
        | none => trivial
        | some k0 => exact lt_trans (show k0 < k from hk) (h2 e he)
    · intro e he
      rcases List.mem_cons.1 he with rfl | he
      · show (T m').get k ≠ none
        rw [hv]; simp
      · exact h3 e he

section
variable {Id NP EP E : Type} [LinearOrder Id] [ConcreteId Id]
variable {mN : NP → NP → NP} {mE : EP → EP → EP} {c : Codecs NP EP}
variable {d : Db} {threads : List (List (PieceCall E Id NP EP))} {x : Nat → Db × List (List (Prog Db Unit))}

/-- A process goes through `x 0`, `x 1`, ….  All keys that ever are in a tree are no more than the entries it had at first and those
that the calls write. -/
theorem C90_keys (hx : ∀ m, Steps (x m) (x (m + 1))) (h0 : x 0 = (d, threads.map (List.map (PieceCall.prog c mN mE)))) (t : DbTree)
    {l : List (Nat × Bytes)} (hn : (l.map Prod.snd).Nodup) (hl : ∀ e ∈ l, (t.tree (x e.1).1).get e.2 ≠ none) :
    l.length ≤ (t.tree d).entries.length + total (PieceCall.adds t) threads := by
  have := keys_le hx (tree := t.tree) (n := total (PieceCall.adds t) threads)
    (by rw [h0]; exact allStock_of (prog := PieceCall.prog c mN mE) (adds_pieceCall t) threads) hn hl
  rwa [h0] at this

/-- So whatever the others write meanwhile, an iteration of a tree, or of a part of it, has no more items than that. -/
theorem C90_scan (hx : ∀ m, Steps (x m) (x (m + 1))) (h0 : x 0 = (d, threads.map (List.map (PieceCall.prog c mN mE)))) (t : DbTree)
    {b : Bound Bytes × Bound Bytes} {m : Nat} {cur : Option Bytes} {l : List (Nat × Bytes × Bytes)}
    (hl : Scan (fun m => t.tree (x m).1) b m cur l) : l.length ≤ (t.tree d).entries.length + total (PieceCall.adds t) threads := by
  obtain ⟨h1, _, h2⟩ := scan_keys hl
  have := C90_keys hx h0 t (l := l.map (fun e => (e.1, e.2.1)))
    (by rw [List.map_map]; exact h1.imp (fun h => ne_of_lt h)) (fun e he => by
      obtain ⟨e, hm, rfl⟩ := List.mem_map.1 he
      exact h2 e hm)
  rwa [List.length_map] at this

/-- It cannot go on for ever. -/
theorem C90_no_endless (hx : ∀ m, Steps (x m) (x (m + 1))) (h0 : x 0 = (d, threads.map (List.map (PieceCall.prog c mN mE)))) (t : DbTree) :
    ¬ ∃ (key : Nat → Bytes) (m : Nat → Nat), (∀ i, key i < key (i + 1)) ∧ ∀ i, (t.tree (x (m i)).1).get (key i) ≠ none := by
  rintro ⟨key, m, hk, hm⟩
  have lt : ∀ j i, i < j → key i < key j := by
    intro j
    induction j with
    | zero => intro i h; omega
    | succ j ih =>
      intro i h
      rcases Nat.lt_or_ge i j with h | h
      · exact lt_trans (ih i h) (hk j)
      · obtain rfl : i = j := by omega
        exact hk i
  have := C90_keys hx h0 t (l := (List.range ((t.tree d).entries.length + total (PieceCall.adds t) threads + 1)).map (fun i => (m i, key i)))
    (by
      rw [List.map_map]
      refine List.Nodup.map ?_ List.nodup_range
      intro i j e
      rcases Nat.lt_trichotomy i j with h | h | h
      · exact absurd e (ne_of_lt (lt j i h))
      · exact h
      · exact absurd e.symm (ne_of_lt (lt i j h)))
    (fun e he => by
      obtain ⟨i, _, rfl⟩ := List.mem_map.1 he
      exact hm i)
  rw [List.length_map, List.length_range] at this
  omega

/-- The same when sled runs transactions again, as it likes. -/
theorem C90_fine {closures : Tx DbTree SErr → Prop} {part : Bool} {y : Nat → Db × List (Tx.Thread Db DbTree SErr Unit)} {N : Nat}
    (hC : Tx.Course closures part y N) (h0 : y 0 = (d, (threads.map (List.map (PieceCall.prog c mN mE))).map Tx.idle)) (t : DbTree)
    {l : List (Nat × Bytes)} (hn : (l.map Prod.snd).Nodup) (hl : ∀ e ∈ l, e.1 ≤ N ∧ (t.tree (y e.1).1).get e.2 ≠ none) :
    l.length ≤ (t.tree d).entries.length + total (PieceCall.adds t) threads := by
  obtain ⟨x, M, φ, hx, hx0, _, _, _, hφ⟩ := C86_course hC h0
  have := C90_keys (x := fun m => x (min m M)) (along_course hx) (by simpa using hx0) t (l := l.map (fun e => (φ e.1, e.2)))
    (by rw [List.map_map]; exact hn) (fun e he => by
      obtain ⟨e, hm, rfl⟩ := List.mem_map.1 he
      obtain ⟨h1, h2⟩ := hl e hm
      obtain ⟨h3, h4⟩ := hφ e.1 h1
      simp only [Nat.min_eq_left h3, h4]
      exact h2)
  rwa [List.length_map] at this

/-- After any number of processes, crashed or not, there are no more entries than all of them have written. -/
theorem C90_sessions {ss : List (Session E Id NP EP)} {d d' : Db} (h : Runs (fun d s d' => Session.Leads c mN mE d s d') d ss d')
    (t : DbTree) : (t.tree d').entries.length ≤
      (t.tree d).entries.length + (ss.map (fun s => total (PieceCall.adds t) s.threads)).sum := by
  have one : ∀ {s : Session E Id NP EP} {d d' : Db}, s.Leads c mN mE d d' →
      (t.tree d').entries.length ≤ (t.tree d).entries.length + total (PieceCall.adds t) s.threads := by
    rintro ⟨crash, threads⟩ d d' hs
    have stock := allStock_of (tree := t.tree) (prog := PieceCall.prog c mN mE) (adds_pieceCall t) threads
    cases crash with
    | true =>
      obtain ⟨rest, hs⟩ := hs
      exact size_le hs stock
    | false =>
      obtain ⟨rest, hs, _⟩ := hs
      exact size_le (hs.steps) stock
  induction ss generalizing d with
  | nil =>
    obtain rfl : d' = d := h
    simp
  | cons s ss ih =>
    obtain ⟨d1, h1, h2⟩ := h
    have h1 := one h1
    have h2 := ih h2
    simp only [List.map_cons, List.sum_cons]
    omega

end

section
variable {NP EP E : Type}
variable {mN : NP → NP → NP} {mE : EP → EP → EP} {cl : Codec String} {cr : Codec Ulid} {c : Codecs NP EP}
variable {d : RdfDb} {threads : List (List (RdfSled.PieceCall E NP EP))} {x : Nat → RdfDb × List (List (Prog RdfDb Unit))}

/-! The same of RDF stores, the trees being those of the name index and those of the triple store. -/

theorem C90_rdf_keys (hx : ∀ m, Steps (x m) (x (m + 1))) (h0 : x 0 = (d, threads.map (List.map (RdfSled.PieceCall.prog cl cr c mN mE))))
    (t : IndexTree ⊕ DbTree) {l : List (Nat × Bytes)} (hn : (l.map Prod.snd).Nodup)
    (hl : ∀ e ∈ l, (RdfSled.tree t (x e.1).1).get e.2 ≠ none) :
    l.length ≤ (RdfSled.tree t d).entries.length + total (RdfSled.PieceCall.adds t) threads := by
  have := keys_le hx (tree := RdfSled.tree t) (n := total (RdfSled.PieceCall.adds t) threads)
    (by rw [h0]; exact allStock_of (prog := RdfSled.PieceCall.prog cl cr c mN mE) (RdfSled.adds_pieceCall t) threads) hn hl
  rwa [h0] at this

theorem C90_rdf_scan (hx : ∀ m, Steps (x m) (x (m + 1))) (h0 : x 0 = (d, threads.map (List.map (RdfSled.PieceCall.prog cl cr c mN mE))))
    (t : IndexTree ⊕ DbTree) {b : Bound Bytes × Bound Bytes} {m : Nat} {cur : Option Bytes} {l : List (Nat × Bytes × Bytes)}
    (hl : Scan (fun m => RdfSled.tree t (x m).1) b m cur l) :
    l.length ≤ (RdfSled.tree t d).entries.length + total (RdfSled.PieceCall.adds t) threads := by
  obtain ⟨h1, _, h2⟩ := scan_keys hl
  have := C90_rdf_keys hx h0 t (l := l.map (fun e => (e.1, e.2.1)))
    (by rw [List.map_map]; exact h1.imp (fun h => ne_of_lt h)) (fun e he => by
      obtain ⟨e, hm, rfl⟩ := List.mem_map.1 he
      exact h2 e hm)
  rwa [List.length_map] at this

theorem C90_rdf_sessions {ss : List (RdfSled.Session E NP EP)} {d d' : RdfDb}
    (h : Runs (fun d s d' => RdfSled.Session.Leads cl cr c mN mE d s d') d ss d') (t : IndexTree ⊕ DbTree) :
    (RdfSled.tree t d').entries.length ≤
      (RdfSled.tree t d).entries.length + (ss.map (fun s => total (RdfSled.PieceCall.adds t) s.threads)).sum := by
  have one : ∀ {s : RdfSled.Session E NP EP} {d d' : RdfDb}, s.Leads cl cr c mN mE d d' →
      (RdfSled.tree t d').entries.length ≤ (RdfSled.tree t d).entries.length + total (RdfSled.PieceCall.adds t) s.threads := by
    rintro ⟨crash, threads⟩ d d' hs
    have stock := allStock_of (tree := RdfSled.tree t) (prog := RdfSled.PieceCall.prog cl cr c mN mE) (RdfSled.adds_pieceCall t) threads
    cases crash with
    | true =>
      obtain ⟨rest, hs⟩ := hs
      exact size_le hs stock
    | false =>
      obtain ⟨rest, hs, _⟩ := hs
      exact size_le (hs.steps) stock
  induction ss generalizing d with
  | nil =>
    obtain rfl : d' = d := h
    simp
  | cons s ss ih =>
    obtain ⟨d1, h1, h2⟩ := h
    have h1 := one h1
    have h2 := ih h2
    simp only [List.map_cons, List.sum_cons]
    omega

end

/-! ### examples -/

/-- an edge is written while the edges are listed: it is the fourth -/
def fourth : List (List (PieceCall String U64 Nat Nat)) := [[(.insertEdge 77 ⟨9, 9, 9⟩ 4, [], [])], [(.removeEdge ⟨1, 5, 2⟩, [], [])]]

def fourthAt (m : Nat) : Db × List (List (Prog Db Unit)) :=
  (([0] : List Nat).take m).foldl turn (db0, fourth.map (List.map (PieceCall.prog Sample.uc Sample.mN Sample.mE)))

theorem fourth_steps (m : Nat) : Steps (fourthAt m) (fourthAt (m + 1)) := by
  have h := along_course (course_turns (db0, fourth.map (List.map (PieceCall.prog Sample.uc Sample.mN Sample.mE))) [0] (by decide +kernel)) m
  have e : ∀ k, (([0] : List Nat).take (min k [0].length)) = ([0] : List Nat).take k := fun k => by
    rcases k with _ | k
    · rfl
    · rw [Nat.min_eq_right (by simp)]; simp
  beta_reduce at h
  rw [e, e] at h
  exact h

set_option maxRecDepth 100000 in
example : ((fourthAt 1).1.spo.range whole).length ≤ (DbTree.spo.tree db0).entries.length + total (PieceCall.adds .spo) fourth ∧
    ((fourthAt 1).1.spo.range whole).length = 4 ∧ (DbTree.spo.tree db0).entries.length = 3 ∧ total (PieceCall.adds .spo) fourth = 1 := by
  refine ⟨?_, by decide +kernel, by decide +kernel, by decide +kernel⟩
  have h := C90_scan fourth_steps (rfl : fourthAt 0 = _) .spo (scan_at (fun m => DbTree.spo.tree (fourthAt m).1) whole 1)
  rwa [List.length_map] at h

set_option maxRecDepth 100000 in
/-- three processes -/
example : (DbTree.edgeProps.tree db3).entries.length ≤ (DbTree.edgeProps.tree db0).entries.length +
    ([proc1, proc2, proc3].map (fun s => total (PieceCall.adds .edgeProps) s.threads)).sum :=
  C90_sessions three_lead .edgeProps

set_option maxRecDepth 100000 in
/-- names are never removed: in the end there are as many as there were and have been created at most -/
example : (RdfSled.tree (.inl .leftToRight) rdb2).entries.length ≤ (RdfSled.tree (.inl .leftToRight) rdfDb0).entries.length +
    ([rproc1, rproc2].map (fun s => total (RdfSled.PieceCall.adds (.inl .leftToRight)) s.threads)).sum :=
  C90_rdf_sessions rprocs_lead (.inl .leftToRight)

end Verif.Props
