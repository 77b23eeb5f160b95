import Mathlib.Data.List.Induction
import Verif.Spec.Loss
import Verif.Proof.History
import Verif.Proof.LinearGhost

/-!
# Power losses: a database that falls back is as if a process had crashed
-/

namespace Verif

open Spec

variable {S C : Type} {prog : C → Prog S Unit} {d0 : S}

/-- what a process may make of the database -/
def leadsTo (prog : C → Prog S Unit) (d : S) (s : Bool × List (List C)) (d' : S) : Prop :=
  match s.1 with
  | true => ∃ rest, Steps (d, s.2.map (List.map prog)) (d', rest)
  | false => ∃ rest, CalmSteps (d, s.2.map (List.map prog)) (d', rest) ∧ ∀ th ∈ rest, th = []

/-- the moments, process by process -/
inductive Segments (prog : C → Prog S Unit) (d0 : S) : List (Bool × List (List C)) → List S → Prop
  | start : Segments prog d0 [] [d0]
  | process {ss : List (Bool × List (List C))} {ds l : List S} {d d' : S} {s : Bool × List (List C)} : Segments prog d0 ss ds →
      ds.getLast? = some d → (∀ e ∈ l, ∃ rest, Steps (d, s.2.map (List.map prog)) (e, rest)) → l.getLast? = some d' →
      leadsTo prog d s d' → Segments prog d0 (ss ++ [s]) (ds ++ l)

theorem cutOff_append {ss ss' : List (Bool × List (List C))} (h : CutOff ss ss') (s : Bool × List (List C)) : CutOff (ss ++ [s]) ss' := by
  obtain ⟨k, rfl | ⟨th, ⟨cr, h1⟩, rfl⟩⟩ := h
  · by_cases hk : k ≤ ss.length
    · exact ⟨k, .inl (List.take_append_of_le_length hk).symm⟩
    · refine ⟨ss.length, .inl ?_⟩
      rw [List.take_append_of_le_length (Nat.le_refl _), List.take_length, List.take_of_length_le (by omega)]
  · have hk : k < ss.length := (List.getElem?_eq_some_iff.1 h1).1
    refine ⟨k, .inr ⟨th, ⟨cr, ?_⟩, ?_⟩⟩
    · rw [List.getElem?_append_left hk, h1]
    · rw [List.take_append_of_le_length (Nat.le_of_lt hk)]

theorem Segments.cut {ss : List (Bool × List (List C))} {ds ds' : List S} (h : Segments prog d0 ss ds) (hp : ds' <+: ds) (hn : ds' ≠ []) :
    ∃ ss', CutOff ss ss' ∧ Segments prog d0 ss' ds' := by
  induction h generalizing ds' with
  | start =>
    refine ⟨[], ⟨0, .inl rfl⟩, ?_⟩
    obtain ⟨r, hr⟩ := hp
    match ds', hn, hr with
    | [e], _, hr => rw [(List.cons.inj hr).1]; exact .start
    | _ :: _ :: _, _, hr => cases (List.cons.inj hr).2
  | @process ss ds l d d' s h1 h2 h3 h4 h5 ih =>
    by_cases hl : ds'.length ≤ ds.length
    · obtain ⟨ss', k1, k2⟩ := ih (List.prefix_of_prefix_length_le hp (List.prefix_append ..) hl) hn
      exact ⟨ss', cutOff_append k1 s, k2⟩
    · obtain ⟨l', rfl⟩ := List.prefix_of_prefix_length_le (List.prefix_append ds l) hp (by omega)
      have hp' : l' <+: l := (List.prefix_append_right_inj _).1 hp
      have hne : l' ≠ [] := by rintro rfl; simp at hl
      refine ⟨ss ++ [(true, s.2)], ⟨ss.length, .inr ⟨s.2, ⟨s.1, by simp⟩, by simp⟩⟩, ?_⟩
      exact .process (d' := l'.getLast hne) h1 h2 (fun e he => h3 e (hp'.subset he)) (List.getLast?_eq_some_getLast hne)
        (h3 _ (hp'.subset (List.getLast_mem hne)))

theorem Segments.runs {ss : List (Bool × List (List C))} {ds : List S} (h : Segments prog d0 ss ds) :
    ∃ d, ds.getLast? = some d ∧ Runs (leadsTo prog) d0 ss d := by
  induction h with
  | start => exact ⟨d0, rfl, rfl⟩
  | @process ss ds l d d' s h1 h2 h3 h4 h5 ih =>
    obtain ⟨e, e1, e2⟩ := ih
    rw [h2] at e1
    obtain rfl := Option.some.inj e1
    exact ⟨d', by rw [List.getLast?_append, h4]; rfl, runs_append e2 ⟨d', h5, rfl⟩⟩

theorem Spec.Trail.segments {es : List (Event C)} {ds : List S} (h : Trail prog d0 es ds) : ∃ ss, Survive es ss ∧ Segments prog d0 ss ds := by
  induction h with
  | start => exact ⟨[], .start, .start⟩
  | @process es ds d crash threads x N h1 h2 h3 h4 h5 ih =>
    obtain ⟨ss, k1, k2⟩ := ih
    refine ⟨_, .process k1, .process (d' := (x N).1) k2 h2 ?_ ?_ ?_⟩
    · intro e he
      obtain ⟨k, hk, rfl⟩ := List.mem_map.1 he
      have := course_steps h3 k (by simpa [Nat.lt_succ_iff] using hk)
      rw [h4] at this
      exact ⟨_, this⟩
    · rw [List.range_succ, List.map_append]
      exact List.getLast?_concat
    · cases crash with
      | true =>
        have := course_steps h3 N (Nat.le_refl N)
        rw [h4] at this
        exact ⟨_, this⟩
      | false =>
        refine ⟨(x N).2, ?_, h5 rfl⟩
        have key : ∀ k ≤ N, CalmSteps (x 0) (x k) := by
          intro k
          induction k with
          | zero => exact fun _ => .refl _
          | succ k ih => exact fun hk => (ih (by omega)).tail (h3 k (by omega))
        have := key N (Nat.le_refl N)
        rw [h4] at this
        exact this
  | loss h1 h2 h3 ih =>
    obtain ⟨ss, k1, k2⟩ := ih
    obtain ⟨ss', k3, k4⟩ := k2.cut h2 h3
    exact ⟨ss', .loss k1 k3, k4⟩

theorem Spec.Trail.runs {es : List (Event C)} {ds : List S} {d : S} (h : Trail prog d0 es ds) (hd : ds.getLast? = some d) :
    ∃ ss, Survive es ss ∧ Runs (leadsTo prog) d0 ss d := by
  obtain ⟨ss, h1, h2⟩ := h.segments
  obtain ⟨e, e1, e2⟩ := h2.runs
  rw [hd] at e1
  exact ⟨ss, h1, Option.some.inj e1 ▸ e2⟩

/-- What survives is some of what there was, in order. -/
theorem Spec.Survive.sublist {es : List (Event C)} {ss : List (Bool × List (List C))} (h : Survive es ss) :
    (ss.map Prod.snd).Sublist ((processes es).map Prod.snd) := by
  induction h with
  | start => exact .slnil
  | process h ih =>
    simp only [processes, List.filterMap_append, List.map_append] at ih ⊢
    exact ih.append (List.Sublist.refl _)
  | @loss es ss ss' h hc ih =>
    simp only [processes, List.filterMap_append, List.filterMap_cons, List.filterMap_nil, List.append_nil] at ih ⊢
    refine List.Sublist.trans ?_ ih
    obtain ⟨k, rfl | ⟨th, ⟨cr, h1⟩, rfl⟩⟩ := hc
    · exact (List.take_sublist ..).map _
    · have e : (ss.take k ++ [(true, th)]).map Prod.snd = (ss.take (k + 1)).map Prod.snd := by
        rw [List.take_add_one, h1]
        simp
      rw [e]
      exact (List.take_sublist ..).map _

/-- Those that go on after the last power loss lose nothing. -/
theorem Spec.Survive.last {es fs : List (Event C)} {ss : List (Bool × List (List C))} (h : Survive (es ++ fs) ss)
    (hf : ∀ e ∈ fs, e ≠ .loss) : ∃ ss', Survive es ss' ∧ ss = ss' ++ processes fs := by
  induction fs using List.reverseRecOn generalizing ss with
  | nil => exact ⟨ss, by simpa using h, by simp [processes]⟩
  | append_singleton fs f ih =>
    generalize hE : es ++ (fs ++ [f]) = E at h
    rw [← List.append_assoc] at hE
    cases h with
    | start => simp at hE
    | process h =>
      obtain ⟨e1, e2⟩ := List.append_inj' hE rfl
      obtain rfl := e1
      obtain rfl := (List.cons.inj e2).1
      obtain ⟨ss', k1, rfl⟩ := ih h (fun e he => hf e (by simp [he]))
      exact ⟨ss', k1, by simp [processes]⟩
    | loss h =>
      obtain ⟨e1, e2⟩ := List.append_inj' hE rfl
      exact absurd (List.cons.inj e2).1 (hf f (by simp))

end Verif
