import Verif.Proof.History
import Verif.Proof.SledLooseRun
import Verif.Proof.Repair

/-! # One history for all moments, whoever races -/

set_option linter.unusedSectionVars false

namespace Verif

open Spec ConcreteId

namespace Sled

open Db

variable {Id NP EP E : Type} [LinearOrder Id] [ConcreteId Id] [LawfulId Id]
variable {mN : NP → NP → NP} {mE : EP → EP → EP} {c : Codecs NP EP} {b : Bool} {d0 : Db} {ths : Programs E Id NP EP}

/-- what the orderings have in common is shown by the first -/
theorem SpoShows.but {d : Db} {G : Graph Id NP EP} {W : Triple Id → Prop} (h : SpoShows c d G) (ha : Agreed W d) : ShowsBut c W d G := by
  refine ⟨h, fun t ht o p => ?_⟩
  obtain ⟨l, h1, -, h2⟩ := h.edges
  rw [mem_iterEdges_any, ha t ht o, ← mem_iterEdges_any (o := .SPO), h1, ← h2 t p]
  simp

theorem history_loose {cs : List (List (Call E Id NP EP))} (ec : ths.calls = cs) {Own : Bytes → Triple Id → Prop} {WS WO : Triple Id → Prop}
    (h0 : Ready c Own d0 (allWrites cs)) (hA : Agreed WO d0)
    (hS : ∀ t, ¬ WS t → ¬ Raced cs t.sub t) (hO : ∀ t, ¬ WO t → ¬ Raced cs t.obj t)
    (hX : ∀ t, ¬ WO t → ¬ Extended cs t ∧ ¬ EdgeRaced cs t)
    (hf : ∀ th ∈ ths, ∀ e ∈ th, FineS c mN mE b Own WS WO e) (hx : ∀ th ∈ ths, ∀ e ∈ th, FineX c mN mE b Own (Extended cs) e)
    {C : Type} {prog : C → Prog Db Unit} {ops : C → List (Op E Id NP EP)} {threads : List (List C)}
    (e : threads.map (List.map (fun y => (prog y, ops y))) = ths.map (List.map (fun e => (e.1, e.2.acts))))
    {x : Nat → Db × List (List (Prog Db Unit))} {N : Nat} (hC : Course b x N) (hx0 : x 0 = (d0, ths.start)) :
    ∃ h cut H, Tells b prog ops (LooseStep c.okN c.okE mN mE WS WO) (ShowsBut c WO)
      (d0.graph c) threads x N h cut H := by
  subst ec
  have hJ : ∀ k ≤ N, Agreed WO (x k).1 := fun k hk => agreed_programs hA hX hx _ (hx0 ▸ course_steps hC k hk)
  refine (fun ⟨h, cut, H, h1⟩ => ⟨h, cut, H, h1.1⟩) (tells_of (Core := fun k => (spoRG c Own).CoreE (fun d => d.graph c)
    (LooseStep c.okN c.okE mN mE WS WO) (Agreed WO) b (x k)) hC (RG.coreE_step hC hJ) ?_ ?_)
  · rintro k hk t q ⟨X, ats, h1, rfl, h2, -, -, rfl⟩
    exact ⟨by rw [h1]; simp [Function.comp_def], (spoOk_shows h2).but (hJ k hk)⟩
  · rw [e, hx0]
    obtain ⟨h1, h2, h3⟩ := loose_start h0 hS hO hf
    exact ⟨_, _, by simp [Programs.start, Function.comp_def], by simp [Function.comp_def], h1, h2, h3, rfl⟩

end Sled

end Verif
