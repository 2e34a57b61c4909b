import Verif.Model.Louvain
import Verif.Spec.Renumber
import Verif.Lemmas.Algo
/-
C104, Louvain clustering: which vertices end in one cluster depends on the numbering.
-/
namespace GBTL
open Spec

/-- Some cluster contains both vertices. -/
def InOneCluster (S : Nat → Nat → Option Bool) (u v : Nat) : Prop := ∃ c, S u c ≠ none ∧ S v c ≠ none

/-- The clustering that `rnd` leads to puts vertices together whatever their numbers. -/
def LouvainIgnoresNumbers (masked : Bool) (rnd : Nat → Rat) : Prop :=
  ∀ (fuel maxIters n : Nat) (σ τ : Nat → Nat) (G G' : Lil Rat) (S S' : Lil Bool), Renumbering n σ τ → G.WF → G'.WF →
    G.nrows = n → G.ncols = n → G'.nrows = n → G'.ncols = n → MovedMat n σ G.get G'.get →
    louvain masked rnd fuel G maxIters = .ok (.returned S) → louvain masked rnd fuel G' maxIters = .ok (.returned S') →
    ∀ u v, u < n → v < n → (InOneCluster S'.get (σ u) (σ v) ↔ InOneCluster S.get u v)

namespace Ex

/-- The path 0 - 1 - 2 - 3 with weights 1, 3 and 4. -/
def lvPath : Lil Rat := ⟨4, 4, 6, [[(1, 1)], [(0, 1), (2, 3)], [(1, 3), (3, 4)], [(2, 4)]]⟩

/-- The same path as 2 - 0 - 3 - 1. -/
def lvPath' : Lil Rat := ⟨4, 4, 6, [[(2, 1), (3, 3)], [(3, 4)], [(0, 1)], [(0, 3), (1, 4)]]⟩

def toPath' (v : Nat) : Nat := if v = 0 then 2 else if v = 1 then 0 else if v = 2 then 3 else 1
def ofPath' (v : Nat) : Nat := if v = 0 then 1 else if v = 1 then 3 else if v = 2 then 0 else 2

end Ex

/-- Without ties no random number is drawn. -/
theorem louvain_no_draw (masked : Bool) (rnd rnd' : Nat → Rat) (G : Lil Rat) (maxIters : Nat) :
    louvain masked rnd 0 G maxIters = louvain masked rnd' 0 G maxIters := by
  have e : ∀ n s, lvTies rnd n 0 s = lvTies rnd' n 0 s := fun _ _ => rfl
  simp only [louvain, lvSweep, lvVertex, e]

/-- **C104** Louvain clustering depends on the numbering, in both versions and whatever the random
numbers are: this path is cut in two halves or not at all. -/
theorem C104_louvain_wrong (masked : Bool) (rnd : Nat → Rat) : ¬ LouvainIgnoresNumbers masked rnd := by
  intro h
  have h' := fun S S' => h 0 10 4 Ex.toPath' Ex.ofPath' Ex.lvPath Ex.lvPath' S S'
    ⟨(by decide : ∀ i, i < 4 → _), (by decide : ∀ i, i < 4 → _)⟩
    (Lil.wf_chk (by decide +kernel)) (Lil.wf_chk (by decide +kernel)) rfl rfl rfl rfl
    (fun u v (hu : u < 4) (hv : v < 4) => by
      match u, v, hu, hv with
      | 0, 0, _, _ | 0, 1, _, _ | 0, 2, _, _ | 0, 3, _, _ | 1, 0, _, _ | 1, 1, _, _ | 1, 2, _, _ | 1, 3, _, _ | 2, 0, _, _
      | 2, 1, _, _ | 2, 2, _, _ | 2, 3, _, _ | 3, 0, _, _ | 3, 1, _, _ | 3, 2, _, _ | 3, 3, _, _ => decide +kernel)
  have key : ¬ (InOneCluster (⟨4, 4, 4, [[(3, true)], [(3, true)], [(3, true)], [(3, true)]]⟩ : Lil Bool).get (Ex.toPath' 0) (Ex.toPath' 2) ↔
      InOneCluster (⟨4, 4, 4, [[(2, true)], [(2, true)], [(3, true)], [(3, true)]]⟩ : Lil Bool).get 0 2) := by
    intro hc
    obtain ⟨c, h1, h2⟩ := hc.mp ⟨3, by decide +kernel, by decide +kernel⟩
    match c with
    | 2 => exact h2 (by decide +kernel)
    | 0 | 1 | _ + 3 => exact h1 rfl
  cases masked
  · exact key (h' _ _ ((louvain_no_draw _ rnd (fun _ => 0) _ _).trans (by decide +kernel))
      ((louvain_no_draw _ rnd (fun _ => 0) _ _).trans (by decide +kernel)) 0 2 (by decide) (by decide))
  · exact key (h' _ _ ((louvain_no_draw _ rnd (fun _ => 0) _ _).trans (by decide +kernel))
      ((louvain_no_draw _ rnd (fun _ => 0) _ _).trans (by decide +kernel)) 0 2 (by decide) (by decide))

end GBTL
