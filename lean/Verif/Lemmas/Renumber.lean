import Verif.Props.Triangle
import Verif.Lemmas.KTrussInc
import Verif.Spec.Renumber
/-
Sums over all vertices do not depend on the numbering, and so the number of triangles does
not.
-/
namespace GBTL
open Spec

variable {n : Nat} {d τ : Nat → Nat}

theorem sumTo_renumber (h : Renumbering n d τ) (f : Nat → Nat) : (sumTo n fun a => f (τ a)) = sumTo n f := by
  have h1 : ∀ a, a < n → f (τ a) = sumTo n fun i => ind (decide (τ a = i)) * f i := by
    intro a ha
    rw [sumTo_one (i := τ a) (h.back a ha).1]
    · simp [ind]
    · intro j _ hj
      have : ¬ τ a = j := fun e => hj e.symm
      simp [ind, this]
  rw [sumTo_congr h1, sumTo_comm]
  refine sumTo_congr fun i hi => ?_
  rw [sumTo_one (i := d i) (h.there i hi).1]
  · simp [ind, (h.there i hi).2]
  · intro a ha hne
    have : ¬ τ a = i := by
      intro e
      apply hne
      rw [← e]; exact ((h.back a ha).2).symm
    simp [ind, this]

theorem sumTo_renumber3 (h : Renumbering n d τ) (f : Nat → Nat → Nat → Nat) :
    (sumTo n fun i => sumTo n fun j => sumTo n fun k => f (τ i) (τ j) (τ k)) =
      sumTo n fun i => sumTo n fun j => sumTo n fun k => f i j k := by
  have h1 : ∀ i j, (sumTo n fun k => f i j (τ k)) = sumTo n fun k => f i j k :=
    fun i j => sumTo_renumber h (f i j)
  have h2 : ∀ i, (sumTo n fun j => sumTo n fun k => f i (τ j) (τ k)) = sumTo n fun j => sumTo n fun k => f i j k := by
    intro i
    rw [← sumTo_renumber h fun j => sumTo n fun k => f i j k]
    exact sumTo_congr fun j _ => h1 i (τ j)
  rw [← sumTo_renumber h fun i => sumTo n fun j => sumTo n fun k => f i j k]
  exact sumTo_congr fun i _ => h2 (τ i)

variable {adj : Nat → Nat → Bool}

/-- Each triangle is six ordered triples. -/
theorem six_triangles (hu : Undirected adj) :
    (sumTo n fun i => sumTo n fun j => sumTo n fun k => ind (adj i j && adj j k && adj i k)) = 6 * triangles n adj := by
  have hp : ∀ i j k, ind (adj i j && adj j k && adj i k) =
      tri adj i j k + (tri adj i k j + (tri adj j i k + (tri adj j k i + (tri adj k i j + tri adj k j i)))) := by
    intro i j k
    simp only [tri]
    rw [hu.symm j i, hu.symm k i, hu.symm k j]
    by_cases hij : i = j
    · subst hij; simp [hu.irrefl, ind]
    by_cases hjk : j = k
    · subst hjk; simp [hu.irrefl, ind]
    by_cases hik : i = k
    · subst hik; simp [hu.irrefl, ind]
    cases adj i j <;> cases adj j k <;> cases adj i k <;> simp [ind]
    rcases Nat.lt_or_gt_of_ne hij with a | a <;> rcases Nat.lt_or_gt_of_ne hjk with b | b <;>
      rcases Nat.lt_or_gt_of_ne hik with c | c <;>
      simp [a, b, c, Nat.lt_asymm a, Nat.lt_asymm b, Nat.lt_asymm c] <;> omega
  have e : (fun i => sumTo n fun j => sumTo n fun k => ind (adj i j && adj j k && adj i k)) = fun i => sumTo n fun j => sumTo n fun k =>
      tri adj i j k + (tri adj i k j + (tri adj j i k + (tri adj j k i + (tri adj k i j + tri adj k j i)))) := by
    funext i; congr 1; funext j; congr 1; funext k; exact hp i j k
  rw [e]
  simp only [sumTo_add]
  have a1 := (triangles_eq n adj).symm
  have a2 : (sumTo n fun i => sumTo n fun j => sumTo n fun k => tri adj i k j) = triangles n adj := by
    rw [← a1]; congr 1; funext i; exact sumTo_comm n n fun j k => tri adj i k j
  have a3 : (sumTo n fun i => sumTo n fun j => sumTo n fun k => tri adj j i k) = triangles n adj := by
    rw [← a1]; exact sumTo_comm n n fun i j => sumTo n fun k => tri adj j i k
  have a4 : (sumTo n fun i => sumTo n fun j => sumTo n fun k => tri adj j k i) = triangles n adj :=
    sum_noT fun _ _ _ => rfl
  have a5 : (sumTo n fun i => sumTo n fun j => sumTo n fun k => tri adj k i j) = triangles n adj :=
    sum_once' fun _ _ _ => rfl
  have a6 : (sumTo n fun i => sumTo n fun j => sumTo n fun k => tri adj k j i) = triangles n adj :=
    sum_once fun _ _ _ => rfl
  rw [a1, a2, a3, a4, a5, a6]
  omega

theorem _root_.Spec.Undirected.renumber (hu : Undirected adj) (τ : Nat → Nat) : Undirected fun i j => adj (τ i) (τ j) :=
  ⟨fun i j => hu.symm _ _, fun i => hu.irrefl _⟩

theorem triangles_renumber (h : Renumbering n d τ) (hu : Undirected adj) :
    triangles n (fun i j => adj (τ i) (τ j)) = triangles n adj := by
  have h1 := six_triangles (n := n) hu
  have h2 := six_triangles (n := n) (hu.renumber τ)
  rw [sumTo_renumber3 h fun i j k => ind (adj i j && adj j k && adj i k)] at h2
  omega

/-- The edges directed by a numbering that is not the one of the matrix. -/
theorem halves_renumber (h : Renumbering n d τ) (hu : Undirected adj) :
    Halves n (triangles n adj) (fun i j => lower adj (τ i) (τ j)) (fun i j => upper adj (τ i) (τ j)) := by
  have H := halves n hu
  refine ⟨?_, ?_, ?_, fun i j => H.flip _ _⟩
  · rw [← H.once]
    exact sumTo_renumber3 h fun i j k => ind (lower adj i j) * (ind (lower adj i k) * ind (upper adj k j))
  · rw [← H.other]
    exact sumTo_renumber3 h fun i j k => ind (upper adj i j) * (ind (lower adj i k) * ind (upper adj k j))
  · rw [← H.chain]
    exact sumTo_renumber3 h fun i j k => ind (lower adj i j) * (ind (lower adj i k) * ind (lower adj k j))

end GBTL
