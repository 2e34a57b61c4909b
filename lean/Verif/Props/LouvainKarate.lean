import Verif.Model.LouvainKarate
import Verif.Props.LouvainDemo
import Verif.Props.BfsDemo
/-
C119: the Louvain demo with the karate club.
-/
namespace Spec

/-- Every edge has weight 1. -/
def unitWeights (edges : List (Nat × Nat)) : Mat Rat := fun u v => if (u, v) ∈ edges then some 1 else none

end Spec

namespace GBTL
open Spec

/-- The vector gives every node a cluster, and no single node with an edge that leaves it raises the modularity by going to a cluster that is
considered for it. -/
def LocallyBest (masked : Bool) (n : Nat) (W : Mat Rat) (w : BVec Nat) : Prop :=
  w.size = n ∧ ∃ a : Nat → Nat, (∀ i, i < n → w.get i = some (a i) ∧ a i < n) ∧
    ∀ i c, i < n → HasOut n W i → Considered masked n W a i c → modularity n W (moveTo a i c) ≤ modularity n W a

theorem unit_graph {n : Nat} {edges : List (Nat × Nat)} (he : ∀ e ∈ edges, e.1 < n ∧ e.2 < n) :
    ∃ A, method ((Lil.new n n : Lil Rat).build (fun _ b => b) (edges.map fun e => (e.1, e.2, 1))) = .ok A ∧ A.WF ∧ A.nrows = n ∧ A.ncols = n ∧
      A.get = unitWeights edges ∧ ∀ i j, A.get i j ≠ none → 0 < allWeight A.nrows A.get := by
  obtain ⟨A, e, hA, hr, hc, hg⟩ := built_same (1 : Rat) edges he
  have hpos : ∀ i j x, A.get i j = some x → 0 < x := by
    intro i j x hx
    rw [hg] at hx
    split at hx
    · injection hx with hx
      rw [← hx]; decide
    · cases hx
  refine ⟨A, by rw [e]; rfl, hA, hr, hc, by funext i j; exact hg i j, ?_⟩
  intro i j hij
  have hge : ∀ i j, 0 ≤ (A.get i j).getD 0 := by
    intro i j
    cases hx : A.get i j with
    | none => exact Rat.le_refl
    | some x => exact Rat.le_of_lt (hpos i j x hx)
  obtain ⟨hi, hj⟩ := some_lt hA hij
  rw [allWeight_eq]
  refine (rsum_pos fun i _ => ?_).2 ⟨i, hi, ?_⟩
  · rw [outWeight_eq]; exact rsum_nonneg fun j _ => hge i j
  · rw [outWeight_eq]
    refine (rsum_pos fun j _ => hge i j).2 ⟨j, by omega, ?_⟩
    cases hx : A.get i j with
    | none => exact absurd hx hij
    | some x => exact hpos i j x hx

theorem louvainSeeds_some {masked : Bool} {rnd : Nat → Nat → Rat} {fuel : Nat} {A : Lil Rat} {P : BVec Nat → Prop}
    (hP : ∀ s w, louvainPrint masked (rnd s) fuel A = .ok (some w) → P w) : ∀ (seeds : List Nat) (ws : List (BVec Nat)),
    louvainSeeds masked rnd fuel A seeds = .ok (some ws) → ws.length = seeds.length ∧ ∀ w ∈ ws, P w := by
  intro seeds
  induction seeds with
  | nil => intro ws h; injection h with h; injection h with h; subst h; exact ⟨rfl, fun w hw => by cases hw⟩
  | cons s ss ih =>
    intro ws h
    unfold louvainSeeds at h
    cases e1 : louvainPrint masked (rnd s) fuel A with
    | error x => rw [e1] at h; cases h
    | ok c =>
      rw [e1, prog_bind_ok] at h
      cases c with
      | none => cases h
      | some w =>
        dsimp only at h
        cases e2 : louvainSeeds masked rnd fuel A ss with
        | error x => rw [e2] at h; cases h
        | ok cs =>
          rw [e2, prog_bind_ok] at h
          cases cs with
          | none => cases h
          | some ws' =>
            injection h with h; injection h with h
            subst h
            obtain ⟨h1, h2⟩ := ih ws' e2
            refine ⟨by rw [List.length_cons, List.length_cons, h1], fun x hx => ?_⟩
            rcases List.mem_cons.1 hx with rfl | hx
            · exact hP s _ e1
            · exact h2 x hx

/-- **C119** Whatever the random numbers, for every graph and all seeds: if the demo comes to its end, it has printed two vectors for each seed, and
each gives every node a cluster that no single move betters. -/
theorem C119_clusters {n : Nat} (hn : 0 < n) {edges : List (Nat × Nat)} (he : ∀ e ∈ edges, e.1 < n ∧ e.2 < n) {rnd : Nat → Nat → Rat} {fuel : Nat}
    {seeds : List Nat} {ws ws' : List (BVec Nat)} (h : louvainKarate rnd fuel n edges seeds = .ok (some (ws, ws'))) :
    ws.length = seeds.length ∧ ws'.length = seeds.length ∧ (∀ w ∈ ws, LocallyBest false n (unitWeights edges) w) ∧
      ∀ w ∈ ws', LocallyBest true n (unitWeights edges) w := by
  obtain ⟨A, e, hA, hr, hc, hg, hw⟩ := unit_graph he
  have key : ∀ masked s w, louvainPrint masked (rnd s) fuel A = .ok (some w) → LocallyBest masked n (unitWeights edges) w := by
    intro masked s w hp
    have := louvainPrint_some hA (by rw [hr]; exact hn) hw hp
    rw [hr, hg] at this
    exact this
  unfold louvainKarate at h
  rw [e, lift_ok, prog_bind_ok] at h
  cases e1 : louvainSeeds false rnd fuel A seeds with
  | error x => rw [e1] at h; cases h
  | ok c1 =>
    rw [e1, prog_bind_ok] at h
    cases c1 with
    | none => cases h
    | some v1 =>
      dsimp only at h
      cases e2 : louvainSeeds true rnd fuel A seeds with
      | error x => rw [e2] at h; cases h
      | ok c2 =>
        rw [e2, prog_bind_ok] at h
        cases c2 with
        | none => cases h
        | some v2 =>
          injection h with h; injection h with h; injection h with h1 h2
          subst h1; subst h2
          obtain ⟨l1, p1⟩ := louvainSeeds_some (key false) seeds v1 e1
          obtain ⟨l2, p2⟩ := louvainSeeds_some (key true) seeds v2 e2
          exact ⟨l1, l2, p1, p2⟩

theorem louvainSeeds_ok {masked : Bool} {rnd : Nat → Nat → Rat} {fuel : Nat} {A : Lil Rat}
    (hP : ∀ s, ∃ o, louvainPrint masked (rnd s) fuel A = .ok o) : ∀ seeds : List Nat, ∃ o, louvainSeeds masked rnd fuel A seeds = .ok o := by
  intro seeds
  induction seeds with
  | nil => exact ⟨_, rfl⟩
  | cons s ss ih =>
    obtain ⟨o, e⟩ := hP s
    obtain ⟨o', e'⟩ := ih
    unfold louvainSeeds
    rw [e, prog_bind_ok]
    cases o with
    | none => exact ⟨_, rfl⟩
    | some w =>
      dsimp only
      rw [e']
      exact ⟨_, rfl⟩

/-- **C119** If no random number is drawn twice for one seed and every node with an edge that leaves it has one to another node, the demo ends: it
runs through, or ends in the exception of the clustering for too many rounds. Nothing in it is undefined. -/
theorem C119_ends {n : Nat} (hn : 0 < n) {edges : List (Nat × Nat)} (he : ∀ e ∈ edges, e.1 < n ∧ e.2 < n)
    (hl : ∀ u v, (u, v) ∈ edges → ∃ v', v' ≠ u ∧ (u, v') ∈ edges) {rnd : Nat → Nat → Rat} (hinj : ∀ s x y, rnd s x = rnd s y → x = y)
    {fuel : Nat} (hf : 0 < fuel) (seeds : List Nat) : ∃ o, louvainKarate rnd fuel n edges seeds = .ok o := by
  obtain ⟨A, e, hA, hr, hc, hg, hw⟩ := unit_graph he
  have key : ∀ masked s, ∃ o, louvainPrint masked (rnd s) fuel A = .ok o := by
    intro masked s
    obtain ⟨r, e1⟩ := C65_louvain_total_partial masked (rnd := rnd s) (fuel := fuel) (2 ^ 32 - 1) hA (hr.trans hc.symm) (by omega) hw (hinj s) hf (by
      intro i hi ⟨j, hj, hij⟩
      rw [hg] at hij ⊢
      have hm : (i, j) ∈ edges := by
        apply Classical.byContradiction
        intro hm
        unfold unitWeights at hij
        rw [if_neg hm] at hij
        exact hij rfl
      obtain ⟨v, hv, hm'⟩ := hl i j hm
      refine ⟨v, by rw [hr]; exact (he _ hm').2, hv, ?_⟩
      have hx : unitWeights edges i v = some 1 := by unfold unitWeights; rw [if_pos hm']
      cases masked with
      | false => exact Or.inr (Or.inl (by rw [hx]; simp))
      | true =>
        show (unitWeights edges i v).getD 0 + (unitWeights edges v i).getD 0 ≠ 0
        rw [hx]
        unfold unitWeights
        by_cases hb : (v, i) ∈ edges
        · rw [if_pos hb]; decide +kernel
        · rw [if_neg hb]; decide +kernel)
    unfold louvainPrint
    rw [e1, prog_bind_ok]
    cases r with
    | thrown t => exact ⟨_, rfl⟩
    | returned S =>
      obtain ⟨s1, s2, s3, -⟩ := C65_louvain_returned hA (by omega) hw e1
      obtain ⟨w, e2, -⟩ := C66_louvain_assignments_partial s1 (s2.trans s3.symm) (by omega)
      dsimp only
      rw [e2]
      exact ⟨_, rfl⟩
  unfold louvainKarate
  rw [e, lift_ok, prog_bind_ok]
  obtain ⟨o1, e1⟩ := louvainSeeds_ok (key false) seeds
  obtain ⟨o2, e2⟩ := louvainSeeds_ok (key true) seeds
  rw [e1, prog_bind_ok]
  cases o1 with
  | none => exact ⟨_, rfl⟩
  | some ws =>
    dsimp only
    rw [e2]
    exact ⟨_, rfl⟩

/- The program's graph and seeds meet the hypotheses of `C119_ends`, with random numbers that do not repeat. -/
example : ∃ o, louvainKarate (fun _ x => (x : Rat)) 1 34 club.edges (List.range 20) = .ok o :=
  C119_ends (by decide) (by decide +kernel)
    (by
      have : ∀ e ∈ club.edges, e.2 ≠ e.1 := by decide +kernel
      exact fun u v h => ⟨v, this _ h, h⟩)
    (fun _ x y h => by exact_mod_cast h) (by decide) _

/- A graph of two nodes with an edge each way: the demo comes to its end, with both nodes in one cluster. -/
example : louvainKarate (fun _ x => (x : Rat)) 5 2 [(0, 1), (1, 0)] [0, 1] = .ok (some
    ([⟨2, 2, [1, 1], [true, true]⟩, ⟨2, 2, [1, 1], [true, true]⟩], [⟨2, 2, [1, 1], [true, true]⟩, ⟨2, 2, [1, 1], [true, true]⟩])) := by
  have e : method ((Lil.new 2 2 : Lil Rat).build (fun _ b => b) ([(0, 1), (1, 0)].map fun e => (e.1, e.2, 1))) =
      .ok ⟨2, 2, 2, [[(1, 1)], [(0, 1)]]⟩ := by decide +kernel
  have e1 : louvainPrint false (fun k => (k : Rat)) 5 ⟨2, 2, 2, [[(1, 1)], [(0, 1)]]⟩ = .ok (some ⟨2, 2, [1, 1], [true, true]⟩) :=
    louvainPrint_of (m := 10) (by decide) (by decide +kernel)
  have e2 : louvainPrint true (fun k => (k : Rat)) 5 ⟨2, 2, 2, [[(1, 1)], [(0, 1)]]⟩ = .ok (some ⟨2, 2, [1, 1], [true, true]⟩) :=
    louvainPrint_of (m := 10) (by decide) (by decide +kernel)
  unfold louvainKarate
  rw [e, lift_ok, prog_bind_ok]
  simp only [louvainSeeds, e1, e2, prog_bind_ok]
  rfl

end GBTL
