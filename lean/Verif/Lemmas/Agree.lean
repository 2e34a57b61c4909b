import Verif.Lemmas.Bfs
import Verif.Lemmas.Flow
import Verif.Spec.Renumber
/-
Walks do not depend on the numbering of the vertices, and walks in a graph whose edges all
weigh 1 weigh as much as they have edges.
-/
namespace GBTL
open Spec

variable {n : Nat} {d τ : Nat → Nat}

/-- Two functions with the same values on both sides of a characterisation. -/
theorem opt_ext {α : Type} {a b : Option α} (h : ∀ x, a = some x ↔ b = some x) : a = b := by
  cases a with
  | none =>
    cases b with
    | none => rfl
    | some y => exact absurd ((h y).2 rfl) (by simp)
  | some x => exact ((h x).1 rfl).symm

section hops
variable {E E' : Nat → Nat → Prop} {S S' : Nat → Prop}

theorem walk_moved (R : Renumbering n d τ) (hE : ∀ u v, E u v → u < n ∧ v < n)
    (hE' : ∀ u v, E' u v → u < n ∧ v < n) (hm : ∀ u v, u < n → v < n → (E' (d u) (d v) ↔ E u v))
    (hS : ∀ v, v < n → (S' (d v) ↔ S v)) (k : Nat) :
    ∀ v, v < n → (Walk E' S' k (d v) ↔ Walk E S k v) := by
  induction k with
  | zero => intro v hv; exact hS v hv
  | succ k ih =>
    intro v hv
    constructor
    · rintro ⟨u, hu, he⟩
      have hl := (hE' _ _ he).1
      have hb := R.back u hl
      refine ⟨τ u, (ih _ hb.1).1 (by rw [hb.2]; exact hu), (hm _ _ hb.1 hv).1 (by rw [hb.2]; exact he)⟩
    · rintro ⟨u, hu, he⟩
      have hl := (hE _ _ he).1
      exact ⟨d u, (ih _ hl).2 hu, (hm _ _ hl hv).2 he⟩

theorem hopDist_moved (R : Renumbering n d τ) (hE : ∀ u v, E u v → u < n ∧ v < n)
    (hE' : ∀ u v, E' u v → u < n ∧ v < n) (hm : ∀ u v, u < n → v < n → (E' (d u) (d v) ↔ E u v))
    (hS : ∀ v, v < n → (S' (d v) ↔ S v)) {v : Nat} (hv : v < n) (k : Nat) :
    HopDist E' S' (d v) k ↔ HopDist E S v k := by
  have h := fun j => walk_moved R hE hE' hm hS j v hv
  unfold HopDist
  rw [h k]
  exact and_congr Iff.rfl (forall_congr' fun j => by rw [h j])

theorem reachable_moved (R : Renumbering n d τ) (hE : ∀ u v, E u v → u < n ∧ v < n)
    (hE' : ∀ u v, E' u v → u < n ∧ v < n) (hm : ∀ u v, u < n → v < n → (E' (d u) (d v) ↔ E u v))
    (hS : ∀ v, v < n → (S' (d v) ↔ S v)) {v : Nat} (hv : v < n) :
    Reachable E' S' (d v) ↔ Reachable E S v :=
  exists_congr fun k => walk_moved R hE hE' hm hS k v hv

end hops

section weights
variable {W W' : Mat Int} {S S' : Vec Int}

theorem wwalk_moved (R : Renumbering n d τ) (hW : ∀ u v w, W u v = some w → u < n ∧ v < n)
    (hW' : ∀ u v w, W' u v = some w → u < n ∧ v < n) (hm : MovedMat n d W W') (hS : MovedVec n d S S') (k : Nat) :
    ∀ v x, v < n → (WWalk W' S' k (d v) x ↔ WWalk W S k v x) := by
  induction k with
  | zero => intro v x hv; show S' (d v) = some x ↔ S v = some x; rw [hS v hv]
  | succ k ih =>
    intro v x hv
    constructor
    · rintro ⟨u, y, w, hu, he, hx⟩
      have hl := (hW' _ _ _ he).1
      have hb := R.back u hl
      refine ⟨τ u, y, w, (ih _ _ hb.1).1 (by rw [hb.2]; exact hu), ?_, hx⟩
      rw [← hm _ _ hb.1 hv, hb.2]; exact he
    · rintro ⟨u, y, w, hu, he, hx⟩
      have hl := (hW _ _ _ he).1
      exact ⟨d u, y, w, (ih _ _ hl).2 hu, by rw [hm _ _ hl hv]; exact he, hx⟩

theorem isDist_moved (R : Renumbering n d τ) (hW : ∀ u v w, W u v = some w → u < n ∧ v < n)
    (hW' : ∀ u v w, W' u v = some w → u < n ∧ v < n) (hm : MovedMat n d W W') (hS : MovedVec n d S S')
    {v : Nat} (hv : v < n) (x : Int) : IsDist W' S' (d v) x ↔ IsDist W S v x := by
  have h := fun j y => wwalk_moved R hW hW' hm hS j v y hv
  unfold IsDist
  refine and_congr (exists_congr fun j => h j x) (forall_congr' fun j => forall_congr' fun y => ?_)
  rw [h j y]

/-- In a graph whose edges weigh 1, a walk from `s` weighs its number of edges. -/
theorem wwalk_unit {α : Type} {A : Nat → Nat → Option α} {s : Nat} (hone : ∀ u v w, W u v = some w → w = 1)
    (hA : ∀ u v, Edge A u v ↔ Edge W u v) (k : Nat) :
    ∀ v x, WWalk W (source s) k v x ↔ (Walk (Edge A) (· = s) k v ∧ x = k) := by
  induction k with
  | zero =>
    intro v x
    show source s v = some x ↔ (v = s ∧ x = (0 : Nat))
    unfold source
    by_cases h : v = s
    · rw [if_pos h]; simp [h, eq_comm]
    · rw [if_neg h]; simp [h]
  | succ k ih =>
    intro v x
    constructor
    · rintro ⟨u, y, w, hu, he, hx⟩
      obtain ⟨h1, h2⟩ := (ih u y).1 hu
      have := hone _ _ _ he
      exact ⟨⟨u, h1, (hA u v).2 (by simp [Edge, he])⟩, by omega⟩
    · rintro ⟨⟨u, hu, he⟩, hx⟩
      have he := (hA u v).1 he
      obtain ⟨w, hw⟩ := Option.isSome_iff_exists.1 he
      exact ⟨u, k, w, (ih u k).2 ⟨hu, rfl⟩, hw, by rw [hone _ _ _ hw]; omega⟩

theorem isDist_unit {α : Type} {A : Nat → Nat → Option α} {s : Nat} (hone : ∀ u v w, W u v = some w → w = 1)
    (hA : ∀ u v, Edge A u v ↔ Edge W u v) (v k : Nat) :
    IsDist W (source s) v k ↔ HopDist (Edge A) (· = s) v k := by
  have h := wwalk_unit (s := s) hone hA
  constructor
  · rintro ⟨⟨j, hj⟩, hmin⟩
    obtain ⟨h1, h2⟩ := (h _ _ _).1 hj
    have : j = k := by omega
    subst this
    refine ⟨h1, fun i hi => ?_⟩
    have := hmin i i ((h _ _ _).2 ⟨hi, rfl⟩)
    omega
  · rintro ⟨h1, h2⟩
    refine ⟨⟨k, (h _ _ _).2 ⟨h1, rfl⟩⟩, fun j x hx => ?_⟩
    obtain ⟨h3, h4⟩ := (h _ _ _).1 hx
    have := h2 j h3
    omega

end weights

section flows

theorem total_only {m i : Nat} (hi : i < m) {f : Nat → Int} (h : ∀ j, j < m → j ≠ i → f j = 0) : total m f = f i := by
  have := total_upd hi (f := fun _ => 0) (g := f) h
  rw [this, total_const_zero fun _ _ => rfl]
  omega

theorem total_renumber (R : Renumbering n d τ) (f : Nat → Int) : (total n fun a => f (τ a)) = total n f := by
  have h1 : ∀ a, a < n → f (τ a) = total n fun i => if τ a = i then f i else 0 := by
    intro a ha
    rw [total_only (i := τ a) (R.back a ha).1]
    · simp
    · intro j _ hj
      rw [if_neg fun e => hj e.symm]
  rw [total_congr h1, total_swap]
  refine total_congr fun i hi => ?_
  rw [total_only (i := d i) (R.there i hi).1]
  · rw [if_pos (R.there i hi).2]
  · intro a ha hne
    rw [if_neg]
    intro e
    apply hne
    rw [← e]; exact ((R.back a ha).2).symm

variable {s k : Nat} {c c' : Nat → Nat → Int}

theorem flow_moved (R : Renumbering n d τ) (hs : s < n) (hk : k < n)
    (hc : ∀ u v, u < n → v < n → c' (d u) (d v) = c u v) {g : Nat → Nat → Int} (h : IsFlow n s k c g) :
    IsFlow n (d s) (d k) c' (fun a b => g (τ a) (τ b)) ∧
      flowValue n (d s) (fun a b => g (τ a) (τ b)) = flowValue n s g := by
  refine ⟨⟨fun u v hu hv => h.nonneg _ _ (R.back u hu).1 (R.back v hv).1, fun u v hu hv => ?_, fun u hu h1 h2 => ?_⟩, ?_⟩
  · have := h.capacity _ _ (R.back u hu).1 (R.back v hv).1
    rwa [← hc _ _ (R.back u hu).1 (R.back v hv).1, (R.back u hu).2, (R.back v hv).2] at this
  · have := h.conserved (τ u) (R.back u hu).1 (fun e => h1 (by rw [← e, (R.back u hu).2]))
      (fun e => h2 (by rw [← e, (R.back u hu).2]))
    rw [total_renumber R fun a => g a (τ u), total_renumber R fun a => g (τ u) a]
    exact this
  · unfold flowValue
    simp only [(R.there s hs).2]
    rw [total_renumber R fun a => g s a, total_renumber R fun a => g a s]

theorem maxFlow_moved (R : Renumbering n d τ) (hs : s < n) (hk : k < n)
    (hc : ∀ u v, u < n → v < n → c' (d u) (d v) = c u v) {m m' : Int} (h : IsMaxFlow n s k c m)
    (h' : IsMaxFlow n (d s) (d k) c' m') : m' = m := by
  have R' : Renumbering n τ d := ⟨R.back, R.there⟩
  obtain ⟨⟨g, hg, hv⟩, hmax⟩ := h
  obtain ⟨⟨g', hg', hv'⟩, hmax'⟩ := h'
  have a := flow_moved R hs hk hc hg
  have b := flow_moved R' (R.there s hs).1 (R.there k hk).1 (c := c') (c' := c)
    (fun u v hu hv => by rw [← hc _ _ (R.back u hu).1 (R.back v hv).1, (R.back u hu).2, (R.back v hv).2]) hg'
  rw [(R.there s hs).2, (R.there k hk).2] at b
  have h1 := hmax' _ a.1
  have h2 := hmax _ b.1
  rw [a.2, hv] at h1
  rw [b.2, hv'] at h2
  omega

end flows

section trusses

theorem filter_total (p : Nat → Bool) : ((((List.range n).filter p).length : Nat) : Int) = total n fun k => if p k then 1 else 0 := by
  induction n with
  | zero => rfl
  | succ n ih =>
    rw [List.range_succ, List.filter_append, List.length_append, total_succ, ← ih]
    cases h : p n <;> simp [h]

/-- A graph moved along a renumbering. -/
def movedGraph (n : Nat) (τ : Nat → Nat) (F : Nat → Nat → Bool) (a b : Nat) : Bool :=
  decide (a < n) && decide (b < n) && F (τ a) (τ b)

theorem common_moved (R : Renumbering n d τ) (F : Nat → Nat → Bool) {i j : Nat} (hi : i < n) (hj : j < n) :
    commonNbrs n (movedGraph n τ F) i j = commonNbrs n F (τ i) (τ j) := by
  have h1 := filter_total (n := n) fun k => movedGraph n τ F i k && movedGraph n τ F k j
  have h2 := filter_total (n := n) fun k => F (τ i) k && F k (τ j)
  rw [← total_renumber R fun k => if (F (τ i) k && F k (τ j)) = true then (1 : Int) else 0] at h2
  have h3 : (total n fun k => if (movedGraph n τ F i k && movedGraph n τ F k j) = true then (1 : Int) else 0) =
      total n fun k => if (F (τ i) (τ k) && F (τ k) (τ j)) = true then (1 : Int) else 0 := by
    refine total_congr fun k hk => ?_
    simp [movedGraph, hi, hj, hk]
  unfold commonNbrs
  omega

theorem truss_moved {k : Nat} {E E' F : Nat → Nat → Bool} (R : Renumbering n d τ) (hE : ∀ i j, E i j = true → i < n ∧ j < n)
    (hm : ∀ u v, u < n → v < n → E' (d u) (d v) = E u v) (h : IsTruss n k E F) :
    IsTruss n k E' (movedGraph n τ F) := by
  refine ⟨fun i j => ?_, fun i j hij => ?_, fun i j hij => ?_⟩
  · unfold movedGraph
    rw [h.symm (τ i) (τ j), Bool.and_comm (decide (i < n))]
  · simp only [movedGraph, Bool.and_eq_true, decide_eq_true_eq] at hij
    obtain ⟨⟨hi, hj⟩, hF⟩ := hij
    have := h.sub _ _ hF
    rwa [← hm _ _ (R.back i hi).1 (R.back j hj).1, (R.back i hi).2, (R.back j hj).2] at this
  · simp only [movedGraph, Bool.and_eq_true, decide_eq_true_eq] at hij
    obtain ⟨⟨hi, hj⟩, hF⟩ := hij
    rw [common_moved R F hi hj]
    exact h.support _ _ hF

theorem kTruss_moved {k : Nat} {E E' F F' : Nat → Nat → Bool} (R : Renumbering n d τ)
    (hE : ∀ i j, E i j = true → i < n ∧ j < n) (hE' : ∀ i j, E' i j = true → i < n ∧ j < n)
    (hm : ∀ u v, u < n → v < n → E' (d u) (d v) = E u v) (h : IsKTruss n k E F) (h' : IsKTruss n k E' F')
    {i j : Nat} (hi : i < n) (hj : j < n) : F' (d i) (d j) = F i j := by
  have R' : Renumbering n τ d := ⟨R.back, R.there⟩
  have a := h'.largest _ (truss_moved R hE hm h.truss) (d i) (d j)
  have b := h.largest _ (truss_moved R' hE' (fun u v hu hv => by
    rw [← hm _ _ (R.back u hu).1 (R.back v hv).1, (R.back u hu).2, (R.back v hv).2]) h'.truss) i j
  simp only [movedGraph, (R.there i hi).1, (R.there j hj).1, (R.there i hi).2, (R.there j hj).2, decide_true, Bool.true_and, hi, hj] at a b
  rw [Bool.eq_iff_iff]
  exact ⟨b, a⟩

/-- The k-truss of a graph is unique. -/
theorem truss_unique {k : Nat} {E F F' : Nat → Nat → Bool} (h : IsKTruss n k E F) (h' : IsKTruss n k E F') (i j : Nat) :
    F i j = F' i j := by
  rw [Bool.eq_iff_iff]
  exact ⟨h'.largest F h.truss i j, h.largest F' h'.truss i j⟩

end trusses
end GBTL
