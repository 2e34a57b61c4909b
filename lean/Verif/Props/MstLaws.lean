import Verif.Props.Mst
import Verif.Spec.Renumber
/-
C91: laws of minimum spanning trees.
-/
namespace GBTL
open Spec

variable {n : Nat} {σ τ : Nat → Nat} {t t' : ITy} {ov ov' : Int → Int → Int}

/-- A connected undirected graph whose weights do not overflow, and a vector for the tree:
the arguments for which `mst` returns a tree (C50). -/
structure MstInput (t : ITy) (n : Nat) (G : Lil Int) (parents : BVec Nat) : Prop where
  vertices : 0 < n
  graph : G.WF
  rows : G.nrows = n
  cols : G.ncols = n
  symm : ∀ u v, G.get u v = G.get v u
  connected : ∀ v, v < n → Reachable (Edge G.get) (· = 0) v
  result : parents.WF
  size : parents.size = n
  fits : TreesFit t n G.get

/-- What `mst` returns: the weight `w` of a minimum spanning tree `P` of `W`, and the vector of
the parents in it. -/
structure IsMst (n : Nat) (W : Mat Int) (w : Int) (parents : BVec Nat) (P : List (Nat × Nat)) : Prop where
  tree : IsSpanningTree n W P
  parent : ∀ p v, (p, v) ∈ P ↔ parents.get v = some p
  total : w = weight W P
  least : ∀ F, IsSpanningTree n W F → w ≤ weight W F

theorem MstInput.run {G : Lil Int} {parents : BVec Nat} (h : MstInput t n G parents) (ov : Int → Int → Int) :
    ∃ w r P, mst n t ov G parents = .ok (w, r) ∧ IsMst n G.get w r P := by
  obtain ⟨hv, hg, rfl, hc, hs, hr, hp, hz, hf⟩ := h
  obtain ⟨w, r, P, e, -, -, -, h1, h2, h3, h4⟩ := C50_mst t ov G parents hg hc.symm hv hs hr hp hz hf G.nrows (Nat.le_refl _)
  exact ⟨w, r, P, e, h2, h1, h3, h4⟩

/-! ### renumbering -/

theorem linked_map {F : List (Nat × Nat)} {a b : Nat} (f : Nat → Nat) (h : Linked F a b) :
    Linked (F.map fun e => (f e.1, f e.2)) (f a) (f b) := by
  induction h with
  | refl => exact .refl
  | step _ e ih => exact ih.step (e.imp (fun e => List.mem_map.2 ⟨_, e, rfl⟩) (fun e => List.mem_map.2 ⟨_, e, rfl⟩))

theorem tree_moved {W W' : Mat Int} (R : Renumbering n σ τ) (hn : 0 < n) (hW : ∀ u v, Edge W u v → u < n ∧ v < n)
    (hm : MovedMat n σ W W') {F : List (Nat × Nat)} (h : IsSpanningTree n W F) :
    IsSpanningTree n W' (F.map fun e => (σ e.1, σ e.2)) ∧ weight W' (F.map fun e => (σ e.1, σ e.2)) = weight W F := by
  refine ⟨⟨?_, by rw [List.length_map]; exact h.size, ?_⟩, ?_⟩
  · intro e he
    obtain ⟨f, hf, rfl⟩ := List.mem_map.1 he
    have := h.edges f hf
    have hlt := hW _ _ this
    unfold Edge at *
    rw [hm _ _ hlt.1 hlt.2]
    exact this
  · intro v hv
    have h1 := linked_map σ ((h.connected _ (R.back 0 hn).1).symm.trans (h.connected _ (R.back v hv).1))
    rwa [(R.back 0 hn).2, (R.back v hv).2] at h1
  · have h1 := h.edges
    clear h
    induction F with
    | nil => rfl
    | cons e F ih =>
      have hlt := hW _ _ (h1 e List.mem_cons_self)
      rw [List.map_cons, weight_cons, weight_cons, ih (fun e he => h1 e (List.mem_cons_of_mem _ he)), hm _ _ hlt.1 hlt.2]

theorem renumbering_back (R : Renumbering n σ τ) : Renumbering n τ σ := ⟨R.back, R.there⟩

theorem movedMat_back {α : Type} {W W' : Nat → Nat → Option α} (R : Renumbering n σ τ) (hm : MovedMat n σ W W') :
    MovedMat n τ W' W := by
  intro u v hu hv
  have := hm (τ u) (τ v) (R.back u hu).1 (R.back v hv).1
  rw [(R.back u hu).2, (R.back v hv).2] at this
  exact this.symm

theorem MstInput.range {G : Lil Int} {parents : BVec Nat} (h : MstInput t n G parents) (u v : Nat) (e : Edge G.get u v) :
    u < n ∧ v < n := by
  have := edge_lt h.graph e
  rw [h.rows, h.cols] at this
  exact this

/-- **C91** The weight does not depend on the numbering of the vertices, nor on which of them
the search starts at. -/
theorem C91_renumbered {G G' : Lil Int} {parents parents' : BVec Nat} (R : Renumbering n σ τ) (h : MstInput t n G parents)
    (h' : MstInput t' n G' parents') (hm : MovedMat n σ G.get G'.get) :
    ∃ w r r', mst n t ov G parents = .ok (w, r) ∧ mst n t' ov' G' parents' = .ok (w, r') := by
  obtain ⟨w, r, P, e, hP⟩ := h.run ov
  obtain ⟨w', r', P', e', hP'⟩ := h'.run ov'
  have h1 := tree_moved R h.vertices h.range hm hP.tree
  have h2 := tree_moved (renumbering_back R) h.vertices h'.range (movedMat_back R hm) hP'.tree
  have h3 := hP'.least _ h1.1
  have h4 := hP.least _ h2.1
  have h5 := hP.total
  have h6 := hP'.total
  obtain rfl : w' = w := by omega
  exact ⟨_, r, r', e, e'⟩

/-! ### other weights -/

theorem weight_rescaled {W W' : Mat Int} {a b : Int} (hm : ∀ u v, W' u v = (W u v).map (a * · + b)) {F : List (Nat × Nat)}
    (h : ∀ e ∈ F, Edge W e.1 e.2) : weight W' F = a * weight W F + b * F.length := by
  induction F with
  | nil => simp [weight]
  | cons e F ih =>
    rw [weight_cons, weight_cons, ih (fun e he => h e (List.mem_cons_of_mem _ he)), hm]
    have := h e List.mem_cons_self
    unfold Edge at this
    cases e1 : W e.1 e.2 with
    | none => rw [e1] at this; exact absurd this (by simp)
    | some x =>
      simp only [Option.map_some, Option.getD_some, List.length_cons, Int.natCast_add, Int.mul_add]
      grind

theorem tree_rescaled {W W' : Mat Int} {a b : Int} (hm : ∀ u v, W' u v = (W u v).map (a * · + b)) {F : List (Nat × Nat)} :
    IsSpanningTree n W' F ↔ IsSpanningTree n W F := by
  have : ∀ u v, Edge W' u v ↔ Edge W u v := fun u v => by unfold Edge; rw [hm]; simp
  exact ⟨fun h => ⟨fun e he => (this _ _).1 (h.edges e he), h.size, h.connected⟩,
    fun h => ⟨fun e he => (this _ _).2 (h.edges e he), h.size, h.connected⟩⟩

/-- **C91** Multiplying all weights by a number that is not negative and adding a number to
them changes the weight of the tree as it changes that of every other tree. -/
theorem C91_rescaled {G G' : Lil Int} {parents parents' : BVec Nat} (h : MstInput t n G parents) (h' : MstInput t' n G' parents')
    {a b : Int} (ha : 0 ≤ a) (hm : ∀ u v, G'.get u v = (G.get u v).map (a * · + b)) :
    ∃ w r r', mst n t ov G parents = .ok (w, r) ∧ mst n t' ov' G' parents' = .ok (a * w + b * ((n - 1 : Nat) : Int), r') := by
  obtain ⟨w, r, P, e, hP⟩ := h.run ov
  obtain ⟨w', r', P', e', hP'⟩ := h'.run ov'
  have h1 := (tree_rescaled hm).1 hP'.tree
  have h2 := hP'.least _ ((tree_rescaled hm).2 hP.tree)
  have h3 := hP.least _ h1
  have h4 := weight_rescaled hm hP.tree.edges
  have h5 := weight_rescaled hm h1.edges
  have l1 : P.length = n - 1 := by have := hP.tree.size; omega
  have l2 : P'.length = n - 1 := by have := hP'.tree.size; omega
  rw [l1] at h4
  rw [l2] at h5
  have h6 : a * w ≤ a * weight G.get P' := Int.mul_le_mul_of_nonneg_left h3 ha
  have h7 := hP.total
  have h8 := hP'.total
  rw [← h7] at h4
  obtain rfl : w' = a * w + b * ((n - 1 : Nat) : Int) := by omega
  exact ⟨w, r, r', e, e'⟩

/-- **C91** More edges and smaller weights do not make the tree heavier. -/
theorem C91_monotone {G G' : Lil Int} {parents parents' : BVec Nat} (h : MstInput t n G parents) (h' : MstInput t' n G' parents')
    (hm : ∀ u v x, G.get u v = some x → ∃ y, G'.get u v = some y ∧ y ≤ x) :
    ∃ w r w' r', mst n t ov G parents = .ok (w, r) ∧ mst n t' ov' G' parents' = .ok (w', r') ∧ w' ≤ w := by
  obtain ⟨w, r, P, e, hP⟩ := h.run ov
  obtain ⟨w', r', P', e', hP'⟩ := h'.run ov'
  refine ⟨w, r, w', r', e, e', ?_⟩
  have key : ∀ u v, Edge G.get u v → Edge G'.get u v ∧ (G'.get u v).getD 0 ≤ (G.get u v).getD 0 := by
    intro u v e
    unfold Edge at *
    obtain ⟨x, hx⟩ := Option.isSome_iff_exists.1 e
    obtain ⟨y, hy, hle⟩ := hm u v x hx
    rw [hx, hy]
    exact ⟨rfl, hle⟩
  have hw : ∀ F : List (Nat × Nat), (∀ e ∈ F, Edge G.get e.1 e.2) → weight G'.get F ≤ weight G.get F := by
    intro F hF
    induction F with
    | nil => exact Int.le_refl _
    | cons e F ih =>
      rw [weight_cons, weight_cons]
      have h1 := ih fun e he => hF e (List.mem_cons_of_mem _ he)
      have h2 := (key _ _ (hF e List.mem_cons_self)).2
      omega
  have h1 := hP'.least P ⟨fun e he => (key _ _ (hP.tree.edges e he)).1, hP.tree.size, hP.tree.connected⟩
  have h2 := hw P hP.tree.edges
  have h3 := hP.total
  omega

/-! ### cuts -/

theorem linked_erase {F : List (Nat × Nat)} {a b c : Nat} {e : Nat × Nat} (he : e = (a, b) ∨ e = (b, a)) (h : Linked F a c) :
    Linked (F.erase e) a c ∨ Linked (F.erase e) b c := by
  induction h with
  | refl => exact .inl .refl
  | @step c d _ hcd ih =>
    by_cases hq : (c, d) = e ∨ (d, c) = e
    · have : d = a ∨ d = b := by
        rcases he with rfl | rfl <;> rcases hq with h | h <;> cases h <;> simp
      rcases this with rfl | rfl
      · exact .inl .refl
      · exact .inr .refl
    · rw [not_or] at hq
      have : (c, d) ∈ F.erase e ∨ (d, c) ∈ F.erase e :=
        hcd.imp (fun h => (List.mem_erase_of_ne hq.1).2 h) (fun h => (List.mem_erase_of_ne hq.2).2 h)
      exact ih.imp (·.step this) (·.step this)

/-- The first edge that leaves `S`. -/
theorem first_crossing {S : Nat → Prop} {F : List (Nat × Nat)} {x y : Nat} (hx : S x) (hy : ¬ S y) (h : Linked F x y) :
    ∃ a b e, e ∈ F ∧ (e = (a, b) ∨ e = (b, a)) ∧ S a ∧ ¬ S b ∧ Linked (F.erase e) x a := by
  suffices H : ∀ y, Linked F x y →
      (∃ a b e, e ∈ F ∧ (e = (a, b) ∨ e = (b, a)) ∧ S a ∧ ¬ S b ∧ Linked (F.erase e) x a) ∨
      S y ∧ ∀ e : Nat × Nat, (S e.1 ↔ ¬ S e.2) → Linked (F.erase e) x y by
    rcases H y h with h | h
    · exact h
    · exact absurd h.1 hy
  intro y h
  induction h with
  | refl => exact .inr ⟨hx, fun _ _ => .refl⟩
  | @step b c _ hbc ih =>
    rcases ih with ih | ⟨hb, ih⟩
    · exact .inl ih
    · by_cases hc : S c
      · refine .inr ⟨hc, fun e he => (ih e he).step (hbc.imp (fun h => (List.mem_erase_of_ne ?_).2 h) (fun h => (List.mem_erase_of_ne ?_).2 h))⟩
        · rintro rfl; exact he.1 hb hc
        · rintro rfl; exact he.1 hc hb
      · rcases hbc with h | h
        · exact .inl ⟨b, c, _, h, .inl rfl, hb, hc, ih _ ⟨fun _ => hc, fun _ => hb⟩⟩
        · exact .inl ⟨b, c, _, h, .inr rfl, hb, hc, ih _ ⟨fun h => absurd h hc, fun h => absurd hb h⟩⟩

/-- An edge that crosses the boundary of `S` can take the place of an edge that does. -/
theorem swap_crossing {S : Nat → Prop} {F : List (Nat × Nat)} {x y : Nat} (hx : S x) (hy : ¬ S y) (h : Linked F x y) :
    ∃ e ∈ F, (S e.1 ↔ ¬ S e.2) ∧ Linked ((x, y) :: F.erase e) e.1 e.2 := by
  obtain ⟨k, hk⟩ : ∃ k, F.length = k := ⟨_, rfl⟩
  induction k generalizing F with
  | zero =>
    obtain ⟨a, b, e, he, -⟩ := first_crossing hx hy h
    rw [List.length_eq_zero_iff] at hk
    rw [hk] at he; cases he
  | succ k ih =>
    obtain ⟨a, b, e, he, hab, ha, hb, hxa⟩ := first_crossing hx hy h
    have hcr : S e.1 ↔ ¬ S e.2 := by
      rcases hab with rfl | rfl
      · exact ⟨fun _ => hb, fun _ => ha⟩
      · exact ⟨fun h => absurd h hb, fun h => absurd ha h⟩
    have sub : ∀ f ∈ F.erase e, f ∈ (x, y) :: F.erase e := fun f hf => List.mem_cons_of_mem _ hf
    have hFa : Linked F a y := (Linked.mono (fun f hf => List.mem_of_mem_erase hf) hxa).symm.trans h
    rcases linked_erase hab hFa with hay | hby
    · obtain ⟨f, hf, hfc, hl⟩ := ih (hxa.trans hay) (by rw [List.length_erase_of_mem he]; omega)
      refine ⟨f, List.mem_of_mem_erase hf, hfc, hl.mono fun g hg => ?_⟩
      rcases List.mem_cons.1 hg with rfl | hg
      · exact List.mem_cons_self
      · rw [List.erase_comm] at hg
        exact List.mem_cons_of_mem _ (List.mem_of_mem_erase hg)
    · have hl : Linked ((x, y) :: F.erase e) a b :=
        ((hxa.mono sub).symm.step (c := y) (.inl List.mem_cons_self)).trans (hby.mono sub).symm
      refine ⟨e, he, hcr, ?_⟩
      rcases hab with rfl | rfl
      · exact hl
      · exact hl.symm

theorem IsMst.cut {W : Mat Int} {w : Int} {r : BVec Nat} {P : List (Nat × Nat)} (h : IsMst n W w r P) {S : Nat → Prop}
    {x y : Nat} (hxn : x < n) (hyn : y < n) (hx : S x) (hy : ¬ S y) {c : Int} (hc : W x y = some c) :
    ∃ e ∈ P, (S e.1 ↔ ¬ S e.2) ∧ ∃ c', W e.1 e.2 = some c' ∧ c' ≤ c := by
  obtain ⟨e, he, hcr, hl⟩ := swap_crossing hx hy ((h.tree.connected x hxn).symm.trans (h.tree.connected y hyn))
  have hT : IsSpanningTree n W ((x, y) :: P.erase e) := by
    refine ⟨?_, ?_, ?_⟩
    · intro f hf
      rcases List.mem_cons.1 hf with rfl | hf
      · unfold Edge; rw [hc]; rfl
      · exact h.tree.edges f (List.mem_of_mem_erase hf)
    · have h1 := h.tree.size
      have h2 := List.length_pos_of_mem he
      rw [List.length_cons, List.length_erase_of_mem he]
      omega
    · intro v hv
      have := h.tree.connected v hv
      clear hv
      induction this with
      | refl => exact .refl
      | @step b d _ hbd ih =>
        by_cases hq : (b, d) = e ∨ (d, b) = e
        · rcases hq with rfl | rfl
          · exact ih.trans hl
          · exact ih.trans hl.symm
        · rw [not_or] at hq
          exact ih.step (hbd.imp (fun h => List.mem_cons_of_mem _ ((List.mem_erase_of_ne hq.1).2 h))
            (fun h => List.mem_cons_of_mem _ ((List.mem_erase_of_ne hq.2).2 h)))
  have h1 := h.least _ hT
  have h2 := h.total
  rw [weight_erase W he] at h2
  rw [weight_cons] at h1
  have h3 := h.tree.edges e he
  unfold Edge at h3
  obtain ⟨c', hc'⟩ := Option.isSome_iff_exists.1 h3
  refine ⟨e, he, hcr, c', hc', ?_⟩
  rw [hc'] at h2
  simp only [hc, Option.getD_some] at h1 h2
  omega

/-- **C91** For every set of vertices, and every edge of the graph that leaves it, an edge of
the tree that leaves or enters it is not heavier: of the edges across a cut, the tree has one of
the smallest. -/
theorem C91_cut {G : Lil Int} {parents : BVec Nat} (h : MstInput t n G parents) :
    ∃ w r, mst n t ov G parents = .ok (w, r) ∧ ∀ (S : Nat → Prop) x y c, S x → ¬ S y → G.get x y = some c →
      ∃ u v c', r.get v = some u ∧ (S u ↔ ¬ S v) ∧ G.get u v = some c' ∧ c' ≤ c := by
  obtain ⟨w, r, P, e, hP⟩ := h.run ov
  refine ⟨w, r, e, fun S x y c hx hy hc => ?_⟩
  have hlt := h.range x y (by unfold Edge; rw [hc]; rfl)
  obtain ⟨e, he, h1, c', h2, h3⟩ := hP.cut hlt.1 hlt.2 hx hy hc
  exact ⟨e.1, e.2, c', (hP.parent _ _).1 he, h1, h2, h3⟩

/-- **C91** Two vertices are connected by edges of weight at most `b` exactly if they are
connected by such edges of the tree: the tree has, between any two vertices, a path whose heaviest
edge is as light as possible. -/
theorem C91_bottleneck {G : Lil Int} {parents : BVec Nat} (h : MstInput t n G parents) :
    ∃ w r, mst n t ov G parents = .ok (w, r) ∧ ∀ (b : Int) (s v : Nat),
      Reachable (fun x y => ∃ c, G.get x y = some c ∧ c ≤ b) (· = s) v ↔
      Reachable (fun x y => (r.get y = some x ∨ r.get x = some y) ∧ ∃ c, G.get x y = some c ∧ c ≤ b) (· = s) v := by
  obtain ⟨w, r, e, hcut⟩ := C91_cut (ov := ov) h
  refine ⟨w, r, e, fun b s v => ⟨?_, ?_⟩⟩
  · rintro ⟨k, hk⟩
    induction k generalizing v with
    | zero => exact ⟨0, hk⟩
    | succ k ih =>
      obtain ⟨u, hu, c, hc, hcb⟩ := hk
      refine Classical.byContradiction fun hv => ?_
      obtain ⟨x, y, c', h1, h2, h3, h4⟩ := hcut (Reachable (fun x y => (r.get y = some x ∨ r.get x = some y) ∧
        ∃ c, G.get x y = some c ∧ c ≤ b) (· = s)) u v c (ih u hu) hv hc
      by_cases hx : Reachable (fun x y => (r.get y = some x ∨ r.get x = some y) ∧
          ∃ c, G.get x y = some c ∧ c ≤ b) (· = s) x
      · obtain ⟨j, hj⟩ := hx
        exact h2.1 ⟨j, hj⟩ ⟨j + 1, x, hj, .inl h1, c', h3, by omega⟩
      · have hy := Classical.byContradiction fun hy => hx (h2.2 hy)
        obtain ⟨j, hj⟩ := hy
        exact hx ⟨j + 1, y, hj, .inr h1, c', by rw [h.symm]; exact h3, by omega⟩
  · rintro ⟨k, hk⟩
    refine ⟨k, ?_⟩
    induction k generalizing v with
    | zero => exact hk
    | succ k ih =>
      obtain ⟨u, hu, -, hc⟩ := hk
      exact ⟨u, ih u hu, hc⟩

/-! ### examples -/

namespace Ex

def mgTree : BVec Nat := ⟨4, 0, [0, 0, 0, 0], [false, false, false, false]⟩

theorem input4 {G : Lil Int} (hG : G.WF) (hr : G.nrows = 4) (hc : G.ncols = 4)
    (hs : ∀ u, u < G.nrows → ∀ v, v < G.nrows → G.get u v = G.get v u)
    (hcon : ∀ v, v < 4 → Reachable (Edge G.get) (· = 0) v)
    (hw : ∀ r ∈ G.rows, ∀ p ∈ r, -(20 : Nat) ≤ p.2 ∧ p.2 ≤ (20 : Nat)) : MstInput .i32 4 G mgTree where
  vertices := by decide
  graph := hG
  rows := hr
  cols := hc
  symm := symm_chk hG (hr.trans hc.symm) hs
  connected := hcon
  result := ⟨by decide, by decide, by decide⟩
  size := rfl
  fits := by
    refine TreesFit.of_small 20 (fun u v w h => get_chk hG (P := fun w => -(20 : Nat) ≤ w ∧ w ≤ (20 : Nat)) hw h) ?_
    intro x h1 h2
    have h1 : (-80 : Int) ≤ x := h1
    have h2 : x ≤ (80 : Int) := h2
    constructor
    · show (-2147483648 : Int) ≤ x; omega
    · show x ≤ (2147483647 : Int); omega

theorem star4 {G : Lil Int} (h1 : Edge G.get 0 1) (h2 : Edge G.get 0 2) (h3 : Edge G.get 1 3) (v : Nat) (hv : v < 4) :
    Reachable (Edge G.get) (· = 0) v := by
  match v, hv with
  | 0, _ => exact ⟨0, rfl⟩
  | 1, _ => exact ⟨1, 0, rfl, h1⟩
  | 2, _ => exact ⟨1, 0, rfl, h2⟩
  | 3, _ => exact ⟨2, 1, ⟨0, rfl, h1⟩, h3⟩

theorem mg_input : MstInput .i32 4 mg mgTree :=
  input4 (Lil.wf_chk (by decide)) rfl rfl (by decide) (star4 rfl rfl rfl) (by decide)

/-- The same graph with the vertices numbered from the other end. -/
def mgBack : Lil Int := ⟨4, 4, 8, [[(2, -5)], [(2, 2), (3, 1)], [(0, -5), (1, 2), (3, 4)], [(1, 1), (2, 4)]]⟩

theorem mgBack_input : MstInput .i32 4 mgBack mgTree :=
  input4 (Lil.wf_chk (by decide)) rfl rfl (by decide) (fun v hv => by
    match v, hv with
    | 0, _ => exact ⟨0, rfl⟩
    | 1, _ => exact ⟨2, 2, ⟨0, rfl, rfl⟩, rfl⟩
    | 2, _ => exact ⟨1, 0, rfl, rfl⟩
    | 3, _ => exact ⟨2, 2, ⟨0, rfl, rfl⟩, rfl⟩) (by decide)

/-- The graph with `3 * w + 1` for the weight `w`. -/
def mgScaled : Lil Int := ⟨4, 4, 8, [[(1, 13), (2, 4)], [(0, 13), (2, 7), (3, -14)], [(0, 4), (1, 7)], [(1, -14)]]⟩

theorem mgScaled_input : MstInput .i32 4 mgScaled mgTree :=
  input4 (Lil.wf_chk (by decide)) rfl rfl (by decide) (star4 rfl rfl rfl) (by decide)

/-- The graph with an edge from 2 to 3, and a lighter edge from 0 to 1. -/
def mgMore : Lil Int :=
  ⟨4, 4, 10, [[(1, 0), (2, 1)], [(0, 0), (2, 2), (3, -5)], [(0, 1), (1, 2), (3, 7)], [(1, -5), (2, 7)]]⟩

theorem mgMore_input : MstInput .i32 4 mgMore mgTree :=
  input4 (Lil.wf_chk (by decide)) rfl rfl (by decide) (star4 rfl rfl rfl) (by decide)

end Ex

open Ex in
example : ∃ w r r', mst 4 .i32 (fun _ _ => 0) mg mgTree = .ok (w, r) ∧ mst 4 .i32 (fun _ _ => 0) mgBack mgTree = .ok (w, r') :=
  C91_renumbered (σ := fun v => 3 - v) (τ := fun v => 3 - v) ⟨fun v h => by omega, fun v h => by omega⟩ mg_input mgBack_input
    (fun u v hu hv => (show ∀ u, u < 4 → ∀ v, v < 4 → mgBack.get (3 - u) (3 - v) = mg.get u v by decide) u hu v hv)

open Ex in
example : ∃ w r r', mst 4 .i32 (fun _ _ => 0) mg mgTree = .ok (w, r) ∧
    mst 4 .i32 (fun _ _ => 0) mgScaled mgTree = .ok (3 * w + 1 * ((4 - 1 : Nat) : Int), r') :=
  C91_rescaled mg_input mgScaled_input (by decide) fun u v => by
    by_cases h : u < 4 ∧ v < 4
    · exact (show ∀ u, u < 4 → ∀ v, v < 4 → mgScaled.get u v = (mg.get u v).map (3 * · + 1) by decide) u h.1 v h.2
    · rw [mg_input.graph.toWFr.get_none (by show 4 ≤ u ∨ 4 ≤ v; omega), mgScaled_input.graph.toWFr.get_none (by show 4 ≤ u ∨ 4 ≤ v; omega)]
      rfl

open Ex in
example : ∃ w r w' r', mst 4 .i32 (fun _ _ => 0) mg mgTree = .ok (w, r) ∧ mst 4 .i32 (fun _ _ => 0) mgMore mgTree = .ok (w', r') ∧
    w' ≤ w :=
  C91_monotone mg_input mgMore_input fun u v x h => by
    have hlt := mg_input.range u v (by unfold Edge; rw [h]; rfl)
    obtain ⟨y, hy, hle⟩ := (show ∀ u, u < 4 → ∀ v, v < 4 → ∀ x ∈ mg.get u v, ∃ y ∈ mgMore.get u v, y ≤ x by decide) u hlt.1 v hlt.2 x
      (by rw [h]; rfl)
    exact ⟨y, hy, hle⟩

example := C91_cut (ov := fun _ _ => 0) Ex.mg_input
example := C91_bottleneck (ov := fun _ _ => 0) Ex.mg_input

end GBTL
