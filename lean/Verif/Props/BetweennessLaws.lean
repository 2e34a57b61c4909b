import Verif.Lemmas.BetweennessLaws
import Verif.Props.Betweenness
import Verif.Props.BetweennessV
import Verif.Props.EdgeBetweenness
/-
C88: betweenness centrality obeys its laws. The statements relate the results of the
functions to one another and to lengths of paths; no definition of betweenness occurs in
them.
-/
namespace GBTL
open Spec

/-- The four unlimited batch functions all return `l`. -/
def BcGives {α : Type} (fuel : Nat) (ov : Int → Int → Int) (gI : α → Int) (gF : α → Rat) (A : Lil α) (s : List Nat)
    (l : List Rat) : Prop :=
  bcBatch fuel ov gI gF A s = .ok l ∧ bcAlt fuel ov gI gF A s = .ok l ∧
    bcAltTrans fuel ov gI gF A s = .ok l ∧ bcOld fuel ov gI gF A s = .ok l

section
variable {α : Type} {gI : α → Int} {gF : α → Rat} {A A' : Lil α} {s s' : List Nat} {ov : Int → Int → Int} {fuel : Nat}

theorem bcGives (h : BcArgs gI gF A s) (hf : A.ncols < fuel) :
    BcGives fuel ov gI gF A s ((List.range A.ncols).map (betweenness A.ncols (edges A) s)) :=
  ⟨C56_betweenness_batch h hf, C56_betweenness_batch_alt h (Nat.le_of_lt hf),
    C56_betweenness_batch_alt_trans h (Nat.le_of_lt hf), C57_betweenness_batch_old h (Nat.le_of_lt hf)⟩

theorem at_range {β : Type} {n v : Nat} (hv : v < n) (f : Nat → β) : ((List.range n).map f)[v]? = some (f v) := by
  rw [List.getElem?_map, List.getElem?_range hv]
  rfl

/-- **C88**, totals: the results add up to the number of vertices strictly inside a
shortest path, taken over all sources and all targets. -/
theorem C88_total (h : BcArgs gI gF A s) (hf : A.ncols < fuel) :
    ∃ l, BcGives fuel ov gI gF A s l ∧ l.length = A.nrows ∧
      l.sum = ((s.map fun x => ((List.range A.nrows).map (inner A.nrows (edges A) x)).sum).sum : Nat) := by
  refine ⟨_, bcGives h hf, by simp [h.square], ?_⟩
  rw [h.square, betweenness_total (edges_in h.sh) (fun x hx => h.square ▸ h.sources x hx)]

/-- **C88**, bounds: no vertex has less than zero or more than `n - 2` for each source. -/
theorem C88_bounds (h : BcArgs gI gF A s) (hf : A.ncols < fuel) :
    ∃ l, BcGives fuel ov gI gF A s l ∧ ∀ x ∈ l, 0 ≤ x ∧ x ≤ (s.length * (A.nrows - 2) : Nat) := by
  refine ⟨_, bcGives h hf, fun x hx => ?_⟩
  obtain ⟨v, hv, rfl⟩ := List.mem_map.1 hx
  have hv := List.mem_range.1 hv
  refine ⟨sum_nonneg fun x _ => dependency_nonneg x v, ?_⟩
  rw [h.square]
  exact betweenness_le (edges_in h.sh) (fun x hx => h.square ▸ h.sources x hx) hv

/-- **C88**: the result of a vertex is positive exactly if it is strictly inside a
shortest path from a source. -/
theorem C88_positive (h : BcArgs gI gF A s) (hf : A.ncols < fuel) :
    ∃ l, BcGives fuel ov gI gF A s l ∧ ∀ v, v < A.nrows → ∃ b, l[v]? = some b ∧
      (0 < b ↔ ∃ x ∈ s, ∃ t, t < A.nrows ∧ v ≠ x ∧ v ≠ t ∧ ∃ p ∈ shortestPaths A.nrows (edges A) x t, v ∈ p) := by
  refine ⟨_, bcGives h hf, fun v hv => ⟨_, at_range (h.square ▸ hv) _, ?_⟩⟩
  rw [h.square]
  exact betweenness_pos s v

/-- **C88**: a vertex without an edge in, or without an edge out, has zero. -/
theorem C88_end (h : BcArgs gI gF A s) (hf : A.ncols < fuel) {v : Nat} (hv : v < A.nrows)
    (he : (∀ u, A.get u v = none) ∨ (∀ w, A.get v w = none)) :
    ∃ l, BcGives fuel ov gI gF A s l ∧ l[v]? = some 0 := by
  refine ⟨_, bcGives h hf, (at_range (h.square ▸ hv) _).trans ?_⟩
  congr 1
  have h1 : 0 ≤ betweenness A.ncols (edges A) s v := sum_nonneg fun x _ => dependency_nonneg x v
  have h2 : ¬ 0 < betweenness A.ncols (edges A) s v := by
    intro hp
    obtain ⟨x, hx, t, _, n1, n2, p, hp, hvp⟩ := (betweenness_pos s v).1 hp
    obtain ⟨⟨u, a⟩, w, b⟩ := inside (edges_in h.sh) (h.square ▸ h.sources x hx) n1 n2 hp hvp
    unfold edges at a b
    rcases he with he | he
    · rw [he u] at a; cases a
    · rw [he w] at b; cases b
  grind

/-- **C88**, batches: the results for two batches of sources add up to the result for
both together. -/
theorem C88_batches (h : BcArgs gI gF A s) (h' : BcArgs gI gF A s') (hf : A.ncols < fuel) :
    ∃ l l' m, BcGives fuel ov gI gF A s l ∧ BcGives fuel ov gI gF A s' l' ∧ BcGives fuel ov gI gF A (s ++ s') m ∧
      m = List.zipWith (· + ·) l l' := by
  have h2 : BcArgs gI gF A (s ++ s') :=
    ⟨h.wf, h.square, h.ones, by simp [h.some_source], fun x hx => (List.mem_append.1 hx).elim (h.sources x) (h'.sources x),
      fun x hx => (List.mem_append.1 hx).elim (h.paths x) (h'.paths x)⟩
  refine ⟨_, _, _, bcGives h hf, bcGives h' hf, bcGives h2 hf, ?_⟩
  rw [List.zipWith_map, List.zipWith_self]
  refine List.map_congr_left fun v _ => ?_
  unfold betweenness
  rw [List.map_append, rat_sum_append]

/-- **C88**, numbering: moving the vertices moves the results with them. -/
theorem C88_renumbered {d τ : Nat → Nat} (h : BcArgs gI gF A s) (h' : BcArgs gI gF A' (s.map d)) (hn : A'.nrows = A.nrows)
    (R : Renumbering A.nrows d τ) (hm : MovedMat A.nrows d A.get A'.get) (hf : A.ncols < fuel) :
    ∃ l l', BcGives fuel ov gI gF A s l ∧ BcGives fuel ov gI gF A' (s.map d) l' ∧
      ∀ v, v < A.nrows → l'[d v]? = l[v]? := by
  have e : A'.ncols = A.nrows := h'.square.symm.trans hn
  refine ⟨_, _, bcGives h hf, bcGives h' (by rw [e, h.square]; exact hf), fun v hv => ?_⟩
  rw [at_range (e ▸ (R.there v hv).1), at_range (h.square ▸ hv), e, ← h.square]
  congr 1
  exact betweenness_moved R (fun u w hu hw => by unfold edges; rw [hm u w hu hw]) h.sources hv

/-- **C88**, direction: with all vertices as sources, turning all edges round changes
nothing. -/
theorem C88_reversed (h : BcArgs gI gF A (List.range A.nrows)) (h' : BcArgs gI gF A' (List.range A.nrows))
    (hn : A'.nrows = A.nrows) (hr : ∀ u v, A'.get v u = A.get u v) (hf : A.ncols < fuel) :
    ∃ l, BcGives fuel ov gI gF A (List.range A.nrows) l ∧ BcGives fuel ov gI gF A' (List.range A.nrows) l := by
  have e : A'.ncols = A.nrows := h'.square.symm.trans hn
  have e2 : edges A' = opposite (edges A) := by
    funext u v
    unfold edges opposite
    rw [hr v u]
  refine ⟨_, bcGives h hf, ?_⟩
  have := bcGives (ov := ov) h' (by rw [e, h.square]; exact hf)
  rw [e, e2] at this
  rw [← h.square]
  have e3 : (List.range A.nrows).map (betweenness A.nrows (opposite (edges A)) (List.range A.nrows)) =
      (List.range A.nrows).map (betweenness A.nrows (edges A) (List.range A.nrows)) :=
    List.map_congr_left fun v _ => betweenness_opposite (by have := edges_in h.sh; rwa [← h.square] at this) v
  rw [e3] at this
  exact this

end

/-- **C88**, `vertex_betweenness_centrality`: the same laws for all sources. -/
theorem C88_vertex {A : Lil Rat} (hA : A.WF) (hsq : A.nrows = A.ncols) (hn : 0 < A.nrows)
    (h1 : ∀ u v a, A.get u v = some a → a = 1) {fuel : Nat} (hf : A.nrows ≤ fuel) :
    ∃ l, vbc fuel .rat A = .ok l ∧ l.length = A.nrows ∧
      l.sum = (((List.range A.nrows).map fun x => ((List.range A.nrows).map (inner A.nrows (edges A) x)).sum).sum : Nat) ∧
      (∀ x ∈ l, 0 ≤ x ∧ x ≤ (A.nrows * (A.nrows - 2) : Nat)) ∧
      ∀ v, v < A.nrows → ∃ b, l[v]? = some b ∧
        (0 < b ↔ ∃ x t, x < A.nrows ∧ t < A.nrows ∧ v ≠ x ∧ v ≠ t ∧ ∃ p ∈ shortestPaths A.nrows (edges A) x t, v ∈ p) := by
  have hS : Sh A.nrows A.nrows A := ⟨hA, rfl, hsq.symm⟩
  refine ⟨_, C57_vertex_betweenness hA hsq hn h1 hf, by simp, ?_, ?_, ?_⟩
  · exact betweenness_total (edges_in hS) fun x hx => List.mem_range.1 hx
  · intro x hx
    obtain ⟨v, hv, rfl⟩ := List.mem_map.1 hx
    refine ⟨sum_nonneg fun x _ => dependency_nonneg x v, ?_⟩
    have := betweenness_le (edges_in hS) (fun x hx => List.mem_range.1 hx) (List.mem_range.1 hv)
    rwa [List.length_range] at this
  · intro v hv
    refine ⟨_, at_range hv _, (betweenness_pos _ v).trans ?_⟩
    constructor
    · rintro ⟨x, hx, t, ht, h⟩
      exact ⟨x, t, List.mem_range.1 hx, ht, h⟩
    · rintro ⟨x, t, hx, ht, h⟩
      exact ⟨x, List.mem_range.2 hx, t, ht, h⟩

/-- **C88**, `vertex_betweenness_centrality`: turning all edges round changes nothing. -/
theorem C88_vertex_reversed {A A' : Lil Rat} (hA : A.WF) (hA' : A'.WF) (hsq : A.nrows = A.ncols) (hsq' : A'.nrows = A'.ncols)
    (hn : 0 < A.nrows) (hnn : A'.nrows = A.nrows) (h1 : ∀ u v a, A.get u v = some a → a = 1)
    (hr : ∀ u v, A'.get v u = A.get u v) {fuel : Nat} (hf : A.nrows ≤ fuel) :
    ∃ l, vbc fuel .rat A = .ok l ∧ vbc fuel .rat A' = .ok l := by
  have hS : Sh A.nrows A.nrows A := ⟨hA, rfl, hsq.symm⟩
  have e2 : edges A' = opposite (edges A) := by
    funext u v
    unfold edges opposite
    rw [hr v u]
  refine ⟨_, C57_vertex_betweenness hA hsq hn h1 hf, ?_⟩
  rw [C57_vertex_betweenness hA' hsq' (hnn ▸ hn) (fun u v a h => h1 v u a (by rw [← hr v u]; exact h)) (hnn ▸ hf), hnn, e2]
  congr 1
  exact List.map_congr_left fun v _ => betweenness_opposite (edges_in hS) v

/-- **C88**, `edge_betweenness_centrality`: the results of all edges add up to the number
of edges of all shortest paths. -/
theorem C88_edge_total {A : Lil Rat} (hA : A.WF) (hsq : A.nrows = A.ncols)
    (h1 : ∀ u v a, A.get u v = some a → a = 1) (hl : ∀ v, A.get v v = none)
    (hM : ((List.range A.nrows).map (pathCount A.nrows (edges A))).sum ≤ 2147483647) {fuel : Nat} (hf : A.nrows ≤ fuel) :
    ∃ S, ebc fuel .rat A = .ok S ∧
      ((List.range A.nrows).map fun v => ((List.range A.nrows).map fun w => (S.get v w).getD 0).sum).sum =
        (((List.range A.nrows).map fun s => ((List.range A.nrows).map fun t =>
          (shortestPaths A.nrows (edges A) s t).length * pathLength A.nrows (edges A) s t).sum).sum : Nat) := by
  have hS : Sh A.nrows A.nrows A := ⟨hA, rfl, hsq.symm⟩
  have hE := edges_in hS
  obtain ⟨S, e, -, -, -, hg⟩ := C59_edge_betweenness_partial hA hsq h1 hl hM hf
  refine ⟨S, e, ?_⟩
  have e1 : ∀ v w, (S.get v w).getD 0 = (edgeScore A.nrows (edges A) v w : Rat) := by
    intro v w
    rw [hg v w]
    split
    · rfl
    · rename_i h
      have : edgeScore A.nrows (edges A) v w = 0 := by
        unfold edgeScore
        rw [sumTo_eq]
        exact sumTo_eq_zero fun s hs => edgePaths_not hE hs fun hd => h hd.1
      rw [this]
      rfl
  have e2 := edgeScore_total hE
  have e3 : ∀ v, ((List.range A.nrows).map fun w => (S.get v w).getD 0).sum =
      (sumTo A.nrows (fun w => edgeScore A.nrows (edges A) v w) : Nat) := by
    intro v
    rw [rsum_eq, rsum_cast]
    exact rsum_congr fun w _ => e1 v w
  rw [rsum_eq, rsum_congr (fun v _ => e3 v), ← rsum_cast, e2, sumTo_eq]
  congr 1
  exact sumTo_congr fun s _ => (sumTo_eq _ _).symm

/-- **C88**, `edge_betweenness_centrality`: turning all edges round turns the result
round. -/
theorem C88_edge_reversed {A A' : Lil Rat} (hA : A.WF) (hA' : A'.WF) (hsq : A.nrows = A.ncols) (hsq' : A'.nrows = A'.ncols)
    (hnn : A'.nrows = A.nrows) (h1 : ∀ u v a, A.get u v = some a → a = 1) (hl : ∀ v, A.get v v = none)
    (hr : ∀ u v, A'.get v u = A.get u v)
    (hM : ((List.range A.nrows).map (pathCount A.nrows (edges A))).sum ≤ 2147483647) {fuel : Nat} (hf : A.nrows ≤ fuel) :
    ∃ S S', ebc fuel .rat A = .ok S ∧ ebc fuel .rat A' = .ok S' ∧ ∀ v w, S'.get w v = S.get v w := by
  have hS : Sh A.nrows A.nrows A := ⟨hA, rfl, hsq.symm⟩
  have hE := edges_in hS
  have e2 : edges A' = opposite (edges A) := by
    funext u v
    unfold edges opposite
    rw [hr v u]
  have hM' : ((List.range A'.nrows).map (pathCount A'.nrows (edges A'))).sum ≤ 2147483647 := by
    refine Nat.le_trans (Nat.le_of_eq ?_) hM
    rw [hnn, e2, sumTo_eq, sumTo_eq]
    have e3 : ∀ F s, pathCount A.nrows F s = sumTo A.nrows (fun t => (shortestPaths A.nrows F s t).length) :=
      fun F s => sumTo_eq _ _
    rw [sumTo_congr (fun s _ => e3 _ s), sumTo_comm, sumTo_congr (f := fun s => pathCount A.nrows (edges A) s) (fun s _ => e3 _ s)]
    refine sumTo_congr fun s hs => sumTo_congr fun t ht => ?_
    show spc A.nrows (opposite (edges A)) t s = spc A.nrows (edges A) s t
    have hh : hops A.nrows (opposite (edges A)) t s = hops A.nrows (edges A) s t :=
      hops_congr (fun k => cnt_opposite hE k s t)
    cases h : hops A.nrows (edges A) s t with
    | none => rw [spc_none hE hs h, spc_none (opposite_in hE) ht (hh.trans h)]
    | some d => rw [spc_eq hE hs h, spc_eq (opposite_in hE) ht (hh.trans h), cnt_opposite hE]
  obtain ⟨S, e, -, -, -, hg⟩ := C59_edge_betweenness_partial hA hsq h1 hl hM hf
  obtain ⟨S', e', -, -, -, hg'⟩ := C59_edge_betweenness_partial hA' hsq'
    (fun u v a h => h1 v u a (by rw [← hr v u]; exact h)) (fun v => by rw [hr v v]; exact hl v) hM' (hnn ▸ hf)
  refine ⟨S, S', e, e', fun v w => ?_⟩
  rw [hg, hg', hnn, e2, edgeScore_opposite hE]
  rfl

/-! ### Concrete cases -/

namespace Ex88
open Ex56 Ex59

/-- `Ex56.A` with every vertex moved on by one place. -/
def M : Lil Int := Ex56.graph 7 [(1, 2), (1, 3), (2, 4), (3, 4), (4, 5), (2, 2), (6, 0)]

/-- `Ex56.A` with all edges turned round. -/
def R : Lil Int := Ex56.graph 7 [(1, 0), (2, 0), (3, 1), (3, 2), (4, 3), (1, 1), (6, 5)]

theorem entries {α : Type} [DecidableEq α] {A B : Lil α} {n : Nat} (hA : A.WF) (hB : B.WF) (ha : A.nrows = n ∧ A.ncols = n)
    (hb : B.nrows = n ∧ B.ncols = n)
    (h : (List.range n).all (fun u => (List.range n).all fun v => decide (B.get v u = A.get u v)) = true) :
    ∀ u v, B.get v u = A.get u v := by
  intro u v
  by_cases hu : u < n
  · by_cases hv : v < n
    · have := List.all_eq_true.1 (List.all_eq_true.1 h u (List.mem_range.2 hu)) v (List.mem_range.2 hv)
      simpa using this
    · rw [Classical.byContradiction fun hn => hv (hb.1 ▸ (some_lt hB (i := v) (j := u) hn).1),
        show A.get u v = none from Classical.byContradiction fun hn => hv (ha.2 ▸ (some_lt hA (i := u) (j := v) hn).2)]
  · rw [show B.get v u = none from Classical.byContradiction fun hn => hu (hb.2 ▸ (some_lt hB (i := v) (j := u) hn).2),
      show A.get u v = none from Classical.byContradiction fun hn => hu (ha.1 ▸ (some_lt hA (i := u) (j := v) hn).1)]

theorem wfA : Ex56.A.WF := Lil.wf_chk (by decide +kernel)

theorem args {A : Lil Int} {s : List Nat} (hA : A.WF) (hsq : A.nrows = A.ncols)
    (h : ∀ u, u < A.nrows → ∀ v, v < A.ncols → ∀ a ∈ A.get u v, a = 1) (hs : s ≠ []) (hl : ∀ x ∈ s, x < A.nrows)
    (hp : ∀ x ∈ s, pathCount A.nrows (edges A) x ≤ 2 ^ 31 - 1) : BcArgs id (fun a : Int => (a : Rat)) A s :=
  ⟨hA, hsq, stored_ones h hA, hs, hl, hp⟩

theorem argsM : BcArgs id (fun a : Int => (a : Rat)) M ([0, 2, 0].map fun i => (i + 1) % 7) :=
  args (Lil.wf_chk (by decide +kernel)) (by decide +kernel) (by decide +kernel) (by decide) (by decide +kernel) (by decide +kernel)

theorem argsAll : BcArgs id (fun a : Int => (a : Rat)) Ex56.A (List.range Ex56.A.nrows) :=
  args wfA (by decide +kernel) (by decide +kernel) (by decide +kernel) (by decide +kernel) (by decide +kernel)

theorem argsR : BcArgs id (fun a : Int => (a : Rat)) R (List.range Ex56.A.nrows) :=
  args (Lil.wf_chk (by decide +kernel)) (by decide +kernel) (by decide +kernel) (by decide +kernel) (by decide +kernel)
    (by decide +kernel)

/-- From 0 to 3 and 4 there are 1 and 2 vertices in between, from 2 to 4 there is 1. -/
example : ∃ l, BcGives 8 ov id (fun a : Int => (a : Rat)) Ex56.A [0, 2, 0] l ∧ l.sum = 7 := by
  obtain ⟨l, h1, _, h2⟩ := C88_total (ov := ov) (fuel := 8) Ex56.args (by decide +kernel)
  refine ⟨l, h1, h2.trans ?_⟩
  decide +kernel

example : ∃ l, BcGives 8 ov id (fun a : Int => (a : Rat)) Ex56.A [0, 2, 0] l ∧ l[4]? = some 0 :=
  C88_end (fuel := 8) Ex56.args (by decide +kernel) (v := 4) (by decide +kernel) (.inr (fun w => by
    by_cases hw : w < 7
    · exact (show ∀ w, w < 7 → Ex56.A.get 4 w = none by decide +kernel) w hw
    · exact Classical.byContradiction fun hn => hw (some_lt wfA (i := 4) (j := w) hn).2))

example : ∃ l l', BcGives 8 ov id (fun a : Int => (a : Rat)) Ex56.A [0, 2, 0] l ∧
    BcGives 8 ov id (fun a : Int => (a : Rat)) M ([0, 2, 0].map fun i => (i + 1) % 7) l' ∧
    ∀ v, v < 7 → l'[(v + 1) % 7]? = l[v]? :=
  C88_renumbered (fuel := 8) (d := fun i => (i + 1) % 7) (τ := fun i => (i + 6) % 7) Ex56.args argsM (by decide +kernel)
    ⟨by decide +kernel, by decide +kernel⟩ (fun u v hu hv => (show ∀ u, u < 7 → ∀ v, v < 7 → M.get ((u + 1) % 7) ((v + 1) % 7) = Ex56.A.get u v by decide +kernel)
      u hu v hv) (by decide +kernel)

example : ∃ l, BcGives 8 ov id (fun a : Int => (a : Rat)) Ex56.A (List.range Ex56.A.nrows) l ∧
    BcGives 8 ov id (fun a : Int => (a : Rat)) R (List.range Ex56.A.nrows) l :=
  C88_reversed (fuel := 8) argsAll argsR (by decide +kernel)
    (entries (n := 7) wfA argsR.wf (by decide +kernel) (by decide +kernel) (by decide +kernel)) (by decide +kernel)

example : ∃ l l' m, BcGives 8 ov id (fun a : Int => (a : Rat)) Ex56.A [0, 2, 0] l ∧
    BcGives 8 ov id (fun a : Int => (a : Rat)) Ex56.A (List.range Ex56.A.nrows) l' ∧
    BcGives 8 ov id (fun a : Int => (a : Rat)) Ex56.A ([0, 2, 0] ++ List.range Ex56.A.nrows) m ∧
    m = List.zipWith (· + ·) l l' :=
  C88_batches (fuel := 8) Ex56.args argsAll (by decide +kernel)

/-- The graph of `test_bc.cpp` turned round. -/
def B' : List (Nat × Nat) := B.map fun e => (e.2, e.1)

theorem wfB : (graphR 8 B).WF := Lil.wf_chk (by decide +kernel)
theorem wfB' : (graphR 8 B').WF := Lil.wf_chk (by decide +kernel)

theorem turnedB : ∀ u v, (graphR 8 B').get v u = (graphR 8 B).get u v :=
  entries (n := 8) wfB wfB' (by decide +kernel) (by decide +kernel) (by decide +kernel)

example : ∃ l, vbc 8 .rat (graphR 8 B) = .ok l ∧ vbc 8 .rat (graphR 8 B') = .ok l :=
  C88_vertex_reversed wfB wfB' (by decide +kernel) (by decide +kernel) (by decide +kernel) (by decide +kernel)
    (stored_one (by decide +kernel) wfB) turnedB (by decide +kernel)

example : ∃ l, vbc 8 .rat (graphR 8 B) = .ok l ∧ l.length = 8 ∧ l.sum = 21 := by
  obtain ⟨l, h1, h2, h3, _⟩ := C88_vertex wfB (by decide +kernel) (by decide +kernel) (stored_one (by decide +kernel) wfB)
    (fuel := 8) (by decide +kernel)
  refine ⟨l, h1, h2.trans (by decide +kernel), h3.trans ?_⟩
  decide +kernel

example : ∃ S, ebc 8 .rat (graphR 8 B) = .ok S ∧
    ((List.range 8).map fun v => ((List.range 8).map fun w => (S.get v w).getD 0).sum).sum = 94 := by
  obtain ⟨S, h1, h2⟩ := C88_edge_total wfB (by decide +kernel) (stored_one (by decide +kernel) wfB)
    (no_loop (by decide +kernel) wfB) (by decide +kernel) (fuel := 8) (by decide +kernel)
  refine ⟨S, h1, Eq.trans ?_ (h2.trans ?_)⟩
  · rfl
  · decide +kernel

example : ∃ S S', ebc 8 .rat (graphR 8 B) = .ok S ∧ ebc 8 .rat (graphR 8 B') = .ok S' ∧ ∀ v w, S'.get w v = S.get v w :=
  C88_edge_reversed wfB wfB' (by decide +kernel) (by decide +kernel) (by decide +kernel) (stored_one (by decide +kernel) wfB)
    (no_loop (by decide +kernel) wfB) turnedB (by decide +kernel) (by decide +kernel)

end Ex88

end GBTL
