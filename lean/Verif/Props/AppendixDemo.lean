import Verif.Model.AppendixDemo
import Verif.Props.Homework
import Verif.Props.AppendixBfs
import Verif.Props.BetweennessApp
import Verif.Props.BfsDemo
import Verif.Props.LevelDemo
/-
C116: the appendix examples.
-/
namespace GBTL
open Spec

/-- All edges are between nodes, and the nodes can be numbered by `unsigned int`. -/
structure ExGraph.Ok (g : ExGraph) : Prop where
  edges : ∀ e ∈ g.edges, e.1 < g.n ∧ e.2 < g.n
  small : g.n < 2 ^ 32

/-- There is an edge from `u` to `v`. -/
def ExGraph.E (g : ExGraph) (u v : Nat) : Prop := (u, v) ∈ g.edges

/-- The same as a function with a result. -/
def ExGraph.Eb (g : ExGraph) (u v : Nat) : Bool := decide ((u, v) ∈ g.edges)

/-- These are levels from `s`: one plus the number of edges, and nothing where there is no way. -/
structure ExGraph.Levels (g : ExGraph) (s : Nat) (a : Nat → Option Nat) : Prop where
  level : ∀ v d, a v = some d ↔ 0 < d ∧ HopDist g.E (fun u => u = s) v (d - 1)
  no_way : ∀ v, a v = none ↔ ¬ Reachable g.E (fun u => u = s) v

/-- These are parents on the way from `s`: for every other node that can be reached the smallest-numbered neighbour one edge closer. -/
structure ExGraph.Parents (g : ExGraph) (s : Nat) (p : Nat → Option Nat) : Prop where
  start : p s = some s
  parent : ∀ v, v ≠ s → Reachable g.E (fun u => u = s) v → ∃ q, p v = some q ∧ IsParent g.E (fun u => u = s) v q
  no_way : ∀ v, ¬ Reachable g.E (fun u => u = s) v → p v = none

/-- These are the betweenness centralities relative to `src`. Nothing stored counts as 0. -/
def ExGraph.Centrality (g : ExGraph) (src : List Nat) (c : BVec Rat) : Prop :=
  c.size = g.n ∧ ∀ v, v < g.n → (c.get v).getD 0 = betweenness g.n g.Eb src v

theorem ones_graph {g : ExGraph} (hg : g.Ok) : ∃ G, builtFrom g.n (g.edges.map fun e => (e.1, e.2, 1)) = .ok G ∧ G.WF ∧ G.nrows = g.n ∧
    G.ncols = g.n ∧ (∀ u v x, G.get u v = some x → x = 1) ∧ Edge G.get = g.E ∧ edges G = g.Eb := by
  obtain ⟨G, e, g1, g2, g3, g4⟩ := builtFrom_ones g.edges hg.edges
  refine ⟨G, e, g1, g2, g3, ?_, ?_, ?_⟩
  · intro u v x hx
    rw [g4] at hx
    by_cases hm : (u, v) ∈ g.edges
    · rw [if_pos hm] at hx; exact (Option.some.inj hx).symm
    · rw [if_neg hm] at hx; cases hx
  · funext a b
    apply propext
    unfold Edge ExGraph.E
    rw [g4]
    by_cases hm : (a, b) ∈ g.edges
    · rw [if_pos hm]; exact ⟨fun _ => hm, fun _ => rfl⟩
    · rw [if_neg hm]; exact ⟨fun e => (by cases e), fun e => absurd e hm⟩
  · funext a b
    unfold edges ExGraph.Eb
    rw [g4]
    by_cases hm : (a, b) ∈ g.edges
    · rw [if_pos hm]; simp [hm]
    · rw [if_neg hm]; simp [hm]

/-- **C116** B.1 and B.2 both give the levels, for every graph and every start. -/
theorem C116_levels {g : ExGraph} (hg : g.Ok) {s : Nat} (hs : s < g.n) {fuel : Nat} (hf : g.n ≤ fuel) :
    ∃ a b, exampleB1 fuel g.n g.edges s = .ok a ∧ exampleB2 fuel g.n g.edges s = .ok b ∧ g.Levels s a.get ∧
      g.Levels s b.get := by
  obtain ⟨G, e, g1, g2, g3, g4, g5, -⟩ := ones_graph hg
  obtain ⟨w, ew, w1, w2, w3⟩ := BVec.new_spec (α := Nat) (n := g.n) (by omega)
  have ht : ∀ u v x, G.get u v = some x → (fun x => decide (x ≠ 0)) x = true := by
    intro u v x hx; rw [g4 u v x hx]; rfl
  obtain ⟨a, e1, -, -, a1, a2⟩ := C55_level_B1 (fun x => decide (x ≠ 0)) G s ixLev w g1 (g2.trans g3.symm) (by omega) ht w1 (w2.trans g2.symm) w3
    (by rw [g2]; exact ixLev_fits hg.small) fuel (by omega)
  obtain ⟨b, e2, -, -, b1, b2⟩ := C55_level_B2 (fun x => decide (x ≠ 0)) G s ixLev w g1 (g2.trans g3.symm) (by omega) ht w1 (w2.trans g2.symm) w3
    (by rw [g2]; exact ixLev_fits hg.small) fuel (by omega)
  rw [g5] at a1 a2 b1 b2
  have key : ∀ c : BVec Nat, (∀ v d, HopDist g.E (fun u => u = s) v d → c.get v = some (d + 1)) →
      (∀ v, ¬ Reachable g.E (fun u => u = s) v → c.get v = none) → g.Levels s c.get := by
    intro c c1 c2
    refine ⟨fun v d => ⟨fun hc => ?_, fun ⟨h0, hd⟩ => ?_⟩, fun v => ⟨fun hc hv => ?_, c2 v⟩⟩
    · by_cases hv : Reachable g.E (fun u => u = s) v
      · obtain ⟨d', hd⟩ := hopDist_of_reachable hv
        rw [c1 v d' hd] at hc
        have : d' + 1 = d := Option.some.inj hc
        subst this
        exact ⟨by omega, hd⟩
      · rw [c2 v hv] at hc; cases hc
    · rw [c1 v _ hd]
      congr 1
      omega
    · obtain ⟨d', hd⟩ := hopDist_of_reachable hv
      rw [c1 v d' hd] at hc
      cases hc
  refine ⟨a, b, ?_, ?_, key a a1 a2, key b b1 b2⟩
  · unfold exampleB1; rw [e, ew]; exact e1
  · unfold exampleB2; rw [e, ew]; exact e2

/-- **C116** B.3 prints for every node that can be reached the smallest-numbered neighbour one edge closer to the start. -/
theorem C116_parents {g : ExGraph} (hg : g.Ok) {s : Nat} (hs : s < g.n) {fuel : Nat} (hf : g.n ≤ fuel) :
    ∃ p, exampleB3 fuel g.n g.edges s = .ok p ∧ g.Parents s p.get := by
  obtain ⟨G, e, g1, g2, g3, g4, g5, -⟩ := ones_graph hg
  obtain ⟨w, ew, w1, w2, w3⟩ := BVec.new_spec (α := Nat) (n := g.n) (by omega)
  obtain ⟨p, e1, -, -, p1, p2, p3⟩ := C55_parent_B3 G s w g1 (g2.trans g3.symm) (by omega) w1 (w2.trans g2.symm) fuel (by omega)
  rw [g5] at p2 p3
  refine ⟨p, ?_, ⟨p1, fun v hv hr => p2 v hr hv, p3⟩⟩
  unfold exampleB3; rw [e, ew]; exact e1

theorem bc_args {g : ExGraph} {G : Lil Nat} (g1 : G.WF) (g2 : G.nrows = g.n) (g3 : G.ncols = g.n)
    (g4 : ∀ u v x, G.get u v = some x → x = 1) (g6 : edges G = g.Eb) {src : List Nat} (h0 : src ≠ []) (hs : ∀ s ∈ src, s < g.n)
    (hp : ∀ s ∈ src, pathCount g.n g.Eb s ≤ 2 ^ 31 - 1) : BcArgs (fun x : Nat => (x : Int)) (fun x : Nat => (x : Rat)) G src where
  wf := g1
  square := g2.trans g3.symm
  ones u v a ha := by rw [g4 u v a ha]; exact ⟨rfl, rfl⟩
  some_source := h0
  sources s h := by rw [g2]; exact hs s h
  paths s h := by rw [g2, g6]; exact hp s h

/-- B.4 with one source. -/
theorem exampleB4_ok {ov : Int → Int → Int} {g : ExGraph} (hg : g.Ok) {s : Nat} (hs : s < g.n) (hp : pathCount g.n g.Eb s ≤ 2 ^ 31 - 1)
    {fuel : Nat} (hf : g.n ≤ fuel) :
    ∃ w, exampleB4 fuel ov g.n g.edges s = .ok w ∧ w.WF ∧ w.size = g.n ∧ ∀ v, v < g.n → (w.get v).getD 0 = dependency g.n g.Eb s v := by
  obtain ⟨G, e, g1, g2, g3, g4, -, g6⟩ := ones_graph hg
  obtain ⟨w, ew, w1, w2, w3⟩ := BVec.new_spec (α := Rat) (n := g.n) (by omega)
  obtain ⟨x, e1, x1, x2, x3⟩ := C58_appendixB4_partial (ov := ov) (s := s) (bc_args g1 g2 g3 g4 g6 (by simp) (by simpa using hs) (by simpa using hp))
    w1 (w2.trans g2.symm) w3 (fuel := fuel) (by omega)
  rw [g2, g6] at x3
  refine ⟨x, ?_, x1, x2.trans g2, x3⟩
  unfold exampleB4; rw [e, ew]; exact e1

/-- **C116** The sum that B.4 prints is the betweenness centrality relative to the sources of the loop, for every graph without more than
2^31 - 1 shortest paths from a source. -/
theorem C116_aggregate {ov : Int → Int → Int} {g : ExGraph} (hg : g.Ok) (h0 : 0 < g.n) {m step : Nat} (hs : ∀ k, k < m → k * step < g.n)
    (hp : ∀ k, k < m → pathCount g.n g.Eb (k * step) ≤ 2 ^ 31 - 1) {fuel : Nat} (hf : g.n ≤ fuel) :
    ∃ bc, exampleB4Sum fuel ov g.n g.edges m step = .ok bc ∧
      g.Centrality ((List.range m).map fun k => k * step) bc := by
  obtain ⟨w, ew, w1, w2, w3⟩ := BVec.new_spec (α := Rat) (n := g.n) (by omega)
  obtain ⟨bc, e, b1, b2, b3⟩ := forP_inv (b := fun k bc => do
      let delta ← exampleB4 fuel ov g.n g.edges (k * step)
      exec (eWiseAddV (vPlain id bc) ewPlusQ bc delta))
    (fun k bc => bc.WF ∧ bc.size = g.n ∧
      ∀ v, v < g.n → (bc.get v).getD 0 = betweenness g.n g.Eb ((List.range k).map fun k => k * step) v) m w
    ⟨w1, w2, fun v _ => by rw [w3]; rfl⟩ (by
      rintro k bc hk ⟨c1, c2, c3⟩
      obtain ⟨d, ed, d1, d2, d3⟩ := exampleB4_ok (ov := ov) hg (hs k hk) (hp k hk) hf
      obtain ⟨x, ex, y⟩ := C13_eWiseAdd_vector (o := vPlain id bc) (f := ewPlusQ) (vPlain_wf c1) c1 d1
        ⟨vPlain_fits _, rfl, c2.trans d2.symm⟩
      obtain ⟨⟨x1, x2⟩, x3⟩ := vP_yields ⟨c1, c2⟩ y
      refine ⟨x, ?_, x1, x2, ?_⟩
      · show (do let delta ← exampleB4 fuel ov g.n g.edges (k * step); exec (eWiseAddV (vPlain id bc) ewPlusQ bc delta)) = _
        rw [ed]
        show exec (eWiseAddV (vPlain id bc) ewPlusQ bc d) = _
        rw [ex]
        rfl
      · intro v hv
        rw [x3 v hv]
        have hc := c3 v hv
        have hd := d3 v hv
        have hsum : betweenness g.n g.Eb ((List.range (k + 1)).map fun k => k * step) v =
            betweenness g.n g.Eb ((List.range k).map fun k => k * step) v + dependency g.n g.Eb (k * step) v := by
          unfold betweenness
          rw [List.range_succ, List.map_append, List.map_append, List.sum_append]
          simp [Rat.add_zero]
        rw [hsum, ← hc, ← hd]
        cases bc.get v <;> cases d.get v <;> simp [either, ewPlusQ, Rat.add_zero, Rat.zero_add])
  refine ⟨bc, ?_, b2, b3⟩
  unfold exampleB4Sum
  rw [ew]
  exact e

/-- **C116** The program shows what it should up to B.4, and does not get past B.5: `BC_update_appendixB5` with one source throws `DimensionException`, which nothing catches, on
every graph with another number of nodes than one in which the source has an edge to another node. What follows is never run. -/
theorem C116_main_throws {ov : Int → Int → Int} {g h : ExGraph} (hg : g.Ok) (hh : h.Ok) {s s' m step : Nat} (hs : s < g.n) (hs' : s' < h.n)
    (hk : ∀ k, k < m → k * step < h.n) (hp : pathCount g.n g.Eb s ≤ 2 ^ 31 - 1)
    (hp' : ∀ k, k < m → pathCount h.n h.Eb (k * step) ≤ 2 ^ 31 - 1) (hn : g.n ≠ 1) (he : ∃ v, g.E s v ∧ v ≠ s)
    {fuel : Nat} (hf : g.n ≤ fuel) (hf' : h.n ≤ fuel) :
    (∃ o, appendixToB4 fuel ov g h s s' m step = .ok o ∧ g.Levels s o.b1.1.get ∧ h.Levels s' o.b1.2.get ∧ g.Levels s o.b2.1.get ∧
      h.Levels s' o.b2.2.get ∧ g.Parents s o.b3.1.get ∧ h.Parents s' o.b3.2.get ∧ g.Centrality [s] o.b4.1 ∧
      h.Centrality ((List.range m).map fun k => k * step) o.b4.2) ∧
      ∀ rest, appendixMain fuel ov g h s s' m step rest = .error (.err .dimension) := by
  obtain ⟨a, b, ea, eb, ra, rb⟩ := C116_levels hg hs hf
  obtain ⟨a', b', ea', eb', ra', rb'⟩ := C116_levels hh hs' hf'
  obtain ⟨c, ec, rc⟩ := C116_parents hg hs hf
  obtain ⟨c', ec', rc'⟩ := C116_parents hh hs' hf'
  obtain ⟨d, ed, -, rd1, rd2⟩ := exampleB4_ok (ov := ov) hg hs hp hf
  obtain ⟨d', ed', rd'⟩ := C116_aggregate (ov := ov) hh (by omega) hk hp' hf'
  have e1 : appendixToB4 fuel ov g h s s' m step = .ok ⟨(a, a'), (b, b'), (c, c'), (d, d')⟩ := by
    unfold appendixToB4
    rw [ea, ea', eb, eb', ec, ec', ed, ed']
    rfl
  refine ⟨⟨_, e1, ra, ra', rb, rb', rc, rc', ⟨rd1, fun v hv => ?_⟩, rd'⟩, fun rest => ?_⟩
  · rw [rd2 v hv]
    unfold betweenness
    simp [Rat.add_zero]
  obtain ⟨G, e, g1, g2, g3, g4, -, g6⟩ := ones_graph hg
  obtain ⟨w, ew, w1, w2, w3⟩ := BVec.new_spec (α := Rat) (n := g.n) (by omega)
  have e5 : exampleB5 fuel ov g.n g.edges [s] = .error (.err .dimension) := by
    have := C58_appendixB5_throws (ov := ov) (s := [s]) (bc_args g1 g2 g3 g4 g6 (by simp) (by simpa using hs) (by simpa using hp))
      (by rw [g3]; simpa using Ne.symm hn) (by
        obtain ⟨v, hv, hne⟩ := he
        intro hi
        refine hne (hi s (by simp) v ?_)
        rw [g6]
        exact decide_eq_true hv) w (fuel := fuel) (by omega)
    unfold exampleB5
    rw [e, ew]
    exact this
  unfold appendixMain
  rw [e1]
  show (do let delta ← exampleB5 fuel ov g.n g.edges [s]; rest _ delta) = _
  rw [e5]
  rfl

/-- **C116** The program with its own graphs, starts and sources. -/
theorem C116_own_data_throws (ov : Int → Int → Int) (rest : AppendixShown → BVec Rat → Prog Unit) :
    appendixMain 34 ov ⟨9, techNote⟩ club 5 0 4 9 rest = .error (.err .dimension) := by
  refine (C116_main_throws (g := ⟨9, techNote⟩) (h := club) ⟨by decide, by decide⟩ ⟨by decide +kernel, by decide⟩ (by decide) (by decide)
    (by decide) (by decide +kernel) (by decide +kernel) (by decide) ⟨2, by unfold ExGraph.E; decide, by decide⟩ (by decide) (by decide)).2 rest

/-- **C116** The karate club as the program has it is not undirected: it has 155 different edges, and one of them, 28 to 31, without the one
back. -/
theorem C116_undirected_wrong : ¬ (∀ u v, club.E u v → club.E v u) ∧ club.edges.length = 155 ∧ club.edges.Nodup ∧
    ∀ e ∈ club.edges, (e.2, e.1) ∉ club.edges ↔ e = (28, 31) := by
  refine ⟨fun h => absurd (h 28 31 (by unfold ExGraph.E; decide +kernel)) (by unfold ExGraph.E; decide +kernel), ?_, ?_, ?_⟩ <;> decide +kernel

/- The hypotheses are met by the program's two graphs. -/
example : ExGraph.Ok ⟨9, techNote⟩ ∧ ExGraph.Ok club := ⟨⟨by decide, by decide⟩, ⟨by decide +kernel, by decide⟩⟩

example : (5 < (⟨9, techNote⟩ : ExGraph).n) ∧ 0 < club.n ∧ (∀ k, k < 4 → k * 9 < club.n) ∧
    (∀ k, k < 4 → pathCount club.n club.Eb (k * 9) ≤ 2 ^ 31 - 1) := ⟨by decide, by decide, by decide, by decide +kernel⟩

end GBTL
