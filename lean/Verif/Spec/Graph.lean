import Verif.Spec.Basic
/-
Graph notions used to state what the algorithms compute. A graph is an edge relation
on natural numbers. Nothing here refers to the model of the C++ code.
-/
namespace Spec

/-- There is a walk of exactly `k` edges from a vertex in `S` to `v`. -/
def Walk (E : Nat → Nat → Prop) (S : Nat → Prop) : Nat → Nat → Prop
  | 0, v => S v
  | k + 1, v => ∃ u, Walk E S k u ∧ E u v

/-- The minimum number of edges from a vertex in `S` to `v` is `d`. -/
def HopDist (E : Nat → Nat → Prop) (S : Nat → Prop) (v d : Nat) : Prop :=
  Walk E S d v ∧ ∀ k, Walk E S k v → d ≤ k

/-- `v` can be reached from `S`. -/
def Reachable (E : Nat → Nat → Prop) (S : Nat → Prop) (v : Nat) : Prop := ∃ k, Walk E S k v

/-- `p` is the smallest-numbered in-neighbour of `v` among the vertices one hop closer
to `S`. -/
def IsParent (E : Nat → Nat → Prop) (S : Nat → Prop) (v p : Nat) : Prop :=
  ∃ d, HopDist E S v (d + 1) ∧ HopDist E S p d ∧ E p v ∧ ∀ u, HopDist E S u d → E u v → p ≤ u

/-- `m` is the smallest of the labels of the in-neighbours of `v` that are one hop closer to
`S` than `v`. -/
def IsLeastLabel (E : Nat → Nat → Prop) (S : Nat → Prop) (label : Nat → Int) (v : Nat) (m : Int) : Prop :=
  ∃ d, HopDist E S v (d + 1) ∧ (∃ p, HopDist E S p d ∧ E p v ∧ label p = m) ∧
    ∀ u, HopDist E S u d → E u v → m ≤ label u

/-- The edges of an adjacency matrix: its stored elements. -/
def Edge {α : Type} (A : Nat → Nat → Option α) (u v : Nat) : Prop := (A u v).isSome

/-! ### weighted graphs -/

/-- There is a walk of exactly `k` edges of total weight `x` to `v`: it begins at a
vertex with a value in `S`, which counts towards the weight. -/
def WWalk (W : Mat Int) (S : Vec Int) : Nat → Nat → Int → Prop
  | 0, v, x => S v = some x
  | k + 1, v, x => ∃ u y w, WWalk W S k u y ∧ W u v = some w ∧ x = y + w

/-- Just the vertex `s`, at weight zero. -/
def source (s : Nat) : Vec Int := fun v => if v = s then some 0 else none

/-- `v` can be reached. -/
def WReach (W : Mat Int) (S : Vec Int) (v : Nat) : Prop := ∃ k x, WWalk W S k v x

/-- `d` is the minimum weight of a walk to `v`. -/
def IsDist (W : Mat Int) (S : Vec Int) (v : Nat) (d : Int) : Prop :=
  (∃ k, WWalk W S k v d) ∧ ∀ k x, WWalk W S k v x → d ≤ x

/-- `d` is the minimum weight of a walk of at least one edge from `v` back to `v`. -/
def IsReturn (W : Mat Int) (v : Nat) (d : Int) : Prop :=
  (∃ k, WWalk W (source v) (k + 1) v d) ∧ ∀ k x, WWalk W (source v) (k + 1) v x → d ≤ x

/-- From a vertex that can be reached there is a walk back to it of negative total
weight. -/
def NegCycle (W : Mat Int) (S : Vec Int) : Prop :=
  ∃ v, WReach W S v ∧ ∃ k c, WWalk W (source v) k v c ∧ c < 0

/-- There is a closed walk of negative total weight. -/
def HasNegCycle (W : Mat Int) : Prop := ∃ v k c, WWalk W (source v) k v c ∧ c < 0

/-- Every walk of at most `m` edges has a weight with property `P`. -/
def WalksWithin (W : Mat Int) (S : Vec Int) (m : Nat) (P : Int → Prop) : Prop :=
  ∀ k v x, k ≤ m → WWalk W S k v x → P x

/-- The eccentricity of `v` is `e`: the largest distance from `v` to a vertex that can
be reached from it. -/
def IsEcc (W : Mat Int) (v : Nat) (e : Int) : Prop :=
  (∃ w, IsDist W (source v) w e) ∧ ∀ w x, IsDist W (source v) w x → x ≤ e

/-- The radius of a graph on the vertices below `n`: the smallest eccentricity. -/
def IsRadius (W : Mat Int) (n : Nat) (r : Int) : Prop :=
  (∃ v, v < n ∧ IsEcc W v r) ∧ ∀ v e, v < n → IsEcc W v e → r ≤ e

/-- The diameter: the largest eccentricity. -/
def IsDiameter (W : Mat Int) (n : Nat) (r : Int) : Prop :=
  (∃ v, v < n ∧ IsEcc W v r) ∧ ∀ v e, v < n → IsEcc W v e → e ≤ r

/-- The sum of `d 0`, …, `d (n - 1)`. -/
def total (n : Nat) (d : Nat → Int) : Int := ((List.range n).map d).sum

/-! ### triangles -/

/-- All `i < j < k < n`. -/
def triples (n : Nat) : List (Nat × Nat × Nat) :=
  ((List.range n).flatMap fun i => (List.range n).flatMap fun j => (List.range n).map fun k =>
    (i, j, k)).filter fun (i, j, k) => i < j && j < k

/-- The number of triangles `{i, j, k}` of an undirected graph with vertices below
`n`. -/
def triangles (n : Nat) (adj : Nat → Nat → Bool) : Nat :=
  ((triples n).filter fun (i, j, k) => adj i j && adj j k && adj i k).length

/-- The adjacency relation of an undirected graph without loops. -/
structure Undirected (adj : Nat → Nat → Bool) : Prop where
  symm : ∀ i j, adj i j = adj j i
  irrefl : ∀ i, adj i i = false

/-! ### k-trusses -/

/-- The number of common neighbours of `i` and `j` among the vertices below `n`, that
is, the number of triangles the edge `{i, j}` is in. -/
def commonNbrs (n : Nat) (E : Nat → Nat → Bool) (i j : Nat) : Nat :=
  ((List.range n).filter fun k => E i k && E k j).length

/-- `F` is an undirected subgraph of `E` each of whose edges is in at least `k - 2`
triangles of `F`. -/
structure IsTruss (n k : Nat) (E F : Nat → Nat → Bool) : Prop where
  symm : ∀ i j, F i j = F j i
  sub : ∀ i j, F i j = true → E i j = true
  support : ∀ i j, F i j = true → k ≤ commonNbrs n F i j + 2

/-- `F` is the k-truss of `E`: the largest such subgraph. -/
structure IsKTruss (n k : Nat) (E F : Nat → Nat → Bool) : Prop where
  truss : IsTruss n k E F
  largest : ∀ F', IsTruss n k E F' → ∀ i j, F' i j = true → F i j = true

/-- The graph given by a list of edges. -/
def adjOf (es : List (Nat × Nat)) (u v : Nat) : Bool := es.contains (u, v) || es.contains (v, u)

/-- A list of the edges of a graph on the vertices below `n`, without loops, each edge
listed once. -/
structure SimpleEdges (n : Nat) (es : List (Nat × Nat)) : Prop where
  lt : ∀ e ∈ es, e.1 < n ∧ e.2 < n
  loopless : ∀ e ∈ es, e.1 ≠ e.2
  distinct : es.Pairwise fun e f => f ≠ e ∧ f ≠ (e.2, e.1)

/-! ### independent sets -/

/-- `S` is a maximal independent set of the graph `E` on the vertices below `n`: no two
of its vertices are adjacent, and every other vertex has a neighbour in it. -/
structure IsMIS (n : Nat) (E : Nat → Nat → Prop) (S : Nat → Prop) : Prop where
  within : ∀ v, S v → v < n
  independent : ∀ u v, S u → S v → ¬ E u v
  maximal : ∀ v, v < n → ¬ S v → ∃ u, S u ∧ E v u

/-- The vertices outside of the set `S` without a neighbour in it. -/
def Free (n : Nat) (E : Nat → Nat → Prop) (S : Nat → Prop) (v : Nat) : Prop :=
  v < n ∧ ¬ S v ∧ ∀ u, S u → ¬ E v u

/-- Luby's rounds: first the vertices without edges; then, in every round, every free vertex
whose number is greater than those of all its free neighbours. `less r u v`: the number of
`u` in round `r` is less than that of `v`. -/
def luby (n : Nat) (E : Nat → Nat → Prop) (less : Nat → Nat → Nat → Prop) : Nat → Nat → Prop
  | 0, v => v < n ∧ ∀ u, ¬ E v u
  | r + 1, v => luby n E less r v ∨
      Free n E (luby n E less r) v ∧ ∀ u, Free n E (luby n E less r) u → E v u → less r u v

/-! ### spanning trees -/

/-- The list of edges `F` connects `a` and `b`; edges can be used in both directions. -/
inductive Linked (F : List (Nat × Nat)) (a : Nat) : Nat → Prop
  | refl : Linked F a a
  | step {b c : Nat} : Linked F a b → (b, c) ∈ F ∨ (c, b) ∈ F → Linked F a c

/-- `F` is a spanning tree of the graph `W` on the vertices below `n`: `n - 1` edges of
the graph that connect all vertices. -/
structure IsSpanningTree (n : Nat) (W : Mat Int) (F : List (Nat × Nat)) : Prop where
  edges : ∀ e ∈ F, Edge W e.1 e.2
  size : F.length + 1 = n
  connected : ∀ v, v < n → Linked F 0 v

/-- The total weight of a list of edges. -/
def weight (W : Mat Int) (F : List (Nat × Nat)) : Int := (F.map fun e => (W e.1 e.2).getD 0).sum

end Spec
