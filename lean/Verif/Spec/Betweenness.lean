import Verif.Spec.Graph
/-
Betweenness centrality, by counting shortest paths. Nothing here refers to the model of
the C++ code.
-/
namespace Spec

/-- All walks of exactly `k` edges from `s` to `t` in the graph `E` on the vertices below
`n`, each as the list of the vertices it visits. -/
def walkList (n : Nat) (E : Nat → Nat → Bool) : Nat → Nat → Nat → List (List Nat)
  | 0, s, t => if s = t then [[t]] else []
  | k + 1, s, t => (List.range n).flatMap fun u =>
      if E u t then (walkList n E k s u).map (· ++ [t]) else []

/-- The shortest paths from `s` to `t`: the walks with the least number of edges. (In a
graph on `n` vertices that number is below `n`.) -/
def shortestPaths (n : Nat) (E : Nat → Nat → Bool) (s t : Nat) : List (List Nat) :=
  match (List.range n).find? (fun k => !(walkList n E k s t).isEmpty) with
  | some k => walkList n E k s t
  | none => []

/-- The number of shortest paths from `s`, to all vertices together. -/
def pathCount (n : Nat) (E : Nat → Nat → Bool) (s : Nat) : Nat :=
  ((List.range n).map fun t => (shortestPaths n E s t).length).sum

/-- The fraction of the shortest paths from `s` to `t` that visit `v`, zero if there is
no path. -/
def passing (n : Nat) (E : Nat → Nat → Bool) (s t v : Nat) : Rat :=
  (((shortestPaths n E s t).filter (·.contains v)).length : Rat) / ((shortestPaths n E s t).length : Rat)

/-- What the source `s` contributes to the betweenness centrality of `v`: the sum over
all targets `t` other than `v` of the fraction of shortest paths from `s` to `t` that
visit `v`. A source contributes nothing to itself. -/
def dependency (n : Nat) (E : Nat → Nat → Bool) (s v : Nat) : Rat :=
  if v = s then 0
  else ((List.range n).map fun t => if t = v then 0 else passing n E s t v).sum

/-- The same when a path to the target `t` counts `ω t` times. -/
def weightedDependency (n : Nat) (E : Nat → Nat → Bool) (ω : Nat → Rat) (s v : Nat) : Rat :=
  if v = s then 0
  else ((List.range n).map fun t => if t = v then 0 else ω t * passing n E s t v).sum

/-- The number of targets `t` other than `v` to which there is just one shortest path from
`s`, and that path visits `v`. A source contributes nothing to itself. -/
def uniqueDependency (n : Nat) (E : Nat → Nat → Bool) (s v : Nat) : Nat :=
  if v = s then 0
  else ((List.range n).map fun t =>
    match shortestPaths n E s t with
    | [p] => if t ≠ v ∧ v ∈ p then 1 else 0
    | _ => 0).sum

/-- The betweenness centrality of `v` relative to a list of sources. -/
def betweenness (n : Nat) (E : Nat → Nat → Bool) (sources : List Nat) (v : Nat) : Rat :=
  (sources.map fun s => dependency n E s v).sum

end Spec
