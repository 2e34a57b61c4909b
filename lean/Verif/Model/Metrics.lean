import Verif.Model.Sssp
import Verif.Model.Triangle
/-
Models of the distance functions of `/repo/src/algorithms/metrics.hpp` on the integer
scalar types. The `result` vectors and matrices have the scalar type `t` of the graph,
as `sssp` requires. `ov` is what an overflowing signed addition yields, see
`Model/Sssp.lean`.
-/
namespace GBTL
open Spec (Outp MaskKind Accum)

/-- `Max<T>`; `algebra.hpp` lines 295-299. -/
def ITy.maxT (t : ITy) (x y : Int) : Int := valOf 0 (BOp.max.run t t t x y)

/-- `Max<T>` or `MaxMonoid<T>` as the operator of a reduction; `metrics.hpp` lines 214, 245,
280. -/
def redMax (t : ITy) : RedOp Int Int := ⟨t.maxT, t.maxT, t.maxT, id⟩

/-- `MinMonoid<T>` as the operator of a reduction; `metrics.hpp` line 251. -/
def redMin (t : ITy) : RedOp Int Int := ⟨t.minT, t.minT, t.minT, id⟩

/-- `reduce(val, NoAccumulate(), monoid, u)`; `metrics.hpp` lines 213-215, 250-252, 318-320. -/
def reduceInto (r : RedOp Int Int) (e : Int) (val : Int) (u : BVec Int) : Prog Int :=
  exec (reduceVS id (.none id : Accum Int Int Int) r e val u)

/-- `graph_distance`, lines 128-146: the new `result`. What `sssp` returns is
dropped. -/
def graphDistance (t : ITy) (ov : Int → Int → Int) (G : Lil Int) (sid : Nat) (result : BVec Int) :
    Prog (BVec Int) :=
  if G.nrows ≠ G.ncols ∨ G.nrows ≠ result.size then .error (.err .dimension)
  else do
    let result ← lift (method (result.clear.setElement sid 0))
    let r ← sssp t ov G result
    .ok r.2

/-- `graph_distance_matrix`, lines 158-178: the new `result`. -/
def graphDistanceMatrix (t : ITy) (ov : Int → Int → Int) (G : Lil Int) (result : Lil Int) :
    Prog (Lil Int) :=
  if G.nrows ≠ G.ncols ∨ result.nrows ≠ G.nrows ∨ result.ncols ≠ G.ncols then .error (.err .dimension)
  else do
    let I ← lift (scaledIdentity G.nrows 0)
    let result ← lift (method (result.clear.assignFrom I))
    let r ← batchSssp t ov G result
    .ok r.2

/-- `vertex_eccentricity`, lines 195-218. -/
def vertexEccentricity (t : ITy) (ov : Int → Int → Int) (G : Lil Int) (vid : Nat) : Prog Int :=
  if G.nrows ≠ G.ncols then .error (.err .dimension)
  else do
    let result ← lift (BVec.new G.nrows)
    let result ← lift (method (result.setElement vid 0))
    let r ← sssp t ov G result
    reduceInto (redMax t) (Mon.max.identity t) 0 r.2

/-- `graph_radius`, lines 231-255. -/
def graphRadius (t : ITy) (ov : Int → Int → Int) (G : Lil Int) : Prog Int := do
  let result ← graphDistanceMatrix t ov G (Lil.new G.nrows G.ncols)
  let ecc ← lift (BVec.new G.nrows)
  let ecc ← exec (reduceMV (vPlain id ecc) (redMax t) (.plain result))
  reduceInto (redMin t) (Mon.min.identity t) 0 ecc

/-- `graph_diameter`, lines 268-283. -/
def graphDiameter (t : ITy) (ov : Int → Int → Int) (G : Lil Int) : Prog Int := do
  let result ← graphDistanceMatrix t ov G (Lil.new G.nrows G.ncols)
  exec (reduceMS id (.none id : Accum Int Int Int) (redMax t) (Mon.max.identity t) 0 (.plain result))

/-- `closeness_centrality`, lines 307-322. -/
def closenessCentrality (t : ITy) (ov : Int → Int → Int) (G : Lil Int) (vid : Nat) : Prog Int := do
  let distances ← lift (BVec.new G.nrows)
  let distances ← graphDistance t ov G vid distances
  reduceInto (redPlus t ov) (Mon.plus.identity t) 0 distances

end GBTL
