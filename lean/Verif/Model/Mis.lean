import Verif.Model.Algo
/-
Models of `/repo/src/algorithms/mis.hpp` (line numbers refer to this file unless said
otherwise) and of `mis_appendixB6` in `appendix_algorithms.hpp`.

Simplifications. The random numbers are arbitrary: the functor of lines 150-153 draws
a number each time it is called; what it returns in round `r` for vertex `v` is
`draw r v`, for any function `draw`. Floating point types are abstract: the model needs
only addition, the order and the conversion to `bool`.
-/
namespace GBTL
open Spec (Outp MaskKind Accum)

variable {α δ ρ : Type}

/-- Output `w` with mask `m` (as it is or complemented), `NoAccumulate()`; used at lines
127-136, 157-160, 171-174, 186-190, 200-203, 208-212. -/
def vMasked {γ τ μ : Type} (c : τ → γ) (w : BVec γ) (k : MaskKind) (truthy : μ → Bool) (m : BVec μ)
    (outp : Outp) : VOut γ τ τ μ :=
  { w := w, m := some (k, m), truthy := truthy, acc := .none id, castZ := c, outp := outp }

/-- What the algorithm uses of the type of the degrees: addition and the conversion to
`bool`; of the type of the random values: `<` and the conversion to `bool`; and of the
graph's scalar type: its conversions; lines 108-110, 118 (`RealT` is `float`; `double` in
`appendix_algorithms.hpp` line 369). -/
structure MisTy (α δ ρ : Type) where
  plus : δ → δ → δ
  dtrue : δ → Bool
  lt : ρ → ρ → Bool
  rtrue : ρ → Bool
  toD : α → δ
  toB : α → Bool

/-- `Max<RealT>`, `algebra.hpp` lines 295-299. -/
def MisTy.max (R : MisTy α δ ρ) (x y : ρ) : ρ := if R.lt x y then y else x

/-- The variables of the loop; `round` counts the iterations; lines 112-115, 126. -/
structure MisSt (ρ : Type) where
  round : Nat
  prob : BVec ρ
  nmax : BVec ρ
  members : BVec Bool
  nbrs : BVec Bool
  cand : BVec Bool
  iset : BVec Bool

/-- `degrees` with the values replaced by what the functor returns; lines 150-153. -/
def drawn (degrees : BVec δ) (draw : Nat → ρ) : BVec ρ :=
  { size := degrees.size, nvals := degrees.nvals, vals := (List.range degrees.size).map draw,
    bitmap := degrees.bitmap }

/-- `LogicalOr<bool>` for an element-wise operation; line 181; `algebra.hpp` `LogicalOr`. -/
def ewOr : EW Bool Bool Bool :=
  { op := fun x y => x || y, c1 := id, c2 := id, castBA := id, opA := fun x y => x || y, c2A := id }

/-- `LogicalAnd<bool>` for an element-wise operation; lines 189, 211; `algebra.hpp`
`LogicalAnd`. -/
def ewAnd : EW Bool Bool Bool :=
  { op := fun x y => x && y, c1 := id, c2 := id, castBA := id, opA := fun x y => x && y, c2A := id }

/-- The functor of lines 150-153: the second operand holds the values it returns. The
fields that only `eWiseAdd` and matrices use are irrelevant. -/
def ewDraw [Inhabited ρ] : EW Bool ρ ρ :=
  { op := fun _ x => x, c1 := fun _ => default, c2 := id, castBA := fun _ => false,
    opA := fun _ _ => default, c2A := fun _ => default }

/-- `GreaterThan<RealT>` for an element-wise operation; a lone element is converted to
`bool`; line 166; `algebra.hpp` `GreaterThan`. -/
def ewGreater (R : MisTy α δ ρ) : EW ρ ρ Bool :=
  { op := fun x y => R.lt y x, c1 := R.rtrue, c2 := R.rtrue, castBA := id,
    opA := fun x y => R.lt y x, c2A := R.rtrue }

/-- `MaxSecondSemiring<RealT>` on the graph and a vector; line 159. -/
def maxSecond (R : MisTy α δ ρ) : SR α ρ ρ := ⟨R.max, fun _ x => x, fun x _ => x⟩

/-- `LogicalSemiring<bool>` on the graph and a vector; line 202. -/
def logicalB (R : MisTy α δ ρ) : SR α Bool Bool :=
  ⟨fun x y => x || y, fun a b => R.toB a && b, fun b a => b && R.toB a⟩

/-- Lines 147-190: draw numbers, select the new members, add them to the set and remove
them from the candidates. -/
def misSelect [Inhabited ρ] (R : MisTy α δ ρ) (G : Lil α) (degrees : BVec δ) (draw : Nat → Nat → ρ)
    (s : MisSt ρ) : Prog (MisSt ρ) := do
  let prob ← exec (eWiseMultV (vPlain id s.prob) ewDraw s.cand (drawn degrees (draw s.round)))
  let nmax ← exec (mxv (vMasked id s.nmax .plain id s.cand .replace) (maxSecond R) (.plain G) prob)
  let members ← exec (eWiseAddV (vPlain id s.members) (ewGreater R) prob nmax)
  let members ← exec (applyV (vMasked id members .plain id members .replace) id members)
  let iset ← exec (eWiseAddV (vPlain id s.iset) ewOr s.iset members)
  let cand ← exec (eWiseMultV (vMasked id s.cand .comp id members .replace) ewAnd s.cand s.cand)
  .ok ⟨s.round + 1, prob, nmax, members, s.nbrs, cand, iset⟩

/-- Lines 200-212: remove the neighbours of the new members from the candidates. -/
def misPrune (R : MisTy α δ ρ) (G : Lil α) (s : MisSt ρ) : Prog (MisSt ρ) := do
  let nbrs ← exec (mxv (vMasked id s.nbrs .plain id s.cand .merge) (logicalB R) (.plain G) s.members)
  let cand ← exec (eWiseMultV (vMasked id s.cand .comp id nbrs .replace) ewAnd s.cand s.cand)
  .ok { s with nbrs := nbrs, cand := cand }

/-- The loop body, lines 138-215. The `break` of line 196 leaves the loop when no
candidates are left, which is also when its condition fails. -/
def misBody [Inhabited ρ] (R : MisTy α δ ρ) (G : Lil α) (degrees : BVec δ) (draw : Nat → Nat → ρ)
    (s : MisSt ρ) : Prog (MisSt ρ) := do
  let s ← misSelect R G degrees draw s
  if s.cand.nvals = 0 then .ok s else misPrune R G s

/-- The loop, lines 138-215. -/
def misLoop [Inhabited ρ] (R : MisTy α δ ρ) (G : Lil α) (degrees : BVec δ) (draw : Nat → Nat → ρ)
    (fuel : Nat) (s : MisSt ρ) : Prog (MisSt ρ) :=
  loop (fun s => decide (0 < s.cand.nvals)) (misBody R G degrees draw) fuel s

/-- `mis(graph, independent_set, seed)`, lines 89-217. -/
def mis [Inhabited δ] [Inhabited ρ] (fuel : Nat) (R : MisTy α δ ρ) (G : Lil α)
    (draw : Nat → Nat → ρ) (iset : BVec Bool) : Prog (BVec Bool) :=
  if G.nrows ≠ G.ncols ∨ G.nrows ≠ iset.size then .error (.err .dimension)
  else do
    let prob ← lift (BVec.new G.nrows)
    let nmax ← lift (BVec.new G.nrows)
    let members ← lift (BVec.new G.nrows)
    let nbrs ← lift (BVec.new G.nrows)
    let degrees ← lift (BVec.new G.nrows)
    let degrees ← exec (reduceMV
      { w := degrees, m := none, truthy := id, acc := .some R.plus id id, castZ := id, outp := .merge }
      ⟨fun x y => R.plus (R.toD x) (R.toD y), fun t y => R.plus t (R.toD y), R.plus, R.toD⟩ (.plain G))
    let cand ← lift (BVec.new G.nrows)
    let cand ← exec (assignConstV (vMasked id cand .plain R.dtrue degrees .replace) id true .all)
    let iset ← exec (assignConstV (vMasked id iset .comp R.dtrue degrees .replace) id true .all)
    let s ← misLoop R G degrees draw fuel ⟨0, prob, nmax, members, nbrs, cand, iset⟩
    .ok s.iset

/-- `mis_appendixB6(iset, A, seed)`, `appendix_algorithms.hpp` lines 354-414. The loop
(lines 379-413) makes the same calls as that of `mis`; `GreaterThan<double>` compares the
`float` values exactly. -/
def misB6 [Inhabited δ] [Inhabited ρ] (fuel : Nat) (R : MisTy α δ ρ) (G : Lil α)
    (draw : Nat → Nat → ρ) (iset : BVec Bool) : Prog (BVec Bool) := do
  let prob ← lift (BVec.new G.nrows)
  let nmax ← lift (BVec.new G.nrows)
  let members ← lift (BVec.new G.nrows)
  let nbrs ← lift (BVec.new G.nrows)
  let cand ← lift (BVec.new G.nrows)
  let degrees ← lift (BVec.new G.nrows)
  let degrees ← exec (reduceMV (vPlain id degrees)
    ⟨fun x y => R.plus (R.toD x) (R.toD y), fun t y => R.plus t (R.toD y), R.plus, R.toD⟩ (.plain G))
  let cand ← exec (assignConstV (vMasked id cand .plain R.dtrue degrees .merge) id true .all)
  let iset ← exec (assignConstV (vMasked id iset .comp R.dtrue degrees .replace) id true .all)
  let s ← misLoop R G degrees draw fuel ⟨0, prob, nmax, members, nbrs, cand, iset⟩
  .ok s.iset

/-- `get_vertex_IDs(independent_set)`, lines 45-56. -/
def getVertexIDs [Inhabited α] (set : BVec α) : Except Err (List Nat) := do
  let ts ← vecTuples set
  .ok (ts.map fun p => p.1)

end GBTL
