import Verif.Model.KTrussInc
/-
Model of the program `/repo/src/demo/k_truss_demo.cpp`, for any arrays `i` and `j` of the
same length (lines 40-110), as a list of pairs. Printing is the list of the matrices
printed.
-/
namespace GBTL

/-- The loop of lines 124-137: `num_edges`, the arrays `edge_array` and `node_array` as a
list of pairs, and `num_nodes` before line 138. -/
def trussEdges (ij : List (Nat × Nat)) : Nat × List (Nat × Nat) × Nat :=
  ij.foldl (fun q e =>
    if e.1 < e.2 then (q.1 + 1, q.2.1 ++ [(q.1, e.1), (q.1, e.2)], max (max q.2.2 e.1) e.2)
    else q) (0, [], 0)

/-- `Matrix<T> E(num_edges, num_nodes); E.build(…)` with values 1 and the default `dup`,
`Second`; lines 138-142. -/
def trussMatrix (ij : List (Nat × Nat)) : Except Err (Lil Int) :=
  let q := trussEdges ij
  method ((Lil.new q.1 (q.2.2 + 1) : Lil Int).build (fun _ y => y) (q.2.1.map fun e => (e.1, e.2, 1)))

/-- Lines 147-164: `k_truss` for one number after the other, each applied to the result of
the one before it; the results printed, and what ended the program if it was not its end. -/
def trussChain (fuel : Nat) (t : ITy) (ov : Int → Int → Int) : Lil Int → List Nat → List (Lil Int) × Option Stop
  | _, [] => ([], none)
  | E, k :: ks =>
    match kTruss fuel t ov E k with
    | .error s => ([], some s)
    | .ok E' =>
      let r := trussChain fuel t ov E' ks
      (E' :: r.1, r.2)

/-- `main`, lines 115-167, with `T` = `int`: the matrices printed, and what ended it if it
was not its end. -/
def trussDemo (fuel : Nat) (ov : Int → Int → Int) (ij : List (Nat × Nat)) : List (Lil Int) × Option Stop :=
  match trussMatrix ij with
  | .error e => ([], some (.err e))
  | .ok E =>
    let r := trussChain fuel .i32 ov E [3, 4, 5, 6]
    (E :: r.1, r.2)

end GBTL
