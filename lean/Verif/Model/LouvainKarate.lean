import Verif.Model.LouvainDemo
import Verif.Model.AppendixDemo
/-
Model of `/repo/src/demo/louvain_karate_demo.cpp`. Line numbers refer to this file. Not modelled: the timings. Real numbers stand for `double`.
-/
namespace GBTL

/-- A loop over the seeds, lines 136-147 and 151-162: the vectors it prints. `rnd s` are the random numbers of seed `s`. `none`: the exception of
the clustering, which nothing catches. (What was printed before it is left out.) -/
def louvainSeeds (masked : Bool) (rnd : Nat → Nat → Rat) (fuel : Nat) (A : Lil Rat) : List Nat → Prog (Option (List (BVec Nat)))
  | [] => .ok (some [])
  | s :: ss => do
    let c ← louvainPrint masked (rnd s) fuel A
    match c with
    | none => .ok none
    | some w => do
      let cs ← louvainSeeds masked rnd fuel A ss
      .ok (cs.map fun ws => w :: ws)

/-- `main`, lines 114-165, for any number of nodes, any edges and any seeds: the vectors printed by the first and by the second loop. -/
def louvainKarate (rnd : Nat → Nat → Rat) (fuel n : Nat) (edges : List (Nat × Nat)) (seeds : List Nat) :
    Prog (Option (List (BVec Nat) × List (BVec Nat))) := do
  let A ← lift (method ((Lil.new n n : Lil Rat).build (fun _ b => b) (edges.map fun e => (e.1, e.2, 1))))
  let c1 ← louvainSeeds false rnd fuel A seeds
  match c1 with
  | none => .ok none
  | some ws => do
    let c2 ← louvainSeeds true rnd fuel A seeds
    .ok (c2.map fun ws' => (ws, ws'))

end GBTL
