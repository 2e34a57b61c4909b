import Verif.Model.Utils
/-
What the models of the algorithms in `/repo/src/algorithms` share.

A `while` loop may run forever, so an algorithm takes a number `fuel` of iterations
that its loops may make at most; a loop that has not ended by then stops with
`running`. "Terminates" means: some amount of fuel suffices (and then every larger
one gives the same result); "runs forever" means: `running` for every fuel.
-/
namespace GBTL

variable {σ : Type}

/-- Why an algorithm has not returned: an exception (or undefined behaviour) of a
call, or the loop is still running. No counterpart in the code: it is how the model
speaks of the `while` loops of `/repo/src/algorithms`, e.g. `bfs.hpp` line 78. -/
inductive Stop where
  | err (e : Err)
  | running
  deriving DecidableEq, Repr

/-- The outcome of an algorithm (no counterpart in the code). -/
abbrev Prog (σ : Type) := Except Stop σ

instance progDecEq [DecidableEq σ] : DecidableEq (Prog σ) := fun a b =>
  match a, b with
  | .ok x, .ok y => if h : x = y then Decidable.isTrue (by rw [h]) else Decidable.isFalse (by intro h'; cases h'; exact h rfl)
  | .error x, .error y => if h : x = y then Decidable.isTrue (by rw [h]) else Decidable.isFalse (by intro h'; cases h'; exact h rfl)
  | .ok _, .error _ => Decidable.isFalse (by intro h; cases h)
  | .error _, .ok _ => Decidable.isFalse (by intro h; cases h)

/-- A container method or constructor in an algorithm, e.g. `/repo/src/algorithms/bfs.hpp`
line 71: an exception leaves the algorithm. -/
def lift : Except Err σ → Prog σ
  | .ok s => .ok s
  | .error e => .error (.err e)

/-- A GraphBLAS operation in an algorithm, e.g. `/repo/src/algorithms/bfs.hpp` lines 81-84:
an exception leaves the algorithm. -/
def exec (o : Outcome σ) : Prog σ := lift (call o)

/-- `while (c(s)) s = b(s);`, e.g. `/repo/src/algorithms/bfs.hpp` lines 78-105, at most
`fuel` iterations. -/
def loop (c : σ → Bool) (b : σ → Prog σ) : Nat → σ → Prog σ
  | 0, s => if c s then .error .running else .ok s
  | fuel + 1, s => if c s then (do let s ← b s; loop c b fuel s) else .ok s

/-- `for (i = 0; i < n; ++i) s = b(i, s);`, e.g. `/repo/src/algorithms/sssp.hpp` lines
78-87. -/
def forP (n : Nat) (s : σ) (b : Nat → σ → Prog σ) : Prog σ :=
  (List.range n).foldlM (fun s i => b i s) s

end GBTL
