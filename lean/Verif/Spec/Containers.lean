import Verif.Spec.Basic
import Verif.Model.Basic
/-
Abstract vectors and matrices as finite maps with a shape, and the answers that
element-wise calls must give. From the model only the names of the exceptions
(`GBTL.Err`) are used.
-/
namespace Spec
open GBTL (Err)

/-- Calls on a vector. -/
inductive VecCall (α : Type) where
  | set (i : Nat) (x : α)
  | remove (i : Nat)
  | clear
  | resize (n : Nat)
  | has (i : Nat)
  | extract (i : Nat)
  | nvals
  | size

/-- What a call returns when it does not throw. -/
inductive Ans (α : Type) where
  | unit
  | bool (b : Bool)
  | val (x : α)
  | num (n : Nat)
  | nums (m n : Nat)
  deriving DecidableEq, Repr

/-- An abstract vector: a size and a finite map. -/
structure AVec (α : Type) where
  size : Nat
  map : Vec α

/-- The answer of the abstract vector to a call and its new state. -/
def AVec.step {α : Type} (v : AVec α) : VecCall α → Except Err (Ans α) × AVec α
  | .set i x =>
    if i < v.size then (.ok .unit, { v with map := v.map.set i (some x) })
    else (.error .indexOutOfBounds, v)
  | .remove i =>
    if i < v.size then (.ok .unit, { v with map := v.map.set i none })
    else (.error .indexOutOfBounds, v)
  | .clear => (.ok .unit, { v with map := fun _ => none })
  | .resize n =>
    if n = 0 then (.error .invalidValue, v)
    else (.ok .unit, { size := n, map := fun i => if i < n then v.map i else none })
  | .has i =>
    if i < v.size then (.ok (.bool (v.map i).isSome), v) else (.error .indexOutOfBounds, v)
  | .extract i =>
    if i < v.size then
      match v.map i with
      | some x => (.ok (.val x), v)
      | none => (.error .noValue, v)
    else (.error .indexOutOfBounds, v)
  | .nvals => (.ok (.num (v.map.count v.size)), v)
  | .size => (.ok (.num v.size), v)

/-- The answers to a sequence of calls, in order, and the final state. -/
def runCalls {σ κ ω : Type} (step : σ → κ → ω × σ) : σ → List κ → List ω × σ
  | s, [] => ([], s)
  | s, c :: cs =>
    let (o, s') := step s c
    let (os, s'') := runCalls step s' cs
    (o :: os, s'')

/-- Calls on a matrix. -/
inductive MatCall (α : Type) where
  | set (i j : Nat) (x : α)
  | setMerge (i j : Nat) (x : α) (merge : α → α → α)
  | remove (i j : Nat)
  | clear
  | resize (m n : Nat)
  | has (i j : Nat)
  | extract (i j : Nat)
  | nvals
  | shape

/-- An abstract matrix: a shape and a finite map. -/
structure AMat (α : Type) where
  nrows : Nat
  ncols : Nat
  map : Mat α

/-- Combine a new value with what is stored. -/
def mergeInto {α : Type} (merge : α → α → α) (old : Option α) (x : α) : Option α :=
  match old with
  | some y => some (merge y x)
  | none => some x

def AMat.step {α : Type} (A : AMat α) : MatCall α → Except Err (Ans α) × AMat α
  | .set i j x =>
    if i < A.nrows ∧ j < A.ncols then (.ok .unit, { A with map := A.map.set i j (some x) })
    else (.error .indexOutOfBounds, A)
  | .setMerge i j x merge =>
    if i < A.nrows ∧ j < A.ncols then
      (.ok .unit, { A with map := A.map.set i j (mergeInto merge (A.map i j) x) })
    else (.error .indexOutOfBounds, A)
  | .remove i j =>
    if i < A.nrows ∧ j < A.ncols then (.ok .unit, { A with map := A.map.set i j none })
    else (.error .indexOutOfBounds, A)
  | .clear => (.ok .unit, { A with map := fun _ _ => none })
  | .resize m n =>
    if m = 0 ∨ n = 0 then (.error .invalidValue, A)
    else (.ok .unit, { nrows := m, ncols := n,
                       map := fun i j => if i < m ∧ j < n then A.map i j else none })
  | .has i j =>
    if i < A.nrows ∧ j < A.ncols then (.ok (.bool (A.map i j).isSome), A)
    else (.error .indexOutOfBounds, A)
  | .extract i j =>
    if i < A.nrows ∧ j < A.ncols then
      match A.map i j with
      | some x => (.ok (.val x), A)
      | none => (.error .noValue, A)
    else (.error .indexOutOfBounds, A)
  | .nvals => (.ok (.num (A.map.count A.nrows A.ncols)), A)
  | .shape => (.ok (.nums A.nrows A.ncols), A)

/-- The values given for index `i` in a list of (index, value) tuples, combined
left to right with `dup`. -/
def combined {ι α : Type} [DecidableEq ι] (dup : α → α → α) (ts : List (ι × α)) (i : ι) :
    Option α :=
  match (ts.filter fun t => t.1 = i).map Prod.snd with
  | [] => none
  | x :: xs => some (xs.foldl dup x)

/-- The same with a value already there, which takes part as the first operand. -/
def combinedFrom {ι α : Type} [DecidableEq ι] (dup : α → α → α) (old : Option α)
    (ts : List (ι × α)) (i : ι) : Option α :=
  match old with
  | none => combined dup ts i
  | some y => some (((ts.filter fun t => t.1 = i).map Prod.snd).foldl dup y)

end Spec
