import Verif.Spec.Basic
/-
Specifications for operators that are more than functions: an operator may read and
change a state of its own (a counter, a log, a generator of random numbers), and it
may throw.
-/
namespace Spec

/-- A call of an operator: from the state `ω` its calls share, it returns a value or
throws an `X`, and leaves a new state. -/
abbrev Op (ω X τ : Type) : Type := ω → Except X τ × ω

variable {ω X α β γ κ σ τ ζ : Type}

/-- First one, then, if it did not throw, the other. -/
def Op.andThen (f : Op ω X σ) (g : σ → Op ω X τ) : Op ω X τ := fun w =>
  match f w with
  | (.ok a, w1) => g a w1
  | (.error x, w1) => (.error x, w1)

/-- No call: the value is there already. -/
def Op.ret (v : τ) : Op ω X τ := fun w => (.ok v, w)

/-- The calls of a list are made in order; each result is kept under its call's index.
The first call that throws is the last one made. -/
def callAll : List (κ × Op ω X τ) → Op ω X (List (κ × τ))
  | [], w => (.ok [], w)
  | (i, f) :: r, w =>
    match f w with
    | (.error e, w1) => (.error e, w1)
    | (.ok y, w1) =>
      match callAll r w1 with
      | (.error e, w2) => (.error e, w2)
      | (.ok ys, w2) => (.ok ((i, y) :: ys), w2)

/-- The operator is called on a running value and each element of the list in turn; the
first call that throws is the last one made. -/
def foldAll (f : τ → α → Op ω X τ) : τ → List α → Op ω X τ
  | t, [], w => (.ok t, w)
  | t, x :: r, w =>
    match f t x w with
    | (.error e, w1) => (.error e, w1)
    | (.ok t1, w1) => foldAll f t1 r w1

/-- The stored elements of a vector of size `n`, in ascending order of the index. -/
def stored (n : Nat) (v : Vec α) : List (Nat × α) :=
  (List.range n).filterMap fun i => (v i).map fun x => (i, x)

/-- The stored elements of a matrix with `m` rows and `n` columns, row by row. -/
def storedMat (m n : Nat) (A : Mat α) : List ((Nat × Nat) × α) :=
  (List.range m).flatMap fun i => (stored n (A i)).map fun p => ((i, p.1), p.2)

/-- The same column by column. -/
def storedCols (m n : Nat) (A : Mat α) : List ((Nat × Nat) × α) :=
  (List.range n).flatMap fun j => (stored m fun i => A i j).map fun p => ((p.1, j), p.2)

/-- The result kept under an index. -/
def resultAt [DecidableEq κ] : List (κ × τ) → κ → Option τ
  | [], _ => none
  | (k, y) :: r, i => if k = i then some y else resultAt r i

/-- The accumulator argument, as `Accum`, with an operator that may have effects. -/
inductive EAccum (ω X γ τ ζ : Type) where
  | none (cast : τ → ζ)
  | some (op : γ → τ → Op ω X ζ) (cC : γ → ζ) (cT : τ → ζ)

/-- The accumulator as one whose results are calls: a lone element is converted without a
call. -/
def EAccum.calls : EAccum ω X γ τ ζ → Accum γ τ (Op ω X ζ)
  | .none cast => .none fun t => .ret (cast t)
  | .some op cC cT => .some op (fun c => .ret (cC c)) fun t => .ret (cT t)

/-- All calls of a vector operation whose result before accumulation is `t`: the calls of
`t` in ascending order, then those of the accumulator in ascending order. -/
def vecCalls (n : Nat) (acc : EAccum ω X γ τ ζ) (c : Vec γ) (t : Vec (Op ω X τ)) :
    Op ω X (List (Nat × ζ)) :=
  Op.andThen (callAll (stored n t)) fun ts =>
    callAll (stored n fun i => accum acc.calls (c i) (resultAt ts i))

/-- The same for a matrix operation that makes the calls `T` before accumulation; the
accumulator's calls are made row by row. -/
def matCalls (m n : Nat) (acc : EAccum ω X γ τ ζ) (C : Mat γ) (T : List ((Nat × Nat) × Op ω X τ)) :
    Op ω X (List ((Nat × Nat) × ζ)) :=
  Op.andThen (callAll T) fun ts =>
    callAll (storedMat m n fun i j => accum acc.calls (C i j) (resultAt ts (i, j)))

/-- A sum of products, each product a call: the first product, then, for each further one,
the product and the addition that takes it. No product, no sum. -/
def sumCalls (add : τ → τ → Op ω X τ) : List (Op ω X τ) → Option (Op ω X τ)
  | [] => none
  | p :: r => some (p.andThen fun a => foldAll (fun t q => Op.andThen q (add t)) a r)

/-- A reduction, from left to right; a lone element is converted without a call. -/
def reduceCalls (op : α → α → Op ω X τ) (op' : τ → α → Op ω X τ) (first : α → τ) :
    List α → Option (Op ω X τ)
  | [] => none
  | [x] => some (.ret (first x))
  | x :: y :: r => some ((op x y).andThen fun t => foldAll op' t r)

/-- Values kept under indices are updated in the order of the list: each entry makes the new
value under its index from the old one, if there is one. -/
def updateAll [DecidableEq κ] : List (κ × (Option τ → Op ω X τ)) → (κ → Option τ) →
    Op ω X (κ → Option τ)
  | [], t => .ret t
  | (k, f) :: r, t => (f (t k)).andThen fun v => updateAll r fun i => if i = k then some v else t i

/-- The update that makes a product and adds it to the old value. -/
def addTo (add : τ → τ → Op ω X τ) (p : Op ω X τ) (old : Option τ) : Op ω X τ :=
  p.andThen fun a =>
    match old with
    | none => .ret a
    | some b => add b a

/-- The update of a reduction: the first element is converted without a call. -/
def reduceTo (op' : τ → α → Op ω X τ) (first : α → τ) (x : α) (old : Option τ) : Op ω X τ :=
  match old with
  | none => .ret (first x)
  | some t => op' t x

/-- The updates of the product of a vector of size `m` and a matrix with `n` columns: for each
element of the vector the row of the matrix under its index, in ascending order. -/
def vxmUpdates (add : τ → τ → Op ω X τ) (mult : α → β → Op ω X τ) (m n : Nat) (u : Vec α)
    (A : Mat β) : List (Nat × (Option τ → Op ω X τ)) :=
  (stored m u).flatMap fun p => (stored n (A p.1)).map fun q => (q.1, addTo add (mult p.2 q.2))

/-- The updates of the product of an `m` by `l` matrix and an `l` by `n` matrix: one row of
the first matrix after the other, each of them times the second matrix. -/
def mxmUpdates (add : τ → τ → Op ω X τ) (mult : α → β → Op ω X τ) (m l n : Nat) (A : Mat α)
    (B : Mat β) : List ((Nat × Nat) × (Option τ → Op ω X τ)) :=
  (List.range m).flatMap fun i => (vxmUpdates add mult l n (A i) B).map fun p => ((i, p.1), p.2)

/-- The updates of the product of the transpose of an `l` by `m` matrix and an `l` by `n`
matrix: for each row of both, every element of the first with every element of the second. -/
def mxmTUpdates (add : τ → τ → Op ω X τ) (mult : α → β → Op ω X τ) (l m n : Nat) (A : Mat α)
    (B : Mat β) : List ((Nat × Nat) × (Option τ → Op ω X τ)) :=
  (List.range l).flatMap fun k => (stored m (A k)).flatMap fun p =>
    (stored n (B k)).map fun q => ((p.1, q.1), addTo add (mult p.2 q.2))

/-- The calls of the Kronecker product of an `ra` by `ca` matrix and an `rb` by `cb` matrix. For
each row of the first and each row of the second: every element of the one with every element
of the other. The product of the elements at `(ia, ka)` and `(ib, kb)` belongs to
`place ia ib ka kb`. -/
def kronCalls (op : α → β → Op ω X τ) (ra ca rb cb : Nat) (place : Nat → Nat → Nat → Nat → Nat × Nat)
    (A : Mat α) (B : Mat β) : List ((Nat × Nat) × Op ω X τ) :=
  (List.range ra).flatMap fun ia => (List.range rb).flatMap fun ib =>
    (stored ca (A ia)).flatMap fun p => (stored cb (B ib)).map fun q =>
      (place ia ib p.1 q.1, op p.2 q.2)

/-- The same calls in another order: every element of the first matrix with the whole of the
second. -/
def kronCallsEach (op : α → β → Op ω X τ) (ra ca rb cb : Nat)
    (place : Nat → Nat → Nat → Nat → Nat × Nat) (A : Mat α) (B : Mat β) :
    List ((Nat × Nat) × Op ω X τ) :=
  (List.range ra).flatMap fun ia => (stored ca (A ia)).flatMap fun p =>
    (List.range rb).flatMap fun ib => (stored cb (B ib)).map fun q =>
      (place ia ib p.1 q.1, op p.2 q.2)

/-- The operator always returns `v`, whatever else it does. -/
def Returns (f : Op ω X τ) (v : τ) : Prop := ∀ w, ∃ w', f w = (.ok v, w')

/-- The operator returns `v` if it returns. -/
def ReturnsOrThrows (f : Op ω X τ) (v : τ) : Prop :=
  ∀ w, (∃ w', f w = (.ok v, w')) ∨ ∃ x w', f w = (.error x, w')

/-- The same as `Returns` for an accumulator and its operator. -/
def EAccum.Returns : EAccum ω X γ τ ζ → Accum γ τ ζ → Prop
  | .none c, .none c' => c = c'
  | .some op cC cT, .some f cC' cT' => (∀ x y, Spec.Returns (op x y) (f x y)) ∧ cC = cC' ∧ cT = cT'
  | _, _ => False

end Spec
