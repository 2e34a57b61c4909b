/-
What a caller's arrays hold after `extractTuples`, in words of the arrays alone.
-/
namespace Spec

variable {α β : Type}

/-- The first `n` places of the arrays, read together, list every stored element of a vector
once, in ascending order, and all other places are as they were. -/
structure VFilled (f : Nat → Option α) (c : α → β) (n : Nat) (is : List Nat) (xs : List β)
    (is' : List Nat) (xs' : List β) : Prop where
  lengths : is'.length = is.length ∧ xs'.length = xs.length
  fits : n ≤ is.length ∧ n ≤ xs.length
  stored : ∀ k, k < n → ∃ i x, is'[k]? = some i ∧ xs'[k]? = some (c x) ∧ f i = some x
  all : ∀ i x, f i = some x → ∃ k, k < n ∧ is'[k]? = some i
  ascending : ∀ k l i j, k < l → l < n → is'[k]? = some i → is'[l]? = some j → i < j
  rest : ∀ k, n ≤ k → is'[k]? = is[k]? ∧ xs'[k]? = xs[k]?

/-- The same for a matrix: row after row, ascending within a row. -/
structure MFilled (f : Nat → Nat → Option α) (c : α → β) (n : Nat) (is js : List Nat) (xs : List β)
    (is' js' : List Nat) (xs' : List β) : Prop where
  lengths : is'.length = is.length ∧ js'.length = js.length ∧ xs'.length = xs.length
  fits : n ≤ is.length ∧ n ≤ js.length ∧ n ≤ xs.length
  stored : ∀ k, k < n → ∃ i j x, is'[k]? = some i ∧ js'[k]? = some j ∧ xs'[k]? = some (c x) ∧
    f i j = some x
  all : ∀ i j x, f i j = some x → ∃ k, k < n ∧ is'[k]? = some i ∧ js'[k]? = some j
  ascending : ∀ k l i j i' j', k < l → l < n → is'[k]? = some i → js'[k]? = some j →
    is'[l]? = some i' → js'[l]? = some j' → i < i' ∨ i = i' ∧ j < j'
  rest : ∀ k, n ≤ k → is'[k]? = is[k]? ∧ js'[k]? = js[k]? ∧ xs'[k]? = xs[k]?

end Spec
