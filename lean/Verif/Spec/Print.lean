/-
What a printed container looks like: a first line with its shape and the number of stored
elements, then every place in order, separated by a comma and a blank.
-/
namespace Spec

variable {α : Type}

/-- What stands at a place: the value, or `none` for a place without a stored element. -/
def cell (sh : α → List Char) (none : List Char) : Option α → List Char
  | .some x => sh x
  | .none => none

/-- The first line of the text of a vector of size `n`. -/
def vectorHead (ty : List Char) (n nvals : Nat) : List Char :=
  "grb::Vector: Sequential Backend: backend::BitmapSparseVector<".toList ++ ty ++ ">, size  = ".toList ++
    Nat.toDigits 10 n ++ ", nvals = ".toList ++ Nat.toDigits 10 nvals

/-- The text of a vector of size `n`. -/
def vectorText (ty : List Char) (sh : α → List Char) (n nvals : Nat) (f : Nat → Option α) : List Char :=
  vectorHead ty n nvals ++ ['\n'] ++
    (['['] ++ List.intercalate [',', ' '] ((List.range n).map fun i => cell sh ['-'] (f i)) ++ [']'])

/-- A line of a matrix. -/
def matrixLine (sh : α → List Char) (m n : Nat) (f : Nat → Nat → Option α) (i : Nat) : List Char :=
  (if i = 0 then [' ', ' ', '[', '['] else [' ', ' ', ' ', '[']) ++
    List.intercalate [',', ' '] ((List.range n).map fun j => cell sh [' '] (f i j)) ++
    (if i + 1 = m then [']', ']'] else [']'])

/-- The first line of the text of an `m` by `n` matrix. -/
def matrixHead (ty : List Char) (m n nvals : Nat) : List Char :=
  "grb::Matrix: Sequential Backend: backend::LilSparseMatrix<".toList ++ ty ++ "> (".toList ++
    Nat.toDigits 10 m ++ " x ".toList ++ Nat.toDigits 10 n ++ "), nvals = ".toList ++ Nat.toDigits 10 nvals

/-- The text of an `m` by `n` matrix. -/
def matrixText (ty : List Char) (sh : α → List Char) (m n nvals : Nat) (f : Nat → Nat → Option α) : List Char :=
  matrixHead ty m n nvals ++ ['\n'] ++
    List.intercalate ['\n'] ((List.range m).map (matrixLine sh m n f))

/-- The texts of different values differ, contain no comma and no end of line, and are not the
one that stands for a place without a stored element. -/
structure Readable (sh : α → List Char) (none : List Char) : Prop where
  inj : ∀ x y, sh x = sh y → x = y
  comma : ∀ x, ',' ∉ sh x
  line : ∀ x, '\n' ∉ sh x
  not_none : ∀ x, sh x ≠ none

/-- Decimal notation of the integers. -/
def decimal (x : Int) : List Char :=
  if x < 0 then '-' :: Nat.toDigits 10 x.natAbs else Nat.toDigits 10 x.natAbs

end Spec
