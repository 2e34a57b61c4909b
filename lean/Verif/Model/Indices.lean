import Verif.Model.Ops
/- Index ranges, `/repo/src/graphblas/indices.hpp`. -/
namespace GBTL

/-- `IndexSequenceRange`, lines 171-193: `m_begin` and `m_end`, both `IndexType`
(64-bit unsigned). The constructor checks nothing. -/
structure IxRange where
  b : Nat
  e : Nat
  deriving DecidableEq, Repr

/-- Both fit in an `IndexType` (`uint64_t`), lines 191-192. -/
def IxRange.Fits (r : IxRange) : Prop := r.b < 2 ^ 64 ∧ r.e < 2 ^ 64

/-- `empty()`, line 182. -/
def IxRange.empty (r : IxRange) : Bool := r.b == r.e

/-- `size()`, line 187, modulo 2^64. -/
def IxRange.size (r : IxRange) : Nat := (r.e + 2 ^ 64 - r.b) % 2 ^ 64

/-- `operator[]`, line 189, modulo 2^64. -/
def IxRange.at (r : IxRange) (n : Nat) : Nat := add64 r.b n

/-- `for (auto it = first; it != last; ++it)` over `IndexGenerator`s, lines 86-163, and
the indices it visits; `none` if that takes more than the given number of steps. -/
def IxRange.walk (last : Nat) : Nat → Nat → Option (List Nat)
  | 0, it => if it = last then some [] else none
  | fuel + 1, it => if it = last then some [] else (walk last fuel (add64 it 1)).map (it :: ·)

/-- The indices of a range as an index argument of an operation, lines 182-189. The operations read
their index arguments by iterating from `begin()` to `end()`, with `size()`, and with
`operator[]`: see `C68_range_iterates`, `C68_range_elements`. -/
def IxRange.idx (r : IxRange) : Idx := .list ((List.range r.size).map r.at)

end GBTL
