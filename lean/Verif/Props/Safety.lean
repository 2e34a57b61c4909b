import Verif.Lemmas.SafetyStmt
import Verif.Props.Program
/-
C69. No call accesses memory outside the arrays of a container, and no exception
interrupts the writing of an output, whatever calls were made before it: also after
calls whose result is wrong or whose container is left inconsistent. `exec` is `none`
exactly in those cases (`Verif/Model/Program.lean`).
-/
namespace GBTL
open Spec (Outp MaskKind Accum MatCall VecCall Ans)

variable {tm tv : Nat → Type} {ρ α : Type}

/-- Consistent containers are safe. -/
theorem C69_consistent_safe (s : Store tm tv) (h : s.WF) : s.Safe :=
  ⟨fun x => ⟨(h.mat x).len, fun r hr p hp => ((h.mat x).rowOK r hr).bound p hp⟩,
    fun x => ⟨(h.vec x).1.vlen, (h.vec x).1.blen⟩⟩

section
variable [∀ x, Inhabited (tm x)] [∀ x, Inhabited (tv x)]

/-- One call, on objects that need only be safe: it returns or throws an exception of
the library, and leaves all objects safe. Missing: the calls excluded by
`Stmt.bounded`; see `C69_unbounded_wrong`. -/
theorem C69_call_partial (c : Stmt tm tv α) (s : Store tm tv) (hs : s.Safe) (hc : c.bounded s.abs) :
    ∃ r s', c.exec s = some (r, s') ∧ s'.Safe :=
  Stmt.regular hs c hc

/-- A program, of any length and control flow. -/
theorem C69_program_partial (p : Program tm tv ρ) (s : Store tm tv) (hs : s.Safe) (hp : p.bounded s) :
    ∃ r s', p.exec s = some (r, s') ∧ s'.Safe :=
  Program.regular hs p hp

end

/-- What is read from a safe matrix lies in its shape. -/
theorem C69_tuples_in_shape (A : Lil α) (h : A.Safe) :
    ∀ t ∈ A.extractTuples, t.1 < A.nrows ∧ t.2.1 < A.ncols := by
  intro t ht
  obtain ⟨l, hl, ht⟩ := List.mem_flatten.1 ht
  obtain ⟨q, hq, rfl⟩ := List.mem_map.1 hl
  obtain ⟨p, hp, rfl⟩ := List.mem_map.1 ht
  have hz := List.of_mem_zip hq
  have := List.mem_range.1 hz.1
  exact ⟨by have := h.len; simp only; omega, h.below _ hz.2 p hp⟩

/-- What is read from a safe vector lies in its shape. -/
theorem C69_vector_tuples_in_shape (v : BVec α) (h : v.Safe) :
    ∃ l, v.extractTuples = .ok l ∧ ∀ t ∈ l, t.1 < v.size :=
  h.at.contents.ex

/-! ### Concrete programs -/

/-- After `u.build({0, 0}, {1, 2})` the count of `u` is wrong, and after
`assign(A, NoMask, NoAccumulate, 7, {0, 1}, {1, 0})` the rows of `A` are not sorted.
Then `u = A' u`, with `A` for the mask of a product, an index out of bounds, a shape
that does not fit, a resize, and the tuples of both. -/
def messyProgram : Program (fun _ => Nat) (fun _ => Nat) (List (Nat × Nat × Nat) × List (Nat × Nat)) :=
  .step (.buildV 0 (· + ·) [(0, 1), (0, 2)]) fun _ =>
  .step (.opM 0 none (.none (fun n : Nat => n)) id .merge (.assignConst id 7 (some [0, 1]) (some [1, 0]))) fun _ =>
  .step (.opV 0 none (.none (fun n => n)) id .merge (.mxv ⟨0, true⟩ 0 natSR)) fun _ =>
  .step (.opM 1 (some (.comp, ⟨0, fun n => n != 0⟩)) (.none (fun n => n)) id .replace
    (.mxm ⟨0, false⟩ ⟨0, true⟩ natSR id)) fun _ =>
  .step (.mcall 0 (.set 2 0 1)) fun _ =>
  .step (.mcall 1 (.resize 3 3)) fun _ =>
  .step (.opM 0 none (.none (fun n => n)) id .merge (.transpose ⟨1, false⟩)) fun _ =>
  .step (.tuplesM 0) fun l =>
  .step (.tuplesV 0) fun w =>
  .ret (l.toOption.getD [], w.toOption.getD [])

/-- The hypotheses hold from every safe store. -/
theorem messyProgram_bounded (s : Store (fun _ => Nat) (fun _ => Nat)) : messyProgram.bounded s :=
  ⟨trivial, fun _ _ _ => ⟨trivial, fun _ _ _ => ⟨trivial, fun _ _ _ => ⟨trivial, fun _ _ _ =>
    ⟨trivial, fun _ _ _ => ⟨trivial, fun _ _ _ => ⟨trivial, fun _ _ _ => ⟨trivial, fun _ _ _ =>
    ⟨trivial, fun _ _ _ => trivial⟩⟩⟩⟩⟩⟩⟩⟩⟩

example : (messyProgram.exec natStore).map Prod.fst
    = some ([(0, 1, 7), (0, 0, 7), (1, 1, 7), (1, 0, 7)], [(0, 21), (1, 21)]) := by
  decide +kernel

/-- `Matrix A(std::vector<std::vector<T>>{})`. -/
def emptyDense : Program (fun _ => Nat) (fun _ => Nat) Unit :=
  .step (.denseM 0 (fun _ => true) []) fun _ => .ret ()

/-- `Vector u(3); assign(w, NoMask, NoAccumulate, u, AllIndices)` with `w` of size 2. -/
def oversizedV : Program (fun _ => Nat) (fun _ => Nat) Unit :=
  .step (.denseV 1 [7, 8, 9]) fun _ =>
  .step (.opV 0 none (.none (fun n => n)) id .merge (.assign id 1 none)) fun _ => .ret ()

/-- The same for matrices, 3 × 1 to 2 × 2. -/
def oversizedM : Program (fun _ => Nat) (fun _ => Nat) Unit :=
  .step (.denseM 1 (fun _ => true) [[7], [8], [9]]) fun _ =>
  .step (.opM 0 none (.none (fun n => n)) id .merge (.assign id ⟨1, false⟩ none none)) fun _ => .ret ()

/-- A 1 × (2^63 + 1) matrix with one element, its Kronecker product with a 1 × 2
matrix, whose number of columns is 2 modulo 2^64, and a product of a vector with it. -/
def wrappedKron : Program (fun _ => Nat) (fun _ => Nat) Unit :=
  .step (.newM 0 1 (2 ^ 63 + 1)) fun _ =>
  .step (.mcall 0 (.set 0 (2 ^ 62) 1)) fun _ =>
  .step (.denseM 1 (fun _ => true) [[1, 1]]) fun _ =>
  .step (.newM 2 1 2) fun _ =>
  .step (.opM 2 none (.none (fun n => n)) id .merge (.kronecker ⟨0, false⟩ ⟨1, false⟩ (· * ·))) fun _ =>
  .step (.denseV 1 [1]) fun _ =>
  .step (.opV 0 none (.none (fun n => n)) id .merge (.vxm 1 ⟨2, false⟩ natSR)) fun _ => .ret ()

/-- Without the exclusions the claim is false: each of these programs accesses memory
outside an array, from consistent objects. -/
theorem C69_unbounded_wrong :
    natStore.Safe ∧ (emptyDense.exec natStore).isNone = true ∧ (oversizedV.exec natStore).isNone = true ∧
    (oversizedM.exec natStore).isNone = true ∧ (wrappedKron.exec natStore).isNone = true :=
  ⟨C69_consistent_safe _ natStore_wf, by decide +kernel, by decide +kernel, by decide +kernel, by decide +kernel⟩

end GBTL
