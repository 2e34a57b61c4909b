import Verif.Lemmas.AllocProgramStmt
/-
**C103** Programs that go on after running out of memory.
-/
namespace GBTL
open Spec (Outp MaskKind Accum MatCall VecCall Ans AMat AVec)

variable {tm tv : Nat → Type} {α ρ : Type} [∀ x, Inhabited (tm x)] [∀ x, Inhabited (tv x)]

/-- **C103** One call, on matrices that may report too many elements: it returns or throws
as its meaning says, or throws `std::bad_alloc` and leaves everything but the elements of
its output matrix as it was. What it leaves can be used in the same way. -/
theorem C103_call_partial (s : Store tm tv) (hs : s.Usable) (c : Stmt tm tv α) (hh : c.handled s.abs)
    (hc : c.steady) (m : Room) :
    ∃ r s', c.execL m s = some (r, s') ∧ s'.Usable ∧ c.MayEnd s.abs r s'.abs :=
  (Stmt.settles hs c hh hc).1 m

/-- **C103** With enough memory it returns or throws as its meaning says. -/
theorem C103_enough_partial (s : Store tm tv) (hs : s.Usable) (c : Stmt tm tv α) (hh : c.handled s.abs)
    (hc : c.steady) (prep : Nat) (work : Nat → Nat) :
    ∃ enough, ∀ mem, enough ≤ mem → ∃ r s', c.execL ⟨mem, prep, work⟩ s = some (r, s') ∧ s'.Usable ∧
      (match r with
      | .ok v => c.spec s.abs = (.ok v, s'.abs)
      | .error (.lib e) => c.spec s.abs = (.error e, s'.abs)
      | .error (.op _) => False) := by
  obtain ⟨h1, h2⟩ := Stmt.settles hs c hh hc
  obtain ⟨k, hk⟩ := h2 prep work
  refine ⟨k, fun mem hm => ?_⟩
  obtain ⟨r, s', e⟩ := hk mem hm
  obtain ⟨r', t, e', hu, hme⟩ := h1 ⟨mem, prep, work⟩
  rw [e] at e'
  cases e'
  refine ⟨_, _, e, hu, ?_⟩
  cases r <;> exact hme

/-- **C103** A whole program, whatever memory its calls find: it runs to its end without
undefined behaviour, and each of its calls has ended in one of the ways it may end in. -/
theorem C103_program_partial (p : ProgramL tm tv ρ) (s : Store tm tv) (hs : s.Usable) (hp : p.steady s.abs)
    (m : Nat → Room) :
    ∃ r s', p.exec m s = some (r, s') ∧ s'.Usable ∧ p.MayEnd s.abs (r, s'.abs) := by
  induction p generalizing s m with
  | ret r => exact ⟨r, s, rfl, hs, rfl⟩
  | step c k ih =>
    obtain ⟨hh, hc, hk⟩ := hp
    obtain ⟨r, s', e, hs', h⟩ := C103_call_partial s hs c hh hc (m 0)
    obtain ⟨q, t, e', ht, h'⟩ := ih r s' hs' (hk r _ h) fun n => m (n + 1)
    refine ⟨q, t, ?_, ht, r, _, h, h'⟩
    rw [ProgramL.exec, e]
    exact e'

/-- **C103** The same from consistent containers. -/
theorem C103_program_from_consistent_partial (p : ProgramL tm tv ρ) (s : Store tm tv) (hs : s.WF)
    (hp : p.steady s.abs) (m : Nat → Room) :
    ∃ r s', p.exec m s = some (r, s') ∧ s'.Usable ∧ p.MayEnd s.abs (r, s'.abs) :=
  C103_program_partial p s ⟨fun x => (hs.mat x).over, hs.vec⟩ hp m

/-- The full statement for one call: nothing is left out. -/
def C103_statement : Prop :=
  ∀ (s : Store (fun _ => Nat) (fun _ => Nat)), s.Usable → ∀ c : Stmt (fun _ => Nat) (fun _ => Nat) Unit,
    c.handled s.abs → ∀ m : Room,
      ∃ r s', c.execL m s = some (r, s') ∧ s'.Usable

namespace Ex
/-- The matrices of the counterexample: the copied one has a longer first row. -/
def cpStore : Store (fun _ => Nat) (fun _ => Nat) :=
  ⟨fun x => if x = 0 then ⟨2, 2, 3, [[(0, 1)], [(0, 1), (1, 1)]]⟩ else ⟨2, 2, 2, [[(0, 1), (1, 1)], []]⟩,
    fun _ => ⟨1, 0, [0], [false]⟩⟩

theorem cpStore_wf : cpStore.WF := by
  refine ⟨fun x => ?_, fun x => ⟨⟨rfl, rfl, rfl⟩, Nat.one_pos⟩⟩
  by_cases h : x = 0
  · subst h; exact Lil.wf_chk (by decide +kernel)
  · simp only [cpStore, if_neg h]; exact Lil.wf_chk (by decide +kernel)
end Ex

/-- **C103** A matrix that could not be copied into for lack of memory may report fewer
elements than it stores: `nvals` is the source's, the rows are still the old ones.
`extractTuples` into arrays of `nvals()` elements then writes past their end. -/
theorem C103_copy_wrong :
    ∃ s', (Stmt.copyM 0 1 rfl).execL ⟨0, 0, fun _ => 0⟩ Ex.cpStore = some (.error (.op .badAlloc), s') ∧
      (s'.mat 0).nvals = 2 ∧ (s'.mat 0).extractTuples.length = 3 :=
  ⟨_, rfl, rfl, rfl⟩

namespace Ex
/-- The first row of the copied matrix has an element, that of the other has none. -/
def zeroStore : Store (fun _ => Nat) (fun _ => Nat) :=
  ⟨fun x => if x = 0 then ⟨2, 2, 2, [[], [(0, 1), (1, 1)]]⟩ else ⟨2, 2, 1, [[(0, 5)], []]⟩,
    fun _ => ⟨1, 0, [0], [false]⟩⟩

theorem zeroStore_wf : zeroStore.WF := by
  refine ⟨fun x => ?_, fun x => ⟨⟨rfl, rfl, rfl⟩, Nat.one_pos⟩⟩
  by_cases h : x = 0
  · subst h; exact Lil.wf_chk (by decide +kernel)
  · simp only [zeroStore, if_neg h]; exact Lil.wf_chk (by decide +kernel)

/-- The copy, the removal of an element, and the transpose of the matrix; `true` if the
last call succeeds. -/
def zeroProgram : ProgramL (fun _ => Nat) (fun _ => Nat) Bool :=
  .step (.copyM 0 1 rfl) fun _ => .step (.mcall 0 (.remove 1 0)) fun _ =>
    .step (.opM 2 none (.none id) id .merge (.transpose ⟨0, false⟩)) fun r => .ret r.toBool
end Ex

/-- **C103** Later calls compute wrong results then. The copy fails, an element is removed,
and the matrix reports none though it stores one, which the transpose lacks. -/
theorem C103_copy_then_transpose_wrong :
    ∃ s', Ex.zeroProgram.exec (fun n => ⟨if n = 0 then 0 else 99, 0, fun _ => 0⟩) Ex.zeroStore =
        some (true, s') ∧
      (s'.mat 0).get 1 1 = some 1 ∧ (s'.mat 0).nvals = 0 ∧ (s'.mat 2).get 1 1 = none :=
  ⟨_, rfl, by decide +kernel, by decide +kernel, by decide +kernel⟩

theorem C103_wrong : ¬ C103_statement := by
  intro h
  obtain ⟨r, s', e, hu⟩ := h Ex.cpStore ⟨fun x => (Ex.cpStore_wf.mat x).over, Ex.cpStore_wf.vec⟩
    (.copyM 0 1 rfl) trivial ⟨0, 0, fun _ => 0⟩
  obtain ⟨t, e', h1, h2⟩ := C103_copy_wrong
  rw [e] at e'
  cases e'
  have h3 := (hu.mat 0).le
  have h4 : (s'.mat 0).stored = 3 := by
    have := congrArg Prod.snd (Option.some.inj e)
    dsimp only at this
    rw [← this]
    rfl
  omega

/-! ### The hypotheses can be met -/
namespace Ex
/-- A program that copies matrix 1 to matrix 0 with `apply`, and doubles it if memory runs
out. -/
def cpProgram : ProgramL (fun _ => Nat) (fun _ => Nat) Bool :=
  .step (.opM 0 none (.none id) id .merge (.apply ⟨1, false⟩ id)) fun r =>
    match r with
    | .error (.op _) =>
      .step (.opM 0 none (.none id) id .merge (.apply ⟨0, false⟩ (2 * ·))) fun _ => .ret false
    | _ => .ret true

theorem cpProgram_steady (a : AStore (fun _ => Nat) (fun _ => Nat)) : cpProgram.steady a := by
  refine ⟨trivial, trivial, fun r a' _ => ?_⟩
  rcases r with (e | e) | v
  · trivial
  · exact ⟨trivial, trivial, fun _ _ _ => trivial⟩
  · trivial

/-- The first call runs out of memory after one element, the second does not. -/
def cpRoom (n : Nat) : Room := ⟨if n = 0 then 1 else 9, 0, fun _ => 0⟩
end Ex

example : ∃ r s', Ex.cpProgram.exec Ex.cpRoom Ex.cpStore = some (r, s') ∧ s'.Usable ∧
    Ex.cpProgram.MayEnd Ex.cpStore.abs (r, s'.abs) :=
  C103_program_from_consistent_partial _ _ Ex.cpStore_wf (Ex.cpProgram_steady _) _

/-- Matrix 0 holds one element then, twice what was copied. -/
example : ∃ s', Ex.cpProgram.exec Ex.cpRoom Ex.cpStore = some (false, s') ∧
    s'.mat 0 = ⟨2, 2, 1, [[(0, 2)], []]⟩ := ⟨_, rfl, by decide +kernel⟩

end GBTL
