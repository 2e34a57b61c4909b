import Verif.Lemmas.Threads
import Verif.Props.ProgramOpt
/-
C77. Threads that call the library at the same time and share objects for reading only:
whatever the schedule, every thread gets the answers and leaves the contents it would
get and leave if it ran alone.
-/
namespace GBTL
open Spec (Outp MaskKind Accum MatCall VecCall Ans)

variable {tm tv : Nat → Type} {ρ σ ι α : Type}

section
variable [∀ x, Inhabited (tm x)] [∀ x, Inhabited (tv x)]

/-- What a call returns or throws, and what it leaves in its outputs, depends on the
variables it is given only; and it changes its outputs only. For all calls, with either backend. -/
theorem C77_arguments_only (be : Backend tm) (c : Stmt tm tv α) (s s' t : Store tm tv) (r : Except Err α)
    (h : ∀ v, v ∈ c.reads ∨ v ∈ c.writes → s.Same s' v) (e : c.execOn be s = some (r, t)) :
    ∃ t', c.execOn be s' = some (r, t') ∧ (∀ v ∈ c.writes, t'.Same t v) ∧ ∀ v, v ∉ c.writes → t'.Same s' v := by
  obtain ⟨t', e', h'⟩ := execOn_local c h e
  exact ⟨t', e', fun v hv => (h' v hv).symm, execOn_frame c e'⟩

/-- Two programs that share variables for reading only can be run in either order. -/
theorem C77_either_order (be : Backend tm) (p : Program tm tv ρ) (q : Program tm tv σ) (Rp Wp Rq Wq : Var → Prop)
    (hp : p.Within Rp Wp) (hq : q.Within Rq Wq) (h1 : ∀ v, Wp v → ¬ Wq v ∧ ¬ Rq v)
    (h2 : ∀ v, Wq v → ¬ Wp v ∧ ¬ Rp v) (s s1 s2 : Store tm tv) (a : ρ) (b : σ)
    (e1 : p.execOn be s = some (a, s1)) (e2 : q.execOn be s1 = some (b, s2)) :
    ∃ s1', q.execOn be s = some (b, s1') ∧ p.execOn be s1' = some (a, s2) := by
  have f1 := fun v hv => p.execOn_frame hp e1 v hv
  obtain ⟨s1', e3, a3⟩ := q.execOn_agree hq (s' := s) (fun v hv => f1 v fun hw =>
    hv.elim (h1 v hw).2 (h1 v hw).1) e2
  have f3 := fun v hv => q.execOn_frame hq e3 v hv
  have f2 := fun v hv => q.execOn_frame hq e2 v hv
  obtain ⟨s2', e4, a4⟩ := p.execOn_agree hp (s' := s1') (fun v hv => (f3 v fun hw =>
    hv.elim (h2 v hw).2 (h2 v hw).1).symm) e1
  have f4 := fun v hv => p.execOn_frame hp e4 v hv
  refine ⟨s1', e3, ?_⟩
  have : s2' = s2 := Store.ext_same fun v => by
    by_cases hw : Wp v
    · exact (a4 v (.inr hw)).symm.trans (f2 v (h1 v hw).1).symm
    · by_cases hw' : Wq v
      · exact (f4 v hw).trans (a3 v (.inr hw')).symm
      · exact (f4 v hw).trans ((f3 v hw').trans ((f1 v hw).symm.trans (f2 v hw').symm))
  rw [e4, this]

variable [DecidableEq ι]

/-- With either backend, any number of threads that share objects for reading only, any schedule, calls
overlapping in any way: no call runs into undefined behaviour; a thread that has ended
has returned what it returns alone, and its own variables hold what they hold then,
whatever the others are doing; what belongs to no thread has not changed. -/
theorem C77_any_schedule (be : Backend tm) (p : ι → Program tm tv ρ) (R W : ι → Var → Prop) (hs : Separate R W p)
    (s : Store tm tv) (r : ι → ρ) (t : ι → Store tm tv) (alone : ∀ i, (p i).execOn be s = some (r i, t i))
    (m : Machine ι tm tv ρ) (hm : Machine.Reach be (Machine.init p s) m) :
    (∀ i, ¬ m.Undefined be i) ∧
    (∀ i q, m.prog i = .ret q → q = r i ∧ ∀ v, R i v ∨ W i v → m.store.Same (t i) v) ∧
    ∀ v, (∀ i, ¬ W i v) → m.store.Same s v := by
  have inv := (Inv.init (d := fun i => (r i, t i)) hs.within alone).reach hs.own hm
  have idle : Idle m := Idle.reach (fun _ _ _ => rfl) hm
  exact ⟨inv.defined, fun i q hq => inv.finished idle hq, inv.rest⟩

/-- No schedule gets stuck: from every state the threads can get into, any finite
selection of them can be run to the end. -/
theorem C77_can_finish (be : Backend tm) (p : ι → Program tm tv ρ) (R W : ι → Var → Prop) (hs : Separate R W p)
    (s : Store tm tv) (r : ι → ρ) (t : ι → Store tm tv) (alone : ∀ i, (p i).execOn be s = some (r i, t i))
    (m : Machine ι tm tv ρ) (hm : Machine.Reach be (Machine.init p s) m) (l : List ι) :
    ∃ m', Machine.Reach be m m' ∧ ∀ i ∈ l, m'.prog i = .ret (r i) := by
  have inv := (Inv.init (d := fun i => (r i, t i)) hs.within alone).reach hs.own hm
  obtain ⟨m', h1, h2, -⟩ := inv.all_run hs.own l m
  refine ⟨m', h1, fun i hi => ?_⟩
  obtain ⟨q, hq⟩ := h2 i hi
  rw [hq, ((C77_any_schedule be p R W hs s r t alone m' (hm.trans h1)).2.1 i q hq).1]

/-- Two schedules that end all threads end in the same state. -/
theorem C77_deterministic (be : Backend tm) (p : ι → Program tm tv ρ) (R W : ι → Var → Prop) (hs : Separate R W p)
    (s : Store tm tv) (r : ι → ρ) (t : ι → Store tm tv) (alone : ∀ i, (p i).execOn be s = some (r i, t i))
    (m n : Machine ι tm tv ρ) (hm : Machine.Reach be (Machine.init p s) m)
    (hn : Machine.Reach be (Machine.init p s) n) (em : ∀ i, ∃ q, m.prog i = .ret q)
    (en : ∀ i, ∃ q, n.prog i = .ret q) : m.prog = n.prog ∧ m.store = n.store := by
  obtain ⟨-, m2, m3⟩ := C77_any_schedule be p R W hs s r t alone m hm
  obtain ⟨-, n2, n3⟩ := C77_any_schedule be p R W hs s r t alone n hn
  refine ⟨funext fun i => ?_, Store.ext_same fun v => ?_⟩
  · obtain ⟨q, hq⟩ := em i
    obtain ⟨q', hq'⟩ := en i
    rw [hq, hq', (m2 i q hq).1, (n2 i q' hq').1]
  · by_cases h : ∃ i, W i v
    · obtain ⟨i, hi⟩ := h
      obtain ⟨q, hq⟩ := em i
      obtain ⟨q', hq'⟩ := en i
      exact ((m2 i q hq).2 v (.inr hi)).trans ((n2 i q' hq').2 v (.inr hi)).symm
    · exact (m3 v fun i hi => h ⟨i, hi⟩).trans (n3 v fun i hi => h ⟨i, hi⟩).symm

/-- What a thread that has ended leaves, if its run alone does what its program means. -/
theorem meaning_of_alone (be : Backend tm) (p : ι → Program tm tv ρ) (R W : ι → Var → Prop) (hs : Separate R W p)
    (s : Store tm tv)
    (hall : ∀ i, ∃ t, (p i).execOn be s = some (((p i).spec s.abs).1, t) ∧ t.abs = ((p i).spec s.abs).2)
    (m : Machine ι tm tv ρ) (hm : Machine.Reach be (Machine.init p s) m) :
    (∀ i, ¬ m.Undefined be i) ∧
    ∀ i q, m.prog i = .ret q → q = ((p i).spec s.abs).1 ∧
      (∀ x, W i (.mat x) → (m.store.abs.mat x) = ((p i).spec s.abs).2.mat x) ∧
      ∀ x, W i (.vec x) → (m.store.abs.vec x) = ((p i).spec s.abs).2.vec x := by
  have e : ∀ i, (p i).execOn be s = some (((p i).spec s.abs).1, (hall i).choose) := fun i => (hall i).choose_spec.1
  have ht : ∀ i, (hall i).choose.abs = ((p i).spec s.abs).2 := fun i => (hall i).choose_spec.2
  obtain ⟨h1, h2, -⟩ := C77_any_schedule be p R W hs s _ _ e m hm
  refine ⟨h1, fun i q hq => ?_⟩
  obtain ⟨h3, h4⟩ := h2 i q hq
  refine ⟨h3, fun x hx => ?_, fun x hx => ?_⟩
  · have := h4 (.mat x) (.inr hx)
    simp only [Store.Same] at this
    rw [← ht i]; simp only [Store.abs, this]
  · have := h4 (.vec x) (.inr hx)
    simp only [Store.Same] at this
    rw [← ht i]; simp only [Store.abs, this]

/-- With C67: the answers are those of the mathematical meaning of each program. The
calls must be handled (see `C67_program_partial` for those that are not). -/
theorem C77_meaning_of_handled (p : ι → Program tm tv ρ) (R W : ι → Var → Prop) (hs : Separate R W p)
    (s : Store tm tv) (hwf : s.WF) (hp : ∀ i, (p i).handled s.abs)
    (m : Machine ι tm tv ρ) (hm : Machine.Reach .sequential (Machine.init p s) m) :
    (∀ i, ¬ m.Undefined .sequential i) ∧
    ∀ i q, m.prog i = .ret q → q = ((p i).spec s.abs).1 ∧
      (∀ x, W i (.mat x) → (m.store.abs.mat x) = ((p i).spec s.abs).2.mat x) ∧
      ∀ x, W i (.vec x) → (m.store.abs.vec x) = ((p i).spec s.abs).2.vec x := by
  refine meaning_of_alone .sequential p R W hs s (fun i => ?_) m hm
  obtain ⟨t, e, -, h⟩ := C67_program_partial (p i) s hwf (hp i)
  exact ⟨t, (Program.execOn_sequential ..).trans e, h⟩

/-- With C82: the same with the `optimized_sequential` backend, for calls that it handles too
(see `C82_program_partial`). -/
theorem C77_meaning_of_handled_optimized (K : Convs tm) (p : ι → Program tm tv ρ) (R W : ι → Var → Prop)
    (hs : Separate R W p) (s : Store tm tv) (hwf : s.WF) (hp : ∀ i, (p i).handled s.abs)
    (ho : ∀ i, (p i).optHandled K s.abs)
    (m : Machine ι tm tv ρ) (hm : Machine.Reach (.optimized K) (Machine.init p s) m) :
    (∀ i, ¬ m.Undefined (.optimized K) i) ∧
    ∀ i q, m.prog i = .ret q → q = ((p i).spec s.abs).1 ∧
      (∀ x, W i (.mat x) → (m.store.abs.mat x) = ((p i).spec s.abs).2.mat x) ∧
      ∀ x, W i (.vec x) → (m.store.abs.vec x) = ((p i).spec s.abs).2.vec x := by
  refine meaning_of_alone (.optimized K) p R W hs s (fun i => ?_) m hm
  obtain ⟨-, t, e, -, h⟩ := C82_program_partial K (p i) s hwf (hp i) (ho i)
  exact ⟨t, (Program.execOn_optimized ..).trans e, h⟩

end

/-! ### Concrete threads -/

/-- A store with the 2 × 2 matrix 0 = {(0,1) ↦ 5, (1,0) ↦ 7} and the vector 0 = (1, 2). -/
def sharedStore : Store (fun _ => Nat) (fun _ => Nat) :=
  ⟨fun _ => ⟨2, 2, 2, [[(1, 5)], [(0, 7)]]⟩,
   fun
   | 0 => ⟨2, 2, [1, 2], [true, true]⟩
   | _ + 1 => ⟨2, 0, [0, 0], [false, false]⟩⟩

/-- Thread `i` multiplies the shared vector 0 with the shared matrix 0 (or its
transpose) into its own vector `i + 1`, and returns the tuples of that. -/
def sharedThread (i : Nat) : Program (fun _ => Nat) (fun _ => Nat) (List (Nat × Nat)) :=
  .step (.opV (i + 1) none (.none (fun n => n)) id .merge (.vxm 0 ⟨0, i % 2 == 1⟩ natSR)) fun _ =>
  .step (.tuplesV (i + 1)) fun
    | .ok l => .ret l
    | .error _ => .ret []

/-- Thread `i` reads matrix 0 and vector 0, and has vector `i + 1` for itself. -/
theorem sharedThread_separate :
    Separate (fun (_ : Nat) v => v = Var.mat 0 ∨ v = Var.vec 0) (fun i v => v = Var.vec (i + 1)) sharedThread where
  within := fun i => by
    refine ⟨by simp [Stmt.writes], ?_, fun r => ⟨by simp [Stmt.writes], by simp [Stmt.reads], fun q => ?_⟩⟩
    · simp [Stmt.reads, VOp.args, maskVars]
    · cases q <;> trivial
  own := by
    rintro i j hij v rfl
    simp; omega

example : ((sharedThread 0).exec sharedStore).map Prod.fst = some [(0, 14), (1, 5)] := by decide +kernel
example : ((sharedThread 1).exec sharedStore).map Prod.fst = some [(0, 10), (1, 7)] := by decide +kernel

/-- Every thread, of infinitely many, runs to the end alone. -/
theorem sharedThread_alone (be : Backend fun _ => Nat) (i : Nat) :
    ∃ t, (sharedThread i).execOn be sharedStore
      = some (if i % 2 = 1 then [(0, 10), (1, 7)] else [(0, 14), (1, 5)], t) := by
  have two : ∀ (b : Bool) (w : BVec Nat) (l : List (Nat × Nat)), (i % 2 == 1) = b →
      (VCall.vxm natSR (sharedStore.vec 0) (Ref.operand sharedStore ⟨0, b⟩)).run (μ := Unit)
        ⟨⟨2, 0, [0, 0], [false, false]⟩, none, fun _ => true, .none (fun n => n), id, .merge⟩ = .done w →
      observe w.extractTuples (sharedStore.setV (i + 1) w) = some (.ok l, sharedStore.setV (i + 1) w) →
      ∃ t, (sharedThread i).execOn be sharedStore = some (l, t) := by
    intro b w l hb e0 e2
    have e1 : (Stmt.opV (tm := fun _ => Nat) (tv := fun _ => Nat) (i + 1) none (.none (fun n => n)) id .merge
        (.vxm 0 ⟨0, b⟩ natSR)).execOn be sharedStore = some (.ok (), sharedStore.setV (i + 1) w) := by
      cases be <;> exact congrArg (observeOut (sharedStore.setV (i + 1))) e0
    have e3 : (Stmt.tuplesV (tm := fun _ => Nat) (tv := fun _ => Nat) (i + 1)).execOn be
        (sharedStore.setV (i + 1) w) = some (.ok l, sharedStore.setV (i + 1) w) := by
      have e4 : observe ((sharedStore.setV (i + 1) w).vec (i + 1)).extractTuples (sharedStore.setV (i + 1) w)
          = some (.ok l, sharedStore.setV (i + 1) w) := by
        rw [show (sharedStore.setV (i + 1) w).vec (i + 1) = w from upd_same (F := fun _ => BVec Nat) _ _ _]
        exact e2
      cases be <;> exact e4
    refine ⟨sharedStore.setV (i + 1) w, ?_⟩
    simp only [sharedThread, hb, Program.execOn, e1, e3]
  by_cases h : i % 2 = 1
  · rw [if_pos h]
    exact two true ⟨2, 2, [10, 7], [true, true]⟩ _ (by simp [h]) (by decide +kernel) rfl
  · rw [if_neg h]
    exact two false ⟨2, 2, [14, 5], [true, true]⟩ _ (by simp [h]) (by decide +kernel) rfl

/-- The theorem applies to them: with any schedule, a thread that ends has returned its
product, although infinitely many others read the same matrix and vector. -/
example (be : Backend fun _ => Nat) (m : Machine Nat (fun _ => Nat) (fun _ => Nat) (List (Nat × Nat)))
    (hm : Machine.Reach be (Machine.init sharedThread sharedStore) m) (i : Nat) (q : List (Nat × Nat))
    (hq : m.prog i = .ret q) : q = if i % 2 = 1 then [(0, 10), (1, 7)] else [(0, 14), (1, 5)] :=
  ((C77_any_schedule be sharedThread _ _ sharedThread_separate sharedStore _ _
    (fun i => (sharedThread_alone be i).choose_spec) m hm).2.1 i q hq).1

/-- Thread `i` multiplies the shared matrix 0 with itself into its own matrix `i + 1`, and returns the
tuples of that. -/
def productThread (i : Nat) : Program (fun _ => Nat) (fun _ => Nat) (List (Nat × Nat × Nat)) :=
  .step (.opM (tm := fun _ => Nat) (i + 1) none (.none id) id .merge (.mxm ⟨0, false⟩ ⟨0, false⟩ natSR id)) fun _ =>
  .step (.tuplesM (i + 1)) fun
    | .ok l => .ret l
    | .error _ => .ret []

theorem productThread_separate :
    Separate (fun (_ : Nat) v => v = Var.mat 0) (fun i v => v = Var.mat (i + 1)) productThread where
  within := fun i => by
    refine ⟨by simp [Stmt.writes], ?_, fun r => ⟨by simp [Stmt.writes], by simp [Stmt.reads], fun q => ?_⟩⟩
    · simp [Stmt.reads, MOp.args, maskVars]
    · cases q <;> trivial
  own := by
    rintro i j hij v rfl
    simp; omega

theorem productThread_handled (i : Nat) (a : AStore (fun _ => Nat) (fun _ => Nat)) :
    (productThread i).handled a ∧ (productThread i).oneType a := by
  constructor
  · refine ⟨fun h => (by cases h), trivial, ?_⟩
    dsimp only
    split <;> trivial
  · refine ⟨⟨.noAccum natSR rfl, fun _ _ _ h => (by cases h)⟩, trivial, ?_⟩
    dsimp only
    split <;> trivial

theorem sharedStore_wf : sharedStore.WF := by
  refine ⟨fun _ => ⟨⟨rfl, ?_⟩, rfl⟩, fun x => ?_⟩
  · intro r hr
    simp only [sharedStore, List.mem_cons, List.not_mem_nil, or_false] at hr
    rcases hr with rfl | rfl <;> exact ⟨by simp [Row.Sorted], by simp [sharedStore]⟩
  · cases x <;> exact ⟨⟨rfl, rfl, rfl⟩, Nat.zero_lt_two⟩

example : ((productThread 0).exec sharedStore).map Prod.fst = some [(0, 0, 35), (1, 1, 35)] := by decide +kernel

/-- The theorem applies to them with the `optimized_sequential` backend. -/
example (m : Machine Nat (fun _ => Nat) (fun _ => Nat) (List (Nat × Nat × Nat)))
    (hm : Machine.Reach (.optimized (Ex.oneConvs Nat)) (Machine.init productThread sharedStore) m) (i : Nat)
    (q : List (Nat × Nat × Nat)) (hq : m.prog i = .ret q) : q = ((productThread i).spec sharedStore.abs).1 :=
  ((C77_meaning_of_handled_optimized (Ex.oneConvs Nat) productThread _ _ productThread_separate sharedStore sharedStore_wf
    (fun i => (productThread_handled i _).1)
    (fun i => (productThread i).oneType_handled (Ex.oneConvs_trivial Nat) (productThread_handled i _).2) m hm).2 i q hq).1

/-- One thread inserts an element in matrix 0, the other asks for the number of stored
elements of it. -/
def racingThread (b : Bool) : Program (fun _ => Nat) (fun _ => Nat) Nat :=
  if b then .step (.mcall 0 (.set 0 0 9)) fun _ => .ret 0
  else .step (.mcall 0 .nvals) fun
    | .ok (.num n) => .ret n
    | _ => .ret 0

/-- The rule is needed: if a thread reads what another one is changing, it can get an
answer that it gets in neither order of the calls (here 1000, instead of 2 or 3). -/
theorem C77_sharing_written_wrong :
    (((racingThread false).exec sharedStore).map Prod.fst = some 2) ∧
    ((((racingThread true).exec sharedStore).bind fun q => (racingThread false).exec q.2).map Prod.fst
      = some 3) ∧
    ∃ m, Machine.Reach .sequential (Machine.init racingThread sharedStore) m ∧ m.prog false = .ret 1000 := by
  refine ⟨by decide +kernel, by decide +kernel, ?_⟩
  let bad : Store (fun _ => Nat) (fun _ => Nat) := ⟨fun _ => ⟨2, 2, 1000, []⟩, sharedStore.vec⟩
  let m0 := Machine.init racingThread sharedStore
  let m1 : Machine Bool (fun _ => Nat) (fun _ => Nat) Nat :=
    { m0 with view := setAt m0.view true (some m0.store) }
  let m2 : Machine Bool (fun _ => Nat) (fun _ => Nat) Nat :=
    { m1 with store := Store.mix [Var.mat 0] bad m1.store }
  let m3 : Machine Bool (fun _ => Nat) (fun _ => Nat) Nat :=
    { m2 with view := setAt m2.view false (some m2.store) }
  have s1 : m0.Step .sequential m1 := .start m0 true (.mcall 0 (.set 0 0 9)) (fun _ => .ret 0) rfl rfl
  have s2 : m1.Step .sequential m2 := .write m1 true (.mcall 0 (.set 0 0 9)) (fun _ => .ret 0) m0.store bad rfl rfl
  have s3 : m2.Step .sequential m3 := .start m2 false (.mcall 0 .nvals)
    (fun | .ok (.num n) => .ret n | _ => .ret 0) rfl rfl
  exact ⟨_, ((((Machine.Reach.refl _).tail s1).tail s2).tail s3).tail
    (.finish m3 false (.mcall 0 .nvals) (fun | .ok (.num n) => .ret n | _ => .ret 0) m2.store
      (m2.store.setM 0 (m2.store.mat 0)) (.ok (.num 1000)) rfl rfl rfl), rfl⟩

end GBTL
