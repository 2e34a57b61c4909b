import Verif.Spec.AllocProgram
import Verif.Props.Retry
import Verif.Props.Program
/- Programs that run out of memory: every call that is not left out. -/
namespace GBTL
open Spec (Outp MaskKind Accum MatCall VecCall Ans AMat AVec)

variable {tm tv : Nat → Type} {γ ζ τ α ρ μ : Type}

/-- The store with the right counts. -/
def Store.exactly (s : Store tm tv) : Store tm tv := ⟨fun x => (s.mat x).recount, s.vec⟩

theorem Store.exactly_abs (s : Store tm tv) : s.exactly.abs = s.abs := rfl

theorem Store.Usable.exactly {s : Store tm tv} (h : s.Usable) : s.exactly.WF :=
  ⟨fun x => (h.mat x).recount_wf, h.vec⟩

theorem Store.Usable.setM {s : Store tm tv} (hs : s.Usable) {x : Nat} {v : Lil (tm x)} (hv : v.Over) :
    (s.setM x v).Usable := by
  refine ⟨fun y => ?_, hs.vec⟩
  by_cases h : y = x
  · subst h; simp only [Store.setM, upd_same]; exact hv
  · simp only [Store.setM, upd_ne (F := fun y => Lil (tm y)) _ v h]; exact hs.mat y

theorem Store.Usable.setV {s : Store tm tv} (hs : s.Usable) {x : Nat} {v : BVec (tv x)} (hv : v.WF)
    (h0 : 0 < v.size) : (s.setV x v).Usable := by
  refine ⟨hs.mat, fun y => ?_⟩
  by_cases h : y = x
  · subst h; simp only [Store.setV, upd_same]; exact ⟨hv, h0⟩
  · simp only [Store.setV, upd_ne (F := fun y => BVec (tv y)) _ v h]; exact hs.vec y

theorem Store.setM_more_abs (s : Store tm tv) (x : Nat) (A : Lil (tm x)) (d : Nat) :
    (s.setM x (A.more d)).abs = (s.exactly.setM x A).abs := by
  rw [Store.abs_setM, Store.abs_setM]; rfl

section
variable [∀ x, Inhabited (tm x)] [∀ x, Inhabited (tv x)]

/-- What has to be shown of a call. -/
def Settles (s : Store tm tv) (c : Stmt tm tv α) : Prop :=
  (∀ m, ∃ r s', c.execL m s = some (r, s') ∧ s'.Usable ∧ c.MayEnd s.abs r s'.abs) ∧
  ∀ prep work, ∃ k, ∀ mem, k ≤ mem → ∃ r s', c.execL ⟨mem, prep, work⟩ s = some (libRes r, s')

theorem observeL_lib {r : Except Err α} (h : r ≠ .error .ub) (s : Store tm tv) :
    observeL (libRes r) s = some (libRes r, s) := by
  rcases r with e | a
  · cases e <;> first | rfl | exact absurd rfl h
  · rfl

theorem mayEnd_lib {a a' : AStore tm tv} {c : Stmt tm tv α} {r : Except Err α} (h : c.spec a = (r, a')) :
    c.MayEnd a (libRes r) a' := by
  cases r <;> exact h

theorem Settles.onM {s : Store tm tv} (hs : s.Usable) {c : Stmt tm tv α} {x : Nat}
    {act : Nat → (Nat → Nat) → Act Nat (Lil (tm x)) BadAlloc α}
    (he : ∀ m, c.execL m s = s.onM x m.mem (act m.prep m.work)) {res : Except Err α} {A' : Lil (tm x)}
    (hr : ∀ p w, Runs (act p w) (s.mat x) res A' fun l => l.Over ∧ (l.nrows = (s.mat x).nrows ∧
      l.ncols = (s.mat x).ncols) ∧ (c.tears = some x ∨ l = s.mat x))
    (hO : A'.Over) (hne : res ≠ .error .ub) (hsp : c.spec s.abs = (res, (s.setM x A').abs)) :
    Settles s c := by
  refine ⟨fun m => ?_, fun prep work => ?_⟩
  · rw [he]
    rcases (hr m.prep m.work).all m.mem with ⟨k, e⟩ | ⟨k, l, e, hl, ⟨hl1, hl2⟩, hl3⟩
    · unfold Store.onM
      rw [e, observeL_lib hne]
      exact ⟨_, _, rfl, hs.setM hO, mayEnd_lib hsp⟩
    · unfold Store.onM
      rw [e]
      refine ⟨_, _, rfl, hs.setM hl, ?_⟩
      have hsh : ∀ y, ((s.setM x l).mat y).nrows = (s.mat y).nrows ∧
          ((s.setM x l).mat y).ncols = (s.mat y).ncols := by
        intro y
        by_cases h : y = x
        · subst h; simp only [Store.setM, upd_same]; exact ⟨hl1, hl2⟩
        · simp only [Store.setM, upd_ne (F := fun y => Lil (tm y)) _ l h, and_self]
      refine ⟨rfl, fun y hy => ?_, fun y => (hsh y).1, fun y => (hsh y).2⟩
      rcases hl3 with hl3 | rfl
      · have : y ≠ x := by rintro rfl; exact hy hl3
        show AMat.mk _ _ _ = AMat.mk _ _ _
        simp only [Store.setM, upd_ne (F := fun y => Lil (tm y)) _ l this]
      · rw [Store.setM_self]
  · obtain ⟨k, h⟩ := (hr prep work).enough
    refine ⟨k, fun mem hm => ⟨res, s.setM x A', ?_⟩⟩
    obtain ⟨d, rfl⟩ := Nat.exists_eq_add_of_le hm
    rw [he]
    show observeL (act prep work (k + d, s.mat x)).1 (s.setM x (act prep work (k + d, s.mat x)).2.2) = _
    rw [h d, observeL_lib hne]

theorem Settles.onV {s : Store tm tv} (hs : s.Usable) {c : Stmt tm tv α} {x : Nat}
    {act : Nat → (Nat → Nat) → Act Nat (BVec (tv x)) BadAlloc α}
    (he : ∀ m, c.execL m s = s.onV x m.mem (act m.prep m.work)) {res : Except Err α} {v' : BVec (tv x)}
    (hr : ∀ p w, Runs (act p w) (s.vec x) res v' (· = s.vec x))
    (hO : (s.setV x v').Usable) (hne : res ≠ .error .ub) (hsp : c.spec s.abs = (res, (s.setV x v').abs)) :
    Settles s c := by
  refine ⟨fun m => ?_, fun prep work => ?_⟩
  · rw [he]
    rcases (hr m.prep m.work).all m.mem with ⟨k, e⟩ | ⟨k, l, e, rfl⟩
    · unfold Store.onV
      rw [e, observeL_lib hne]
      exact ⟨_, _, rfl, hO, mayEnd_lib hsp⟩
    · unfold Store.onV
      rw [e]
      refine ⟨_, _, rfl, by rw [Store.setV_self]; exact hs, ?_⟩
      rw [Store.setV_self]
      exact ⟨rfl, fun _ _ => rfl, fun _ => rfl, fun _ => rfl⟩
  · obtain ⟨k, h⟩ := (hr prep work).enough
    refine ⟨k, fun mem hm => ⟨res, s.setV x v', ?_⟩⟩
    obtain ⟨d, rfl⟩ := Nat.exists_eq_add_of_le hm
    rw [he]
    show observeL (act prep work (k + d, s.vec x)).1 (s.setV x (act prep work (k + d, s.vec x)).2.2) = _
    rw [h d, observeL_lib hne]

theorem Settles.first {s : Store tm tv} (hs : s.Usable) {c : Stmt tm tv α}
    (he : ∀ m, c.execL m s = m.first s (c.exec s)) {s' : Store tm tv}
    (h : c.exec s = some ((c.spec s.abs).1, s')) (hO : s'.Usable) (ha : s'.abs = (c.spec s.abs).2) :
    Settles s c := by
  have hfit : ∀ m : Room, ¬ m.mem < m.prep → c.execL m s = some (libRes (c.spec s.abs).1, s') := by
    intro m hm
    rw [he, h]
    unfold Room.first
    rw [if_neg hm]
    cases (c.spec s.abs).1 <;> rfl
  refine ⟨fun m => ?_, fun prep work => ⟨prep, fun mem hm => ⟨_, _, hfit _ (by show ¬ mem < prep; omega)⟩⟩⟩
  by_cases hm : m.mem < m.prep
  · rw [he]
    unfold Room.first
    rw [if_pos hm]
    exact ⟨_, _, rfl, hs, rfl, fun _ _ => rfl, fun _ => rfl, fun _ => rfl⟩
  · exact ⟨_, _, hfit m hm, hO, mayEnd_lib (by rw [ha])⟩

end

/-! ### Methods -/

theorem Runs.answer {χ : Type} {x : Act Nat χ BadAlloc Unit} {s s' : χ} {res : Except Err Unit} {F : χ → Prop}
    (h : Runs x s res s' F) (a : τ) :
    Runs (x >>= fun _ => Pure.pure a) s (res.map fun _ => a) s' F := by
  cases res with
  | error e => exact Runs.bind_err h
  | ok u => exact h.bind (Runs.pure a s')

theorem Lil.callL_runs (A : Lil α) (c : MatCall α) :
    Runs (Lil.callL c) A (A.call c).1 (A.call c).2 (· = A) := by
  have plain : ∀ c : MatCall α, Runs (fun s : Nat × Lil α =>
      (match s.2.call c with
      | (.ok a, B) => ((.ok a : Except (Halt BadAlloc) (Ans α)), (s.1, B))
      | (.error e, B) => (.error (.lib e), (s.1, B)))) A (A.call c).1 (A.call c).2 (· = A) := by
    intro c
    rcases h : A.call c with ⟨_ | _, B⟩ <;>
      exact ⟨fun mem => .inl ⟨mem, by simp only [h]; rfl⟩, 0, fun extra => by simp only [h, Nat.zero_add]; rfl⟩
  cases c with
  | set i j x =>
    have h := (Lil.setElementMergeL_runs A i j x fun _ new => new).answer (Ans.unit (α := α))
    have e : A.call (.set i j x) = ((A.setElementMerge i j x fun _ new => new).1.map fun _ => Ans.unit, (A.setElementMerge i j x fun _ new => new).2) := by
      simp only [Lil.call, Lil.setElement]
      rcases A.setElementMerge i j x fun _ new => new with ⟨_ | _, B⟩ <;> rfl
    rw [e]
    exact h
  | setMerge i j x f =>
    have h := (Lil.setElementMergeL_runs A i j x f).answer (Ans.unit (α := α))
    have e : A.call (.setMerge i j x f) = ((A.setElementMerge i j x f).1.map fun _ => Ans.unit, (A.setElementMerge i j x f).2) := by
      simp only [Lil.call, Lil.setElement]
      rcases A.setElementMerge i j x f with ⟨_ | _, B⟩ <;> rfl
    rw [e]
    exact h
  | resize m n =>
    have h := (Lil.resizeL_runs A m n).answer (Ans.unit (α := α))
    have e : A.call (.resize m n) = ((A.resize m n).1.map fun _ => Ans.unit, (A.resize m n).2) := by
      simp only [Lil.call, Lil.setElement]
      rcases A.resize m n with ⟨_ | _, B⟩ <;> rfl
    rw [e]
    exact h
  | remove i j => exact plain (.remove i j)
  | clear => exact plain .clear
  | has i j => exact plain (.has i j)
  | extract i j => exact plain (.extract i j)
  | nvals => exact plain .nvals
  | shape => exact plain .shape

theorem BVec.callL_runs [Inhabited α] {v : BVec α} (hv : v.WF) (c : VecCall α) (hc : ∀ n, c ≠ .resize n) :
    Runs (BVec.callL c) v (v.call c).1 (v.call c).2 (· = v) := by
  have plain : ∀ c : VecCall α, Runs (fun s : Nat × BVec α =>
      (match s.2.call c with
      | (.ok a, B) => ((.ok a : Except (Halt BadAlloc) (Ans α)), (s.1, B))
      | (.error e, B) => (.error (.lib e), (s.1, B)))) v (v.call c).1 (v.call c).2 (· = v) := by
    intro c
    rcases h : v.call c with ⟨_ | _, B⟩ <;>
      exact ⟨fun mem => .inl ⟨mem, by simp only [h]; rfl⟩, 0, fun extra => by simp only [h, Nat.zero_add]; rfl⟩
  cases c with
  | clear => exact (BVec.clearL_runs hv.blen).bind (Runs.pure _ _)
  | resize n => exact absurd rfl (hc n)
  | set i x => exact plain (.set i x)
  | remove i => exact plain (.remove i)
  | has i => exact plain (.has i)
  | extract i => exact plain (.extract i)
  | nvals => exact plain .nvals
  | size => exact plain .size

theorem Lil.build_more (dup : α → α → α) (d : Nat) : ∀ (ts : List (Nat × Nat × α)) (A : Lil α),
    (A.more d).build dup ts = ((A.build dup ts).1, (A.build dup ts).2.more d)
  | [], _ => rfl
  | (i, j, x) :: ts, A => by
    rw [build, build, setElementMerge_more]
    rcases A.setElementMerge i j x dup with ⟨_ | _, B⟩
    · rfl
    · exact build_more dup d ts B

end GBTL
