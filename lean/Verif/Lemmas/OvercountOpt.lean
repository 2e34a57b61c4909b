import Verif.Lemmas.OvercountWrite
import Verif.Spec.OvercountOpt
/-
Matrices that report too many elements, in the products of the `optimized_sequential`
backend.
-/
namespace GBTL
open Spec (Accum Outp MaskKind)

variable {α β γ τ ζ μ ρ : Type}

/-- The same matrix except for the reported number of elements. -/
def Lil.Like (A B : Lil α) : Prop := A.recount = B.recount

namespace Lil.Like

theorem refl (A : Lil α) : A.Like A := by rfl
theorem rows {A B : Lil α} (h : A.Like B) : A.rows = B.rows := by
  have h' : A.recount = B.recount := h
  exact (congrArg Lil.rows h' :)
theorem nrows {A B : Lil α} (h : A.Like B) : A.nrows = B.nrows := by
  have h' : A.recount = B.recount := h
  exact (congrArg Lil.nrows h' :)
theorem ncols {A B : Lil α} (h : A.Like B) : A.ncols = B.ncols := by
  have h' : A.recount = B.recount := h
  exact (congrArg Lil.ncols h' :)

theorem mk {A B : Lil α} (h1 : A.nrows = B.nrows) (h2 : A.ncols = B.ncols) (h3 : A.rows = B.rows) : A.Like B := by
  obtain ⟨a, b, c, d⟩ := A
  obtain ⟨a', b', c', d'⟩ := B
  cases h1; cases h2; cases h3; rfl

/-- What does not read the number is the same. -/
theorem read {δ : Type} {g : Lil α → δ} (hg : ∀ A, g A.recount = g A) {A B : Lil α} (h : A.Like B) : g A = g B := by
  rw [← hg A, ← hg B, h]

theorem row {A B : Lil α} (h : A.Like B) (i : Nat) : A.row i = B.row i := h.read (g := fun A => A.row i) fun _ => rfl

end Lil.Like

/-- Both fail in the same way, or return matrices that are alike. -/
def Alike (x y : Except Err (Lil γ)) : Prop :=
  match x, y with
  | .ok C, .ok D => C.Like D
  | .error e, .error e' => e = e'
  | _, _ => False

theorem Alike.refl (x : Except Err (Lil γ)) : Alike x x := by
  cases x with
  | ok C => exact Lil.Like.refl C
  | error e => exact rfl

/-- From outputs that are alike to results that are alike. -/
def Rel (f g : Lil γ → Except Err (Lil γ)) : Prop := ∀ C D, C.Like D → Alike (f C) (g D)

namespace Rel

theorem ok : Rel (γ := γ) (fun C => .ok C) (fun C => .ok C) := fun _ _ h => h

theorem read {f f' : Lil γ → Except Err ρ} {g g' : ρ → Lil γ → Except Err (Lil γ)}
    (h : ∀ C D, C.Like D → f C = f' D) (hg : ∀ r, Rel (g r) (g' r)) :
    Rel (fun C => f C >>= fun r => g r C) (fun C => f' C >>= fun r => g' r C) := by
  intro C D hCD
  dsimp only
  rw [h C D hCD]
  cases f' D with
  | error e => exact rfl
  | ok r => exact hg r C D hCD

theorem bind {f f' : Lil γ → Except Err (Lil ρ)} {g g' : Lil ρ → Lil γ → Except Err (Lil γ)}
    (h : ∀ C D, C.Like D → Alike (f C) (f' D)) (hg : ∀ r r', r.Like r' → Rel (g r) (g' r')) :
    Rel (fun C => f C >>= fun r => g r C) (fun C => f' C >>= fun r => g' r C) := by
  intro C D hCD
  have h1 := h C D hCD
  dsimp only
  cases hf : f C with
  | error e =>
    rw [hf] at h1
    cases hf' : f' D with
    | error e' => rw [hf'] at h1; exact h1
    | ok r => rw [hf'] at h1; exact h1.elim
  | ok r =>
    rw [hf] at h1
    cases hf' : f' D with
    | error e' => rw [hf'] at h1; exact h1.elim
    | ok r' => rw [hf'] at h1; exact hg r r' h1 C D hCD

theorem cond {c : Prop} [Decidable c] {f f' g g' : Lil γ → Except Err (Lil γ)} (h1 : Rel f f') (h2 : Rel g g') :
    Rel (fun C => if c then f C else g C) (fun C => if c then f' C else g' C) := by
  intro C D h
  by_cases hc : c
  · simp only [if_pos hc]; exact h1 C D h
  · simp only [if_neg hc]; exact h2 C D h

theorem forN {n n' : Lil γ → Nat} {f f' : Nat → Lil γ → Except Err (Lil γ)} (hn : ∀ C D, C.Like D → n C = n' D)
    (h : ∀ i, Rel (f i) (f' i)) : Rel (fun C => GBTL.forN (n C) C f) (fun C => GBTL.forN (n' C) C f') := by
  intro C D hCD
  dsimp only
  rw [hn C D hCD]
  unfold GBTL.forN
  generalize List.range (n' D) = l
  revert C D
  induction l with
  | nil => intro C D h; exact h
  | cons x l ih =>
    intro C D hCD
    rw [List.foldlM_cons, List.foldlM_cons]
    have h1 := h x C D hCD
    cases hf : f x C with
    | error e =>
      rw [hf] at h1
      cases hf' : f' x D with
      | error e' => rw [hf'] at h1; exact h1
      | ok r => rw [hf'] at h1; exact h1.elim
    | ok r =>
      rw [hf] at h1
      cases hf' : f' x D with
      | error e' => rw [hf'] at h1; exact h1.elim
      | ok r' => rw [hf'] at h1; exact ih r r' h1

theorem setRow (i : Nat) (cast : ρ → γ) (r : Row ρ) : Rel (fun C => C.setRow i cast r) (fun C => C.setRow i cast r) := by
  intro C D h
  unfold Lil.setRow
  dsimp only
  rw [h.row i]
  cases D.row i with
  | error e => exact rfl
  | ok old =>
    simp only [Except.bind_ok']
    rw [h.rows]
    cases wr D.rows i (Row.cast cast r) with
    | error e => exact rfl
    | ok rows => exact Lil.Like.mk h.nrows h.ncols rfl

theorem mergeRow (i : Nat) (op : γ → ρ → γ) (cast : ρ → γ) (r : Row ρ) :
    Rel (fun C => C.mergeRow i op cast r) (fun C => C.mergeRow i op cast r) := by
  intro C D h
  unfold Lil.mergeRow
  dsimp only
  by_cases hr : r.isEmpty
  · rw [if_pos hr, if_pos hr]; exact h
  · rw [if_neg hr, if_neg hr, h.row i]
    cases D.row i with
    | error e => exact rfl
    | ok old =>
      simp only [Except.bind_ok']
      by_cases ho : old.isEmpty
      · rw [if_pos ho, if_pos ho]; exact setRow i cast r C D h
      · rw [if_neg ho, if_neg ho]; exact setRow i id _ C D h

theorem storeT (sf compl : Bool) (truthy : μ → Bool) (cast : ρ → γ) (direct : Bool) (i : Nat) (m : Row μ) (t : Row ρ) :
    Rel (GBTL.storeT sf compl truthy cast direct i m t) (GBTL.storeT sf compl truthy cast direct i m t) :=
  cond (setRow i cast t) (read (fun _ _ h => h.row i) fun _ => setRow i id _)

theorem storeZ (sf compl : Bool) (truthy : μ → Bool) (castZ : ζ → γ) (acc : AccOp γ τ ζ) (direct : Bool) (i : Nat)
    (m : Row μ) (t : Row τ) :
    Rel (GBTL.storeZ sf compl truthy castZ acc direct i m t) (GBTL.storeZ sf compl truthy castZ acc direct i m t) :=
  read (fun _ _ h => h.row i) fun _ => storeT _ _ _ _ _ _ _ _

theorem swapFrom {T T' : Lil γ} (hT : T.Like T') : Rel (fun C => C.swapFrom T) (fun C => C.swapFrom T') := by
  intro C D h
  unfold Lil.swapFrom
  dsimp only
  rw [h.rows, hT.rows]
  split
  · exact rfl
  · exact Lil.Like.mk h.nrows h.ncols rfl

theorem clear : Rel (γ := γ) (fun C => .ok C.clear) (fun C => .ok C.clear) := by
  intro C D h
  refine Lil.Like.mk h.nrows h.ncols ?_
  show C.rows.map _ = D.rows.map _
  rw [h.rows]

theorem recompute {f f' : Lil γ → Except Err (Lil γ)} (h : Rel f f') :
    Rel (fun C => f C >>= fun C => .ok C.recomputeNvals) (fun C => f' C >>= fun C => .ok C.recomputeNvals) :=
  bind h fun _ _ hr _ _ _ => Lil.Like.mk hr.nrows hr.ncols hr.rows

end Rel

/-- Arguments that are alike whenever the outputs are. -/
def Arg.Like (a a' : Arg γ α) : Prop := (∀ C D : Lil γ, C.Like D → (a.at C).Like (a'.at D)) ∧ a.isC = a'.isC

theorem Arg.recount_like (a : Arg γ α) : a.Like a.recount := by
  cases a with
  | obj A => exact ⟨fun _ _ _ => rfl, rfl⟩
  | same => exact ⟨fun _ _ h => h, rfl⟩

theorem Arg.obj_like {A A' : Lil α} (h : A.Like A') : Arg.Like (γ := γ) (.obj A) (.obj A') := ⟨fun _ _ _ => h, rfl⟩

theorem Arg.Like.nrows {a a' : Arg γ α} (h : a.Like a') {C D : Lil γ} (hCD : C.Like D) :
    (a.at C).nrows = (a'.at D).nrows := (h.1 C D hCD).nrows

theorem Arg.Like.row {a a' : Arg γ α} (h : a.Like a') (i : Nat) {C D : Lil γ} (hCD : C.Like D) :
    (a.at C).row i = (a'.at D).row i := (h.1 C D hCD).row i

section Rows
variable {add : τ → τ → τ} {mult : α → β → τ} {B B' : Lil β} (h : B.Like B')
include h

theorem abRow_like (a : Row α) : abRow add mult B a = abRow add mult B' a :=
  h.read (g := fun B => abRow add mult B a) fun _ => rfl
theorem abMaskedRow_like (sf compl : Bool) (truthy : μ → Bool) (m : Row μ) (a : Row α) :
    abMaskedRow sf compl truthy add mult m B a = abMaskedRow sf compl truthy add mult m B' a :=
  h.read (g := fun B => abMaskedRow sf compl truthy add mult m B a) fun _ => rfl
theorem abMaskRow_like (sf : Bool) (truthy : μ → Bool) (m : Row μ) (a : Row α) :
    abMaskRow sf truthy add mult m B a = abMaskRow sf truthy add mult m B' a :=
  h.read (g := fun B => abMaskRow sf truthy add mult m B a) fun _ => rfl
theorem abtRow_like (a : Row α) : abtRow add mult a B = abtRow add mult a B' :=
  h.read (g := fun B => abtRow add mult a B) fun _ => rfl
theorem abtMaskRow_like (sf : Bool) (truthy : μ → Bool) (m : Row μ) (a : Row α) :
    abtMaskRow sf truthy add mult m a B = abtMaskRow sf truthy add mult m a B' :=
  h.read (g := fun B => abtMaskRow sf truthy add mult m a B) fun _ => rfl
theorem abtCompRow_like (sf : Bool) (truthy : μ → Bool) (m : Row μ) (a : Row α) :
    abtCompRow sf truthy add mult m a B = abtCompRow sf truthy add mult m a B' :=
  h.read (g := fun B => abtCompRow sf truthy add mult m a B) fun _ => rfl

end Rows

section Kernels
variable {m m' : Arg γ μ} {a a' : Arg γ α} {b b' : Arg γ β} (hm : m.Like m') (ha : a.Like a') (hb : b.Like b')
include ha hb

theorem abNoMaskNoAccumK_rel (add : τ → τ → τ) (mult : α → β → τ) (cast : τ → γ) :
    Rel (fun C => abNoMaskNoAccumK add mult cast C a b) (fun C => abNoMaskNoAccumK add mult cast C a' b') :=
  Rel.forN (fun _ _ h => ha.nrows h) fun i => Rel.read (fun _ _ h => ha.row i h) fun _ =>
    Rel.read (fun C D h => abRow_like (hb.1 C D h) _) fun _ => Rel.setRow _ _ _

theorem abNoMaskAccumK_rel (x : OptOps α β γ τ ζ μ) (acc : AccOp γ τ ζ) :
    Rel (fun C => abNoMaskAccumK x acc C a b) (fun C => abNoMaskAccumK x acc C a' b') :=
  Rel.forN (fun _ _ h => ha.nrows h) fun i => Rel.read (fun _ _ h => ha.row i h) fun _ =>
    Rel.read (fun C D h => abRow_like (hb.1 C D h) _) fun _ => Rel.cond (Rel.mergeRow _ _ _ _) Rel.ok

theorem abtNoMaskNoAccumK_rel (add : τ → τ → τ) (mult : α → β → τ) (cast : τ → γ) :
    Rel (fun C => abtNoMaskNoAccumK add mult cast C a b) (fun C => abtNoMaskNoAccumK add mult cast C a' b') :=
  Rel.forN (fun _ _ h => ha.nrows h) fun i => Rel.read (fun _ _ h => ha.row i h) fun _ =>
    Rel.cond Rel.ok (Rel.read (fun C D h => abtRow_like (hb.1 C D h) _) fun _ => Rel.setRow _ _ _)

theorem abtNoMaskAccumK_rel (x : OptOps α β γ τ ζ μ) (acc : AccOp γ τ ζ) :
    Rel (fun C => abtNoMaskAccumK x acc C a b) (fun C => abtNoMaskAccumK x acc C a' b') :=
  Rel.forN (fun _ _ h => ha.nrows h) fun i => Rel.read (fun _ _ h => ha.row i h) fun _ =>
    Rel.cond Rel.ok (Rel.read (fun C D h => abtRow_like (hb.1 C D h) _) fun _ => Rel.cond (Rel.mergeRow _ _ _ _) Rel.ok)

include hm

theorem abMaskNoAccumK_rel (add : τ → τ → τ) (mult : α → β → τ) (truthy : μ → Bool) (cast : τ → γ) (sf : Bool) (outp : Outp) :
    Rel (fun C => abMaskNoAccumK add mult truthy cast sf outp C m a b)
      (fun C => abMaskNoAccumK add mult truthy cast sf outp C m' a' b') :=
  Rel.forN (fun _ _ h => ha.nrows h) fun i => Rel.read (fun _ _ h => hm.row i h) fun _ =>
    Rel.read (fun _ _ h => ha.row i h) fun _ =>
      Rel.read (fun C D h => abMaskRow_like (hb.1 C D h) ..) fun _ => Rel.storeT _ _ _ _ _ _ _ _

theorem abMaskAccumK_rel (x : OptOps α β γ τ ζ μ) (acc : AccOp γ τ ζ) (sf : Bool) (outp : Outp) :
    Rel (fun C => abMaskAccumK x acc sf outp C m a b) (fun C => abMaskAccumK x acc sf outp C m' a' b') :=
  Rel.forN (fun _ _ h => ha.nrows h) fun i => Rel.read (fun _ _ h => hm.row i h) fun _ =>
    Rel.read (fun _ _ h => ha.row i h) fun _ =>
      Rel.read (fun C D h => abMaskRow_like (hb.1 C D h) ..) fun _ => Rel.storeZ _ _ _ _ _ _ _ _ _

theorem abCompNoAccumK_rel (add : τ → τ → τ) (mult : α → β → τ) (truthy : μ → Bool) (cast : τ → γ) (sf : Bool) (outp : Outp) :
    Rel (fun C => abCompNoAccumK add mult truthy cast sf outp C m a b)
      (fun C => abCompNoAccumK add mult truthy cast sf outp C m' a' b') :=
  Rel.forN (fun _ _ h => ha.nrows h) fun i => Rel.read (fun _ _ h => hm.row i h) fun _ =>
    Rel.read (fun _ _ h => ha.row i h) fun _ =>
      Rel.read (fun C D h => abMaskedRow_like (hb.1 C D h) ..) fun _ => Rel.storeT _ _ _ _ _ _ _ _

theorem abCompAccumK_rel (x : OptOps α β γ τ ζ μ) (acc : AccOp γ τ ζ) (sf : Bool) (outp : Outp) :
    Rel (fun C => abCompAccumK x acc sf outp C m a b) (fun C => abCompAccumK x acc sf outp C m' a' b') :=
  Rel.forN (fun _ _ h => ha.nrows h) fun i => Rel.read (fun _ _ h => hm.row i h) fun _ =>
    Rel.read (fun _ _ h => ha.row i h) fun _ =>
      Rel.read (fun C D h => abMaskedRow_like (hb.1 C D h) ..) fun _ => Rel.storeZ _ _ _ _ _ _ _ _ _

theorem abtMaskNoAccumK_rel (add : τ → τ → τ) (mult : α → β → τ) (truthy : μ → Bool) (cast : τ → γ) (sf : Bool) (outp : Outp) :
    Rel (fun C => abtMaskNoAccumK add mult truthy cast sf outp C m a b)
      (fun C => abtMaskNoAccumK add mult truthy cast sf outp C m' a' b') :=
  Rel.forN (fun _ _ h => ha.nrows h) fun i => Rel.read (fun _ _ h => hm.row i h) fun _ =>
    Rel.read (fun _ _ h => ha.row i h) fun _ =>
      Rel.read (fun C D h => abtMaskRow_like (hb.1 C D h) ..) fun _ => Rel.storeT _ _ _ _ _ _ _ _

theorem abtMaskAccumK_rel (x : OptOps α β γ τ ζ μ) (acc : AccOp γ τ ζ) (sf : Bool) (outp : Outp) :
    Rel (fun C => abtMaskAccumK x acc sf outp C m a b) (fun C => abtMaskAccumK x acc sf outp C m' a' b') :=
  Rel.forN (fun _ _ h => ha.nrows h) fun i => Rel.read (fun _ _ h => hm.row i h) fun _ =>
    Rel.read (fun _ _ h => ha.row i h) fun _ =>
      Rel.read (fun C D h => abtMaskRow_like (hb.1 C D h) ..) fun _ => Rel.storeZ _ _ _ _ _ _ _ _ _

theorem abtCompNoAccumK_rel (add : τ → τ → τ) (mult : α → β → τ) (truthy : μ → Bool) (cast : τ → γ) (sf : Bool) (outp : Outp) :
    Rel (fun C => abtCompNoAccumK add mult truthy cast sf outp C m a b)
      (fun C => abtCompNoAccumK add mult truthy cast sf outp C m' a' b') :=
  Rel.forN (fun _ _ h => ha.nrows h) fun i => Rel.read (fun _ _ h => hm.row i h) fun _ =>
    Rel.read (fun _ _ h => ha.row i h) fun _ =>
      Rel.read (fun C D h => abtCompRow_like (hb.1 C D h) ..) fun _ => Rel.storeT _ _ _ _ _ _ _ _

theorem abtCompAccumK_rel (x : OptOps α β γ τ ζ μ) (acc : AccOp γ τ ζ) (sf : Bool) (outp : Outp) :
    Rel (fun C => abtCompAccumK x acc sf outp C m a b) (fun C => abtCompAccumK x acc sf outp C m' a' b') :=
  Rel.forN (fun _ _ h => ha.nrows h) fun i => Rel.read (fun _ _ h => hm.row i h) fun _ =>
    Rel.read (fun _ _ h => ha.row i h) fun _ =>
      Rel.read (fun C D h => abtCompRow_like (hb.1 C D h) ..) fun _ => Rel.storeZ _ _ _ _ _ _ _ _ _

end Kernels

theorem Lil.Like.clear_eq {C D : Lil γ} (h : C.Like D) : C.clear = D.clear := by
  obtain ⟨a, b, c, d⟩ := C
  obtain ⟨a', b', c', d'⟩ := D
  cases h.nrows; cases h.ncols; cases h.rows; rfl

theorem Lil.Like.new_eq {C D : Lil γ} (h : C.Like D) :
    (Lil.new C.nrows C.ncols : Lil ρ) = Lil.new D.nrows D.ncols := by rw [h.nrows, h.ncols]

theorem Lil.Like.read2 {δ : Type} {g : Lil α → Lil β → δ} (hg : ∀ A B, g A.recount B.recount = g A B) {A A' : Lil α}
    {B B' : Lil β} (h : A.Like A') (h' : B.Like B') : g A B = g A' B' := by
  rw [← hg A, ← hg A', h, h']

theorem Lil.Like.read3 {δ : Type} {g : Lil μ → Lil α → Lil β → δ}
    (hg : ∀ M A B, g M.recount A.recount B.recount = g M A B) {M M' : Lil μ} {A A' : Lil α}
    {B B' : Lil β} (h0 : M.Like M') (h : A.Like A') (h' : B.Like B') : g M A B = g M' A' B' := by
  rw [← hg M, ← hg M', h0, h, h']

theorem Alike.of_eq {x y : Except Err (Lil γ)} (h : x = y) : Alike x y := h ▸ Alike.refl x

/-- A temporary that is the same in both. -/
theorem Alike.tmp {x y : Except Err (Lil ρ)} {f g : Lil ρ → Except Err (Lil γ)} (h : x = y)
    (hg : ∀ T, Alike (f T) (g T)) : Alike (x >>= f) (y >>= g) := by
  subst h
  cases x with
  | error e => exact rfl
  | ok T => exact hg T

/-- The steps that bring a temporary into the output. -/
theorem fromTmp_rel {m m' : Arg γ μ} (hm : m.Like m') (sf compl : Bool) (truthy : μ → Bool) (outp : Outp) (T : Lil γ) :
    Rel (fun C => fromTmp sf compl truthy outp m T C) (fun C => fromTmp sf compl truthy outp m' T C) := by
  cases outp with
  | replace => exact Rel.swapFrom (.refl T)
  | merge =>
    exact Rel.forN (fun _ _ h => h.nrows) fun i => Rel.read (fun _ _ h => hm.row i h) fun _ =>
      Rel.read (fun _ _ _ => rfl) fun _ => Rel.storeT _ _ _ _ _ _ _ _

theorem fromTmpAccum_rel {m m' : Arg γ μ} (hm : m.Like m') (sf compl : Bool) (truthy : μ → Bool) (castZ : ζ → γ)
    (acc : AccOp γ τ ζ) (outp : Outp) (T : Lil τ) :
    Rel (fun C => fromTmpAccum sf compl truthy castZ acc outp m T C)
      (fun C => fromTmpAccum sf compl truthy castZ acc outp m' T C) :=
  Rel.forN (fun _ _ h => h.nrows) fun i => Rel.read (fun _ _ h => hm.row i h) fun _ =>
    Rel.read (fun _ _ _ => rfl) fun _ => Rel.storeZ _ _ _ _ _ _ _ _ _

theorem mergeTmp_rel (op : γ → ρ → γ) (cast : ρ → γ) (T : Lil ρ) :
    Rel (fun C => mergeTmp op cast T C) (fun C => mergeTmp op cast T C) :=
  Rel.forN (fun _ _ h => h.nrows) fun i => Rel.read (fun _ _ _ => rfl) fun _ => Rel.mergeRow _ _ _ _

/-- A loop that stores, for each row, something made of the mask's row and the
temporary's row. -/
theorem maskLoop_rel {m m' : Arg γ μ} (hm : m.Like m') (T : Lil ρ)
    {f : Nat → Row μ → Row ρ → Lil γ → Except Err (Lil γ)} (hf : ∀ i mr t, Rel (f i mr t) (f i mr t)) :
    Rel (fun C => forN C.nrows C fun i C => (m.at C).row i >>= fun mr => T.row i >>= fun t => f i mr t C)
      (fun C => forN C.nrows C fun i C => (m'.at C).row i >>= fun mr => T.row i >>= fun t => f i mr t C) :=
  Rel.forN (fun _ _ h => h.nrows) fun i => Rel.read (fun _ _ h => hm.row i h) fun _ =>
    Rel.read (fun _ _ _ => rfl) fun _ => hf _ _ _

/-- A loop that stores, for each row, something made of the temporary's row. -/
theorem rowLoop_rel (T : Lil ρ) {f : Nat → Row ρ → Lil γ → Except Err (Lil γ)} (hf : ∀ i t, Rel (f i t) (f i t)) :
    Rel (fun C => forN C.nrows C fun i C => T.row i >>= fun t => f i t C)
      (fun C => forN C.nrows C fun i C => T.row i >>= fun t => f i t C) :=
  Rel.forN (fun _ _ h => h.nrows) fun _ => Rel.read (fun _ _ _ => rfl) fun _ => hf _ _

section Wrappers
variable {C D : Lil γ} {m m' : Arg γ μ} {a a' : Arg γ α} {b b' : Arg γ β} (h : C.Like D) (hm : m.Like m') (ha : a.Like a')
  (hb : b.Like b') (za : ((a.at C).nvals == 0) = ((a'.at D).nvals == 0))
  (zb : ((b.at C).nvals == 0) = ((b'.at D).nvals == 0)) (zm : ((m.at C).nvals == 0) = ((m'.at D).nvals == 0))
  (x : OptOps α β γ τ ζ μ) (acc : AccOp γ τ ζ) (sf : Bool) (outp : Outp)
include h ha hb za zb

theorem optNoMaskNoAccumAB_like :
    Alike (optNoMaskNoAccumAB x C a b)
      (optNoMaskNoAccumAB x D a' b') := by
  unfold optNoMaskNoAccumAB
  rw [za, zb]
  split
  · exact .of_eq (congrArg _ h.clear_eq)
  rw [hb.2]
  split
  · refine .tmp (by rw [h.new_eq]; exact (Lil.Like.read2 (g := fun A B => abNoMaskNoAccumK x.add x.mult x.castT (Lil.new D.nrows D.ncols) (.obj A) (.obj B)) (fun _ _ => rfl) (ha.1 C D h) (hb.1 C D h))) fun T => ?_
    exact Rel.swapFrom (.refl T) C D h
  · exact abNoMaskNoAccumK_rel ha hb x.add x.mult x.castT C D h

theorem optNoMaskAccumAB_like :
    Alike (optNoMaskAccumAB x acc C a b)
      (optNoMaskAccumAB x acc D a' b') := by
  unfold optNoMaskAccumAB
  rw [za, zb]
  split
  · exact h
  rw [hb.2]
  split
  · refine .tmp (by rw [h.new_eq]; exact (Lil.Like.read2 (g := fun A B => abNoMaskNoAccumK x.add x.mult x.castT (Lil.new D.nrows D.ncols) (.obj A) (.obj B)) (fun _ _ => rfl) (ha.1 C D h) (hb.1 C D h))) fun T => ?_
    exact mergeTmp_rel _ _ T C D h
  · exact abNoMaskAccumK_rel ha hb x acc C D h

theorem optNoMaskNoAccumABT_like :
    Alike (optNoMaskNoAccumABT x C a b)
      (optNoMaskNoAccumABT x D a' b') := by
  unfold optNoMaskNoAccumABT
  rw [za, zb]
  split
  · exact .of_eq (congrArg _ h.clear_eq)
  rw [hb.2]
  split
  · refine .tmp (by rw [h.new_eq]; exact (Lil.Like.read2 (g := fun A B => abtNoMaskNoAccumK x.add x.mult x.castT (Lil.new D.nrows D.ncols) (.obj A) (.obj B)) (fun _ _ => rfl) (ha.1 C D h) (hb.1 C D h))) fun T => ?_
    exact Rel.swapFrom (.refl T) C D h
  · exact abtNoMaskNoAccumK_rel ha hb x.add x.mult x.castT C D h

theorem optNoMaskAccumABT_like :
    Alike (optNoMaskAccumABT x acc C a b)
      (optNoMaskAccumABT x acc D a' b') := by
  unfold optNoMaskAccumABT
  rw [za, zb]
  split
  · exact h
  rw [hb.2]
  split
  · refine .tmp (by rw [h.new_eq]; exact (Lil.Like.read2 (g := fun A B => abtNoMaskNoAccumK x.add x.mult x.castT (Lil.new D.nrows D.ncols) (.obj A) (.obj B)) (fun _ _ => rfl) (ha.1 C D h) (hb.1 C D h))) fun T => ?_
    exact mergeTmp_rel _ _ T C D h
  · exact abtNoMaskAccumK_rel ha hb x acc C D h

theorem optNoMaskNoAccumATB_like :
    Alike (optNoMaskNoAccumATB x C a b)
      (optNoMaskNoAccumATB x D a' b') := by
  unfold optNoMaskNoAccumATB
  rw [za, zb]
  split
  · exact .of_eq (congrArg _ h.clear_eq)
  exact .tmp (by rw [h.new_eq]; exact Lil.Like.read2 (g := fun A B => atbNoMaskK x.add x.mult (Lil.new D.nrows D.ncols) A B) (fun _ _ => rfl) (ha.1 C D h) (hb.1 C D h)) fun T =>
    (rowLoop_rel T fun _ _ => Rel.setRow _ _ _) C D h

theorem optNoMaskAccumATB_like :
    Alike (optNoMaskAccumATB x acc C a b)
      (optNoMaskAccumATB x acc D a' b') := by
  unfold optNoMaskAccumATB
  rw [za, zb]
  split
  · exact h
  exact .tmp (by rw [h.new_eq]; exact Lil.Like.read2 (g := fun A B => atbNoMaskK x.add x.mult (Lil.new D.nrows D.ncols) A B) (fun _ _ => rfl) (ha.1 C D h) (hb.1 C D h)) fun T =>
    (rowLoop_rel T fun _ _ => Rel.cond (Rel.mergeRow _ _ _ _) Rel.ok) C D h

theorem optNoMaskNoAccumATBT_like :
    Alike (optNoMaskNoAccumATBT x C a b)
      (optNoMaskNoAccumATBT x D a' b') := by
  unfold optNoMaskNoAccumATBT
  rw [za, zb]
  split
  · exact .of_eq (congrArg _ h.clear_eq)
  rw [ha.2, hb.2]
  split
  · exact .tmp (by rw [h.new_eq]; exact Lil.Like.read2 (g := fun A B => atbtK x.add x.multA x.castBA x.castT (Lil.new D.nrows D.ncols) A B) (fun _ _ => rfl) (ha.1 C D h) (hb.1 C D h)) fun T =>
      Rel.recompute (rowLoop_rel T fun _ _ => Rel.setRow _ _ _) C D h
  · refine .tmp ?_ fun T => Alike.refl _
    unfold atbtK
    rw [h.clear_eq]
    exact Lil.Like.read2 (g := fun A B => atbtK x.add x.multA x.castBA x.castT D A B) (fun _ _ => rfl) (ha.1 C D h) (hb.1 C D h)

theorem optNoMaskAccumATBT_like :
    Alike (optNoMaskAccumATBT x acc C a b)
      (optNoMaskAccumATBT x acc D a' b') := by
  unfold optNoMaskAccumATBT
  rw [za, zb]
  split
  · exact h
  exact .tmp (by rw [h.new_eq]; exact Lil.Like.read2 (g := fun A B => atbtK x.add x.multA x.castBA id (Lil.new D.nrows D.ncols) A B) (fun _ _ => rfl) (ha.1 C D h) (hb.1 C D h)) fun T =>
    mergeTmp_rel _ _ T C D h

include hm zm

theorem optMaskNoAccumAB_like :
    Alike (optMaskNoAccumAB x sf outp C m a b)
      (optMaskNoAccumAB x sf outp D m' a' b') := by
  unfold optMaskNoAccumAB
  rw [za, zb, zm]
  split
  · exact .of_eq (congrArg _ h.clear_eq)
  split
  · exact h
  rw [hb.2]
  split
  · refine .tmp (by rw [h.new_eq]; exact (Lil.Like.read3 (g := fun M A B => abMaskNoAccumK x.add x.mult x.truthy x.castT sf .replace (Lil.new D.nrows D.ncols) (.obj M) (.obj A) (.obj B)) (fun _ _ _ => rfl) (hm.1 C D h) (ha.1 C D h) (hb.1 C D h))) fun T => ?_
    exact fromTmp_rel hm _ _ _ _ T C D h
  · exact abMaskNoAccumK_rel hm ha hb x.add x.mult x.truthy x.castT sf outp C D h

theorem optMaskAccumAB_like :
    Alike (optMaskAccumAB x acc sf outp C m a b)
      (optMaskAccumAB x acc sf outp D m' a' b') := by
  unfold optMaskAccumAB
  rw [zm]
  split
  · exact .of_eq (congrArg _ h.clear_eq)
  split
  · exact h
  rw [hb.2]
  split
  · refine .tmp (by rw [h.new_eq]; exact (Lil.Like.read3 (g := fun M A B => abMaskNoAccumK x.add x.mult x.truthy id sf .replace (Lil.new D.nrows D.ncols) (.obj M) (.obj A) (.obj B)) (fun _ _ _ => rfl) (hm.1 C D h) (ha.1 C D h) (hb.1 C D h))) fun T => ?_
    exact fromTmpAccum_rel hm _ _ _ _ _ _ T C D h
  · exact abMaskAccumK_rel hm ha hb x acc sf outp C D h

theorem optCompNoAccumAB_like :
    Alike (optCompNoAccumAB x sf outp C m a b)
      (optCompNoAccumAB x sf outp D m' a' b') := by
  unfold optCompNoAccumAB
  rw [za, zb]
  split
  · exact .of_eq (congrArg _ h.clear_eq)
  rw [hb.2]
  split
  · refine .tmp (by rw [h.new_eq]; exact (Lil.Like.read3 (g := fun M A B => abCompNoAccumK x.add x.mult x.truthy x.castT sf .replace (Lil.new D.nrows D.ncols) (.obj M) (.obj A) (.obj B)) (fun _ _ _ => rfl) (hm.1 C D h) (ha.1 C D h) (hb.1 C D h))) fun T => ?_
    exact fromTmp_rel hm _ _ _ _ T C D h
  · exact abCompNoAccumK_rel hm ha hb x.add x.mult x.truthy x.castT sf outp C D h

theorem optCompAccumAB_like :
    Alike (optCompAccumAB x acc sf outp C m a b)
      (optCompAccumAB x acc sf outp D m' a' b') := by
  unfold optCompAccumAB
  rw [za, zb, zm]
  split
  · exact h
  rw [hb.2]
  split
  · refine .tmp (by rw [h.new_eq]; exact (Lil.Like.read3 (g := fun M A B => abCompNoAccumK x.add x.mult x.truthy id sf .replace (Lil.new D.nrows D.ncols) (.obj M) (.obj A) (.obj B)) (fun _ _ _ => rfl) (hm.1 C D h) (ha.1 C D h) (hb.1 C D h))) fun T => ?_
    exact fromTmpAccum_rel hm _ _ _ _ _ _ T C D h
  · exact abCompAccumK_rel hm ha hb x acc sf outp C D h

theorem optMaskNoAccumABT_like :
    Alike (optMaskNoAccumABT x sf outp C m a b)
      (optMaskNoAccumABT x sf outp D m' a' b') := by
  unfold optMaskNoAccumABT
  rw [za, zb, zm]
  split
  · exact .of_eq (congrArg _ h.clear_eq)
  split
  · exact h
  rw [hb.2]
  split
  · refine .tmp (by rw [h.new_eq]; exact (Lil.Like.read3 (g := fun M A B => abtMaskNoAccumK x.add x.mult x.truthy x.castT sf .replace (Lil.new D.nrows D.ncols) (.obj M) (.obj A) (.obj B)) (fun _ _ _ => rfl) (hm.1 C D h) (ha.1 C D h) (hb.1 C D h))) fun T => ?_
    exact fromTmp_rel hm _ _ _ _ T C D h
  · exact abtMaskNoAccumK_rel hm ha hb x.add x.mult x.truthy x.castT sf outp C D h

theorem optMaskAccumABT_like :
    Alike (optMaskAccumABT x acc sf outp C m a b)
      (optMaskAccumABT x acc sf outp D m' a' b') := by
  unfold optMaskAccumABT
  rw [zm]
  split
  · exact .of_eq (congrArg _ h.clear_eq)
  split
  · exact h
  rw [hb.2]
  split
  · refine .tmp (by rw [h.new_eq]; exact (Lil.Like.read3 (g := fun M A B => abtMaskNoAccumK x.add x.mult x.truthy id sf .replace (Lil.new D.nrows D.ncols) (.obj M) (.obj A) (.obj B)) (fun _ _ _ => rfl) (hm.1 C D h) (ha.1 C D h) (hb.1 C D h))) fun T => ?_
    exact fromTmpAccum_rel hm _ _ _ _ _ _ T C D h
  · exact abtMaskAccumK_rel hm ha hb x acc sf outp C D h

theorem optCompNoAccumABT_like :
    Alike (optCompNoAccumABT x sf outp C m a b)
      (optCompNoAccumABT x sf outp D m' a' b') := by
  unfold optCompNoAccumABT
  rw [za, zb]
  split
  · exact .of_eq (congrArg _ h.clear_eq)
  rw [hb.2]
  split
  · refine .tmp (by rw [h.new_eq]; exact (Lil.Like.read3 (g := fun M A B => abtCompNoAccumK x.add x.mult x.truthy x.castT sf .replace (Lil.new D.nrows D.ncols) (.obj M) (.obj A) (.obj B)) (fun _ _ _ => rfl) (hm.1 C D h) (ha.1 C D h) (hb.1 C D h))) fun T => ?_
    exact fromTmp_rel hm _ _ _ _ T C D h
  · exact abtCompNoAccumK_rel hm ha hb x.add x.mult x.truthy x.castT sf outp C D h

theorem optCompAccumABT_like :
    Alike (optCompAccumABT x acc sf outp C m a b)
      (optCompAccumABT x acc sf outp D m' a' b') := by
  unfold optCompAccumABT
  rw [hb.2]
  split
  · refine .tmp (by rw [h.new_eq]; exact (Lil.Like.read3 (g := fun M A B => abtCompNoAccumK x.add x.mult x.truthy id sf .replace (Lil.new D.nrows D.ncols) (.obj M) (.obj A) (.obj B)) (fun _ _ _ => rfl) (hm.1 C D h) (ha.1 C D h) (hb.1 C D h))) fun T => ?_
    exact fromTmpAccum_rel hm _ _ _ _ _ _ T C D h
  · exact abtCompAccumK_rel hm ha hb x acc sf outp C D h

theorem optMaskNoAccumATB_like :
    Alike (optMaskNoAccumATB x sf outp C m a b)
      (optMaskNoAccumATB x sf outp D m' a' b') := by
  unfold optMaskNoAccumATB
  rw [za, zb, zm]
  split
  · exact .of_eq (congrArg _ h.clear_eq)
  split
  · exact h
  exact .tmp (by rw [h.new_eq]; exact Lil.Like.read3 (g := fun M A B => atbMaskK sf x.truthy x.add x.mult (Lil.new D.nrows D.ncols) M A B) (fun _ _ _ => rfl) (hm.1 C D h) (ha.1 C D h) (hb.1 C D h)) fun T =>
    maskLoop_rel hm T (fun _ _ _ => Rel.storeT _ _ _ _ _ _ _ _) C D h

theorem optMaskAccumATB_like :
    Alike (optMaskAccumATB x acc sf outp C m a b)
      (optMaskAccumATB x acc sf outp D m' a' b') := by
  unfold optMaskAccumATB
  rw [zm]
  split
  · exact .of_eq (congrArg _ h.clear_eq)
  split
  · exact h
  exact .tmp (by rw [h.new_eq]; exact Lil.Like.read3 (g := fun M A B => atbMaskK sf x.truthy x.add x.mult (Lil.new D.nrows D.ncols) M A B) (fun _ _ _ => rfl) (hm.1 C D h) (ha.1 C D h) (hb.1 C D h)) fun T =>
    maskLoop_rel hm T (fun _ _ _ => Rel.storeZ _ _ _ _ _ _ _ _ _) C D h

theorem optCompNoAccumATB_like :
    Alike (optCompNoAccumATB x sf outp C m a b)
      (optCompNoAccumATB x sf outp D m' a' b') := by
  unfold optCompNoAccumATB
  rw [za, zb]
  split
  · exact .of_eq (congrArg _ h.clear_eq)
  exact .tmp (by rw [h.new_eq]; exact Lil.Like.read3 (g := fun M A B => atbCompK sf x.truthy x.add x.mult (Lil.new D.nrows D.ncols) M A B) (fun _ _ _ => rfl) (hm.1 C D h) (ha.1 C D h) (hb.1 C D h)) fun T =>
    maskLoop_rel hm T (fun _ _ _ => Rel.storeT _ _ _ _ _ _ _ _) C D h

theorem optCompAccumATB_like :
    Alike (optCompAccumATB x acc sf outp C m a b)
      (optCompAccumATB x acc sf outp D m' a' b') := by
  unfold optCompAccumATB
  rw [za, zb, zm]
  split
  · exact h
  exact .tmp (by rw [h.new_eq]; exact Lil.Like.read3 (g := fun M A B => atbCompK sf x.truthy x.add x.mult (Lil.new D.nrows D.ncols) M A B) (fun _ _ _ => rfl) (hm.1 C D h) (ha.1 C D h) (hb.1 C D h)) fun T =>
    maskLoop_rel hm T (fun _ _ _ => Rel.storeZ _ _ _ _ _ _ _ _ _) C D h

theorem optMaskNoAccumATBT_like :
    Alike (optMaskNoAccumATBT x sf outp C m a b)
      (optMaskNoAccumATBT x sf outp D m' a' b') := by
  unfold optMaskNoAccumATBT
  rw [za, zb, zm]
  split
  · exact .of_eq (congrArg _ h.clear_eq)
  split
  · exact h
  exact .tmp (by rw [h.nrows, h.ncols]; exact Lil.Like.read2 (g := fun A B => atbtT x.add x.multA x.castBA D.nrows D.ncols A B) (fun _ _ => rfl) (ha.1 C D h) (hb.1 C D h)) fun T =>
    maskLoop_rel hm T (fun _ _ _ => Rel.storeT _ _ _ _ _ _ _ _) C D h

theorem optMaskAccumATBT_like :
    Alike (optMaskAccumATBT x acc sf outp C m a b)
      (optMaskAccumATBT x acc sf outp D m' a' b') := by
  unfold optMaskAccumATBT
  rw [zm]
  split
  · exact .of_eq (congrArg _ h.clear_eq)
  split
  · exact h
  exact .tmp (by rw [h.nrows, h.ncols]; exact Lil.Like.read2 (g := fun A B => atbtT x.add x.multA x.castBA D.nrows D.ncols A B) (fun _ _ => rfl) (ha.1 C D h) (hb.1 C D h)) fun T =>
    maskLoop_rel hm T (fun _ _ _ => Rel.storeZ _ _ _ _ _ _ _ _ _) C D h

theorem optCompNoAccumATBT_like :
    Alike (optCompNoAccumATBT x sf outp C m a b)
      (optCompNoAccumATBT x sf outp D m' a' b') := by
  unfold optCompNoAccumATBT
  rw [za, zb]
  split
  · exact .of_eq (congrArg _ h.clear_eq)
  exact .tmp (by rw [h.nrows, h.ncols]; exact Lil.Like.read2 (g := fun A B => atbtT x.add x.multA x.castBA D.nrows D.ncols A B) (fun _ _ => rfl) (ha.1 C D h) (hb.1 C D h)) fun T =>
    maskLoop_rel hm T (fun _ _ _ => Rel.storeT _ _ _ _ _ _ _ _) C D h

theorem optCompAccumATBT_like :
    Alike (optCompAccumATBT x acc sf outp C m a b)
      (optCompAccumATBT x acc sf outp D m' a' b') := by
  unfold optCompAccumATBT
  rw [za, zb, zm]
  split
  · exact h
  exact .tmp (by rw [h.nrows, h.ncols]; exact Lil.Like.read2 (g := fun A B => atbtT x.add x.multA x.castBA D.nrows D.ncols A B) (fun _ _ => rfl) (ha.1 C D h) (hb.1 C D h)) fun T =>
    maskLoop_rel hm T (fun _ _ _ => Rel.storeZ _ _ _ _ _ _ _ _ _) C D h

end Wrappers

end GBTL
