import Verif.Lemmas.OptDispatch
import Verif.Props.Products
/-
C28-C30: `mxm` on both backends, with shared objects, and the fused masked kernels.
-/
namespace GBTL
open Spec (Outp MaskKind Accum)
open Row

variable {α β γ δ τ ζ μ : Type}

/-! ### C28 -/

section
variable {x : OptOps α β γ τ ζ μ} {acc : Option (AccOp γ τ ζ)} {cast : τ → ζ} {outp : Outp} {C : Lil γ}
  {M : ArgMask γ μ} {A : ArgOperand γ α} {B : ArgOperand γ β} {sr : SR α β τ} {via : τ → τ}

/-- `mxm` of the `optimized_sequential` backend leaves in `C` the GraphBLAS result,
under the hypotheses spelled out in `OptOps.Lossless` and `NoStaleRows`, whichever
arguments are the output object itself. `OptOps.mulFor` is the semiring's multiply,
except for two transposed operands. -/
theorem C28_optimized_mxm_partial
    (hx : x.Lossless acc cast outp (M.at C) (A.at C).get (B.at C).get)
    (ho : (x.out acc cast outp C M).WF) (hA : (A.at C).WF) (hB : (B.at C).WF)
    (hs : MxmShapes (x.out acc cast outp C M) (A.at C) (B.at C)) (hst : NoStaleRows acc C M A B) :
    ∃ C', optMxm x acc outp C M A B = .done C' ∧ (x.out acc cast outp C M).Yields
      (Spec.mxm (A.at C).ncols x.add (x.mulFor (A.at C) (B.at C)) (A.at C).get (B.at C).get) C' :=
  optMxm_spec hx ho hA hB hs hst

/-- Arguments of mismatched shapes make both backends throw and leave `C` alone. -/
theorem C28_shape_mismatch
    (hs : ¬ MxmShapes (x.out acc cast outp C M) (A.at C) (B.at C)) :
    optMxm x acc outp C M A B = .threw .dimension C ∧
    mxmShared x.truthy (accumOf acc cast) x.castZ outp C M sr via A B = .threw .dimension C := by
  have hc := (dim_mxm (x.out acc cast outp C M) (A.at C) (B.at C)).err hs
  refine ⟨run_threw (by simp) hc, run_threw (by simp) ?_⟩
  show (mxmChecks (M.at C) C (A.at C) (B.at C) >>= fun _ => _) = _
  rw [show mxmChecks (M.at C) C (A.at C) (B.at C) = .error .dimension from hc]
  rfl

/-- **C28**, proved part. For every operand combination, mask kind, accumulator,
output control, and sharing of objects with the output, both backends end in the
same state (or throw the same exception). Asked for: the same semiring on both
sides; conversions between scalar types that lose nothing (`Lossless`; in
particular for two transposed operands `B`'s values survive the conversion to `A`'s
type and the products the conversion to `C`'s); and `NoStaleRows`. Missing: the
claim is false otherwise, see `C28_stale_rows_wrong`, `C28_conversion_wrong` and
`C28_accum_conversion_wrong`. -/
theorem C28_backends_agree_partial
    (hx : x.Lossless acc cast outp (M.at C) (A.at C).get (B.at C).get)
    (hC : C.WF) (hM : (M.at C).WF) (hA : (A.at C).WF) (hB : (B.at C).WF) (hst : NoStaleRows acc C M A B)
    (hadd : sr.add = x.add) (hmul : sr.mult = x.mult)
    (hsw : (A.at C).isTr → (B.at C).isTr →
      (∀ a b, x.multA (x.castBA b) a = sr.multSwap b a) ∧ ∀ t, via t = t) :
    optMxm x acc outp C M A B = mxmShared x.truthy (accumOf acc cast) x.castZ outp C M sr via A B := by
  by_cases hs : MxmShapes (x.out acc cast outp C M) (A.at C) (B.at C)
  · have ho : (x.out acc cast outp C M).WF := ⟨hC, hM⟩
    obtain ⟨C1, e1, y1⟩ := optMxm_spec hx ho hA hB hs hst
    rw [e1, mxmShared_eq hC hM hA hB]
    have key : ∃ C', mxm (x.out acc cast outp C M) sr via (A.at C) (B.at C) = .done C' ∧
        (x.out acc cast outp C M).Yields (Spec.mxm (A.at C).ncols x.add (x.mulFor (A.at C) (B.at C))
          (A.at C).get (B.at C).get) C' := by
      generalize A.at C = A at *
      generalize B.at C = B at *
      rcases A with A | A <;> rcases B with B | B
      · simpa [OptOps.mulFor, hadd, hmul] using
          mxm_spec (sr := sr) (via := via) ho hA hB hs (fun h => h.elim)
      · simpa [OptOps.mulFor, hadd, hmul] using
          mxm_spec (sr := sr) (via := via) ho hA hB hs (fun h => h.elim)
      · simpa [OptOps.mulFor, hadd, hmul] using
          mxm_spec (sr := sr) (via := via) ho hA hB hs (fun _ h => h.elim)
      · obtain ⟨C', e, h⟩ := C10_mxm_ATBT_actual (sr := sr) (via := via) ho hA hB hs
        refine ⟨C', e, ?_⟩
        obtain ⟨h1, h2⟩ := hsw trivial trivial
        have : (fun i j => (Spec.mxm A.nrows sr.add (fun a b => sr.multSwap b a) (Spec.Mat.tr A.get)
            (Spec.Mat.tr B.get) i j).map via) = Spec.mxm A.nrows x.add
              (fun a b => x.multA (x.castBA b) a) (Spec.Mat.tr A.get) (Spec.Mat.tr B.get) := by
          funext i j
          rw [show via = id from funext h2, Option.map_id, id, hadd]
          congr 1
          funext a b
          exact (h1 a b).symm
        rw [this] at h
        exact h
    obtain ⟨C2, e2, y2⟩ := key
    show Outcome.done C1 = mxm (x.out acc cast outp C M) sr via (A.at C) (B.at C)
    rw [e2, y1.unique y2]
  · rw [(C28_shape_mismatch (sr := sr) (via := via) hs).1,
      (C28_shape_mismatch (sr := sr) (via := via) hs).2]

end

/-! ### C29 -/

@[simp] theorem Arg.at_copy (C D : Lil γ) (a : Arg γ α) : (a.copy C).at D = a.at C := rfl

theorem ArgOperand.at_copy (C : Lil γ) (A : ArgOperand γ α) : (A.copy C).at C = A.at C := by
  cases A <;> rfl

theorem ArgMask.at_copy (C : Lil γ) (M : ArgMask γ μ) : (M.copy C).at C = M.at C := by
  rcases M with _ | ⟨k, m⟩ <;> rfl

/-- **C29**, `sequential` backend: whichever of `A`, `B` and the mask are the output
object itself, the call does what it does on distinct copies. -/
theorem C29_sequential_shared {truthy : μ → Bool} {acc : Accum γ τ ζ} {castZ : ζ → γ} {outp : Outp}
    {C : Lil γ} {M : ArgMask γ μ} {sr : SR α β τ} {via : τ → τ} {A : ArgOperand γ α}
    {B : ArgOperand γ β} (hC : C.WF) (hM : (M.at C).WF) (hA : (A.at C).WF) (hB : (B.at C).WF) :
    mxmShared truthy acc castZ outp C M sr via A B
      = mxmShared truthy acc castZ outp C (M.copy C) sr via (A.copy C) (B.copy C) := by
  rw [mxmShared_eq hC hM hA hB, mxmShared_eq hC (by rw [ArgMask.at_copy]; exact hM)
    (by rw [ArgOperand.at_copy]; exact hA) (by rw [ArgOperand.at_copy]; exact hB),
    ArgMask.at_copy, ArgOperand.at_copy, ArgOperand.at_copy]

/-- **C29**, and on distinct objects it is the `mxm` of C09 and C10. -/
theorem C29_sequential_mxm {truthy : μ → Bool} {acc : Accum γ τ ζ} {castZ : ζ → γ} {outp : Outp}
    {C : Lil γ} {M : ArgMask γ μ} {sr : SR α β τ} {via : τ → τ} {A : ArgOperand γ α}
    {B : ArgOperand γ β} (hC : C.WF) (hM : (M.at C).WF) (hA : (A.at C).WF) (hB : (B.at C).WF) :
    mxmShared truthy acc castZ outp C M sr via A B
      = mxm { C := C, M := M.at C, truthy := truthy, acc := acc, castZ := castZ, outp := outp } sr via
          (A.at C) (B.at C) :=
  mxmShared_eq hC hM hA hB

section
variable {x : OptOps α β γ τ ζ μ} {acc : Option (AccOp γ τ ζ)} {cast : τ → ζ} {outp : Outp} {C : Lil γ}
  {M : ArgMask γ μ} {A : ArgOperand γ α} {B : ArgOperand γ β}

/-- **C29**, `optimized_sequential` backend, proved part: the same, where the
conversions lose nothing and the call on copies does not run into the rows that
`A*transpose(B)` leaves untouched. Missing: it is false otherwise, see
`C29_optimized_shared_wrong`. -/
theorem C29_optimized_shared_partial
    (hx : x.Lossless acc cast outp (M.at C) (A.at C).get (B.at C).get)
    (hC : C.WF) (hM : (M.at C).WF) (hA : (A.at C).WF) (hB : (B.at C).WF)
    (hst : NoStaleRows acc C (M.copy C) (A.copy C) (B.copy C)) :
    optMxm x acc outp C M A B = optMxm x acc outp C (M.copy C) (A.copy C) (B.copy C) := by
  have hst' : NoStaleRows acc C M A B := by
    intro h1 h2 a b h3 h4
    subst h1 h3 h4
    rcases hst rfl h2 (a.copy C) (b.copy C) rfl rfl with h | h
    · cases h
    · exact Or.inr h
  have hmo : x.out acc cast outp C (M.copy C) = x.out acc cast outp C M := by
    rw [OptOps.out, ArgMask.at_copy]; rfl
  by_cases hs : MxmShapes (x.out acc cast outp C M) (A.at C) (B.at C)
  · obtain ⟨C1, e1, y1⟩ := optMxm_spec hx ⟨hC, hM⟩ hA hB hs hst'
    obtain ⟨C2, e2, y2⟩ := optMxm_spec (M := M.copy C) (A := A.copy C) (B := B.copy C)
      (by rw [ArgMask.at_copy, ArgOperand.at_copy, ArgOperand.at_copy]; exact hx)
      (by rw [hmo]; exact ⟨hC, hM⟩) (by rw [ArgOperand.at_copy]; exact hA)
      (by rw [ArgOperand.at_copy]; exact hB)
      (by rw [hmo, ArgOperand.at_copy, ArgOperand.at_copy]; exact hs) hst
    rw [hmo, ArgOperand.at_copy, ArgOperand.at_copy] at y2
    rw [e1, e2, y1.unique y2]
  · rw [(C28_shape_mismatch (sr := ⟨x.add, x.mult, fun b a => x.mult a b⟩) (via := id) hs).1]
    have hs' : ¬ MxmShapes (x.out acc cast outp C (M.copy C)) ((A.copy C).at C) ((B.copy C).at C) := by
      rw [hmo, ArgOperand.at_copy, ArgOperand.at_copy]; exact hs
    rw [(C28_shape_mismatch (sr := ⟨x.add, x.mult, fun b a => x.mult a b⟩) (via := id) hs').1]

/-- **C29**, `optimized_sequential` backend: no such rows exist if there is a mask or
an accumulator, or `B` is not transposed, or `A` is. -/
theorem C29_no_stale_rows
    (h : M ≠ none ∨ acc ≠ none ∨ (∃ b, B = .plain b) ∨ ∃ a, A = .tr a) : NoStaleRows acc C M A B := by
  intro h1 h2 a b h3 h4
  rcases h with h | h | ⟨b', h⟩ | ⟨a', h⟩
  · exact absurd h1 h
  · exact absurd h2 h
  · rw [h4] at h; cases h
  · rw [h3] at h; cases h

/-- **C29**, `optimized_sequential` backend: nor if `A` is the output, or a copy of
it. -/
theorem C29_no_stale_rows_same {acc : Option (AccOp γ τ ζ)} :
    NoStaleRows acc C M (.plain .same) B ∧ NoStaleRows acc C M (.plain (.obj C)) B := by
  constructor
  · intro _ _ a b h3 _
    cases h3
    exact Or.inr fun i hi => hi
  · intro _ _ a b h3 _
    cases h3
    exact Or.inr fun i hi => hi

end

/-! ### C30 -/

section
variable {x : OptOps α β γ τ ζ μ} {acc : Option (AccOp γ τ ζ)} {cast : τ → ζ} {outp : Outp} {C : Lil γ}
  {k : MaskKind} {m : Arg γ μ} {A : ArgOperand γ α} {B : ArgOperand γ β} {sr : SR α β τ} {via : τ → τ}

/-- **C30**, proved part. A masked `mxm` of the `optimized_sequential` backend, which
computes only the positions that the mask allows, ends like that of the `sequential`
backend, which computes the whole product, accumulates and then writes through the
mask. Nothing is asked of the accumulator's conversions, except that old elements
survive the accumulator's result type if the mask and an operand store nothing and
the output control is REPLACE. Missing: in that case it is false, see
`C30_empty_mask_wrong`. -/
theorem C30_fused_mask_partial
    (hcast : acc = none → ∀ t, x.castZ (cast t) = x.castT t)
    (hskip : ∀ a, acc = some a → outp = .replace → (∀ i j, (m.at C).get i j = none) →
      (∀ i j, (A.at C).get i j = none) ∨ (∀ i j, (B.at C).get i j = none) →
      ∀ c, x.castZ (a.cC c) = c)
    (hC : C.WF) (hM : (m.at C).WF) (hA : (A.at C).WF) (hB : (B.at C).WF)
    (hadd : sr.add = x.add) (hmul : sr.mult = x.mult)
    (hsw : (A.at C).isTr → (B.at C).isTr →
      (∀ a b, x.multA (x.castBA b) a = sr.multSwap b a) ∧ ∀ t, via t = t) :
    optMxm x acc outp C (some (k, m)) A B
      = mxmShared x.truthy (accumOf acc cast) x.castZ outp C (some (k, m)) sr via A B := by
  refine C28_backends_agree_partial ⟨hcast, ?_, ?_, ?_, ?_⟩ hC ?_ hA hB ?_ hadd hmul hsw
  · intro h; cases h
  · intro h; cases h
  · intro h; cases h
  · intro k' m' a e; cases e; exact hskip a
  · intro k' m' e; cases e; exact hM
  · intro h; cases h

end

theorem lets_kind {sf compl : Bool} {truthy : μ → Bool} {m : Row μ} {j : Nat} :
    lets sf compl truthy m j = Spec.allows truthy (kindOf sf compl) (Row.get m j) := by
  cases sf <;> cases compl <;> simp only [lets, kindOf, Spec.allows] <;> cases Row.get m j <;> simp

theorem keepIf_lets {sf compl : Bool} {truthy : μ → Bool} {m : Row μ} {r : Row τ} :
    keepIf (lets sf compl truthy m) r = allowedOnly truthy (kindOf sf compl) m r := by
  simp only [keepIf, allowedOnly, lets_kind]

/-- **C30**, one row of `A*B`: multiplying through the mask gives the elements of the
full row of the product that the mask allows. -/
theorem C30_row_AB {sf compl : Bool} {truthy : μ → Bool} {add : τ → τ → τ} {mult : α → β → τ}
    {B : Lil β} (hB : B.WF) {a : Row α} (ha : Row.OK B.nrows a) {m : Row μ} (hm : Row.Sorted m) :
    abMaskedRow sf compl truthy add mult m B a
      = (abRow add mult B a).map (allowedOnly truthy (kindOf sf compl) m) := by
  rw [abMaskedRow_eq hB.toWFr ha hm, abRow_eq hB.toWFr ha, keepIf_lets]
  rfl

/-- **C30**, one row of `A*transpose(B)`. -/
theorem C30_row_ABT {sf compl : Bool} {truthy : μ → Bool} {add : τ → τ → τ} {mult : α → β → τ}
    {B : Lil β} (hB : B.WF) (a : Row α) {m : Row μ} (hm : Row.Sorted m) :
    abtMaskedRow sf compl truthy add mult m a B
      = (abtRow add mult a B).map (allowedOnly truthy (kindOf sf compl) m) := by
  rw [abtMaskedRow_eq hB.toWFr a hm, abtRow_eq hB.toWFr, keepIf_lets]
  rfl

/-- **C30**, accumulating through the mask: at each position that the mask allows
the accumulated value of the full rows, elsewhere nothing. -/
theorem C30_masked_accum {sf compl : Bool} {truthy : μ → Bool} {op : γ → τ → ζ} {cC : γ → ζ}
    {cT : τ → ζ} {m : Row μ} {c : Row γ} {t : Row τ} (hm : Row.Sorted m) (hc : Row.Sorted c)
    (ht : Row.Sorted t) (j : Nat) :
    Row.get (maskedAccum sf compl truthy op cC cT m c (allowedOnly truthy (kindOf sf compl) m t)) j
      = if Spec.allows truthy (kindOf sf compl) (Row.get m j) then
          Spec.accum (.some op cC cT) (Row.get c j) (Row.get t j) else none := by
  rw [← keepIf_lets, maskedAccum_eq m c _ hm hc (sorted_keepIf ht) (fun p hp => (mem_keepIf.1 hp).2),
    (ewiseOr_spec _ _ (sorted_keepIf hc) (sorted_keepIf ht)).2, get_keepIf, get_keepIf, ← lets_kind]
  by_cases hl : lets sf compl truthy m j = true <;> simp [hl, Spec.either, Spec.accum]

/-- **C30**, merging a row into the old row through the mask: what the mask allows
comes from the new row, the rest is old. -/
theorem C30_masked_merge {sf compl : Bool} {truthy : μ → Bool} {cast : ζ → γ} {n : Nat} {m : Row μ}
    {c : Row γ} {z : Row ζ} (hm : Row.Sorted m) (hc : Row.OK n c) (hz : Row.OK n z) (j : Nat) :
    Row.get (maskedMerge sf compl truthy cast m c (allowedOnly truthy (kindOf sf compl) m z)) j
      = if Spec.allows truthy (kindOf sf compl) (Row.get m j) then (Row.get z j).map cast
        else Row.get c j := by
  rw [← keepIf_lets, (maskedMerge_spec hz.keepIf hm hc (fun p hp => (mem_keepIf.1 hp).2)).2, get_keepIf,
    ← lets_kind]
  by_cases hl : lets sf compl truthy m j = true
  · simp only [hl, mergeAt, if_true]
    cases Row.get z j <;> rfl
  · simp [hl, mergeAt]

/-! ### concrete calls -/

namespace Ex

/-- plus-times over `Nat`, no conversions. -/
def x : OptOps Nat Nat Nat Nat Nat Nat :=
  { add := (· + ·), mult := (· * ·), multA := (· * ·), castBA := id, castT := id, castZ := id,
    accC := (· + ·), truthy := fun v => v ≠ 0 }

def plusAcc : AccOp Nat Nat Nat := ⟨(· + ·), id, id⟩

theorem x_lossless (acc : Option (AccOp Nat Nat Nat)) (h : ∀ a, acc = some a → a = plusAcc) (outp : Outp)
    (M : MMask Nat) (A B : Spec.Mat Nat) : x.Lossless acc id outp M A B :=
  ⟨fun _ _ => rfl, fun _ a e c => by rw [h a e]; rfl, fun _ a e c => by rw [h a e]; rfl,
    fun _ a e c t => by rw [h a e]; rfl, fun _ _ a _ e _ _ _ c => by rw [h a e]; rfl⟩

/-- `[[1,.],[.,.]]` and `[[.,.],[7,.]]`. -/
def P : Lil Nat := { nrows := 2, ncols := 2, nvals := 1, rows := [[(0, 1)], []] }
def Q : Lil Nat := { nrows := 2, ncols := 2, nvals := 1, rows := [[], [(0, 7)]] }

theorem P_wf : P.WF := by
  refine wf_of_rows rfl rfl ?_
  intro r hr
  simp only [List.mem_cons, List.not_mem_nil, or_false] at hr
  rcases hr with rfl | rfl <;> exact ⟨by simp [Row.Sorted], by simp⟩

theorem Q_wf : Q.WF := by
  refine wf_of_rows rfl rfl ?_
  intro r hr
  simp only [List.mem_cons, List.not_mem_nil, or_false] at hr
  rcases hr with rfl | rfl <;> exact ⟨by simp [Row.Sorted], by simp⟩

end Ex

/-- The hypotheses of `C28_optimized_mxm_partial`, `C28_backends_agree_partial`,
`C29_optimized_shared_partial`, `C29_sequential_shared` and `C30_fused_mask_partial`
are met by a call with a complemented mask and an accumulator in which output, second
operand and mask are one object; its result is not trivial. -/
example : Ex.x.Lossless (some Ex.plusAcc) id .replace (some (.comp, Ex.B)) Ex.A.get Ex.B.get ∧
    Ex.A.WF ∧ Ex.B.WF ∧
    MxmShapes (Ex.x.out (some Ex.plusAcc) id .replace Ex.B (some (.comp, .same))) (.plain Ex.A) (.tr Ex.B) ∧
    NoStaleRows (some Ex.plusAcc) Ex.B (some (MaskKind.comp, (.same : Arg Nat Nat)))
      (.plain (.obj Ex.A)) (.tr (.same : Arg Nat Nat)) ∧
    (∀ a b, Ex.x.multA (Ex.x.castBA b) a = Ex.pt.multSwap b a) ∧
    optMxm Ex.x (some Ex.plusAcc) .replace Ex.B (some (.comp, .same)) (.plain (.obj Ex.A)) (.tr .same)
      = .done { nrows := 2, ncols := 2, nvals := 1, rows := [[(0, 10)], []] } :=
  ⟨Ex.x_lossless _ (fun a e => by cases e; rfl) .., Ex.A_wf, Ex.B_wf,
    ⟨by intro k M e; cases e; exact ⟨rfl, rfl⟩, rfl, rfl, rfl⟩, (fun h => by cases h), fun _ _ => rfl,
    by decide +kernel⟩

/-- `NoStaleRows` is also met without mask and accumulator by a call in which the
output and the first operand are one object that has an empty row. -/
example : NoStaleRows (none : Option (AccOp Nat Nat Nat)) Ex.P (none : ArgMask Nat Nat)
      (.plain .same) (.tr (.obj Ex.B)) ∧
    optMxm Ex.x none .merge Ex.P none (.plain .same) (.tr (.obj Ex.B))
      = .done { nrows := 2, ncols := 2, nvals := 1, rows := [[(1, 7)], []] } :=
  ⟨C29_no_stale_rows_same.1, by decide +kernel⟩

/-- The hypotheses of the row theorems are met by non-empty rows; the masked row is
neither empty nor the full row. -/
example : Row.OK Ex.B.nrows [(0, 1), (1, 2)] ∧ Row.Sorted [(0, 1)] ∧
    abRow (· + ·) (· * ·) Ex.B [(0, 1), (1, 2)] = .ok [(0, 14), (1, 5)] ∧
    abMaskedRow false false (fun v : Nat => v ≠ 0) (· + ·) (· * ·) [(0, 1)] Ex.B [(0, 1), (1, 2)]
      = .ok [(0, 14)] ∧
    maskedAccum false false (fun v : Nat => v ≠ 0) (· + ·) id id [(0, 1)] [(0, 3), (1, 8)] [(0, 14)]
      = [(0, 17)] ∧
    maskedMerge false false (fun v : Nat => v ≠ 0) id [(0, 1)] [(0, 3), (1, 8)] [(0, 14)]
      = [(0, 14), (1, 8)] :=
  ⟨⟨by simp [Row.Sorted], by simp [Ex.B]⟩, by simp [Row.Sorted], by decide +kernel, by decide +kernel,
    by decide +kernel, by decide +kernel⟩

/-! ### where the claims fail -/

/-- **C28 is false as stated**: `mxm(C, NoMask, NoAccumulate, semiring, A, transpose(B))`
of the `optimized_sequential` backend leaves the old elements of `C` in the rows where
`A` stores nothing. With `A = B = [[1,.],[.,.]]` and `C = [[.,.],[7,.]]` the `7` stays. -/
theorem C28_stale_rows_wrong :
    ∃ (C A B : Lil Nat), C.WF ∧ A.WF ∧ B.WF ∧
      MxmShapes (Ex.x.out none id .merge C none) (.plain A) (.tr B) ∧
      optMxm Ex.x none .merge C none (.plain (.obj A)) (.tr (.obj B))
        = .done { nrows := 2, ncols := 2, nvals := 2, rows := [[(0, 1)], [(0, 7)]] } ∧
      mxmShared Ex.x.truthy (.none id) id .merge C none Ex.pt id (.plain (.obj A)) (.tr (.obj B))
        = .done { nrows := 2, ncols := 2, nvals := 1, rows := [[(0, 1)], []] } :=
  ⟨Ex.Q, Ex.P, Ex.P, Ex.Q_wf, Ex.P_wf, Ex.P_wf, ⟨(by intro k M e; cases e), rfl, rfl, rfl⟩,
    by decide +kernel, by decide +kernel⟩

/-- **C28 is false as stated** for two transposed operands of different scalar
types: the `optimized_sequential` backend stores `B`'s element in a variable of `A`'s
type. With `A = [[true]]` of `bool` and `B = [[3]]` of an integer type the product
over plus-times of integers should be `3` and is `1`. -/
theorem C28_conversion_wrong :
    let toNat : Bool → Nat := fun b => if b then 1 else 0
    let x : OptOps Bool Nat Nat Nat Nat Nat :=
      { add := (· + ·), mult := fun a b => toNat a * b, multA := fun b a => toNat b * toNat a,
        castBA := fun v => v ≠ 0, castT := id, castZ := id, accC := (· + ·), truthy := fun v => v ≠ 0 }
    let sr : SR Bool Nat Nat := ⟨(· + ·), fun a b => toNat a * b, fun b a => b * toNat a⟩
    ∃ (A : Lil Bool) (B : Lil Nat), A.WF ∧ B.WF ∧
      MxmShapes (x.out none id .merge (Lil.new 1 1) none) (.tr A) (.tr B) ∧
      optMxm x none .merge (Lil.new 1 1) none (.tr (.obj A)) (.tr (.obj B)) = .done (Ex.one 1) ∧
      mxmShared x.truthy (.none id) id .merge (Lil.new 1 1) none sr id (.tr (.obj A)) (.tr (.obj B))
        = .done (Ex.one 3) :=
  ⟨{ nrows := 1, ncols := 1, nvals := 1, rows := [[(0, true)]] }, Ex.one 3,
    Ex.wf_of_rows rfl rfl (by
      intro r hr
      simp only [List.mem_cons, List.not_mem_nil, or_false] at hr
      subst hr; exact ⟨by simp [Row.Sorted], by simp⟩), Ex.one_wf 3,
    ⟨(by intro k M e; cases e), rfl, rfl, rfl⟩, by decide +kernel, by decide +kernel⟩

namespace Ex
/-- Logical or, whose result is `bool`, on integers; the output is an integer
matrix. -/
def orAcc : AccOp Nat Nat Bool := ⟨fun a b => a ≠ 0 || b ≠ 0, fun a => a ≠ 0, fun a => a ≠ 0⟩
def xb : OptOps Nat Nat Nat Nat Bool Nat :=
  { add := (· + ·), mult := (· * ·), multA := (· * ·), castBA := id, castT := id,
    castZ := fun b => if b then 1 else 0, accC := fun a b => a ≠ 0 || b ≠ 0, truthy := fun v => v ≠ 0 }
end Ex

/-- **C28 is false as stated** for an accumulator with another result type: with
logical or as the accumulator of an integer `C`, an element that meets no product is
kept as it is by one backend and becomes `0` or `1` in the other. -/
theorem C28_accum_conversion_wrong :
    ∃ (C A B : Lil Nat), C.WF ∧ A.WF ∧ B.WF ∧
      MxmShapes (Ex.xb.out (some Ex.orAcc) (fun t => t ≠ 0) .merge C none) (.plain A) (.plain B) ∧
      optMxm Ex.xb (some Ex.orAcc) .merge C none (.plain (.obj A)) (.plain (.obj B))
        = .done { nrows := 2, ncols := 2, nvals := 2, rows := [[(0, 1)], [(0, 7)]] } ∧
      mxmShared Ex.xb.truthy (.some Ex.orAcc.op Ex.orAcc.cC Ex.orAcc.cT) Ex.xb.castZ .merge C none Ex.pt
          id (.plain (.obj A)) (.plain (.obj B))
        = .done { nrows := 2, ncols := 2, nvals := 2, rows := [[(0, 1)], [(0, 1)]] } :=
  ⟨Ex.Q, Ex.P, Ex.P, Ex.Q_wf, Ex.P_wf, Ex.P_wf, ⟨(by intro k M e; cases e), rfl, rfl, rfl⟩,
    by decide +kernel, by decide +kernel⟩

/-- **C29 is false as stated** on the `optimized_sequential` backend: for
`mxm(C, NoMask, NoAccumulate, semiring, A, transpose(B))` with `B` the output itself the
result is right, and with a distinct copy an old element stays. -/
theorem C29_optimized_shared_wrong :
    ∃ (C A : Lil Nat), C.WF ∧ A.WF ∧
      MxmShapes (Ex.x.out none id .merge C none) (.plain A) (.tr C) ∧
      optMxm Ex.x none .merge C none (.plain (.obj A)) (.tr .same)
        = .done { nrows := 2, ncols := 2, nvals := 1, rows := [[(1, 7)], []] } ∧
      optMxm Ex.x none .merge C none (.plain (.obj A)) (.tr (.obj C))
        = .done { nrows := 2, ncols := 2, nvals := 2, rows := [[(1, 7)], [(0, 7)]] } :=
  ⟨Ex.Q, Ex.P, Ex.Q_wf, Ex.P_wf, ⟨(by intro k M e; cases e), rfl, rfl, rfl⟩,
    by decide +kernel, by decide +kernel⟩

/-- **C30 is false as stated** in one corner: with a complemented empty mask, REPLACE
and an empty operand, the fused code returns `C` as it is, although with logical or as
the accumulator the old elements should go through `bool`. -/
theorem C30_empty_mask_wrong :
    ∃ (C M A B : Lil Nat), C.WF ∧ M.WF ∧ A.WF ∧ B.WF ∧
      MxmShapes (Ex.xb.out (some Ex.orAcc) (fun t => t ≠ 0) .replace C (some (.comp, .obj M))) (.plain A)
        (.plain B) ∧
      optMxm Ex.xb (some Ex.orAcc) .replace C (some (.comp, .obj M)) (.plain (.obj A)) (.plain (.obj B))
        = .done Ex.Q ∧
      mxmShared Ex.xb.truthy (.some Ex.orAcc.op Ex.orAcc.cC Ex.orAcc.cT) Ex.xb.castZ .replace C
          (some (.comp, .obj M)) Ex.pt id (.plain (.obj A)) (.plain (.obj B))
        = .done { nrows := 2, ncols := 2, nvals := 1, rows := [[], [(0, 1)]] } :=
  ⟨Ex.Q, Lil.new 2 2, Lil.new 2 2, Ex.P, Ex.Q_wf, Lil.new_wf 2 2, Lil.new_wf 2 2, Ex.P_wf,
    ⟨by intro k M e; cases e; exact ⟨rfl, rfl⟩, rfl, rfl, rfl⟩, by decide +kernel, by decide +kernel⟩

end GBTL
