import Verif.Lemmas.SafetyStmt
import Verif.Model.ProgramOpt
import Verif.Spec.SafetyOpt
/-
`mxm` of the `optimized_sequential` backend (`Verif/Model/OptMxm.lean`) on containers that need
only be safe (`Verif/Spec/Safety.lean`).
-/
namespace GBTL
open Spec (Outp MaskKind Accum)

variable {tm tv : Nat → Type} {α β γ τ ζ μ ρ : Type} {k m n : Nat}

/-! ### Rows -/

namespace Row.Below

theorem mergeLoop {op : α → β → α} {cast : β → α} (l : Row α) (r : Row β) (hl : Row.Below n l)
    (hr : Row.Below n r) : Row.Below n (Lil.mergeLoop op cast l r) := by
  fun_induction Lil.mergeLoop op cast l r with
  | case1 => exact hr.cast
  | case2 => exact hl
  | case3 _ _ _ _ _ _ _ ih => exact .cons hl.head (ih hl.tail hr)
  | case4 _ _ _ _ _ _ _ _ ih => exact .cons hr.head (ih hl hr.tail)
  | case5 _ _ _ _ _ _ _ _ ih => exact .cons hl.head (ih hl.tail hr.tail)

theorem maskedAxpyLoop {sf compl : Bool} {truthy : μ → Bool} {add : τ → τ → τ} {mult : α → β → τ} {a : α}
    (b : Row β) : ∀ {c : Row τ} {m : Row μ}, Row.Below n c → Row.Below n b →
    Row.Below n (maskedAxpyLoop sf compl truthy add mult a c m b) := by
  induction b with
  | nil => intro c m hc _; exact hc
  | cons p b ih =>
    intro c m hc hb
    obtain ⟨j, y⟩ := p
    simp only [GBTL.maskedAxpyLoop]
    split
    · exact ih hc hb.tail
    · refine hc.takeBelow.append ?_
      split
      · exact .cons hb.head (ih hc.dropBelow.tail' hb.tail)
      · exact .cons hb.head (ih hc.dropBelow hb.tail)

theorem maskedAxpy {sf compl : Bool} {truthy : μ → Bool} {add : τ → τ → τ} {mult : α → β → τ} {a : α}
    {c : Row τ} {m : Row μ} {b : Row β} (hc : Row.Below n c) (hb : Row.Below n b) :
    Row.Below n (maskedAxpy sf compl truthy add mult a c m b) := by
  rw [GBTL.maskedAxpy]
  split
  · exact hc.axpy b hb
  · exact hc.maskedAxpyLoop b hb

theorem maskedAccum {sf compl : Bool} {truthy : μ → Bool} {op : γ → τ → ζ} {cC : γ → ζ} {cT : τ → ζ}
    (m : Row μ) (c : Row γ) (t : Row τ) (hc : Row.Below n c) (ht : Row.Below n t) :
    Row.Below n (maskedAccum sf compl truthy op cC cT m c t) := by
  fun_induction GBTL.maskedAccum sf compl truthy op cC cT m c t with
  | case1 => exact .nil
  | case2 _ _ _ _ ih => exact .cons ht.head (ih hc ht.tail)
  | case3 _ _ _ _ _ _ _ _ ih => exact .cons hc.head (ih hc.tail ht)
  | case4 _ _ _ _ _ _ _ _ ih => exact ih hc.tail ht
  | case5 _ _ _ _ _ _ _ _ ih => exact .cons ht.head (ih hc ht.tail)
  | case6 _ _ _ _ _ _ _ _ _ _ _ _ _ ih => exact .cons hc.head (ih hc.tail ht)
  | case7 _ _ _ _ _ _ _ _ _ _ _ _ _ ih => exact ih hc.tail ht
  | case8 _ _ _ _ _ _ _ _ _ ih => exact .cons ht.head (ih hc.tail ht.tail)

theorem mergeEmit {sf compl : Bool} {truthy : μ → Bool} {bound : Option Nat} (c : Row γ) :
    ∀ {m : Row μ}, Row.Below n c → Row.Below n (mergeEmit sf compl truthy bound c m).1 ∧
    Row.Below n (mergeEmit sf compl truthy bound c m).2.1 := by
  induction c with
  | nil => intro m _; exact ⟨.nil, .nil⟩
  | cons p c ih =>
    intro m hc
    obtain ⟨j, y⟩ := p
    simp only [GBTL.mergeEmit]
    split
    · refine ⟨?_, (ih hc.tail).2⟩
      dsimp only
      split
      · exact .cons hc.head (ih hc.tail).1
      · exact (ih hc.tail).1
    · exact ⟨.nil, hc⟩

theorem maskedMergeLoop {sf compl : Bool} {truthy : μ → Bool} {cast : ζ → γ} (z : Row ζ) :
    ∀ {l : Option Nat} {m : Row μ} {c : Row γ}, Row.Below n c → Row.Below n z →
    Row.Below n (maskedMergeLoop sf compl truthy cast l m c z) := by
  induction z with
  | nil =>
    intro l m c hc _
    cases l with
    | none => exact (mergeEmit c hc).1
    | some j => exact (mergeEmit _ (hc.sub fun _ => (List.dropWhile_sublist _).mem)).1
  | cons p z ih =>
    intro l m c hc hz
    obtain ⟨j, y⟩ := p
    have h := mergeEmit (sf := sf) (compl := compl) (truthy := truthy) (bound := some j) c (m := m) hc
    exact h.1.append (.cons hz.head (ih h.2 hz.tail))

theorem maskFilter {sf compl : Bool} {truthy : μ → Bool} (t : Row τ) : ∀ {m : Row μ}, Row.Below n t →
    Row.Below n (maskFilter sf compl truthy m t) := by
  induction t with
  | nil => intro m _; exact .nil
  | cons p t ih =>
    intro m ht
    rw [GBTL.maskFilter]
    split
    · exact ih ht.tail
    · exact .cons ht.head (ih ht.tail)

end Row.Below

theorem Lil.SafeAt.mergeRow {A : Lil α} (h : A.SafeAt m n) {i : Nat} (hi : i < m) {op : α → β → α} {c : β → α}
    {r : Row β} (hr : Row.Below n r) : Returns (A.mergeRow i op c r) (Lil.SafeAt m n) := by
  rw [Lil.mergeRow]
  split
  · exact h
  · refine (h.row hi).bind fun old ho => ?_
    split
    · exact h.setRow hi hr
    · exact h.setRow hi (ho.mergeLoop _ _ hr)

theorem Lil.SafeAt.swapFrom {C D : Lil γ} (hC : C.SafeAt m n) (hD : D.SafeAt m n) :
    Returns (C.swapFrom D) (Lil.SafeAt m n) := by
  obtain ⟨hC, rfl, rfl⟩ := hC
  obtain ⟨hD, e1, e2⟩ := hD
  rw [Lil.swapFrom, if_neg (by rw [hC.len, hD.len, e1]; omega)]
  refine ⟨⟨by simp [hC.len, hD.len, e1], fun r hr => ?_⟩, rfl, rfl⟩
  have := hD.below r (List.mem_of_mem_take hr)
  rwa [e2] at this

/-! ### Fragments -/

theorem abRow_returns {add : τ → τ → τ} {mult : α → β → τ} {B : Lil β} {a : Row α} (hB : B.SafeAt k n)
    (ha : Row.Below k a) : Returns (abRow add mult B a) (Row.Below n) := by
  refine foldlM_returns (Row.Below n) _ a (fun t p hp ht => (hB.row (ha p hp)).bind fun b hb => ?_) [] .nil
  split
  · exact ht
  · exact ht.axpy b hb

theorem abMaskedRow_returns {sf compl : Bool} {truthy : μ → Bool} {add : τ → τ → τ} {mult : α → β → τ}
    {mr : Row μ} {B : Lil β} {a : Row α} (hB : B.SafeAt k n) (ha : Row.Below k a) :
    Returns (abMaskedRow sf compl truthy add mult mr B a) (Row.Below n) := by
  refine foldlM_returns (Row.Below n) _ a (fun t p hp ht => (hB.row (ha p hp)).bind fun b hb => ?_) [] .nil
  split
  · exact ht
  · exact ht.maskedAxpy hb

theorem abMaskRow_returns {sf : Bool} {truthy : μ → Bool} {add : τ → τ → τ} {mult : α → β → τ}
    {mr : Row μ} {B : Lil β} {a : Row α} (hB : B.SafeAt k n) (ha : Row.Below k a) :
    Returns (abMaskRow sf truthy add mult mr B a) (Row.Below n) := by
  rw [abMaskRow]
  split
  · exact .nil
  · exact abMaskedRow_returns hB ha

theorem abtRow_returns {add : τ → τ → τ} {mult : α → β → τ} {B : Lil β} {a : Row α} (hB : B.SafeAt n k) :
    Returns (abtRow add mult a B) (Row.Below n) := by
  rw [abtRow, hB.2.1]
  refine forN_returns _ .nil fun j t hj ht => (hB.row hj).bind fun b hb => ?_
  split
  · exact ht
  · exact ht.emplace hj

theorem abtMaskedRow_returns {sf compl : Bool} {truthy : μ → Bool} {add : τ → τ → τ} {mult : α → β → τ}
    {mr : Row μ} {B : Lil β} {a : Row α} (hB : B.SafeAt n k) :
    Returns (abtMaskedRow sf compl truthy add mult mr a B) (Row.Below n) := by
  rw [abtMaskedRow, hB.2.1]
  refine (forN_returns (fun s : Row τ × Row μ => Row.Below n s.1) .nil fun j s hj hs =>
    (hB.row hj).bind fun b hb => ?_).bind fun s hs => hs
  split
  · exact hs
  · refine Returns.ok ?_
    simp only [abtStep]
    split
    · exact hs
    · exact hs.emplace hj

theorem abtMaskRow_returns {sf : Bool} {truthy : μ → Bool} {add : τ → τ → τ} {mult : α → β → τ}
    {mr : Row μ} {B : Lil β} {a : Row α} (hB : B.SafeAt n k) :
    Returns (abtMaskRow sf truthy add mult mr a B) (Row.Below n) := by
  rw [abtMaskRow]
  split
  · exact abtMaskedRow_returns hB
  · exact .nil

theorem abtCompRow_returns {sf : Bool} {truthy : μ → Bool} {add : τ → τ → τ} {mult : α → β → τ}
    {mr : Row μ} {B : Lil β} {a : Row α} (hB : B.SafeAt n k) :
    Returns (abtCompRow sf truthy add mult mr a B) (Row.Below n) := by
  rw [abtCompRow]
  split
  · exact abtMaskedRow_returns hB
  · exact .nil

theorem storeT_returns {sf compl : Bool} {truthy : μ → Bool} {cast : ρ → γ} {direct : Bool} {i : Nat}
    {mr : Row μ} {t : Row ρ} {C : Lil γ} (hC : C.SafeAt m n) (hi : i < m) (ht : Row.Below n t) :
    Returns (storeT sf compl truthy cast direct i mr t C) (Lil.SafeAt m n) := by
  rw [storeT]
  split
  · exact hC.setRow hi ht
  · exact (hC.row hi).bind fun c hc => hC.setRow hi (hc.maskedMergeLoop t ht)

theorem storeZ_returns {sf compl : Bool} {truthy : μ → Bool} {castZ : ζ → γ} {acc : AccOp γ τ ζ} {direct : Bool}
    {i : Nat} {mr : Row μ} {t : Row τ} {C : Lil γ} (hC : C.SafeAt m n) (hi : i < m) (ht : Row.Below n t) :
    Returns (storeZ sf compl truthy castZ acc direct i mr t C) (Lil.SafeAt m n) :=
  (hC.row hi).bind fun c hc => storeT_returns hC hi (hc.maskedAccum mr c t ht)

/-! ### Arguments that may be the output -/

/-- While the output is a safe `m × n` matrix, the argument is a safe `p × q` matrix. -/
def Arg.SafeAt (m n p q : Nat) (a : Arg γ α) : Prop := ∀ C : Lil γ, C.SafeAt m n → (a.at C).SafeAt p q

variable {p q : Nat}

theorem Arg.SafeAt.fixed {A : Lil α} (h : A.SafeAt p q) : (Arg.obj A : Arg γ α).SafeAt m n p q := fun _ _ => h

theorem Arg.safeAt {a : Arg γ α} {C : Lil γ} (hC : C.Safe) (ha : (a.at C).Safe) :
    a.SafeAt C.nrows C.ncols (a.at C).nrows (a.at C).ncols := by
  cases a with
  | obj A => exact fun _ _ => ha.at
  | same => exact fun _ h => h

/-! ### A*B and A*B' -/

section
variable {x : OptOps α β γ τ ζ μ} {add : τ → τ → τ} {mult : α → β → τ} {truthy : μ → Bool} {cast : τ → γ} {sf : Bool}
  {acc : AccOp γ τ ζ} {outp : Outp} {C : Lil γ} {M : Arg γ μ} {a : Arg γ α} {b : Arg γ β}

theorem abNoMaskNoAccumK_returns (hC : C.SafeAt m n) (ha : a.SafeAt m n m k) (hb : b.SafeAt m n k n) :
    Returns (abNoMaskNoAccumK add mult cast C a b) (Lil.SafeAt m n) := by
  rw [abNoMaskNoAccumK, (ha C hC).2.1]
  exact forN_returns _ hC fun i C hi hC => ((ha C hC).row hi).bind fun ar har =>
    (abRow_returns (hb C hC) har).bind fun t ht => hC.setRow hi ht

theorem abNoMaskAccumK_returns (hC : C.SafeAt m n) (ha : a.SafeAt m n m k) (hb : b.SafeAt m n k n) :
    Returns (abNoMaskAccumK x acc C a b) (Lil.SafeAt m n) := by
  rw [abNoMaskAccumK, (ha C hC).2.1]
  refine forN_returns _ hC fun i C hi hC => ((ha C hC).row hi).bind fun ar har =>
    (abRow_returns (hb C hC) har).bind fun t ht => ?_
  split
  · exact hC.mergeRow hi ht
  · exact hC

theorem abMaskNoAccumK_returns (hC : C.SafeAt m n) (hM : M.SafeAt m n m n) (ha : a.SafeAt m n m k)
    (hb : b.SafeAt m n k n) :
    Returns (abMaskNoAccumK add mult truthy cast sf outp C M a b) (Lil.SafeAt m n) := by
  rw [abMaskNoAccumK, (ha C hC).2.1]
  exact forN_returns _ hC fun i C hi hC => ((hM C hC).row hi).bind fun mr _ =>
    ((ha C hC).row hi).bind fun ar har => (abMaskRow_returns (hb C hC) har).bind fun t ht =>
    storeT_returns hC hi ht

theorem abMaskAccumK_returns (hC : C.SafeAt m n) (hM : M.SafeAt m n m n) (ha : a.SafeAt m n m k)
    (hb : b.SafeAt m n k n) : Returns (abMaskAccumK x acc sf outp C M a b) (Lil.SafeAt m n) := by
  rw [abMaskAccumK, (ha C hC).2.1]
  exact forN_returns _ hC fun i C hi hC => ((hM C hC).row hi).bind fun mr _ =>
    ((ha C hC).row hi).bind fun ar har => (abMaskRow_returns (hb C hC) har).bind fun t ht =>
    storeZ_returns hC hi ht

theorem abCompNoAccumK_returns (hC : C.SafeAt m n) (hM : M.SafeAt m n m n) (ha : a.SafeAt m n m k)
    (hb : b.SafeAt m n k n) :
    Returns (abCompNoAccumK add mult truthy cast sf outp C M a b) (Lil.SafeAt m n) := by
  rw [abCompNoAccumK, (ha C hC).2.1]
  exact forN_returns _ hC fun i C hi hC => ((hM C hC).row hi).bind fun mr _ =>
    ((ha C hC).row hi).bind fun ar har => (abMaskedRow_returns (hb C hC) har).bind fun t ht =>
    storeT_returns hC hi ht

theorem abCompAccumK_returns (hC : C.SafeAt m n) (hM : M.SafeAt m n m n) (ha : a.SafeAt m n m k)
    (hb : b.SafeAt m n k n) : Returns (abCompAccumK x acc sf outp C M a b) (Lil.SafeAt m n) := by
  rw [abCompAccumK, (ha C hC).2.1]
  exact forN_returns _ hC fun i C hi hC => ((hM C hC).row hi).bind fun mr _ =>
    ((ha C hC).row hi).bind fun ar har => (abMaskedRow_returns (hb C hC) har).bind fun t ht =>
    storeZ_returns hC hi ht

theorem abtNoMaskNoAccumK_returns (hC : C.SafeAt m n) (ha : a.SafeAt m n m k) (hb : b.SafeAt m n n k) :
    Returns (abtNoMaskNoAccumK add mult cast C a b) (Lil.SafeAt m n) := by
  rw [abtNoMaskNoAccumK, (ha C hC).2.1]
  refine forN_returns _ hC fun i C hi hC => ((ha C hC).row hi).bind fun ar har => ?_
  split
  · exact hC
  · exact (abtRow_returns (hb C hC)).bind fun t ht => hC.setRow hi ht.cast

theorem abtNoMaskAccumK_returns (hC : C.SafeAt m n) (ha : a.SafeAt m n m k) (hb : b.SafeAt m n n k) :
    Returns (abtNoMaskAccumK x acc C a b) (Lil.SafeAt m n) := by
  rw [abtNoMaskAccumK, (ha C hC).2.1]
  refine forN_returns _ hC fun i C hi hC => ((ha C hC).row hi).bind fun ar har => ?_
  split
  · exact hC
  · refine (abtRow_returns (hb C hC)).bind fun t ht => ?_
    split
    · exact hC.mergeRow hi ht
    · exact hC

theorem abtMaskNoAccumK_returns (hC : C.SafeAt m n) (hM : M.SafeAt m n m n) (ha : a.SafeAt m n m k)
    (hb : b.SafeAt m n n k) :
    Returns (abtMaskNoAccumK add mult truthy cast sf outp C M a b) (Lil.SafeAt m n) := by
  rw [abtMaskNoAccumK, (ha C hC).2.1]
  exact forN_returns _ hC fun i C hi hC => ((hM C hC).row hi).bind fun mr _ =>
    ((ha C hC).row hi).bind fun ar har => (abtMaskRow_returns (hb C hC)).bind fun t ht =>
    storeT_returns hC hi ht

theorem abtMaskAccumK_returns (hC : C.SafeAt m n) (hM : M.SafeAt m n m n) (ha : a.SafeAt m n m k)
    (hb : b.SafeAt m n n k) : Returns (abtMaskAccumK x acc sf outp C M a b) (Lil.SafeAt m n) := by
  rw [abtMaskAccumK, (ha C hC).2.1]
  exact forN_returns _ hC fun i C hi hC => ((hM C hC).row hi).bind fun mr _ =>
    ((ha C hC).row hi).bind fun ar har => (abtMaskRow_returns (hb C hC)).bind fun t ht =>
    storeZ_returns hC hi ht

theorem abtCompNoAccumK_returns (hC : C.SafeAt m n) (hM : M.SafeAt m n m n) (ha : a.SafeAt m n m k)
    (hb : b.SafeAt m n n k) :
    Returns (abtCompNoAccumK add mult truthy cast sf outp C M a b) (Lil.SafeAt m n) := by
  rw [abtCompNoAccumK, (ha C hC).2.1]
  exact forN_returns _ hC fun i C hi hC => ((hM C hC).row hi).bind fun mr _ =>
    ((ha C hC).row hi).bind fun ar har => (abtCompRow_returns (hb C hC)).bind fun t ht =>
    storeT_returns hC hi ht

theorem abtCompAccumK_returns (hC : C.SafeAt m n) (hM : M.SafeAt m n m n) (ha : a.SafeAt m n m k)
    (hb : b.SafeAt m n n k) : Returns (abtCompAccumK x acc sf outp C M a b) (Lil.SafeAt m n) := by
  rw [abtCompAccumK, (ha C hC).2.1]
  exact forN_returns _ hC fun i C hi hC => ((hM C hC).row hi).bind fun mr _ =>
    ((ha C hC).row hi).bind fun ar har => (abtCompRow_returns (hb C hC)).bind fun t ht =>
    storeZ_returns hC hi ht

theorem fromTmp_returns {compl : Bool} {tmp : Lil γ} (hC : C.SafeAt m n) (hM : M.SafeAt m n m n)
    (ht : tmp.SafeAt m n) : Returns (fromTmp sf compl truthy outp M tmp C) (Lil.SafeAt m n) := by
  cases outp with
  | replace => exact hC.swapFrom ht
  | merge =>
    rw [fromTmp, hC.2.1]
    exact forN_returns _ hC fun i C hi hC => ((hM C hC).row hi).bind fun mr _ => (ht.row hi).bind fun t ht =>
      storeT_returns hC hi ht

theorem fromTmpAccum_returns {compl : Bool} {castZ : ζ → γ} {tmp : Lil τ} (hC : C.SafeAt m n)
    (hM : M.SafeAt m n m n) (ht : tmp.SafeAt m n) :
    Returns (fromTmpAccum sf compl truthy castZ acc outp M tmp C) (Lil.SafeAt m n) := by
  rw [fromTmpAccum, hC.2.1]
  exact forN_returns _ hC fun i C hi hC => ((hM C hC).row hi).bind fun mr _ => (ht.row hi).bind fun t ht =>
    storeZ_returns hC hi ht

theorem mergeTmp_returns {op : γ → ρ → γ} {cast : ρ → γ} {tmp : Lil ρ} (hC : C.SafeAt m n)
    (ht : tmp.SafeAt m n) : Returns (mergeTmp op cast tmp C) (Lil.SafeAt m n) := by
  rw [mergeTmp, hC.2.1]
  exact forN_returns _ hC fun i C hi hC => (ht.row hi).bind fun t ht => hC.mergeRow hi ht


/-! ### The functions called -/

theorem optNoMaskNoAccumAB_returns (hC : C.SafeAt m n) (ha : a.SafeAt m n m k) (hb : b.SafeAt m n k n) :
    Returns (optNoMaskNoAccumAB x C a b) (Lil.SafeAt m n) := by
  rw [optNoMaskNoAccumAB, hC.2.1, hC.2.2]
  split
  · exact hC.clear
  split
  · exact (abNoMaskNoAccumK_returns .new (.fixed (ha C hC)) (.fixed (hb C hC))).bind fun tmp ht => hC.swapFrom ht
  · exact abNoMaskNoAccumK_returns hC ha hb

theorem optNoMaskAccumAB_returns (hC : C.SafeAt m n) (ha : a.SafeAt m n m k) (hb : b.SafeAt m n k n) :
    Returns (optNoMaskAccumAB x acc C a b) (Lil.SafeAt m n) := by
  rw [optNoMaskAccumAB, hC.2.1, hC.2.2]
  split
  · exact hC
  split
  · exact (abNoMaskNoAccumK_returns .new (.fixed (ha C hC)) (.fixed (hb C hC))).bind fun tmp ht => mergeTmp_returns hC ht
  · exact abNoMaskAccumK_returns hC ha hb

theorem optMaskNoAccumAB_returns (hC : C.SafeAt m n) (hM : M.SafeAt m n m n) (ha : a.SafeAt m n m k) (hb : b.SafeAt m n k n) :
    Returns (optMaskNoAccumAB x sf outp C M a b) (Lil.SafeAt m n) := by
  rw [optMaskNoAccumAB, hC.2.1, hC.2.2]
  split
  · exact hC.clear
  split
  · exact hC
  split
  · exact (abMaskNoAccumK_returns .new (.fixed (hM C hC)) (.fixed (ha C hC)) (.fixed (hb C hC))).bind fun tmp ht => fromTmp_returns hC hM ht
  · exact abMaskNoAccumK_returns hC hM ha hb

theorem optMaskAccumAB_returns (hC : C.SafeAt m n) (hM : M.SafeAt m n m n) (ha : a.SafeAt m n m k) (hb : b.SafeAt m n k n) :
    Returns (optMaskAccumAB x acc sf outp C M a b) (Lil.SafeAt m n) := by
  rw [optMaskAccumAB, hC.2.1, hC.2.2]
  split
  · exact hC.clear
  split
  · exact hC
  split
  · exact (abMaskNoAccumK_returns .new (.fixed (hM C hC)) (.fixed (ha C hC)) (.fixed (hb C hC))).bind fun tmp ht => fromTmpAccum_returns hC hM ht
  · exact abMaskAccumK_returns hC hM ha hb

theorem optCompNoAccumAB_returns (hC : C.SafeAt m n) (hM : M.SafeAt m n m n) (ha : a.SafeAt m n m k) (hb : b.SafeAt m n k n) :
    Returns (optCompNoAccumAB x sf outp C M a b) (Lil.SafeAt m n) := by
  rw [optCompNoAccumAB, hC.2.1, hC.2.2]
  split
  · exact hC.clear
  split
  · exact (abCompNoAccumK_returns .new (.fixed (hM C hC)) (.fixed (ha C hC)) (.fixed (hb C hC))).bind fun tmp ht => fromTmp_returns hC hM ht
  · exact abCompNoAccumK_returns hC hM ha hb

theorem optCompAccumAB_returns (hC : C.SafeAt m n) (hM : M.SafeAt m n m n) (ha : a.SafeAt m n m k) (hb : b.SafeAt m n k n) :
    Returns (optCompAccumAB x acc sf outp C M a b) (Lil.SafeAt m n) := by
  rw [optCompAccumAB, hC.2.1, hC.2.2]
  split
  · exact hC
  split
  · exact (abCompNoAccumK_returns .new (.fixed (hM C hC)) (.fixed (ha C hC)) (.fixed (hb C hC))).bind fun tmp ht => fromTmpAccum_returns hC hM ht
  · exact abCompAccumK_returns hC hM ha hb

theorem optNoMaskNoAccumABT_returns (hC : C.SafeAt m n) (ha : a.SafeAt m n m k) (hb : b.SafeAt m n n k) :
    Returns (optNoMaskNoAccumABT x C a b) (Lil.SafeAt m n) := by
  rw [optNoMaskNoAccumABT, hC.2.1, hC.2.2]
  split
  · exact hC.clear
  split
  · exact (abtNoMaskNoAccumK_returns .new (.fixed (ha C hC)) (.fixed (hb C hC))).bind fun tmp ht => hC.swapFrom ht
  · exact abtNoMaskNoAccumK_returns hC ha hb

theorem optNoMaskAccumABT_returns (hC : C.SafeAt m n) (ha : a.SafeAt m n m k) (hb : b.SafeAt m n n k) :
    Returns (optNoMaskAccumABT x acc C a b) (Lil.SafeAt m n) := by
  rw [optNoMaskAccumABT, hC.2.1, hC.2.2]
  split
  · exact hC
  split
  · exact (abtNoMaskNoAccumK_returns .new (.fixed (ha C hC)) (.fixed (hb C hC))).bind fun tmp ht => mergeTmp_returns hC ht
  · exact abtNoMaskAccumK_returns hC ha hb

theorem optMaskNoAccumABT_returns (hC : C.SafeAt m n) (hM : M.SafeAt m n m n) (ha : a.SafeAt m n m k) (hb : b.SafeAt m n n k) :
    Returns (optMaskNoAccumABT x sf outp C M a b) (Lil.SafeAt m n) := by
  rw [optMaskNoAccumABT, hC.2.1, hC.2.2]
  split
  · exact hC.clear
  split
  · exact hC
  split
  · exact (abtMaskNoAccumK_returns .new (.fixed (hM C hC)) (.fixed (ha C hC)) (.fixed (hb C hC))).bind fun tmp ht => fromTmp_returns hC hM ht
  · exact abtMaskNoAccumK_returns hC hM ha hb

theorem optMaskAccumABT_returns (hC : C.SafeAt m n) (hM : M.SafeAt m n m n) (ha : a.SafeAt m n m k) (hb : b.SafeAt m n n k) :
    Returns (optMaskAccumABT x acc sf outp C M a b) (Lil.SafeAt m n) := by
  rw [optMaskAccumABT, hC.2.1, hC.2.2]
  split
  · exact hC.clear
  split
  · exact hC
  split
  · exact (abtMaskNoAccumK_returns .new (.fixed (hM C hC)) (.fixed (ha C hC)) (.fixed (hb C hC))).bind fun tmp ht => fromTmpAccum_returns hC hM ht
  · exact abtMaskAccumK_returns hC hM ha hb

theorem optCompNoAccumABT_returns (hC : C.SafeAt m n) (hM : M.SafeAt m n m n) (ha : a.SafeAt m n m k) (hb : b.SafeAt m n n k) :
    Returns (optCompNoAccumABT x sf outp C M a b) (Lil.SafeAt m n) := by
  rw [optCompNoAccumABT, hC.2.1, hC.2.2]
  split
  · exact hC.clear
  split
  · exact (abtCompNoAccumK_returns .new (.fixed (hM C hC)) (.fixed (ha C hC)) (.fixed (hb C hC))).bind fun tmp ht => fromTmp_returns hC hM ht
  · exact abtCompNoAccumK_returns hC hM ha hb

theorem optCompAccumABT_returns (hC : C.SafeAt m n) (hM : M.SafeAt m n m n) (ha : a.SafeAt m n m k) (hb : b.SafeAt m n n k) :
    Returns (optCompAccumABT x acc sf outp C M a b) (Lil.SafeAt m n) := by
  rw [optCompAccumABT, hC.2.1, hC.2.2]
  split
  · exact (abtCompNoAccumK_returns .new (.fixed (hM C hC)) (.fixed (ha C hC)) (.fixed (hb C hC))).bind fun tmp ht => fromTmpAccum_returns hC hM ht
  · exact abtCompAccumK_returns hC hM ha hb

/-! ### A'*B -/

section
variable {A : Lil α} {B : Lil β} {T : Lil τ} {N : Lil μ}

theorem atbNoMaskK_returns (hT : T.SafeAt m n) (hA : A.SafeAt k m) (hB : B.SafeAt k n) :
    Returns (atbNoMaskK add mult T A B) (Lil.SafeAt m n) := by
  rw [atbNoMaskK, hA.2.1]
  refine forN_returns _ hT fun i T hi hT => (hA.row hi).bind fun a ha => (hB.row hi).bind fun b hb => ?_
  split
  · exact hT
  · exact foldlM_returns _ _ a (fun T p hp hT => (hT.row (ha p hp)).bind fun t ht =>
      hT.poke (ha p hp) (ht.axpy b hb)) T hT

theorem atbMaskK_returns (hT : T.SafeAt m n) (hN : N.SafeAt m n) (hA : A.SafeAt k m) (hB : B.SafeAt k n) :
    Returns (atbMaskK sf truthy add mult T N A B) (Lil.SafeAt m n) := by
  rw [atbMaskK, hA.2.1]
  refine forN_returns _ hT fun i T hi hT => (hA.row hi).bind fun a ha => (hB.row hi).bind fun b hb => ?_
  split
  · exact hT
  · refine foldlM_returns _ _ a (fun T p hp hT => (hN.row (ha p hp)).bind fun mr _ => ?_) T hT
    split
    · exact hT
    · exact (hT.row (ha p hp)).bind fun t ht => hT.poke (ha p hp) (ht.maskedAxpy hb)

theorem atbCompK_returns (hT : T.SafeAt m n) (hN : N.SafeAt m n) (hA : A.SafeAt k m) (hB : B.SafeAt k n) :
    Returns (atbCompK sf truthy add mult T N A B) (Lil.SafeAt m n) := by
  rw [atbCompK, hA.2.1]
  refine forN_returns _ hT fun i T hi hT => (hA.row hi).bind fun a ha => (hB.row hi).bind fun b hb => ?_
  split
  · exact hT
  · exact foldlM_returns _ _ a (fun T p hp hT => (hN.row (ha p hp)).bind fun mr _ =>
      (hT.row (ha p hp)).bind fun t ht => hT.poke (ha p hp) (ht.maskedAxpy hb)) T hT

/-! ### A'*B' -/

theorem atbtRow_returns {multA : α → α → τ} {castBA : β → α} {b : Row β} (hA : A.SafeAt k m)
    (hb : Row.Below k b) : Returns (atbtRow add multA castBA A b) (Row.Below m) := by
  refine foldlM_returns (Row.Below m) _ b (fun t p hp ht => (hA.row (hb p hp)).bind fun a ha => ?_) [] .nil
  split
  · exact ht
  · exact ht.axpy a ha

theorem atbtK_returns {multA : α → α → τ} {castBA : β → α} (hC : C.SafeAt m n) (hA : A.SafeAt k m)
    (hB : B.SafeAt n k) : Returns (atbtK add multA castBA cast C A B) (Lil.SafeAt m n) := by
  rw [atbtK, hB.2.1]
  exact (forN_returns _ hC.clear fun i C hi hC => (hB.row hi).bind fun b hb =>
    (atbtRow_returns hA hb).bind fun t ht => hC.pushCol hi ht.cast).bind fun C hC => .ok (Lil.SafeAt.recompute hC)

theorem atbtT_returns {multA : α → α → τ} {castBA : β → α} (hA : A.SafeAt k m) (hB : B.SafeAt n k) :
    Returns (atbtT add multA castBA m n A B) (Lil.SafeAt m n) := by
  rw [atbtT, hB.2.1]
  exact forN_returns _ .new fun i C hi hC => (hB.row hi).bind fun b hb =>
    (atbtRow_returns hA hb).bind fun t ht => hC.pushCol hi ht

end

theorem optNoMaskNoAccumATB_returns (hC : C.SafeAt m n) (ha : a.SafeAt m n k m) (hb : b.SafeAt m n k n) :
    Returns (optNoMaskNoAccumATB x C a b) (Lil.SafeAt m n) := by
  rw [optNoMaskNoAccumATB, hC.2.1, hC.2.2]
  split
  · exact hC.clear
  exact (atbNoMaskK_returns .new (ha C hC) (hb C hC)).bind fun T hT => forN_returns _ hC fun i C hi hC =>
    (hT.row hi).bind fun t ht => hC.setRow hi ht

theorem optNoMaskAccumATB_returns (hC : C.SafeAt m n) (ha : a.SafeAt m n k m) (hb : b.SafeAt m n k n) :
    Returns (optNoMaskAccumATB x acc C a b) (Lil.SafeAt m n) := by
  rw [optNoMaskAccumATB, hC.2.1, hC.2.2]
  split
  · exact hC
  refine (atbNoMaskK_returns .new (ha C hC) (hb C hC)).bind fun T hT => forN_returns _ hC fun i C hi hC =>
    (hT.row hi).bind fun t ht => ?_
  split
  · exact hC.mergeRow hi ht
  · exact hC

theorem optMaskNoAccumATB_returns (hC : C.SafeAt m n) (hM : M.SafeAt m n m n) (ha : a.SafeAt m n k m) (hb : b.SafeAt m n k n) :
    Returns (optMaskNoAccumATB x sf outp C M a b) (Lil.SafeAt m n) := by
  rw [optMaskNoAccumATB, hC.2.1, hC.2.2]
  split
  · exact hC.clear
  split
  · exact hC
  exact (atbMaskK_returns .new (hM C hC) (ha C hC) (hb C hC)).bind fun T hT =>
    forN_returns _ hC fun i C hi hC => ((hM C hC).row hi).bind fun mr _ => (hT.row hi).bind fun t ht =>
    storeT_returns hC hi ht

theorem optMaskAccumATB_returns (hC : C.SafeAt m n) (hM : M.SafeAt m n m n) (ha : a.SafeAt m n k m) (hb : b.SafeAt m n k n) :
    Returns (optMaskAccumATB x acc sf outp C M a b) (Lil.SafeAt m n) := by
  rw [optMaskAccumATB, hC.2.1, hC.2.2]
  split
  · exact hC.clear
  split
  · exact hC
  exact (atbMaskK_returns .new (hM C hC) (ha C hC) (hb C hC)).bind fun T hT =>
    forN_returns _ hC fun i C hi hC => ((hM C hC).row hi).bind fun mr _ => (hT.row hi).bind fun t ht =>
    storeZ_returns hC hi ht

theorem optCompNoAccumATB_returns (hC : C.SafeAt m n) (hM : M.SafeAt m n m n) (ha : a.SafeAt m n k m) (hb : b.SafeAt m n k n) :
    Returns (optCompNoAccumATB x sf outp C M a b) (Lil.SafeAt m n) := by
  rw [optCompNoAccumATB, hC.2.1, hC.2.2]
  split
  · exact hC.clear
  exact (atbCompK_returns .new (hM C hC) (ha C hC) (hb C hC)).bind fun T hT =>
    forN_returns _ hC fun i C hi hC => ((hM C hC).row hi).bind fun mr _ => (hT.row hi).bind fun t ht =>
    storeT_returns hC hi ht

theorem optCompAccumATB_returns (hC : C.SafeAt m n) (hM : M.SafeAt m n m n) (ha : a.SafeAt m n k m) (hb : b.SafeAt m n k n) :
    Returns (optCompAccumATB x acc sf outp C M a b) (Lil.SafeAt m n) := by
  rw [optCompAccumATB, hC.2.1, hC.2.2]
  split
  · exact hC
  exact (atbCompK_returns .new (hM C hC) (ha C hC) (hb C hC)).bind fun T hT =>
    forN_returns _ hC fun i C hi hC => ((hM C hC).row hi).bind fun mr _ => (hT.row hi).bind fun t ht =>
    storeZ_returns hC hi ht

theorem optNoMaskNoAccumATBT_returns (hC : C.SafeAt m n) (ha : a.SafeAt m n k m) (hb : b.SafeAt m n n k) :
    Returns (optNoMaskNoAccumATBT x C a b) (Lil.SafeAt m n) := by
  rw [optNoMaskNoAccumATBT, hC.2.1, hC.2.2]
  split
  · exact hC.clear
  split
  · exact (atbtK_returns .new (ha C hC) (hb C hC)).bind fun tmp ht => (forN_returns _ hC fun i C hi hC =>
      (ht.row hi).bind fun t ht => hC.setRow hi ht).bind fun C hC => .ok (Lil.SafeAt.recompute hC)
  · exact (atbtK_returns hC (ha C hC) (hb C hC)).bind fun C hC => .ok (Lil.SafeAt.recompute hC)

theorem optNoMaskAccumATBT_returns (hC : C.SafeAt m n) (ha : a.SafeAt m n k m) (hb : b.SafeAt m n n k) :
    Returns (optNoMaskAccumATBT x acc C a b) (Lil.SafeAt m n) := by
  rw [optNoMaskAccumATBT, hC.2.1, hC.2.2]
  split
  · exact hC
  exact (atbtK_returns .new (ha C hC) (hb C hC)).bind fun T hT => mergeTmp_returns hC hT

theorem optMaskNoAccumATBT_returns (hC : C.SafeAt m n) (hM : M.SafeAt m n m n) (ha : a.SafeAt m n k m) (hb : b.SafeAt m n n k) :
    Returns (optMaskNoAccumATBT x sf outp C M a b) (Lil.SafeAt m n) := by
  rw [optMaskNoAccumATBT, hC.2.1, hC.2.2]
  split
  · exact hC.clear
  split
  · exact hC
  exact (atbtT_returns (ha C hC) (hb C hC)).bind fun T hT =>
    forN_returns _ hC fun i C hi hC => ((hM C hC).row hi).bind fun mr _ => (hT.row hi).bind fun t ht =>
    storeT_returns hC hi (ht.maskFilter t).cast

theorem optMaskAccumATBT_returns (hC : C.SafeAt m n) (hM : M.SafeAt m n m n) (ha : a.SafeAt m n k m) (hb : b.SafeAt m n n k) :
    Returns (optMaskAccumATBT x acc sf outp C M a b) (Lil.SafeAt m n) := by
  rw [optMaskAccumATBT, hC.2.1, hC.2.2]
  split
  · exact hC.clear
  split
  · exact hC
  exact (atbtT_returns (ha C hC) (hb C hC)).bind fun T hT =>
    forN_returns _ hC fun i C hi hC => ((hM C hC).row hi).bind fun mr _ => (hT.row hi).bind fun t ht =>
    storeZ_returns hC hi (ht.maskFilter t)

theorem optCompNoAccumATBT_returns (hC : C.SafeAt m n) (hM : M.SafeAt m n m n) (ha : a.SafeAt m n k m) (hb : b.SafeAt m n n k) :
    Returns (optCompNoAccumATBT x sf outp C M a b) (Lil.SafeAt m n) := by
  rw [optCompNoAccumATBT, hC.2.1, hC.2.2]
  split
  · exact hC.clear
  exact (atbtT_returns (ha C hC) (hb C hC)).bind fun T hT =>
    forN_returns _ hC fun i C hi hC => ((hM C hC).row hi).bind fun mr _ => (hT.row hi).bind fun t ht =>
    storeT_returns hC hi (ht.maskFilter t).cast

theorem optCompAccumATBT_returns (hC : C.SafeAt m n) (hM : M.SafeAt m n m n) (ha : a.SafeAt m n k m) (hb : b.SafeAt m n n k) :
    Returns (optCompAccumATBT x acc sf outp C M a b) (Lil.SafeAt m n) := by
  rw [optCompAccumATBT, hC.2.1, hC.2.2]
  split
  · exact hC
  exact (atbtT_returns (ha C hC) (hb C hC)).bind fun T hT =>
    forN_returns _ hC fun i C hi hC => ((hM C hC).row hi).bind fun mr _ => (hT.row hi).bind fun t ht =>
    storeZ_returns hC hi (ht.maskFilter t)

/-! ### The call -/

theorem optDispatch_returns {kd : MaskKind} {P : Lil γ → Prop} {f g : Bool → Except Err (Lil γ)}
    (hf : ∀ sf, Returns (f sf) P) (hg : ∀ sf, Returns (g sf) P) : Returns (optDispatch kd f g) P := by
  cases kd with
  | plain => exact hf false
  | struct => exact hf true
  | comp => exact hg false
  | structComp => exact hg true

theorem optMxmBackend_returns {acc : Option (AccOp γ τ ζ)} {N : ArgMask γ μ} (A : ArgOperand γ α)
    (B : ArgOperand γ β) (hC : C.Safe) (hN : ∀ kd a, N = some (kd, a) → a.SafeAt C.nrows C.ncols C.nrows C.ncols)
    (hA : (A.at C).Safe) (hB : (B.at C).Safe) (h1 : C.nrows = (A.at C).nrows) (h2 : C.ncols = (B.at C).ncols)
    (h3 : (A.at C).ncols = (B.at C).nrows) :
    Returns (optMxmBackend x acc outp C N A B) (Lil.SafeAt C.nrows C.ncols) := by
  have hC' := hC.at
  cases A with
  | plain a =>
    have ha : a.SafeAt C.nrows C.ncols C.nrows (a.at C).ncols := by
      have := Arg.safeAt hC (a := a) hA
      rwa [show (a.at C).nrows = C.nrows from h1.symm] at this
    cases B with
    | plain b =>
      have hb : b.SafeAt C.nrows C.ncols (a.at C).ncols C.ncols := by
        have := Arg.safeAt hC (a := b) hB
        rwa [show (b.at C).nrows = (a.at C).ncols from h3.symm, show (b.at C).ncols = C.ncols from h2.symm] at this
      rcases N with _ | ⟨kd, N⟩ <;> rcases acc with _ | acc
      · exact optNoMaskNoAccumAB_returns hC' ha hb
      · exact optNoMaskAccumAB_returns hC' ha hb
      · rw [optMxmBackend]
        refine optDispatch_returns (fun sf => ?_) fun sf => ?_
        · exact optMaskNoAccumAB_returns hC' (hN _ _ rfl) ha hb
        · exact optCompNoAccumAB_returns hC' (hN _ _ rfl) ha hb
      · rw [optMxmBackend]
        refine optDispatch_returns (fun sf => ?_) fun sf => ?_
        · exact optMaskAccumAB_returns hC' (hN _ _ rfl) ha hb
        · exact optCompAccumAB_returns hC' (hN _ _ rfl) ha hb
    | tr b =>
      have hb : b.SafeAt C.nrows C.ncols C.ncols (a.at C).ncols := by
        have := Arg.safeAt hC (a := b) hB
        rwa [show (b.at C).ncols = (a.at C).ncols from h3.symm, show (b.at C).nrows = C.ncols from h2.symm] at this
      rcases N with _ | ⟨kd, N⟩ <;> rcases acc with _ | acc
      · exact optNoMaskNoAccumABT_returns hC' ha hb
      · exact optNoMaskAccumABT_returns hC' ha hb
      · rw [optMxmBackend]
        refine optDispatch_returns (fun sf => ?_) fun sf => ?_
        · exact optMaskNoAccumABT_returns hC' (hN _ _ rfl) ha hb
        · exact optCompNoAccumABT_returns hC' (hN _ _ rfl) ha hb
      · rw [optMxmBackend]
        refine optDispatch_returns (fun sf => ?_) fun sf => ?_
        · exact optMaskAccumABT_returns hC' (hN _ _ rfl) ha hb
        · exact optCompAccumABT_returns hC' (hN _ _ rfl) ha hb
  | tr a =>
    have ha : a.SafeAt C.nrows C.ncols (a.at C).nrows C.nrows := by
      have := Arg.safeAt hC (a := a) hA
      rwa [show (a.at C).ncols = C.nrows from h1.symm] at this
    cases B with
    | plain b =>
      have hb : b.SafeAt C.nrows C.ncols (a.at C).nrows C.ncols := by
        have := Arg.safeAt hC (a := b) hB
        rwa [show (b.at C).nrows = (a.at C).nrows from h3.symm, show (b.at C).ncols = C.ncols from h2.symm] at this
      rcases N with _ | ⟨kd, N⟩ <;> rcases acc with _ | acc
      · exact optNoMaskNoAccumATB_returns hC' ha hb
      · exact optNoMaskAccumATB_returns hC' ha hb
      · rw [optMxmBackend]
        refine optDispatch_returns (fun sf => ?_) fun sf => ?_
        · exact optMaskNoAccumATB_returns hC' (hN _ _ rfl) ha hb
        · exact optCompNoAccumATB_returns hC' (hN _ _ rfl) ha hb
      · rw [optMxmBackend]
        refine optDispatch_returns (fun sf => ?_) fun sf => ?_
        · exact optMaskAccumATB_returns hC' (hN _ _ rfl) ha hb
        · exact optCompAccumATB_returns hC' (hN _ _ rfl) ha hb
    | tr b =>
      have hb : b.SafeAt C.nrows C.ncols C.ncols (a.at C).nrows := by
        have := Arg.safeAt hC (a := b) hB
        rwa [show (b.at C).ncols = (a.at C).nrows from h3.symm, show (b.at C).nrows = C.ncols from h2.symm] at this
      rcases N with _ | ⟨kd, N⟩ <;> rcases acc with _ | acc
      · exact optNoMaskNoAccumATBT_returns hC' ha hb
      · exact optNoMaskAccumATBT_returns hC' ha hb
      · rw [optMxmBackend]
        refine optDispatch_returns (fun sf => ?_) fun sf => ?_
        · exact optMaskNoAccumATBT_returns hC' (hN _ _ rfl) ha hb
        · exact optCompNoAccumATBT_returns hC' (hN _ _ rfl) ha hb
      · rw [optMxmBackend]
        refine optDispatch_returns (fun sf => ?_) fun sf => ?_
        · exact optMaskAccumATBT_returns hC' (hN _ _ rfl) ha hb
        · exact optCompAccumATBT_returns hC' (hN _ _ rfl) ha hb

theorem optMxm_fine {acc : Option (AccOp γ τ ζ)} {N : ArgMask γ μ} (A : ArgOperand γ α)
    (B : ArgOperand γ β) (hC : C.Safe) (hN : ∀ kd D, N.at C = some (kd, D) → D.Safe)
    (hA : (A.at C).Safe) (hB : (B.at C).Safe) : (optMxm x acc outp C N A B).Fine Lil.Safe := by
  refine run_fine (Q := fun _ => (∀ kd a, N = some (kd, a) → a.SafeAt C.nrows C.ncols C.nrows C.ncols) ∧
      C.nrows = (A.at C).nrows ∧ C.ncols = (B.at C).ncols ∧ (A.at C).ncols = (B.at C).nrows) hC ?_ fun _ h =>
    (optMxmBackend_returns A B hC h.1 hA hB h.2.1 h.2.2.1 h.2.2.2).mono fun _ hD => hD.1
  refine (rowCheck_sound ..).bind fun _ m1 => (colCheck_sound ..).bind fun _ m2 => (eqCheck_sound ..).bind fun _ h1 =>
    (eqCheck_sound ..).bind fun _ h2 => (eqCheck_sound ..).mono fun _ h3 => ⟨?_, h1, h2, h3⟩
  rintro kd a rfl
  have := Arg.safeAt hC (a := a) (hN kd _ rfl)
  rwa [← m1 kd _ rfl, ← m2 kd _ rfl] at this

end

/-! ### Calls and programs -/

theorem Ref.arg_at_safe {s : Store tm tv} (hs : s.Safe) (x : Nat) (r : Ref) : ((r.arg s x).at (s.mat x)).Safe := by
  obtain ⟨y, tr⟩ := r
  by_cases h : y = x
  · subst h
    cases tr
    · have : Operand.Safe (.plain (s.mat y)) := hs.mat y
      simpa [Ref.arg, ArgOperand.at, Arg.at] using this
    · have : Operand.Safe (.tr (s.mat y)) := hs.mat y
      simpa [Ref.arg, ArgOperand.at, Arg.at] using this
  · cases tr
    · have : Operand.Safe (.plain (s.mat y)) := hs.mat y
      simpa [Ref.arg, ArgOperand.at, Arg.at, h] using this
    · have : Operand.Safe (.tr (s.mat y)) := hs.mat y
      simpa [Ref.arg, ArgOperand.at, Arg.at, h] using this

variable [∀ x, Inhabited (tm x)] [∀ x, Inhabited (tv x)]

theorem Stmt.regularOpt {K : Convs tm} {s : Store tm tv} (hs : s.Safe) (c : Stmt tm tv α) (hc : c.bounded s.abs) :
    Regular (c.execOpt K s) := by
  unfold Stmt.execOpt
  split
  · exact observeOut_regular (optMxm_fine _ _ (hs.mat _) (by intro k A h; cases h) (Ref.arg_at_safe hs _ _)
      (Ref.arg_at_safe hs _ _)) fun v hv => hs.setM hv
  · exact observeOut_regular (optMxm_fine _ _ (hs.mat _) (matMask_safe hs _ _ _) (Ref.arg_at_safe hs _ _)
      (Ref.arg_at_safe hs _ _)) fun v hv => hs.setM hv
  · exact Stmt.regular hs _ hc

theorem Program.regularOpt {K : Convs tm} {s : Store tm tv} (hs : s.Safe) (p : Program tm tv ρ)
    (hp : p.boundedOpt K s) : ∃ r s', p.execOpt K s = some (r, s') ∧ s'.Safe := by
  induction p generalizing s with
  | ret r => exact ⟨r, s, rfl, hs⟩
  | step c k ih =>
    obtain ⟨r, s', h, hs'⟩ := Stmt.regularOpt (K := K) hs c hp.1
    rw [Program.execOpt, h]
    exact ih r hs' (hp.2 r s' h)

end GBTL
