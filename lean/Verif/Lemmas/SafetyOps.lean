import Verif.Lemmas.Safety
import Verif.Lemmas.Program
/- Accesses within bounds: the operations. -/
namespace GBTL
open Spec (Outp MaskKind Accum)

variable {α β γ δ τ ζ μ ν σ ρ : Type} {m n : Nat}

/-! ### Checks -/

theorem eqCheck_sound (a b : Nat) : Sound (eqCheck a b) fun _ => a = b := by
  simp only [eqCheck, check]
  split
  · exact by simp_all [Sound]
  · exact nofun

theorem indexCheck_sound (i n : Nat) : Sound (indexCheck i n) fun _ => i < n := by
  simp only [indexCheck, check]
  split
  · exact by simp_all [Sound]
  · exact nofun

theorem rowCheck_sound (M : MMask μ) (n : Nat) :
    Sound (M.rowCheck n) fun _ => ∀ k A, M = some (k, A) → n = A.nrows := by
  rcases M with _ | ⟨k, A⟩
  · exact nofun
  · exact (eqCheck_sound n A.nrows).mono fun _ h k A e => by cases e; exact h

theorem colCheck_sound (M : MMask μ) (n : Nat) :
    Sound (M.colCheck n) fun _ => ∀ k A, M = some (k, A) → n = A.ncols := by
  rcases M with _ | ⟨k, A⟩
  · exact nofun
  · exact (eqCheck_sound n A.ncols).mono fun _ h k A e => by cases e; exact h

theorem sizeCheck_sound (M : VMask μ) (n : Nat) :
    Sound (M.sizeCheck n) fun _ => ∀ k v, M = some (k, v) → n = v.size := by
  rcases M with _ | ⟨k, A⟩
  · exact nofun
  · exact (eqCheck_sound n A.size).mono fun _ h k A e => by cases e; exact h

theorem lenCheck_sound (ix : Idx) (n : Nat) :
    Sound (ix.lenCheck n) fun _ => ∀ l, ix = .list l → n = l.length := by
  cases ix with
  | all => exact nofun
  | list l => exact (eqCheck_sound n l.length).mono fun _ h l e => by cases e; exact h

theorem withinCheck_sound (ix : Idx) (n : Nat) : Sound (ix.withinCheck n) fun _ => True := by
  cases ix with
  | all => trivial
  | list l =>
    simp only [Idx.withinCheck, check]
    split
    · trivial
    · exact nofun

theorem contentCheck_sound (ix : Idx) (n : Nat) :
    Sound (checkIndexArrayContent ix n) fun _ => ∀ l, ix = .list l → ∀ i ∈ l, i < n := by
  cases ix with
  | all => exact nofun
  | list l =>
    simp only [checkIndexArrayContent]
    split
    · exact nofun
    · rename_i h
      intro k e i hi
      cases e
      simp only [List.any_eq_true, decide_eq_true_eq, not_exists, not_and] at h
      exact Nat.lt_of_not_le (h i hi)

/-- Listed indices are in range, and with `AllIndices` the range is small enough. -/
theorem setup_below {ix : Idx} {k n : Nat} (h : ∀ l, ix = .list l → ∀ i ∈ l, i < n) (ha : ix = .all → k ≤ n) :
    ∀ i ∈ setupIndices ix k, i < n := by
  cases ix with
  | list l => exact h l rfl
  | all => exact fun i hi => Nat.lt_of_lt_of_le (List.mem_range.1 hi) (ha rfl)

theorem setup_len {ix : Idx} {k n : Nat} (h : ∀ l, ix = .list l → n = l.length) (ha : ix = .all → k ≤ n) :
    (setupIndices ix k).length ≤ n := by
  cases ix with
  | list l => exact Nat.le_of_eq (h l rfl).symm
  | all => simpa [setupIndices] using ha rfl

/-! ### Operands -/

/-- The matrix behind the operand is safe. -/
def Operand.Safe (A : Operand α) : Prop := A.mat.Safe

theorem Operand.Safe.plain {A : Lil α} {m n : Nat} (h : (Operand.plain A).Safe) (hm : (Operand.plain A).nrows = m)
    (hn : (Operand.plain A).ncols = n) : A.SafeAt m n := ⟨h, hm, hn⟩
theorem Operand.Safe.tr {A : Lil α} {m n : Nat} (h : (Operand.tr A).Safe) (hm : (Operand.tr A).nrows = m)
    (hn : (Operand.tr A).ncols = n) : A.SafeAt n m := ⟨h, hn, hm⟩

/-! ### Products -/

variable {k : Nat}

theorem mxmT_returns {C : Lil γ} (hC : C.SafeAt m n) (sr : SR α β τ) (via : τ → τ) (A : Operand α)
    (B : Operand β) (hA : A.Safe) (hB : B.Safe) (h1 : A.nrows = m) (h2 : B.ncols = n) (h3 : A.ncols = k)
    (h4 : B.nrows = k) : Returns (mxmT C sr via A B) (Lil.SafeAt m n) := by
  cases A with
  | plain A =>
    have hA := hA.plain h1 h3
    cases B with
    | plain B =>
      have hB := hB.plain h4 h2
      rw [mxmT, mxmAB, hC.2.1, hC.2.2, hA.2.1]
      refine forN_returns _ .new fun i T hi hT => (hA.row hi).bind fun a ha =>
        foldlM_returns _ _ a (fun T p hp hT => (hB.row (ha p hp)).bind fun b hb => ?_) T hT
      split
      · exact hT
      · exact (hT.row hi).bind fun t ht => hT.poke hi (ht.axpy b hb)
    | tr B =>
      have hB := hB.tr h4 h2
      rw [mxmT, mxmABT, hC.2.1, hC.2.2, hA.2.1, hB.2.1]
      split
      · refine (forN_returns _ .new fun i T hi hT => (hA.row hi).bind fun a ha => ?_).bind
          fun T hT => .ok (Lil.SafeAt.recompute hT)
        split
        · exact hT
        · refine forN_returns _ hT fun j T hj hT => (hB.row hj).bind fun b hb => ?_
          split
          · exact hT
          · exact hT.emplace hi hj _
      · exact Lil.SafeAt.new
  | tr A =>
    have hA := hA.tr h1 h3
    cases B with
    | plain B =>
      have hB := hB.plain h4 h2
      rw [mxmT, mxmATB, hC.2.1, hC.2.2, hA.2.1]
      refine forN_returns _ .new fun i T hi hT => (hA.row hi).bind fun a ha => (hB.row hi).bind fun b hb => ?_
      split
      · exact hT
      · exact foldlM_returns _ _ a (fun T p hp hT => (hT.row (ha p hp)).bind fun t ht =>
          hT.poke (ha p hp) (ht.axpy b hb)) T hT
    | tr B =>
      have hB := hB.tr h4 h2
      rw [mxmT, mxmATBT, hC.2.1, hC.2.2, hB.2.1]
      refine forN_returns _ .new fun i T hi hT => (hB.row hi).bind fun b hb => ?_
      refine (foldlM_returns (Row.Below m) _ b (fun t p hp ht => (hA.row (hb p hp)).bind fun a ha => ?_) []
        .nil).bind fun tRow ht => foldlM_returns _ _ tRow (fun T p hp hT => hT.push (ht p hp) hi _) T hT
      split
      · exact ht
      · exact ht.axpy a ha

theorem vxmA_returns {add : τ → τ → τ} {mult : β → α → τ} {u : BVec β} {A : Lil α} (hu : u.SafeAt m)
    (hA : A.SafeAt m n) : Returns (vxmA add mult u A) (Row.Below n) := by
  rw [vxmA, hu.2]
  split
  · refine forN_returns _ .nil fun i t hi ht => ?_
    have hb : i < u.bitmap.length := by rw [hu.1.bitmap, hu.2]; exact hi
    have hv : i < u.vals.length := by rw [hu.1.vals, hu.2]; exact hi
    have h1 : u.hasElement i = .ok u.bitmap[i] := by
      rw [BVec.hasElement, hu.2, if_neg (by omega), rd_ok hb]
    rw [h1, Except.bind_ok']
    split
    · exact ht
    · rename_i hbit
      refine (hA.row hi).bind fun a ha => ?_
      split
      · exact ht
      · have h2 : u.extractElement i = .ok u.vals[i] := by
          simp only [BVec.extractElement, hu.2, if_neg (Nat.not_le.2 hi), rd_ok hb, rd_ok hv]
          cases hbb : u.bitmap[i] with
          | true => rfl
          | false => rw [hbb] at hbit; exact absurd rfl hbit
        rw [h2, Except.bind_ok']
        exact ht.axpy a ha
  · exact .nil

theorem mxvA_returns {w : BVec γ} {add : τ → τ → τ} {mult : α → β → τ} {A : Lil α} {u : BVec β} (hw : w.size = m)
    (hA : A.SafeAt m n) (hu : u.SafeAt n) : Returns (mxvA w add mult A u) (Row.Below m) := by
  rw [mxvA, hw]
  split
  · refine hu.contents.bind fun uc _ => forN_returns _ .nil fun i t hi ht => (hA.row hi).bind fun a _ => ?_
    split
    · exact ht
    · exact ht.emplace hi
  · exact .nil

theorem vxmAT_returns {w : BVec γ} {add : τ → τ → τ} {mult : β → α → τ} {u : BVec β} {A : Lil α} (hw : w.size = m)
    (hA : A.SafeAt m n) (hu : u.SafeAt n) : Returns (vxmAT w add mult u A) (Row.Below m) := by
  rw [vxmAT, hw]
  split
  · refine hu.contents.bind fun uc _ => forN_returns _ .nil fun i t hi ht => (hA.row hi).bind fun a _ => ?_
    split
    · exact ht
    · exact ht.emplace hi
  · exact .nil

theorem vxmT_returns {w : BVec γ} (hw : w.size = n) (sr : SR α β τ) {u : BVec α} (A : Operand β) (hu : u.Safe)
    (hA : A.Safe) (h1 : n = A.ncols) (h2 : u.size = A.nrows) : Returns (vxmT w sr u A) (Row.Below n) := by
  cases A with
  | plain A => exact vxmA_returns (m := u.size) hu.at (hA.plain h2.symm h1.symm)
  | tr A => exact vxmAT_returns hw (hA.tr h2.symm h1.symm) hu.at

theorem mxvT_returns {w : BVec γ} (hw : w.size = n) (sr : SR α β τ) {u : BVec β} (A : Operand α) (hu : u.Safe)
    (hA : A.Safe) (h1 : n = A.nrows) (h2 : u.size = A.ncols) : Returns (mxvT w sr A u) (Row.Below n) := by
  cases A with
  | plain A => exact mxvA_returns hw (hA.plain h1.symm h2.symm) hu.at
  | tr A => exact vxmA_returns (m := u.size) hu.at (hA.tr h1.symm h2.symm)

/-! ### Element-wise -/

theorem ewiseAddRow_below {op : α → β → τ} {c1 : α → τ} {c2 : β → τ} {a : Row α} {b : Row β}
    (ha : Row.Below n a) (hb : Row.Below n b) : Row.Below n (ewiseAddRow op c1 c2 a b) := by
  rw [ewiseAddRow]
  split
  · exact ha.cast
  · split
    · exact hb.cast
    · exact .ewiseOr a b ha hb

theorem ewiseAddMat_returns {op : α → β → τ} {c1 : α → τ} {c2 : β → τ} {A : Lil α} {B : Lil β}
    (hA : A.SafeAt m n) (hB : B.SafeAt m n) : Returns (ewiseAddMat op c1 c2 A B) (Lil.SafeAt m n) := by
  rw [ewiseAddMat, hA.2.1, hA.2.2]
  split
  · exact forN_returns _ .new fun i T hi hT => (hA.row hi).bind fun a ha => (hB.row hi).bind fun b hb =>
      hT.setRow hi (ewiseAddRow_below ha hb)
  · exact Lil.SafeAt.new

theorem ewiseMultMat_returns {op : α → β → τ} {A : Lil α} {B : Lil β}
    (hA : A.SafeAt m n) (hB : B.SafeAt m n) : Returns (ewiseMultMat op A B) (Lil.SafeAt m n) := by
  rw [ewiseMultMat, hA.2.1, hA.2.2]
  split
  · refine forN_returns _ .new fun i T hi hT => (hA.row hi).bind fun a ha => (hB.row hi).bind fun b hb => ?_
    split
    · simp only
      split
      · exact hT.setRow hi (.ewiseAnd a b ha hb)
      · exact hT
    · exact hT
  · exact Lil.SafeAt.new

theorem eWiseAddT_returns (f : EW α β τ) (A : Operand α) (B : Operand β) (hA : A.Safe) (hB : B.Safe)
    (h1 : A.nrows = m) (h2 : A.ncols = n) (h3 : B.nrows = m) (h4 : B.ncols = n) :
    Returns (eWiseAddT f A B) (Lil.SafeAt m n) := by
  cases A with
  | plain A =>
    have hA := hA.plain h1 h2
    cases B with
    | plain B => exact ewiseAddMat_returns hA (hB.plain h3 h4)
    | tr B => exact (transposed_returns (hB.tr h3 h4)).bind fun _ hB => ewiseAddMat_returns hA hB
  | tr A =>
    have hA := hA.tr h1 h2
    cases B with
    | plain B => exact (transposed_returns hA).bind fun _ hA => ewiseAddMat_returns hA (hB.plain h3 h4)
    | tr B =>
      have hB := hB.tr h3 h4
      rw [eWiseAddT, ewiseAddATBT, hA.2.1, hA.2.2]
      split
      · exact pushCols_returns (Nat.le_refl _) fun i hi => (hA.row hi).bind fun a ha =>
          (hB.row hi).bind fun b hb => .ok (ewiseAddRow_below ha hb)
      · exact Lil.SafeAt.new

theorem eWiseMultT_returns (f : EW α β τ) (A : Operand α) (B : Operand β) (hA : A.Safe) (hB : B.Safe)
    (h1 : A.nrows = m) (h2 : A.ncols = n) (h3 : B.nrows = m) (h4 : B.ncols = n) :
    Returns (eWiseMultT f A B) (Lil.SafeAt m n) := by
  cases A with
  | plain A =>
    have hA := hA.plain h1 h2
    cases B with
    | plain B => exact ewiseMultMat_returns hA (hB.plain h3 h4)
    | tr B => exact (transposed_returns (hB.tr h3 h4)).bind fun _ hB => ewiseMultMat_returns hA hB
  | tr A =>
    have hA := hA.tr h1 h2
    cases B with
    | plain B => exact (transposed_returns hA).bind fun _ hA => ewiseMultMat_returns hA (hB.plain h3 h4)
    | tr B =>
      have hB := hB.tr h3 h4
      rw [eWiseMultT, ewiseMultATBT, hA.2.1, hA.2.2]
      split
      · refine pushCols_returns (Nat.le_refl _) fun i hi => (hA.row hi).bind fun a ha =>
          (hB.row hi).bind fun b hb => ?_
        split
        · exact .ewiseAnd a b ha hb
        · exact .nil
      · exact Lil.SafeAt.new

theorem ewiseAddVec_returns {op : α → β → τ} {c1 : α → τ} {c2 : β → τ} {u : BVec α} {v : BVec β}
    (hu : u.SafeAt n) (hv : v.SafeAt n) : Returns (ewiseAddVec op c1 c2 u v) (Row.Below n) := by
  rw [ewiseAddVec]
  split
  · exact hu.contents.bind fun a ha => hv.contents.bind fun b hb => .ok (.ewiseOr a b ha hb)
  · exact .nil

theorem ewiseMultVec_returns {op : α → β → τ} {u : BVec α} {v : BVec β}
    (hu : u.SafeAt n) (hv : v.SafeAt n) : Returns (ewiseMultVec op u v) (Row.Below n) := by
  rw [ewiseMultVec]
  split
  · exact hu.contents.bind fun a ha => hv.contents.bind fun b hb => .ok (.ewiseAnd a b ha hb)
  · exact .nil

theorem applyVec_returns {f : α → τ} {u : BVec α} (hu : u.SafeAt n) : Returns (applyVec f u) (Row.Below n) := by
  rw [applyVec]
  split
  · exact hu.contents.bind fun a ha => .ok ha.cast
  · exact .nil

theorem applyT_returns (f : α → τ) (A : Operand α) (hA : A.Safe) (h1 : A.nrows = m) (h2 : A.ncols = n) :
    Returns (applyT f A) (Lil.SafeAt m n) := by
  cases A with
  | plain A =>
    have hA := hA.plain h1 h2
    rw [applyT, applyMat, hA.2.1, hA.2.2]
    exact (forN_returns _ .new fun i T hi hT => (hA.row hi).bind fun a ha => (hT.row hi).bind fun t ht =>
      hT.poke hi (ht.append ha.cast)).bind fun T hT => .ok (Lil.SafeAt.recompute hT)
  | tr A =>
    have hA := hA.tr h1 h2
    rw [applyT, applyMatT, hA.2.1, hA.2.2]
    exact pushCols_returns (Nat.le_refl _) fun i hi => (hA.row hi).bind fun a ha => .ok ha.cast

/-! ### reduce -/

theorem reduceT_returns (r : RedOp α τ) (A : Operand α) (hA : A.Safe) (h1 : A.nrows = n) :
    Returns (reduceT r A) (Row.Below n) := by
  cases A with
  | plain A =>
    have hA := hA.plain h1 rfl
    rw [reduceT, reduceRows, hA.2.1]
    split
    · exact forN_returns _ .nil fun i t hi ht => (hA.row hi).bind fun a _ => .ok (ht.emplace hi)
    · exact .nil
  | tr A =>
    have hA := hA.tr h1 rfl
    rw [reduceT, reduceCols, hA.2.1]
    split
    · refine forN_returns _ .nil fun i t hi ht => (hA.row hi).bind fun a ha => ?_
      split
      · exact ht.xpey a ha
      · exact ht
    · exact .nil

theorem reduceVec_returns {op : α → α → τ} {op' : τ → α → τ} {c : α → τ} {e : τ} {u : BVec α} (hu : u.Safe) :
    Returns (reduceVec op op' c e u) fun _ => True := by
  rw [reduceVec]
  split
  · exact hu.at.contents.bind fun _ _ => .ok trivial
  · trivial

theorem reduceMat_returns {op : α → α → τ} {op' : τ → α → τ} {opT : τ → τ → τ} {c : α → τ} {e : τ} {A : Lil α}
    (hA : A.Safe) : Returns (reduceMat op op' opT c e A) fun _ => True := by
  rw [reduceMat]
  split
  · refine forN_returns _ trivial fun i t hi _ => (hA.at.row hi).bind fun a _ => ?_
    split
    · trivial
    · trivial
  · trivial

/-! ### extract -/

theorem extractVec_sound {w : BVec γ} {u : BVec α} {ix : Idx} (hw : w.size = n) (hu : u.Safe)
    (hl : ∀ l, ix = .list l → n = l.length) : Sound (extractVec w u ix) (Row.Below n) := by
  rw [extractVec]
  exact (contentCheck_sound ix u.size).bind fun _ _ => hu.at.contents.sound.bind fun c _ =>
    .ok (.vectorExtract _ (by
      have := setup_len (k := min w.size u.size) hl (fun _ => by omega)
      omega))

theorem matrixExtractLoop_returns {A : Lil α} {cols : List Nat} (hA : A.Safe) (hc : cols.length ≤ n)
    (is : List Nat) (hi : ∀ i ∈ is, i < A.nrows) : ∀ (k : Nat) (T : Lil α), k + is.length ≤ m → T.SafeAt m n →
    Returns (matrixExtractLoop A cols k is T) (Lil.SafeAt m n) := by
  induction is with
  | nil => intro k T _ hT; exact hT
  | cons i is ih =>
    intro k T hk hT
    simp only [List.length_cons] at hk
    rw [matrixExtractLoop]
    exact (hA.at.row (hi i (List.mem_cons_self ..))).bind fun a _ =>
      (hT.setRowIf (by omega) (.vectorExtract _ (by omega))).bind fun T hT =>
        ih (fun j hj => hi j (List.mem_cons_of_mem _ hj)) (k + 1) T (by omega) hT

theorem matrixExtractColT_returns {a : Row α} {k : Nat} (hk : k < n) (js : List Nat) :
    ∀ (l : Nat) (T : Lil α), l + js.length ≤ m → T.SafeAt m n →
    Returns (matrixExtractColT a k l js T) (Lil.SafeAt m n) := by
  induction js with
  | nil => intro l T _ hT; exact hT
  | cons j js ih =>
    intro l T hl hT
    simp only [List.length_cons] at hl
    rw [matrixExtractColT]
    exact (hT.emplace (by omega) hk _).bind fun T hT => ih (l + 1) T (by omega) hT

theorem matrixExtractLoopT_returns {A : Lil α} {rows : List Nat} (hA : A.Safe) (hr : rows.length ≤ m)
    (js : List Nat) (hj : ∀ j ∈ js, j < A.nrows) : ∀ (k : Nat) (T : Lil α), k + js.length ≤ n → T.SafeAt m n →
    Returns (matrixExtractLoopT A rows k js T) (Lil.SafeAt m n) := by
  induction js with
  | nil => intro k T _ hT; exact hT
  | cons j js ih =>
    intro k T hk hT
    simp only [List.length_cons] at hk
    rw [matrixExtractLoopT]
    exact (hA.at.row (hj j (List.mem_cons_self ..))).bind fun a _ =>
      (matrixExtractColT_returns (by omega) rows 0 T (by omega) hT).bind fun T hT =>
        ih (fun i hi => hj i (List.mem_cons_of_mem _ hi)) (k + 1) T (by omega) hT

theorem extractT_sound {C : Lil γ} (hC : C.SafeAt m n) (A : Operand α) (hA : A.Safe) {ri ci : Idx}
    (hr : ∀ l, ri = .list l → m = l.length) (hc : ∀ l, ci = .list l → n = l.length) :
    Sound (extractT C A ri ci) (Lil.SafeAt m n) := by
  cases A with
  | plain A =>
    have hA : A.Safe := hA
    rw [extractT, extractMat, hC.2.1, hC.2.2]
    refine (contentCheck_sound ri A.nrows).bind fun _ h1 => (contentCheck_sound ci A.ncols).bind fun _ h2 => ?_
    exact (matrixExtractLoop_returns hA (setup_len hc (fun _ => by omega)) _
      (setup_below h1 (fun _ => by omega)) 0 _
      (by have := setup_len (k := min A.nrows m) hr (fun _ => by omega); omega)
      Lil.SafeAt.new.clear).sound
  | tr A =>
    have hA : A.Safe := hA
    rw [extractT, extractMatT, hC.2.1, hC.2.2]
    refine (contentCheck_sound ri A.ncols).bind fun _ h1 => (contentCheck_sound ci A.nrows).bind fun _ h2 => ?_
    exact ((matrixExtractLoopT_returns hA (setup_len hr (fun _ => by omega)) _
      (setup_below h2 (fun _ => by omega)) 0 _
      (by have := setup_len (k := min A.nrows n) hc (fun _ => by omega); omega)
      Lil.SafeAt.new.clear).bind fun T hT => .ok hT.recompute).sound

theorem extractColumnLoop_returns {A : Lil α} {j : Nat} (hA : A.Safe) (is : List Nat)
    (hi : ∀ i ∈ is, i < A.nrows) : ∀ (k : Nat), k + is.length ≤ n →
    Returns (extractColumnLoop A j k is) (Row.Below n) := by
  induction is with
  | nil => intro k _; exact .nil
  | cons i is ih =>
    intro k hk
    simp only [List.length_cons] at hk
    rw [extractColumnLoop]
    exact (hA.at.row (hi i (List.mem_cons_self ..))).bind fun a _ =>
      (ih (fun j hj => hi j (List.mem_cons_of_mem _ hj)) (k + 1) (by omega)).bind fun r hr =>
        .ok (Row.Below.append (Row.Below.emplace .nil (by omega)) hr)

theorem extractColT'_sound {w : BVec γ} (hw : w.size = n) (A : Operand α) (hA : A.Safe) {ri : Idx} {j : Nat}
    (hr : ∀ l, ri = .list l → n = l.length) (hj : j < A.ncols) :
    Sound (extractColT' w A ri j) (Row.Below n) := by
  cases A with
  | plain A =>
    have hA : A.Safe := hA
    rw [extractColT', extractCol, hw]
    refine (contentCheck_sound ri A.nrows).bind fun _ h1 => ?_
    exact (extractColumnLoop_returns hA _ (setup_below h1 (fun _ => by omega)) 0
      (by have := setup_len (k := min A.nrows n) hr (fun _ => by omega); omega)).sound
  | tr A =>
    have hA : A.Safe := hA
    rw [extractColT', extractColT, hw]
    refine (contentCheck_sound ri A.ncols).bind fun _ h1 => ?_
    exact ((hA.at.row hj).bind fun row _ => .ok (.extractRowLoop _
      (by have := setup_len (k := min A.ncols n) hr (fun _ => by omega); omega))).sound

/-! ### assign -/

theorem assignVec_sound {w : BVec γ} {u : BVec α} {ix : Idx} (hw : w.size = n) (hu : u.Safe)
    (ha : ix = .all → u.size ≤ n) : Sound (assignVec w u ix) (Row.Below n) := by
  rw [assignVec, hw]
  exact (contentCheck_sound ix n).bind fun _ h => hu.at.contents.sound.bind fun c _ =>
    .ok (.vectorExpand fun p hp => setup_below h ha _ (outinMapping_mem hp).1)

theorem matrixExpandLoop_returns {A : Lil α} {pairs : List (Nat × Nat)} (hA : A.Safe)
    (hp : ∀ p ∈ pairs, p.1 < n) (os : List Nat) (ho : ∀ o ∈ os, o < m) : ∀ (k : Nat) (T : Lil α),
    k + os.length ≤ A.nrows → T.SafeAt m n → Returns (matrixExpandLoop A pairs k os T) (Lil.SafeAt m n) := by
  induction os with
  | nil => intro k T _ hT; exact hT
  | cons o os ih =>
    intro k T hk hT
    simp only [List.length_cons] at hk
    rw [matrixExpandLoop]
    refine (hA.at.row (i := k) (by omega)).bind fun a _ =>
      (hT.setRowIf (ho o (List.mem_cons_self ..)) ?_).bind fun T hT =>
        ih (fun j hj => ho j (List.mem_cons_of_mem _ hj)) (k + 1) T (by omega) hT
    split
    · exact .vectorExpand hp
    · exact .nil

theorem matrixExpandT_returns {A : Lil α} {rp cp : List (Nat × Nat)} {T : Lil α} (hA : A.Safe)
    (hr : ∀ p ∈ rp, p.1 < m) (hc : ∀ p ∈ cp, p.1 < n ∧ p.2 < A.nrows) (hT : T.SafeAt m n) :
    Returns (matrixExpandT A rp cp T) (Lil.SafeAt m n) := by
  rw [matrixExpandT]
  exact (foldlM_returns _ _ cp (fun T p hp hT => (hA.at.row (hc p hp).2).bind fun a _ =>
    hT.pushCol (hc p hp).1 (.vectorExpand hr)) T hT).bind fun T hT => .ok (Lil.SafeAt.recompute hT)

theorem assignT_sound {C : Lil γ} (hC : C.SafeAt m n) (A : Operand α) (hA : A.Safe) {ri ci : Idx}
    (hr : ∀ l, ri = .list l → A.nrows = l.length) (hc : ∀ l, ci = .list l → A.ncols = l.length)
    (hra : ri = .all → A.nrows ≤ m) (hca : ci = .all → A.ncols ≤ n) :
    Sound (assignT C A ri ci) (Lil.SafeAt m n) := by
  cases A with
  | plain A =>
    replace hr : ∀ l, ri = .list l → A.nrows = l.length := hr
    have hA : A.Safe := hA
    replace hra : ri = .all → A.nrows ≤ m := hra
    replace hca : ci = .all → A.ncols ≤ n := hca
    rw [assignT, assignMat, hC.2.1, hC.2.2]
    refine (contentCheck_sound ri m).bind fun _ h1 => (contentCheck_sound ci n).bind fun _ h2 => ?_
    exact (matrixExpandLoop_returns hA (fun p hp => setup_below h2 hca _ (outinMapping_mem hp).1) _
      (setup_below h1 hra) 0 _
      (by have := setup_len (k := A.nrows) hr (fun _ => Nat.le_refl _); omega) Lil.SafeAt.new.clear).sound
  | tr A =>
    replace hc : ∀ l, ci = .list l → A.nrows = l.length := hc
    have hA : A.Safe := hA
    replace hra : ri = .all → A.ncols ≤ m := hra
    replace hca : ci = .all → A.nrows ≤ n := hca
    rw [assignT, assignMatT, hC.2.1, hC.2.2]
    refine (contentCheck_sound ri m).bind fun _ h1 => (contentCheck_sound ci n).bind fun _ h2 => ?_
    exact (matrixExpandT_returns hA (fun p hp => setup_below h1 hra _ (outinMapping_mem hp).1)
      (fun p hp => ⟨setup_below h2 hca _ (outinMapping_mem hp).1, by
        have := setup_len (k := A.nrows) hc (fun _ => Nat.le_refl _)
        have := (outinMapping_mem hp).2
        omega⟩) Lil.SafeAt.new.clear).sound

theorem const_below {l : List Nat} {x : α} (h : ∀ i ∈ l, i < n) : Row.Below n (l.map fun i => (i, x)) := by
  intro p hp
  obtain ⟨i, hi, rfl⟩ := List.mem_map.1 hp
  exact h i hi

theorem assignConstVec_sound {w : BVec γ} {x : α} {ix : Idx} (hw : w.size = n) :
    Sound (assignConstVec w x ix) (Row.Below n) := by
  rw [assignConstVec, hw]
  exact (contentCheck_sound ix n).bind fun _ h => .ok (const_below (setup_below h fun _ => Nat.le_refl _))

theorem assignConstMat_sound {C : Lil γ} (hC : C.SafeAt m n) {x : α} {ri ci : Idx} :
    Sound (assignConstMat C x ri ci) (Lil.SafeAt m n) := by
  rw [assignConstMat, hC.2.1, hC.2.2]
  refine (contentCheck_sound ri m).bind fun _ h1 => (contentCheck_sound ci n).bind fun _ h2 => ?_
  have hc := setup_below h2 fun _ => Nat.le_refl _
  have hr := setup_below h1 fun _ => Nat.le_refl _
  have : ∀ (is : List Nat) (T : Lil α), (∀ i ∈ is, i < m) → T.SafeAt m n →
      Returns (assignConstLoop x (setupIndices ci n) is T) (Lil.SafeAt m n) := by
    intro is
    induction is with
    | nil => intro T _ hT; exact hT
    | cons i is ih =>
      intro T hi hT
      rw [assignConstLoop]
      exact (hT.setRowIf (hi i (List.mem_cons_self ..)) (const_below hc)).bind fun T hT =>
        ih T (fun j hj => hi j (List.mem_cons_of_mem _ hj)) hT
  exact (this _ _ hr .new).sound

/-! ### transpose, kronecker -/

theorem transposeOperandT_returns (A : Operand α) (hA : A.Safe) :
    Returns (transposeOperandT A) (Lil.SafeAt A.ncols A.nrows) := by
  cases A with
  | plain A => exact transposeT_returns hA.at
  | tr A => exact hA.at

theorem idx_lt {i j a b : Nat} (hi : i < a) (hj : j < b) (h : a * b < 2 ^ 64) :
    add64 (mul64 i b) j < a * b := by
  have h1 : i * b + b ≤ a * b := by
    have := Nat.mul_le_mul_right b (show i + 1 ≤ a from hi)
    rw [Nat.add_mul, Nat.one_mul] at this
    exact this
  unfold add64 mul64
  rw [Nat.mod_eq_of_lt (show i * b < 2 ^ 64 by omega), Nat.mod_eq_of_lt (by omega)]
  omega

theorem kronT_returns {C : Lil γ} (hC : C.SafeAt m n) (f : α → β → τ) (A : Operand α) (B : Operand β)
    (hA : A.Safe) (hB : B.Safe) (h1 : m = A.nrows * B.nrows) (h2 : n = A.ncols * B.ncols)
    (l1 : A.nrows * B.nrows < 2 ^ 64) (l2 : A.ncols * B.ncols < 2 ^ 64) :
    Returns (kronT C f A B) (Lil.SafeAt m n) := by
  subst h1 h2
  cases A with
  | plain A =>
    have hA' := Lil.Safe.at hA
    cases B with
    | plain B =>
      have hB' := Lil.Safe.at hB
      rw [kronT, kronAB, hC.2.1, hC.2.2]
      split
      · refine forN_returns _ .new fun ia T hia hT => (hA'.row hia).bind fun a ha => ?_
        split
        · exact hT
        · refine (forN_returns _ hT fun ib T hib hT => (hB'.row hib).bind fun b hb => ?_).bind
            fun T hT => .ok (Lil.SafeAt.recompute hT)
          split
          · exact hT
          · exact foldlM_returns _ _ a (fun T p hp hT => foldlM_returns _ _ b (fun T q hq hT =>
              hT.push (idx_lt hia hib l1) (idx_lt (ha p hp) (hb q hq) l2) _) T hT) T hT
      · exact Lil.SafeAt.new
    | tr B =>
      have hB' := Lil.Safe.at hB
      rw [kronT, kronABT, hC.2.1, hC.2.2]
      split
      · refine forN_returns _ .new fun ia T hia hT => (hA'.row hia).bind fun a ha => ?_
        split
        · exact hT
        · refine (foldlM_returns _ _ a (fun T p hp hT => forN_returns _ hT fun ib T hib hT =>
            (hB'.row hib).bind fun b hb => ?_) T hT).bind fun T hT => .ok (Lil.SafeAt.recompute hT)
          split
          · exact hT
          · exact foldlM_returns _ _ b (fun T q hq hT =>
              hT.push (idx_lt hia (hb q hq) l1) (idx_lt (ha p hp) hib l2) _) T hT
      · exact Lil.SafeAt.new
  | tr A =>
    have hA' := Lil.Safe.at hA
    cases B with
    | plain B =>
      have hB' := Lil.Safe.at hB
      rw [kronT, kronATB, hC.2.1, hC.2.2]
      split
      · refine forN_returns _ .new fun ia T hia hT => (hA'.row hia).bind fun a ha => ?_
        split
        · exact hT
        · refine (forN_returns _ hT fun ib T hib hT => (hB'.row hib).bind fun b hb => ?_).bind
            fun T hT => .ok (Lil.SafeAt.recompute hT)
          split
          · exact hT
          · exact foldlM_returns _ _ a (fun T p hp hT => foldlM_returns _ _ b (fun T q hq hT =>
              hT.push (idx_lt (ha p hp) hib l1) (idx_lt hia (hb q hq) l2) _) T hT) T hT
      · exact Lil.SafeAt.new
    | tr B =>
      have hB' := Lil.Safe.at hB
      rw [kronT, kronATBT, hC.2.1, hC.2.2]
      split
      · refine forN_returns _ .new fun ia T hia hT => (hA'.row hia).bind fun a ha => ?_
        split
        · exact hT
        · refine (forN_returns _ hT fun ib T hib hT => (hB'.row hib).bind fun b hb => ?_).bind
            fun T hT => .ok (Lil.SafeAt.recompute hT)
          split
          · exact hT
          · exact foldlM_returns _ _ a (fun T p hp hT => foldlM_returns _ _ b (fun T q hq hT =>
              hT.push (idx_lt (ha p hp) (hb q hq) l1) (idx_lt hia hib l2) _) T hT) T hT
      · exact Lil.SafeAt.new

end GBTL
