import Verif.Lemmas.OptRows
/-
The functions of the `optimized_sequential` backend's `mxm`, one by one.
-/
namespace GBTL
open Spec (Outp MaskKind Accum both either osum)
open Row

variable {α β γ δ τ ζ μ ρ : Type}

/-! ### arguments that may be the output -/

theorem Arg.row_at (a : Arg γ α) {C C' : Lil γ} {i : Nat} (h : (a.at C).WFr) (hC' : C'.WFr)
    (hr : C'.rowD i = C.rowD i) (hn : C'.nrows = C.nrows) (hi : i < (a.at C).nrows) :
    (a.at C').row i = .ok ((a.at C).rowD i) := by
  cases a with
  | obj A => exact h.row_ok hi
  | same =>
    show C'.row i = _
    rw [hC'.row_ok (by rw [hn]; exact hi), hr]; rfl

theorem Arg.at_eq {b : Arg γ β} (h : b.isC = false) (C C' : Lil γ) : b.at C' = b.at C := by
  cases b with
  | obj B => rfl
  | same => cases h

/-! ### writing -/

theorem write_keep {cast : ρ → γ} {L : Bool} {outp : Outp} {c : Option γ} {t : Option ρ} :
    Spec.write cast L outp c (if L then t else none) = Spec.write cast L outp c t := by
  cases L <;> rfl

theorem writeAcc_keep {castZ : ζ → γ} {L : Bool} {outp : Outp} {c : Option γ} {t : Option τ}
    {acc : Accum γ τ ζ} :
    Spec.write castZ L outp c (Spec.accum acc c (if L then t else none))
      = Spec.write castZ L outp c (Spec.accum acc c t) := by
  cases L <;> rfl

/-! ### the kernels of `A*B` and `A*B'` -/

/-- The masked kernels without accumulator, for any way to compute a row. -/
def kT (sf compl : Bool) (truthy : μ → Bool) (cast : τ → γ) (d : Row μ → Bool)
    (row : Row μ → Row α → Lil β → Except Err (Row τ)) (C : Lil γ) (m : Arg γ μ) (a : Arg γ α)
    (b : Arg γ β) : Except Err (Lil γ) :=
  forN (a.at C).nrows C fun i C => do
    let mr ← (m.at C).row i
    let ar ← (a.at C).row i
    let t ← row mr ar (b.at C)
    storeT sf compl truthy cast (d mr) i mr t C

/-- The masked kernels with accumulator. -/
def kZ (sf compl : Bool) (truthy : μ → Bool) (castZ : ζ → γ) (acc : AccOp γ τ ζ) (d : Row μ → Bool)
    (row : Row μ → Row α → Lil β → Except Err (Row τ)) (C : Lil γ) (m : Arg γ μ) (a : Arg γ α)
    (b : Arg γ β) : Except Err (Lil γ) :=
  forN (a.at C).nrows C fun i C => do
    let mr ← (m.at C).row i
    let ar ← (a.at C).row i
    let t ← row mr ar (b.at C)
    storeZ sf compl truthy castZ acc (d mr) i mr t C

/-- What the masked kernels assume of the arguments; `F i` is row `i` of the
product. -/
structure KArgs (sf compl : Bool) (truthy : μ → Bool) (row : Row μ → Row α → Lil β → Except Err (Row τ))
    (m n : Nat) (M : Lil μ) (A : Lil α) (B : Lil β) (F : Nat → Row τ) : Prop where
  mask : M.WFr
  maskRows : M.nrows = m
  a : A.WFr
  rows : A.nrows = m
  ok : ∀ i, i < m → OK n (F i)
  row : ∀ i, i < m →
    row (M.rowD i) (A.rowD i) B = .ok (keepIf (lets sf compl truthy (M.rowD i)) (F i))

theorem kT_is {sf compl : Bool} {truthy : μ → Bool} {cast : τ → γ} {d : Row μ → Bool} {outp : Outp}
    {row : Row μ → Row α → Lil β → Except Err (Row τ)} {C : Lil γ} {m : Arg γ μ} {a : Arg γ α}
    {b : Arg γ β} {F : Nat → Row τ} (hC : C.WF)
    (h : KArgs sf compl truthy row C.nrows C.ncols (m.at C) (a.at C) (b.at C) F) (hb : b.isC = false)
    (hd : ∀ mr, Direct compl outp mr (d mr)) :
    ∃ C', kT sf compl truthy cast d row C m a b = .ok C' ∧ C.Is (fun i j =>
      Spec.write cast (lets sf compl truthy ((m.at C).rowD i) j) outp (C.get i j) (get (F i) j)) C' := by
  rw [kT, h.rows]
  obtain ⟨C', e, hI⟩ := loopT (sf := sf) (compl := compl) (truthy := truthy) (cast := cast)
    (outp := outp) hC (M := (m.at C).rowD)
    (T := fun i => keepIf (lets sf compl truthy ((m.at C).rowD i)) (F i))
    (d := fun i => d ((m.at C).rowD i)) (fun i => (h.mask.rowD_ok i).sorted)
    (fun i hi => (h.ok i hi).keepIf) (fun i _ p hp => (mem_keepIf.1 hp).2) (fun i => hd _)
    (fun i C' hi hw hn hr => by
      show (do
        let mr ← (m.at C').row i
        let ar ← (a.at C').row i
        let t ← row mr ar (b.at C')
        storeT sf compl truthy cast (d mr) i mr t C') = _
      rw [m.row_at h.mask hw.toWFr hr hn (by rw [h.maskRows]; exact hi),
        a.row_at h.a hw.toWFr hr hn (by rw [h.rows]; exact hi), Arg.at_eq hb C C']
      simp only [Except.bind_ok', h.row i hi])
  refine ⟨C', e, hI.congr fun i j _ _ => ?_⟩
  rw [get_keepIf, write_keep]

theorem kZ_is {sf compl : Bool} {truthy : μ → Bool} {castZ : ζ → γ} {acc : AccOp γ τ ζ}
    {d : Row μ → Bool} {outp : Outp}
    {row : Row μ → Row α → Lil β → Except Err (Row τ)} {C : Lil γ} {m : Arg γ μ} {a : Arg γ α}
    {b : Arg γ β} {F : Nat → Row τ} (hC : C.WF)
    (h : KArgs sf compl truthy row C.nrows C.ncols (m.at C) (a.at C) (b.at C) F) (hb : b.isC = false)
    (hd : ∀ mr, Direct compl outp mr (d mr)) :
    ∃ C', kZ sf compl truthy castZ acc d row C m a b = .ok C' ∧ C.Is (fun i j =>
      Spec.write castZ (lets sf compl truthy ((m.at C).rowD i) j) outp (C.get i j)
        (Spec.accum (.some acc.op acc.cC acc.cT) (C.get i j) (get (F i) j))) C' := by
  rw [kZ, h.rows]
  obtain ⟨C', e, hI⟩ := loopZ (sf := sf) (compl := compl) (truthy := truthy) (castZ := castZ)
    (acc := acc) (outp := outp) hC (M := (m.at C).rowD)
    (T := fun i => keepIf (lets sf compl truthy ((m.at C).rowD i)) (F i))
    (d := fun i => d ((m.at C).rowD i)) (fun i => (h.mask.rowD_ok i).sorted)
    (fun i hi => (h.ok i hi).keepIf) (fun i _ p hp => (mem_keepIf.1 hp).2) (fun i => hd _)
    (fun i C' hi hw hn hr => by
      show (do
        let mr ← (m.at C').row i
        let ar ← (a.at C').row i
        let t ← row mr ar (b.at C')
        storeZ sf compl truthy castZ acc (d mr) i mr t C') = _
      rw [m.row_at h.mask hw.toWFr hr hn (by rw [h.maskRows]; exact hi),
        a.row_at h.a hw.toWFr hr hn (by rw [h.rows]; exact hi), Arg.at_eq hb C C']
      simp only [Except.bind_ok', h.row i hi])
  refine ⟨C', e, hI.congr fun i j _ _ => ?_⟩
  rw [get_keepIf, writeAcc_keep]

/-- The temporary computed when `B` is `C`. -/
theorem tmp_is {sf compl : Bool} {truthy : μ → Bool} {cast : τ → ρ} {d : Row μ → Bool}
    {row : Row μ → Row α → Lil β → Except Err (Row τ)} {m n : Nat} {M : Lil μ} {A : Lil α} {B : Lil β}
    {F : Nat → Row τ} (h : KArgs sf compl truthy row m n M A B F)
    (hd : ∀ mr, Direct compl .replace mr (d mr)) :
    ∃ T, kT sf compl truthy cast d row (Lil.new m n) (.obj M) (.obj A) (.obj B) = .ok T ∧ T.WF ∧
      T.nrows = m ∧ T.ncols = n ∧
      ∀ i, i < m → T.rowD i = Row.cast cast (keepIf (lets sf compl truthy (M.rowD i)) (F i)) := by
  obtain ⟨T, e, hI⟩ := kT_is (cast := cast) (m := .obj M) (a := .obj A) (b := .obj B)
    (Lil.new_wf (α := ρ) m n) h rfl hd
  refine ⟨T, e, hI.wf, hI.nrows, hI.ncols, fun i hi => ?_⟩
  refine hI.row_eq hi (h.ok i hi).keepIf.cast fun j _ => ?_
  rw [get_cast, get_keepIf]
  simp only [Spec.write, Arg.at]
  by_cases hl : lets sf compl truthy (M.rowD i) j = true <;> simp [hl]

theorem wrapT_is {sf compl : Bool} {truthy : μ → Bool} {cast : τ → γ} {d : Outp → Row μ → Bool}
    {row : Row μ → Row α → Lil β → Except Err (Row τ)} {C : Lil γ} {m : Arg γ μ} {a : Arg γ α}
    {b : Arg γ β} {F : Nat → Row τ} (outp : Outp) (hC : C.WF)
    (h : KArgs sf compl truthy row C.nrows C.ncols (m.at C) (a.at C) (b.at C) F)
    (hd : ∀ outp mr, Direct compl outp mr (d outp mr)) :
    ∃ C', (if b.isC then do
        let tmp ← kT sf compl truthy cast (d .replace) row (Lil.new C.nrows C.ncols) (.obj (m.at C))
          (.obj (a.at C)) (.obj (b.at C))
        fromTmp sf compl truthy outp m tmp C
      else kT sf compl truthy cast (d outp) row C m a b) = .ok C' ∧ C.Is (fun i j =>
      Spec.write cast (lets sf compl truthy ((m.at C).rowD i) j) outp (C.get i j) (get (F i) j)) C' := by
  cases hb : b.isC with
  | false => exact kT_is hC h hb (hd outp)
  | true =>
    obtain ⟨T, e, hw, hr, hc, hrow⟩ := tmp_is (cast := cast) h (hd .replace)
    simp only [if_true, e, Except.bind_ok']
    cases outp with
    | replace =>
      refine swapFrom_is hC ⟨hw, hr, hc, fun i j hi hj => ?_⟩
      rw [Lil.get, hrow i hi, get_cast, get_keepIf]
      simp only [Spec.write]
      by_cases hl : lets sf compl truthy ((m.at C).rowD i) j = true <;> simp [hl]
    | merge =>
      obtain ⟨C', e', hI⟩ := loopT (sf := sf) (compl := compl) (truthy := truthy) (cast := id)
        (outp := .merge) hC (M := (m.at C).rowD)
        (T := fun i => Row.cast cast (keepIf (lets sf compl truthy ((m.at C).rowD i)) (F i)))
        (d := fun _ => false) (fun i => (h.mask.rowD_ok i).sorted)
        (fun i hi => (h.ok i hi).keepIf.cast)
        (fun i _ p hp => by
          obtain ⟨q, hq, e, _⟩ := mem_cast hp
          rw [← e]; exact (mem_keepIf.1 hq).2)
        (fun i => Or.inl rfl)
        (body := fun i C => do
          let mr ← (m.at C).row i
          let t ← T.row i
          storeT sf compl truthy id false i mr t C)
        (fun i C' hi hw' hn hr' => by
          rw [m.row_at h.mask hw'.toWFr hr' hn (by rw [h.maskRows]; exact hi),
            hw.row_ok (by rw [hr]; exact hi), hrow i hi]
          simp only [Except.bind_ok'])
      refine ⟨C', e', hI.congr fun i j _ _ => ?_⟩
      rw [get_cast, get_keepIf]
      simp only [Spec.write]
      by_cases hl : lets sf compl truthy ((m.at C).rowD i) j = true <;> simp [hl]

theorem fromTmpAccum_is {sf compl : Bool} {truthy : μ → Bool} {castZ : ζ → γ} {acc : AccOp γ τ ζ}
    {C : Lil γ} {m : Arg γ μ} {T : Lil τ} {F : Nat → Row τ} (outp : Outp) (hC : C.WF)
    (hm : (m.at C).WFr) (hmr : (m.at C).nrows = C.nrows) (hT : T.WFr) (hr : T.nrows = C.nrows)
    (hok : ∀ i, i < C.nrows → OK C.ncols (F i))
    (hrow : ∀ i, i < C.nrows →
      T.rowD i = keepIf (lets sf compl truthy ((m.at C).rowD i)) (F i)) :
    ∃ C', fromTmpAccum sf compl truthy castZ acc outp m T C = .ok C' ∧ C.Is (fun i j =>
      Spec.write castZ (lets sf compl truthy ((m.at C).rowD i) j) outp (C.get i j)
        (Spec.accum (.some acc.op acc.cC acc.cT) (C.get i j) (get (F i) j))) C' := by
  obtain ⟨C', e', hI⟩ := loopZ (sf := sf) (compl := compl) (truthy := truthy) (castZ := castZ)
    (acc := acc) (outp := outp) hC (M := (m.at C).rowD)
    (T := fun i => keepIf (lets sf compl truthy ((m.at C).rowD i)) (F i))
    (d := fun _ => outp == .replace) (fun i => (hm.rowD_ok i).sorted)
    (fun i hi => (hok i hi).keepIf)
    (fun i _ p hp => (mem_keepIf.1 hp).2)
    (fun i => Or.inl rfl)
    (body := fun i C => do
      let mr ← (m.at C).row i
      let t ← T.row i
      storeZ sf compl truthy castZ acc (outp == .replace) i mr t C)
    (fun i C' hi hw' hn hr' => by
      rw [m.row_at hm hw'.toWFr hr' hn (by rw [hmr]; exact hi),
        hT.row_ok (by rw [hr]; exact hi), hrow i hi]
      simp only [Except.bind_ok'])
  refine ⟨C', e', hI.congr fun i j _ _ => ?_⟩
  rw [get_keepIf, writeAcc_keep]

theorem wrapZ_is {sf compl : Bool} {truthy : μ → Bool} {castZ : ζ → γ} {acc : AccOp γ τ ζ}
    {d : Outp → Row μ → Bool}
    {row : Row μ → Row α → Lil β → Except Err (Row τ)} {C : Lil γ} {m : Arg γ μ} {a : Arg γ α}
    {b : Arg γ β} {F : Nat → Row τ} (outp : Outp) (hC : C.WF)
    (h : KArgs sf compl truthy row C.nrows C.ncols (m.at C) (a.at C) (b.at C) F)
    (hd : ∀ outp mr, Direct compl outp mr (d outp mr)) :
    ∃ C', (if b.isC then do
        let tmp ← kT sf compl truthy (id : τ → τ) (d .replace) row (Lil.new C.nrows C.ncols)
          (.obj (m.at C)) (.obj (a.at C)) (.obj (b.at C))
        fromTmpAccum sf compl truthy castZ acc outp m tmp C
      else kZ sf compl truthy castZ acc (d outp) row C m a b) = .ok C' ∧ C.Is (fun i j =>
      Spec.write castZ (lets sf compl truthy ((m.at C).rowD i) j) outp (C.get i j)
        (Spec.accum (.some acc.op acc.cC acc.cT) (C.get i j) (get (F i) j))) C' := by
  cases hb : b.isC with
  | false => exact kZ_is hC h hb (hd outp)
  | true =>
    obtain ⟨T, e, hw, hr, hc, hrow⟩ := tmp_is (cast := (id : τ → τ)) h (hd .replace)
    simp only [if_true, e, Except.bind_ok']
    exact fromTmpAccum_is outp hC h.mask h.maskRows hw.toWFr hr h.ok fun i hi => by
      rw [hrow i hi, Row.cast_id]

/-! ### the product as rows -/

/-- `F i`, `i < m`, are the rows of `R`. -/
structure IsRows (m n : Nat) (F : Nat → Row τ) (R : Spec.Mat τ) : Prop where
  ok : ∀ i, i < m → OK n (F i)
  get : ∀ i j, i < m → j < n → get (F i) j = R i j

theorem ab_rows {add : τ → τ → τ} {mult : α → β → τ} {A : Lil α} {B : Lil β} (hA : A.WFr) (hB : B.WFr) :
    IsRows A.nrows B.ncols (fun i => rowProd add mult (A.rowD i) B.rowD [])
      (Spec.mxm A.ncols add mult A.get B.get) :=
  ⟨fun _ _ => (rowProd_spec add mult _ hB.rowD_ok OK.nil).1,
    fun i j _ _ => rowProd_get add mult (hA.rowD_ok i) hB.rowD_ok j⟩

theorem abt_rows {add : τ → τ → τ} {mult : α → β → τ} {A : Lil α} {B : Lil β} (hA : A.WFr) (hB : B.WFr) :
    IsRows A.nrows B.nrows (fun i => dotRow add mult (A.rowD i) B)
      (Spec.mxm A.ncols add mult A.get (Spec.Mat.tr B.get)) :=
  ⟨fun _ _ => ofFun_ok _ _, fun i j _ hj => by
    rw [dotRow, get_ofFun, if_pos hj]
    exact dot_spec add mult (hA.rowD_ok i) (hB.rowD_ok j).sorted⟩

theorem ab_kargs {sf compl : Bool} {truthy : μ → Bool} {add : τ → τ → τ} {mult : α → β → τ} {m n : Nat}
    {M : Lil μ} {A : Lil α} {B : Lil β} (hM : M.WFr) (hA : A.WFr) (hB : B.WFr) (hm : M.nrows = m)
    (h1 : m = A.nrows) (h2 : n = B.ncols) (h3 : A.ncols = B.nrows) :
    KArgs sf compl truthy (fun mr ar B => abMaskedRow sf compl truthy add mult mr B ar) m n M A B
      (fun i => rowProd add mult (A.rowD i) B.rowD []) := by
  subst h1 h2
  exact ⟨hM, hm, hA, rfl, (ab_rows (A := A) hA hB).ok, fun i _ => abMaskedRow_eq hB
    (by rw [← h3]; exact hA.rowD_ok i) (hM.rowD_ok i).sorted⟩

theorem ab_kargs' {sf : Bool} {truthy : μ → Bool} {add : τ → τ → τ} {mult : α → β → τ} {m n : Nat}
    {M : Lil μ} {A : Lil α} {B : Lil β} (hM : M.WFr) (hA : A.WFr) (hB : B.WFr) (hm : M.nrows = m)
    (h1 : m = A.nrows) (h2 : n = B.ncols) (h3 : A.ncols = B.nrows) :
    KArgs sf false truthy (fun mr ar B => abMaskRow sf truthy add mult mr B ar) m n M A B
      (fun i => rowProd add mult (A.rowD i) B.rowD []) := by
  subst h1 h2
  exact ⟨hM, hm, hA, rfl, (ab_rows (A := A) hA hB).ok, fun i _ => abMaskRow_eq hB
    (by rw [← h3]; exact hA.rowD_ok i) (hM.rowD_ok i).sorted⟩

theorem abt_kargs {sf : Bool} {truthy : μ → Bool} {add : τ → τ → τ} {mult : α → β → τ} {m n : Nat}
    {M : Lil μ} {A : Lil α} {B : Lil β} (hM : M.WFr) (hA : A.WFr) (hB : B.WFr) (hm : M.nrows = m)
    (h1 : m = A.nrows) (h2 : n = B.nrows) :
    KArgs sf true truthy (abtCompRow sf truthy add mult) m n M A B
      (fun i => dotRow add mult (A.rowD i) B) := by
  subst h1 h2
  exact ⟨hM, hm, hA, rfl, (abt_rows (A := A) hA hB).ok, fun i _ => abtCompRow_eq hB _
    (hM.rowD_ok i).sorted⟩

theorem abt_kargs' {sf : Bool} {truthy : μ → Bool} {add : τ → τ → τ} {mult : α → β → τ} {m n : Nat}
    {M : Lil μ} {A : Lil α} {B : Lil β} (hM : M.WFr) (hA : A.WFr) (hB : B.WFr) (hm : M.nrows = m)
    (h1 : m = A.nrows) (h2 : n = B.nrows) :
    KArgs sf false truthy (abtMaskRow sf truthy add mult) m n M A B
      (fun i => dotRow add mult (A.rowD i) B) := by
  subst h1 h2
  exact ⟨hM, hm, hA, rfl, (abt_rows (A := A) hA hB).ok, fun i _ => abtMaskRow_eq hB _
    (hM.rowD_ok i).sorted⟩

/-! ### results of the functions, by kind -/

/-- `f` computes `C = T` for the product `R`. -/
def ResSet (x : OptOps α β γ τ ζ μ) (C : Lil γ) (R : Spec.Mat τ) (f : Except Err (Lil γ)) : Prop :=
  ∃ C', f = .ok C' ∧ C.Is (fun i j => (R i j).map x.castT) C'

/-- `f` computes `C = C ⊙ T`. -/
def ResAcc (x : OptOps α β γ τ ζ μ) (acc : AccOp γ τ ζ) (C : Lil γ) (R : Spec.Mat τ)
    (f : Except Err (Lil γ)) : Prop :=
  ∃ C', f = .ok C' ∧ C.Is (fun i j =>
    Spec.accum (.some (fun c t => x.castZ (acc.op c t)) id x.castT) (C.get i j) (R i j)) C'

/-- `f` computes `C<M> = T`. -/
def ResT (x : OptOps α β γ τ ζ μ) (sf compl : Bool) (outp : Outp) (C : Lil γ) (M : Lil μ) (R : Spec.Mat τ)
    (f : Except Err (Lil γ)) : Prop :=
  ∃ C', f = .ok C' ∧ C.Is (fun i j =>
    Spec.write x.castT (lets sf compl x.truthy (M.rowD i) j) outp (C.get i j) (R i j)) C'

/-- `f` computes `C<M> = C ⊙ T`. -/
def ResZ (x : OptOps α β γ τ ζ μ) (acc : AccOp γ τ ζ) (sf compl : Bool) (outp : Outp) (C : Lil γ)
    (M : Lil μ) (R : Spec.Mat τ) (f : Except Err (Lil γ)) : Prop :=
  ∃ C', f = .ok C' ∧ C.Is (fun i j =>
    Spec.write x.castZ (lets sf compl x.truthy (M.rowD i) j) outp (C.get i j)
      (Spec.accum (.some acc.op acc.cC acc.cT) (C.get i j) (R i j))) C'

section
variable {x : OptOps α β γ τ ζ μ} {acc : AccOp γ τ ζ} {sf : Bool} {outp : Outp} {C : Lil γ}
  {m : Arg γ μ} {a : Arg γ α} {b : Arg γ β} {R : Spec.Mat τ}

theorem nvals_zero {p q : Nat} : (p == 0 || q == 0) = true ↔ p = 0 ∨ q = 0 := by
  simp

/-- The product of an empty matrix is empty. -/
def Empties (na nb : Nat) (R : Spec.Mat τ) : Prop := na = 0 ∨ nb = 0 → ∀ i j, R i j = none

theorem lets_of_nvals {M : Lil μ} {compl : Bool} (hM : M.WF) (h : M.nvals = 0) (i j : Nat) :
    lets sf compl x.truthy (M.rowD i) j = compl := by
  rw [hM.rowD_nil_of_nvals h, lets_nil]

theorem skip_mask {rest : Except Err (Lil γ)} {A : Lil α} {B : Lil β} {M : Lil μ} (hC : C.WF) (hM : M.WF)
    (hE : Empties A.nvals B.nvals R) (h : ResT x sf false outp C M R rest) :
    ResT x sf false outp C M R
      (if outp == .replace && (A.nvals == 0 || B.nvals == 0 || M.nvals == 0) then .ok C.clear
       else if outp == .merge && M.nvals == 0 then .ok C
       else rest) := by
  cases outp with
  | replace =>
    show ResT x sf false .replace C M R
      (if A.nvals == 0 || B.nvals == 0 || M.nvals == 0 then .ok C.clear else rest)
    split
    · next hz =>
      refine ⟨_, rfl, (Lil.Is.clear hC).congr fun i j _ _ => ?_⟩
      simp only [Bool.or_eq_true, beq_iff_eq] at hz
      rcases hz with hz | hz
      · rw [hE hz i j]; cases lets sf false x.truthy (M.rowD i) j <;> rfl
      · rw [lets_of_nvals hM hz]; rfl
    · exact h
  | merge =>
    show ResT x sf false .merge C M R (if M.nvals == 0 then .ok C else rest)
    split
    · next hz =>
      refine ⟨_, rfl, (Lil.Is.self hC).congr fun i j _ _ => ?_⟩
      rw [lets_of_nvals hM (by simpa using hz)]; rfl
    · exact h

theorem skip_maskZ {rest : Except Err (Lil γ)} {M : Lil μ} (hC : C.WF) (hM : M.WF)
    (h : ResZ x acc sf false outp C M R rest) :
    ResZ x acc sf false outp C M R
      (if outp == .replace && M.nvals == 0 then .ok C.clear
       else if outp == .merge && M.nvals == 0 then .ok C
       else rest) := by
  cases outp with
  | replace =>
    show ResZ x acc sf false .replace C M R (if M.nvals == 0 then .ok C.clear else rest)
    split
    · next hz =>
      refine ⟨_, rfl, (Lil.Is.clear hC).congr fun i j _ _ => ?_⟩
      rw [lets_of_nvals hM (by simpa using hz)]; rfl
    · exact h
  | merge =>
    show ResZ x acc sf false .merge C M R (if M.nvals == 0 then .ok C else rest)
    split
    · next hz =>
      refine ⟨_, rfl, (Lil.Is.self hC).congr fun i j _ _ => ?_⟩
      rw [lets_of_nvals hM (by simpa using hz)]; rfl
    · exact h

theorem skip_comp {rest : Except Err (Lil γ)} {A : Lil α} {B : Lil β} {M : Lil μ} (hC : C.WF)
    (hE : Empties A.nvals B.nvals R) (h : ResT x sf true outp C M R rest) :
    ResT x sf true outp C M R
      (if outp == .replace && (A.nvals == 0 || B.nvals == 0) then .ok C.clear else rest) := by
  cases outp with
  | replace =>
    show ResT x sf true .replace C M R (if A.nvals == 0 || B.nvals == 0 then .ok C.clear else rest)
    split
    · next hz =>
      refine ⟨_, rfl, (Lil.Is.clear hC).congr fun i j _ _ => ?_⟩
      rw [hE (nvals_zero.1 hz) i j]; cases lets sf true x.truthy (M.rowD i) j <;> rfl
    · exact h
  | merge => exact h

/-- Where the functions return `C` as it is, the conversions make no difference. -/
def SkipOK (x : OptOps α β γ τ ζ μ) (acc : AccOp γ τ ζ) (outp : Outp) (nm na nb : Nat) : Prop :=
  outp = .replace → nm = 0 → na = 0 ∨ nb = 0 → ∀ c, x.castZ (acc.cC c) = c

theorem skip_compZ {rest : Except Err (Lil γ)} {A : Lil α} {B : Lil β} {M : Lil μ} (hC : C.WF) (hM : M.WF)
    (hE : Empties A.nvals B.nvals R) (hx : SkipOK x acc outp M.nvals A.nvals B.nvals)
    (h : ResZ x acc sf true outp C M R rest) :
    ResZ x acc sf true outp C M R
      (if outp == .replace && M.nvals == 0 && (A.nvals == 0 || B.nvals == 0) then .ok C else rest) := by
  cases outp with
  | replace =>
    show ResZ x acc sf true .replace C M R
      (if M.nvals == 0 && (A.nvals == 0 || B.nvals == 0) then .ok C else rest)
    split
    · next hz =>
      rw [Bool.and_eq_true] at hz
      refine ⟨_, rfl, (Lil.Is.self hC).congr fun i j _ _ => ?_⟩
      rw [hE (nvals_zero.1 hz.2) i j, lets_of_nvals hM (by simpa using hz.1)]
      cases hc : C.get i j with
      | none => rfl
      | some c =>
        simp [Spec.write, Spec.accum, hx rfl (by simpa using hz.1) (nvals_zero.1 hz.2)]
    · exact h
  | merge => exact h

theorem skip_set {rest : Except Err (Lil γ)} {A : Lil α} {B : Lil β} (hC : C.WF)
    (hE : Empties A.nvals B.nvals R) (h : ResSet x C R rest) :
    ResSet x C R (if A.nvals == 0 || B.nvals == 0 then .ok C.clear else rest) := by
  split
  · next hz =>
    refine ⟨_, rfl, (Lil.Is.clear hC).congr fun i j _ _ => ?_⟩
    rw [hE (nvals_zero.1 hz) i j]; rfl
  · exact h

theorem skip_acc {rest : Except Err (Lil γ)} {A : Lil α} {B : Lil β} (hC : C.WF)
    (hE : Empties A.nvals B.nvals R) (h : ResAcc x acc C R rest) :
    ResAcc x acc C R (if A.nvals == 0 || B.nvals == 0 then .ok C else rest) := by
  split
  · next hz =>
    refine ⟨_, rfl, (Lil.Is.self hC).congr fun i j _ _ => ?_⟩
    rw [hE (nvals_zero.1 hz) i j]
    cases C.get i j <;> rfl
  · exact h

theorem resT_of {compl : Bool} {f : Except Err (Lil γ)} {M : Lil μ} {F : Nat → Row τ}
    (hF : IsRows C.nrows C.ncols F R)
    (h : ∃ C', f = .ok C' ∧ C.Is (fun i j =>
      Spec.write x.castT (lets sf compl x.truthy (M.rowD i) j) outp (C.get i j) (get (F i) j)) C') :
    ResT x sf compl outp C M R f := by
  obtain ⟨C', e, h⟩ := h
  exact ⟨C', e, h.congr fun i j hi hj => by rw [hF.get i j hi hj]⟩

theorem resZ_of {compl : Bool} {f : Except Err (Lil γ)} {M : Lil μ} {F : Nat → Row τ}
    (hF : IsRows C.nrows C.ncols F R)
    (h : ∃ C', f = .ok C' ∧ C.Is (fun i j =>
      Spec.write x.castZ (lets sf compl x.truthy (M.rowD i) j) outp (C.get i j)
        (Spec.accum (.some acc.op acc.cC acc.cT) (C.get i j) (get (F i) j))) C') :
    ResZ x acc sf compl outp C M R f := by
  obtain ⟨C', e, h⟩ := h
  exact ⟨C', e, h.congr fun i j hi hj => by rw [hF.get i j hi hj]⟩

theorem resSet_of {f : Except Err (Lil γ)} {F : Nat → Row τ} (hF : IsRows C.nrows C.ncols F R)
    (h : ∃ C', f = .ok C' ∧ C.Is (fun i j => (get (F i) j).map x.castT) C') : ResSet x C R f := by
  obtain ⟨C', e, h⟩ := h
  exact ⟨C', e, h.congr fun i j hi hj => by rw [hF.get i j hi hj]⟩

theorem resAcc_of {f : Except Err (Lil γ)} {F : Nat → Row τ} (hF : IsRows C.nrows C.ncols F R)
    (h : ∃ C', f = .ok C' ∧ C.Is (fun i j =>
      Spec.accum (.some (fun c t => x.castZ (acc.op c t)) id x.castT) (C.get i j) (get (F i) j)) C') :
    ResAcc x acc C R f := by
  obtain ⟨C', e, h⟩ := h
  exact ⟨C', e, h.congr fun i j hi hj => by rw [hF.get i j hi hj]⟩

/-! ### `A*B` -/

theorem mxm_empties {n : Nat} {add : τ → τ → τ} {mult : α → β → τ} {A : Lil α} {B : Lil β} (hA : A.WF)
    (hB : B.WF) : Empties A.nvals B.nvals (Spec.mxm n add mult A.get B.get) := by
  intro h i j
  rw [Spec.mxm, osum_none]
  intro k _
  rcases h with h | h
  · rw [hA.get_none_of_nvals h]; rfl
  · rw [hB.get_none_of_nvals h]; simp

theorem tr_empties {n : Nat} {add : τ → τ → τ} {mult : α → β → τ} {A : Spec.Mat α} {B : Spec.Mat β}
    {na nb : Nat} (hA : na = 0 → ∀ i j, A i j = none) (hB : nb = 0 → ∀ i j, B i j = none) :
    Empties na nb (Spec.mxm n add mult A B) := by
  intro h i j
  rw [Spec.mxm, osum_none]
  intro k _
  rcases h with h | h
  · rw [hA h]; rfl
  · rw [hB h]; simp

theorem abNoMaskNoAccumK_is {add : τ → τ → τ} {mult : α → β → τ} {cast : τ → γ} (hC : C.WF)
    (hA : (a.at C).WFr) (hB : (b.at C).WFr) (h1 : C.nrows = (a.at C).nrows)
    (h2 : C.ncols = (b.at C).ncols) (h3 : (a.at C).ncols = (b.at C).nrows) (hb : b.isC = false) :
    ∃ C', abNoMaskNoAccumK add mult cast C a b = .ok C' ∧ C.Is (fun i j =>
      (get (rowProd add mult ((a.at C).rowD i) (b.at C).rowD []) j).map cast) C' := by
  rw [abNoMaskNoAccumK, ← h1]
  refine loopSet hC (fun i hi => by rw [h2]; exact (ab_rows (A := a.at C) hA hB).ok i (by omega))
    fun i C' hi hw hn hr => Or.inl ?_
  rw [a.row_at hA hw.toWFr hr hn (by omega), Arg.at_eq hb C C']
  simp only [Except.bind_ok']
  rw [abRow_eq hB (by rw [← h3]; exact hA.rowD_ok i)]
  rfl

theorem optNoMaskNoAccumAB_res (hC : C.WF)
    (hA : (a.at C).WF) (hB : (b.at C).WF) (h1 : C.nrows = (a.at C).nrows)
    (h2 : C.ncols = (b.at C).ncols) (h3 : (a.at C).ncols = (b.at C).nrows) :
    ResSet x C (Spec.mxm (a.at C).ncols x.add x.mult (a.at C).get (b.at C).get)
      (optNoMaskNoAccumAB x C a b) := by
  refine skip_set hC (mxm_empties hA hB) ?_
  refine resSet_of (F := fun i => rowProd x.add x.mult ((a.at C).rowD i) (b.at C).rowD [])
    (by rw [h1, h2]; exact ab_rows hA.toWFr hB.toWFr) ?_
  cases hb : b.isC with
  | false => exact abNoMaskNoAccumK_is hC hA.toWFr hB.toWFr h1 h2 h3 hb
  | true =>
    obtain ⟨T, e, h⟩ := abNoMaskNoAccumK_is (add := x.add) (mult := x.mult) (cast := x.castT)
      (C := Lil.new C.nrows C.ncols) (a := .obj (a.at C))
      (b := .obj (b.at C)) (Lil.new_wf _ _) hA.toWFr hB.toWFr h1 h2 h3 rfl
    simp only [if_true, e, Except.bind_ok']
    exact swapFrom_is hC (h.base rfl rfl)

theorem mergeTmp_is {op : γ → ρ → γ} {cast : ρ → γ} {T : Lil ρ} (hC : C.WF) (hT : T.WFr)
    (hr : T.nrows = C.nrows) (hc : T.ncols = C.ncols) :
    ∃ C', mergeTmp op cast T C = .ok C' ∧
      C.Is (fun i j => Spec.accum (.some op id cast) (C.get i j) (T.get i j)) C' := by
  refine loopMerge hC (T := T.rowD) (fun i _ => by rw [← hc]; exact hT.rowD_ok i)
    fun i C' hi hw hn hr' => Or.inl ?_
  rw [hT.row_ok (by omega)]
  rfl

theorem accum_cast (hx : ∀ c t, x.castZ (x.accC c (x.castT t)) = x.castZ (acc.op c t))
    (c : Option γ) (t : Option τ) :
    Spec.accum (.some (fun c t => x.castZ (x.accC c t)) id id) c (t.map x.castT)
      = Spec.accum (.some (fun c t => x.castZ (acc.op c t)) id x.castT) c t := by
  cases c <;> cases t <;> simp [Spec.accum, hx]

theorem optNoMaskAccumAB_res (hC : C.WF)
    (hA : (a.at C).WF) (hB : (b.at C).WF) (h1 : C.nrows = (a.at C).nrows)
    (h2 : C.ncols = (b.at C).ncols) (h3 : (a.at C).ncols = (b.at C).nrows)
    (hx : b.isC = true → ∀ c t, x.castZ (x.accC c (x.castT t)) = x.castZ (acc.op c t)) :
    ResAcc x acc C (Spec.mxm (a.at C).ncols x.add x.mult (a.at C).get (b.at C).get)
      (optNoMaskAccumAB x acc C a b) := by
  have hrows : IsRows C.nrows C.ncols
      (fun i => rowProd x.add x.mult ((a.at C).rowD i) (b.at C).rowD [])
      (Spec.mxm (a.at C).ncols x.add x.mult (a.at C).get (b.at C).get) := by
    rw [h1, h2]; exact ab_rows hA.toWFr hB.toWFr
  refine skip_acc hC (mxm_empties hA hB) (resAcc_of hrows ?_)
  cases hb : b.isC with
  | false =>
    simp only [Bool.false_eq_true, if_false]
    rw [abNoMaskAccumK, ← h1]
    refine loopMerge hC hrows.ok fun i C' hi hw hn hr => ?_
    rw [a.row_at hA.toWFr hw.toWFr hr hn (by omega), Arg.at_eq hb C C']
    simp only [Except.bind_ok']
    rw [abRow_eq hB.toWFr (by rw [← h3]; exact hA.rowD_ok i)]
    simp only [Except.bind_ok']
    split
    · exact Or.inl rfl
    · next he => exact Or.inr ⟨by simpa using he, rfl⟩
  | true =>
    obtain ⟨T, e, h⟩ := abNoMaskNoAccumK_is (add := x.add) (mult := x.mult) (cast := x.castT)
      (C := Lil.new C.nrows C.ncols) (a := .obj (a.at C))
      (b := .obj (b.at C)) (Lil.new_wf _ _) hA.toWFr hB.toWFr h1 h2 h3 rfl
    simp only [if_true, e, Except.bind_ok']
    obtain ⟨C', e', h'⟩ := mergeTmp_is (op := fun c t => x.castZ (x.accC c t)) (cast := id) hC
      h.wf.toWFr h.nrows h.ncols
    refine ⟨C', e', h'.congr fun i j hi hj => ?_⟩
    rw [h.get i j hi hj]
    exact accum_cast (hx hb) _ _

theorem optMaskNoAccumAB_res (hC : C.WF) (hM : (m.at C).WF) (hm : (m.at C).nrows = C.nrows)
    (hA : (a.at C).WF) (hB : (b.at C).WF) (h1 : C.nrows = (a.at C).nrows)
    (h2 : C.ncols = (b.at C).ncols) (h3 : (a.at C).ncols = (b.at C).nrows) :
    ResT x sf false outp C (m.at C) (Spec.mxm (a.at C).ncols x.add x.mult (a.at C).get (b.at C).get)
      (optMaskNoAccumAB x sf outp C m a b) :=
  skip_mask hC hM (mxm_empties hA hB)
    (resT_of (by rw [h1, h2]; exact ab_rows hA.toWFr hB.toWFr)
      (wrapT_is (d := fun outp _ => outp == .replace) outp hC
        (ab_kargs' hM.toWFr hA.toWFr hB.toWFr hm h1 h2 h3) fun _ _ => Or.inl rfl))

theorem optMaskAccumAB_res (hC : C.WF) (hM : (m.at C).WF) (hm : (m.at C).nrows = C.nrows)
    (hA : (a.at C).WF) (hB : (b.at C).WF) (h1 : C.nrows = (a.at C).nrows)
    (h2 : C.ncols = (b.at C).ncols) (h3 : (a.at C).ncols = (b.at C).nrows) :
    ResZ x acc sf false outp C (m.at C) (Spec.mxm (a.at C).ncols x.add x.mult (a.at C).get (b.at C).get)
      (optMaskAccumAB x acc sf outp C m a b) :=
  skip_maskZ hC hM
    (resZ_of (by rw [h1, h2]; exact ab_rows hA.toWFr hB.toWFr)
      (wrapZ_is (d := fun outp _ => outp == .replace) outp hC
        (ab_kargs' hM.toWFr hA.toWFr hB.toWFr hm h1 h2 h3) fun _ _ => Or.inl rfl))

theorem optCompNoAccumAB_res (hC : C.WF) (hM : (m.at C).WF) (hm : (m.at C).nrows = C.nrows)
    (hA : (a.at C).WF) (hB : (b.at C).WF) (h1 : C.nrows = (a.at C).nrows)
    (h2 : C.ncols = (b.at C).ncols) (h3 : (a.at C).ncols = (b.at C).nrows) :
    ResT x sf true outp C (m.at C) (Spec.mxm (a.at C).ncols x.add x.mult (a.at C).get (b.at C).get)
      (optCompNoAccumAB x sf outp C m a b) :=
  skip_comp hC (mxm_empties hA hB)
    (resT_of (by rw [h1, h2]; exact ab_rows hA.toWFr hB.toWFr)
      (wrapT_is (d := fun outp mr => outp == .replace || mr.isEmpty) outp hC
        (ab_kargs hM.toWFr hA.toWFr hB.toWFr hm h1 h2 h3) fun _ _ => Or.inr ⟨rfl, rfl⟩))

theorem optCompAccumAB_res (hC : C.WF) (hM : (m.at C).WF) (hm : (m.at C).nrows = C.nrows)
    (hA : (a.at C).WF) (hB : (b.at C).WF) (h1 : C.nrows = (a.at C).nrows)
    (h2 : C.ncols = (b.at C).ncols) (h3 : (a.at C).ncols = (b.at C).nrows)
    (hx : SkipOK x acc outp (m.at C).nvals (a.at C).nvals (b.at C).nvals) :
    ResZ x acc sf true outp C (m.at C) (Spec.mxm (a.at C).ncols x.add x.mult (a.at C).get (b.at C).get)
      (optCompAccumAB x acc sf outp C m a b) :=
  skip_compZ hC hM (mxm_empties hA hB) hx
    (resZ_of (by rw [h1, h2]; exact ab_rows hA.toWFr hB.toWFr)
      (wrapZ_is (d := fun outp mr => outp == .replace || mr.isEmpty) outp hC
        (ab_kargs hM.toWFr hA.toWFr hB.toWFr hm h1 h2 h3) fun _ _ => Or.inr ⟨rfl, rfl⟩))

/-! ### `A*B'` -/

/-- Rows of `C` that the kernel without mask and accumulator skips are empty. -/
def NoStale (A : Lil α) (C : Lil γ) : Prop :=
  ∀ i, i < C.nrows → A.rowD i = [] → C.rowD i = []

theorem abtNoMaskNoAccumK_is {add : τ → τ → τ} {mult : α → β → τ} {cast : τ → γ} (hC : C.WF)
    (hA : (a.at C).WFr) (hB : (b.at C).WFr) (h1 : C.nrows = (a.at C).nrows)
    (h2 : C.ncols = (b.at C).nrows) (hb : b.isC = false) (hs : NoStale (a.at C) C) :
    ∃ C', abtNoMaskNoAccumK add mult cast C a b = .ok C' ∧ C.Is (fun i j =>
      (get (dotRow add mult ((a.at C).rowD i) (b.at C)) j).map cast) C' := by
  rw [abtNoMaskNoAccumK, ← h1]
  refine loopSet hC (fun i hi => by rw [h2]; exact (abt_rows (A := a.at C) hA hB).ok i (by omega))
    fun i C' hi hw hn hr => ?_
  rw [a.row_at hA hw.toWFr hr hn (by omega), Arg.at_eq hb C C']
  simp only [Except.bind_ok']
  split
  · next he =>
    have he := List.isEmpty_iff.1 he
    exact Or.inr ⟨by rw [he, dotRow_nil], hs i hi he, rfl⟩
  · rw [abtRow_eq hB, Lil.setRow_cast]
    exact Or.inl rfl

theorem optNoMaskNoAccumABT_res (hC : C.WF)
    (hA : (a.at C).WF) (hB : (b.at C).WF) (h1 : C.nrows = (a.at C).nrows)
    (h2 : C.ncols = (b.at C).nrows) (hs : b.isC = false → NoStale (a.at C) C) :
    ResSet x C (Spec.mxm (a.at C).ncols x.add x.mult (a.at C).get (Spec.Mat.tr (b.at C).get))
      (optNoMaskNoAccumABT x C a b) := by
  refine skip_set hC (tr_empties (fun h _ _ => hA.get_none_of_nvals h ..)
    (fun h _ _ => hB.get_none_of_nvals h ..)) ?_
  refine resSet_of (F := fun i => dotRow x.add x.mult ((a.at C).rowD i) (b.at C))
    (by rw [h1, h2]; exact abt_rows hA.toWFr hB.toWFr) ?_
  cases hb : b.isC with
  | false => exact abtNoMaskNoAccumK_is hC hA.toWFr hB.toWFr h1 h2 hb (hs hb)
  | true =>
    obtain ⟨T, e, h⟩ := abtNoMaskNoAccumK_is (add := x.add) (mult := x.mult) (cast := x.castT)
      (C := Lil.new C.nrows C.ncols) (a := .obj (a.at C))
      (b := .obj (b.at C)) (Lil.new_wf _ _) hA.toWFr hB.toWFr h1 h2 rfl
      (fun i _ _ => Lil.rowD_new ..)
    simp only [if_true, e, Except.bind_ok']
    exact swapFrom_is hC (h.base rfl rfl)

theorem optNoMaskAccumABT_res (hC : C.WF)
    (hA : (a.at C).WF) (hB : (b.at C).WF) (h1 : C.nrows = (a.at C).nrows)
    (h2 : C.ncols = (b.at C).nrows)
    (hx : b.isC = true → ∀ c t, x.castZ (x.accC c (x.castT t)) = x.castZ (acc.op c t)) :
    ResAcc x acc C (Spec.mxm (a.at C).ncols x.add x.mult (a.at C).get (Spec.Mat.tr (b.at C).get))
      (optNoMaskAccumABT x acc C a b) := by
  have hrows : IsRows C.nrows C.ncols
      (fun i => dotRow x.add x.mult ((a.at C).rowD i) (b.at C))
      (Spec.mxm (a.at C).ncols x.add x.mult (a.at C).get (Spec.Mat.tr (b.at C).get)) := by
    rw [h1, h2]; exact abt_rows hA.toWFr hB.toWFr
  refine skip_acc hC (tr_empties (fun h _ _ => hA.get_none_of_nvals h ..)
    (fun h _ _ => hB.get_none_of_nvals h ..)) (resAcc_of hrows ?_)
  cases hb : b.isC with
  | false =>
    simp only [Bool.false_eq_true, if_false]
    rw [abtNoMaskAccumK, ← h1]
    refine loopMerge hC hrows.ok fun i C' hi hw hn hr => ?_
    rw [a.row_at hA.toWFr hw.toWFr hr hn (by omega), Arg.at_eq hb C C']
    simp only [Except.bind_ok']
    split
    · next he => exact Or.inr ⟨by rw [List.isEmpty_iff.1 he, dotRow_nil], rfl⟩
    · rw [abtRow_eq hB.toWFr]
      simp only [Except.bind_ok']
      split
      · exact Or.inl rfl
      · next he => exact Or.inr ⟨by simpa using he, rfl⟩
  | true =>
    obtain ⟨T, e, h⟩ := abtNoMaskNoAccumK_is (add := x.add) (mult := x.mult) (cast := x.castT)
      (C := Lil.new C.nrows C.ncols) (a := .obj (a.at C))
      (b := .obj (b.at C)) (Lil.new_wf _ _) hA.toWFr hB.toWFr h1 h2 rfl
      (fun i _ _ => Lil.rowD_new ..)
    simp only [if_true, e, Except.bind_ok']
    obtain ⟨C', e', h'⟩ := mergeTmp_is (op := fun c t => x.castZ (x.accC c t)) (cast := id) hC
      h.wf.toWFr h.nrows h.ncols
    refine ⟨C', e', h'.congr fun i j hi hj => ?_⟩
    rw [h.get i j hi hj]
    exact accum_cast (hx hb) _ _

theorem optMaskNoAccumABT_res (hC : C.WF) (hM : (m.at C).WF) (hm : (m.at C).nrows = C.nrows)
    (hA : (a.at C).WF) (hB : (b.at C).WF) (h1 : C.nrows = (a.at C).nrows)
    (h2 : C.ncols = (b.at C).nrows) :
    ResT x sf false outp C (m.at C)
      (Spec.mxm (a.at C).ncols x.add x.mult (a.at C).get (Spec.Mat.tr (b.at C).get))
      (optMaskNoAccumABT x sf outp C m a b) :=
  skip_mask hC hM (tr_empties (fun h _ _ => hA.get_none_of_nvals h ..)
    (fun h _ _ => hB.get_none_of_nvals h ..))
    (resT_of (by rw [h1, h2]; exact abt_rows hA.toWFr hB.toWFr)
      (wrapT_is (d := fun outp _ => outp == .replace) outp hC
        (abt_kargs' hM.toWFr hA.toWFr hB.toWFr hm h1 h2) fun _ _ => Or.inl rfl))

theorem optMaskAccumABT_res (hC : C.WF) (hM : (m.at C).WF) (hm : (m.at C).nrows = C.nrows)
    (hA : (a.at C).WF) (hB : (b.at C).WF) (h1 : C.nrows = (a.at C).nrows)
    (h2 : C.ncols = (b.at C).nrows) :
    ResZ x acc sf false outp C (m.at C)
      (Spec.mxm (a.at C).ncols x.add x.mult (a.at C).get (Spec.Mat.tr (b.at C).get))
      (optMaskAccumABT x acc sf outp C m a b) :=
  skip_maskZ hC hM
    (resZ_of (by rw [h1, h2]; exact abt_rows hA.toWFr hB.toWFr)
      (wrapZ_is (d := fun outp _ => outp == .replace) outp hC
        (abt_kargs' hM.toWFr hA.toWFr hB.toWFr hm h1 h2) fun _ _ => Or.inl rfl))

theorem optCompNoAccumABT_res (hC : C.WF) (hM : (m.at C).WF) (hm : (m.at C).nrows = C.nrows)
    (hA : (a.at C).WF) (hB : (b.at C).WF) (h1 : C.nrows = (a.at C).nrows)
    (h2 : C.ncols = (b.at C).nrows) :
    ResT x sf true outp C (m.at C)
      (Spec.mxm (a.at C).ncols x.add x.mult (a.at C).get (Spec.Mat.tr (b.at C).get))
      (optCompNoAccumABT x sf outp C m a b) :=
  skip_comp hC (tr_empties (fun h _ _ => hA.get_none_of_nvals h ..)
    (fun h _ _ => hB.get_none_of_nvals h ..))
    (resT_of (by rw [h1, h2]; exact abt_rows hA.toWFr hB.toWFr)
      (wrapT_is (d := fun outp _ => outp == .replace) outp hC
        (abt_kargs hM.toWFr hA.toWFr hB.toWFr hm h1 h2) fun _ _ => Or.inl rfl))

theorem optCompAccumABT_res (hC : C.WF) (hM : (m.at C).WF) (hm : (m.at C).nrows = C.nrows)
    (hA : (a.at C).WF) (hB : (b.at C).WF) (h1 : C.nrows = (a.at C).nrows)
    (h2 : C.ncols = (b.at C).nrows) :
    ResZ x acc sf true outp C (m.at C)
      (Spec.mxm (a.at C).ncols x.add x.mult (a.at C).get (Spec.Mat.tr (b.at C).get))
      (optCompAccumABT x acc sf outp C m a b) :=
  resZ_of (by rw [h1, h2]; exact abt_rows hA.toWFr hB.toWFr)
    (wrapZ_is (d := fun outp _ => outp == .replace) outp hC
      (abt_kargs hM.toWFr hA.toWFr hB.toWFr hm h1 h2) fun _ _ => Or.inl rfl)

/-! ### `A'*B` -/

/-- The inner loop over a row of `A`, adding a multiple of row `k` of `B`, filtered
for each row of the result. -/
theorem atb_inner {add : τ → τ → τ} {mult : α → β → τ} {n p : Nat} {b : Row β} (hb : OK n b)
    {f : Nat → Nat → Bool} {step : Lil τ → Nat × α → Except Err (Lil τ)}
    (hstep : ∀ (T : Lil τ) q, T.WFr → T.nrows = p → q.1 < p →
      step T q = T.pokeRow q.1 (axpy add mult q.2 (T.rowD q.1) (keepIf (f q.1) b)) ∨
      (keepIf (f q.1) b = [] ∧ step T q = .ok T)) (a : Row α) : OK p a →
    ∀ (T : Lil τ), T.WFr → T.nrows = p → T.ncols = n →
    ∃ T', a.foldlM step T = Except.ok T' ∧ T'.WFr ∧ T'.nrows = p ∧ T'.ncols = n ∧
      ∀ i, T'.rowD i = match get a i with
        | some x => axpy add mult x (T.rowD i) (keepIf (f i) b)
        | none => T.rowD i := by
  induction a with
  | nil => intro _ T hT hr hc; exact ⟨T, rfl, hT, hr, hc, fun k => rfl⟩
  | cons q a ih =>
    obtain ⟨pi, px⟩ := q
    intro hok T hT hr hc
    have hs := hok.sorted
    rw [sorted_cons] at hs
    have hp := hok.bound (pi, px) (List.mem_cons_self ..)
    simp only at hp
    obtain ⟨T1, e1, v1, v2, v3, v4⟩ : ∃ T1, step T (pi, px) = .ok T1 ∧ T1.WFr ∧ T1.nrows = p ∧
        T1.ncols = n ∧ ∀ k, T1.rowD k = if k = pi then
          axpy add mult px (T.rowD pi) (keepIf (f pi) b) else T.rowD k := by
      rcases hstep T (pi, px) hT hr hp with e | ⟨e1, e⟩
      · obtain ⟨T1, e1, v1, v2, v3, _, v4⟩ := Lil.pokeRow_spec (i := pi)
          (r := axpy add mult px (T.rowD pi) (keepIf (f pi) b)) hT (by omega)
          (axpy_ok (hT.rowD_ok pi) (by rw [hc]; exact hb.keepIf))
        exact ⟨T1, by rw [e]; exact e1, v1, by omega, by omega, v4⟩
      · refine ⟨T, e, hT, hr, hc, fun k => ?_⟩
        split
        · next h => simp only at e1; rw [e1, axpy, h]
        · rfl
    rw [List.foldlM_cons, e1]
    simp only [Except.bind_ok']
    obtain ⟨T', e, w1, w2, w3, w4⟩ := ih hok.tail T1 v1 v2 v3
    refine ⟨T', e, w1, w2, w3, ?_⟩
    intro i
    rw [w4, v4, get_cons]
    by_cases hk : i = pi
    · subst hk
      have : get a i = none := get_none_of_lt fun p hp => hs.1 p hp
      simp [this]
    · rw [if_neg hk, if_neg (Ne.symm hk)]

theorem atb_loop {add : τ → τ → τ} {mult : α → β → τ} {A : Lil α} {B : Lil β} (hA : A.WFr) (hB : B.WFr)
    (h3 : A.nrows = B.nrows) {f : Nat → Nat → Bool}
    {step : Row β → Lil τ → Nat × α → Except Err (Lil τ)}
    (hstep : ∀ k (T : Lil τ) q, T.WFr → T.nrows = A.ncols → q.1 < A.ncols →
      step (B.rowD k) T q
          = T.pokeRow q.1 (axpy add mult q.2 (T.rowD q.1) (keepIf (f q.1) (B.rowD k))) ∨
      (keepIf (f q.1) (B.rowD k) = [] ∧ step (B.rowD k) T q = .ok T)) :
    ∃ T, (forN A.nrows (Lil.new A.ncols B.ncols) fun k T => do
        let a ← A.row k
        let b ← B.row k
        if a.isEmpty || b.isEmpty then .ok T else a.foldlM (step b) T) = .ok T ∧ T.WFr ∧
      T.nrows = A.ncols ∧ T.ncols = B.ncols ∧ ∀ i j, T.get i j =
        if f i j then Spec.mxm A.nrows add mult (Spec.Mat.tr A.get) B.get i j else none := by
  obtain ⟨T, e, w1, w2, w3, w4⟩ := forN_inv (n := A.nrows) (s := (Lil.new A.ncols B.ncols : Lil τ))
    (body := fun k T => do
      let a ← A.row k
      let b ← B.row k
      if a.isEmpty || b.isEmpty then .ok T else a.foldlM (step b) T)
    (fun (k : Nat) (T : Lil τ) => T.WFr ∧ T.nrows = A.ncols ∧ T.ncols = B.ncols ∧
      ∀ i j, T.get i j = if f i j then (List.range k).foldl
        (fun acc k => ostep add acc (both mult (A.get k i) (B.get k j))) none else none)
    ⟨(Lil.new_wf _ _).toWFr, rfl, rfl, fun i j => by simp [Lil.get]⟩ (by
      rintro k T hk ⟨hT, hr, hc, hget⟩
      rw [hA.row_ok hk, hB.row_ok (by omega)]
      simp only [Except.bind_ok']
      have hsplit : ∀ i j, f i j = true → (List.range (k+1)).foldl
          (fun acc k => ostep add acc (both mult (A.get k i) (B.get k j))) none
            = ostep add (T.get i j) (both mult (A.get k i) (B.get k j)) := by
        intro i j hf
        rw [List.range_succ, List.foldl_append, hget, if_pos hf]; rfl
      have hno : ∀ i j, f i j = false → T.get i j = none := by
        intro i j hf
        rw [hget, hf]; rfl
      split
      · next he =>
        refine ⟨T, rfl, hT, hr, hc, ?_⟩
        intro i j
        cases hf : f i j with
        | false => rw [hno i j hf]; rfl
        | true =>
          rw [if_pos rfl, hsplit i j hf]
          simp only [Bool.or_eq_true, List.isEmpty_iff] at he
          have : both mult (A.get k i) (B.get k j) = none := by
            rcases he with he | he
            · have : A.get k i = none := by rw [Lil.get, he]; rfl
              rw [this]; rfl
            · have : B.get k j = none := by rw [Lil.get, he]; rfl
              rw [this]; simp
          rw [this]; simp
      · obtain ⟨T', e, w1, w2, w3, w4⟩ := atb_inner (hB.rowD_ok k) (f := f) (step := step (B.rowD k))
          (hstep k) (A.rowD k) (hA.rowD_ok k) T hT hr hc
        refine ⟨T', e, w1, w2, w3, ?_⟩
        intro i j
        rw [Lil.get, w4]
        cases h : get (A.rowD k) i with
        | none =>
          have hn : A.get k i = none := h
          cases hf : f i j with
          | false => exact hno i j hf
          | true =>
            rw [if_pos rfl, hsplit i j hf, hn]; simp [Lil.get]
        | some y =>
          have hy : A.get k i = some y := h
          simp only
          rw [axpy_get (hT.rowD_ok i).sorted (sorted_keepIf (hB.rowD_ok k).sorted), get_keepIf]
          cases hf : f i j with
          | false =>
            have hn : get (T.rowD i) j = none := hno i j hf
            simp [hn]
          | true =>
            simp only [if_true]
            rw [hsplit i j hf, hy]
            show _ = ostep add (get (T.rowD i) j) (both mult (some y) (get (B.rowD k) j))
            cases get (B.rowD k) j <;> rfl)
  refine ⟨T, e, w1, w2, w3, ?_⟩
  intro i j
  rw [w4, Spec.mxm, osum_map]; rfl

theorem atbNoMaskK_spec {add : τ → τ → τ} {mult : α → β → τ} {A : Lil α} {B : Lil β} (hA : A.WFr)
    (hB : B.WFr) (h3 : A.nrows = B.nrows) :
    ∃ T, atbNoMaskK add mult (Lil.new A.ncols B.ncols) A B = .ok T ∧ T.WFr ∧ T.nrows = A.ncols ∧
      T.ncols = B.ncols ∧
      ∀ i j, T.get i j = Spec.mxm A.nrows add mult (Spec.Mat.tr A.get) B.get i j := by
  obtain ⟨T, e, h⟩ := atb_loop (add := add) (mult := mult) hA hB h3 (f := fun _ _ => true)
    (step := fun b T p => do
      let t ← T.row p.1
      T.pokeRow p.1 (axpy add mult p.2 t b)) (by
      intro k T q hT hr hq
      rw [hT.row_ok (by omega), keepIf_true (fun _ _ => rfl)]
      exact Or.inl rfl)
  exact ⟨T, e, by simpa using h⟩

/-- The matrices of the masked kernels, row by row. -/
def Filtered (sf compl : Bool) (truthy : μ → Bool) (M : Lil μ) (m n : Nat) (T : Lil τ)
    (R : Spec.Mat τ) : Prop :=
  T.WFr ∧ T.nrows = m ∧ T.ncols = n ∧
    ∀ i j, T.get i j = if lets sf compl truthy (M.rowD i) j then R i j else none

theorem atbMaskK_spec {add : τ → τ → τ} {mult : α → β → τ} {A : Lil α} {B : Lil β} {M : Lil μ}
    {truthy : μ → Bool} (hM : M.WFr) (hm : M.nrows = A.ncols) (hA : A.WFr)
    (hB : B.WFr) (h3 : A.nrows = B.nrows) :
    ∃ T, atbMaskK sf truthy add mult (Lil.new A.ncols B.ncols) M A B = .ok T ∧
      Filtered sf false truthy M A.ncols B.ncols T
        (Spec.mxm A.nrows add mult (Spec.Mat.tr A.get) B.get) :=
  atb_loop (add := add) (mult := mult) hA hB h3 (f := fun i => lets sf false truthy (M.rowD i))
    (step := atbMaskStep sf truthy add mult M) (by
      intro k T q hT hr hq
      rw [atbMaskStep, hM.row_ok (by omega)]
      simp only [Except.bind_ok']
      split
      · next he =>
        refine Or.inr ⟨?_, rfl⟩
        rw [keepIf_false]
        intro p _
        rw [List.isEmpty_iff.1 he, lets_nil]
      · rw [hT.row_ok (by omega), ← maskedAxpy_eq (hB.rowD_ok k).sorted (hM.rowD_ok q.1).sorted]
        exact Or.inl rfl)

theorem atbCompK_spec {add : τ → τ → τ} {mult : α → β → τ} {A : Lil α} {B : Lil β} {M : Lil μ}
    {truthy : μ → Bool} (hM : M.WFr) (hm : M.nrows = A.ncols) (hA : A.WFr)
    (hB : B.WFr) (h3 : A.nrows = B.nrows) :
    ∃ T, atbCompK sf truthy add mult (Lil.new A.ncols B.ncols) M A B = .ok T ∧
      Filtered sf true truthy M A.ncols B.ncols T
        (Spec.mxm A.nrows add mult (Spec.Mat.tr A.get) B.get) :=
  atb_loop (add := add) (mult := mult) hA hB h3 (f := fun i => lets sf true truthy (M.rowD i))
    (step := atbCompStep sf truthy add mult M) (by
      intro k T q hT hr hq
      rw [atbCompStep, hM.row_ok (by omega), hT.row_ok (by omega),
        ← maskedAxpy_eq (hB.rowD_ok k).sorted (hM.rowD_ok q.1).sorted]
      exact Or.inl rfl)

/-- Storing the rows of a filtered matrix. -/
theorem finishT {compl : Bool} {T : Lil τ} {d : Row μ → Bool} (hC : C.WF) (hM : (m.at C).WF)
    (hm : (m.at C).nrows = C.nrows)
    (hT : Filtered sf compl x.truthy (m.at C) C.nrows C.ncols T R)
    (hd : ∀ mr, Direct compl outp mr (d mr)) :
    ResT x sf compl outp C (m.at C) R (forN C.nrows C fun i C => do
      let mr ← (m.at C).row i
      let t ← T.row i
      storeT sf compl x.truthy x.castT (d mr) i mr t C) := by
  obtain ⟨h1, h2, h3, h4⟩ := hT
  obtain ⟨C', e, h⟩ := loopT (sf := sf) (compl := compl) (truthy := x.truthy) (cast := x.castT)
    (outp := outp) hC (M := (m.at C).rowD) (T := T.rowD) (d := fun i => d ((m.at C).rowD i))
    (fun i => (hM.rowD_ok i).sorted) (fun i _ => by rw [← h3]; exact h1.rowD_ok i)
    (fun i _ p hp => by
      have hg := get_of_mem (h1.rowD_ok i).sorted hp
      have := h4 i p.1
      rw [Lil.get, hg] at this
      cases hl : lets sf compl x.truthy ((m.at C).rowD i) p.1 with
      | true => rfl
      | false => rw [hl] at this; simp at this)
    (fun i => hd _)
    (body := fun i C => do
      let mr ← (m.at C).row i
      let t ← T.row i
      storeT sf compl x.truthy x.castT (d mr) i mr t C)
    (fun i C' hi hw hn hr => by
      rw [m.row_at hM.toWFr hw.toWFr hr hn (by omega), h1.row_ok (by omega)]
      simp only [Except.bind_ok'])
  refine ⟨C', e, h.congr fun i j _ _ => ?_⟩
  show Spec.write _ _ _ _ (T.get i j) = _
  rw [h4, write_keep]

theorem finishZ {compl : Bool} {T : Lil τ} {d : Row μ → Bool} (hC : C.WF) (hM : (m.at C).WF)
    (hm : (m.at C).nrows = C.nrows)
    (hT : Filtered sf compl x.truthy (m.at C) C.nrows C.ncols T R)
    (hd : ∀ mr, Direct compl outp mr (d mr)) :
    ResZ x acc sf compl outp C (m.at C) R (forN C.nrows C fun i C => do
      let mr ← (m.at C).row i
      let t ← T.row i
      storeZ sf compl x.truthy x.castZ acc (d mr) i mr t C) := by
  obtain ⟨h1, h2, h3, h4⟩ := hT
  obtain ⟨C', e, h⟩ := loopZ (sf := sf) (compl := compl) (truthy := x.truthy) (castZ := x.castZ)
    (acc := acc) (outp := outp) hC (M := (m.at C).rowD) (T := T.rowD)
    (d := fun i => d ((m.at C).rowD i))
    (fun i => (hM.rowD_ok i).sorted) (fun i _ => by rw [← h3]; exact h1.rowD_ok i)
    (fun i _ p hp => by
      have hg := get_of_mem (h1.rowD_ok i).sorted hp
      have := h4 i p.1
      rw [Lil.get, hg] at this
      cases hl : lets sf compl x.truthy ((m.at C).rowD i) p.1 with
      | true => rfl
      | false => rw [hl] at this; simp at this)
    (fun i => hd _)
    (body := fun i C => do
      let mr ← (m.at C).row i
      let t ← T.row i
      storeZ sf compl x.truthy x.castZ acc (d mr) i mr t C)
    (fun i C' hi hw hn hr => by
      rw [m.row_at hM.toWFr hw.toWFr hr hn (by omega), h1.row_ok (by omega)]
      simp only [Except.bind_ok'])
  refine ⟨C', e, h.congr fun i j _ _ => ?_⟩
  show Spec.write _ _ _ _ (Spec.accum _ _ (T.get i j)) = _
  rw [h4, writeAcc_keep]

theorem atb_empties {n : Nat} {add : τ → τ → τ} {mult : α → β → τ} {A : Lil α} {B : Lil β} (hA : A.WF)
    (hB : B.WF) : Empties A.nvals B.nvals (Spec.mxm n add mult (Spec.Mat.tr A.get) B.get) :=
  tr_empties (fun h _ _ => hA.get_none_of_nvals h ..) (fun h _ _ => hB.get_none_of_nvals h ..)

theorem optNoMaskNoAccumATB_res (hC : C.WF)
    (hA : (a.at C).WF) (hB : (b.at C).WF) (h1 : C.nrows = (a.at C).ncols)
    (h2 : C.ncols = (b.at C).ncols) (h3 : (a.at C).nrows = (b.at C).nrows) :
    ResSet x C (Spec.mxm (a.at C).nrows x.add x.mult (Spec.Mat.tr (a.at C).get) (b.at C).get)
      (optNoMaskNoAccumATB x C a b) := by
  refine skip_set hC (atb_empties hA hB) ?_
  obtain ⟨T, e, w1, w2, w3, w4⟩ := atbNoMaskK_spec (add := x.add) (mult := x.mult) hA.toWFr hB.toWFr h3
  rw [h1, h2, e]
  simp only [Except.bind_ok']
  rw [← h1]
  obtain ⟨C', e', h⟩ := loopSet (cast := x.castT) hC (T := T.rowD)
    (fun i _ => by rw [h2, ← w3]; exact w1.rowD_ok i)
    (body := fun i C => do
      let t ← T.row i
      C.setRow i x.castT t)
    (fun i C' hi _ _ _ => Or.inl (by rw [w1.row_ok (by omega)]; rfl))
  refine ⟨C', e', h.congr fun i j _ _ => ?_⟩
  show (T.get i j).map _ = _
  rw [w4]

theorem optNoMaskAccumATB_res (hC : C.WF)
    (hA : (a.at C).WF) (hB : (b.at C).WF) (h1 : C.nrows = (a.at C).ncols)
    (h2 : C.ncols = (b.at C).ncols) (h3 : (a.at C).nrows = (b.at C).nrows) :
    ResAcc x acc C (Spec.mxm (a.at C).nrows x.add x.mult (Spec.Mat.tr (a.at C).get) (b.at C).get)
      (optNoMaskAccumATB x acc C a b) := by
  refine skip_acc hC (atb_empties hA hB) ?_
  obtain ⟨T, e, w1, w2, w3, w4⟩ := atbNoMaskK_spec (add := x.add) (mult := x.mult) hA.toWFr hB.toWFr h3
  rw [h1, h2, e]
  simp only [Except.bind_ok']
  rw [← h1]
  obtain ⟨C', e', h⟩ := loopMerge (op := fun c t => x.castZ (acc.op c t)) (cast := x.castT) hC
    (T := T.rowD)
    (fun i _ => by rw [h2, ← w3]; exact w1.rowD_ok i)
    (body := fun i C => do
      let t ← T.row i
      if !t.isEmpty then C.mergeRow i (fun c t => x.castZ (acc.op c t)) x.castT t else .ok C)
    (fun i C' hi _ _ _ => by
      rw [w1.row_ok (by omega)]
      simp only [Except.bind_ok']
      split
      · exact Or.inl rfl
      · next he => exact Or.inr ⟨by simpa using he, rfl⟩)
  refine ⟨C', e', h.congr fun i j _ _ => ?_⟩
  show Spec.accum _ _ (T.get i j) = _
  rw [w4]

section
variable (hC : C.WF) (hM : (m.at C).WF) (hm : (m.at C).nrows = C.nrows)
    (hA : (a.at C).WF) (hB : (b.at C).WF) (h1 : C.nrows = (a.at C).ncols)
    (h2 : C.ncols = (b.at C).ncols) (h3 : (a.at C).nrows = (b.at C).nrows)
include hC hM hm hA hB h1 h2 h3

theorem optMaskNoAccumATB_res :
    ResT x sf false outp C (m.at C)
      (Spec.mxm (a.at C).nrows x.add x.mult (Spec.Mat.tr (a.at C).get) (b.at C).get)
      (optMaskNoAccumATB x sf outp C m a b) := by
  refine skip_mask hC hM (atb_empties hA hB) ?_
  obtain ⟨T, e, h⟩ := atbMaskK_spec (sf := sf) (truthy := x.truthy) (add := x.add) (mult := x.mult)
    hM.toWFr (by rw [hm, h1]) hA.toWFr hB.toWFr h3
  rw [← h1, ← h2] at h e
  rw [e]
  exact finishT (d := fun _ => outp == .replace) hC hM hm h fun _ => Or.inl rfl

theorem optMaskAccumATB_res :
    ResZ x acc sf false outp C (m.at C)
      (Spec.mxm (a.at C).nrows x.add x.mult (Spec.Mat.tr (a.at C).get) (b.at C).get)
      (optMaskAccumATB x acc sf outp C m a b) := by
  refine skip_maskZ hC hM ?_
  obtain ⟨T, e, h⟩ := atbMaskK_spec (sf := sf) (truthy := x.truthy) (add := x.add) (mult := x.mult)
    hM.toWFr (by rw [hm, h1]) hA.toWFr hB.toWFr h3
  rw [← h1, ← h2] at h e
  rw [e]
  exact finishZ (d := fun _ => outp == .replace) hC hM hm h fun _ => Or.inl rfl

theorem optCompNoAccumATB_res :
    ResT x sf true outp C (m.at C)
      (Spec.mxm (a.at C).nrows x.add x.mult (Spec.Mat.tr (a.at C).get) (b.at C).get)
      (optCompNoAccumATB x sf outp C m a b) := by
  refine skip_comp hC (atb_empties hA hB) ?_
  obtain ⟨T, e, h⟩ := atbCompK_spec (sf := sf) (truthy := x.truthy) (add := x.add) (mult := x.mult)
    hM.toWFr (by rw [hm, h1]) hA.toWFr hB.toWFr h3
  rw [← h1, ← h2] at h e
  rw [e]
  exact finishT (d := fun mr => outp == .replace || mr.isEmpty) hC hM hm h fun _ => Or.inr ⟨rfl, rfl⟩

theorem optCompAccumATB_res (hx : SkipOK x acc outp (m.at C).nvals (a.at C).nvals (b.at C).nvals) :
    ResZ x acc sf true outp C (m.at C)
      (Spec.mxm (a.at C).nrows x.add x.mult (Spec.Mat.tr (a.at C).get) (b.at C).get)
      (optCompAccumATB x acc sf outp C m a b) := by
  refine skip_compZ hC hM (atb_empties hA hB) hx ?_
  obtain ⟨T, e, h⟩ := atbCompK_spec (sf := sf) (truthy := x.truthy) (add := x.add) (mult := x.mult)
    hM.toWFr (by rw [hm, h1]) hA.toWFr hB.toWFr h3
  rw [← h1, ← h2] at h e
  rw [e]
  exact finishZ (d := fun mr => outp == .replace || mr.isEmpty) hC hM hm h fun _ => Or.inr ⟨rfl, rfl⟩

end

/-! ### `A'*B'` -/

theorem axpy_castBA {add : τ → τ → τ} {multA : α → α → τ} {castBA : β → α} (y : β) :
    ∀ (a : Row α) (t : Row τ),
    axpy add multA (castBA y) t a = axpy add (fun b a => multA (castBA b) a) y t a := by
  intro a
  induction a with
  | nil => intro t; simp [axpy]
  | cons p a ih =>
    obtain ⟨j, v⟩ := p
    intro t
    simp only [axpy, ih]

theorem atbtRow_eq {add : τ → τ → τ} {multA : α → α → τ} {castBA : β → α} {A : Lil α} (hA : A.WFr)
    {b : Row β} (hb : OK A.nrows b) :
    atbtRow add multA castBA A b
      = .ok (rowProd add (fun b a => multA (castBA b) a) b A.rowD []) :=
  rowProd_foldlM (F := id) (step := fun t p a => axpy add multA (castBA p.2) t a) hA b hb.bound
    (fun t p _ _ => axpy_castBA p.2 _ t) rfl []

theorem atbt_value {add : τ → τ → τ} {mult : β → α → τ} {A : Lil α} {B : Lil β} (hA : A.WFr)
    (hB : B.WFr) (h3 : A.nrows = B.ncols) (i j : Nat) :
    (if j < B.nrows then get (rowProd add mult (B.rowD j) A.rowD []) i else none)
      = Spec.mxm A.nrows add (fun a b => mult b a) (Spec.Mat.tr A.get) (Spec.Mat.tr B.get) i j := by
  have hval : get (rowProd add mult (B.rowD j) A.rowD []) i
      = Spec.mxm A.nrows add (fun a b => mult b a) (Spec.Mat.tr A.get) (Spec.Mat.tr B.get) i j := by
    rw [rowProd_get add mult (hB.rowD_ok j) hA.rowD_ok, Spec.mxm, h3]
    congr 1
    apply List.map_congr_left
    intro k _
    rw [both_swap]; rfl
  split
  · exact hval
  · rw [← hval, Lil.rowD_of_ge (A := B) (by rw [hB.len]; omega)]
    rfl

theorem clear_eq_new (hC : C.WFr) : C.clear = Lil.new C.nrows C.ncols := by
  rw [Lil.clear, Lil.new, List.map_const', hC.len]

/-- The product computed by the ATBT functions. -/
abbrev atbtProd (x : OptOps α β γ τ ζ μ) (A : Lil α) (B : Lil β) : Spec.Mat τ :=
  Spec.mxm A.nrows x.add (fun a b => x.multA (x.castBA b) a) (Spec.Mat.tr A.get) (Spec.Mat.tr B.get)

theorem atbtK_is {add : τ → τ → τ} {multA : α → α → τ} {castBA : β → α} {cast : τ → ρ} {A : Lil α}
    {B : Lil β} {D : Lil ρ} (hD : D.WFr) (hA : A.WFr) (hB : B.WFr) (h1 : D.nrows = A.ncols)
    (h2 : D.ncols = B.nrows)
    (h3 : A.nrows = B.ncols) :
    ∃ T, atbtK add multA castBA cast D A B = .ok T ∧
      D.Is (fun i j => (Spec.mxm A.nrows add (fun a b => multA (castBA b) a)
        (Spec.Mat.tr A.get) (Spec.Mat.tr B.get) i j).map cast) T := by
  obtain ⟨T, e, w1, w2, w3, w4⟩ := pushCols_spec (m := D.nrows) (n := D.ncols) (k := B.nrows)
    (row := fun i => do
      let b ← B.row i
      let t ← atbtRow add multA castBA A b
      .ok (Row.cast cast t))
    (fun i => Row.cast cast (rowProd add (fun b a => multA (castBA b) a) (B.rowD i) A.rowD []))
    (fun i hi => by
      rw [hB.row_ok hi]
      simp only [Except.bind_ok']
      rw [atbtRow_eq hA (by rw [h3]; exact hB.rowD_ok i)]
      rfl)
    (fun i hi => by
      rw [h1]
      exact (rowProd_spec _ _ _ hA.rowD_ok OK.nil).1.cast) (by omega)
  refine ⟨T, ?_, w1, w2, w3, fun i j hi hj => ?_⟩
  · rw [← e, atbtK, pushCols, clear_eq_new hD]
    congr 1
    apply forN_congr
    intro i T hi
    rw [hB.row_ok hi]
    simp only [Except.bind_ok']
    rw [atbtRow_eq hA (by rw [h3]; exact hB.rowD_ok i)]
    rfl
  · rw [w4, ← atbt_value (mult := fun b a => multA (castBA b) a) hA hB h3, if_pos (by omega),
      if_pos (by omega), get_cast]

theorem atbtT_spec {add : τ → τ → τ} {multA : α → α → τ} {castBA : β → α} {A : Lil α}
    {B : Lil β} (hA : A.WFr) (hB : B.WFr)
    (h3 : A.nrows = B.ncols) :
    ∃ T, atbtT add multA castBA A.ncols B.nrows A B = .ok T ∧ T.WFr ∧ T.nrows = A.ncols ∧
      T.ncols = B.nrows ∧ ∀ i j, i < A.ncols → j < B.nrows →
        T.get i j = Spec.mxm A.nrows add (fun a b => multA (castBA b) a)
        (Spec.Mat.tr A.get) (Spec.Mat.tr B.get) i j := by
  obtain ⟨T', e, h⟩ := atbtK_is (add := add) (multA := multA) (castBA := castBA) (cast := (id : τ → τ))
    (D := Lil.new A.ncols B.nrows) (Lil.new_wf _ _).toWFr hA hB rfl rfl h3
  have : atbtK add multA castBA id (Lil.new A.ncols B.nrows) A B
      = (atbtT add multA castBA A.ncols B.nrows A B).map Lil.recomputeNvals := by
    rw [atbtK, clear_eq_new (Lil.new_wf _ _).toWFr]
    simp only [Row.cast_id]
    show (atbtT add multA castBA A.ncols B.nrows A B >>= fun C => Except.ok C.recomputeNvals) = _
    cases atbtT add multA castBA A.ncols B.nrows A B <;> rfl
  rw [this] at e
  cases hT : atbtT add multA castBA A.ncols B.nrows A B with
  | error _ => rw [hT] at e; cases e
  | ok T =>
    rw [hT] at e
    cases e
    refine ⟨T, rfl, ⟨h.wf.len, h.wf.rowOK⟩, h.nrows, h.ncols, fun i j hi hj => ?_⟩
    have := h.get i j hi hj
    rw [Option.map_id_fun, id] at this
    exact this

theorem atbt_empties {A : Lil α} {B : Lil β} (hA : A.WF) (hB : B.WF) :
    Empties A.nvals B.nvals (atbtProd x A B) :=
  tr_empties (fun h _ _ => hA.get_none_of_nvals h ..) (fun h _ _ => hB.get_none_of_nvals h ..)

theorem write_id_cast {cast : τ → γ} {L : Bool} {c : Option γ} {t : Option τ} :
    Spec.write id L outp c (t.map cast) = Spec.write cast L outp c t := by
  cases L <;> cases outp <;> cases t <;> rfl

/-- Filtering by the mask, then storing. -/
theorem filterT {compl : Bool} {T : Lil τ} (hC : C.WF) (hM : (m.at C).WF)
    (hm : (m.at C).nrows = C.nrows) (hT : T.WFr) (hr : T.nrows = C.nrows) (hc : T.ncols = C.ncols)
    (hg : ∀ i j, i < C.nrows → j < C.ncols → T.get i j = R i j) :
    ResT x sf compl outp C (m.at C) R (forN C.nrows C fun i C => do
      let mr ← (m.at C).row i
      let t ← T.row i
      storeT sf compl x.truthy id (outp == .replace) i mr
        (Row.cast x.castT (maskFilter sf compl x.truthy mr t)) C) := by
  obtain ⟨C', e, h⟩ := loopT (sf := sf) (compl := compl) (truthy := x.truthy) (cast := (id : γ → γ))
    (outp := outp) hC (M := (m.at C).rowD)
    (T := fun i => Row.cast x.castT (keepIf (lets sf compl x.truthy ((m.at C).rowD i)) (T.rowD i)))
    (d := fun _ => outp == .replace)
    (fun i => (hM.rowD_ok i).sorted)
    (fun i _ => by rw [← hc]; exact (hT.rowD_ok i).keepIf.cast)
    (fun i _ p hp => by
      obtain ⟨q, hq, rfl⟩ := List.mem_map.1 hp
      exact (mem_keepIf.1 hq).2)
    (fun i => Or.inl rfl)
    (body := fun i C => do
      let mr ← (m.at C).row i
      let t ← T.row i
      storeT sf compl x.truthy id (outp == .replace) i mr
        (Row.cast x.castT (maskFilter sf compl x.truthy mr t)) C)
    (fun i C' hi hw hn hr' => by
      rw [m.row_at hM.toWFr hw.toWFr hr' hn (by omega), hT.row_ok (by omega)]
      simp only [Except.bind_ok']
      rw [maskFilter_eq _ (hT.rowD_ok i).sorted _ (hM.rowD_ok i).sorted])
  refine ⟨C', e, h.congr fun i j hi hj => ?_⟩
  rw [get_cast, write_id_cast, get_keepIf]
  show Spec.write _ _ _ _ (if _ then T.get i j else none) = _
  rw [write_keep, hg i j hi hj]

theorem filterZ {compl : Bool} {T : Lil τ} (hC : C.WF) (hM : (m.at C).WF)
    (hm : (m.at C).nrows = C.nrows) (hT : T.WFr) (hr : T.nrows = C.nrows) (hc : T.ncols = C.ncols)
    (hg : ∀ i j, i < C.nrows → j < C.ncols → T.get i j = R i j) :
    ResZ x acc sf compl outp C (m.at C) R (forN C.nrows C fun i C => do
      let mr ← (m.at C).row i
      let t ← T.row i
      storeZ sf compl x.truthy x.castZ acc (outp == .replace) i mr
        (maskFilter sf compl x.truthy mr t) C) := by
  obtain ⟨C', e, h⟩ := loopZ (sf := sf) (compl := compl) (truthy := x.truthy) (castZ := x.castZ)
    (acc := acc) (outp := outp) hC (M := (m.at C).rowD)
    (T := fun i => keepIf (lets sf compl x.truthy ((m.at C).rowD i)) (T.rowD i))
    (d := fun _ => outp == .replace)
    (fun i => (hM.rowD_ok i).sorted)
    (fun i _ => by rw [← hc]; exact (hT.rowD_ok i).keepIf)
    (fun i _ p hp => (mem_keepIf.1 hp).2)
    (fun i => Or.inl rfl)
    (body := fun i C => do
      let mr ← (m.at C).row i
      let t ← T.row i
      storeZ sf compl x.truthy x.castZ acc (outp == .replace) i mr
        (maskFilter sf compl x.truthy mr t) C)
    (fun i C' hi hw hn hr' => by
      rw [m.row_at hM.toWFr hw.toWFr hr' hn (by omega), hT.row_ok (by omega)]
      simp only [Except.bind_ok']
      rw [maskFilter_eq _ (hT.rowD_ok i).sorted _ (hM.rowD_ok i).sorted])
  refine ⟨C', e, h.congr fun i j hi hj => ?_⟩
  rw [get_keepIf]
  show Spec.write _ _ _ _ (Spec.accum _ _ (if _ then T.get i j else none)) = _
  rw [writeAcc_keep, hg i j hi hj]

theorem recompute_is {g : Nat → Nat → Option γ} {T : Lil γ} (h : C.Is g T) : C.Is g T.recomputeNvals :=
  ⟨Lil.recomputeNvals_wf h.wf.toWFr, h.nrows, h.ncols, h.get⟩

section
variable (hC : C.WF)
    (hA : (a.at C).WF) (hB : (b.at C).WF) (h1 : C.nrows = (a.at C).ncols)
    (h2 : C.ncols = (b.at C).nrows) (h3 : (a.at C).nrows = (b.at C).ncols)
include hC hA hB h1 h2 h3

theorem optNoMaskNoAccumATBT_res :
    ResSet x C (atbtProd x (a.at C) (b.at C)) (optNoMaskNoAccumATBT x C a b) := by
  refine skip_set hC (atbt_empties hA hB) ?_
  split
  · obtain ⟨T, e, h⟩ := atbtK_is (add := x.add) (multA := x.multA) (castBA := x.castBA) (cast := x.castT)
      (D := Lil.new C.nrows C.ncols) (Lil.new_wf _ _).toWFr hA.toWFr hB.toWFr h1 h2 h3
    simp only [e, Except.bind_ok']
    have hTr : T.nrows = C.nrows := h.nrows
    have hTc : T.ncols = C.ncols := h.ncols
    obtain ⟨C', e', h'⟩ := loopSet (cast := (id : γ → γ)) hC (T := T.rowD)
      (fun i _ => by rw [← hTc]; exact h.wf.rowD_ok i)
      (body := fun i C => do
        let t ← T.row i
        C.setRow i id t)
      (fun i C' hi _ _ _ => Or.inl (by rw [h.wf.row_ok (by omega)]; rfl))
    rw [e']
    refine ⟨_, rfl, recompute_is (h'.congr fun i j hi hj => ?_)⟩
    rw [← h.get i j hi hj]
    simp [Lil.get]
  · obtain ⟨T, e, h⟩ := atbtK_is (add := x.add) (multA := x.multA) (castBA := x.castBA) (cast := x.castT)
      hC.toWFr hA.toWFr hB.toWFr h1 h2 h3
    simp only [e, Except.bind_ok']
    exact ⟨_, rfl, recompute_is h⟩

theorem optNoMaskAccumATBT_res :
    ResAcc x acc C (atbtProd x (a.at C) (b.at C)) (optNoMaskAccumATBT x acc C a b) := by
  refine skip_acc hC (atbt_empties hA hB) ?_
  obtain ⟨T, e, h⟩ := atbtK_is (add := x.add) (multA := x.multA) (castBA := x.castBA)
    (cast := (id : τ → τ))
    (D := Lil.new C.nrows C.ncols) (Lil.new_wf _ _).toWFr hA.toWFr hB.toWFr h1 h2 h3
  simp only [e, Except.bind_ok']
  obtain ⟨C', e', h'⟩ := mergeTmp_is (op := fun c t => x.castZ (acc.op c t)) (cast := x.castT) hC
    h.wf.toWFr h.nrows h.ncols
  refine ⟨C', e', h'.congr fun i j hi hj => ?_⟩
  rw [h.get i j hi hj, Option.map_id_fun, id]

variable (hM : (m.at C).WF) (hm : (m.at C).nrows = C.nrows)
include hM hm

theorem optMaskNoAccumATBT_res :
    ResT x sf false outp C (m.at C) (atbtProd x (a.at C) (b.at C))
      (optMaskNoAccumATBT x sf outp C m a b) := by
  refine skip_mask hC hM (atbt_empties hA hB) ?_
  obtain ⟨T, e, w1, w2, w3, w4⟩ := atbtT_spec (add := x.add) (multA := x.multA) (castBA := x.castBA)
    hA.toWFr hB.toWFr h3
  rw [← h1, ← h2] at e w4
  rw [e]
  exact filterT hC hM hm w1 (by omega) (by omega) w4

theorem optMaskAccumATBT_res :
    ResZ x acc sf false outp C (m.at C) (atbtProd x (a.at C) (b.at C))
      (optMaskAccumATBT x acc sf outp C m a b) := by
  refine skip_maskZ hC hM ?_
  obtain ⟨T, e, w1, w2, w3, w4⟩ := atbtT_spec (add := x.add) (multA := x.multA) (castBA := x.castBA)
    hA.toWFr hB.toWFr h3
  rw [← h1, ← h2] at e w4
  rw [e]
  exact filterZ hC hM hm w1 (by omega) (by omega) w4

theorem optCompNoAccumATBT_res :
    ResT x sf true outp C (m.at C) (atbtProd x (a.at C) (b.at C))
      (optCompNoAccumATBT x sf outp C m a b) := by
  refine skip_comp hC (atbt_empties hA hB) ?_
  obtain ⟨T, e, w1, w2, w3, w4⟩ := atbtT_spec (add := x.add) (multA := x.multA) (castBA := x.castBA)
    hA.toWFr hB.toWFr h3
  rw [← h1, ← h2] at e w4
  rw [e]
  exact filterT hC hM hm w1 (by omega) (by omega) w4

theorem optCompAccumATBT_res (hx : SkipOK x acc outp (m.at C).nvals (a.at C).nvals (b.at C).nvals) :
    ResZ x acc sf true outp C (m.at C) (atbtProd x (a.at C) (b.at C))
      (optCompAccumATBT x acc sf outp C m a b) := by
  refine skip_compZ hC hM (atbt_empties hA hB) hx ?_
  obtain ⟨T, e, w1, w2, w3, w4⟩ := atbtT_spec (add := x.add) (multA := x.multA) (castBA := x.castBA)
    hA.toWFr hB.toWFr h3
  rw [← h1, ← h2] at e w4
  rw [e]
  exact filterZ hC hM hm w1 (by omega) (by omega) w4

end

end

end GBTL
