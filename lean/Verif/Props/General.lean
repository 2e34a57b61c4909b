import Verif.Lemmas.Calls
/-
Properties of every operation: C08 (consistency), C23 (masked-out positions), C24 (mask
kinds), C25 (accumulation).
-/
namespace GBTL
open Spec (Outp MaskKind Accum runCalls AMat AVec)

variable {α β γ δ τ ζ μ : Type}

/-! ### What a returned call has done -/

theorem MCall.of_done {c : MCall γ τ ζ} {F : Accum γ τ ζ → Spec.Mat γ → Spec.Mat ζ} {m n : Nat}
    {o : MOut γ τ ζ μ} {C' : Lil γ} (h : c.Result F m n o) (hr : c.run o = .done C') :
    o.Holds (F o.acc o.C.get) C' := by
  by_cases hs : o.M.Fits m n ∧ c.Accepts m n
  · obtain ⟨C'', h1, h2⟩ := h.1 hs.1 hs.2
    rw [hr] at h1; cases h1; exact h2
  · obtain ⟨e, _, h1⟩ := h.2 hs
    rw [hr] at h1; cases h1

theorem VCall.of_done {c : VCall γ τ ζ} {F : Accum γ τ ζ → Spec.Vec γ → Spec.Vec ζ} {n : Nat}
    {o : VOut γ τ ζ μ} {w' : BVec γ} (h : c.Result F n o) (hr : c.run o = .done w') :
    o.Holds (F o.acc o.w.get) w' := by
  by_cases hs : o.m.Fits n ∧ c.Accepts n
  · obtain ⟨w'', h1, h2⟩ := h.1 hs.1 hs.2
    rw [hr] at h1; cases h1; exact h2
  · obtain ⟨e, _, h1⟩ := h.2 hs
    rw [hr] at h1; cases h1

/-- Every matrix operation either returns or throws with its output unchanged: no
undefined behaviour, no exception half-way. -/
theorem C08_matrix_call_returns_or_throws_partial (c : MCall γ τ ζ) (o : MOut γ τ ζ μ) (ho : o.WF)
    (hg : c.Good o.C.nrows o.C.ncols) :
    (∃ C', c.run o = .done C' ∧ C'.WF ∧ C'.nrows = o.C.nrows ∧ C'.ncols = o.C.ncols) ∨
      (∃ e, e ≠ .ub ∧ c.run o = .threw e o.C) := by
  obtain ⟨F, -, h⟩ := c.main _ _ hg
  have h := h μ o ho rfl rfl
  by_cases hs : o.M.Fits o.C.nrows o.C.ncols ∧ c.Accepts o.C.nrows o.C.ncols
  · obtain ⟨C', h1, h2⟩ := h.1 hs.1 hs.2
    exact .inl ⟨C', h1, h2.wf, h2.nrows, h2.ncols⟩
  · exact .inr (h.2 hs)

/-- The same for vector operations. -/
theorem C08_vector_call_returns_or_throws_partial (c : VCall γ τ ζ) (o : VOut γ τ ζ μ) (ho : o.WF)
    (hg : c.Good o.w.size) :
    (∃ w', c.run o = .done w' ∧ w'.WF ∧ w'.size = o.w.size) ∨
      (∃ e, e ≠ .ub ∧ c.run o = .threw e o.w) := by
  obtain ⟨F, -, h⟩ := c.main _ hg
  have h := h μ o ho rfl
  by_cases hs : o.m.Fits o.w.size ∧ c.Accepts o.w.size
  · obtain ⟨C', h1, h2⟩ := h.1 hs.1 hs.2
    exact .inl ⟨C', h1, h2.wf, h2.size⟩
  · exact .inr (h.2 hs)

/-! ### C23 -/

/-- **C23**, every operation writing a matrix: a position the mask does not allow
keeps its content under MERGE and is empty under REPLACE. -/
theorem C23_matrix (c : MCall γ τ ζ) (o : MOut γ τ ζ μ) (C' : Lil γ) (ho : o.WF)
    (hg : c.Good o.C.nrows o.C.ncols) (hr : c.run o = .done C') (i j : Nat)
    (hi : i < o.C.nrows) (hj : j < o.C.ncols) (hm : o.M.allows o.truthy i j = false) :
    (o.outp = .merge → C'.get i j = o.C.get i j) ∧ (o.outp = .replace → C'.get i j = none) := by
  obtain ⟨F, -, h⟩ := c.main _ _ hg
  have h := (MCall.of_done (h μ o ho rfl rfl) hr).get i j hi hj
  rw [h, hm]
  constructor <;> intro e <;> simp [Spec.write, e]

/-- **C23**, every operation writing a vector. -/
theorem C23_vector (c : VCall γ τ ζ) (o : VOut γ τ ζ μ) (w' : BVec γ) (ho : o.WF)
    (hg : c.Good o.w.size) (hr : c.run o = .done w') (i : Nat)
    (hi : i < o.w.size) (hm : o.m.allows o.truthy i = false) :
    (o.outp = .merge → w'.get i = o.w.get i) ∧ (o.outp = .replace → w'.get i = none) := by
  obtain ⟨F, -, h⟩ := c.main _ hg
  have h := (VCall.of_done (h μ o ho rfl) hr).get i hi
  rw [h, hm]
  constructor <;> intro e <;> simp [Spec.write, e]

/-- **C23**, assignment to a column: in the column as above; all other columns keep
their content. -/
theorem C23_column [Inhabited γ] {o : LOut γ α ζ μ} {keep : γ → ζ} {u : BVec α} {ri : Idx}
    {j : Nat} (ho : o.WF) (hu : u.WF) (h0 : 0 < u.size) (hm : o.m.Fits o.C.nrows)
    (hl : ri.len u.size = u.size) (hi : ri.inside u.size o.C.nrows) (hn : ri.nodup)
    (hj : j < o.C.ncols) :
    ∃ C', assignCol o keep u ri j = .done C' ∧
      (∀ i k, i < o.C.nrows → k < o.C.ncols → k ≠ j → C'.get i k = o.C.get i k) ∧
      ∀ i, i < o.C.nrows → o.m.allows o.truthy i = false →
        (o.outp = .merge → C'.get i j = o.C.get i j) ∧ (o.outp = .replace → C'.get i j = none) := by
  obtain ⟨C', h1, h2⟩ := C19_assign_column (keep := keep) ho hu h0 hm hl hi hn hj
  refine ⟨C', h1, fun i k hi hk hne => ?_, fun i hi hma => ?_⟩
  · rw [h2.get i k hi hk, if_neg hne]
  · rw [h2.get i j hi hj, if_pos rfl, hma]
    constructor <;> intro e <;> simp [Spec.write, e]

/-- **C23**, assignment to a row. -/
theorem C23_row [Inhabited γ] {o : LOut γ α ζ μ} {keep : γ → ζ} {u : BVec α} {ci : Idx}
    {i : Nat} (ho : o.WF) (hu : u.WF) (h0 : 0 < u.size) (hm : o.m.Fits o.C.ncols)
    (hl : ci.len u.size = u.size) (hi : ci.inside u.size o.C.ncols) (hn : ci.nodup)
    (hi' : i < o.C.nrows) :
    ∃ C', assignRow o keep u i ci = .done C' ∧
      (∀ k j, k < o.C.nrows → j < o.C.ncols → k ≠ i → C'.get k j = o.C.get k j) ∧
      ∀ j, j < o.C.ncols → o.m.allows o.truthy j = false →
        (o.outp = .merge → C'.get i j = o.C.get i j) ∧ (o.outp = .replace → C'.get i j = none) := by
  obtain ⟨C', h1, h2⟩ := C19_assign_row (keep := keep) ho hu h0 hm hl hi hn hi'
  refine ⟨C', h1, fun k j hk hj hne => ?_, fun j hj hma => ?_⟩
  · rw [h2.get k j hk hj, if_neg hne]
  · rw [h2.get i j hi' hj, if_pos rfl, hma]
    constructor <;> intro e <;> simp [Spec.write, e]

example : Ex.oM.WF ∧ (MCall.mxm Ex.pt id (.plain Ex.A) (.plain Ex.B) : MCall Nat Nat Nat).Good 2 2 ∧
    Ex.oM.M.allows Ex.oM.truthy 0 1 = false ∧ Ex.oM.outp = .replace ∧ Ex.A.get 0 1 = some 2 ∧
    ∃ C', (MCall.mxm Ex.pt id (.plain Ex.A) (.plain Ex.B) : MCall Nat Nat Nat).run Ex.oM = .done C' :=
  ⟨Ex.oM_wf, ⟨Ex.A_wf, Ex.B_wf⟩, by decide, rfl, by decide,
    ⟨_, (by decide +kernel :
      GBTL.mxm Ex.oM Ex.pt id (.plain Ex.A) (.plain Ex.B)
        = .done { nrows := 2, ncols := 2, nvals := 2, rows := [[(0, 15)], [(1, 3)]] })⟩⟩

/-! ### C24 -/

/-- `C'` is `Z` where allowed; elsewhere it is the old `C` (MERGE) or empty
(REPLACE). -/
def Masked (allowed : Nat → Nat → Prop) (C : Lil γ) (Z : Spec.Mat γ) (outp : Outp) (C' : Lil γ) : Prop :=
  ∀ i j, i < C.nrows → j < C.ncols →
    (allowed i j → C'.get i j = Z i j) ∧
    (¬ allowed i j → C'.get i j = match outp with | .merge => C.get i j | .replace => none)

def MaskedV (allowed : Nat → Prop) (w : BVec γ) (z : Spec.Vec γ) (outp : Outp) (w' : BVec γ) : Prop :=
  ∀ i, i < w.size →
    (allowed i → w'.get i = z i) ∧
    (¬ allowed i → w'.get i = match outp with | .merge => w.get i | .replace => none)

/-- **C24**, every operation writing a matrix, run with the same arguments and the
five kinds of mask over one mask matrix `M`: there is one result `Z` such that each
run writes `Z` exactly at the positions its kind of mask allows. -/
theorem C24_matrix (c : MCall γ τ ζ) (C : Lil γ) (M : Lil μ) (truthy : μ → Bool) (acc : Accum γ τ ζ)
    (castZ : ζ → γ) (outp : Outp) (hC : C.WF) (hM : M.WF) (hg : c.Good C.nrows C.ncols) :
    ∃ Z : Spec.Mat γ,
      (∀ C', c.run ⟨C, (none : MMask μ), truthy, acc, castZ, outp⟩ = .done C' →
        Masked (fun _ _ => True) C Z outp C') ∧
      (∀ C', c.run ⟨C, some (.plain, M), truthy, acc, castZ, outp⟩ = .done C' →
        Masked (fun i j => ∃ v, M.get i j = some v ∧ truthy v = true) C Z outp C') ∧
      (∀ C', c.run ⟨C, some (.comp, M), truthy, acc, castZ, outp⟩ = .done C' →
        Masked (fun i j => ¬ ∃ v, M.get i j = some v ∧ truthy v = true) C Z outp C') ∧
      (∀ C', c.run ⟨C, some (.struct, M), truthy, acc, castZ, outp⟩ = .done C' →
        Masked (fun i j => ∃ v, M.get i j = some v) C Z outp C') ∧
      (∀ C', c.run ⟨C, some (.structComp, M), truthy, acc, castZ, outp⟩ = .done C' →
        Masked (fun i j => ¬ ∃ v, M.get i j = some v) C Z outp C') := by
  obtain ⟨F, -, h⟩ := c.main _ _ hg
  have hsome : ∀ k, (MOut.mk C (some (k, M)) truthy acc castZ outp).WF :=
    fun k => ⟨hC, by intro k' M' e; cases e; exact hM⟩
  have key : ∀ (o : MOut γ τ ζ μ) (al : Nat → Nat → Prop), o.WF → o.C = C → o.outp = outp → o.acc = acc →
      o.castZ = castZ → (∀ i j, al i j ↔ o.M.allows o.truthy i j = true) →
      ∀ C', c.run o = .done C' → Masked al C (fun i j => (F acc C.get i j).map castZ) outp C' := by
    rintro o al ho rfl rfl rfl rfl hal C' hr i j hi hj
    have h := (MCall.of_done (h μ o ho rfl rfl) hr).get i j hi hj
    rw [hal, h]
    constructor
    · intro e; rw [e]; rfl
    · intro e
      rw [Bool.not_eq_true] at e
      rw [e]; rfl
  refine ⟨fun i j => (F acc C.get i j).map castZ, ?_, ?_, ?_, ?_, ?_⟩
  · exact key _ _ ⟨hC, by intro k' M' e; cases e⟩ rfl rfl rfl rfl
      (fun i j => by simp [MMask.allows])
  · exact key _ _ (hsome _) rfl rfl rfl rfl
      (fun i j => by cases h : M.get i j <;> simp [MMask.allows, Spec.allows, h])
  · exact key _ _ (hsome _) rfl rfl rfl rfl
      (fun i j => by cases h : M.get i j <;> simp [MMask.allows, Spec.allows, h])
  · exact key _ _ (hsome _) rfl rfl rfl rfl
      (fun i j => by cases h : M.get i j <;> simp [MMask.allows, Spec.allows, h])
  · exact key _ _ (hsome _) rfl rfl rfl rfl
      (fun i j => by cases h : M.get i j <;> simp [MMask.allows, Spec.allows, h])

/-- **C24**, every operation writing a vector. -/
theorem C24_vector (c : VCall γ τ ζ) (w : BVec γ) (m : BVec μ) (truthy : μ → Bool) (acc : Accum γ τ ζ)
    (castZ : ζ → γ) (outp : Outp) (hw : w.WF) (hm : m.WF) (hg : c.Good w.size) :
    ∃ z : Spec.Vec γ,
      (∀ w', c.run ⟨w, (none : VMask μ), truthy, acc, castZ, outp⟩ = .done w' →
        MaskedV (fun _ => True) w z outp w') ∧
      (∀ w', c.run ⟨w, some (.plain, m), truthy, acc, castZ, outp⟩ = .done w' →
        MaskedV (fun i => ∃ v, m.get i = some v ∧ truthy v = true) w z outp w') ∧
      (∀ w', c.run ⟨w, some (.comp, m), truthy, acc, castZ, outp⟩ = .done w' →
        MaskedV (fun i => ¬ ∃ v, m.get i = some v ∧ truthy v = true) w z outp w') ∧
      (∀ w', c.run ⟨w, some (.struct, m), truthy, acc, castZ, outp⟩ = .done w' →
        MaskedV (fun i => ∃ v, m.get i = some v) w z outp w') ∧
      (∀ w', c.run ⟨w, some (.structComp, m), truthy, acc, castZ, outp⟩ = .done w' →
        MaskedV (fun i => ¬ ∃ v, m.get i = some v) w z outp w') := by
  obtain ⟨F, -, h⟩ := c.main _ hg
  have hsome : ∀ k, (VOut.mk w (some (k, m)) truthy acc castZ outp).WF :=
    fun k => ⟨hw, by intro k' M' e; cases e; exact hm⟩
  have key : ∀ (o : VOut γ τ ζ μ) (al : Nat → Prop), o.WF → o.w = w → o.outp = outp → o.acc = acc →
      o.castZ = castZ → (∀ i, al i ↔ o.m.allows o.truthy i = true) →
      ∀ w', c.run o = .done w' → MaskedV al w (fun i => (F acc w.get i).map castZ) outp w' := by
    rintro o al ho rfl rfl rfl rfl hal w' hr i hi
    have h := (VCall.of_done (h μ o ho rfl) hr).get i hi
    rw [hal, h]
    constructor
    · intro e; rw [e]; rfl
    · intro e
      rw [Bool.not_eq_true] at e
      rw [e]; rfl
  refine ⟨fun i => (F acc w.get i).map castZ, ?_, ?_, ?_, ?_, ?_⟩
  · exact key _ _ ⟨hw, by intro k' M' e; cases e⟩ rfl rfl rfl rfl
      (fun i => by simp [VMask.allows])
  · exact key _ _ (hsome _) rfl rfl rfl rfl
      (fun i => by cases h : m.get i <;> simp [VMask.allows, Spec.allows, h])
  · exact key _ _ (hsome _) rfl rfl rfl rfl
      (fun i => by cases h : m.get i <;> simp [VMask.allows, Spec.allows, h])
  · exact key _ _ (hsome _) rfl rfl rfl rfl
      (fun i => by cases h : m.get i <;> simp [VMask.allows, Spec.allows, h])
  · exact key _ _ (hsome _) rfl rfl rfl rfl
      (fun i => by cases h : m.get i <;> simp [VMask.allows, Spec.allows, h])

/-- **C24**, complementing an empty mask: the same result as with no mask. -/
theorem C24_complement_of_empty (c : MCall γ τ ζ) (C C₁ C₂ : Lil γ) (M : Lil μ) (truthy : μ → Bool)
    (acc : Accum γ τ ζ) (castZ : ζ → γ) (outp : Outp) (hC : C.WF) (hM : M.WF)
    (hg : c.Good C.nrows C.ncols) (he : ∀ i j, M.get i j = none)
    (h1 : c.run ⟨C, (none : MMask μ), truthy, acc, castZ, outp⟩ = .done C₁)
    (h2 : c.run ⟨C, some (.comp, M), truthy, acc, castZ, outp⟩ = .done C₂)
    (i j : Nat) (hi : i < C.nrows) (hj : j < C.ncols) : C₁.get i j = C₂.get i j := by
  obtain ⟨Z, z1, -, z3, -, -⟩ := C24_matrix c C M truthy acc castZ outp hC hM hg
  rw [(z1 C₁ h1 i j hi hj).1 trivial, (z3 C₂ h2 i j hi hj).1 (by rintro ⟨v, hv, -⟩; rw [he] at hv; cases hv)]

example : Ex.A.WF ∧ Ex.B.WF ∧ (MCall.transpose (.plain Ex.A) : MCall Nat Nat Nat).Good 2 2 ∧
    (MCall.transpose (.plain Ex.A) : MCall Nat Nat Nat).run
      ⟨Ex.A, some (.comp, Ex.B), fun x => x ≠ 5, .none id, id, .merge⟩
      = .done { nrows := 2, ncols := 2, nvals := 2, rows := [[(0, 1)], [(1, 3)]] } :=
  ⟨Ex.A_wf, Ex.B_wf, Ex.A_wf, by decide +kernel⟩

/-! ### C25 -/

/-- The accumulation rule at one position: old content `c`, new `t`, content after the
call `r`. -/
structure Accumulates (acc : Accum γ τ ζ) (castZ : ζ → γ) (c : Option γ) (t : Option τ) (r : Option γ) :
    Prop where
  /-- without accumulator: the new content, whatever the old one -/
  none : ∀ cast, acc = .none cast → r = t.map fun t => castZ (cast t)
  both : ∀ f cC cT, acc = .some f cC cT → ∀ x y, c = some x → t = some y → r = some (castZ (f x y))
  old : ∀ f cC cT, acc = .some f cC cT → ∀ x, c = some x → t = Option.none → r = some (castZ (cC x))
  new : ∀ f cC cT, acc = .some f cC cT → ∀ y, c = Option.none → t = some y → r = some (castZ (cT y))
  neither : ∀ f cC cT, acc = .some f cC cT → c = Option.none → t = Option.none → r = Option.none

theorem accumulates (acc : Accum γ τ ζ) (castZ : ζ → γ) (c : Option γ) (t : Option τ) :
    Accumulates acc castZ c t ((Spec.accum acc c t).map castZ) := by
  constructor
  · rintro cast rfl; simp [Spec.accum, Function.comp_def]
  · rintro f cC cT rfl x y rfl rfl; rfl
  · rintro f cC cT rfl x rfl rfl; rfl
  · rintro f cC cT rfl y rfl rfl; rfl
  · rintro f cC cT rfl rfl rfl; rfl

/-- **C25**, every operation other than assignments writing a matrix: there is one
result `T`, the same whatever the output's content, mask and accumulator, and each
writable position is accumulated with it. -/
theorem C25_matrix (c : MCall γ τ ζ) (m n : Nat) (hg : c.Good m n) (hc : c.isAssign = false) :
    ∃ T : Spec.Mat τ, ∀ (μ : Type) (o : MOut γ τ ζ μ) (C' : Lil γ), o.WF → o.C.nrows = m → o.C.ncols = n →
      c.run o = .done C' → ∀ i j, i < m → j < n → o.M.allows o.truthy i j = true →
        Accumulates o.acc o.castZ (o.C.get i j) (T i j) (C'.get i j) := by
  obtain ⟨F, hF, h⟩ := c.main m n hg
  rw [hc] at hF
  cases hF with
  | assign _ _ _ hb => cases hb
  | op T _ hT =>
    refine ⟨T, fun μ o C' ho hr hcs hrun i j hi hj hm => ?_⟩
    have h := (MCall.of_done (h μ o ho hr hcs) hrun).get i j (hr.symm ▸ hi) (hcs.symm ▸ hj)
    rw [hm, hT] at h
    rw [h]
    exact accumulates _ _ _ _

/-- **C25**, matrix assignments: the rule at the listed positions; the others keep
their content (converted to and from the type of the accumulated values). -/
theorem C25_matrix_assign (c : MCall γ τ ζ) (m n : Nat) (hg : c.Good m n) (hc : c.isAssign = true) :
    ∃ (T : Spec.Mat τ) (sel : Nat → Nat → Bool) (keep : γ → ζ),
      ∀ (μ : Type) (o : MOut γ τ ζ μ) (C' : Lil γ), o.WF → o.C.nrows = m → o.C.ncols = n →
      c.run o = .done C' → ∀ i j, i < m → j < n → o.M.allows o.truthy i j = true →
        (sel i j = true → Accumulates o.acc o.castZ (o.C.get i j) (T i j) (C'.get i j)) ∧
        (sel i j = false → (∀ cast, o.acc = .none cast →
            C'.get i j = (o.C.get i j).map fun x => o.castZ (keep x)) ∧
          (∀ f cC cT, o.acc = .some f cC cT →
            C'.get i j = (o.C.get i j).map fun x => o.castZ (cC x))) := by
  obtain ⟨F, hF, h⟩ := c.main m n hg
  rw [hc] at hF
  cases hF with
  | op _ hb => cases hb
  | assign keep sel T _ hT =>
    refine ⟨T, sel, keep, fun μ o C' ho hr hcs hrun i j hi hj hm => ?_⟩
    have h := (MCall.of_done (h μ o ho hr hcs) hrun).get i j (hr.symm ▸ hi) (hcs.symm ▸ hj)
    rw [hm, hT] at h
    rw [h]
    constructor
    · intro hs
      rw [hs]
      exact accumulates _ _ _ _
    · intro hs
      constructor
      · intro cast e; rw [e]; simp [Spec.assignAt, hs, Spec.write, Function.comp_def]
      · intro f cC cT e; rw [e]; simp [Spec.assignAt, hs, Spec.write, Function.comp_def]

/-- **C25**, vectors. -/
theorem C25_vector (c : VCall γ τ ζ) (n : Nat) (hg : c.Good n) (hc : c.isAssign = false) :
    ∃ t : Spec.Vec τ, ∀ (μ : Type) (o : VOut γ τ ζ μ) (w' : BVec γ), o.WF → o.w.size = n →
      c.run o = .done w' → ∀ i, i < n → o.m.allows o.truthy i = true →
        Accumulates o.acc o.castZ (o.w.get i) (t i) (w'.get i) := by
  obtain ⟨F, hF, h⟩ := c.main n hg
  rw [hc] at hF
  cases hF with
  | assign _ _ _ hb => cases hb
  | op T _ hT =>
    refine ⟨T, fun μ o C' ho hr hrun i hi hm => ?_⟩
    have h := (VCall.of_done (h μ o ho hr) hrun).get i (hr.symm ▸ hi)
    rw [hm, hT] at h
    rw [h]
    exact accumulates _ _ _ _

/-- **C25**, vector assignments. -/
theorem C25_vector_assign (c : VCall γ τ ζ) (n : Nat) (hg : c.Good n) (hc : c.isAssign = true) :
    ∃ (t : Spec.Vec τ) (sel : Nat → Bool) (keep : γ → ζ),
      ∀ (μ : Type) (o : VOut γ τ ζ μ) (w' : BVec γ), o.WF → o.w.size = n →
      c.run o = .done w' → ∀ i, i < n → o.m.allows o.truthy i = true →
        (sel i = true → Accumulates o.acc o.castZ (o.w.get i) (t i) (w'.get i)) ∧
        (sel i = false → (∀ cast, o.acc = .none cast →
            w'.get i = (o.w.get i).map fun x => o.castZ (keep x)) ∧
          (∀ f cC cT, o.acc = .some f cC cT →
            w'.get i = (o.w.get i).map fun x => o.castZ (cC x))) := by
  obtain ⟨F, hF, h⟩ := c.main n hg
  rw [hc] at hF
  cases hF with
  | op _ hb => cases hb
  | assign keep sel T _ hT =>
    refine ⟨T, sel, keep, fun μ o C' ho hr hrun i hi hm => ?_⟩
    have h := (VCall.of_done (h μ o ho hr) hrun).get i (hr.symm ▸ hi)
    rw [hm, hT] at h
    rw [h]
    constructor
    · intro hs
      rw [hs]
      exact accumulates _ _ _ _
    · intro hs
      constructor
      · intro cast e; rw [e]; simp [Spec.assignAt, hs, Spec.write, Function.comp_def]
      · intro f cC cT e; rw [e]; simp [Spec.assignAt, hs, Spec.write, Function.comp_def]

example : Ex.oM.WF ∧ (MCall.transpose (.plain Ex.A) : MCall Nat Nat Nat).Good 2 2 ∧
    (MCall.transpose (.plain Ex.A) : MCall Nat Nat Nat).run
      ⟨Ex.A, (none : MMask Nat), fun x => x ≠ 5, .some (fun a b => 10 * a + b) id id, id, .merge⟩
      = .done { nrows := 2, ncols := 2, nvals := 4, rows := [[(0, 11), (1, 2)], [(0, 2), (1, 33)]] } :=
  ⟨Ex.oM_wf, Ex.A_wf, by decide +kernel⟩

/-! ### C08 -/

theorem operand_wf {A : Operand α} (h : A.mat.WF) : A.WF := by cases A <;> exact h

theorem MCall.good_of {c : MCall γ τ ζ} {m n : Nat}
    (h : ∀ δ (X : Lil δ), (⟨δ, X⟩ : Σ δ : Type, Lil δ) ∈ c.mats → X.WF) (hl : c.Lists m n) :
    c.Good m n := by
  cases c with
  | mxm sr via A B => exact ⟨operand_wf (h _ _ (by simp [mats])), operand_wf (h _ _ (by simp [mats]))⟩
  | eWiseAdd f A B => exact ⟨operand_wf (h _ _ (by simp [mats])), operand_wf (h _ _ (by simp [mats]))⟩
  | eWiseMult f A B => exact ⟨operand_wf (h _ _ (by simp [mats])), operand_wf (h _ _ (by simp [mats]))⟩
  | apply f A => exact operand_wf (h _ _ (by simp [mats]))
  | extract A ri ci => exact operand_wf (h _ _ (by simp [mats]))
  | transpose A => exact operand_wf (h _ _ (by simp [mats]))
  | kronecker f A B =>
    exact ⟨operand_wf (h _ _ (by simp [mats])), operand_wf (h _ _ (by simp [mats])), hl.1, hl.2⟩
  | assign keep A ri ci => exact ⟨operand_wf (h _ _ (by simp [mats])), hl⟩
  | assignConst keep x ri ci => exact hl

theorem VCall.good_of {c : VCall γ τ ζ} {n : Nat}
    (h : ∀ δ (X : Lil δ), (⟨δ, X⟩ : Σ δ : Type, Lil δ) ∈ c.mats → X.WF)
    (h' : ∀ δ (x : BVec δ), (⟨δ, x⟩ : Σ δ : Type, BVec δ) ∈ c.vecs → x.WF) (hl : c.Lists n) :
    c.Good n := by
  cases c with
  | vxm sr u A => exact ⟨h' _ _ (by simp [vecs]), operand_wf (h _ _ (by simp [mats]))⟩
  | mxv sr A u => exact ⟨operand_wf (h _ _ (by simp [mats])), h' _ _ (by simp [vecs])⟩
  | eWiseAdd f u v => exact ⟨h' _ _ (by simp [vecs]), h' _ _ (by simp [vecs])⟩
  | eWiseMult f u v => exact ⟨h' _ _ (by simp [vecs]), h' _ _ (by simp [vecs])⟩
  | apply f u => exact h' _ _ (by simp [vecs])
  | reduce r A => exact ⟨operand_wf (h _ _ (by simp [mats])), hl⟩
  | extract u ix => exact h' _ _ (by simp [vecs])
  | extractCol A ri j => exact operand_wf (h _ _ (by simp [mats]))
  | assign keep u ix => exact ⟨h' _ _ (by simp [vecs]), hl⟩
  | assignConst keep x ix => exact hl

theorem build_wf (dup : α → α → α) (ts : List (Nat × Nat × α)) : ∀ (A : Lil α), A.WF →
    (A.build dup ts).2.WF := by
  induction ts with
  | nil => intro A h; exact h
  | cons t ts ih =>
    intro A h
    obtain ⟨i, j, x⟩ := t
    simp only [Lil.build]
    by_cases hij : i < A.nrows ∧ j < A.ncols
    · obtain ⟨B, b1, b2, -⟩ := Lil.setElementMerge_spec h hij.1 hij.2 x dup
      rw [b1]
      exact ih B b2
    · rw [Lil.setElementMerge, if_pos (by omega)]
      exact h

theorem vec_call_pos [Inhabited α] {v : BVec α} (hv : v.WF) (h0 : 0 < v.size) (c : Spec.VecCall α) :
    (v.call c).2.WF ∧ 0 < (v.call c).2.size := by
  have h := (vsim_step (a := ⟨v.size, v.get⟩) ⟨hv, rfl, fun _ => rfl⟩ c).2
  refine ⟨h.wf, ?_⟩
  rw [h.size]
  cases c with
  | resize n =>
    by_cases hn : n = 0
    · simpa [AVec.step, hn] using h0
    · simp only [AVec.step, hn, if_false]; omega
  | extract i =>
    simp only [AVec.step]
    split
    · split <;> exact h0
    · exact h0
  | set i x => simp only [AVec.step]; split <;> exact h0
  | remove i => simp only [AVec.step]; split <;> exact h0
  | has i => simp only [AVec.step]; split <;> exact h0
  | clear => exact h0
  | nvals => exact h0
  | size => exact h0

theorem inside_of {ix : Idx} {n m : Nat} (hb : ix.below m) (ha : ix = .all → n ≤ m) : ix.inside n m := by
  cases ix with
  | list l => exact hb
  | all => exact ha rfl

/-- What is known when a column assignment returned. -/
theorem assignCol_done [Inhabited γ] {o : LOut γ α ζ μ} {keep : γ → ζ} {u : BVec α} {ri : Idx} {j : Nat}
    {C' : Lil γ} (h : assignCol o keep u ri j = .done C') :
    o.m.Fits o.C.nrows ∧ ri.len u.size = u.size ∧ j < o.C.ncols ∧ ri.below o.C.nrows := by
  have nb : ∀ e, e ≠ Err.ub → assignCol o keep u ri j = .threw e o.C → False := by
    intro e _ h'; rw [h] at h'; cases h'
  by_cases h1 : o.m.Fits o.C.nrows
  · by_cases h2 : ri.len u.size = u.size
    · by_cases h3 : j < o.C.ncols
      · by_cases h4 : ri.below o.C.nrows
        · exact ⟨h1, h2, h3, h4⟩
        · exact (nb _ (by simp) (C27_assign_column h1 h2 h3 h4)).elim
      · refine (nb .invalidIndex (by simp) (run_threw (by simp) ?_)).elim
        rw [(dim_size _ _).ok h1, (dim_len _ _).ok h2, indexCheck_err h3]; rfl
    · refine (nb .dimension (by simp) (run_threw (by simp) ?_)).elim
      rw [(dim_size _ _).ok h1, (dim_len _ _).err h2]; rfl
  · refine (nb .dimension (by simp) (run_threw (by simp) ?_)).elim
    rw [(dim_size _ _).err h1]; rfl

theorem assignRow_done [Inhabited γ] {o : LOut γ α ζ μ} {keep : γ → ζ} {u : BVec α} {ci : Idx} {i : Nat}
    {C' : Lil γ} (h : assignRow o keep u i ci = .done C') :
    o.m.Fits o.C.ncols ∧ ci.len u.size = u.size ∧ i < o.C.nrows ∧ ci.below o.C.ncols := by
  have nb : ∀ e, e ≠ Err.ub → assignRow o keep u i ci = .threw e o.C → False := by
    intro e _ h'; rw [h] at h'; cases h'
  by_cases h1 : o.m.Fits o.C.ncols
  · by_cases h2 : ci.len u.size = u.size
    · by_cases h3 : i < o.C.nrows
      · by_cases h4 : ci.below o.C.ncols
        · exact ⟨h1, h2, h3, h4⟩
        · exact (nb _ (by simp) (C27_assign_row h1 h2 h3 h4)).elim
      · refine (nb .invalidIndex (by simp) (run_threw (by simp) ?_)).elim
        rw [(dim_size _ _).ok h1, (dim_len _ _).ok h2, indexCheck_err h3]; rfl
    · refine (nb .dimension (by simp) (run_threw (by simp) ?_)).elim
      rw [(dim_size _ _).ok h1, (dim_len _ _).err h2]; rfl
  · refine (nb .dimension (by simp) (run_threw (by simp) ?_)).elim
    rw [(dim_size _ _).err h1]; rfl

theorem dense_wf {keep : α → Bool} {val : List (List α)} {A : Lil α} (hne : val ≠ [])
    (h : Lil.ofDense keep val = .ok A) : A.WF := by
  cases val with
  | nil => exact absurd rfl hne
  | cons r0 val =>
    by_cases hr : ∃ r ∈ val, r.length ≠ r0.length
    · rw [C42_matrix_dense_ragged keep r0 val hr] at h; cases h
    · obtain ⟨B, b1, b2, -⟩ := C42_matrix_dense keep (r0 :: val) r0.length hne (by
        intro r hm
        rcases List.mem_cons.1 hm with rfl | hm
        · rfl
        · exact Classical.byContradiction fun hn => hr ⟨r, hm, hn⟩)
      rw [h] at b1; cases b1; exact b2

mutual

theorem ReachM.wf : ∀ {δ : Type} {A : Lil δ}, ReachM A → A.WF
  | _, _, .new m n => Lil.new_wf m n
  | _, _, .dense _ _ _ hne h => dense_wf hne h
  | _, _, .call A c h =>
    (msim_step (a := ⟨A.nrows, A.ncols, A.get⟩) ⟨h.wf, rfl, rfl, fun _ _ => rfl⟩ c).2.wf
  | _, _, .build A dup ts h => build_wf dup ts A h.wf
  | _, _, .op (μ := μ) c o C' hC hM hA hl h => by
    obtain ⟨F, -, hF⟩ := c.main _ _ (MCall.good_of (fun δ X hX => (hA δ X hX).wf) hl)
    exact (MCall.of_done (hF μ o ⟨hC.wf, fun k M e => (hM k M e).wf⟩ rfl rfl) h).wf
  | _, _, @ReachM.assignCol _ _ _ _ _ o keep u ri j C' hC hm hu hn ha h => by
    obtain ⟨h1, h2, h3, h4⟩ := assignCol_done h
    obtain ⟨C'', c1, c2⟩ := C19_assign_column (keep := keep) ⟨hC.wf, fun k m e => (hm k m e).wf.1⟩
      hu.wf.1 hu.wf.2 h1 h2 (inside_of h4 ha) hn h3
    rw [h] at c1; cases c1; exact c2.wf
  | _, _, @ReachM.assignRow _ _ _ _ _ o keep u i ci C' hC hm hu hn ha h => by
    obtain ⟨h1, h2, h3, h4⟩ := assignRow_done h
    obtain ⟨C'', c1, c2⟩ := C19_assign_row (keep := keep) ⟨hC.wf, fun k m e => (hm k m e).wf.1⟩
      hu.wf.1 hu.wf.2 h1 h2 (inside_of h4 ha) hn h3
    rw [h] at c1; cases c1; exact c2.wf

theorem ReachV.wf : ∀ {δ : Type} {v : BVec δ}, ReachV v → v.WF ∧ 0 < v.size
  | δ, _, @ReachV.new _ _ n v h => by
    by_cases hn : n = 0
    · rw [BVec.new, if_pos hn] at h; cases h
    · obtain ⟨v', h1, h2, h3, -⟩ := BVec.new_spec (α := δ) hn
      rw [h] at h1; cases h1; exact ⟨h2, by omega⟩
  | δ, _, .dense xs v h => by
    by_cases hx : xs = []
    · subst hx; cases h
    · obtain ⟨v', h1, h2, h3, -⟩ := C42_vector_dense xs hx
      rw [h] at h1; cases h1
      exact ⟨h2, by rw [h3]; exact List.length_pos_iff.2 hx⟩
  | _, _, @ReachV.call _ _ v c h => vec_call_pos h.wf.1 h.wf.2 c
  | _, _, @ReachV.build _ _ v dup ts h hd => by
    by_cases hb : ∀ t ∈ ts, t.1 < v.size
    · obtain ⟨w, w1, w2, -, -, w3⟩ := C03_vector_build_partial v dup ts hb
      rw [w1]; exact ⟨(w3 hd).1, by rw [w2]; exact h.wf.2⟩
    · rw [C03_vector_build_out_of_range v dup ts (Classical.byContradiction fun hn =>
        hb fun t ht => Classical.byContradiction fun hlt => hn ⟨t, ht, by omega⟩)]
      exact h.wf
  | _, _, .op (μ := μ) c o w' hw hm hA hu hl h => by
    obtain ⟨F, -, hF⟩ := c.main _ (VCall.good_of (fun δ X hX => (hA δ X hX).wf)
      (fun δ x hx => (hu δ x hx).wf.1) hl)
    have := VCall.of_done (hF μ o ⟨hw.wf.1, fun k m e => (hm k m e).wf.1⟩ rfl) h
    exact ⟨this.wf, by rw [this.size]; exact hw.wf.2⟩

end

/-- **C08**: every matrix a program can have built by constructors, method calls,
`build` and operations is consistent. -/
theorem C08_matrix_consistent_partial {A : Lil δ} (h : ReachM A) : A.Consistent := by
  have hw := h.wf
  obtain ⟨t1, t2, -⟩ := C07_matrix_tuples A hw
  refine ⟨A.get, fun calls => (sim_run (R := MSim) (fun s t c h => msim_step h c) calls _ _
    ⟨hw, rfl, rfl, fun _ _ => rfl⟩).1, ?_, t2, t1, hw.nvals_eq⟩
  intro i j x hx
  constructor
  · rcases Nat.lt_or_ge i A.nrows with h | h
    · exact h
    · rw [hw.toWFr.get_none (Or.inl h)] at hx; cases hx
  · rcases Nat.lt_or_ge j A.ncols with h | h
    · exact h
    · rw [hw.toWFr.get_none (Or.inr h)] at hx; cases hx

/-- **C08**, vectors. -/
theorem C08_vector_consistent_partial [Inhabited δ] {v : BVec δ} (h : ReachV v) : v.Consistent := by
  have hw := h.wf.1
  obtain ⟨ts, t0, t1, t2, -⟩ := C07_vector_tuples v hw
  refine ⟨v.get, ts, fun calls => (sim_run (R := VSim) (fun s t c h => vsim_step h c) calls _ _
    ⟨hw, rfl, fun _ => rfl⟩).1, ?_, t0, t2, t1, hw.nvals_eq⟩
  intro i x hx
  rcases Nat.lt_or_ge i v.size with h | h
  · exact h
  · rw [hw.get_none (by omega)] at hx; cases hx

/-- **C08**: two matrices a program has built compare equal exactly when they have the same
shape and list the same tuples. -/
theorem C08_matrix_eq_partial [DecidableEq δ] {A B : Lil δ} (hA : ReachM A) (hB : ReachM B) :
    A.eq B = true ↔ A.nrows = B.nrows ∧ A.ncols = B.ncols ∧ A.extractTuples = B.extractTuples := by
  rw [C06_matrix_eq A B hA.wf hB.wf]
  obtain ⟨-, a2, -⟩ := C07_matrix_tuples A hA.wf
  obtain ⟨-, b2, -⟩ := C07_matrix_tuples B hB.wf
  constructor
  · rintro ⟨h1, h2, h3⟩
    refine ⟨h1, h2, ?_⟩
    have hr := Lil.rows_ext hA.wf.toWFr hB.wf.toWFr h1 h3
    simp only [Lil.extractTuples, hr]
  · rintro ⟨h1, h2, h3⟩
    refine ⟨h1, h2, fun i j => ?_⟩
    rw [h3] at a2
    cases hb : B.get i j with
    | some x => exact (a2 i j x).1 ((b2 i j x).2 hb)
    | none =>
      cases ha : A.get i j with
      | none => rfl
      | some x => rw [(b2 i j x).1 ((a2 i j x).2 ha)] at hb; cases hb

/-- A reachable matrix: `build` followed by a masked product into itself. -/
example : ∃ C' : Lil Nat, ReachM C' ∧ C'.extractTuples = [(0, 0, 5), (0, 1, 6), (1, 1, 9)] := by
  have hA : ReachM Ex.A := by
    have := ReachM.build (Lil.new 2 2 : Lil Nat) (fun a _ => a) [(0, 0, 1), (0, 1, 2), (1, 1, 3)] (.new 2 2)
    exact (by decide +kernel : ((Lil.new 2 2 : Lil Nat).build (fun a _ => a)
      [(0, 0, 1), (0, 1, 2), (1, 1, 3)]).2 = Ex.A) ▸ this
  exact ⟨{ nrows := 2, ncols := 2, nvals := 3, rows := [[(0, 5), (1, 6)], [(1, 9)]] },
    ReachM.op (MCall.mxm Ex.pt id (.plain Ex.A) (.tr Ex.A))
      ⟨Ex.A, some (.struct, Ex.A), fun _ => true, .none id, id, .replace⟩ _ hA
      (by intro k M e; cases e; exact hA)
      (by intro δ X hX; simp [MCall.mats, Operand.mat] at hX; obtain ⟨rfl, h⟩ := hX; cases h; exact hA)
      trivial (by
        show GBTL.mxm _ Ex.pt id (.plain Ex.A) (.tr Ex.A) = _
        decide +kernel), by decide +kernel⟩

/-- **C08 is false as stated** for `assign` of a constant with a repeated index: the
vector afterwards lists two elements and reports three. -/
theorem C08_assign_const_repeat_wrong :
    ∃ (o : VOut Nat Nat Nat Nat) (ix : Idx) (w' : BVec Nat), o.WF ∧ ConstVShapes o ix ∧
      ix.below o.w.size ∧ assignConstV o id 5 ix = .done w' ∧
      w'.extractTuples = .ok [(1, 1), (2, 5)] ∧ w'.nvals = 3 :=
  ⟨{ Ex.oW with acc := .none id }, .list [2, 2],
    { size := 4, nvals := 3, vals := [0, 1, 5, 0], bitmap := [false, true, true, false] },
    ⟨Ex.oW_wf.out, Ex.oW_wf.mask⟩, ⟨(by intro k M e; cases e), by decide⟩, by simp [Idx.below, Ex.oW],
    by decide +kernel, by decide +kernel, rfl⟩

end GBTL
