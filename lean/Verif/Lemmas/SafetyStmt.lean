import Verif.Lemmas.SafetyOps
import Verif.Lemmas.ProgramStmt
/- Accesses within bounds: calls and programs. -/
namespace GBTL
open Spec (Outp MaskKind Accum MatCall VecCall Ans)

variable {α β γ δ τ ζ μ ν σ ρ : Type} {m n : Nat} {tm tv : Nat → Type}

/-- Returns or throws before it writes; what the output then is satisfies `P`. -/
def Outcome.Fine (P : σ → Prop) : Outcome σ → Prop
  | .done v => P v
  | .threw _ v => P v
  | .midway _ => False
  | .ub => False

theorem run_fine {s : σ} {pre : Except Err ρ} {post : ρ → Except Err σ} {P : σ → Prop} {Q : ρ → Prop}
    (hs : P s) (hpre : Sound pre Q) (hpost : ∀ z, Q z → Returns (post z) P) : (run s pre post).Fine P := by
  cases pre with
  | ok z =>
    obtain ⟨v, hv, h⟩ := (hpost z hpre).ex
    rw [run, hv]
    exact h
  | error e =>
    cases e <;> first | exact hs | exact absurd rfl hpre

/-! ### Matrix operations -/

/-- The operands are safe, and the call is not one of those left out. -/
def MCall.SafeArgs (c : MCall γ τ ζ) (m n : Nat) : Prop :=
  match c with
  | .mxm _ _ A B => A.Safe ∧ B.Safe
  | .eWiseAdd _ A B => A.Safe ∧ B.Safe
  | .eWiseMult _ A B => A.Safe ∧ B.Safe
  | .apply _ A => A.Safe
  | .extract A _ _ => A.Safe
  | .transpose A => A.Safe
  | .kronecker _ A B => A.Safe ∧ B.Safe ∧ A.nrows * B.nrows < 2 ^ 64 ∧ A.ncols * B.ncols < 2 ^ 64
  | .assign _ A ri ci => A.Safe ∧ (ri = .all → A.nrows ≤ m) ∧ (ci = .all → A.ncols ≤ n)
  | .assignConst .. => True

theorem mask_at {M : MMask μ} (hM : ∀ k A, M = some (k, A) → A.Safe)
    (h1 : ∀ k A, M = some (k, A) → m = A.nrows) (h2 : ∀ k A, M = some (k, A) → n = A.ncols) : M.SafeAt m n :=
  fun k A e => ⟨hM k A e, (h1 k A e).symm, (h2 k A e).symm⟩

theorem MCall.pre_sound (c : MCall γ τ ζ) (o : MOut γ τ ζ μ) (hC : o.C.SafeAt m n)
    (hM : ∀ k A, o.M = some (k, A) → A.Safe) (hc : c.SafeArgs m n) :
    Sound (c.pre o) fun Z => Z.SafeAt m n ∧ o.M.SafeAt m n := by
  have e1 := hC.2.1
  have e2 := hC.2.2
  have acc : ∀ {T : Except Err (Lil τ)}, Sound T (Lil.SafeAt m n) → o.M.SafeAt m n →
      Sound (T >>= fun T => accumMat o.C o.acc T) fun Z => Z.SafeAt m n ∧ o.M.SafeAt m n :=
    fun hT hM => hT.bind fun T hT => (accumMat_returns hC hT _).sound.mono fun Z hZ => ⟨hZ, hM⟩
  have sten : ∀ {T : Except Err (Lil τ)} {keep : γ → ζ} {ri ci : Idx}, Sound T (Lil.SafeAt m n) → o.M.SafeAt m n →
      Sound (T >>= fun T => ewiseOrStencilOptAccum keep (Lil.new o.C.nrows o.C.ncols) o.C T ri ci o.acc)
        fun Z => Z.SafeAt m n ∧ o.M.SafeAt m n :=
    fun hT hM => hT.bind fun T hT =>
      (stencil_returns (by rw [e1, e2]; exact .new) hC hT _ _ _).sound.mono fun Z hZ => ⟨hZ, hM⟩
  cases c with
  | mxm sr via A B =>
    rw [MCall.pre, e1, e2]
    exact (rowCheck_sound ..).bind fun _ m1 => (colCheck_sound ..).bind fun _ m2 =>
      (eqCheck_sound ..).bind fun _ h1 => (eqCheck_sound ..).bind fun _ h2 => (eqCheck_sound ..).bind fun _ h3 =>
      acc (mxmT_returns hC sr via A B hc.1 hc.2 h1.symm h2.symm h3 rfl).sound (mask_at hM m1 m2)
  | eWiseAdd f A B =>
    rw [MCall.pre, MOut.checks2, e1, e2]
    simp only [bind_assoc]
    exact (colCheck_sound ..).bind fun _ m2 => (rowCheck_sound ..).bind fun _ m1 =>
      (eqCheck_sound ..).bind fun _ h1 => (eqCheck_sound ..).bind fun _ h2 => (eqCheck_sound ..).bind fun _ h3 =>
      (eqCheck_sound ..).bind fun _ h4 =>
      acc (eWiseAddT_returns f A B hc.1 hc.2 h2.symm h1.symm (h4.symm.trans h2.symm) (h3.symm.trans h1.symm)).sound
        (mask_at hM m1 m2)
  | eWiseMult f A B =>
    rw [MCall.pre, MOut.checks2, e1, e2]
    simp only [bind_assoc]
    exact (colCheck_sound ..).bind fun _ m2 => (rowCheck_sound ..).bind fun _ m1 =>
      (eqCheck_sound ..).bind fun _ h1 => (eqCheck_sound ..).bind fun _ h2 => (eqCheck_sound ..).bind fun _ h3 =>
      (eqCheck_sound ..).bind fun _ h4 =>
      acc (eWiseMultT_returns f A B hc.1 hc.2 h2.symm h1.symm (h4.symm.trans h2.symm) (h3.symm.trans h1.symm)).sound
        (mask_at hM m1 m2)
  | apply f A =>
    rw [MCall.pre, e1, e2]
    exact (colCheck_sound ..).bind fun _ m2 => (rowCheck_sound ..).bind fun _ m1 =>
      (eqCheck_sound ..).bind fun _ h1 => (eqCheck_sound ..).bind fun _ h2 =>
      acc (applyT_returns f A hc h2.symm h1.symm).sound (mask_at hM m1 m2)
  | extract A ri ci =>
    rw [MCall.pre, e1, e2]
    exact (rowCheck_sound ..).bind fun _ m1 => (colCheck_sound ..).bind fun _ m2 =>
      (lenCheck_sound ..).bind fun _ h1 => (lenCheck_sound ..).bind fun _ h2 =>
      acc (extractT_sound hC A hc h1 h2) (mask_at hM m1 m2)
  | transpose A =>
    rw [MCall.pre, e1, e2]
    exact (rowCheck_sound ..).bind fun _ m1 => (colCheck_sound ..).bind fun _ m2 =>
      (eqCheck_sound ..).bind fun _ h1 => (eqCheck_sound ..).bind fun _ h2 =>
      acc (by have := transposeOperandT_returns A hc; rw [h2, ← h1] at this; exact this.sound) (mask_at hM m1 m2)
  | kronecker f A B =>
    rw [MCall.pre, e1, e2]
    exact (rowCheck_sound ..).bind fun _ m1 => (colCheck_sound ..).bind fun _ m2 =>
      (eqCheck_sound ..).bind fun _ h1 => (eqCheck_sound ..).bind fun _ h2 =>
      acc (kronT_returns hC f A B hc.1 hc.2.1 (h2.trans (Nat.mod_eq_of_lt hc.2.2.1))
        (h1.trans (Nat.mod_eq_of_lt hc.2.2.2)) hc.2.2.1 hc.2.2.2).sound (mask_at hM m1 m2)
  | assign keep A ri ci =>
    rw [MCall.pre, e1, e2]
    rw [e1, e2] at sten
    exact (rowCheck_sound ..).bind fun _ m1 => (colCheck_sound ..).bind fun _ m2 =>
      (lenCheck_sound ..).bind fun _ h1 => (lenCheck_sound ..).bind fun _ h2 =>
      sten (assignT_sound hC A hc.1 h1 h2 hc.2.1 hc.2.2) (mask_at hM m1 m2)
  | assignConst keep x ri ci =>
    rw [MCall.pre, e1, e2]
    rw [e1, e2] at sten
    exact (rowCheck_sound ..).bind fun _ m1 => (colCheck_sound ..).bind fun _ m2 =>
      (withinCheck_sound ..).bind fun _ h1 => (withinCheck_sound ..).bind fun _ h2 =>
      sten (assignConstMat_sound hC) (mask_at hM m1 m2)

theorem MCall.runShared_fine (c : MCall γ τ ζ) {C : Lil γ} {M : ArgMask γ μ} {truthy : μ → Bool}
    {acc : Accum γ τ ζ} {castZ : ζ → γ} {outp : Outp} (hC : C.Safe)
    (hM : ∀ k A, M.at C = some (k, A) → A.Safe) (hc : c.SafeArgs C.nrows C.ncols) :
    (c.runShared C M truthy acc castZ outp).Fine Lil.Safe := by
  refine run_fine hC (c.pre_sound _ hC.at hM hc) fun Z hZ => ?_
  rw [writeShared_at]
  exact (writeWithOptMask_returns hC.at hZ.1 hZ.2).mono fun D hD => hD.1

/-! ### Vector operations -/

def VCall.SafeArgs (c : VCall γ τ ζ) (n : Nat) : Prop :=
  match c with
  | .vxm _ u A => u.Safe ∧ A.Safe
  | .mxv _ A u => A.Safe ∧ u.Safe
  | .eWiseAdd _ u v => u.Safe ∧ v.Safe
  | .eWiseMult _ u v => u.Safe ∧ v.Safe
  | .apply _ u => u.Safe
  | .reduce _ A => A.Safe
  | .extract u _ => u.Safe
  | .extractCol A _ _ => A.Safe
  | .assign _ u ix => u.Safe ∧ (ix = .all → u.size ≤ n)
  | .assignConst .. => True

theorem maskV_at {M : VMask μ} (hM : ∀ k v, M = some (k, v) → v.Safe)
    (h1 : ∀ k v, M = some (k, v) → n = v.size) : M.SafeAt n := fun k v e => ⟨hM k v e, (h1 k v e).symm⟩

theorem BVec.Safe.on {v : BVec α} (h : v.Safe) (e : n = v.size) : v.SafeAt n := ⟨h, e.symm⟩

theorem VCall.run_fine (c : VCall γ τ ζ) (o : VOut γ τ ζ μ) (hw : o.w.Safe)
    (hM : ∀ k v, o.m = some (k, v) → v.Safe) (hc : c.SafeArgs o.w.size) : (c.run o).Fine BVec.Safe := by
  have plain : ∀ {checks : Except Err Unit} {t : Except Err (Row τ)},
      Sound (checks >>= fun _ => t) (fun t => Row.Below o.w.size t ∧ o.m.SafeAt o.w.size) →
      (o.op checks t).Fine BVec.Safe := by
    intro checks t h
    refine GBTL.run_fine (Q := fun z => Row.Below o.w.size z ∧ o.m.SafeAt o.w.size) hw ?_
      fun z hz => (write1D_returns hw.at hz.1 hz.2).mono fun D hD => hD.1
    rw [← bind_assoc]
    exact h.bind fun t ht => (accum1D_returns hw.at ht.1 _).sound.mono fun z hz => ⟨hz, ht.2⟩
  have sten : ∀ {keep : γ → ζ} {ix : List Nat} {checks : Except Err Unit} {t : Except Err (Row τ)},
      Sound (checks >>= fun _ => t) (fun t => Row.Below o.w.size t ∧ o.m.SafeAt o.w.size) →
      (o.opStencil keep ix checks t).Fine BVec.Safe := by
    intro keep ix checks t h
    refine GBTL.run_fine (Q := fun z => Row.Below o.w.size z ∧ o.m.SafeAt o.w.size) hw ?_
      fun z hz => (write1D_returns hw.at hz.1 hz.2).mono fun D hD => hD.1
    rw [← bind_assoc]
    exact h.bind fun t ht => (stencil1D_returns hw.at ht.1 _ _).sound.mono fun z hz => ⟨hz, ht.2⟩
  cases c with
  | vxm sr u A =>
    refine plain ?_
    simp only [bind_assoc]
    exact (sizeCheck_sound ..).bind fun _ m1 => (eqCheck_sound ..).bind fun _ h1 => (eqCheck_sound ..).bind fun _ h2 =>
      (vxmT_returns rfl sr A hc.1 hc.2 h1 h2).sound.mono fun t ht => ⟨ht, maskV_at hM m1⟩
  | mxv sr A u =>
    refine plain ?_
    simp only [bind_assoc]
    exact (sizeCheck_sound ..).bind fun _ m1 => (eqCheck_sound ..).bind fun _ h1 => (eqCheck_sound ..).bind fun _ h2 =>
      (mxvT_returns rfl sr A hc.2 hc.1 h1 h2).sound.mono fun t ht => ⟨ht, maskV_at hM m1⟩
  | eWiseAdd f u v =>
    refine plain ?_
    simp only [VOut.checks2, bind_assoc]
    exact (sizeCheck_sound ..).bind fun _ m1 => (eqCheck_sound ..).bind fun _ h1 => (eqCheck_sound ..).bind fun _ h2 =>
      (ewiseAddVec_returns (hc.1.on h1) (hc.2.on (h1.trans h2))).sound.mono fun t ht => ⟨ht, maskV_at hM m1⟩
  | eWiseMult f u v =>
    refine plain ?_
    simp only [VOut.checks2, bind_assoc]
    exact (sizeCheck_sound ..).bind fun _ m1 => (eqCheck_sound ..).bind fun _ h1 => (eqCheck_sound ..).bind fun _ h2 =>
      (ewiseMultVec_returns (hc.1.on h1) (hc.2.on (h1.trans h2))).sound.mono fun t ht => ⟨ht, maskV_at hM m1⟩
  | apply f u =>
    refine plain ?_
    simp only [bind_assoc]
    exact (sizeCheck_sound ..).bind fun _ m1 => (eqCheck_sound ..).bind fun _ h1 =>
      (applyVec_returns (BVec.Safe.on hc h1)).sound.mono fun t ht => ⟨ht, maskV_at hM m1⟩
  | reduce r A =>
    refine plain ?_
    simp only [bind_assoc]
    exact (sizeCheck_sound ..).bind fun _ m1 => (eqCheck_sound ..).bind fun _ h1 =>
      (reduceT_returns r A hc h1.symm).sound.mono fun t ht => ⟨ht, maskV_at hM m1⟩
  | extract u ix =>
    refine plain ?_
    simp only [bind_assoc]
    exact (sizeCheck_sound ..).bind fun _ m1 => (lenCheck_sound ..).bind fun _ h1 =>
      (extractVec_sound rfl hc h1).mono fun t ht => ⟨ht, maskV_at hM m1⟩
  | extractCol A ri j =>
    refine plain ?_
    simp only [bind_assoc]
    exact (sizeCheck_sound ..).bind fun _ m1 => (lenCheck_sound ..).bind fun _ h1 =>
      (indexCheck_sound ..).bind fun _ h2 =>
      (extractColT'_sound rfl A hc h1 h2).mono fun t ht => ⟨ht, maskV_at hM m1⟩
  | assign keep u ix =>
    refine sten ?_
    simp only [bind_assoc]
    exact (sizeCheck_sound ..).bind fun _ m1 => (lenCheck_sound ..).bind fun _ h1 =>
      (assignVec_sound rfl hc.1 hc.2).mono fun t ht => ⟨ht, maskV_at hM m1⟩
  | assignConst keep x ix =>
    refine sten ?_
    simp only [bind_assoc]
    exact (sizeCheck_sound ..).bind fun _ m1 => (withinCheck_sound ..).bind fun _ h1 =>
      (assignConstVec_sound rfl).mono fun t ht => ⟨ht, maskV_at hM m1⟩

/-! ### Rows and columns -/

theorem BVec.new_sound [Inhabited α] (n : Nat) : Sound (BVec.new n : Except Err (BVec α)) (BVec.SafeAt n) := by
  rw [BVec.new]
  split
  · exact nofun
  · exact ⟨⟨by simp, by simp⟩, rfl⟩

theorem fillVec_sound [Inhabited γ] {r : Row γ} (hr : Row.Below n r) : Sound (fillVec n r) (BVec.SafeAt n) := by
  rw [fillVec]
  exact (BVec.new_sound n).bind fun v hv =>
    (foldlM_returns _ _ r (fun v p hp hv => hv.setElement (hr p hp)) v hv).sound

theorem assignBackend_sound {truthy : μ → Bool} {castZ : ζ → γ} {keep : γ → ζ} {acc : Accum γ α ζ} {w : BVec γ}
    {M : VMask μ} {u : BVec α} {ix : Idx} {outp : Outp} (hw : w.SafeAt n) (hM : M.SafeAt n) (hu : u.Safe)
    (ha : ix = .all → u.size ≤ n) :
    Sound (assignBackend truthy castZ keep acc w M u ix outp) (BVec.SafeAt n) := by
  rw [assignBackend]
  exact (assignVec_sound hw.2 hu ha).bind fun t ht => (stencil1D_returns hw ht _ _).sound.bind fun z hz =>
    (write1D_returns hw hz hM).sound

theorem setColLoop_returns {cast : β → α} {j : Nat} (hj : j < n) : ∀ (len i : Nat) (col : Row β) (A : Lil α),
    i + len = m → A.SafeAt m n → (∀ p ∈ col, i ≤ p.1) → (col.Pairwise fun p q => p.1 < q.1) →
    Returns (Lil.setColLoop cast j (List.range' i len) col A) (Lil.SafeAt m n) := by
  intro len
  induction len with
  | zero => intro i col A _ hA _ _; cases col <;> exact hA
  | succ len ih =>
    intro i col A hi hA hc hs
    rw [List.range'_succ]
    cases col with
    | nil =>
      rw [Lil.setColLoop]
      exact (hA.row (by omega)).bind fun r hr => (hA.wr (by omega) _).bind fun rows e =>
        ih (i + 1) [] _ (by omega) (hA.set hr.erase e) (by intro p hp; cases hp) .nil
    | cons p col =>
      obtain ⟨k, x⟩ := p
      have hk : i ≤ k := hc _ (List.mem_cons_self ..)
      rw [List.pairwise_cons] at hs
      rw [Lil.setColLoop]
      refine (hA.row (by omega)).bind fun r hr => ?_
      split
      · rename_i hlt
        exact (hA.wr (by omega) _).bind fun rows e =>
          ih (i + 1) ((k, x) :: col) _ (by omega) (hA.set hr.erase e)
            (fun q hq => by
              rcases List.mem_cons.1 hq with rfl | hq
              · exact hlt
              · have := hs.1 q hq; simp only at this; omega)
            (List.pairwise_cons.2 hs)
      · split
        · rename_i heq
          exact (hA.wr (by omega) _).bind fun rows e =>
            ih (i + 1) col _ (by omega) (hA.set (hr.insertMerge hj) e)
              (fun q hq => by have := hs.1 q hq; simp only at this; omega) hs.2
        · omega

theorem setCol_returns {cast : β → α} {j : Nat} {col : Row β} {A : Lil α} (hj : j < n) (hA : A.SafeAt m n)
    (hs : col.Pairwise fun p q => p.1 < q.1) : Returns (A.setCol j cast col) (Lil.SafeAt m n) := by
  rw [Lil.setCol, hA.2.1, List.range_eq_range']
  exact setColLoop_returns hj m 0 col A (by omega) hA (fun _ _ => Nat.zero_le _) hs

theorem assignCol_fine [Inhabited γ] (o : LOut γ α ζ μ) {keep : γ → ζ} {u : BVec α} {ri : Idx} {j : Nat}
    (hC : o.C.Safe) (hM : ∀ k v, o.m = some (k, v) → v.Safe) (hu : u.Safe) (ha : ri = .all → u.size ≤ o.C.nrows) :
    (assignCol o keep u ri j).Fine Lil.Safe := by
  refine run_fine (Q := fun c => (c.Pairwise fun p q => p.1 < q.1) ∧ j < o.C.ncols) hC ?_
    fun z hz => (setCol_returns hz.2 hC.at hz.1).mono fun D hD => hD.1
  exact (sizeCheck_sound ..).bind fun _ m1 => (lenCheck_sound ..).bind fun _ h1 =>
    (indexCheck_sound ..).bind fun _ h2 => (contentCheck_sound ..).bind fun _ h3 =>
    (hC.at.getCol j).sound.bind fun col hcol => (fillVec_sound hcol).bind fun v hv =>
    (assignBackend_sound hv (maskV_at hM m1) hu ha).bind fun v hv =>
    hv.contents'.sound.mono fun r hr => ⟨hr.2, h2⟩

theorem assignRow_fine [Inhabited γ] (o : LOut γ α ζ μ) {keep : γ → ζ} {u : BVec α} {ci : Idx} {i : Nat}
    (hC : o.C.Safe) (hM : ∀ k v, o.m = some (k, v) → v.Safe) (hu : u.Safe) (ha : ci = .all → u.size ≤ o.C.ncols) :
    (assignRow o keep u i ci).Fine Lil.Safe := by
  refine run_fine (Q := fun r => Row.Below o.C.ncols r ∧ i < o.C.nrows) hC ?_
    fun z hz => (hC.at.setRow hz.2 hz.1).mono fun D hD => hD.1
  exact (sizeCheck_sound ..).bind fun _ m1 => (lenCheck_sound ..).bind fun _ h1 =>
    (indexCheck_sound ..).bind fun _ h2 => (contentCheck_sound ..).bind fun _ h3 =>
    (hC.at.row h2).sound.bind fun row hrow => (fillVec_sound hrow).bind fun v hv =>
    (assignBackend_sound hv (maskV_at hM m1) hu ha).bind fun v hv =>
    hv.contents.sound.mono fun r hr => ⟨hr, h2⟩

/-! ### Methods -/

/-- A method returns or throws, and leaves a safe object. -/
def Method (r : Except Err α × σ) (P : σ → Prop) : Prop := r.1 ≠ .error .ub ∧ P r.2

theorem Lil.Safe.merge {A : Lil α} (h : A.Safe) (i j : Nat) (x : α) (f : α → α → α) :
    Method (A.setElementMerge i j x f) Lil.Safe := by
  rw [Lil.setElementMerge]
  split
  · exact ⟨nofun, h⟩
  · rename_i hij
    obtain ⟨r, hr, hb⟩ := (h.at.row (i := i) (by omega)).ex
    rw [hr]
    exact ⟨nofun, (h.at.set (hb.insertMerge (by omega)) rfl).1⟩

theorem Lil.Safe.remove {A : Lil α} (h : A.Safe) (i j : Nat) : Method (A.removeElement i j) Lil.Safe := by
  rw [Lil.removeElement]
  split
  · exact ⟨nofun, h⟩
  · rename_i hij
    obtain ⟨r, hr, hb⟩ := (h.at.row (i := i) (by omega)).ex
    rw [hr]
    exact ⟨nofun, (h.at.set hb.erase rfl).1⟩

theorem Lil.Safe.resize {A : Lil α} (h : A.Safe) (m n : Nat) : Method (A.resize m n) Lil.Safe := by
  rw [Lil.resize]
  split
  · exact ⟨nofun, h⟩
  · refine ⟨nofun, ?_⟩
    have hl : (resizeList A.rows m []).length = m := by simp [resizeList]; omega
    have hb : ∀ r ∈ resizeList A.rows m [], Row.Below A.ncols r := by
      intro r hr
      rcases List.mem_append.1 hr with hr | hr
      · exact h.below r (List.mem_of_mem_take hr)
      · rw [(List.mem_replicate.1 hr).2]; exact .nil
    rw [Lil.resizeBackend]
    simp only
    split
    · refine ⟨by simpa using hl, ?_⟩
      intro r hr
      obtain ⟨s, -, rfl⟩ := List.mem_map.1 hr
      intro p hp
      simpa using takeWhile_mem _ _ p hp
    · exact ⟨hl, fun r hr p hp => Nat.lt_of_lt_of_le (hb r hr p hp) (by simp only; omega)⟩

theorem Row.extract_ne_ub (r : Row α) (j : Nat) : r.extract j ≠ .error .ub := by
  induction r with
  | nil => exact nofun
  | cons p r ih =>
    obtain ⟨k, x⟩ := p
    rw [Row.extract]
    split
    · exact nofun
    · exact ih

theorem Lil.Safe.call {A : Lil α} (h : A.Safe) (c : MatCall α) : Method (A.call c) Lil.Safe := by
  have out : ∀ {q : Except Err Unit × Lil α}, Method q Lil.Safe →
      Method (match q with | (.ok _, B) => (.ok .unit, B) | (.error e, B) => (.error e, B) :
        Except Err (Ans α) × Lil α) Lil.Safe := by
    rintro ⟨r, B⟩ hq
    cases r with
    | ok u => exact ⟨nofun, hq.2⟩
    | error e => exact ⟨fun he => hq.1 (by simpa using he), hq.2⟩
  cases c with
  | set i j x => exact out (h.merge ..)
  | setMerge i j x f => exact out (h.merge ..)
  | remove i j => exact out (h.remove ..)
  | clear => exact ⟨nofun, h.at.clear.1⟩
  | resize m n => exact out (h.resize ..)
  | has i j =>
    rw [Lil.call, Lil.hasElement]
    split
    · rename_i b hb; exact ⟨nofun, h⟩
    · rename_i e he
      refine ⟨?_, h⟩
      intro hu
      cases hu
      split at he
      · cases he
      · split at he
        · cases he
        · rename_i hij _
          obtain ⟨r, hr, -⟩ := (h.at.row (i := i) (by omega)).ex
          rw [hr] at he
          simp only at he
          split at he <;> cases he
  | extract i j =>
    rw [Lil.call, Lil.extractElement]
    split
    · rename_i b hb; exact ⟨nofun, h⟩
    · rename_i e he
      refine ⟨?_, h⟩
      intro hu
      cases hu
      split at he
      · cases he
      · split at he
        · cases he
        · rename_i hij _
          obtain ⟨r, hr, -⟩ := (h.at.row (i := i) (by omega)).ex
          rw [hr] at he
          simp only at he
          split at he
          · cases he
          · exact Row.extract_ne_ub r j he
  | nvals => exact ⟨nofun, h⟩
  | shape => exact ⟨nofun, h⟩

theorem Lil.Safe.build (dup : α → α → α) (ts : List (Nat × Nat × α)) : ∀ {A : Lil α}, A.Safe →
    Method (A.build dup ts) Lil.Safe := by
  induction ts with
  | nil => intro A h; exact ⟨nofun, h⟩
  | cons t ts ih =>
    intro A h
    obtain ⟨i, j, x⟩ := t
    have hm := h.merge i j x dup
    rw [Lil.build]
    rcases hq : A.setElementMerge i j x dup with ⟨q, B⟩
    rw [hq] at hm
    cases q with
    | ok u => exact ih hm.2
    | error e => exact ⟨fun he => hm.1 (by simpa using he), hm.2⟩

theorem BVec.Safe.call [Inhabited α] {v : BVec α} (h : v.Safe) (c : VecCall α) : Method (v.call c) BVec.Safe := by
  have out : ∀ {q : Except Err Unit × BVec α}, Method q BVec.Safe →
      Method (match q with | (.ok _, B) => (.ok .unit, B) | (.error e, B) => (.error e, B) :
        Except Err (Ans α) × BVec α) BVec.Safe := by
    rintro ⟨r, B⟩ hq
    cases r with
    | ok u => exact ⟨nofun, hq.2⟩
    | error e => exact ⟨fun he => hq.1 (by simpa using he), hq.2⟩
  have hb : ∀ i, i < v.size → ∃ b, rd v.bitmap i = .ok b := fun i hi =>
    ⟨_, rd_ok (by rw [h.bitmap]; exact hi)⟩
  have hv : ∀ i, i < v.size → ∃ b, rd v.vals i = .ok b := fun i hi =>
    ⟨_, rd_ok (by rw [h.vals]; exact hi)⟩
  cases c with
  | set i x =>
    refine out ?_
    rw [BVec.setElement]
    split
    · exact ⟨nofun, h⟩
    · rename_i hi
      obtain ⟨b, hb⟩ := hb i (by omega)
      rw [wr_ok (by rw [h.vals]; omega)]
      simp only [hb]
      cases b with
      | true => exact ⟨nofun, by simpa using h.vals, h.bitmap⟩
      | false => exact ⟨nofun, by simpa using h.vals, by simpa using h.bitmap⟩
  | remove i =>
    refine out ?_
    rw [BVec.removeElement]
    split
    · exact ⟨nofun, h⟩
    · rename_i hi
      obtain ⟨b, hb⟩ := hb i (by omega)
      simp only [hb]
      cases b with
      | true => exact ⟨nofun, h.vals, by simpa using h.bitmap⟩
      | false => exact ⟨nofun, h⟩
  | clear => exact ⟨nofun, h.at.clear.1⟩
  | resize n =>
    refine out ?_
    rw [BVec.resize]
    split
    · exact ⟨nofun, h⟩
    · refine ⟨nofun, ?_⟩
      rw [BVec.resizeBackend]
      split
      · exact ⟨by simp [resizeList]; omega, by simp [resizeList]; omega⟩
      · split
        · exact ⟨by simp [resizeList]; omega, by simp [resizeList]; omega⟩
        · exact h
  | has i =>
    rw [BVec.call, BVec.hasElement]
    by_cases hi : v.size ≤ i
    · rw [if_pos hi]; exact ⟨nofun, h⟩
    · rw [if_neg hi]
      obtain ⟨b, hb⟩ := hb i (by omega)
      rw [hb]; exact ⟨nofun, h⟩
  | extract i =>
    rw [BVec.call, BVec.extractElement]
    by_cases hi : v.size ≤ i
    · rw [if_pos hi]; exact ⟨nofun, h⟩
    · rw [if_neg hi]
      obtain ⟨b, hb⟩ := hb i (by omega)
      obtain ⟨x, hx⟩ := hv i (by omega)
      rw [hb]
      cases b with
      | true => simp only [hx]; exact ⟨nofun, h⟩
      | false => exact ⟨nofun, h⟩
  | nvals => exact ⟨nofun, h⟩
  | size => exact ⟨nofun, h⟩

theorem buildLoop_sound {size : Nat} (dup : α → α → α) (ts : List (Nat × α)) : ∀ (vals : List α) (bm : List Bool),
    vals.length = size → bm.length = size →
    Sound (BVec.buildLoop size dup ts vals bm) fun p => p.1.length = size ∧ p.2.length = size := by
  induction ts with
  | nil => intro vals bm h1 h2; exact ⟨h1, h2⟩
  | cons t ts ih =>
    intro vals bm h1 h2
    obtain ⟨i, x⟩ := t
    rw [BVec.buildLoop]
    split
    · exact nofun
    · rename_i hi
      rw [rd_ok (by omega), Except.bind_ok']
      split
      · rw [rd_ok (by omega), Except.bind_ok', wr_ok (by omega), Except.bind_ok']
        exact ih _ _ (by simpa using h1) h2
      · rw [wr_ok (by omega), Except.bind_ok', wr_ok (by omega), Except.bind_ok']
        exact ih _ _ (by simpa using h1) (by simpa using h2)

theorem BVec.Safe.build [Inhabited α] {v : BVec α} (h : v.Safe) (dup : α → α → α) (ts : List (Nat × α)) :
    Method (v.build dup ts) BVec.Safe := by
  have := buildLoop_sound (size := v.size) dup ts (List.replicate v.size default) (List.replicate v.size false) (by simp) (by simp)
  rw [BVec.build]
  cases hb : BVec.buildLoop v.size dup ts (List.replicate v.size default) (List.replicate v.size false) with
  | ok p => rw [hb] at this; exact ⟨nofun, this.1, this.2⟩
  | error e => rw [hb] at this; exact ⟨fun he => this (by simpa using he), h⟩

theorem eqLoop_ne_ub [DecidableEq α] {a b : BVec α} (ha : a.Safe) (hb : b.Safe) (e : a.size = b.size)
    (l : List Nat) (hl : ∀ i ∈ l, i < a.size) : a.eqLoop b l ≠ .error .ub := by
  induction l with
  | nil => exact nofun
  | cons i l ih =>
    have hi := hl i (List.mem_cons_self ..)
    have ih := ih fun j hj => hl j (List.mem_cons_of_mem _ hj)
    rw [BVec.eqLoop, rd_ok (by rw [ha.bitmap]; exact hi), Except.bind_ok',
      rd_ok (by rw [hb.bitmap, ← e]; exact hi), Except.bind_ok']
    split
    · exact nofun
    · split
      · rw [rd_ok (by rw [ha.vals]; exact hi), Except.bind_ok',
          rd_ok (by rw [hb.vals, ← e]; exact hi), Except.bind_ok']
        split
        · exact nofun
        · exact ih
      · exact ih

theorem denseLoop_sound {keep : α → Bool} (k : Nat) (rows : List (List α)) :
    Sound (Lil.denseLoop k keep rows) fun p => p.1.length = rows.length ∧ ∀ r ∈ p.1, Row.Below k r := by
  induction rows with
  | nil => exact ⟨rfl, by intro r hr; cases hr⟩
  | cons r rows ih =>
    rw [Lil.denseLoop]
    split
    · exact nofun
    · rename_i hk
      refine ih.bind fun p hp => .ok ⟨by simpa using hp.1, ?_⟩
      intro s hs
      rcases List.mem_cons.1 hs with rfl | hs
      · intro q hq
        have h := List.of_mem_zip (List.mem_filter.1 hq).1
        have := List.mem_range.1 h.1
        omega
      · exact hp.2 s hs

theorem ofDense_sound {keep : α → Bool} {rows : List (List α)} (h : rows ≠ []) :
    Sound (Lil.ofDense keep rows) Lil.Safe := by
  cases rows with
  | nil => exact absurd rfl h
  | cons r rows =>
    exact (denseLoop_sound r.length (r :: rows)).bind fun p hp => .ok ⟨hp.1, hp.2⟩

/-! ### Programs -/

theorem Store.Safe.setM {s : Store tm tv} (hs : s.Safe) {x : Nat} {v : Lil (tm x)} (hv : v.Safe) :
    (s.setM x v).Safe := by
  refine ⟨fun y => ?_, hs.vec⟩
  show (upd (F := fun y => Lil (tm y)) s.mat x v y).Safe
  by_cases h : y = x
  · subst h; rw [upd_same]; exact hv
  · rw [upd_ne (F := fun y => Lil (tm y)) _ _ h]; exact hs.mat y

theorem Store.Safe.setV {s : Store tm tv} (hs : s.Safe) {x : Nat} {v : BVec (tv x)} (hv : v.Safe) :
    (s.setV x v).Safe := by
  refine ⟨hs.mat, fun y => ?_⟩
  show (upd (F := fun y => BVec (tv y)) s.vec x v y).Safe
  by_cases h : y = x
  · subst h; rw [upd_same]; exact hv
  · rw [upd_ne (F := fun y => BVec (tv y)) _ _ h]; exact hs.vec y

theorem Ref.operand_safe {s : Store tm tv} (hs : s.Safe) (r : Ref) : (r.operand s).Safe := by
  unfold Ref.operand
  split <;> exact hs.mat r.x

theorem Ref.val_nrows (s : Store tm tv) (r : Ref) : (r.val s.abs).nrows = (r.operand s).nrows := by
  unfold Ref.val Ref.operand
  split <;> rfl
theorem Ref.val_ncols (s : Store tm tv) (r : Ref) : (r.val s.abs).ncols = (r.operand s).ncols := by
  unfold Ref.val Ref.operand
  split <;> rfl

theorem Indices.idx_all {ix : Indices} (h : ix.idx = .all) : ix = none := by
  cases ix with
  | none => rfl
  | some l => cases h

theorem MOp.safeArgs {s : Store tm tv} (hs : s.Safe) {m n : Nat} (e : MOp tm γ ζ τ) (h : e.bounded s.abs m n) :
    (e.call s).SafeArgs m n := by
  cases e with
  | mxm a b => exact ⟨a.operand_safe hs, b.operand_safe hs⟩
  | eWiseAdd a b => exact ⟨a.operand_safe hs, b.operand_safe hs⟩
  | eWiseMult a b => exact ⟨a.operand_safe hs, b.operand_safe hs⟩
  | apply a => exact a.operand_safe hs
  | extract a => exact a.operand_safe hs
  | transpose a => exact a.operand_safe hs
  | kronecker a b =>
    refine ⟨a.operand_safe hs, b.operand_safe hs, ?_⟩
    simpa only [MOp.bounded, Ref.val_nrows, Ref.val_ncols] using h
  | assign keep a ri ci =>
    refine ⟨a.operand_safe hs, fun e => ?_, fun e => ?_⟩
    · rw [← Ref.val_nrows]; exact h.1 (Indices.idx_all e)
    · rw [← Ref.val_ncols]; exact h.2 (Indices.idx_all e)
  | assignConst => trivial

theorem VOp.safeArgs {s : Store tm tv} (hs : s.Safe) {n : Nat} (e : VOp tm tv γ ζ τ) (h : e.bounded s.abs n) :
    (e.call s).SafeArgs n := by
  cases e with
  | vxm u a => exact ⟨hs.vec u, a.operand_safe hs⟩
  | mxv a u => exact ⟨a.operand_safe hs, hs.vec u⟩
  | eWiseAdd u v => exact ⟨hs.vec u, hs.vec v⟩
  | eWiseMult u v => exact ⟨hs.vec u, hs.vec v⟩
  | apply u => exact hs.vec u
  | reduce a => exact a.operand_safe hs
  | extract u => exact hs.vec u
  | extractCol a => exact a.operand_safe hs
  | assign keep u ix => exact ⟨hs.vec u, fun e => h (Indices.idx_all e)⟩
  | assignConst => trivial

/-- The call returns or throws in a regular way, and the objects stay safe. -/
def Regular (o : Option (Except Err α × Store tm tv)) : Prop := ∃ r s', o = some (r, s') ∧ s'.Safe

theorem observe_regular {r : Except Err α} {s : Store tm tv} (h : r ≠ .error .ub) (hs : s.Safe) :
    Regular (observe r s) := ⟨r, s, observe_of s h, hs⟩

theorem observeOut_regular {o : Outcome σ} {P : σ → Prop} {put : σ → Store tm tv} (h : o.Fine P)
    (hp : ∀ v, P v → (put v).Safe) : Regular (observeOut put o) := by
  cases o with
  | done v => exact ⟨_, _, rfl, hp v h⟩
  | threw e v => exact ⟨_, _, rfl, hp v h⟩
  | midway e => exact h.elim
  | ub => exact h.elim

theorem observeNew_regular {o : Except Err σ} {s : Store tm tv} {P : σ → Prop} {put : σ → Store tm tv}
    (hs : s.Safe) (h : Sound o P) (hp : ∀ v, P v → (put v).Safe) : Regular (observeNew s put o) := by
  cases o with
  | ok v => exact ⟨_, _, rfl, hp v h⟩
  | error e => exact observe_regular (fun he => h (by simpa using he)) hs

theorem observeScalar_regular {o : Outcome γ} {s : Store tm tv} (hs : s.Safe) (h : o.Fine fun _ => True) :
    Regular (observeScalar s o) := by
  cases o with
  | done v => exact ⟨_, _, rfl, hs⟩
  | threw e v => exact ⟨_, _, rfl, hs⟩
  | midway e => exact h.elim
  | ub => exact h.elim

theorem castTo_safe {s : Store tm tv} (hs : s.Safe) {y : Nat} {β : Type} (h : tm y = β) :
    (castTo h (s.mat y)).Safe := by
  subst h; exact hs.mat y
theorem castTo_safeV {s : Store tm tv} (hs : s.Safe) {y : Nat} {β : Type} (h : tv y = β) :
    (castTo h (s.vec y)).Safe := by
  subst h; exact hs.vec y

theorem matMask_safe {s : Store tm tv} (hs : s.Safe) (x : Nat) (k : MaskKind) (z : Nat) :
    ∀ k' A, (matMask s x k z).at (s.mat x) = some (k', A) → A.Safe := by
  intro k' A h
  rw [matMask_at] at h
  cases h
  exact hs.mat z

section
variable [∀ x, Inhabited (tm x)] [∀ x, Inhabited (tv x)]

theorem Stmt.regular {s : Store tm tv} (hs : s.Safe) (c : Stmt tm tv α) (hc : c.bounded s.abs) :
    Regular (c.exec s) := by
  cases c with
  | newM x m n => exact ⟨_, _, rfl, hs.setM Lil.SafeAt.new.1⟩
  | newV x n => exact observeNew_regular hs (BVec.new_sound n) fun v hv => hs.setV hv.1
  | denseM x keep rows => exact observeNew_regular hs (ofDense_sound hc) fun v hv => hs.setM hv
  | denseV x xs =>
    refine observeNew_regular (P := BVec.Safe) hs ?_ fun v hv => hs.setV hv
    rw [BVec.ofDense]
    split
    · exact nofun
    · exact ⟨rfl, by simp⟩
  | copyM x y h =>
    rw [Stmt.exec]
    simp only [Lil.assignFrom]
    split
    · exact observe_regular nofun (hs.setM (hs.mat x))
    · rename_i hsh
      have hsh : (s.mat x).nrows = (castTo h (s.mat y)).nrows ∧ (s.mat x).ncols = (castTo h (s.mat y)).ncols :=
        ⟨Classical.not_not.1 fun e => hsh (.inl e), Classical.not_not.1 fun e => hsh (.inr e)⟩
      refine observe_regular nofun (hs.setM ?_)
      have hy := castTo_safe hs h
      exact ⟨by rw [hsh.1]; exact hy.len, by rw [hsh.2]; exact hy.below⟩
  | copyV x y h =>
    rw [Stmt.exec]
    simp only [BVec.assignFrom]
    split
    · exact observe_regular nofun (hs.setV (hs.vec x))
    · rename_i hsh
      have hsh : (s.vec x).size = (castTo h (s.vec y)).size := Classical.not_not.1 hsh
      refine observe_regular nofun (hs.setV ?_)
      have hy := castTo_safeV hs h
      exact ⟨by rw [hsh]; exact hy.vals, by rw [hsh]; exact hy.bitmap⟩
  | eqM x y h d => exact ⟨_, _, rfl, hs⟩
  | eqV x y h d =>
    refine observe_regular ?_ hs
    rw [BVec.eq]
    split
    · exact nofun
    · rename_i hsh
      exact eqLoop_ne_ub (hs.vec x) (castTo_safeV hs h) (Classical.not_not.1 fun e => hsh (.inl e)) _
        fun i hi => List.mem_range.1 hi
  | mcall x c =>
    have := (hs.mat x).call c
    exact observe_regular this.1 (hs.setM this.2)
  | vcall x c =>
    have := (hs.vec x).call c
    exact observe_regular this.1 (hs.setV this.2)
  | buildM x dup ts =>
    have := Lil.Safe.build dup ts (hs.mat x)
    exact observe_regular this.1 (hs.setM this.2)
  | buildV x dup ts =>
    have := (hs.vec x).build dup ts
    exact observe_regular this.1 (hs.setV this.2)
  | tuplesM x => exact ⟨_, _, rfl, hs⟩
  | tuplesV x =>
    obtain ⟨r, hr, -⟩ := (hs.vec x).at.contents.ex
    refine observe_regular ?_ hs
    rw [show (s.vec x).extractTuples = (s.vec x).getContents from rfl, hr]
    exact nofun
  | opM x mask acc castZ outp e =>
    rcases mask with _ | ⟨k, z, truthy⟩
    · exact observeOut_regular ((e.call s).runShared_fine (hs.mat x) (by intro k A h; cases h) (e.safeArgs hs hc))
        fun v hv => hs.setM hv
    · exact observeOut_regular ((e.call s).runShared_fine (hs.mat x) (matMask_safe hs x k z) (e.safeArgs hs hc))
        fun v hv => hs.setM hv
  | opV x mask acc castZ outp e =>
    rcases mask with _ | ⟨k, z, truthy⟩
    · exact observeOut_regular (VCall.run_fine (e.call s) _ (hs.vec x) (by intro k A h; cases h)
        (e.safeArgs hs hc)) fun v hv => hs.setV hv
    · exact observeOut_regular (VCall.run_fine (e.call s) _ (hs.vec x) (by intro k A h; cases h; exact hs.vec z)
        (e.safeArgs hs hc)) fun v hv => hs.setV hv
  | assignCol x mask u acc castZ outp keep ri j =>
    rcases mask with _ | ⟨k, z, truthy⟩
    · exact observeOut_regular (assignCol_fine _ (hs.mat x) (by intro k A h; cases h) (hs.vec u)
        fun e => hc (Indices.idx_all e)) fun v hv => hs.setM hv
    · exact observeOut_regular (assignCol_fine _ (hs.mat x) (by intro k A h; cases h; exact hs.vec z) (hs.vec u)
        fun e => hc (Indices.idx_all e)) fun v hv => hs.setM hv
  | assignRow x mask u acc castZ outp keep i ci =>
    rcases mask with _ | ⟨k, z, truthy⟩
    · exact observeOut_regular (assignRow_fine _ (hs.mat x) (by intro k A h; cases h) (hs.vec u)
        fun e => hc (Indices.idx_all e)) fun v hv => hs.setM hv
    · exact observeOut_regular (assignRow_fine _ (hs.mat x) (by intro k A h; cases h; exact hs.vec z) (hs.vec u)
        fun e => hc (Indices.idx_all e)) fun v hv => hs.setM hv
  | reduceV castZ acc f e val u c =>
    exact observeScalar_regular hs (run_fine trivial (reduceVec_returns (hs.vec u)).sound fun _ _ => trivial)
  | reduceM castZ acc f e val x c =>
    exact observeScalar_regular hs (run_fine trivial (reduceMat_returns (hs.mat x)).sound fun _ _ => trivial)

theorem Program.regular {s : Store tm tv} (hs : s.Safe) (p : Program tm tv ρ) (hp : p.bounded s) :
    ∃ r s', p.exec s = some (r, s') ∧ s'.Safe := by
  induction p generalizing s with
  | ret r => exact ⟨r, s, rfl, hs⟩
  | step c k ih =>
    obtain ⟨r, s', h, hs'⟩ := Stmt.regular hs c hp.1
    rw [Program.exec, h]
    exact ih r hs' (hp.2 r s' h)

end
end GBTL
