import Verif.Spec.ProgramLiteral
import Verif.Props.ProgramOver
/-
C67. Programs with any operators.
-/
namespace GBTL
open Spec (Outp MaskKind Accum MatCall VecCall Ans AMat AVec)

variable {tm tv : Nat → Type} {α β γ ζ τ ρ μ : Type}

/-! ### converting before accumulating -/

/-- The matrix with converted values. -/
def Lil.mapVals (f : α → β) (A : Lil α) : Lil β := ⟨A.nrows, A.ncols, A.nvals, A.rows.map (Row.cast f)⟩

theorem Lil.row_mapVals (f : α → β) (A : Lil α) (i : Nat) : (A.mapVals f).row i = (A.row i).map (Row.cast f) := by
  simp only [Lil.row, rd, Lil.mapVals, List.getElem?_map]
  cases A.rows[i]? <;> rfl

theorem Lil.pokeRow_mapVals (f : α → β) (A : Lil α) (i : Nat) (r : Row α) :
    (A.mapVals f).pokeRow i (r.cast f) = (A.pokeRow i r).map (Lil.mapVals f) := by
  simp only [Lil.pokeRow, wr, Lil.mapVals, List.length_map]
  split
  · show Except.ok _ = Except.ok _
    rw [Lil.mapVals, List.map_set]
  · rfl

theorem ewiseOr_cast {δ : Type} (op : α → β → δ) (c1 : α → δ) (c2 : β → δ) (f : τ → β) (r : Row α) (s : Row τ) :
    ewiseOr op c1 c2 r (s.cast f) = ewiseOr (fun x y => op x (f y)) c1 (fun y => c2 (f y)) r s := by
  fun_induction ewiseOr (fun x y => op x (f y)) c1 (fun y => c2 (f y)) r s with
  | case1 => rw [Row.cast, List.map_nil, ewiseOr]
  | case2 i x r ih => rw [← ih]; rw [Row.cast, List.map_nil, ewiseOr]
  | case3 j y s ih => rw [← ih]; rw [Row.cast, List.map_cons, ewiseOr]; rfl
  | case4 i x r y s ih => rw [← ih]; rw [Row.cast, List.map_cons, ewiseOr, if_pos rfl]; rfl
  | case5 i x r j y s h1 h2 ih => rw [← ih]; rw [Row.cast, List.map_cons, ewiseOr, if_neg h1, if_pos h2]
  | case6 i x r j y s h1 h2 ih => rw [← ih]; rw [Row.cast, List.map_cons, ewiseOr, if_neg h1, if_neg h2]; rfl

theorem Row.cast_cast (f : α → β) (g : β → γ) (r : Row α) : (r.cast f).cast g = r.cast fun x => g (f x) := by
  simp [Row.cast]

theorem accumMat_after (C : Lil γ) (acc : Accum γ τ ζ) (via : τ → τ) (T : Lil τ) :
    accumMat C acc (T.mapVals via) = accumMat C (acc.after via) T := by
  cases acc with
  | none cast =>
    show sparseCopy _ _ _ = sparseCopy _ _ _
    unfold sparseCopy
    congr 1
    funext i d
    rw [Lil.row_mapVals]
    cases T.row i with
    | error e => rfl
    | ok r =>
      show (if _ then _ else _) = (if _ then _ else _)
      rw [Row.cast_cast]
  | some op cC cT =>
    show forN _ _ _ = forN _ _ _
    congr 1
    funext i Z
    cases C.row i with
    | error e => rfl
    | ok c =>
      rw [Lil.row_mapVals]
      cases T.row i with
      | error e => rfl
      | ok r =>
        show Lil.setRow _ _ _ _ = Lil.setRow _ _ _ _
        rw [ewiseOr_cast]

theorem foldlM_comm {σ σ' ι : Type} (F : σ → σ') (f : σ → ι → Except Err σ) (g : σ' → ι → Except Err σ')
    (h : ∀ s i, g (F s) i = (f s i).map F) : ∀ (l : List ι) (s : σ), l.foldlM g (F s) = (l.foldlM f s).map F
  | [], _ => rfl
  | i :: l, s => by
    rw [List.foldlM_cons, List.foldlM_cons, h]
    cases f s i with
    | error e => rfl
    | ok s' => exact foldlM_comm F f g h l s'

theorem mxmATBT_after (C : Lil γ) (add : τ → τ → τ) (mult : β → α → τ) (via : τ → τ) (A : Lil α) (B : Lil β) :
    mxmATBT C add mult via A B = (mxmATBT C add mult id A B).map (Lil.mapVals via) := by
  unfold mxmATBT
  have h0 : (Lil.new C.nrows C.ncols : Lil τ) = Lil.mapVals via (Lil.new C.nrows C.ncols) := by
    simp [Lil.new, Lil.mapVals, Row.cast]
  conv => lhs; rw [h0]
  refine foldlM_comm (Lil.mapVals via) _ _ (fun T i => ?_) _ _
  dsimp only [bind, Except.bind]
  cases B.row i with
  | error e => rfl
  | ok b =>
    dsimp only
    cases List.foldlM (m := Except Err) _ ([] : Row τ) b with
    | error e => rfl
    | ok tRow =>
      refine foldlM_comm (Lil.mapVals via) _ _ (fun T p => ?_) _ _
      rw [Lil.row_mapVals]
      cases T.row p.1 with
      | error e => rfl
      | ok t =>
        show Lil.pokeRow _ _ _ = Except.map _ (Lil.pokeRow _ _ _)
        rw [← Lil.pokeRow_mapVals]
        simp [Row.cast]

theorem Accum.after_id (acc : Accum γ τ ζ) : acc.after id = acc := by cases acc <;> rfl

/-! ### calls -/

theorem MOp.pre_literal (s : Store tm tv) (e : MOp tm γ ζ τ) (C : Lil γ) (M : MMask μ) (truthy : μ → Bool) (acc : Accum γ τ ζ)
    (castZ : ζ → γ) (outp : Outp) :
    (e.call s).pre ⟨C, M, truthy, acc, castZ, outp⟩ = (e.literal.call s).pre ⟨C, M, truthy, acc.after e.after, castZ, outp⟩ := by
  cases e with
  | mxm A B sr via =>
    obtain ⟨a, ta⟩ := A
    obtain ⟨b, tb⟩ := B
    cases ta <;> cases tb
    · rw [show (MOp.mxm ⟨a, false⟩ ⟨b, false⟩ sr via : MOp tm γ ζ τ).after = id from rfl, Accum.after_id]; rfl
    · rw [show (MOp.mxm ⟨a, false⟩ ⟨b, true⟩ sr via : MOp tm γ ζ τ).after = id from rfl, Accum.after_id]; rfl
    · rw [show (MOp.mxm ⟨a, true⟩ ⟨b, false⟩ sr via : MOp tm γ ζ τ).after = id from rfl, Accum.after_id]; rfl
    · show (do
        MMask.rowCheck _ _
        MMask.colCheck _ _
        eqCheck _ _
        eqCheck _ _
        eqCheck _ _
        let T ← mxmATBT C sr.add sr.multSwap via (s.mat a) (s.mat b)
        accumMat C acc T) = (do
        MMask.rowCheck _ _
        MMask.colCheck _ _
        eqCheck _ _
        eqCheck _ _
        eqCheck _ _
        let T ← mxmATBT C sr.add sr.multSwap id (s.mat a) (s.mat b)
        accumMat C (acc.after via) T)
      rw [mxmATBT_after C _ _ via]
      have : (Except.map (Lil.mapVals via) (mxmATBT C sr.add sr.multSwap id (s.mat a) (s.mat b)) >>= fun T => accumMat C acc T) =
          (mxmATBT C sr.add sr.multSwap id (s.mat a) (s.mat b) >>= fun T => accumMat C (acc.after via) T) := by
        cases mxmATBT C sr.add sr.multSwap id (s.mat a) (s.mat b) with
        | error e => rfl
        | ok T => exact accumMat_after C acc via T
      rw [this]
  | eWiseAdd A B f =>
    obtain ⟨a, ta⟩ := A
    obtain ⟨b, tb⟩ := B
    rw [show (MOp.eWiseAdd ⟨a, ta⟩ ⟨b, tb⟩ f : MOp tm γ ζ τ).after = id from rfl, Accum.after_id]
    cases ta <;> cases tb <;> rfl
  | eWiseMult A B f =>
    obtain ⟨a, ta⟩ := A
    obtain ⟨b, tb⟩ := B
    rw [show (MOp.eWiseMult ⟨a, ta⟩ ⟨b, tb⟩ f : MOp tm γ ζ τ).after = id from rfl, Accum.after_id]
    cases ta <;> cases tb <;> rfl
  | apply A f => show _ = MCall.pre _ ⟨C, M, truthy, acc.after id, castZ, outp⟩; rw [Accum.after_id]; rfl
  | extract A ri ci => show _ = MCall.pre _ ⟨C, M, truthy, acc.after id, castZ, outp⟩; rw [Accum.after_id]; rfl
  | transpose A => show _ = MCall.pre _ ⟨C, M, truthy, acc.after id, castZ, outp⟩; rw [Accum.after_id]; rfl
  | kronecker A B f => show _ = MCall.pre _ ⟨C, M, truthy, acc.after id, castZ, outp⟩; rw [Accum.after_id]; rfl
  | assign keep A ri ci => show _ = MCall.pre _ ⟨C, M, truthy, acc.after id, castZ, outp⟩; rw [Accum.after_id]; rfl
  | assignConst keep v ri ci => show _ = MCall.pre _ ⟨C, M, truthy, acc.after id, castZ, outp⟩; rw [Accum.after_id]; rfl

theorem VOp.run_literal (s : Store tm tv) (e : VOp tm tv γ ζ τ) (o : VOut γ τ ζ μ) : (e.call s).run o = (e.literal.call s).run o := by
  cases e <;> try rfl
  next A u sr =>
    obtain ⟨a, ta⟩ := A
    cases ta <;> rfl

section
variable [∀ x, Inhabited (tm x)] [∀ x, Inhabited (tv x)]

theorem Stmt.exec_literal (s : Store tm tv) (c : Stmt tm tv α) : c.exec s = c.literal.exec s := by
  cases c <;> try rfl
  · next x mask acc castZ outp e =>
    rcases mask with _ | ⟨k, z, truthy⟩
    all_goals
      show observeOut _ (run _ _ _) = observeOut _ (run _ _ _)
      rw [MOp.pre_literal]
  · next x mask acc castZ outp e =>
    rcases mask with _ | ⟨k, z, truthy⟩
    all_goals
      show observeOut _ _ = observeOut _ _
      rw [VOp.run_literal]

/-- **C67** A program runs as the one with the operators that the code calls. For every program
and all contents of the variables. -/
theorem C67_literal : ∀ (p : Program tm tv ρ) (s : Store tm tv), p.exec s = p.literal.exec s
  | .ret _, _ => rfl
  | .step c k, s => by
    rw [Program.literal, Program.exec, Program.exec, ← Stmt.exec_literal]
    cases c.exec s with
    | none => rfl
    | some q => exact C67_literal (k q.1) q.2

end

theorem MOp.handled_literal {a : AStore tm tv} {m n : Nat} {e : MOp tm γ ζ τ} (h : e.handledLiteral a m n) :
    e.literal.handled a m n := by
  cases e with
  | mxm A B sr via =>
    obtain ⟨a, ta⟩ := A
    obtain ⟨b, tb⟩ := B
    cases ta <;> cases tb
    · exact fun h => by cases h
    · exact fun h => by cases h
    · exact fun _ h => by cases h
    · exact fun _ _ => ⟨fun _ _ => rfl, fun _ => rfl⟩
  | eWiseAdd A B f =>
    obtain ⟨a, ta⟩ := A
    obtain ⟨b, tb⟩ := B
    cases ta <;> cases tb
    · exact fun _ h => by cases h
    · exact fun _ _ => ⟨fun _ _ => rfl, fun _ => rfl⟩
    · exact fun h => absurd rfl h
    · exact fun h => absurd rfl h
  | eWiseMult A B f =>
    obtain ⟨a, ta⟩ := A
    obtain ⟨b, tb⟩ := B
    cases ta <;> cases tb
    · exact fun _ h => by cases h
    · exact fun _ _ _ _ => rfl
    · exact fun h => absurd rfl h
    · exact fun h => absurd rfl h
  | apply => exact h
  | extract => exact h
  | transpose => exact h
  | kronecker => exact h
  | assign => exact h
  | assignConst => exact h

theorem VOp.handled_literal {a : AStore tm tv} {n : Nat} {e : VOp tm tv γ ζ τ} (h : e.handledLiteral a n) :
    e.literal.handled a n := by
  cases e <;> try exact h
  next A u sr =>
    obtain ⟨a, ta⟩ := A
    cases ta
    · exact fun h => by cases h
    · exact fun _ _ _ => rfl

theorem Stmt.handled_literal {a : AStore tm tv} {c : Stmt tm tv α} (h : c.handledLiteral a) : c.literal.handledOver a := by
  cases c <;> try exact h
  · exact MOp.handled_literal h
  · exact VOp.handled_literal h

theorem Program.handled_literal : ∀ (p : Program tm tv ρ) (a : AStore tm tv) (d : Nat → Nat), p.handledLiteral a d →
    p.literal.handledOver a d
  | .ret _, _, _, _ => trivial
  | .step _ _, _, _, h => ⟨Stmt.handled_literal h.1, Program.handled_literal _ _ _ h.2⟩

/-- **C67** A program whose calls are handled, with any operators and any lists for `build`, returns
what the meaning of the program with the operators that the code calls says, and the variables hold
and report what that says. Missing: constants assigned to unsorted indices (C20), Kronecker products
whose shape overflows (C22), AllIndices with different lengths (C26), the empty dense matrix (C42). -/
theorem C67_program_literal_partial [∀ x, Inhabited (tm x)] [∀ x, Inhabited (tv x)] (p : Program tm tv ρ) (s : Store tm tv)
    (d : Nat → Nat) (hs : s.Reports d) (hp : p.handledLiteral s.abs d) :
    ∃ s', p.exec s = some ((p.literal.specOver s.abs d).1, s') ∧ s'.Reports (p.literal.specOver s.abs d).2.2 ∧
      s'.abs = (p.literal.specOver s.abs d).2.1 := by
  rw [C67_literal]
  exact C67_program_repeats_partial _ s d hs (Program.handled_literal p _ d hp)

/-- `A = {{1, 2}, {0, 3}}`; `mxm(B, plus-first, transpose(A), transpose(A))`, of which the code makes
plus-second; the tuples of `B`. `sr.multSwap` is what C++ makes of exchanged arguments. -/
def swappedProgram : Program (fun _ => Nat) (fun _ => Nat) (List (Nat × Nat × Nat)) :=
  .step (.buildM 0 (· + ·) [(0, 0, 1), (0, 1, 2), (1, 1, 3)]) fun _ =>
  .step (.opM (τ := Nat) (ζ := Nat) 1 none (.none id) id .merge (.mxm ⟨0, true⟩ ⟨0, true⟩ ⟨(· + ·), fun x _ => x, fun x _ => x⟩ id)) fun _ =>
  .step (.tuplesM 1) fun
  | .ok l => .ret l
  | .error _ => .ret []

theorem swappedProgram_handled (a : AStore (fun _ => Nat) (fun _ => Nat)) (d : Nat → Nat) : swappedProgram.handledLiteral a d := by
  refine ⟨trivial, trivial, trivial, ?_⟩
  dsimp only
  split <;> trivial

/-- The program is not handled in the former sense: the multiplication is not commutative. What it
returns is the product with the other argument. -/
example : ¬ (∀ x y : Nat, (fun x _ => x : Nat → Nat → Nat) y x = (fun x _ => x : Nat → Nat → Nat) x y) ∧
    (swappedProgram.exec natStore).map Prod.fst = some [(0, 0, 1), (1, 0, 3), (1, 1, 3)] ∧
    (swappedProgram.literal.specOver natStore.abs fun _ => 0).1 = [(0, 0, 1), (1, 0, 3), (1, 1, 3)] := by
  have h : (swappedProgram.exec natStore).map Prod.fst = some [(0, 0, 1), (1, 0, 3), (1, 1, 3)] := by decide +kernel
  refine ⟨fun h => absurd (h 0 1) (by decide), h, ?_⟩
  obtain ⟨s', e, -⟩ := C67_program_literal_partial swappedProgram natStore _ natStore_wf.reports (swappedProgram_handled _ _)
  rw [e] at h
  exact Option.some.inj h

end GBTL
