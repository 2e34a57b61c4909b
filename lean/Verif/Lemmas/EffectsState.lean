import Verif.Lemmas.EffectsSum
import Verif.Lemmas.EffectsFrontend
import Verif.Lemmas.OptRows
/-
`build`, and the kernels that store into the output before the last call.
-/
namespace GBTL
open Spec (Outp MaskKind Accum Op EAccum Returns ReturnsOrThrows)
open Act (call lib output store)

variable {ω χ X α β γ δ κ τ ζ μ σ : Type}

/-! ### build -/

theorem vecBuildLoopE_agrees {c : χ} {dup : α → α → Op ω X α} {f : α → α → α}
    (h : ∀ x y, Returns (dup x y) (f x y)) (size : Nat) :
    ∀ (ts : List (Nat × α)) (vals : List α) (bitmap : List Bool),
    Act.Agrees c (vecBuildLoopE size dup ts vals bitmap) (BVec.buildLoop size f ts vals bitmap)
  | [], _, _ => .ret _
  | (i, x) :: ts, vals, bitmap => by
    unfold vecBuildLoopE BVec.buildLoop
    refine .ite (fun _ => .lib _) fun _ => .bind (.lib _) fun b _ => .ite (fun _ => ?_) fun _ => ?_
    · exact .bind (.lib _) fun old _ => .okBind (.call (h old x)) (.bind (.lib _) fun v _ =>
        vecBuildLoopE_agrees h size ts v bitmap)
    · exact .bind (.lib _) fun v _ => .bind (.lib _) fun b _ => vecBuildLoopE_agrees h size ts v b

theorem vecBuildE_as [Inhabited α] {dup : α → α → Op ω X α} {f : α → α → α}
    (h : ∀ x y, Returns (dup x y) (f x y)) (v : BVec α) (ts : List (Nat × α)) (w : ω) :
    ∃ w', vecBuildE dup ts (w, v) = (toHalt (v.build f ts).1, (w', (v.build f ts).2)) := by
  obtain ⟨w1, h1⟩ := (vecBuildLoopE_agrees (c := v) h v.size ts (List.replicate v.size default)
    (List.replicate v.size false)).out w
  refine ⟨w1, ?_⟩
  unfold vecBuildE BVec.build
  rw [Act.bind_output]
  cases hm : BVec.buildLoop v.size f ts (List.replicate v.size default) (List.replicate v.size false) with
  | error e =>
    rw [hm] at h1
    exact Act.bind_error h1
  | ok r =>
    rw [hm] at h1
    exact Act.bind_ok h1

theorem insertMergeE_agrees {c : χ} {dup : α → α → Op ω X α} {f : α → α → α}
    (h : ∀ x y, Returns (dup x y) (f x y)) : ∀ (r : Row α) (j : Nat) (x : α),
    Act.Agrees c (insertMergeE dup r j x) (.ok (Row.insertMerge f r j x))
  | [], _, _ => .ret _
  | (idx, y) :: r, j, x => by
    unfold insertMergeE Row.insertMerge
    split
    · exact .okBind (.call (h y x)) (.ret _)
    · split
      · exact .ret _
      · exact .okBind (insertMergeE_agrees h r j x) (.ret _)

theorem setElementMergeE_as {dup : α → α → Op ω X α} {f : α → α → α}
    (h : ∀ x y, Returns (dup x y) (f x y)) (A : Lil α) (i j : Nat) (x : α) (w : ω) :
    ∃ w', setElementMergeE i j x dup (w, A) =
      (toHalt (A.setElementMerge i j x f).1, (w', (A.setElementMerge i j x f).2)) := by
  unfold setElementMergeE Lil.setElementMerge
  rw [Act.bind_output]
  split
  · exact ⟨w, rfl⟩
  · cases hr : A.row i with
    | error e => exact ⟨w, rfl⟩
    | ok r =>
      obtain ⟨w1, h1⟩ := (insertMergeE_agrees (c := A) h r j x).out w
      refine ⟨w1, ?_⟩
      rw [Act.bind_ok (Act.lib_ok rfl), Act.bind_ok h1]
      rfl

theorem matBuildE_as {dup : α → α → Op ω X α} {f : α → α → α} (h : ∀ x y, Returns (dup x y) (f x y)) :
    ∀ (ts : List (Nat × Nat × α)) (A : Lil α) (w : ω),
    ∃ w', matBuildE dup ts (w, A) = (toHalt (A.build f ts).1, (w', (A.build f ts).2))
  | [], A, w => ⟨w, rfl⟩
  | (i, j, x) :: ts, A, w => by
    obtain ⟨w1, h1⟩ := setElementMergeE_as h A i j x w
    unfold matBuildE Lil.build
    cases hm : A.setElementMerge i j x f with
    | mk r A' =>
      rw [hm] at h1
      cases r with
      | error e => exact ⟨w1, Act.bind_error h1⟩
      | ok u =>
        rw [Act.bind_ok h1]
        exact matBuildE_as h ts A' w1

theorem setElementMergeE_strong (i j : Nat) (x : α) (dup : α → α → Op ω X α) {w w' : ω} {A A' : Lil α}
    {e : Halt X} (h : setElementMergeE i j x dup (w, A) = (.error e, (w', A'))) : A' = A := by
  have hk : ∀ (r : Row α) (j : Nat) (x : α), Act.Keeps (insertMergeE dup r j x : Act ω (Lil α) X _) := by
    intro r
    induction r with
    | nil => intro j x; exact .pure _
    | cons p r ih =>
      intro j x
      obtain ⟨idx, y⟩ := p
      unfold insertMergeE
      split
      · exact .bind (.call _) fun _ => .pure _
      · split
        · exact .pure _
        · exact .bind (ih j x) fun _ => .pure _
  have hs : Act.Strong (setElementMergeE i j x dup : Act ω (Lil α) X _) := by
    unfold setElementMergeE
    refine .bind .output fun A => ?_
    split
    · exact (Act.Keeps.lib _).strong
    · exact .bind (.lib _) fun r => .bind (hk r j x) fun p => .store _
  exact hs.out _ _ _ h

/-- What a `build` that threw has stored: the tuples before the one it threw at. -/
theorem matBuildE_threw {dup : α → α → Op ω X α} {e : Halt X} :
    ∀ {ts : List (Nat × Nat × α)} {A A' : Lil α} {w w' : ω},
    matBuildE dup ts (w, A) = (.error e, (w', A')) →
    ∃ before t after w1, ts = before ++ t :: after ∧
      matBuildE dup before (w, A) = (.ok (), (w1, A')) ∧
      setElementMergeE t.1 t.2.1 t.2.2 dup (w1, A') = (.error e, (w', A'))
  | [], A, A', w, w', h => by cases h
  | (i, j, x) :: ts, A, A', w, w', h => by
    unfold matBuildE at h
    cases hm : setElementMergeE i j x dup (w, A) with
    | mk r s =>
      obtain ⟨w1, A1⟩ := s
      cases r with
      | error e1 =>
        rw [Act.bind_error hm] at h
        cases h
        cases setElementMergeE_strong i j x dup hm
        exact ⟨[], (i, j, x), ts, w, rfl, rfl, hm⟩
      | ok u =>
        rw [Act.bind_ok hm] at h
        obtain ⟨before, t, after, w2, rfl, h2, h3⟩ := matBuildE_threw h
        refine ⟨(i, j, x) :: before, t, after, w2, rfl, ?_, h3⟩
        unfold matBuildE
        rw [Act.bind_ok hm]
        exact h2

theorem insertMergeE_threw {dup : α → α → Op ω X α} {x : X} {j : Nat} {v : α} :
    ∀ {r : Row α} {s s' : ω × χ}, insertMergeE dup r j v s = (.error (.op x), s') →
    ∃ y, Row.get r j = some y ∧ dup y v s.1 = (.error x, s'.1)
  | [], s, s', h => by cases h
  | (idx, y) :: r, s, s', h => by
    obtain ⟨w, c⟩ := s
    unfold insertMergeE at h
    split at h
    · next hi =>
      refine ⟨y, by simp [Row.get, hi], ?_⟩
      cases hd : dup y v w with
      | mk q w1 =>
        cases q with
        | error z => rw [Act.bind_error (Act.call_error hd)] at h; cases h; rfl
        | ok z => rw [Act.bind_ok (Act.call_ok hd)] at h; cases h
    · next hi =>
      split at h
      · cases h
      · cases hq : insertMergeE dup r j v (w, c) with
        | mk q s1 =>
          cases q with
          | error z =>
            rw [Act.bind_error hq] at h
            cases h
            obtain ⟨y', g1, g2⟩ := insertMergeE_threw hq
            exact ⟨y', by simp [Row.get, hi, g1], g2⟩
          | ok z => rw [Act.bind_ok hq] at h; cases h

theorem setElementMergeE_threw {dup : α → α → Op ω X α} {x : X} {i j : Nat} {v : α} {w w' : ω}
    {A A' : Lil α} (h : setElementMergeE i j v dup (w, A) = (.error (.op x), (w', A'))) :
    ∃ y, A.get i j = some y ∧ dup y v w = (.error x, w') := by
  unfold setElementMergeE at h
  rw [Act.bind_output] at h
  split at h
  · cases h
  · cases hr : A.row i with
    | error e => rw [hr] at h; cases h
    | ok r =>
      rw [Act.bind_ok (Act.lib_ok hr)] at h
      have hg : A.rowD i = r := by
        unfold Lil.row rd at hr
        unfold Lil.rowD
        cases he : A.rows[i]? with
        | none => rw [he] at hr; cases hr
        | some z => rw [he] at hr; cases hr; rfl
      cases hq : insertMergeE dup r j v (w, A) with
      | mk q s1 =>
        cases q with
        | error z =>
          rw [Act.bind_error hq] at h
          cases h
          obtain ⟨y, g1, g2⟩ := insertMergeE_threw hq
          exact ⟨y, by unfold Lil.get; rw [hg]; exact g1, g2⟩
        | ok z => rw [Act.bind_ok hq] at h; cases h

/-! ### The optimized product -/

/-- The code returns `v`, or an operator throws; the output is left alone. -/
structure Act.Partly (c : χ) (x : Act ω χ X τ) (v : τ) : Prop where
  out : ∀ w, ∃ w', x (w, c) = (.ok v, (w', c)) ∨ ∃ e, x (w, c) = (.error (.op e), (w', c))

namespace Act.Partly

variable {c : χ}

theorem ret (a : τ) : Act.Partly c (pure a : Act ω χ X τ) a := ⟨fun w => ⟨w, .inl rfl⟩⟩

theorem bind {x : Act ω χ X σ} {f : σ → Act ω χ X τ} {a : σ} {b : τ} (hx : Act.Partly c x a)
    (hf : Act.Partly c (f a) b) : Act.Partly c (x >>= f) b := by
  refine ⟨fun w => ?_⟩
  obtain ⟨w1, h | ⟨e, h⟩⟩ := hx.out w
  · rw [Act.bind_ok h]
    exact hf.out w1
  · exact ⟨w1, .inr ⟨e, Act.bind_error h⟩⟩

theorem call {f : Op ω X τ} {v : τ} (h : ReturnsOrThrows f v) :
    Act.Partly c (Act.call f : Act ω χ X τ) v := by
  refine ⟨fun w => ?_⟩
  rcases h w with ⟨w', h⟩ | ⟨x, w', h⟩
  · exact ⟨w', .inl (Act.call_ok h)⟩
  · exact ⟨w', .inr ⟨x, Act.call_error h⟩⟩

theorem lib {m : Except Err τ} {v : τ} (h : m = .ok v) : Act.Partly c (Act.lib m : Act ω χ X τ) v :=
  ⟨fun w => ⟨w, .inl (Act.lib_ok h)⟩⟩

end Act.Partly

theorem axpyE_partly {c : χ} {add : τ → τ → Op ω X τ} {mult : α → β → Op ω X τ} {fa : τ → τ → τ}
    {fm : α → β → τ} (ha : ∀ x y, ReturnsOrThrows (add x y) (fa x y))
    (hm : ∀ x y, ReturnsOrThrows (mult x y) (fm x y)) (a : α) : ∀ (b : Row β) (t : Row τ),
    Act.Partly c (axpyE add mult a t b) (axpy fa fm a t b)
  | [], t => by unfold axpyE axpy; exact .ret _
  | (j, y) :: bs, t => by
    unfold axpyE axpy
    refine .bind (.call (hm a y)) ?_
    dsimp only
    cases headIs j (dropBelow j t) with
    | none => exact .bind (axpyE_partly ha hm a bs _) (.ret _)
    | some x => exact .bind (.call (ha x _)) (.bind (axpyE_partly ha hm a bs _) (.ret _))

theorem abRowE_partly {c : χ} {add : τ → τ → Op ω X τ} {mult : α → β → Op ω X τ} {fa : τ → τ → τ}
    {fm : α → β → τ} (ha : ∀ x y, ReturnsOrThrows (add x y) (fa x y))
    (hm : ∀ x y, ReturnsOrThrows (mult x y) (fm x y)) {B : Lil β} (hB : B.WFr) {a : Row α}
    (hr : Row.OK B.nrows a) : Act.Partly c (abRowE add mult B a) (rowProd fa fm a B.rowD []) := by
  have hb := hr.bound
  unfold abRowE rowProd
  generalize ([] : Row τ) = t
  clear hr
  induction a generalizing t with
  | nil => exact .ret _
  | cons p a ih =>
    rw [List.foldlM_cons, List.foldl_cons]
    refine .bind (a := axpy fa fm p.2 t (B.rowD p.1)) ?_ (ih (fun q hq => hb q (List.mem_cons_of_mem _ hq)) _)
    refine .bind (.lib (hB.row_ok (hb p (List.mem_cons_self ..)))) ?_
    split
    · next h =>
      rw [List.isEmpty_iff.1 h, axpy]
      exact .ret _
    · exact axpyE_partly ha hm ..

/-- The rows before `k` are those of `T`, converted, the others those of `C`. -/
structure RowsTo (k : Nat) (T : Nat → Row τ) (cast : τ → γ) (C C' : Lil γ) : Prop where
  wf : C'.WF
  nrows : C'.nrows = C.nrows
  ncols : C'.ncols = C.ncols
  row : ∀ i, C'.rowD i = if i < k then Row.cast cast (T i) else C.rowD i

theorem optABKernelE_rows {add : τ → τ → Op ω X τ} {mult : α → β → Op ω X τ} {fa : τ → τ → τ}
    {fm : α → β → τ} (ha : ∀ x y, ReturnsOrThrows (add x y) (fa x y))
    (hm : ∀ x y, ReturnsOrThrows (mult x y) (fm x y)) (cast : τ → γ) {A : Lil α} {B : Lil β} {C : Lil γ}
    (hA : A.WF) (hB : B.WF) (hC : C.WF) (h1 : C.nrows = A.nrows) (h2 : C.ncols = B.ncols)
    (h3 : A.ncols = B.nrows) (w : ω) :
    ∀ n, n ≤ A.nrows → ∃ w' C', (forA n () (fun i _ => do
      let a ← lib (A.row i)
      let t ← abRowE add mult B a
      let C ← output
      let C' ← lib (C.setRow i cast t)
      store C') (w, C) = (.ok (), (w', C')) ∧
        RowsTo n (fun i => rowProd fa fm (A.rowD i) B.rowD []) cast C C') ∨
      ∃ k e, k < n ∧ forA n () (fun i _ => do
      let a ← lib (A.row i)
      let t ← abRowE add mult B a
      let C ← output
      let C' ← lib (C.setRow i cast t)
      store C') (w, C) = (.error (.op e), (w', C')) ∧
        RowsTo k (fun i => rowProd fa fm (A.rowD i) B.rowD []) cast C C' := by
  intro n
  induction n with
  | zero => exact fun _ => ⟨w, C, .inl ⟨rfl, hC, rfl, rfl, fun i => by simp⟩⟩
  | succ n ih =>
    intro hn
    rw [forA_succ]
    obtain ⟨w1, C1, ⟨e1, q⟩ | ⟨k, e, hk, e1, q⟩⟩ := ih (by omega)
    · rw [Act.bind_ok e1, Act.bind_ok (Act.lib_ok (hA.row_ok (by omega)))]
      obtain ⟨w2, h | ⟨e, h⟩⟩ := (abRowE_partly (c := C1) ha hm hB.toWFr (a := A.rowD n)
        (by rw [← h3]; exact hA.rowD_ok n)).out w1
      · have hok : Row.OK C1.ncols (rowProd fa fm (A.rowD n) B.rowD []) := by
          rw [q.ncols, h2]
          exact (rowProd_spec fa fm _ hB.rowD_ok Row.OK.nil).1
        obtain ⟨C2, g1, g2, g3, g4, g5, g6⟩ := Lil.setRow_spec (c := cast) q.wf.toWFr
          (show n < C1.nrows by rw [q.nrows]; omega) hok
        refine ⟨w2, C2, .inl ⟨?_, g5 q.wf, by rw [g3, q.nrows], by rw [g4, q.ncols], fun i => ?_⟩⟩
        · rw [Act.bind_ok h, Act.bind_output, Act.bind_ok (Act.lib_ok g1)]
          rfl
        · rw [g6, q.row]
          by_cases hi : i = n
          · subst hi; simp
          · by_cases hl : i < n
            · rw [if_neg hi, if_pos hl, if_pos (by omega)]
            · rw [if_neg hi, if_neg hl, if_neg (by omega)]
      · exact ⟨w2, C1, .inr ⟨n, e, Nat.lt_succ_self _, Act.bind_error h, q⟩⟩
    · exact ⟨w1, C1, .inr ⟨k, e, by omega, Act.bind_error e1, q⟩⟩

end GBTL
