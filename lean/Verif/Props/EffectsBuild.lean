import Verif.Props.EffectsAccum
/-
C96: the calls `build` makes of `dup`.
-/
namespace GBTL
open Spec (Op Vec reduceTo updateAll)
open Act (call lib output store)

variable {ω χ X α : Type}

/-! ### Vector::build -/

theorem bits_set {vals : List α} {bitmap : List Bool} {n i : Nat} {x : α} (hv : vals.length = n)
    (hb : bitmap.length = n) (hi : i < n) (s : Nat) (c c' : Nat) (k : Nat) :
    BVec.get ⟨s, c, vals.set i x, bitmap.set i true⟩ k =
      if k = i then some x else BVec.get ⟨s, c', vals, bitmap⟩ k := by
  unfold BVec.get
  dsimp only
  by_cases h : k = i
  · subst h
    rw [if_pos rfl, List.getElem?_set_self (by omega), if_pos rfl, List.getElem?_set_self (by omega)]
  · rw [if_neg h, List.getElem?_set_ne (Ne.symm h), List.getElem?_set_ne (Ne.symm h)]

theorem vecBuildLoopE_calls (dup : α → α → Op ω X α) {n : Nat} (c : χ) :
    ∀ (ts : List (Nat × α)) (_ : ∀ t ∈ ts, t.1 < n) (vals : List α) (bitmap : List Bool)
      (_ : vals.length = n) (_ : bitmap.length = n) (w : ω),
    match updateAll (ts.map fun t => (t.1, reduceTo dup id t.2)) (BVec.get ⟨n, 0, vals, bitmap⟩) w with
    | (.error e, w') => vecBuildLoopE n dup ts vals bitmap (w, c) = (.error (.op e), (w', c))
    | (.ok f, w') => ∃ vals' bitmap', vecBuildLoopE n dup ts vals bitmap (w, c) =
        (.ok (vals', bitmap'), (w', c)) ∧ vals'.length = n ∧ bitmap'.length = n ∧
        ∀ i, BVec.get ⟨n, 0, vals', bitmap'⟩ i = f i
  | [], _, vals, bitmap, hv, hb, w => ⟨vals, bitmap, rfl, hv, hb, fun _ => rfl⟩
  | (i, x) :: ts, ht, vals, bitmap, hv, hb, w => by
    have hi : i < n := ht (i, x) (by simp)
    have hts : ∀ t ∈ ts, t.1 < n := fun t h => ht t (by simp [h])
    have hiv : i < vals.length := by omega
    have hib : i < bitmap.length := by omega
    unfold vecBuildLoopE
    rw [if_neg (by omega), Act.bind_ok (Act.lib_ok (rd_ok hib))]
    rw [List.map_cons]
    unfold updateAll
    unfold Op.andThen
    cases hbi : bitmap[i] with
    | true =>
      rw [if_pos rfl, Act.bind_ok (Act.lib_ok (rd_ok hiv))]
      have g : BVec.get ⟨n, 0, vals, bitmap⟩ i = some vals[i] := by
        unfold BVec.get
        dsimp only
        rw [List.getElem?_eq_getElem hib, hbi, if_pos rfl, List.getElem?_eq_getElem hiv]
      dsimp only
      rw [g]
      have e : reduceTo dup id x (some vals[i]) = dup vals[i] x := rfl
      rw [e, call_bind]
      dsimp only
      cases dup vals[i] x w with
      | mk r w1 =>
        cases r with
        | error e => rfl
        | ok y =>
          dsimp only
          rw [Act.bind_ok (Act.lib_ok (wr_ok hiv))]
          have ih := vecBuildLoopE_calls dup c ts hts (vals.set i y) bitmap (by simp [hv]) hb w1
          have e : (fun k => if k = i then some y else BVec.get ⟨n, 0, vals, bitmap⟩ k) =
              BVec.get ⟨n, 0, vals.set i y, bitmap⟩ := by
            funext k
            rw [← bits_set hv hb hi n 0 0 k]
            congr 2
            rw [← hbi]
            exact (List.set_getElem_self hib)
          rw [e]
          exact ih
    | false =>
      rw [if_neg (by simp), Act.bind_ok (Act.lib_ok (wr_ok hiv)), Act.bind_ok (Act.lib_ok (wr_ok hib))]
      have g : BVec.get ⟨n, 0, vals, bitmap⟩ i = none := by
        unfold BVec.get
        dsimp only
        rw [List.getElem?_eq_getElem hib, hbi, if_neg (by simp)]
      dsimp only
      rw [g]
      have e : reduceTo dup id x none = Op.ret x := rfl
      rw [e]
      unfold Op.ret
      dsimp only
      have ih := vecBuildLoopE_calls dup c ts hts (vals.set i x) (bitmap.set i true) (by simp [hv])
        (by simp [hb]) w
      have e : (fun k => if k = i then some x else BVec.get ⟨n, 0, vals, bitmap⟩ k) =
          BVec.get ⟨n, 0, vals.set i x, bitmap.set i true⟩ := by
        funext k
        rw [← bits_set hv hb hi n 0 0 k]
      rw [e]
      exact ih

/-- `Vector::build` forgets the old elements and takes the tuples in their order: the first of
an index is stored without a call, the others call `dup` with the stored value and theirs. If
`dup` throws, that call is the last one and the vector is as before. -/
theorem C96_vecBuild_calls [Inhabited α] (dup : α → α → Op ω X α) {ts : List (Nat × α)} {v : BVec α}
    (ht : ∀ t ∈ ts, t.1 < v.size) (w : ω) :
    match updateAll (ts.map fun t => (t.1, reduceTo dup id t.2)) (fun _ => none) w with
    | (.error e, w') => vecBuildE dup ts (w, v) = (.error (.op e), (w', v))
    | (.ok f, w') => ∃ v', vecBuildE dup ts (w, v) = (.ok (), (w', v')) ∧ v'.size = v.size ∧
        ∀ i, v'.get i = f i := by
  have h := vecBuildLoopE_calls dup v ts ht (List.replicate v.size default)
    (List.replicate v.size false) (by simp) (by simp) w
  have e : BVec.get ⟨v.size, 0, List.replicate v.size (default : α), List.replicate v.size false⟩ =
      fun _ => none := by
    funext i
    unfold BVec.get
    dsimp only
    rw [if_neg]
    rw [List.getElem?_replicate]
    split <;> simp
  rw [e] at h
  unfold vecBuildE
  rw [Act.bind_output]
  revert h
  cases updateAll (ts.map fun t => (t.1, reduceTo dup id t.2)) (fun _ => none) w with
  | mk r w1 =>
    cases r with
    | error x =>
      intro h
      dsimp only at h ⊢
      rw [Act.bind_error h]
    | ok f =>
      intro h
      dsimp only at h ⊢
      obtain ⟨vals', bitmap', e1, -, -, e2⟩ := h
      rw [Act.bind_ok e1]
      exact ⟨_, rfl, rfl, e2⟩

/-! ### Matrix::build -/

theorem insertMergeE_calls (dup : α → α → Op ω X α) (j : Nat) (x : α) (c : χ) :
    ∀ (r : Row α) (_ : Row.Sorted r) (w : ω),
    insertMergeE dup r j x (w, c) = match reduceTo dup id x (Row.get r j) w with
      | (.error e, w') => (.error (.op e), (w', c))
      | (.ok v, w') => (.ok (Row.insertMerge (fun _ _ => v) r j x), (w', c))
  | [], _, w => rfl
  | (k, y) :: r, hr, w => by
    rw [Row.sorted_cons] at hr
    unfold insertMergeE
    by_cases h : k = j
    · subst h
      rw [if_pos rfl, Row.get_cons, if_pos rfl, call_bind]
      have e : reduceTo dup id x (some y) = dup y x := rfl
      rw [e]
      dsimp only
      cases dup y x w with
      | mk r1 w1 =>
        cases r1 with
        | error e => rfl
        | ok v =>
          dsimp only
          rw [Row.insertMerge, if_pos rfl]
          rfl
    · rw [if_neg h, Row.get_cons, if_neg h]
      by_cases h2 : k > j
      · have hn : Row.get r j = none := Row.get_none_of_lt fun p hp => by
          have := hr.1 p hp; simp only at this; omega
        have e : Row.insertMerge (fun _ _ => x) ((k, y) :: r) j x = ((j, x) :: (k, y) :: r, true) := by
          rw [Row.insertMerge, if_neg h, if_pos h2]
        rw [if_pos h2, hn]
        show _ = (Except.ok (Row.insertMerge (fun _ _ => x) ((k, y) :: r) j x), (w, c))
        rw [e]
        rfl
      · rw [if_neg h2]
        have ih := insertMergeE_calls dup j x c r hr.2 w
        revert ih
        cases reduceTo dup id x (Row.get r j) w with
        | mk r1 w1 =>
          cases r1 with
          | error e =>
            intro ih
            dsimp only at ih ⊢
            rw [Act.bind_error ih]
          | ok v =>
            intro ih
            dsimp only at ih ⊢
            rw [Act.bind_ok ih, Row.insertMerge, if_neg h, if_neg h2]
            rfl

theorem setElementMergeE_calls (dup : α → α → Op ω X α) {A : Lil α} (hA : A.WF) {i j : Nat}
    (hi : i < A.nrows) (hj : j < A.ncols) (x : α) (w : ω) :
    match reduceTo dup id x (A.get i j) w with
    | (.error e, w') => setElementMergeE i j x dup (w, A) = (.error (.op e), (w', A))
    | (.ok v, w') => ∃ B, setElementMergeE i j x dup (w, A) = (.ok (), (w', B)) ∧ B.WF ∧
        B.nrows = A.nrows ∧ B.ncols = A.ncols ∧
        ∀ k l, B.get k l = if k = i ∧ l = j then some v else A.get k l := by
  have hi' : i < A.rows.length := by rw [hA.len]; exact hi
  have h := insertMergeE_calls dup j x A (A.rowD i) (hA.toWFr.rowD_ok i).sorted w
  have hg : A.get i j = Row.get (A.rowD i) j := rfl
  rw [hg]
  unfold setElementMergeE
  rw [Act.bind_output, if_neg (by omega), Act.bind_ok (Act.lib_ok (Lil.row_ok hi'))]
  cases hq : reduceTo dup id x (Row.get (A.rowD i) j) w with
  | mk r w1 =>
    rw [hq] at h
    cases r with
    | error e =>
      dsimp only at h ⊢
      rw [Act.bind_error h]
    | ok v =>
      dsimp only at h ⊢
      obtain ⟨B, e, hB, h1, h2, h3⟩ := Lil.setElementMerge_spec hA hi hj x fun _ _ => v
      refine ⟨B, ?_, hB, h1, h2, fun k l => ?_⟩
      · rw [Act.bind_ok h]
        unfold Lil.setElementMerge at e
        rw [if_neg (by omega), Lil.row_ok hi'] at e
        dsimp only at e
        injection e with _ e
        rw [← e]
        rfl
      · rw [h3, hg]
        by_cases hk : k = i ∧ l = j
        · rw [if_pos hk, if_pos hk]
          cases hr : Row.get (A.rowD i) j with
          | some y => rfl
          | none =>
            rw [hr] at hq
            have : (Except.ok x, w) = (Except.ok v, w1) := hq
            injection this with this _
            injection this with this
            rw [this]
        · rw [if_neg hk, if_neg hk]

/-- `Matrix::build` keeps the old elements and takes the tuples in their order: one for an
empty place is stored without a call, the others call `dup` with the stored value and theirs.
If `dup` throws, that call is the last one; what the matrix is left with is in
`C96_matBuild_actual`. -/
theorem C96_matBuild_calls (dup : α → α → Op ω X α) : ∀ {ts : List (Nat × Nat × α)} {A : Lil α}
    (_ : A.WF) (_ : ∀ t ∈ ts, t.1 < A.nrows ∧ t.2.1 < A.ncols) (w : ω),
    match updateAll (ts.map fun t => ((t.1, t.2.1), reduceTo dup id t.2.2)) (fun p => A.get p.1 p.2) w with
    | (.error e, w') => ∃ A', matBuildE dup ts (w, A) = (.error (.op e), (w', A'))
    | (.ok f, w') => ∃ A', matBuildE dup ts (w, A) = (.ok (), (w', A')) ∧ A'.WF ∧
        A'.nrows = A.nrows ∧ A'.ncols = A.ncols ∧ ∀ i j, A'.get i j = f (i, j)
  | [], A, hA, _, w => ⟨A, rfl, hA, rfl, rfl, fun _ _ => rfl⟩
  | (i, j, x) :: ts, A, hA, ht, w => by
    have hij := ht (i, j, x) (by simp)
    have h := setElementMergeE_calls dup hA hij.1 hij.2 x w
    rw [List.map_cons]
    unfold matBuildE updateAll Op.andThen
    dsimp only
    revert h
    cases reduceTo dup id x (A.get i j) w with
    | mk r w1 =>
      cases r with
      | error e =>
        intro h
        dsimp only at h ⊢
        exact ⟨A, Act.bind_error h⟩
      | ok v =>
        intro h
        dsimp only at h ⊢
        obtain ⟨B, e1, hB, h1, h2, h3⟩ := h
        have ih := C96_matBuild_calls dup (ts := ts) hB
          (fun t h => by rw [h1, h2]; exact ht t (by simp [h])) w1
        have e : (fun p : Nat × Nat => if p = (i, j) then some v else A.get p.1 p.2) =
            fun p => B.get p.1 p.2 := by
          funext p
          obtain ⟨k, l⟩ := p
          rw [h3]
          simp only [Prod.mk.injEq]
        rw [e, Act.bind_ok e1, ← h1, ← h2]
        exact ih

example : vecBuildE addLogged [(1, 5), (0, 1), (1, 7), (1, 2)] ([], Ex.v) =
      (.ok (), ([(5, 7), (12, 2)], ⟨2, 4, [1, 14], [true, true]⟩)) ∧
    vecBuildE addUpTo9 [(1, 5), (0, 1), (1, 7), (1, 2)] (0, Ex.v) = (.error (.op "too big"), (1, Ex.v)) ∧
    matBuildE addLogged [(1, 0, 5), (0, 1, 1), (1, 0, 7)] ([], Ex.A) =
      (.ok (), ([(2, 1), (5, 7)], ⟨2, 2, 4, [[(0, 1), (1, 3)], [(0, 12), (1, 3)]]⟩)) := by
  decide +kernel

end GBTL
