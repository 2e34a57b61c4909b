import Verif.Lemmas.EffectsMat
/-
The calls of sums and reductions.
-/
namespace GBTL
open Spec (Outp MaskKind Accum Op EAccum callAll foldAll stored storedMat resultAt sumCalls reduceCalls)
open Act (call lib output store)

variable {ω χ X α β γ δ κ τ ζ μ σ : Type}

theorem call_andThen (f : Op ω X σ) (g : σ → Op ω X τ) :
    (call (f.andThen g) : Act ω χ X τ) = (call f >>= fun a => call (g a)) := by
  funext s
  obtain ⟨w, c⟩ := s
  cases hf : f w with
  | mk r w1 =>
    cases r with
    | error x =>
      rw [Act.bind_error (Act.call_error hf), Act.call_error]
      simp only [Op.andThen, hf]
    | ok y =>
      rw [Act.bind_ok (Act.call_ok hf)]
      unfold call
      simp only [Op.andThen, hf]

theorem call_foldAll_cons (f : τ → α → Op ω X τ) (t : τ) (x : α) (r : List α) :
    (call (foldAll f t (x :: r)) : Act ω χ X τ) = (call (f t x) >>= fun t => call (foldAll f t r)) := by
  rw [← call_andThen]
  congr 1
  funext w
  simp only [foldAll, Op.andThen]
  cases f t x w with
  | mk r w1 => cases r <;> rfl

theorem foldE_eq (op' : τ → α → Op ω X τ) : ∀ (r : Row α) (t : τ),
    (r.foldlM (fun t p => call (op' t p.2)) t : Act ω χ X τ) = call (foldAll op' t (r.map (·.2)))
  | [], t => rfl
  | p :: r, t => by
    rw [List.map_cons, call_foldAll_cons, List.foldlM_cons]
    congr 1
    funext t
    exact foldE_eq op' r t

/-- An answer that may be missing. -/
def answer : Option (Op ω X τ) → Act ω χ X (Option τ)
  | none => pure none
  | some f => call f >>= fun v => pure (some v)

theorem reductionE_eq (op : α → α → Op ω X τ) (op' : τ → α → Op ω X τ) (cast1 : α → τ) :
    ∀ r : Row α, (reductionE op op' cast1 r : Act ω χ X _) =
      answer (reduceCalls op op' cast1 (r.map (·.2)))
  | [] => rfl
  | [(_, x)] => rfl
  | (_, x) :: (_, y) :: r => by
    simp only [reductionE, List.map_cons, reduceCalls, answer, call_andThen, Act.bind_assoc']
    congr 1
    funext t
    rw [foldE_eq]

theorem dotLoopE_some (add : τ → τ → Op ω X τ) (mult : α → β → Op ω X τ) (r : Row α) (s : Row β) :
    ∀ a, (dotLoopE add mult r s (some a) : Act ω χ X _) =
      (call (foldAll (fun t q => Op.andThen q (add t)) a ((ewiseAnd mult r s).map (·.2))) >>=
        fun v => pure (some v)) := by
  fun_induction ewiseAnd mult r s with
  | case1 x r j y s ih =>
    intro a
    rw [List.map_cons, call_foldAll_cons]
    unfold dotLoopE
    rw [if_pos rfl]
    simp only [call_andThen, Act.bind_assoc']
    congr 1
    funext p
    congr 1
    funext v
    exact ih v
  | case2 i x r j y s h h' ih =>
    intro a
    unfold dotLoopE
    rw [if_neg h, if_pos h', ih a]
  | case3 i x r j y s h h' ih =>
    intro a
    unfold dotLoopE
    rw [if_neg h, if_neg h', ih a]
  | case4 s => intro a; unfold dotLoopE; rfl
  | case5 r h => 
    intro a
    unfold dotLoopE
    cases r with
    | nil => rfl
    | cons p r => rfl

theorem dotLoopE_none (add : τ → τ → Op ω X τ) (mult : α → β → Op ω X τ) (r : Row α) (s : Row β) :
    (dotLoopE add mult r s none : Act ω χ X _) =
      answer (sumCalls add ((ewiseAnd mult r s).map (·.2))) := by
  fun_induction ewiseAnd mult r s with
  | case1 x r j y s ih =>
    unfold dotLoopE
    rw [if_pos rfl]
    simp only [List.map_cons, sumCalls, answer, call_andThen, Act.bind_assoc']
    congr 1
    funext p
    exact dotLoopE_some ..
  | case2 i x r j y s h h' ih =>
    unfold dotLoopE
    rw [if_neg h, if_pos h', ih]
  | case3 i x r j y s h h' ih =>
    unfold dotLoopE
    rw [if_neg h, if_neg h', ih]
  | case4 s => unfold dotLoopE; rfl
  | case5 r h =>
    unfold dotLoopE
    cases r with
    | nil => rfl
    | cons p r => rfl

theorem dotE_eq (add : τ → τ → Op ω X τ) (mult : α → β → Op ω X τ) (r : Row α) (s : Row β) :
    (dotE add mult r s : Act ω χ X _) =
      answer (sumCalls add ((ewiseAnd mult r s).map (·.2))) := by
  unfold dotE
  split
  · next h =>
    rw [Bool.or_eq_true] at h
    rcases h with h | h
    · rw [List.isEmpty_iff.1 h, ewiseAnd_nil_right]; rfl
    · rw [List.isEmpty_iff.1 h, ewiseAnd_nil_left]; rfl
  · exact dotLoopE_none ..

theorem ewiseAnd_flip (op : α → β → δ) (r : Row α) (s : Row β) :
    ewiseAnd (fun b a => op a b) s r = ewiseAnd op r s := by
  fun_induction ewiseAnd op r s with
  | case1 x r j y s ih => rw [ewiseAnd, if_pos rfl, ih]
  | case2 i x r j y s h h' ih => rw [ewiseAnd, if_neg (fun e => h e.symm), if_neg (by omega), ih]
  | case3 i x r j y s h h' ih => rw [ewiseAnd, if_neg (fun e => h e.symm), if_pos (by omega), ih]
  | case4 s => rw [ewiseAnd_nil_right]
  | case5 r h => rw [ewiseAnd_nil_left]

theorem dotRevE_eq (add : τ → τ → Op ω X τ) (mult : α → β → Op ω X τ) (r : Row α) (s : Row β) :
    (dotRevE add mult r s : Act ω χ X _) =
      answer (sumCalls add ((ewiseAnd mult r s).map (·.2))) := by
  unfold dotRevE
  split
  · next h =>
    rw [Bool.or_eq_true] at h
    rcases h with h | h
    · rw [List.isEmpty_iff.1 h, ewiseAnd_nil_left]; rfl
    · rw [List.isEmpty_iff.1 h, ewiseAnd_nil_right]; rfl
  · rw [dotLoopE_none, ewiseAnd_flip]

/-! ### Loops that compute one element after the other -/

theorem stored_succ (n : Nat) (v : Spec.Vec α) :
    stored (n + 1) v = stored n v ++ ((v n).map fun x => (n, x)).toList := by
  simp only [stored, List.range_succ, List.filterMap_append]
  cases h : v n <;> simp [h]

theorem call_callAll_append (l1 l2 : List (κ × Op ω X τ)) :
    (call (callAll (l1 ++ l2)) : Act ω χ X _) = (do
      let a ← call (callAll l1)
      let b ← call (callAll l2)
      pure (a ++ b)) := by
  have e : callAll (l1 ++ l2) =
      Op.andThen (callAll l1) (fun a => Op.andThen (callAll l2) fun b => Op.ret (a ++ b)) :=
    funext fun w => callAll_append l1 l2 w
  rw [e, call_andThen]
  congr 1
  funext a
  rw [call_andThen]
  rfl

theorem vec_loop {n : Nat} {R : Spec.Vec (Op ω X τ)} {body : Nat → Row τ → Act ω χ X (Row τ)}
    (hb : ∀ i t, i < n → body i t = (answer (R i) >>= fun d => pure (emplaceIf1D t i d))) :
    ∀ k, k ≤ n → forA k [] body = call (callAll (stored k R))
  | 0, _ => rfl
  | k + 1, hk => by
    rw [forA_succ, vec_loop hb k (by omega), stored_succ, call_callAll_append]
    congr 1
    funext t
    rw [hb k t (by omega)]
    cases R k with
    | none =>
      show (pure t : Act ω χ X _) = pure (t ++ [])
      rw [List.append_nil]
    | some f =>
      simp only [answer, Option.map_some, Option.toList_some, call_cons, Act.bind_assoc']
      rfl

theorem stored_row {n : Nat} {r : Row α} (h : Row.OK n r) : r = stored n fun j => Row.get r j := by
  rw [stored_eq]
  exact Row.eq_ofFun h fun _ _ => rfl

theorem stored_none {n : Nat} {v : Spec.Vec α} (h : ∀ i, i < n → v i = none) : stored n v = [] := by
  rw [stored_eq]
  symm
  exact Row.eq_ofFun Row.OK.nil fun j hj => (h j hj).symm

theorem ewiseAnd_stored {n : Nat} {op : α → β → δ} {r : Row α} {s : Row β} (hr : Row.OK n r)
    (hs : Row.OK n s) : ewiseAnd op r s = stored n fun j => Spec.both op (Row.get r j) (Row.get s j) := by
  rw [stored_row (ewiseAnd_ok hr hs.sorted)]
  simp only [(ewiseAnd_spec _ _ hr.sorted hs.sorted).2]

theorem reduceRowsE_eq (op : α → α → Op ω X τ) (op' : τ → α → Op ω X τ) (cast1 : α → τ) {A : Lil α}
    (hA : A.WF) : (reduceRowsE op op' cast1 A : Act ω χ X _) =
      call (callAll (stored A.nrows fun i =>
        reduceCalls op op' cast1 ((stored A.ncols fun j => A.get i j).map (·.2)))) := by
  unfold reduceRowsE
  split
  · refine vec_loop (n := A.nrows) ?_ _ (Nat.le_refl _)
    intro i t hi
    funext s
    rw [Act.bind_ok (Act.lib_ok (hA.row_ok hi)), reductionE_eq, stored_row (hA.rowD_ok i)]
    rfl
  · next h =>
    rw [stored_none]
    · rfl
    · intro i _
      rw [stored_none]
      · rfl
      · exact fun j _ => hA.get_none_of_nvals (by omega) i j

theorem mxvAE_eq (add : τ → τ → Op ω X τ) (mult : α → β → Op ω X τ) {w : BVec γ} {A : Lil α}
    {u : BVec β} (hA : A.WF) (hu : u.WF) (hw : w.size = A.nrows) (hn : u.size = A.ncols) :
    (mxvAE w add mult A u : Act ω χ X _) =
      call (callAll (stored w.size fun i =>
        sumCalls add ((stored A.ncols fun k => Spec.both mult (A.get i k) (u.get k)).map (·.2)))) := by
  obtain ⟨uc, g1, g2, g3⟩ := BVec.getContents_spec hu
  unfold mxvAE
  split
  · rw [g1]
    show forA w.size [] _ = _
    refine vec_loop (n := w.size) ?_ _ (Nat.le_refl _)
    intro i t hi
    funext s
    rw [Act.bind_ok (Act.lib_ok (hA.row_ok (by omega)))]
    have e : ((ewiseAnd mult (A.rowD i) uc).map (·.2)) =
        ((stored A.ncols fun k => Spec.both mult (A.get i k) (u.get k)).map (·.2)) := by
      rw [ewiseAnd_stored (hA.rowD_ok i) (by rw [← hn]; exact g2)]
      simp only [g3]
      rfl
    by_cases he : (A.rowD i).isEmpty = true
    · rw [if_pos he, ← e, List.isEmpty_iff.1 he, ewiseAnd_nil_left]
      rfl
    · rw [if_neg he, dotRevE_eq, e]
  · next h =>
    rw [stored_none]
    · rfl
    · intro i _
      rw [stored_none]
      · rfl
      · intro k _
        rcases nvals_or h with h | h
        · rw [hA.get_none_of_nvals h]; rfl
        · rw [hu.get_none_of_nvals h]; simp

theorem vxmATE_eq (add : τ → τ → Op ω X τ) (mult : β → α → Op ω X τ) {w : BVec γ} {A : Lil α}
    {u : BVec β} (hA : A.WF) (hu : u.WF) (hw : w.size = A.nrows) (hn : u.size = A.ncols) :
    (vxmATE w add mult u A : Act ω χ X _) =
      call (callAll (stored w.size fun i =>
        sumCalls add ((stored A.ncols fun k => Spec.both mult (u.get k) (A.get i k)).map (·.2)))) := by
  obtain ⟨uc, g1, g2, g3⟩ := BVec.getContents_spec hu
  unfold vxmATE
  split
  · rw [g1]
    show forA w.size [] _ = _
    refine vec_loop (n := w.size) ?_ _ (Nat.le_refl _)
    intro i t hi
    funext s
    rw [Act.bind_ok (Act.lib_ok (hA.row_ok (by omega)))]
    have e : ((ewiseAnd mult uc (A.rowD i)).map (·.2)) =
        ((stored A.ncols fun k => Spec.both mult (u.get k) (A.get i k)).map (·.2)) := by
      rw [ewiseAnd_stored (by rw [← hn]; exact g2) (hA.rowD_ok i)]
      simp only [g3]
      rfl
    by_cases he : (A.rowD i).isEmpty = true
    · rw [if_pos he, ← e, List.isEmpty_iff.1 he, ewiseAnd_nil_right]
      rfl
    · rw [if_neg he, dotE_eq, e]
  · next h =>
    rw [stored_none]
    · rfl
    · intro i _
      rw [stored_none]
      · rfl
      · intro k _
        rcases nvals_or h with h | h
        · rw [hA.get_none_of_nvals h]; simp
        · rw [hu.get_none_of_nvals h]; rfl

theorem reduceVecE_eq (op : α → α → Op ω X τ) (op' : τ → α → Op ω X τ) (cast1 : α → τ) (e : τ)
    {u : BVec α} (hu : u.WF) : (reduceVecE op op' cast1 e u : Act ω χ X _) =
      (answer (reduceCalls op op' cast1 ((stored u.size u.get).map (·.2))) >>= fun r =>
        pure (r.getD e)) := by
  obtain ⟨uc, g1, g2, g3⟩ := BVec.getContents_spec hu
  unfold reduceVecE
  split
  · rw [g1]
    show (reductionE op op' cast1 uc >>= fun r => pure (r.getD e)) = _
    rw [reductionE_eq, stored_row g2]
    simp only [g3]
  · next h =>
    rw [stored_none fun i _ => hu.get_none_of_nvals (by omega) i]
    rfl

theorem applyVecE_eq (f : α → Op ω X τ) {u : BVec α} (hu : u.WF) : (applyVecE f u : Act ω χ X _) =
    call (callAll (stored u.size fun i => (u.get i).map f)) := by
  obtain ⟨uc, g1, g2, g3⟩ := BVec.getContents_spec hu
  unfold applyVecE
  split
  · rw [g1]
    show mapRowE f uc = _
    rw [mapRowE_eq, stored_row (g2.cast (c := f))]
    simp only [Row.get_cast, g3]
  · next h =>
    rw [stored_none fun i _ => by rw [hu.get_none_of_nvals (by omega) i]; rfl]
    rfl

theorem ewiseAddVecE_eq (op : α → β → Op ω X τ) (c1 : α → τ) (c2 : β → τ) {u : BVec α} {v : BVec β}
    (hu : u.WF) (hv : v.WF) (hs : v.size = u.size) : (ewiseAddVecE op c1 c2 u v : Act ω χ X _) =
    call (callAll (stored u.size fun i =>
      Spec.either op (fun x => .ret (c1 x)) (fun y => .ret (c2 y)) (u.get i) (v.get i))) := by
  obtain ⟨uc, g1, g2, g3⟩ := BVec.getContents_spec hu
  obtain ⟨vc, h1, h2, h3⟩ := BVec.getContents_spec hv
  unfold ewiseAddVecE
  split
  · rw [g1, h1]
    show ewiseOrE op c1 c2 uc vc = _
    rw [ewiseOrE_eq, stored_row (ewiseOr_ok g2 (by rw [← hs]; exact h2))]
    simp only [(ewiseOr_spec _ _ g2.sorted h2.sorted).2, g3, h3]
  · next h =>
    simp only [Bool.or_eq_true, decide_eq_true_eq] at h
    rw [stored_none fun i _ => by
      rw [hu.get_none_of_nvals (by omega) i, hv.get_none_of_nvals (by omega) i]; rfl]
    rfl

theorem ewiseMultVecE_eq (op : α → β → Op ω X τ) {u : BVec α} {v : BVec β}
    (hu : u.WF) (hv : v.WF) : (ewiseMultVecE op u v : Act ω χ X _) =
    call (callAll (stored u.size fun i => Spec.both op (u.get i) (v.get i))) := by
  obtain ⟨uc, g1, g2, g3⟩ := BVec.getContents_spec hu
  obtain ⟨vc, h1, h2, h3⟩ := BVec.getContents_spec hv
  unfold ewiseMultVecE
  split
  · rw [g1, h1]
    show ewiseAndE op uc vc = _
    rw [ewiseAndE_eq, stored_row (ewiseAnd_ok g2 h2.sorted)]
    simp only [(ewiseAnd_spec _ _ g2.sorted h2.sorted).2, g3, h3]
  · next h =>
    rw [stored_none fun i _ => by
      rcases nvals_or h with h | h
      · rw [hu.get_none_of_nvals h]; rfl
      · rw [hv.get_none_of_nvals h]; simp]
    rfl

/-! ### `A*B'` -/

theorem dotRow_loop {add : τ → τ → Op ω X τ} {mult : α → β → Op ω X τ} {B : Lil β} (hB : B.WF)
    {T : Lil τ} {i n : Nat} {a : Row α} (hT : T.WFr) (hi : i < T.nrows) (hn : T.ncols = B.nrows)
    (ha : Row.OK n a) (hk : B.ncols = n) (h0 : T.rowD i = []) (w : ω) (c : χ) :
    match callAll (stored B.nrows fun j => sumCalls add
      ((stored n fun k => Spec.both mult (Row.get a k) (B.get j k)).map (·.2))) w with
    | (.error e, w') => forA B.nrows T (fun j T => do
        let b ← lib (B.row j)
        if b.isEmpty then pure T
        else do
          let d ← dotE add mult a b
          lib (emplaceIf T i j d)) (w, c) = (.error (.op e), (w', c))
    | (.ok r, w') => ∃ T', forA B.nrows T (fun j T => do
        let b ← lib (B.row j)
        if b.isEmpty then pure T
        else do
          let d ← dotE add mult a b
          lib (emplaceIf T i j d)) (w, c) = (.ok T', (w', c)) ∧ T'.WFr ∧ T'.nrows = T.nrows ∧
            T'.ncols = T.ncols ∧ ∀ k, T'.rowD k = if k = i then r else T.rowD k := by
  suffices H : ∀ k, k ≤ B.nrows →
    match callAll (stored k fun j => sumCalls add
      ((stored n fun k => Spec.both mult (Row.get a k) (B.get j k)).map (·.2))) w with
    | (.error e, w') => forA k T (fun j T => do
        let b ← lib (B.row j)
        if b.isEmpty then pure T
        else do
          let d ← dotE add mult a b
          lib (emplaceIf T i j d)) (w, c) = (.error (.op e), (w', c))
    | (.ok r, w') => Row.OK k r ∧ ∃ T', forA k T (fun j T => do
        let b ← lib (B.row j)
        if b.isEmpty then pure T
        else do
          let d ← dotE add mult a b
          lib (emplaceIf T i j d)) (w, c) = (.ok T', (w', c)) ∧ T'.WFr ∧ T'.nrows = T.nrows ∧
            T'.ncols = T.ncols ∧ ∀ k, T'.rowD k = if k = i then r else T.rowD k by
    have h := H B.nrows (Nat.le_refl _)
    revert h
    split
    · exact id
    · exact fun h => h.2
  intro k
  induction k with
  | zero =>
    intro _
    refine ⟨Row.OK.nil, T, rfl, hT, rfl, rfl, fun k => ?_⟩
    split
    · next h => rw [h, h0]
    · rfl
  | succ k ih =>
    intro hk'
    have ih := ih (by omega)
    rw [stored_succ, callAll_append, forA_succ]
    unfold Op.andThen
    cases h1 : callAll (stored k fun j => sumCalls add
      ((stored n fun k => Spec.both mult (Row.get a k) (B.get j k)).map (·.2))) w with
    | mk r w1 =>
      rw [h1] at ih
      cases r with
      | error e => exact Act.bind_error ih
      | ok r =>
        obtain ⟨hr, T1, e1, q1, q2, q3, q4⟩ := ih
        dsimp only
        rw [Act.bind_ok e1, Act.bind_ok (Act.lib_ok (hB.row_ok (by omega)))]
        have e : ((ewiseAnd mult a (B.rowD k)).map (·.2)) =
            ((stored n fun l => Spec.both mult (Row.get a l) (B.get k l)).map (·.2)) := by
          rw [ewiseAnd_stored ha (by rw [← hk]; exact hB.rowD_ok k)]
          rfl
        rw [← e]
        have hr1 : Row.OK (k + 1) r := ⟨hr.sorted, fun p hp => by have := hr.bound p hp; omega⟩
        by_cases he : (B.rowD k).isEmpty = true
        · rw [if_pos he, List.isEmpty_iff.1 he, ewiseAnd_nil_right]
          show Row.OK (k + 1) (r ++ []) ∧ _
          rw [List.append_nil]
          exact ⟨hr1, T1, rfl, q1, q2, q3, q4⟩
        · rw [if_neg he, dotE_eq]
          cases sumCalls add ((ewiseAnd mult a (B.rowD k)).map (·.2)) with
          | none =>
            show Row.OK (k + 1) (r ++ []) ∧ _
            rw [List.append_nil]
            exact ⟨hr1, T1, rfl, q1, q2, q3, q4⟩
          | some f =>
            simp only [answer, Option.map_some, Option.toList_some, callAll, Act.bind_assoc']
            cases hf : f w1 with
            | mk y w2 =>
              cases y with
              | error x => exact Act.bind_error (Act.call_error hf)
              | ok y =>
                have hok : Row.OK (k + 1) (r ++ [(k, y)]) :=
                  ok_append_last hr1 (fun p hp => hr.bound p hp) (Nat.lt_succ_self _)
                obtain ⟨T2, e2, p1, p2, p3, _, p4⟩ := Lil.pokeRow_spec (i := i) (r := r ++ [(k, y)]) q1
                  (by omega) (by
                    rw [q3, hn]
                    exact ⟨hok.sorted, fun p hp => by have := hok.bound p hp; omega⟩)
                refine ⟨hok, T2, ?_, p1, by omega, by omega, fun l => ?_⟩
                · rw [Act.bind_ok (Act.call_ok hf)]
                  show lib (emplaceIf T1 i k (some y)) (w2, c) = _
                  refine Act.lib_ok ?_
                  simp only [emplaceIf, q1.row_ok (show i < T1.nrows by omega), Except.bind_ok']
                  rw [q4, if_pos rfl]
                  exact e2
                · rw [p4, q4]
                  split <;> rfl

theorem mxmABTE_fills (add : τ → τ → Op ω X τ) (mult : α → β → Op ω X τ) {C : Lil γ} {A : Lil α}
    {B : Lil β} (hA : A.WF) (hB : B.WF) (h1 : C.nrows = A.nrows) (h2 : C.ncols = B.nrows)
    (h3 : A.ncols = B.ncols) :
    Act.Fills C.nrows C.ncols (mxmABTE C add mult A B : Act ω χ X _)
      (storedMat C.nrows C.ncols fun i j => sumCalls add
        ((stored A.ncols fun k => Spec.both mult (A.get i k) (B.get j k)).map (·.2))) := by
  unfold mxmABTE
  split
  · have hok : ∀ i, i < C.nrows → Row.OK C.ncols (stored C.ncols fun j => sumCalls add
        ((stored A.ncols fun k => Spec.both mult (A.get i k) (B.get j k)).map (·.2))) := by
      intro i _
      rw [stored_eq]
      exact Row.ofFun_ok ..
    have h := fills_rows (χ := χ) (m := C.nrows) (n := C.ncols) hok (body := fun i T => do
      let a ← lib (A.row i)
      if a.isEmpty then pure T
      else forA B.nrows T fun j T => do
        let b ← lib (B.row j)
        if b.isEmpty then pure T
        else do
          let d ← dotE add mult a b
          lib (emplaceIf T i j d)) (by
      intro i Z hi hZ hZr hZc hz w c
      rw [Act.bind_ok (Act.lib_ok (hA.row_ok (by omega)))]
      by_cases he : (A.rowD i).isEmpty = true
      · rw [if_pos he, stored_none]
        · refine ⟨Z, rfl, hZ, hZr, hZc, fun k => ?_⟩
          split
          · next h => rw [h, hz]
          · rfl
        · intro j _
          rw [stored_none]
          · rfl
          · intro k _
            have : A.get i k = none := by
              show Row.get (A.rowD i) k = none
              rw [List.isEmpty_iff.1 he]; rfl
            rw [this]; rfl
      · rw [if_neg he]
        have := dotRow_loop (add := add) (mult := mult) hB (i := i) hZ (by omega) (by omega)
          (hA.rowD_ok i) h3.symm hz w c
        rw [hZr, hZc] at this
        rw [h2] at this ⊢
        exact this)
    rw [storedMat_rows (A := fun i j => sumCalls add
        ((stored A.ncols fun k => Spec.both mult (A.get i k) (B.get j k)).map (·.2))) hok (by
      intro i j _ hj
      rw [stored_eq, Row.get_ofFun, if_pos hj]), h1] at h
    intro w c
    have h := h w c
    rw [h1]
    cases hc : callAll (storedMat A.nrows C.ncols fun i j => sumCalls add
        ((stored A.ncols fun k => Spec.both mult (A.get i k) (B.get j k)).map (·.2))) w with
    | mk r w' =>
      rw [hc] at h
      cases r with
      | error e => exact Act.bind_error h
      | ok zs =>
        obtain ⟨Z, e, q⟩ := h
        exact ⟨Z.recomputeNvals, Act.bind_ok e, ⟨q.wf.len, q.wf.rowOK⟩, q.nrows, q.ncols, q.get⟩
  · next h =>
    refine empty_fills fun i j => ?_
    rw [stored_none]
    · rfl
    · intro k _
      rcases nvals_or h with h | h
      · rw [hA.get_none_of_nvals h]; rfl
      · rw [hB.get_none_of_nvals h]; simp

theorem call_foldAll_append (f : τ → α → Op ω X τ) : ∀ (l1 l2 : List α) (t : τ),
    (call (foldAll f t (l1 ++ l2)) : Act ω χ X τ) =
      (call (foldAll f t l1) >>= fun t => call (foldAll f t l2))
  | [], l2, t => rfl
  | x :: l1, l2, t => by
    rw [List.cons_append, call_foldAll_cons, call_foldAll_cons, Act.bind_assoc']
    congr 1
    funext t
    exact call_foldAll_append f l1 l2 t

theorem fold_loop {n : Nat} {R : Spec.Vec (Op ω X τ)} {opT : τ → τ → Op ω X τ} {e : τ}
    {body : Nat → τ → Act ω χ X τ}
    (hb : ∀ i t, i < n → body i t = (answer (R i) >>= fun r => reduceStepE opT t r)) :
    ∀ k, k ≤ n → forA k e body =
      call (foldAll (fun t p => Op.andThen p (opT t)) e ((stored k R).map (·.2)))
  | 0, _ => rfl
  | k + 1, hk => by
    rw [forA_succ, fold_loop hb k (by omega), stored_succ, List.map_append, call_foldAll_append]
    congr 1
    funext t
    rw [hb k t (by omega)]
    cases R k with
    | none => rfl
    | some p =>
      show (answer (some p) >>= _) = call (foldAll _ t [p])
      rw [call_foldAll_cons, call_andThen]
      simp only [answer, Act.bind_assoc']
      funext s
      obtain ⟨w, c⟩ := s
      cases hp : p w with
      | mk r w1 =>
        cases r with
        | error x => rw [Act.bind_error (Act.call_error hp), Act.bind_error (Act.call_error hp)]
        | ok y =>
          rw [Act.bind_ok (Act.call_ok hp), Act.bind_ok (Act.call_ok hp)]
          show call (opT t y) (w1, c) = _
          cases hq : opT t y w1 with
          | mk r2 w2 =>
            cases r2 with
            | error x => rw [Act.call_error hq, Act.bind_error (Act.call_error hq)]
            | ok z => rw [Act.call_ok hq, Act.bind_ok (Act.call_ok hq)]; rfl

theorem reduceMatE_eq (op : α → α → Op ω X τ) (op' : τ → α → Op ω X τ) (opT : τ → τ → Op ω X τ)
    (cast1 : α → τ) (e : τ) {A : Lil α} (hA : A.WF) :
    (reduceMatE op op' opT cast1 e A : Act ω χ X _) =
      call (foldAll (fun t p => Op.andThen p (opT t)) e ((stored A.nrows fun i =>
        reduceCalls op op' cast1 ((stored A.ncols fun j => A.get i j).map (·.2))).map (·.2))) := by
  unfold reduceMatE
  split
  · refine fold_loop (n := A.nrows) ?_ _ (Nat.le_refl _)
    intro i t hi
    have er : (stored A.ncols fun j => A.get i j) = A.rowD i := (stored_row (hA.rowD_ok i)).symm
    rw [er]
    funext s
    rw [Act.bind_ok (Act.lib_ok (hA.row_ok hi))]
    cases hr : A.rowD i with
    | nil => rfl
    | cons p r =>
      show (reductionE op op' cast1 (p :: r) >>= fun r => reduceStepE opT t r) s = _
      rw [reductionE_eq]
  · next h =>
    rw [stored_none]
    · rfl
    · intro i _
      rw [stored_none]
      · rfl
      · exact fun j _ => hA.get_none_of_nvals (by omega) i j

end GBTL
