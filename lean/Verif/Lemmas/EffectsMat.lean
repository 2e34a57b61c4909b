import Verif.Lemmas.Fused
import Verif.Lemmas.EffectsCalls
import Verif.Lemmas.Ewise
/-
The calls a matrix operation makes, in the order it makes them.
-/
namespace GBTL
open Spec (Outp MaskKind Accum Op EAccum callAll stored storedMat storedCols resultAt matCalls)
open Act (call lib output store)

variable {ω χ X α β γ δ κ κ' τ ζ μ σ : Type}

/-! ### Lists of calls -/

theorem callAll_append (l1 l2 : List (κ × Op ω X τ)) (w : ω) : callAll (l1 ++ l2) w =
    Op.andThen (callAll l1) (fun a => Op.andThen (callAll l2) fun b => Op.ret (a ++ b)) w := by
  induction l1 generalizing w with
  | nil =>
    show callAll l2 w = Op.andThen (callAll l2) (fun b => Op.ret ([] ++ b)) w
    unfold Op.andThen
    cases callAll l2 w with
    | mk r w' => cases r <;> rfl
  | cons p l1 ih =>
    obtain ⟨i, f⟩ := p
    unfold Op.andThen
    simp only [List.cons_append, callAll]
    cases f w with
    | mk r w1 =>
      cases r with
      | error e => rfl
      | ok y =>
        dsimp only
        rw [ih]
        unfold Op.andThen
        cases callAll l1 w1 with
        | mk r w2 =>
          cases r with
          | error e => rfl
          | ok a =>
            dsimp only
            cases callAll l2 w2 with
            | mk r w3 => cases r <;> rfl

theorem callAll_key (g : κ → κ') (l : List (κ × Op ω X τ)) (w : ω) :
    callAll (l.map fun p => (g p.1, p.2)) w =
      match callAll l w with
      | (.error e, w') => (.error e, w')
      | (.ok ts, w') => (.ok (ts.map fun p => (g p.1, p.2)), w') := by
  induction l generalizing w with
  | nil => rfl
  | cons p l ih =>
    obtain ⟨i, f⟩ := p
    simp only [List.map_cons, callAll]
    cases f w with
    | mk r w1 =>
      cases r with
      | error e => rfl
      | ok y =>
        dsimp only
        rw [ih]
        cases callAll l w1 with
        | mk r w2 => cases r <;> rfl

theorem callAll_ret (l : List (κ × τ)) (w : ω) :
    callAll (l.map fun p => (p.1, (Op.ret p.2 : Op ω X τ))) w = (.ok l, w) := by
  induction l with
  | nil => rfl
  | cons p l ih =>
    simp only [List.map_cons, callAll, Op.ret] at ih ⊢
    rw [ih]

theorem resultAt_append [DecidableEq κ] (a b : List (κ × τ)) (k : κ) :
    resultAt (a ++ b) k = (resultAt a k).or (resultAt b k) := by
  induction a with
  | nil => simp [resultAt]
  | cons p a ih =>
    obtain ⟨i, y⟩ := p
    simp only [List.cons_append, resultAt]
    split
    · rfl
    · exact ih

theorem resultAt_row (i : Nat) (r : Row τ) (a b : Nat) :
    resultAt (r.map fun p => ((i, p.1), p.2)) (a, b) = if a = i then Row.get r b else none := by
  induction r with
  | nil => simp [resultAt, Row.get]
  | cons p r ih =>
    obtain ⟨j, y⟩ := p
    simp only [List.map_cons, resultAt, Row.get, Prod.mk.injEq]
    rw [ih]
    by_cases h : a = i
    · subst h; simp
    · rw [if_neg h, if_neg h, if_neg (fun h' => h h'.1.symm)]

theorem resultAt_swap (r : List ((Nat × Nat) × τ)) (a b : Nat) :
    resultAt (r.map fun p => ((p.1.2, p.1.1), p.2)) (a, b) = resultAt r (b, a) := by
  induction r with
  | nil => rfl
  | cons p r ih =>
    obtain ⟨⟨i, j⟩, y⟩ := p
    simp only [List.map_cons, resultAt, Prod.mk.injEq]
    rw [ih]
    by_cases h : i = b <;> by_cases h' : j = a <;> simp [h, h']

/-- One list after the other. -/
def flatRows (k : Nat) (L : Nat → Row α) : List ((Nat × Nat) × α) :=
  (List.range k).flatMap fun i => (L i).map fun p => ((i, p.1), p.2)

theorem flatRows_succ (k : Nat) (L : Nat → Row α) :
    flatRows (k + 1) L = flatRows k L ++ (L k).map fun p => ((k, p.1), p.2) := by
  simp [flatRows, List.range_succ]

theorem storedMat_eq (m n : Nat) (A : Spec.Mat α) :
    storedMat m n A = flatRows m fun i => Row.ofFun n (A i) := rfl

theorem storedCols_eq (m n : Nat) (A : Spec.Mat α) :
    storedCols m n A = (flatRows n fun j => Row.ofFun m fun i => A i j).map
      fun p => ((p.1.2, p.1.1), p.2) := by
  simp only [storedCols, flatRows, List.map_flatMap, List.map_map]
  rfl

theorem flatRows_congr {k : Nat} {L L' : Nat → Row α} (h : ∀ i, i < k → L i = L' i) :
    flatRows k L = flatRows k L' := by
  induction k with
  | zero => rfl
  | succ k ih => rw [flatRows_succ, flatRows_succ, ih fun i hi => h i (by omega), h k (by omega)]

theorem resultAt_flatRows (k : Nat) (L : Nat → Row α) (a b : Nat) :
    resultAt (flatRows k L) (a, b) = if a < k then Row.get (L a) b else none := by
  induction k with
  | zero => rfl
  | succ k ih =>
    rw [flatRows_succ, resultAt_append, ih, resultAt_row]
    by_cases h : a = k
    · subst h; simp
    · rw [if_neg h]
      by_cases h2 : a < k
      · rw [if_pos h2, if_pos (show a < k + 1 by omega)]; simp
      · rw [if_neg h2, if_neg (show ¬ a < k + 1 by omega)]; rfl

theorem resultAt_storedMat (m n : Nat) (A : Spec.Mat α) (i j : Nat) :
    resultAt (storedMat m n A) (i, j) = if i < m ∧ j < n then A i j else none := by
  rw [storedMat_eq, resultAt_flatRows, Row.get_ofFun]
  by_cases h : i < m <;> by_cases h' : j < n <;> simp [h, h']

/-! ### Loops over rows -/

theorem Act.bind_assoc' (x : Act ω χ X σ) (f : σ → Act ω χ X τ) (g : τ → Act ω χ X δ) :
    (x >>= f >>= g) = (x >>= fun a => f a >>= g) := by
  funext s
  cases h : x s with
  | mk r s1 =>
    cases r with
    | error e => rw [Act.bind_error (Act.bind_error h), Act.bind_error h]
    | ok a =>
      rw [Act.bind_ok h]
      have h' : (x >>= f) s = f a s1 := Act.bind_ok h
      cases hf : f a s1 with
      | mk r s2 =>
        rw [hf] at h'
        cases r with
        | error e => rw [Act.bind_error h', Act.bind_error hf]
        | ok b => rw [Act.bind_ok h', Act.bind_ok hf]

theorem foldA_snoc (f : σ → α → Act ω χ X σ) (l : List α) (a : α) (s : σ) :
    (l ++ [a]).foldlM f s = (l.foldlM f s >>= fun s => f s a) := by
  induction l generalizing s with
  | nil =>
    show (f s a >>= fun s => pure s) = f s a
    funext t
    cases h : f s a t with
    | mk r t1 =>
      cases r with
      | error e => exact Act.bind_error h
      | ok b => exact Act.bind_ok h
  | cons b l ih =>
    show (f s b >>= fun s => (l ++ [a]).foldlM f s) = ((f s b >>= fun s => l.foldlM f s) >>= _)
    rw [Act.bind_assoc']
    congr 1
    funext s'
    exact ih s'

theorem forA_succ (n : Nat) (s : σ) (b : Nat → σ → Act ω χ X σ) :
    forA (n + 1) s b = (forA n s b >>= fun s => b n s) := by
  unfold forA
  rw [List.range_succ]
  exact foldA_snoc _ _ _ _

theorem forA_zero (s : σ) (b : Nat → σ → Act ω χ X σ) : forA 0 s b = pure s := rfl

/-- A loop whose body makes a row of calls and keeps the results. `Good k` is what is known
of the state before step `k`, and `g` reads a result from it. -/
theorem rows_loop {m : Nat} {L : Nat → Row (Op ω X τ)} {body : Nat → σ → Act ω χ X σ} {s0 : σ}
    (Good : Nat → σ → Prop) (g : σ → Nat → Nat → Option τ) (h0 : Good 0 s0)
    (hg : ∀ i j, g s0 i j = none)
    (hb : ∀ i s, i < m → Good i s → (∀ k j, i ≤ k → g s k j = none) → ∀ w (c : χ),
      match callAll (L i) w with
      | (.error x, w') => body i s (w, c) = (.error (.op x), (w', c))
      | (.ok r, w') => ∃ s', body i s (w, c) = (.ok s', (w', c)) ∧ Good (i + 1) s' ∧
          ∀ a b, g s' a b = if a = i then Row.get r b else g s a b)
    (w : ω) (c : χ) : ∀ k, k ≤ m →
      match callAll (flatRows k L) w with
      | (.error x, w') => forA k s0 body (w, c) = (.error (.op x), (w', c))
      | (.ok zs, w') => ∃ s, forA k s0 body (w, c) = (.ok s, (w', c)) ∧ Good k s ∧
          (∀ i j, g s i j = resultAt zs (i, j)) ∧ ∀ i j, k ≤ i → g s i j = none
  | 0, _ => ⟨s0, rfl, h0, fun i j => by rw [hg]; rfl, fun i j _ => hg i j⟩
  | k + 1, hk => by
    have ih := rows_loop Good g h0 hg hb w c k (by omega)
    rw [flatRows_succ, callAll_append, forA_succ]
    unfold Op.andThen
    cases h1 : callAll (flatRows k L) w with
    | mk r w1 =>
      rw [h1] at ih
      cases r with
      | error e => exact Act.bind_error ih
      | ok zs =>
        obtain ⟨s, i1, i2, i3, i4⟩ := ih
        have hs := hb k s (by omega) i2 i4 w1 c
        dsimp only
        rw [callAll_key, Act.bind_ok i1]
        cases h2 : callAll (L k) w1 with
        | mk r w2 =>
          rw [h2] at hs
          cases r with
          | error e => exact hs
          | ok rr =>
            obtain ⟨s', j1, j2, j3⟩ := hs
            refine ⟨s', j1, j2, fun a b => ?_, fun a b hab => ?_⟩
            · rw [resultAt_append, resultAt_row, j3]
              by_cases ha : a = k
              · subst ha
                rw [if_pos rfl, if_pos rfl, ← i3, i4 a b (Nat.le_refl _)]
                rfl
              · rw [if_neg ha, if_neg ha, i3]
                cases resultAt zs (a, b) <;> rfl
            · rw [j3, if_neg (by omega), i4 a b (by omega)]

/-! ### Kernels -/

/-- The matrix that keeps the results of calls. -/
structure Filled (m n : Nat) (Z : Lil τ) (zs : List ((Nat × Nat) × τ)) : Prop where
  wf : Z.WFr
  nrows : Z.nrows = m
  ncols : Z.ncols = n
  get : ∀ i j, Z.get i j = resultAt zs (i, j)

/-- The code makes the calls `L` in order and returns the matrix of the results. -/
def Act.Fills (m n : Nat) (x : Act ω χ X (Lil τ)) (L : List ((Nat × Nat) × Op ω X τ)) : Prop :=
  ∀ w c, match callAll L w with
    | (.error e, w') => x (w, c) = (.error (.op e), (w', c))
    | (.ok zs, w') => ∃ Z, x (w, c) = (.ok Z, (w', c)) ∧ Filled m n Z zs

/-- The loop that computes one row after the other, storing it in a fresh matrix. -/
theorem fills_rows {m n : Nat} {L : Nat → Row (Op ω X τ)} (hL : ∀ i, i < m → Row.OK n (L i))
    {body : Nat → Lil τ → Act ω χ X (Lil τ)}
    (hb : ∀ i Z, i < m → Z.WFr → Z.nrows = m → Z.ncols = n → Z.rowD i = [] → ∀ w (c : χ),
      match callAll (L i) w with
      | (.error x, w') => body i Z (w, c) = (.error (.op x), (w', c))
      | (.ok r, w') => ∃ Z', body i Z (w, c) = (.ok Z', (w', c)) ∧ Z'.WFr ∧ Z'.nrows = m ∧
          Z'.ncols = n ∧ ∀ k, Z'.rowD k = if k = i then r else Z.rowD k) :
    Act.Fills m n (forA m (Lil.new m n) body) (flatRows m L) := by
  intro w c
  have h := rows_loop (m := m) (L := L) (body := body) (s0 := (Lil.new m n : Lil τ))
    (fun i Z => Z.WFr ∧ Z.nrows = m ∧ Z.ncols = n ∧ ∀ k, i ≤ k → Z.rowD k = [])
    (fun Z i j => Z.get i j) ⟨(Lil.new_wf _ _).toWFr, rfl, rfl, fun k _ => by simp⟩
    (fun i j => Lil.get_new _ _ _ _) (by
      rintro i Z hi ⟨g1, g2, g3, g4⟩ _ w c
      have h := hb i Z hi g1 g2 g3 (g4 i (Nat.le_refl _)) w c
      cases hc : callAll (L i) w with
      | mk r w' =>
        rw [hc] at h
        cases r with
        | error e => exact h
        | ok r =>
          obtain ⟨Z', e, q1, q2, q3, q4⟩ := h
          refine ⟨Z', e, ⟨q1, q2, q3, fun k hk => ?_⟩, fun a b => ?_⟩
          · rw [q4, if_neg (by omega), g4 k (by omega)]
          · show Row.get (Z'.rowD a) b = _
            rw [q4]; split <;> rfl) w c m (Nat.le_refl _)
  cases hc : callAll (flatRows m L) w with
  | mk r w' =>
    rw [hc] at h
    cases r with
    | error e => exact h
    | ok zs =>
      obtain ⟨Z, e, ⟨g1, g2, g3, _⟩, g4, _⟩ := h
      exact ⟨Z, e, ⟨g1, g2, g3, g4⟩⟩

/-- A body that computes a row and then stores it. -/
theorem row_body {L : Row (Op ω X τ)} {x : Act ω χ X (Row τ)} {f : Row τ → Except Err (Lil τ)}
    {Z : Lil τ} {i n : Nat} (hx : x = call (callAll L)) (hL : Row.OK n L)
    (hf : ∀ r, Row.OK n r → ∃ Z', f r = .ok Z' ∧ Z'.WFr ∧ Z'.nrows = Z.nrows ∧ Z'.ncols = Z.ncols ∧
      ∀ k, Z'.rowD k = if k = i then r else Z.rowD k) (w : ω) (c : χ) :
    match callAll L w with
    | (.error e, w') => (x >>= fun r => lib (f r)) (w, c) = (.error (.op e), (w', c))
    | (.ok r, w') => ∃ Z', (x >>= fun r => lib (f r)) (w, c) = (.ok Z', (w', c)) ∧ Z'.WFr ∧
        Z'.nrows = Z.nrows ∧ Z'.ncols = Z.ncols ∧ ∀ k, Z'.rowD k = if k = i then r else Z.rowD k := by
  subst hx
  cases hc : callAll L w with
  | mk r w' =>
    cases r with
    | error e => exact Act.bind_error (Act.call_error hc)
    | ok r =>
      obtain ⟨Z', e, q⟩ := hf r (callAll_ok hc hL)
      refine ⟨Z', ?_, q⟩
      rw [Act.bind_ok (Act.call_ok hc), Act.lib_ok e]

theorem setRow_step {Z : Lil τ} {i n : Nat} (hZ : Z.WFr) (hi : i < Z.nrows) (hn : Z.ncols = n)
    (r : Row τ) (hr : Row.OK n r) :
    ∃ Z', Z.setRow i id r = .ok Z' ∧ Z'.WFr ∧ Z'.nrows = Z.nrows ∧ Z'.ncols = Z.ncols ∧
      ∀ k, Z'.rowD k = if k = i then r else Z.rowD k := by
  obtain ⟨Z', e, q1, q2, q3, _, q4⟩ := Lil.setRow_spec (c := id) hZ hi (by rw [hn]; exact hr)
  refine ⟨Z', e, q1, q2, q3, fun k => ?_⟩
  rw [q4, Row.cast_id]

theorem storedMat_rows {m n : Nat} {A : Spec.Mat α} {L : Nat → Row α}
    (hL : ∀ i, i < m → Row.OK n (L i)) (h : ∀ i j, i < m → j < n → Row.get (L i) j = A i j) :
    flatRows m L = storedMat m n A := by
  rw [storedMat_eq]
  exact flatRows_congr fun i hi => Row.eq_ofFun (hL i hi) fun j hj => h i j hi hj

/-- The calls of the accumulator. -/
theorem accumMatE_fills {C : Lil γ} (hC : C.WF) (acc : EAccum ω X γ τ ζ) {T : Lil τ} (hT : T.WFr)
    (hr : T.nrows = C.nrows) (hn : T.ncols = C.ncols) :
    Act.Fills C.nrows C.ncols (accumMatE C acc T : Act ω χ X _)
      (storedMat C.nrows C.ncols fun i j => Spec.accum acc.calls (C.get i j) (T.get i j)) := by
  cases acc with
  | none cast =>
    intro w c
    obtain ⟨D, h1, h2, h3, h4, h5⟩ := sparseCopy_spec (cast := cast)
      (Lil.new_wf C.nrows C.ncols).toWFr hT hr.symm hn.symm
    have e : storedMat C.nrows C.ncols (fun i j => Spec.accum
        (EAccum.calls (.none cast : EAccum ω X γ τ ζ)) (C.get i j) (T.get i j)) =
        (storedMat C.nrows C.ncols fun i j => D.get i j).map fun p => (p.1, Op.ret p.2) := by
      simp only [h5, storedMat, stored, List.map_flatMap, List.map_map, List.map_filterMap]
      congr 1
      funext i
      congr 1
      funext j
      show Option.map _ (Option.map _ (Option.map _ (T.get i j))) = _
      cases T.get i j <;> rfl
    rw [e, callAll_ret]
    refine ⟨D, Act.lib_ok h1, h2.toWFr, h3, h4, fun i j => ?_⟩
    rw [resultAt_storedMat]
    split
    · rfl
    · exact h2.get_none (by rw [h3, h4]; show C.nrows ≤ i ∨ C.ncols ≤ j; omega)
  | some op cC cT =>
    show Act.Fills C.nrows C.ncols (forA C.nrows (Lil.new C.nrows C.ncols) _) _
    rw [← storedMat_rows (L := fun i => ewiseOr op (fun x => Op.ret (cC x)) (fun y => Op.ret (cT y))
      (C.rowD i) (T.rowD i))]
    · refine fills_rows (fun i hi => ewiseOr_ok (hC.rowD_ok i) (by rw [← hn]; exact hT.rowD_ok i)) ?_
      intro i Z hi hZ hZr hZc _ w c
      rw [Act.bind_ok (Act.lib_ok (hC.row_ok hi)), Act.bind_ok (Act.lib_ok (hT.row_ok (by omega)))]
      have := row_body (i := i) (Z := Z) (ewiseOrE_eq (χ := χ) op cC cT (C.rowD i) (T.rowD i))
        (ewiseOr_ok (hC.rowD_ok i) (by rw [← hn]; exact hT.rowD_ok i))
        (setRow_step (i := i) hZ (by omega) hZc) w c
      rw [hZr, hZc] at this
      exact this
    · exact fun i hi => ewiseOr_ok (hC.rowD_ok i) (by rw [← hn]; exact hT.rowD_ok i)
    · intro i j hi hj
      rw [(ewiseOr_spec _ _ (hC.rowD_ok i).sorted (hT.rowD_ok i).sorted).2]
      rfl

theorem EMOut.op_calls {o : EMOut ω X γ τ ζ μ} {checks : Lil γ → Except Err Unit}
    {T : Lil γ → Act ω (Lil γ) X (Lil τ)} {C : Lil γ} {L : List ((Nat × Nat) × Op ω X τ)} (w : ω)
    (hC : C.WF) (hm : o.M.WF) (hf : o.M.Fits C.nrows C.ncols) (hk : checks C = .ok ())
    (hT : Act.Fills C.nrows C.ncols (T C) L) :
    match matCalls C.nrows C.ncols o.acc C.get L w with
    | (.error x, w') => o.op checks T (w, C) = (.error (.op x), (w', C))
    | (.ok zs, w') => ∃ C', o.op checks T (w, C) = (.ok (), (w', C')) ∧
        (o.at C).Holds (fun i j => resultAt zs (i, j)) C' := by
  have e1 : o.op checks T (w, C) = (T C >>= fun T => output >>= fun C => accumMatE C o.acc T >>=
      fun Z => output >>= fun C =>
        lib (writeWithOptMask o.truthy o.castZ C Z o.M o.outp) >>= store) (w, C) := by
    unfold EMOut.op
    rw [Act.bind_output, Act.bind_ok (Act.lib_ok hk)]
  rw [e1]
  have h := hT w C
  unfold matCalls Op.andThen
  cases h1 : callAll L w with
  | mk r w1 =>
    rw [h1] at h
    cases r with
    | error x =>
      dsimp only
      rw [Act.bind_error h]
    | ok ts =>
      dsimp only
      obtain ⟨T', t1, t2, t3, t4, t5⟩ := h
      have h' := accumMatE_fills hC o.acc t2 t3 t4 w1 C
      rw [Act.bind_ok t1, Act.bind_output]
      simp only [t5] at h'
      cases h2 : callAll (storedMat C.nrows C.ncols fun i j =>
          Spec.accum o.acc.calls (C.get i j) (resultAt ts (i, j))) w1 with
      | mk r w2 =>
        rw [h2] at h'
        cases r with
        | error x =>
          dsimp only
          rw [Act.bind_error h']
        | ok zs =>
          dsimp only
          obtain ⟨Z, z1, z2, z3, z4, z5⟩ := h'
          obtain ⟨C', g1, g2, g3, g4, g5⟩ := writeWithOptMask_spec o.truthy o.castZ o.M o.outp hC z2 z3
            z4 (MMask.ok_of hm hf)
          rw [Act.bind_ok z1, Act.bind_output, Act.bind_ok (Act.lib_ok g1)]
          exact ⟨C', rfl, ⟨g2, g3, g4, fun i j _ _ => by rw [g5, z5]; rfl⟩⟩

/-- The element-wise operations and `apply`: one row after the other. -/
theorem applyMatE_fills (f : α → Op ω X τ) {A : Lil α} (hA : A.WF) :
    Act.Fills A.nrows A.ncols (applyMatE f A : Act ω χ X _)
      (storedMat A.nrows A.ncols fun i j => (A.get i j).map f) := by
  have h : Act.Fills A.nrows A.ncols (χ := χ) (forA A.nrows (Lil.new A.nrows A.ncols) fun i T => do
      let a ← lib (A.row i)
      let t ← lib (T.row i)
      let r ← mapRowE f a
      lib (T.pokeRow i (t ++ r))) (storedMat A.nrows A.ncols fun i j => (A.get i j).map f) := by
    rw [← storedMat_rows (L := fun i => Row.cast f (A.rowD i))]
    · refine fills_rows (fun i hi => (hA.rowD_ok i).cast) ?_
      intro i Z hi hZ hZr hZc hz w c
      rw [Act.bind_ok (Act.lib_ok (hA.row_ok hi)), Act.bind_ok (Act.lib_ok (hZ.row_ok (by omega)))]
      have := row_body (i := i) (Z := Z) (f := fun r => Z.pokeRow i (Z.rowD i ++ r))
        (mapRowE_eq (χ := χ) f (A.rowD i)) ((hA.rowD_ok i).cast) (by
          intro r hr
          obtain ⟨Z', e, q1, q2, q3, _, q4⟩ := Lil.pokeRow_spec (i := i) (r := r) hZ (by omega)
            (by rw [hZc]; exact hr)
          exact ⟨Z', by rw [hz]; exact e, q1, q2, q3, q4⟩) w c
      rw [hZr, hZc] at this
      exact this
    · exact fun i hi => (hA.rowD_ok i).cast
    · intro i j hi hj
      exact Row.get_cast ..
  intro w c
  have h := h w c
  cases hc : callAll (storedMat A.nrows A.ncols fun i j => (A.get i j).map f) w with
  | mk r w' =>
    rw [hc] at h
    cases r with
    | error e => exact Act.bind_error h
    | ok zs =>
      obtain ⟨Z, e, q⟩ := h
      exact ⟨Z.recomputeNvals, Act.bind_ok e, ⟨q.wf.len, q.wf.rowOK⟩, q.nrows, q.ncols, q.get⟩

theorem ewiseAddRowE_eq (op : α → β → Op ω X τ) (c1 : α → τ) (c2 : β → τ) (a : Row α) (b : Row β) :
    (ewiseAddRowE op c1 c2 a b : Act ω χ X _) =
      call (callAll (ewiseOr op (fun x => Op.ret (c1 x)) (fun y => Op.ret (c2 y)) a b)) := by
  unfold ewiseAddRowE
  split
  · next h =>
    rw [List.isEmpty_iff.1 h, ewiseOr_nil_right, castE_eq]
  · split
    · next h =>
      rw [List.isEmpty_iff.1 h, ewiseOr_nil_left, castE_eq]
    · exact ewiseOrE_eq ..

theorem empty_fills {m n : Nat} {A : Spec.Mat (Op ω X τ)} (h : ∀ i j, A i j = none) :
    Act.Fills m n (pure (Lil.new m n) : Act ω χ X _) (storedMat m n A) := by
  have e : storedMat m n A = [] := by
    rw [storedMat_eq, flatRows_congr (L' := fun _ => [])]
    · simp [flatRows]
    · intro i _
      symm
      exact Row.eq_ofFun Row.OK.nil fun j _ => (h i j).symm
  rw [e]
  intro w c
  exact ⟨_, rfl, (Lil.new_wf _ _).toWFr, rfl, rfl, fun i j => Lil.get_new _ _ _ _⟩

theorem ewiseAddMatE_fills (op : α → β → Op ω X τ) (c1 : α → τ) (c2 : β → τ) {A : Lil α} {B : Lil β}
    (hA : A.WF) (hB : B.WF) (hr : B.nrows = A.nrows) (hn : B.ncols = A.ncols) :
    Act.Fills A.nrows A.ncols (ewiseAddMatE op c1 c2 A B : Act ω χ X _)
      (storedMat A.nrows A.ncols fun i j =>
        Spec.either op (fun x => .ret (c1 x)) (fun y => .ret (c2 y)) (A.get i j) (B.get i j)) := by
  unfold ewiseAddMatE
  split
  · have hok : ∀ i, i < A.nrows → Row.OK A.ncols (ewiseOr op (fun x => Op.ret (c1 x))
        (fun y => Op.ret (c2 y)) (A.rowD i) (B.rowD i)) := fun i _ =>
      ewiseOr_ok (hA.rowD_ok i) (by rw [← hn]; exact hB.rowD_ok i)
    rw [← storedMat_rows hok]
    · refine fills_rows hok ?_
      intro i Z hi hZ hZr hZc _ w c
      rw [Act.bind_ok (Act.lib_ok (hA.row_ok hi)), Act.bind_ok (Act.lib_ok (hB.row_ok (by omega)))]
      have := row_body (i := i) (Z := Z) (ewiseAddRowE_eq (χ := χ) op c1 c2 (A.rowD i) (B.rowD i))
        (hok i hi) (setRow_step (i := i) hZ (by omega) hZc) w c
      rw [hZr, hZc] at this
      exact this
    · intro i j hi hj
      rw [(ewiseOr_spec _ _ (hA.rowD_ok i).sorted (hB.rowD_ok i).sorted).2]
      rfl
  · next h =>
    simp only [Bool.or_eq_true, decide_eq_true_eq] at h
    exact empty_fills fun i j => by
      rw [hA.get_none_of_nvals (by omega), hB.get_none_of_nvals (by omega)]; rfl

theorem ewiseMultMatE_fills (op : α → β → Op ω X τ) {A : Lil α} {B : Lil β}
    (hA : A.WF) (hB : B.WF) (hr : B.nrows = A.nrows) (hn : B.ncols = A.ncols) :
    Act.Fills A.nrows A.ncols (ewiseMultMatE op A B : Act ω χ X _)
      (storedMat A.nrows A.ncols fun i j => Spec.both op (A.get i j) (B.get i j)) := by
  unfold ewiseMultMatE
  split
  · have hok : ∀ i, i < A.nrows → Row.OK A.ncols (ewiseAnd op (A.rowD i) (B.rowD i)) := fun i _ =>
      ewiseAnd_ok (hA.rowD_ok i) (hB.rowD_ok i).sorted
    rw [← storedMat_rows hok]
    · refine fills_rows hok ?_
      intro i Z hi hZ hZr hZc hz w c
      rw [Act.bind_ok (Act.lib_ok (hA.row_ok hi)), Act.bind_ok (Act.lib_ok (hB.row_ok (by omega)))]
      have step : ∀ r, Row.OK A.ncols r → ∃ Z', (if !r.isEmpty then Z.setRow i id r else .ok Z) = .ok Z' ∧
          Z'.WFr ∧ Z'.nrows = Z.nrows ∧ Z'.ncols = Z.ncols ∧
          ∀ k, Z'.rowD k = if k = i then r else Z.rowD k := by
        intro r hr
        cases r with
        | nil =>
          refine ⟨Z, rfl, hZ, rfl, rfl, fun k => ?_⟩
          split
          · next h => rw [h, hz]
          · rfl
        | cons p r => exact setRow_step hZ (by omega) hZc _ hr
      have := row_body (i := i) (Z := Z) (ewiseAndE_eq (χ := χ) op (A.rowD i) (B.rowD i)) (hok i hi)
        step w c
      rw [hZr, hZc] at this
      by_cases hne : (!(A.rowD i).isEmpty && !(B.rowD i).isEmpty) = true
      · rw [if_pos hne]
        have e : (fun t : Row τ => if !t.isEmpty then (lib (Z.setRow i id t) : Act ω χ X _) else pure Z)
            = fun r => lib (if !r.isEmpty then Z.setRow i id r else .ok Z) := by
          funext t; split <;> rfl
        rw [e]
        exact this
      · rw [if_neg hne]
        have e : ewiseAnd op (A.rowD i) (B.rowD i) = [] := by
          cases ha : A.rowD i with
          | nil => exact ewiseAnd_nil_left ..
          | cons p r =>
            cases hb : B.rowD i with
            | nil => exact ewiseAnd_nil_right ..
            | cons q s => rw [ha, hb] at hne; exact absurd rfl hne
        rw [e]
        refine ⟨Z, rfl, hZ, hZr, hZc, fun k => ?_⟩
        split
        · next h => rw [h, hz]
        · rfl
    · intro i j hi hj
      rw [(ewiseAnd_spec _ _ (hA.rowD_ok i).sorted (hB.rowD_ok i).sorted).2]
      rfl
  · next h =>
    exact empty_fills fun i j => by
      rcases nvals_or h with h | h
      · rw [hA.get_none_of_nvals h]; rfl
      · rw [hB.get_none_of_nvals h]; simp

/-! ### Rows pushed as columns -/

theorem pushCol_step {m n i : Nat} {Z : Lil τ} {E : List (Entry τ)} {r : Row τ} (hZ : Pushed m n Z E)
    (ho : Ordered E) (hE : ∀ e ∈ E, e.2.1 < i) (hi : i < n) (hr : Row.OK m r) :
    ∃ Z' E', pushCol i r Z = .ok Z' ∧ Pushed m n Z' E' ∧ Ordered E' ∧ (∀ e ∈ E', e.2.1 < i + 1) ∧
      ∀ a b, Z'.get b a = if a = i then Row.get r b else Z.get b a := by
  have ho' : Ordered (E ++ r.map fun p => (p.1, i, p.2)) := by
    refine List.pairwise_append.2 ⟨ho, ?_, ?_⟩
    · rw [List.pairwise_map]
      exact hr.sorted.imp fun {p q} h e => by simp only at e; omega
    · intro x hx y hy _
      obtain ⟨q, _, rfl⟩ := List.mem_map.1 hy
      exact hE x hx
  obtain ⟨Z', e, h'⟩ := pushAll_spec (r.map fun p => (p.1, i, p.2)) hZ (by
    intro e he
    obtain ⟨p, hp, rfl⟩ := List.mem_map.1 he
    exact ⟨hr.bound p hp, hi⟩) ho'
  refine ⟨Z', _, by rw [pushCol_eq]; exact e, h', ho', ?_, ?_⟩
  · intro e he
    rcases List.mem_append.1 he with h | h
    · have := hE e h; omega
    · obtain ⟨p, _, rfl⟩ := List.mem_map.1 h
      exact Nat.lt_succ_self _
  · intro a b
    apply Option.ext
    intro x
    rw [h'.get, List.mem_append]
    by_cases ha : a = i
    · subst ha
      rw [if_pos rfl]
      constructor
      · rintro (h | h)
        · exact absurd (hE _ h) (Nat.lt_irrefl _)
        · obtain ⟨p, hp, h⟩ := List.mem_map.1 h
          cases h
          exact Row.get_of_mem hr.sorted hp
      · intro h
        exact .inr (List.mem_map.2 ⟨(b, x), Row.mem_of_get h, rfl⟩)
    · rw [if_neg ha, hZ.get]
      constructor
      · rintro (h | h)
        · exact h
        · obtain ⟨p, hp, h⟩ := List.mem_map.1 h
          cases h
          exact absurd rfl ha
      · exact .inl

theorem pushColsE_fills {m n : Nat} {L : Nat → Row (Op ω X τ)} {row : Nat → Act ω χ X (Row τ)}
    (hrow : ∀ i, i < n → row i = call (callAll (L i))) (hL : ∀ i, i < n → Row.OK m (L i)) :
    Act.Fills m n (pushColsE m n n row : Act ω χ X _)
      (storedCols m n fun i j => Row.get (L j) i) := by
  have e1 : storedCols m n (fun i j => Row.get (L j) i) =
      (flatRows n L).map fun p => ((p.1.2, p.1.1), p.2) := by
    rw [storedCols_eq]
    congr 1
    exact flatRows_congr fun i hi => (Row.eq_ofFun (hL i hi) fun _ _ => rfl).symm
  rw [e1]
  intro w c
  have h := rows_loop (m := n) (L := L) (s0 := (Lil.new m n : Lil τ))
    (body := fun i T => do
      let r ← row i
      lib (pushCol i r T))
    (fun i Z => ∃ E, Pushed m n Z E ∧ Ordered E ∧ ∀ e ∈ E, e.2.1 < i)
    (fun Z i j => Z.get j i) ⟨[], Pushed.new m n, List.Pairwise.nil, by simp⟩
    (fun i j => Lil.get_new _ _ _ _) (by
      rintro i Z hi ⟨E, g1, g2, g3⟩ _ w c
      rw [hrow i hi]
      cases hc : callAll (L i) w with
      | mk r w' =>
        cases r with
        | error e => exact Act.bind_error (Act.call_error hc)
        | ok r =>
          obtain ⟨Z', E', e, q1, q2, q3, q4⟩ := pushCol_step g1 g2 g3 hi (callAll_ok hc (hL i hi))
          refine ⟨Z', ?_, ⟨E', q1, q2, q3⟩, q4⟩
          rw [Act.bind_ok (Act.call_ok hc), Act.lib_ok e]) w c n (Nat.le_refl _)
  rw [callAll_key (fun k : Nat × Nat => (k.2, k.1))]
  cases hc : callAll (flatRows n L) w with
  | mk r w' =>
    rw [hc] at h
    cases r with
    | error e => exact Act.bind_error h
    | ok zs =>
      obtain ⟨Z, e, ⟨E, g1, _, _⟩, g4, _⟩ := h
      refine ⟨Z.recomputeNvals, Act.bind_ok e, g1.recompute.wfr, g1.nr, g1.nc, fun i j => ?_⟩
      rw [resultAt_swap]
      exact g4 j i

theorem applyMatTE_fills (f : α → Op ω X τ) {A : Lil α} (hA : A.WF) :
    Act.Fills A.ncols A.nrows (applyMatTE f A : Act ω χ X _)
      (storedCols A.ncols A.nrows fun i j => (A.get j i).map f) := by
  have := pushColsE_fills (χ := χ) (m := A.ncols) (n := A.nrows) (L := fun i => Row.cast f (A.rowD i))
    (row := fun i => do
      let a ← lib (A.row i)
      mapRowE f a)
    (fun i hi => by
      funext s
      rw [Act.bind_ok (Act.lib_ok (hA.row_ok hi)), mapRowE_eq])
    (fun i hi => (hA.rowD_ok i).cast)
  simp only [Row.get_cast] at this
  exact this

theorem emptyCols_fills {m n : Nat} {A : Spec.Mat (Op ω X τ)} (h : ∀ i j, A i j = none) :
    Act.Fills m n (pure (Lil.new m n) : Act ω χ X _) (storedCols m n A) := by
  have e : storedCols m n A = [] := by
    rw [storedCols_eq, flatRows_congr (L' := fun _ => [])]
    · simp [flatRows]
    · intro i _
      symm
      exact Row.eq_ofFun Row.OK.nil fun j _ => (h j i).symm
  rw [e]
  intro w c
  exact ⟨_, rfl, (Lil.new_wf _ _).toWFr, rfl, rfl, fun i j => Lil.get_new _ _ _ _⟩

theorem ewiseAddATBTE_fills (op : α → β → Op ω X τ) (c1 : α → τ) (c2 : β → τ) {A : Lil α} {B : Lil β}
    (hA : A.WF) (hB : B.WF) (hr : B.nrows = A.nrows) (hn : B.ncols = A.ncols) :
    Act.Fills A.ncols A.nrows (ewiseAddATBTE op c1 c2 A B : Act ω χ X _)
      (storedCols A.ncols A.nrows fun i j =>
        Spec.either op (fun x => .ret (c1 x)) (fun y => .ret (c2 y)) (A.get j i) (B.get j i)) := by
  unfold ewiseAddATBTE
  split
  · have := pushColsE_fills (χ := χ) (m := A.ncols) (n := A.nrows)
      (L := fun i => ewiseOr op (fun x => Op.ret (c1 x)) (fun y => Op.ret (c2 y)) (A.rowD i) (B.rowD i))
      (row := fun i => do
        let a ← lib (A.row i)
        let b ← lib (B.row i)
        ewiseAddRowE op c1 c2 a b)
      (fun i hi => by
        funext s
        rw [Act.bind_ok (Act.lib_ok (hA.row_ok hi)), Act.bind_ok (Act.lib_ok (hB.row_ok (by omega))),
          ewiseAddRowE_eq])
      (fun i _ => ewiseOr_ok (hA.rowD_ok i) (by rw [← hn]; exact hB.rowD_ok i))
    simp only [(ewiseOr_spec _ _ (hA.rowD_ok _).sorted (hB.rowD_ok _).sorted).2] at this
    exact this
  · next h =>
    simp only [Bool.or_eq_true, decide_eq_true_eq] at h
    exact emptyCols_fills fun i j => by
      rw [hA.get_none_of_nvals (by omega), hB.get_none_of_nvals (by omega)]; rfl

theorem ewiseMultATBTE_fills (op : α → β → Op ω X τ) {A : Lil α} {B : Lil β}
    (hA : A.WF) (hB : B.WF) (hr : B.nrows = A.nrows) :
    Act.Fills A.ncols A.nrows (ewiseMultATBTE op A B : Act ω χ X _)
      (storedCols A.ncols A.nrows fun i j => Spec.both op (A.get j i) (B.get j i)) := by
  unfold ewiseMultATBTE
  split
  · have := pushColsE_fills (χ := χ) (m := A.ncols) (n := A.nrows)
      (L := fun i => ewiseAnd op (A.rowD i) (B.rowD i))
      (row := fun i => do
        let a ← lib (A.row i)
        let b ← lib (B.row i)
        if !a.isEmpty && !b.isEmpty then ewiseAndE op a b else pure [])
      (fun i hi => by
        funext s
        rw [Act.bind_ok (Act.lib_ok (hA.row_ok hi)), Act.bind_ok (Act.lib_ok (hB.row_ok (by omega)))]
        by_cases hne : (!(A.rowD i).isEmpty && !(B.rowD i).isEmpty) = true
        · rw [if_pos hne, ewiseAndE_eq]
        · rw [if_neg hne]
          have e : ewiseAnd op (A.rowD i) (B.rowD i) = [] := by
            cases ha : A.rowD i with
            | nil => exact ewiseAnd_nil_left ..
            | cons p r =>
              cases hb : B.rowD i with
              | nil => exact ewiseAnd_nil_right ..
              | cons q s => rw [ha, hb] at hne; exact absurd rfl hne
          rw [e]
          rfl)
      (fun i _ => ewiseAnd_ok (hA.rowD_ok i) (hB.rowD_ok i).sorted)
    simp only [(ewiseAnd_spec _ _ (hA.rowD_ok _).sorted (hB.rowD_ok _).sorted).2] at this
    exact this
  · next h =>
    exact emptyCols_fills fun i j => by
      rcases nvals_or h with h | h
      · rw [hA.get_none_of_nvals h]; rfl
      · rw [hB.get_none_of_nvals h]; simp

end GBTL
