import Verif.Lemmas.EffectsFrontend
import Verif.Lemmas.EffectsSum
/-
Kernels that add products into a row, one row of an operand after the other: `axpy` and
`xpey`.
-/
namespace GBTL
open Spec (Outp MaskKind Accum Op EAccum Vec callAll stored storedMat resultAt updateAll addTo reduceTo
  vxmUpdates mxmUpdates mxmTUpdates)
open Act (call lib output store)

variable {ω χ X α β γ δ τ ζ μ σ κ : Type}

theorem andThen_ret (f : Op ω X σ) : f.andThen Op.ret = f := by
  funext w
  unfold Op.andThen
  cases f w with | mk r w1 => cases r <;> rfl

theorem andThen_assoc {ρ : Type} (f : Op ω X σ) (g : σ → Op ω X τ) (h : τ → Op ω X ρ) :
    (f.andThen g).andThen h = f.andThen fun a => (g a).andThen h := by
  funext w
  unfold Op.andThen
  cases f w with | mk r w1 => cases r <;> rfl

theorem updateAll_append [DecidableEq κ] : ∀ (l1 l2 : List (κ × (Option τ → Op ω X τ)))
    (t : κ → Option τ), updateAll (l1 ++ l2) t = (updateAll l1 t).andThen (updateAll l2)
  | [], l2, t => rfl
  | (k, f) :: r, l2, t => by
    show (f (t k)).andThen _ = ((f (t k)).andThen _).andThen _
    rw [andThen_assoc]
    congr 1
    funext v
    exact updateAll_append r l2 _

/-- Updates of different places: every call sees the old values. -/
theorem updateAll_batch : ∀ {l : List (Nat × (Option τ → Op ω X τ))}, (l.Pairwise fun p q => p.1 < q.1) →
    ∀ (t : Nat → Option τ), updateAll l t =
      Op.andThen (callAll (l.map fun p => (p.1, p.2 (t p.1)))) fun ts =>
        Op.ret fun i => (Row.get ts i).or (t i)
  | [], _, t => by
    funext w
    simp [updateAll, callAll, Op.andThen, Op.ret, Row.get]
  | (k, f) :: r, hp, t => by
    rw [List.pairwise_cons] at hp
    funext w
    show ((f (t k)).andThen _) w = _
    simp only [List.map_cons, Op.andThen, callAll]
    cases hf : f (t k) w with
    | mk q w1 =>
      cases q with
      | error x => rfl
      | ok v =>
        dsimp only
        rw [updateAll_batch hp.2]
        have e : (r.map fun p => (p.1, p.2 ((fun i => if i = k then some v else t i) p.1))) =
            r.map fun p => (p.1, p.2 (t p.1)) := by
          refine List.map_congr_left fun p h => ?_
          have := hp.1 p h
          simp only
          rw [if_neg (by omega)]
        rw [e]
        unfold Op.andThen
        cases hc : callAll (r.map fun p => (p.1, p.2 (t p.1))) w1 with
        | mk q w2 =>
          cases q with
          | error x => rfl
          | ok ts =>
            have hk := callAll_keys hc
            show (_, _) = (_, _)
            congr 2
            funext i
            by_cases hi : i = k
            · subst hi
              have : Row.get ts i = none := by
                refine Row.get_none_of_lt fun p hp' => ?_
                have hm : p.1 ∈ ts.map (·.1) := List.mem_map_of_mem hp'
                rw [hk] at hm
                simp only [List.map_map, List.mem_map, Function.comp] at hm
                obtain ⟨q, hq, e⟩ := hm
                have := hp.1 q hq
                rw [← e]; exact this
              rw [this, if_pos rfl]
              simp [Row.get]
            · rw [if_neg hi]
              simp [Row.get, show ¬ k = i from fun h => hi h.symm]

/-- The code computes a row with the values that the updates end in. -/
def Act.Row (n : Nat) (x : Act ω χ X (GBTL.Row τ)) (T : Op ω X (Nat → Option τ)) : Prop :=
  ∀ w c, match T w with
    | (.error e, w') => x (w, c) = (.error (.op e), (w', c))
    | (.ok f, w') => ∃ t, x (w, c) = (.ok t, (w', c)) ∧ Row.OK n t ∧ ∀ j, Row.get t j = f j

theorem call_bind {f : Op ω X σ} {g : σ → Act ω χ X τ} (s : ω × χ) :
    (call f >>= g) s = match f s.1 with
      | (.ok a, w') => g a (w', s.2)
      | (.error x, w') => (.error (.op x), (w', s.2)) := by
  obtain ⟨w, c⟩ := s
  cases hf : f w with
  | mk r w1 =>
    cases r with
    | error x => exact Act.bind_error (Act.call_error hf)
    | ok y => exact Act.bind_ok (Act.call_ok hf)

theorem axpyE_eq (add : τ → τ → Op ω X τ) (mult : α → β → Op ω X τ) (a : α) :
    ∀ {b : Row β} {t : Row τ}, Row.Sorted t → Row.Sorted b → (axpyE add mult a t b : Act ω χ X _) =
      (call (callAll (b.map fun p => (p.1, addTo add (mult a p.2) (Row.get t p.1)))) >>= fun ts =>
        pure (xpey (fun _ y => y) id t ts))
  | [], t, ht, _ => by unfold axpyE; rfl
  | (j, y) :: bs, t, ht, hb => by
    rw [Row.sorted_cons] at hb
    obtain ⟨a1, a2, a3⟩ := Row.after_spec (j := j) ht
    have ih := axpyE_eq add mult a a1 hb.2
    have e : (bs.map fun p => (p.1, addTo add (mult a p.2) (Row.get (Row.after j t) p.1))) =
        bs.map fun p => (p.1, addTo add (mult a p.2) (Row.get t p.1)) := by
      refine List.map_congr_left fun p h => ?_
      rw [a3, if_pos (hb.1 p h)]
    rw [e] at ih
    funext s
    obtain ⟨w, c⟩ := s
    rw [call_bind]
    unfold axpyE
    rw [call_bind, Row.headIs_dropBelow ht]
    simp only [List.map_cons, callAll, addTo, Op.andThen]
    cases hm : mult a y w with
    | mk q w1 =>
      cases q with
      | error x => rfl
      | ok v =>
        dsimp only
        have hafter : Row.after j t = match Row.get t j with
          | some _ => (dropBelow j t).tail
          | none => dropBelow j t := by
          unfold Row.after; rw [Row.headIs_dropBelow ht]; cases Row.get t j <;> rfl
        cases hg : Row.get t j with
        | none =>
          rw [hg] at hafter
          dsimp only at hafter ⊢
          rw [← hafter, ih, Act.bind_assoc', call_bind]
          simp only [Op.ret]
          cases hc : callAll (bs.map fun p => (p.1, addTo add (mult a p.2) (Row.get t p.1))) w1 with
          | mk q w2 =>
            simp only [addTo, Op.andThen] at hc
            rw [hc]
            cases q with
            | error x => rfl
            | ok ts =>
              dsimp only
              rw [xpey_cons _ _ _ _ _ _ ht, hg]
              rfl
        | some x =>
          rw [hg] at hafter
          dsimp only at hafter ⊢
          rw [call_bind]
          cases hx : add x v w1 with
          | mk q w2 =>
            cases q with
            | error x => rfl
            | ok z =>
              dsimp only
              rw [← hafter, ih, Act.bind_assoc', call_bind]
              cases hc : callAll (bs.map fun p => (p.1, addTo add (mult a p.2) (Row.get t p.1))) w2 with
              | mk q w3 =>
                simp only [addTo, Op.andThen] at hc
                rw [hc]
                cases q with
                | error x => rfl
                | ok ts =>
                  dsimp only
                  rw [xpey_cons _ _ _ _ _ _ ht, hg]
                  rfl

theorem xpeyE_eq (op : τ → β → Op ω X τ) (cast : β → τ) :
    ∀ {b : Row β} {t : Row τ}, Row.Sorted t → Row.Sorted b → (xpeyE op cast t b : Act ω χ X _) =
      (call (callAll (b.map fun p => (p.1, reduceTo op cast p.2 (Row.get t p.1)))) >>= fun ts =>
        pure (xpey (fun _ y => y) id t ts))
  | [], t, ht, _ => by unfold xpeyE; rfl
  | (j, y) :: bs, t, ht, hb => by
    rw [Row.sorted_cons] at hb
    obtain ⟨a1, a2, a3⟩ := Row.after_spec (j := j) ht
    have ih := xpeyE_eq op cast a1 hb.2
    have e : (bs.map fun p => (p.1, reduceTo op cast p.2 (Row.get (Row.after j t) p.1))) =
        bs.map fun p => (p.1, reduceTo op cast p.2 (Row.get t p.1)) := by
      refine List.map_congr_left fun p h => ?_
      rw [a3, if_pos (hb.1 p h)]
    rw [e] at ih
    funext s
    obtain ⟨w, c⟩ := s
    rw [call_bind]
    unfold xpeyE
    rw [Row.headIs_dropBelow ht]
    simp only [List.map_cons, callAll]
    have hafter : Row.after j t = match Row.get t j with
      | some _ => (dropBelow j t).tail
      | none => dropBelow j t := by
      unfold Row.after; rw [Row.headIs_dropBelow ht]; cases Row.get t j <;> rfl
    cases hg : Row.get t j with
    | none =>
      rw [hg] at hafter
      dsimp only at hafter ⊢
      rw [← hafter, ih, Act.bind_assoc', call_bind]
      simp only [reduceTo, Op.ret]
      cases hc : callAll (bs.map fun p => (p.1, reduceTo op cast p.2 (Row.get t p.1))) w with
      | mk q w2 =>
        simp only [reduceTo] at hc
        rw [hc]
        cases q with
        | error x => rfl
        | ok ts =>
          dsimp only
          rw [xpey_cons _ _ _ _ _ _ ht, hg]
          rfl
    | some x =>
      rw [hg] at hafter
      dsimp only at hafter ⊢
      rw [call_bind]
      simp only [reduceTo]
      cases hx : op x y w with
      | mk q w2 =>
        cases q with
        | error x => rfl
        | ok z =>
          dsimp only
          rw [← hafter, ih, Act.bind_assoc', call_bind]
          cases hc : callAll (bs.map fun p => (p.1, reduceTo op cast p.2 (Row.get t p.1))) w2 with
          | mk q w3 =>
            simp only [reduceTo] at hc
            rw [hc]
            cases q with
            | error x => rfl
            | ok ts =>
              dsimp only
              rw [xpey_cons _ _ _ _ _ _ ht, hg]
              rfl

/-- A batch of calls merged into a row. -/
theorem batch_row {n : Nat} {t : Row τ} {b : Row β} {f : β → Option τ → Op ω X τ} (ht : Row.OK n t)
    (hb : Row.OK n b) : Act.Row n (χ := χ) (call (callAll (b.map fun p => (p.1, f p.2 (Row.get t p.1)))) >>=
      fun ts => pure (xpey (fun _ y => y) id t ts))
      (updateAll (b.map fun p => (p.1, f p.2)) (Row.get t)) := by
  intro w c
  have hp : (b.map fun p => (p.1, f p.2)).Pairwise fun p q => p.1 < q.1 := List.pairwise_map.2 hb.sorted
  rw [updateAll_batch hp, call_bind]
  simp only [List.map_map, Function.comp_def, Op.andThen]
  cases hc : callAll (b.map fun p => (p.1, f p.2 (Row.get t p.1))) w with
  | mk q w1 =>
    cases q with
    | error x => rfl
    | ok ts =>
      have hts : Row.OK n ts := callAll_ok hc (by
        constructor
        · exact List.pairwise_map.2 hb.sorted
        · intro p hp
          obtain ⟨q, hq, e⟩ := List.mem_map.1 hp
          rw [← e]; exact hb.bound q hq)
      refine ⟨_, rfl, xpey_ok ht hts, fun j => ?_⟩
      rw [(xpey_spec ts hts.sorted t ht.sorted).2 j]
      show _ = (Row.get ts j).or (Row.get t j)
      cases Row.get t j <;> cases Row.get ts j <;> rfl

theorem axpyE_row {n : Nat} (add : τ → τ → Op ω X τ) (mult : α → β → Op ω X τ) (a : α) {t : Row τ}
    {b : Row β} (ht : Row.OK n t) (hb : Row.OK n b) :
    Act.Row n (axpyE add mult a t b : Act ω χ X _)
      (updateAll (b.map fun p => (p.1, addTo add (mult a p.2))) (Row.get t)) := by
  rw [axpyE_eq add mult a ht.sorted hb.sorted]
  exact batch_row (f := fun y => addTo add (mult a y)) ht hb

theorem xpeyE_row {n : Nat} (op : τ → β → Op ω X τ) (cast : β → τ) {t : Row τ}
    {b : Row β} (ht : Row.OK n t) (hb : Row.OK n b) :
    Act.Row n (xpeyE op cast t b : Act ω χ X _)
      (updateAll (b.map fun p => (p.1, reduceTo op cast p.2)) (Row.get t)) := by
  rw [xpeyE_eq op cast ht.sorted hb.sorted]
  exact batch_row (f := fun y => reduceTo op cast y) ht hb

theorem ret_row {n : Nat} {t : Row τ} (ht : Row.OK n t) :
    Act.Row n (pure t : Act ω χ X _) (Op.ret (Row.get t)) :=
  fun _ _ => ⟨t, rfl, ht, fun _ => rfl⟩

/-- One batch after the other. -/
theorem loop_row {n m : Nat} {L : Nat → List (Nat × (Option τ → Op ω X τ))}
    {body : Nat → Row τ → Act ω χ X (Row τ)}
    (hb : ∀ i t, i < m → Row.OK n t → Act.Row n (body i t) (updateAll (L i) (Row.get t))) :
    ∀ k, k ≤ m → Act.Row n (forA k [] body) (updateAll ((List.range k).flatMap L) fun _ => none)
  | 0, _ => fun _ _ => ⟨[], rfl, Row.OK.nil, fun _ => rfl⟩
  | k + 1, hk => by
    intro w c
    have ih := loop_row hb k (by omega) w c
    rw [forA_succ, List.range_succ, List.flatMap_append, updateAll_append]
    simp only [List.flatMap_cons, List.flatMap_nil, List.append_nil, Op.andThen]
    cases hu : updateAll ((List.range k).flatMap L) (fun _ => none) w with
    | mk q w1 =>
      rw [hu] at ih
      cases q with
      | error x => exact Act.bind_error ih
      | ok f =>
        obtain ⟨t, e, ht, hg⟩ := ih
        have h := hb k t (by omega) ht w1 c
        have hf : Row.get t = f := funext hg
        rw [hf] at h
        rw [Act.bind_ok e]
        exact h

theorem row_map_stored {n : Nat} {b : Row β} (hb : Row.OK n b) {g : β → σ} {f : Nat → Option β}
    (h : ∀ j, j < n → Row.get b j = f j) :
    (b.map fun p => (p.1, g p.2)) = stored n fun j => (f j).map g := by
  have e : (b.map fun p => (p.1, g p.2)) = Row.cast g b := rfl
  rw [e, stored_eq]
  refine Row.eq_ofFun hb.cast fun j hj => ?_
  rw [Row.get_cast, h j hj]

theorem stored_flatMap {u : Vec α} {g : Nat × α → List σ} : ∀ m, (stored m u).flatMap g =
    (List.range m).flatMap fun k => match u k with | none => [] | some x => g (k, x)
  | 0 => rfl
  | m + 1 => by
    have ih := stored_flatMap (u := u) (g := g) m
    unfold stored at ih ⊢
    rw [List.range_succ, List.filterMap_append, List.flatMap_append, List.flatMap_append, ih]
    cases h : u m <;> simp [h]

theorem stored_lil {A : Lil α} (hA : A.WFr) (i : Nat) : stored A.ncols (A.get i) = A.rowD i :=
  (Row.eq_ofFun (hA.rowD_ok i) fun _ _ => rfl).symm

theorem vxmAE_row (add : τ → τ → Op ω X τ) (mult : β → α → Op ω X τ) {u : BVec β} {A : Lil α}
    (hu : u.WF) (hA : A.WF) (hs : u.size = A.nrows) :
    Act.Row A.ncols (vxmAE add mult u A : Act ω χ X _)
      (updateAll (vxmUpdates add mult u.size A.ncols u.get A.get) fun _ => none) := by
  unfold vxmUpdates
  simp only [stored_flatMap, stored_lil hA.toWFr]
  unfold vxmAE
  split
  · refine loop_row (m := u.size) (fun i t hi ht => ?_) u.size (Nat.le_refl _)
    have hr := hA.toWFr.rowD_ok i
    rw [BVec.hasElement_spec hu hi]
    cases hx : u.get i with
    | none =>
      intro w c
      exact ⟨t, rfl, ht, fun _ => rfl⟩
    | some x =>
      rw [hA.toWFr.row_ok (by omega), BVec.extractElement_spec hu hi hx]
      dsimp only
      cases ha : A.rowD i with
      | nil => exact fun w c => ⟨t, rfl, ht, fun _ => rfl⟩
      | cons p r => rw [ha] at hr; exact axpyE_row add mult x ht hr
  · rename_i h
    have e : ((List.range u.size).flatMap fun k => match u.get k with
        | none => []
        | some x => (A.rowD k).map fun q => (q.1, addTo add (mult x q.2))) = [] := by
      rw [List.flatMap_eq_nil_iff]
      intro k _
      cases hx : u.get k with
      | none => rfl
      | some x =>
        by_cases hn : A.nvals = 0
        · rw [← stored_lil hA.toWFr, stored_none fun j _ => hA.get_none_of_nvals hn k j]; rfl
        · have : u.nvals = 0 := by
            simp only [Bool.and_eq_true, decide_eq_true_eq] at h
            omega
          rw [hu.get_none_of_nvals this] at hx
          cases hx
    rw [e]
    exact fun w c => ⟨[], rfl, Row.OK.nil, fun _ => rfl⟩

theorem reduceColsE_row (op' : τ → α → Op ω X τ) (cast1 : α → τ) {A : Lil α} (hA : A.WF) :
    Act.Row A.ncols (reduceColsE op' cast1 A : Act ω χ X _)
      (updateAll ((List.range A.nrows).flatMap fun i =>
        stored A.ncols fun j => (A.get i j).map fun x => reduceTo op' cast1 x) fun _ => none) := by
  unfold reduceColsE
  split
  · refine loop_row (m := A.nrows) (fun i t hi ht => ?_) A.nrows (Nat.le_refl _)
    have hr := hA.toWFr.rowD_ok i
    rw [hA.toWFr.row_ok (by omega)]
    rw [← row_map_stored (b := A.rowD i) hr (g := fun y => reduceTo op' cast1 y) (f := A.get i)
      fun j _ => rfl]
    cases ha : A.rowD i with
    | nil => exact fun w c => ⟨t, rfl, ht, fun _ => rfl⟩
    | cons p r => rw [ha] at hr; exact xpeyE_row op' cast1 ht hr
  · have e : ((List.range A.nrows).flatMap fun i =>
        stored A.ncols fun j => (A.get i j).map fun x => reduceTo op' cast1 x) = [] := by
      rw [List.flatMap_eq_nil_iff]
      intro k _
      refine stored_none fun j _ => ?_
      rw [hA.get_none_of_nvals (by omega)]; rfl
    rw [e]
    exact fun w c => ⟨[], rfl, Row.OK.nil, fun _ => rfl⟩

theorem EVOut.op_updates {o : EVOut ω X γ τ ζ μ} {checks : BVec γ → Except Err Unit}
    {t : BVec γ → Act ω (BVec γ) X (Row τ)} {c : BVec γ} {T : Op ω X (Vec τ)} (w : ω)
    (hc : c.WF) (hm : o.m.WF) (hf : o.m.Fits c.size) (hk : checks c = .ok ())
    (ht : Act.Row c.size (t c) T) : o.MakesThen T w c (o.op checks t) := by
  have e1 : o.op checks t (w, c) = (t c >>= fun t => output >>= fun w => accumVecE w o.acc t >>=
      fun z => output >>= fun w =>
        lib (writeWithOptMask1D o.truthy o.castZ w z o.m o.outp) >>= store) (w, c) := by
    unfold EVOut.op
    rw [Act.bind_output, Act.bind_ok (Act.lib_ok hk)]
  have h := ht w c
  unfold EVOut.MakesThen
  rw [e1]
  unfold Op.andThen
  cases h1 : T w with
  | mk r w1 =>
    rw [h1] at h
    cases r with
    | error x =>
      dsimp only
      rw [Act.bind_error h]
    | ok f =>
      dsimp only
      obtain ⟨ts, t1, hts, t2⟩ := h
      rw [Act.bind_ok t1, Act.bind_output, accumVecE_eq hc o.acc hts]
      simp only [t2]
      cases h2 : callAll (stored c.size fun i => Spec.accum o.acc.calls (c.get i) (f i)) w1 with
      | mk r w2 =>
        cases r with
        | error x =>
          dsimp only
          rw [Act.bind_error (Act.call_error h2)]
        | ok zs =>
          dsimp only
          have hzs : Row.OK c.size zs := callAll_ok h2 (Row.ofFun_ok _ _)
          obtain ⟨c', g1, g2, g3, g4⟩ := writeWithOptMask1D_spec o.truthy o.castZ o.m o.outp hc hzs
            (VMask.ok_of hm hf)
          rw [Act.bind_ok (Act.call_ok h2), Act.bind_output,
            Act.bind_ok (Act.lib_ok g1)]
          exact ⟨c', rfl, ⟨g2, g3, fun i _ => by rw [resultAt_eq]; exact g4 i⟩⟩

/-- Updates of one row of a matrix. -/
theorem updateAll_in_row (i : Nat) : ∀ (l : List (Nat × (Option τ → Op ω X τ))) (M : Nat × Nat → Option τ),
    updateAll (l.map fun p => ((i, p.1), p.2)) M =
      (updateAll l fun j => M (i, j)).andThen fun f => Op.ret fun q => if q.1 = i then f q.2 else M q
  | [], M => by
    funext w
    show (_, _) = (_, _)
    congr 2
    funext q
    obtain ⟨a, b⟩ := q
    dsimp only
    split
    · next h => subst h; rfl
    · rfl
  | (k, f) :: r, M => by
    show (f (M (i, k))).andThen _ = ((f (M (i, k))).andThen _).andThen _
    rw [andThen_assoc]
    congr 1
    funext v
    rw [updateAll_in_row i r]
    have e : (fun j => if ((i, j) : Nat × Nat) = (i, k) then some v else M (i, j)) =
        fun j => if j = k then some v else M (i, j) := by
      funext j
      simp
    rw [e]
    congr 1
    funext g
    congr 1
    funext q
    by_cases h : q.1 = i
    · rw [if_pos h, if_pos h]
    · rw [if_neg h, if_neg h, if_neg (fun e => h (by rw [e]))]

/-- The code computes a matrix with the values that the updates end in. -/
def Act.Mat (m n : Nat) (x : Act ω χ X (Lil τ)) (T : Op ω X (Nat × Nat → Option τ)) : Prop :=
  ∀ w c, match T w with
    | (.error e, w') => x (w, c) = (.error (.op e), (w', c))
    | (.ok f, w') => ∃ T', x (w, c) = (.ok T', (w', c)) ∧ T'.WFr ∧ T'.nrows = m ∧ T'.ncols = n ∧
        ∀ i j, T'.get i j = f (i, j)

theorem Act.Mat.of_ret {m n : Nat} {T : Lil τ} (hT : T.WFr) (h1 : T.nrows = m) (h2 : T.ncols = n)
    {f : Nat × Nat → Option τ} (hg : ∀ i j, T.get i j = f (i, j)) :
    Act.Mat m n (pure T : Act ω χ X _) (Op.ret f) :=
  fun _ _ => ⟨T, rfl, hT, h1, h2, hg⟩

/-- One step after another. -/
theorem Act.Mat.bind {m n : Nat} {x : Act ω χ X (Lil τ)} {l1 l2 : List ((Nat × Nat) × (Option τ → Op ω X τ))}
    {M : Nat × Nat → Option τ} {g : Lil τ → Act ω χ X (Lil τ)} (h : Act.Mat m n x (updateAll l1 M))
    (hg : ∀ T, T.WFr → T.nrows = m → T.ncols = n →
      Act.Mat m n (g T) (updateAll l2 fun p => T.get p.1 p.2)) :
    Act.Mat m n (x >>= g) (updateAll (l1 ++ l2) M) := by
  intro w c
  have h := h w c
  rw [updateAll_append]
  unfold Op.andThen
  cases hu : updateAll l1 M w with
  | mk q w1 =>
    rw [hu] at h
    cases q with
    | error x => exact Act.bind_error h
    | ok f =>
      obtain ⟨T, e, h1, h2, h3, h4⟩ := h
      have h5 := hg T h1 h2 h3 w1 c
      rw [show (fun p : Nat × Nat => T.get p.1 p.2) = f from funext fun p => h4 p.1 p.2] at h5
      rw [Act.bind_ok e]
      exact h5

/-- A row of the matrix is taken out, updated and put back. -/
theorem row_step {m n i : Nat} {T : Lil τ} {x : Row τ → Act ω χ X (Row τ)}
    {l : List (Nat × (Option τ → Op ω X τ))} (hT : T.WFr) (h1 : T.nrows = m) (h2 : T.ncols = n) (hi : i < m)
    (hx : Act.Row n (x (T.rowD i)) (updateAll l (Row.get (T.rowD i)))) :
    Act.Mat m n (lib (T.row i) >>= fun t => x t >>= fun r => lib (T.pokeRow i r))
      (updateAll (l.map fun p => ((i, p.1), p.2)) fun p => T.get p.1 p.2) := by
  intro w c
  have h := hx w c
  rw [updateAll_in_row, hT.row_ok (by omega)]
  rw [show (fun j => T.get i j) = Row.get (T.rowD i) from rfl]
  unfold Op.andThen
  rw [Act.bind_ok (Act.lib_ok rfl)]
  cases hu : updateAll l (Row.get (T.rowD i)) w with
  | mk q w1 =>
    rw [hu] at h
    cases q with
    | error x => exact Act.bind_error h
    | ok f =>
      obtain ⟨r, e, hr, hg⟩ := h
      obtain ⟨T1, e1, v1, v2, v3, _, v4⟩ := Lil.pokeRow_spec (i := i) (r := r) hT (by omega) (by rw [h2]; exact hr)
      rw [Act.bind_ok e]
      refine ⟨T1, Act.lib_ok e1, v1, v2.trans h1, v3.trans h2, fun a b => ?_⟩
      show Row.get (T1.rowD a) b = if a = i then f b else T.get a b
      rw [v4]
      split
      · exact hg b
      · rfl

/-- A list of steps. -/
theorem foldlM_mat {m n : Nat} {L : α → List ((Nat × Nat) × (Option τ → Op ω X τ))}
    {body : Lil τ → α → Act ω χ X (Lil τ)} : ∀ (l : List α) (T : Lil τ),
    (∀ p ∈ l, ∀ T, T.WFr → T.nrows = m → T.ncols = n →
      Act.Mat m n (body T p) (updateAll (L p) fun p => T.get p.1 p.2)) →
    T.WFr → T.nrows = m → T.ncols = n →
    Act.Mat m n (l.foldlM body T) (updateAll (l.flatMap L) fun p => T.get p.1 p.2)
  | [], T, _, h1, h2, h3 => Act.Mat.of_ret h1 h2 h3 fun _ _ => rfl
  | p :: r, T, hb, h1, h2, h3 => by
    rw [List.foldlM_cons, List.flatMap_cons]
    exact Act.Mat.bind (hb p (List.mem_cons_self ..) T h1 h2 h3) fun T' g1 g2 g3 =>
      foldlM_mat r T' (fun q hq => hb q (List.mem_cons_of_mem _ hq)) g1 g2 g3

theorem forA_mat {m n l : Nat} {L : Nat → List ((Nat × Nat) × (Option τ → Op ω X τ))}
    {body : Nat → Lil τ → Act ω χ X (Lil τ)}
    (hb : ∀ k, k < l → ∀ T, T.WFr → T.nrows = m → T.ncols = n →
      Act.Mat m n (body k T) (updateAll (L k) fun p => T.get p.1 p.2)) :
    ∀ k, k ≤ l → Act.Mat m n (forA k (Lil.new m n) body)
      (updateAll ((List.range k).flatMap L) fun _ => none)
  | 0, _ => Act.Mat.of_ret (Lil.new_wf _ _).toWFr rfl rfl fun i j => Lil.get_new m n i j
  | k + 1, hk => by
    rw [forA_succ, List.range_succ, List.flatMap_append]
    refine Act.Mat.bind (forA_mat hb k (by omega)) fun T g1 g2 g3 => ?_
    simp only [List.flatMap_cons, List.flatMap_nil, List.append_nil]
    exact hb k (by omega) T g1 g2 g3

theorem mxmABE_mat (add : τ → τ → Op ω X τ) (mult : α → β → Op ω X τ) {C : Lil γ} {A : Lil α} {B : Lil β}
    (hA : A.WF) (hB : B.WF) (hr : C.nrows = A.nrows) (hc : C.ncols = B.ncols) (hi : A.ncols = B.nrows) :
    Act.Mat C.nrows C.ncols (mxmABE C add mult A B : Act ω χ X _)
      (updateAll (mxmUpdates add mult A.nrows A.ncols B.ncols A.get B.get) fun _ => none) := by
  unfold mxmABE mxmUpdates
  refine forA_mat (l := A.nrows) (fun i hi' T h1 h2 h3 => ?_) _ (Nat.le_refl _)
  rw [hA.toWFr.row_ok hi']
  show Act.Mat _ _ (List.foldlM _ T (A.rowD i)) _
  unfold vxmUpdates
  rw [stored_lil hA.toWFr, List.map_flatMap]
  refine foldlM_mat _ T (fun p hp T h1 h2 h3 => ?_) h1 h2 h3
  have hp' : p.1 < B.nrows := by rw [← hi]; exact (hA.toWFr.rowD_ok i).bound p hp
  have hb := hB.toWFr.rowD_ok p.1
  rw [hB.toWFr.row_ok hp', stored_lil hB.toWFr]
  cases hb' : B.rowD p.1 with
  | nil => exact Act.Mat.of_ret h1 h2 h3 fun _ _ => rfl
  | cons q r =>
    rw [hb'] at hb
    exact row_step (x := fun t => axpyE add mult p.2 t (q :: r)) h1 h2 h3 (by omega)
      (axpyE_row add mult p.2 (by rw [← h3]; exact h1.rowD_ok i) (by rw [hc]; exact hb))

theorem mxmATBE_mat (add : τ → τ → Op ω X τ) (mult : α → β → Op ω X τ) {C : Lil γ} {A : Lil α} {B : Lil β}
    (hA : A.WF) (hB : B.WF) (hr : C.nrows = A.ncols) (hc : C.ncols = B.ncols) (hi : A.nrows = B.nrows) :
    Act.Mat C.nrows C.ncols (mxmATBE C add mult A B : Act ω χ X _)
      (updateAll (mxmTUpdates add mult A.nrows A.ncols B.ncols A.get B.get) fun _ => none) := by
  unfold mxmATBE mxmTUpdates
  refine forA_mat (l := A.nrows) (fun k hk T h1 h2 h3 => ?_) _ (Nat.le_refl _)
  have hb := hB.toWFr.rowD_ok k
  have ha := hA.toWFr.rowD_ok k
  rw [hA.toWFr.row_ok hk, hB.toWFr.row_ok (by omega), stored_lil hA.toWFr, stored_lil hB.toWFr]
  cases ha' : A.rowD k with
  | nil => exact Act.Mat.of_ret h1 h2 h3 fun _ _ => rfl
  | cons a ar =>
    cases hb' : B.rowD k with
    | nil =>
      have e : ((a :: ar).flatMap fun p => ([] : Row β).map fun q =>
          ((p.1, q.1), addTo add (mult p.2 q.2))) = [] := by simp
      rw [e]
      exact Act.Mat.of_ret h1 h2 h3 fun _ _ => rfl
    | cons b br =>
      rw [ha'] at ha
      rw [hb'] at hb
      show Act.Mat _ _ (List.foldlM (fun T p => lib (T.row p.1) >>= fun t =>
        axpyE add mult p.2 t (b :: br) >>= fun r => lib (T.pokeRow p.1 r)) T (a :: ar)) _
      refine foldlM_mat _ T (fun p hp T h1 h2 h3 => ?_) h1 h2 h3
      have := row_step (χ := χ) (x := fun t => axpyE add mult p.2 t (b :: br)) h1 h2 h3
        (i := p.1) (by rw [hr]; exact ha.bound p hp)
        (axpyE_row add mult p.2 (by rw [← h3]; exact h1.rowD_ok p.1) (by rw [hc]; exact hb))
      rw [List.map_map] at this
      exact this

theorem EMOut.op_updates {o : EMOut ω X γ τ ζ μ} {checks : Lil γ → Except Err Unit}
    {T : Lil γ → Act ω (Lil γ) X (Lil τ)} {C : Lil γ} {F : Op ω X (Nat × Nat → Option τ)} (w : ω)
    (hC : C.WF) (hm : o.M.WF) (hf : o.M.Fits C.nrows C.ncols) (hk : checks C = .ok ())
    (hT : Act.Mat C.nrows C.ncols (T C) F) : o.MakesThen F w C (o.op checks T) := by
  have e1 : o.op checks T (w, C) = (T C >>= fun T => output >>= fun C => accumMatE C o.acc T >>=
      fun Z => output >>= fun C =>
        lib (writeWithOptMask o.truthy o.castZ C Z o.M o.outp) >>= store) (w, C) := by
    unfold EMOut.op
    rw [Act.bind_output, Act.bind_ok (Act.lib_ok hk)]
  have h := hT w C
  unfold EMOut.MakesThen
  rw [e1]
  unfold Op.andThen
  cases h1 : F w with
  | mk r w1 =>
    rw [h1] at h
    cases r with
    | error x =>
      dsimp only
      rw [Act.bind_error h]
    | ok f =>
      dsimp only
      obtain ⟨T', t1, t2, t3, t4, t5⟩ := h
      have h' := accumMatE_fills hC o.acc t2 t3 t4 w1 C
      rw [Act.bind_ok t1, Act.bind_output]
      simp only [t5] at h'
      cases h2 : callAll (storedMat C.nrows C.ncols fun i j =>
          Spec.accum o.acc.calls (C.get i j) (f (i, j))) w1 with
      | mk r w2 =>
        rw [h2] at h'
        cases r with
        | error x =>
          dsimp only
          rw [Act.bind_error h']
        | ok zs =>
          dsimp only
          obtain ⟨Z, z1, z2, z3, z4, z5⟩ := h'
          obtain ⟨C', g1, g2, g3, g4, g5⟩ := writeWithOptMask_spec o.truthy o.castZ o.M o.outp hC z2 z3
            z4 (MMask.ok_of hm hf)
          rw [Act.bind_ok z1, Act.bind_output, Act.bind_ok (Act.lib_ok g1)]
          exact ⟨C', rfl, ⟨g2, g3, g4, fun i j _ _ => by rw [g5, z5]; rfl⟩⟩

/-- A row is put into a column. -/
theorem scatter_spec (via : τ → τ) {m n i : Nat} (hi : i < n) : ∀ (tr : Row τ), Row.OK m tr →
    ∀ (T : Lil τ), T.WFr → T.nrows = m → T.ncols = n → (∀ k, ∀ p ∈ T.rowD k, p.1 < i) →
    ∃ T', tr.foldlM (fun T p => do
        let t ← T.row p.1
        T.pokeRow p.1 (t ++ [(i, via p.2)])) T = Except.ok T' ∧ T'.WFr ∧
      T'.nrows = m ∧ T'.ncols = n ∧
      ∀ k, T'.rowD k = match Row.get tr k with
        | some x => T.rowD k ++ [(i, via x)]
        | none => T.rowD k := by
  suffices ∀ (tr : Row τ), Row.OK m tr →
      ∀ (T : Lil τ), T.WFr → T.nrows = m → T.ncols = n →
      (∀ k, (Row.get tr k).isSome → ∀ p ∈ T.rowD k, p.1 < i) →
      ∃ T', tr.foldlM (fun T p => do
          let t ← T.row p.1
          T.pokeRow p.1 (t ++ [(i, via p.2)])) T = Except.ok T' ∧ T'.WFr ∧
        T'.nrows = m ∧ T'.ncols = n ∧
        ∀ k, T'.rowD k = match Row.get tr k with
          | some x => T.rowD k ++ [(i, via x)]
          | none => T.rowD k by
    exact fun tr h1 T h2 h3 h4 h5 => this tr h1 T h2 h3 h4 fun k _ => h5 k
  intro tr
  induction tr with
  | nil => intro _ T hT hr hc _; exact ⟨T, rfl, hT, hr, hc, fun k => rfl⟩
  | cons p a ih =>
    obtain ⟨pi, px⟩ := p
    intro hok T hT hr hc hlow
    have hs := hok.sorted
    rw [Row.sorted_cons] at hs
    have hp := hok.bound (pi, px) (List.mem_cons_self ..)
    simp only at hp
    rw [List.foldlM_cons]
    simp only [hT.row_ok (show pi < T.nrows by omega), Except.bind_ok']
    obtain ⟨T1, e1, v1, v2, v3, _, v4⟩ := Lil.pokeRow_spec (i := pi)
      (r := T.rowD pi ++ [(i, via px)]) hT (by omega)
      (ok_append_last (hT.rowD_ok pi) (hlow pi (by rw [Row.get_cons, if_pos rfl]; rfl)) (by omega))
    rw [e1]
    simp only [Except.bind_ok']
    have hnone : Row.get a pi = none := Row.get_none_of_lt fun p hp => hs.1 p hp
    obtain ⟨T', e, w1, w2, w3, w4⟩ := ih hok.tail T1 v1 (by omega) (by omega) (by
      intro k hk p hp
      rw [v4] at hp
      have hne : k ≠ pi := by rintro rfl; rw [hnone] at hk; simp at hk
      rw [if_neg hne] at hp
      exact hlow k (by rw [Row.get_cons, if_neg (Ne.symm hne)]; exact hk) p hp)
    refine ⟨T', e, w1, w2, w3, ?_⟩
    intro k
    rw [w4, v4, Row.get_cons]
    by_cases hk : k = pi
    · subst hk
      rw [hnone, if_pos rfl, if_pos rfl]
    · rw [if_neg hk, if_neg (Ne.symm hk)]

/-- A list of steps on a row. -/
theorem foldlM_row {n : Nat} {L : α → List (Nat × (Option τ → Op ω X τ))}
    {body : Row τ → α → Act ω χ X (Row τ)} : ∀ (l : List α) (t : Row τ),
    (∀ p ∈ l, ∀ t, Row.OK n t → Act.Row n (body t p) (updateAll (L p) (Row.get t))) →
    Row.OK n t → Act.Row n (l.foldlM body t) (updateAll (l.flatMap L) (Row.get t))
  | [], t, _, ht => ret_row ht
  | p :: r, t, hb, ht => by
    intro w c
    have h := hb p (List.mem_cons_self ..) t ht w c
    rw [List.foldlM_cons, List.flatMap_cons, updateAll_append]
    unfold Op.andThen
    cases hu : updateAll (L p) (Row.get t) w with
    | mk q w1 =>
      rw [hu] at h
      cases q with
      | error x => exact Act.bind_error h
      | ok f =>
        obtain ⟨t1, e, h1, h2⟩ := h
        have h3 := foldlM_row r t1 (fun q hq => hb q (List.mem_cons_of_mem _ hq)) h1 w1 c
        rw [funext h2] at h3
        rw [Act.bind_ok e]
        exact h3

theorem mxmATBTE_mat (add : τ → τ → Op ω X τ) (mult : β → α → Op ω X τ) (via : τ → τ) {C : Lil γ}
    {A : Lil α} {B : Lil β} (hA : A.WF) (hB : B.WF) (hr : C.nrows = A.ncols) (hc : C.ncols = B.nrows)
    (hi : A.nrows = B.ncols) :
    Act.Mat C.nrows C.ncols (mxmATBTE C add mult via A B : Act ω χ X _)
      ((updateAll (mxmUpdates add mult B.nrows B.ncols A.ncols B.get A.get) fun _ => none).andThen fun M =>
        .ret fun p => (M (p.2, p.1)).map via) := by
  unfold mxmATBTE mxmUpdates
  suffices ∀ k, k ≤ B.nrows → ∀ w c,
      match updateAll ((List.range k).flatMap fun i =>
        (vxmUpdates add mult B.ncols A.ncols (B.get i) A.get).map fun p => ((i, p.1), p.2))
          (fun _ => none) w with
      | (.error e, w') => (forA k (Lil.new C.nrows C.ncols) fun i T => do
          let b ← lib (B.row i)
          let tRow ← b.foldlM (fun (tRow : Row τ) p => do
            let a ← lib (A.row p.1)
            if a.isEmpty then pure tRow else axpyE add mult p.2 tRow a) []
          lib (tRow.foldlM (fun T p => do
            let t ← T.row p.1
            T.pokeRow p.1 (t ++ [(i, via p.2)])) T) : Act ω χ X _) (w, c) = (.error (.op e), (w', c))
      | (.ok F, w') => ∃ T, (forA k (Lil.new C.nrows C.ncols) fun i T => do
          let b ← lib (B.row i)
          let tRow ← b.foldlM (fun (tRow : Row τ) p => do
            let a ← lib (A.row p.1)
            if a.isEmpty then pure tRow else axpyE add mult p.2 tRow a) []
          lib (tRow.foldlM (fun T p => do
            let t ← T.row p.1
            T.pokeRow p.1 (t ++ [(i, via p.2)])) T) : Act ω χ X _) (w, c) = (.ok T, (w', c)) ∧
          T.WFr ∧ T.nrows = C.nrows ∧ T.ncols = C.ncols ∧ (∀ j, ∀ p ∈ T.rowD j, p.1 < k) ∧
          (∀ i j, k ≤ i → F (i, j) = none) ∧ ∀ i j, T.get j i = (F (i, j)).map via by
    intro w c
    have h := this B.nrows (Nat.le_refl _) w c
    unfold Op.andThen
    revert h
    cases updateAll ((List.range B.nrows).flatMap fun i =>
        (vxmUpdates add mult B.ncols A.ncols (B.get i) A.get).map fun p => ((i, p.1), p.2))
          (fun _ => none) w with
    | mk q w1 =>
      cases q with
      | error x => exact fun h => h
      | ok F =>
        rintro ⟨T, e, h1, h2, h3, _, _, h4⟩
        exact ⟨T, e, h1, h2, h3, fun i j => h4 j i⟩
  intro k
  induction k with
  | zero =>
    intro _ w c
    refine ⟨_, rfl, (Lil.new_wf _ _).toWFr, rfl, rfl, fun j p hp => ?_, fun _ _ _ => rfl, fun i j => ?_⟩
    · rw [Lil.rowD_new] at hp; cases hp
    · rw [Lil.get_new]; rfl
  | succ k ih =>
    intro hk w c
    have h := ih (by omega) w c
    rw [forA_succ, List.range_succ, List.flatMap_append, updateAll_append]
    simp only [List.flatMap_cons, List.flatMap_nil, List.append_nil]
    unfold Op.andThen
    generalize hx : (forA k (Lil.new C.nrows C.ncols) _ : Act ω χ X _) = x at h ⊢
    clear hx
    cases hu : updateAll ((List.range k).flatMap fun i =>
        (vxmUpdates add mult B.ncols A.ncols (B.get i) A.get).map fun p => ((i, p.1), p.2))
          (fun _ => none) w with
    | mk q w1 =>
      rw [hu] at h
      cases q with
      | error x => exact Act.bind_error h
      | ok F =>
        obtain ⟨T, e, h1, h2, h3, h4, h5, h6⟩ := h
        rw [Act.bind_ok e, hB.toWFr.row_ok (by omega)]
        dsimp only
        rw [updateAll_in_row, Act.bind_ok (Act.lib_ok rfl)]
        rw [show (fun j => F (k, j)) = fun _ => none from funext fun j => h5 k j (Nat.le_refl _)]
        have hrow : Act.Row A.ncols (χ := χ) ((B.rowD k).foldlM (fun (tRow : Row τ) p => do
            let a ← lib (A.row p.1)
            if a.isEmpty then pure tRow else axpyE add mult p.2 tRow a) [])
            (updateAll (vxmUpdates add mult B.ncols A.ncols (B.get k) A.get) fun _ => none) := by
          unfold vxmUpdates
          rw [stored_lil hB.toWFr]
          refine foldlM_row _ [] (fun p hp t ht => ?_) Row.OK.nil
          have hp' : p.1 < A.nrows := by rw [hi]; exact (hB.toWFr.rowD_ok k).bound p hp
          have ha := hA.toWFr.rowD_ok p.1
          rw [hA.toWFr.row_ok hp', stored_lil hA.toWFr]
          cases ha' : A.rowD p.1 with
          | nil => exact ret_row ht
          | cons q r => rw [ha'] at ha; exact axpyE_row add mult p.2 ht ha
        have h := hrow w1 c
        unfold Op.andThen
        cases hv : updateAll (vxmUpdates add mult B.ncols A.ncols (B.get k) A.get) (fun _ => none) w1 with
        | mk q w2 =>
          rw [hv] at h
          cases q with
          | error x => exact Act.bind_error h
          | ok f =>
            obtain ⟨tr, e1, g1, g2⟩ := h
            obtain ⟨T', e2, v1, v2, v3, v4⟩ := scatter_spec via (m := C.nrows) (n := C.ncols) (i := k)
              (by omega) tr (by rw [hr]; exact g1) T h1 h2 h3 h4
            rw [Act.bind_ok e1]
            refine ⟨T', Act.lib_ok e2, v1, v2, v3, fun j p hp => ?_, fun i j hij => ?_, fun i j => ?_⟩
            · rw [v4] at hp
              cases hg : Row.get tr j with
              | none => rw [hg] at hp; have := h4 j p hp; omega
              | some x =>
                rw [hg] at hp
                rcases List.mem_append.1 hp with hp | hp
                · have := h4 j p hp; omega
                · rw [List.mem_singleton] at hp; rw [hp]; exact Nat.lt_succ_self k
            · dsimp only
              rw [if_neg (by omega)]
              exact h5 i j (by omega)
            · show Row.get (T'.rowD j) i = Option.map via (if i = k then f j else F (i, j))
              rw [v4, ← g2]
              have hold : Row.get (T.rowD j) k = none := by
                have := h6 k j
                rw [h5 k j (Nat.le_refl _)] at this
                exact this
              cases hg : Row.get tr j with
              | none =>
                dsimp only
                split
                · next h => subst h; rw [hold]; rfl
                · exact h6 i j
              | some x =>
                dsimp only
                rw [Row.get_append]
                split
                · next h => subst h; rw [hold]; simp [Row.get]
                · next h =>
                  rw [show Row.get (T.rowD j) i = (F (i, j)).map via from h6 i j]
                  simp [Row.get, show ¬ k = i from fun e => h e.symm]

end GBTL
