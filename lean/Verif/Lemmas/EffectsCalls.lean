import Verif.Lemmas.EffectsPure
import Verif.Lemmas.Frontend
import Verif.Spec.EffectsFrontend
/-
The calls an operation makes, in the order it makes them.
-/
namespace GBTL
open Spec (Outp MaskKind Accum Op EAccum callAll stored resultAt vecCalls)
open Act (call lib output store)

variable {ω χ X α β γ δ κ τ ζ μ σ : Type}

/-! ### Steps -/

theorem Act.bind_ok {x : Act ω χ X σ} {f : σ → Act ω χ X τ} {s s1 : ω × χ} {a : σ}
    (h : x s = (.ok a, s1)) : (x >>= f) s = f a s1 := by
  show Act.andThen x f s = _
  unfold Act.andThen; rw [h]

theorem Act.bind_error {x : Act ω χ X σ} {f : σ → Act ω χ X τ} {s s1 : ω × χ} {e : Halt X}
    (h : x s = (.error e, s1)) : (x >>= f) s = (.error e, s1) := by
  show Act.andThen x f s = _
  unfold Act.andThen; rw [h]

theorem Act.call_ok {f : Op ω X τ} {w w' : ω} {c : χ} {a : τ} (h : f w = (.ok a, w')) :
    (call f : Act ω χ X τ) (w, c) = (.ok a, (w', c)) := by
  unfold call; simp only [h]

theorem Act.call_error {f : Op ω X τ} {w w' : ω} {c : χ} {x : X} (h : f w = (.error x, w')) :
    (call f : Act ω χ X τ) (w, c) = (.error (.op x), (w', c)) := by
  unfold call; simp only [h]

theorem Act.lib_ok {m : Except Err τ} {s : ω × χ} {a : τ} (h : m = .ok a) :
    (lib m : Act ω χ X τ) s = (.ok a, s) := by rw [h]; rfl

theorem Act.bind_output {f : χ → Act ω χ X τ} {w : ω} {c : χ} :
    ((output : Act ω χ X χ) >>= f) (w, c) = f c (w, c) := rfl

/-! ### Lists of calls -/

theorem call_cons (i : κ) (f : Op ω X τ) (l : List (κ × Op ω X τ)) :
    (call (callAll ((i, f) :: l)) : Act ω χ X _) = (do
      let y ← call f
      let ys ← call (callAll l)
      pure ((i, y) :: ys)) := by
  funext s
  obtain ⟨w, c⟩ := s
  cases hf : f w with
  | mk r w1 =>
    cases r with
    | error x =>
      rw [Act.bind_error (Act.call_error hf), Act.call_error]
      simp only [callAll, hf]
    | ok y =>
      rw [Act.bind_ok (Act.call_ok hf)]
      cases hl : callAll l w1 with
      | mk r w2 =>
        cases r with
        | error x =>
          rw [Act.bind_error (Act.call_error hl), Act.call_error]
          simp only [callAll, hf, hl]
        | ok ys =>
          rw [Act.bind_ok (Act.call_ok hl), Act.call_ok (a := (i, y) :: ys) (w' := w2)]
          · rfl
          · simp only [callAll, hf, hl]

theorem call_nil : (call (callAll ([] : List (κ × Op ω X τ))) : Act ω χ X _) = pure [] := rfl

theorem call_ret (v : τ) : (call (Op.ret v) : Act ω χ X _) = pure v := rfl

theorem Act.pure_bind' (v : σ) (f : σ → Act ω χ X τ) : (pure v >>= f) = f v := rfl

theorem call_cons_ret (i : κ) (v : τ) (l : List (κ × Op ω X τ)) :
    (call (callAll ((i, Op.ret v) :: l)) : Act ω χ X _) = (do
      let ys ← call (callAll l)
      pure ((i, v) :: ys)) := by
  rw [call_cons, call_ret]; rfl

theorem callAll_keys : ∀ {l : List (κ × Op ω X τ)} {w w' : ω} {ts : List (κ × τ)},
    callAll l w = (.ok ts, w') → ts.map (·.1) = l.map (·.1)
  | [], w, w', ts, h => by cases h; rfl
  | (i, f) :: l, w, w', ts, h => by
    unfold callAll at h
    split at h
    · cases h
    · split at h
      · cases h
      · next h2 => cases h; simp [callAll_keys h2]

theorem callAll_ok {n : Nat} {l : Row (Op ω X τ)} {w w' : ω} {ts : Row τ}
    (h : callAll l w = (.ok ts, w')) (hl : Row.OK n l) : Row.OK n ts := by
  have hk := callAll_keys h
  constructor
  · have := hl.sorted
    unfold Row.Sorted at this ⊢
    have h1 : (l.map (·.1)).Pairwise (· < ·) := List.pairwise_map.2 this
    rw [← hk] at h1
    exact List.pairwise_map.1 h1
  · intro p hp
    have : p.1 ∈ l.map (·.1) := by rw [← hk]; exact List.mem_map_of_mem hp
    obtain ⟨q, hq, e⟩ := List.mem_map.1 this
    rw [← e]; exact hl.bound q hq

theorem resultAt_eq (ts : Row τ) (i : Nat) : resultAt ts i = Row.get ts i := by
  induction ts with
  | nil => rfl
  | cons p ts ih =>
    obtain ⟨k, y⟩ := p
    unfold resultAt Row.get
    rw [ih]

theorem stored_eq (n : Nat) (v : Spec.Vec α) : stored n v = Row.ofFun n v := rfl

/-! ### Rows -/

theorem mapRowE_eq (op : α → Op ω X τ) : ∀ r : Row α,
    (mapRowE op r : Act ω χ X _) = call (callAll (Row.cast op r))
  | [] => rfl
  | (i, x) :: r => by
    show _ = call (callAll ((i, op x) :: Row.cast op r))
    rw [call_cons, ← mapRowE_eq op r]; rfl

theorem ewiseOrE_eq (op : α → β → Op ω X δ) (c1 : α → δ) (c2 : β → δ) (r : Row α) (s : Row β) :
    (ewiseOrE op c1 c2 r s : Act ω χ X _) =
      call (callAll (ewiseOr op (fun x => Op.ret (c1 x)) (fun y => Op.ret (c2 y)) r s)) := by
  fun_induction ewiseOrE (χ := χ) op c1 c2 r s with
  | case1 => unfold ewiseOr; rfl
  | case2 i x r ih => unfold ewiseOr; rw [call_cons_ret, ih]
  | case3 j y s ih => unfold ewiseOr; rw [call_cons_ret, ih]
  | case4 x r j y s ih => unfold ewiseOr; rw [if_pos rfl, call_cons, ih]
  | case5 i x r j y s h1 h2 ih => unfold ewiseOr; rw [if_neg h1, if_pos h2, call_cons_ret, ih]
  | case6 i x r j y s h1 h2 ih => unfold ewiseOr; rw [if_neg h1, if_neg h2, call_cons_ret, ih]

theorem ewiseAndE_eq (op : α → β → Op ω X δ) (r : Row α) (s : Row β) :
    (ewiseAndE op r s : Act ω χ X _) = call (callAll (ewiseAnd op r s)) := by
  fun_induction ewiseAndE (χ := χ) op r s with
  | case1 x r j y s ih => unfold ewiseAnd; rw [if_pos rfl, call_cons, ih]
  | case2 i x r j y s h1 h2 ih => unfold ewiseAnd; rw [if_neg h1, if_pos h2, ih]
  | case3 i x r j y s h1 h2 ih => unfold ewiseAnd; rw [if_neg h1, if_neg h2, ih]
  | case4 => unfold ewiseAnd; rfl
  | case5 r hr => cases r <;> (unfold ewiseAnd; rfl)

theorem castE_eq (f : α → τ) : ∀ r : Row α,
    (pure (Row.cast f r) : Act ω χ X _) = call (callAll (Row.cast (fun x => Op.ret (f x)) r))
  | [] => rfl
  | (i, x) :: r => by
    show _ = call (callAll ((i, Op.ret (f x)) :: Row.cast (fun x => Op.ret (f x)) r))
    rw [call_cons_ret, ← castE_eq f r]; rfl

/-! ### Vectors -/

/-- The calls of the accumulator. -/
theorem accumVecE_eq {c : BVec γ} (hc : c.WF) (acc : EAccum ω X γ τ ζ) {t : Row τ}
    (ht : Row.OK c.size t) : (accumVecE c acc t : Act ω χ X _) =
      call (callAll (stored c.size fun i => Spec.accum acc.calls (c.get i) (Row.get t i))) := by
  cases acc with
  | none cast =>
    show (pure (Row.cast cast t) : Act ω χ X _) = _
    rw [castE_eq, stored_eq]
    congr 2
    refine Row.eq_ofFun (Row.OK.cast ht) fun i hi => ?_
    rw [Row.get_cast]; rfl
  | some op cC cT =>
    obtain ⟨r, h1, h2, h3, _⟩ := BVec.getContents_spec hc
    show (lib c.getContents >>= fun c => ewiseOrE op cC cT c t) = _
    rw [h1]
    show ewiseOrE op cC cT r t = _
    rw [ewiseOrE_eq, stored_eq]
    congr 2
    refine Row.eq_ofFun (ewiseOr_ok h2 ht) fun i hi => ?_
    rw [(ewiseOr_spec r t h2.sorted ht.sorted).2, h3]
    rfl

theorem EVOut.op_calls {o : EVOut ω X γ τ ζ μ} {checks : BVec γ → Except Err Unit}
    {t : BVec γ → Act ω (BVec γ) X (Row τ)} {c : BVec γ} {R : Spec.Vec (Op ω X τ)} (w : ω)
    (hc : c.WF) (hm : o.m.WF) (hf : o.m.Fits c.size) (hk : checks c = .ok ())
    (ht : t c = call (callAll (stored c.size R))) :
    match vecCalls c.size o.acc c.get R w with
    | (.error x, w') => o.op checks t (w, c) = (.error (.op x), (w', c))
    | (.ok zs, w') => ∃ c', o.op checks t (w, c) = (.ok (), (w', c')) ∧
        (o.at c).Holds (resultAt zs) c' := by
  have e1 : o.op checks t (w, c) = (t c >>= fun t => output >>= fun w => accumVecE w o.acc t >>=
      fun z => output >>= fun w =>
        lib (writeWithOptMask1D o.truthy o.castZ w z o.m o.outp) >>= store) (w, c) := by
    unfold EVOut.op
    rw [Act.bind_output, Act.bind_ok (Act.lib_ok hk)]
  rw [e1, ht]
  unfold vecCalls Op.andThen
  cases h1 : callAll (stored c.size R) w with
  | mk r w1 =>
    cases r with
    | error x =>
      dsimp only
      rw [Act.bind_error (Act.call_error h1)]
    | ok ts =>
      dsimp only
      have hts : Row.OK c.size ts := callAll_ok h1 (Row.ofFun_ok _ _)
      rw [Act.bind_ok (Act.call_ok h1), Act.bind_output,
        accumVecE_eq hc o.acc hts]
      simp only [resultAt_eq]
      cases h2 : callAll (stored c.size fun i => Spec.accum o.acc.calls (c.get i) (Row.get ts i)) w1 with
      | mk r w2 =>
        cases r with
        | error x =>
          dsimp only
          rw [Act.bind_error (Act.call_error h2)]
        | ok zs =>
          dsimp only
          have hzs : Row.OK c.size zs := callAll_ok h2 (Row.ofFun_ok _ _)
          obtain ⟨c', g1, g2, g3, g4⟩ := writeWithOptMask1D_spec o.truthy o.castZ o.m o.outp hc hzs
            (VMask.ok_of hm hf)
          rw [Act.bind_ok (Act.call_ok h2), Act.bind_output,
            Act.bind_ok (Act.lib_ok g1)]
          exact ⟨c', rfl, ⟨g2, g3, fun i _ => by rw [resultAt_eq]; exact g4 i⟩⟩

end GBTL
