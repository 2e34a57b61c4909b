import Verif.Lemmas.LouvainStep
/-
**C65** Louvain clustering.
-/
namespace GBTL
open Spec

variable {n : Nat} {W : Mat Rat}

theorem forP_or {σ : Type} {b : Nat → σ → Prog σ} {Q : Prop} (I : Nat → σ → Prop) (n : Nat) (s : σ) (h0 : I 0 s)
    (hb : ∀ i s, i < n → I i s → (∃ s', b i s = .ok s' ∧ I (i + 1) s') ∨ (b i s = .error .running ∧ Q)) :
    (∃ s', forP n s b = .ok s' ∧ I n s') ∨ (forP n s b = .error .running ∧ Q) := by
  induction n with
  | zero => exact .inl ⟨s, rfl, h0⟩
  | succ n ih =>
    have hsplit : forP (n + 1) s b = (forP n s b >>= fun s => b n s) := by
      unfold forP
      rw [List.range_succ, List.foldlM_append]
      simp
    rcases ih (fun i s hi h => hb i s (by omega) h) with ⟨s1, e1, h1⟩ | ⟨e1, hq⟩
    · rcases hb n s1 (by omega) h1 with ⟨s2, e2, h2⟩ | ⟨e2, hq⟩
      · exact .inl ⟨s2, by rw [hsplit, e1]; exact e2, h2⟩
      · exact .inr ⟨by rw [hsplit, e1]; exact e2, hq⟩
    · exact .inr ⟨by rw [hsplit, e1]; rfl, hq⟩

/-! ### Moves -/

theorem moveTo_eq_iff {a : Nat → Nat} {i c : Nat} : moveTo a i c = a ↔ c = a i := by
  constructor
  · intro h
    have := congrFun h i
    simpa [moveTo] using this
  · rintro rfl; exact moveTo_self a i

theorem _root_.Spec.Move.other {masked : Bool} {a b : Nat → Nat} {i : Nat} (h : Move masked n W a i b) {j : Nat} (hj : j ≠ i) :
    b j = a j := by
  rcases h with ⟨-, rfl⟩ | ⟨-, c, -, rfl, -⟩
  · rfl
  · simp [moveTo, hj]

theorem _root_.Spec.Moves.above {masked : Bool} : ∀ {k : Nat} {a b : Nat → Nat}, Moves masked n W k a b → ∀ j, k ≤ j → b j = a j := by
  intro k
  induction k with
  | zero => rintro a b rfl j _; rfl
  | succ k ih =>
    rintro a b ⟨c, h1, h2⟩ j hj
    rw [h2.other (by omega), ih h1 j (by omega)]

/-- In a sweep that changes nothing no vertex moves. -/
theorem _root_.Spec.Moves.fixed {masked : Bool} {a : Nat → Nat} : ∀ {k : Nat}, Moves masked n W k a a → ∀ i, i < k → Move masked n W a i a := by
  intro k
  induction k with
  | zero => intro _ i hi; omega
  | succ k ih =>
    rintro ⟨c, h1, h2⟩ i hi
    have hc : c = a := by
      funext j
      by_cases hj : j = k
      · rw [hj]; exact h1.above k (Nat.le_refl k)
      · exact (h2.other hj).symm
    subst hc
    rcases Nat.lt_or_ge i k with h | h
    · exact ih h1 i h
    · rw [show i = k by omega]; exact h2

/-! ### The loops -/

/-- Ties are broken: no two random numbers are equal, a loop may make an iteration, and
every vertex that is moved has a cluster to move to. -/
def LvGood (masked : Bool) (rnd : Nat → Rat) (fuel n : Nat) (W : Mat Rat) : Prop :=
  (∀ x y, rnd x = rnd y → x = y) ∧ 0 < fuel ∧ ∀ i, i < n → HasOut n W i → ∃ j, j < n ∧ j ≠ i ∧ Eligible masked n W i j

theorem best_exists {masked : Bool} {a : Nat → Nat} {i : Nat} (hi : i < n) (hpos : 0 < allWeight n W) (ha : ∀ i, i < n → a i < n)
    (h : ∃ c, Considered masked n W a i c) : ∃ c, c < n ∧ Best masked n W a i c := by
  classical
  obtain ⟨c, hc⟩ := h
  obtain ⟨d, hd, x, hx, hmax⟩ := argMax_exists (n := n)
    (q := fun c => if Considered masked n W a i c then some (gain n W a i c) else none) ⟨c, hc.lt ha, by simp [hc]⟩
  have hcd : Considered masked n W a i d := Classical.byContradiction fun hcd => by simp [hcd] at hx
  refine ⟨d, hd, hcd, fun c' hc' => ?_⟩
  rw [modularity_le_iff hi hpos]
  simp only [hcd, if_true, Option.some.injEq] at hx
  rw [hx]
  exact hmax c' (hc'.lt ha) _ (by simp [hc'])

theorem lvStep_ok {A : Lil Rat} {k : BVec Rat} {m : Rat} {mask : BVec Bool} (h : LvCtx n W A k m mask) (masked : Bool)
    (rnd : Nat → Rat) (fuel : Nat) {i : Nat} (hi : i < n) {a : Nat → Nat} {s : LvSt} (hs : LvInv n a s)
    (hpos : ∀ i, i < n → HasOut n W i → 0 < allWeight n W) :
    (∃ s', (do let s ← s.fresh masked n; lvVertex masked rnd fuel n A k m mask i s) = .ok s' ∧
      ∃ b, Move masked n W a i b ∧ LvInv n b s' ∧ (s'.changed = true ↔ s.changed = true ∨ b ≠ a)) ∨
    ((do let s ← s.fresh masked n; lvVertex masked rnd fuel n A k m mask i s) = .error .running ∧ ¬ LvGood masked rnd fuel n W) := by
  have hn : 0 < n := by omega
  obtain ⟨s1, e1, h1, c1, -⟩ := LvSt.fresh_ok (masked := masked) hn hs
  rw [e1, prog_bind_ok]
  by_cases ho : HasOut n W i
  · obtain ⟨t0, hset, herr, hok⟩ := lvVertex_ok h masked (rnd := rnd) (fuel := fuel) hi h1 ho (hpos i hi ho)
    cases ht : lvTies rnd n fuel { t := t0, draws := s1.draws } with
    | ok r =>
      obtain ⟨c, hc, hb, hr⟩ := lvTies_partial (s := { t := t0, draws := s1.draws }) hset hn ht
      obtain ⟨s', e, h2, h3⟩ := hok r c ht hc hr
      refine .inl ⟨s', e, moveTo a i c, .inr ⟨ho, c, hb.1, rfl, hb.2⟩, h2, ?_⟩
      rw [h3, c1, ne_eq, ne_eq, moveTo_eq_iff]
    | error e =>
      have hrun : e = .running := by
        by_cases hc : ∃ c, c < n ∧ Best masked n W a i c
        · have hge : ∀ (fuel : Nat) (s : LvTie), (∃ P, IsSet n s.t P) → ∀ e, lvTies rnd n fuel s = .error e → e = .running := by
            intro fuel
            induction fuel with
            | zero =>
              intro s _ e he
              unfold lvTies loop at he
              split at he
              · injection he with he; exact he.symm
              · cases he
            | succ fuel ih =>
              rintro s ⟨P, hP⟩ e he
              unfold lvTies loop at he
              split at he
              · obtain ⟨s', Q, e', hQ, -⟩ := lvTieBody_ok (rnd := rnd) hP hn
                rw [e', prog_bind_ok] at he
                exact ih s' ⟨Q, hQ⟩ e he
              · cases he
          exact hge fuel _ ⟨_, hset⟩ e ht
        · have := lvTies_forever (rnd := rnd) (s := { t := t0, draws := s1.draws }) fuel hset hn (fun c hc' hb => hc ⟨c, hc', hb⟩)
          rw [ht] at this
          injection this
      subst hrun
      refine .inr ⟨herr _ ht, ?_⟩
      rintro ⟨hinj, hf, hel⟩
      obtain ⟨j, hj, hji, he⟩ := hel i hi ho
      have hb := best_exists hi (hpos i hi ho) h1.rows.lt ⟨a j, j, hj, hji, he, rfl⟩
      obtain ⟨r, hr⟩ := lvTies_total (rnd := rnd) (s := { t := t0, draws := s1.draws }) hset hn hinj hb hf
      rw [ht] at hr
      cases hr
  · left
    refine ⟨s1, ?_, a, .inl ⟨ho, rfl⟩, h1, by simp [c1]⟩
    unfold lvVertex
    rw [BVec.hasElement_spec h.szk.wf (by rw [h.szk.sz]; exact hi), lift_ok, prog_bind_ok]
    have : k.get i = none := Classical.byContradiction fun hne => ho ((h.kn i hi).1 hne)
    rw [this]
    rfl

theorem lvSweep_ok {A : Lil Rat} {k : BVec Rat} {m : Rat} {mask : BVec Bool} (h : LvCtx n W A k m mask) (masked : Bool)
    (rnd : Nat → Rat) (fuel : Nat) {a : Nat → Nat} {s : LvSt} (hs : LvInv n a s)
    (hpos : ∀ i, i < n → HasOut n W i → 0 < allWeight n W) :
    (∃ s', lvSweep masked rnd fuel n A k m mask s = .ok s' ∧
      ∃ b, Moves masked n W n a b ∧ LvInv n b s' ∧ (s'.changed = true ↔ b ≠ a)) ∨
    (lvSweep masked rnd fuel n A k m mask s = .error .running ∧ ¬ LvGood masked rnd fuel n W) := by
  unfold lvSweep
  refine forP_or (fun i s => ∃ b, Moves masked n W i a b ∧ LvInv n b s ∧ (s.changed = true ↔ b ≠ a)) n { s with changed := false } ?_ ?_
  · exact ⟨a, rfl, ⟨hs.rows, hs.row, hs.v, hs.qm, hs.q, hs.t⟩, by simp⟩
  · rintro i s hi ⟨b, hm, hb, hc⟩
    rcases lvStep_ok h masked rnd fuel hi hb hpos with ⟨s', e, b', hmv, hb', hc'⟩ | ⟨e, hq⟩
    · refine .inl ⟨s', e, b', ⟨b, hm, hmv⟩, hb', ?_⟩
      rw [hc', hc]
      have hi1 := hm.above i (Nat.le_refl i)
      constructor
      · rintro (h1 | h1)
        · intro heq
          refine h1 (funext fun j => ?_)
          by_cases hj : j = i
          · rw [hj]; exact hi1
          · rw [← hmv.other hj, heq]
        · intro heq
          refine h1 (funext fun j => ?_)
          by_cases hj : j = i
          · rw [hj, hi1, heq]
          · exact hmv.other hj
      · intro h1
        by_cases h2 : b = a
        · exact .inr (h2 ▸ h1)
        · exact .inl h2
    · exact .inr ⟨e, hq⟩

/-- What is computed before the loop. -/
theorem lvStart_ok {G : Lil Rat} (hG : G.WF) (hsq : G.nrows = G.ncols) (hn : 0 < G.nrows) :
    ∃ (A : Lil Rat) (k0 k : BVec Rat) (m : Rat) (S : Lil Bool) (e mask0 mask : BVec Bool) (v : BVec Rat),
      exec (transposeM { C := G, M := (none : MMask Bool), truthy := id, acc := .some (· + ·) id id, castZ := id, outp := .merge }
        (.plain G)) = .ok A ∧
      BVec.new G.nrows = .ok k0 ∧ exec (reduceMV (vPlain id k0) (.of (· + ·) id) (.plain G)) = .ok k ∧
      exec (reduceVS id (.none id) (.of (· + ·) id) 0 (0 : Rat) k) = .ok m ∧
      scaledIdentity G.nrows true = .ok S ∧ BVec.new G.nrows = .ok e ∧ BVec.new G.nrows = .ok mask0 ∧
      exec (assignConstV (vPlain id mask0) id true .all) = .ok mask ∧ BVec.new G.nrows = .ok v ∧
      LvCtx G.nrows G.get A k (m / 2) mask ∧ LvRows G.nrows S id ∧ Sz G.nrows e ∧ Sz G.nrows v := by
  have hsh : Sh G.nrows G.nrows G := ⟨hG, rfl, hsq.symm⟩
  obtain ⟨A, e1, y1⟩ := C21_transpose
    (o := { C := G, M := (none : MMask Bool), truthy := id, acc := .some (· + ·) id id, castZ := id, outp := .merge }) (A := .plain G)
    ⟨hG, noMaskOKM⟩ hG ⟨noMaskFitsM, hsq.symm, hsq.symm⟩
  obtain ⟨k0, e2, z2, -⟩ := newV (τ := Rat) hn
  obtain ⟨k, e3, z3, g3⟩ := rowSumR_ok (add := (· + ·)) z2 hsh
  have e4 := sumV_ok (x := 0) z3
  obtain ⟨S, e5, w5, nr5, nc5, g5⟩ := C41_scaled_identity G.nrows true
  obtain ⟨e, e6, z6, -⟩ := newV (τ := Bool) hn
  obtain ⟨mask, e7, z7, g7⟩ := onesV_ok (x := true) z6
  have hkn : ∀ i, i < G.nrows → (k.get i ≠ none ↔ HasOut G.nrows G.get i) := by
    intro i hi
    rw [g3 i hi, ne_eq, osum_range_none]
    unfold HasOut
    constructor
    · intro h
      refine Classical.byContradiction fun hno => h fun j hj => ?_
      exact Classical.byContradiction fun hne => hno ⟨j, hj, hne⟩
    · rintro ⟨j, hj, hne⟩ h
      exact hne (h j hj)
  have hkv : ∀ i, i < G.nrows → (k.get i).getD 0 = outWeight G.nrows G.get i := by
    intro i hi
    unfold outWeight
    by_cases h : HasOut G.nrows G.get i
    · rw [g3 i hi, osum_ratS (f := G.get i) h]; rfl
    · have h0 : k.get i = none := Classical.byContradiction fun hne => h ((hkn i hi).1 hne)
      rw [h0, sumOf_eq, rsum_eq_zero]
      · rfl
      · intro j hj
        have : G.get i j = none := Classical.byContradiction fun hne => h ⟨j, hj, hne⟩
        rw [this]; rfl
  refine ⟨A, k0, k, _, S, e, e, mask, k0, by rw [e1, exec_done], e2, e3, e4, e5, e6, e6, e7, e2,
    ⟨⟨y1.wf, y1.nrows, y1.ncols.trans hsq.symm⟩, fun i j hi hj => ?_, z3, hkv, hkn, ?_, z7, g7⟩,
    ⟨⟨w5, nr5, nc5⟩, fun i c hi hc => ?_, fun i hi => hi⟩, z6, z2⟩
  · rw [y1.get i j hi (by show j < G.ncols; rw [← hsq]; exact hj)]
    simp only [MMask.allows, Spec.write, Spec.accum, if_true, Spec.Mat.tr, Operand.get]
    cases G.get i j <;> cases G.get j i <;> rfl
  · rw [allWeight_eq, sumOf_eq]
    rw [rsum_congr (f := fun j => (k.get j).getD 0) (g := outWeight G.nrows G.get) hkv]
  · rw [g5 i c]
    by_cases h : c = i
    · subst h
      simp [hi]
    · rw [if_neg (fun h' => h h'.1.symm), if_neg (show ¬ c = id i from h)]

/-- What Louvain clustering does: it returns the clustering after the first sweep that
changes nothing; it throws after the last sweep allowed, if this one has changed something. -/
def LvSpec (masked : Bool) (n : Nat) (W : Mat Rat) (limit : Nat) : LvResult → Prop
  | .thrown t => t = max 1 limit ∧ ∃ a, Sweeps masked n W t a
  | .returned S => ∃ k a, k < max 1 limit ∧ Sweeps masked n W k a ∧ Moves masked n W n a a ∧ LvRows n S a

theorem louvain_cases (masked : Bool) (rnd : Nat → Rat) (fuel : Nat) {G : Lil Rat} (hG : G.WF) (hsq : G.nrows = G.ncols)
    (hn : 0 < G.nrows) (hw : ∀ i j, G.get i j ≠ none → 0 < allWeight G.nrows G.get) (maxIters : Nat) :
    (∃ r, louvain masked rnd fuel G maxIters = .ok r ∧ LvSpec masked G.nrows G.get maxIters r) ∨
    (louvain masked rnd fuel G maxIters = .error .running ∧ ¬ LvGood masked rnd fuel G.nrows G.get) := by
  obtain ⟨A, k0, k, m, S, e, mask0, mask, v, e1, e2, e3, e4, e5, e6, e7, e8, e9, hctx, hS, he, hv⟩ := lvStart_ok hG hsq hn
  have hpos : ∀ i, i < G.nrows → HasOut G.nrows G.get i → 0 < allWeight G.nrows G.get := by
    rintro i - ⟨j, -, hj⟩; exact hw i j hj
  obtain rfl : e = mask0 := by rw [e6] at e7; injection e7
  obtain rfl : v = k0 := by rw [e2] at e9; injection e9 with e9; exact e9.symm
  unfold louvain
  rw [if_neg (by simpa using hsq)]
  dsimp only
  rw [e1, prog_bind_ok, e2, lift_ok, prog_bind_ok, e3, prog_bind_ok, e4, prog_bind_ok, e5, lift_ok, prog_bind_ok, e6, lift_ok,
    prog_bind_ok, prog_bind_ok, e8, prog_bind_ok, prog_bind_ok, prog_bind_ok]
  rcases lvSweep_ok hctx masked rnd fuel
    (s := { S := S, row := e, v := v, qm := e, q := v, t := e, draws := 0, changed := true })
    ⟨hS, he, hv, he, hv, he⟩ hpos with ⟨s, es, b, hm, hb, hc⟩ | ⟨es, hq⟩
  · rw [es, prog_bind_ok]
    have key := forP_or (Q := ¬ LvGood masked rnd fuel G.nrows G.get) (b := fun (_ : Nat) (r : Nat × LvSt) =>
        if r.2.changed then (do
          let s ← lvSweep masked rnd fuel G.nrows A k (m / 2) mask r.2
          .ok (r.1 + 1, s))
        else .ok r)
      (fun i r => (r.2.changed = true ∧ r.1 = i + 1 ∧ ∃ a, Sweeps masked G.nrows G.get (i + 1) a ∧ LvInv G.nrows a r.2) ∨
        (r.2.changed = false ∧ ∃ t a, t < i + 1 ∧ Sweeps masked G.nrows G.get t a ∧ Moves masked G.nrows G.get G.nrows a a ∧
          LvInv G.nrows a r.2)) (maxIters - 1) (1, s)
      (by
        by_cases hba : b = id
        · right
          subst hba
          refine ⟨?_, 0, id, by omega, rfl, hm, hb⟩
          cases hcs : s.changed
          · rfl
          · exact absurd rfl (hc.1 hcs)
        · exact .inl ⟨hc.2 hba, rfl, b, ⟨id, rfl, hm, hba⟩, hb⟩)
      (by
        rintro i ⟨cnt, s⟩ hi (⟨h1, h2, a, h3, h4⟩ | ⟨h1, t, a, h2, h3, h4, h5⟩)
        · dsimp only at h1 h2 h4 ⊢
          rw [if_pos h1]
          rcases lvSweep_ok hctx masked rnd fuel h4 hpos with ⟨s', es', b', hm', hb', hc'⟩ | ⟨es', hq⟩
          · refine .inl ⟨(cnt + 1, s'), by rw [es', prog_bind_ok], ?_⟩
            by_cases hba : b' = a
            · right
              subst hba
              refine ⟨?_, i + 1, b', by omega, h3, hm', hb'⟩
              cases hcs : s'.changed
              · rfl
              · exact absurd rfl (hc'.1 hcs)
            · exact .inl ⟨hc'.2 hba, by rw [h2], b', ⟨a, h3, hm', hba⟩, hb'⟩
          · exact .inr ⟨by rw [es']; rfl, hq⟩
        · dsimp only at h1 h5 ⊢
          rw [if_neg (by rw [h1]; decide)]
          exact .inl ⟨(cnt, s), rfl, .inr ⟨h1, t, a, by omega, h3, h4, h5⟩⟩)
    rcases key with ⟨r, er, hr⟩ | ⟨er, hq⟩
    · left
      rw [er, prog_bind_ok]
      have hmax : maxIters - 1 + 1 = max 1 maxIters := by omega
      rcases hr with ⟨h1, h2, a, h3, h4⟩ | ⟨h1, t, a, h2, h3, h4, h5⟩
      · rw [if_pos h1]
        exact ⟨_, rfl, by rw [h2]; exact hmax, a, by rw [h2]; exact h3⟩
      · rw [if_neg (by rw [h1]; decide)]
        exact ⟨_, rfl, t, a, by omega, h3, h4, h5.rows⟩
    · right
      exact ⟨by rw [er]; rfl, hq⟩
  · right
    exact ⟨by rw [es]; rfl, hq⟩

/-! ### The theorems -/

/-- **C65** If Louvain clustering returns, the matrix is that of a clustering, with one true
element in each row. The clustering comes from every vertex in a cluster of its own by
sweeps that move each vertex to a considered cluster with the greatest modularity; a further
sweep leaves it as it is, and every earlier one changed it. -/
theorem C65_louvain_returned {masked : Bool} {rnd : Nat → Rat} {fuel maxIters : Nat} {G : Lil Rat} {S : Lil Bool} (hG : G.WF)
    (hn : 0 < G.nrows) (hw : ∀ i j, G.get i j ≠ none → 0 < allWeight G.nrows G.get)
    (h : louvain masked rnd fuel G maxIters = .ok (.returned S)) :
    S.WF ∧ S.nrows = G.nrows ∧ S.ncols = G.nrows ∧ ∃ a : Nat → Nat, (∀ i, i < G.nrows → a i < G.nrows) ∧
      (∀ i c, i < G.nrows → c < G.nrows → S.get i c = if c = a i then some true else none) ∧
      ∃ k, k < max 1 maxIters ∧ Sweeps masked G.nrows G.get k a ∧ Moves masked G.nrows G.get G.nrows a a := by
  have hsq : G.nrows = G.ncols := by
    refine Classical.byContradiction fun hne => ?_
    unfold louvain at h
    rw [if_pos hne] at h
    cases h
  rcases louvain_cases masked rnd fuel hG hsq hn hw maxIters with ⟨r, e, hr⟩ | ⟨e, -⟩
  · rw [h] at e
    injection e with e
    subst e
    obtain ⟨k, a, h1, h2, h3, h4⟩ := hr
    exact ⟨h4.sh.wf, h4.sh.nr, h4.sh.nc, a, h4.lt, h4.get, k, h1, h2, h3⟩
  · rw [h] at e; cases e

/-- A vertex without an edge that leaves it stays where it is. -/
theorem _root_.Spec.Moves.isolated {masked : Bool} {i : Nat} (hi : ¬ HasOut n W i) : ∀ {k : Nat} {a b : Nat → Nat},
    Moves masked n W k a b → b i = a i := by
  intro k
  induction k with
  | zero => rintro a b rfl; rfl
  | succ k ih =>
    rintro a b ⟨c, h1, h2⟩
    rw [← ih h1]
    by_cases hk : i = k
    · subst hk
      rcases h2 with ⟨-, rfl⟩ | ⟨ho, -⟩
      · rfl
      · exact absurd ho hi
    · exact h2.other hk

theorem _root_.Spec.Sweeps.isolated {masked : Bool} {i : Nat} (hi : ¬ HasOut n W i) : ∀ {k : Nat} {a : Nat → Nat},
    Sweeps masked n W k a → a i = i := by
  intro k
  induction k with
  | zero => rintro a rfl; rfl
  | succ k ih =>
    rintro b ⟨a, h1, h2, -⟩
    rw [h2.isolated hi, ih h1]

/-- **C65** In the clustering that is returned, no vertex can be moved to the cluster of a
linked vertex with a greater modularity. A vertex without an edge that leaves it is in the
cluster of its own number; every other one shares its cluster with a linked vertex. -/
theorem C65_louvain_partial {masked : Bool} {rnd : Nat → Rat} {fuel maxIters : Nat} {G : Lil Rat} {S : Lil Bool} (hG : G.WF)
    (hn : 0 < G.nrows) (hw : ∀ i j, G.get i j ≠ none → 0 < allWeight G.nrows G.get)
    (h : louvain masked rnd fuel G maxIters = .ok (.returned S)) :
    ∃ a : Nat → Nat, (∀ i c, i < G.nrows → c < G.nrows → S.get i c = if c = a i then some true else none) ∧
      (∀ i, i < G.nrows → ¬ HasOut G.nrows G.get i → a i = i) ∧
      (∀ i, i < G.nrows → HasOut G.nrows G.get i → Considered masked G.nrows G.get a i (a i)) ∧
      (∀ i c, i < G.nrows → HasOut G.nrows G.get i → Considered masked G.nrows G.get a i c →
        modularity G.nrows G.get (moveTo a i c) ≤ modularity G.nrows G.get a) := by
  obtain ⟨-, -, -, a, -, h1, k, -, h2, h3⟩ := C65_louvain_returned hG hn hw h
  refine ⟨a, h1, fun i _ ho => h2.isolated ho, fun i hi ho => ?_, fun i c hi ho hc => ?_⟩
  · rcases h3.fixed i hi with ⟨hno, -⟩ | ⟨-, c, hc, he, -⟩
    · exact absurd ho hno
    · rw [← moveTo_eq_iff.1 he.symm]; exact hc
  · rcases h3.fixed i hi with ⟨hno, -⟩ | ⟨-, d, -, he, hb⟩
    · exact absurd ho hno
    · have := hb c hc
      rw [← he] at this
      exact this

/-- **C65** If Louvain clustering throws the number of sweeps, it has made all the sweeps
allowed, at least one, and the last has changed the clustering. -/
theorem C65_louvain_throws {masked : Bool} {rnd : Nat → Rat} {fuel maxIters t : Nat} {G : Lil Rat} (hG : G.WF)
    (hn : 0 < G.nrows) (hw : ∀ i j, G.get i j ≠ none → 0 < allWeight G.nrows G.get)
    (h : louvain masked rnd fuel G maxIters = .ok (.thrown t)) :
    t = max 1 maxIters ∧ ∃ a, Sweeps masked G.nrows G.get t a := by
  have hsq : G.nrows = G.ncols := by
    refine Classical.byContradiction fun hne => ?_
    unfold louvain at h
    rw [if_pos hne] at h
    cases h
  rcases louvain_cases masked rnd fuel hG hsq hn hw maxIters with ⟨r, e, hr⟩ | ⟨e, -⟩
  · rw [h] at e
    injection e with e
    subst e
    exact hr
  · rw [h] at e; cases e

/-- **C65** Louvain clustering ends if no two random numbers are equal and every vertex with
an edge that leaves it has another vertex whose cluster is considered. -/
theorem C65_louvain_total_partial (masked : Bool) {rnd : Nat → Rat} {fuel : Nat} (maxIters : Nat) {G : Lil Rat} (hG : G.WF)
    (hsq : G.nrows = G.ncols) (hn : 0 < G.nrows) (hw : ∀ i j, G.get i j ≠ none → 0 < allWeight G.nrows G.get)
    (hinj : ∀ x y, rnd x = rnd y → x = y) (hf : 0 < fuel)
    (hl : ∀ i, i < G.nrows → HasOut G.nrows G.get i → ∃ j, j < G.nrows ∧ j ≠ i ∧ Eligible masked G.nrows G.get i j) :
    ∃ r, louvain masked rnd fuel G maxIters = .ok r := by
  rcases louvain_cases masked rnd fuel hG hsq hn hw maxIters with ⟨r, e, -⟩ | ⟨-, hq⟩
  · exact ⟨r, e⟩
  · exact absurd ⟨hinj, hf, hl⟩ hq

/-- **C65** Louvain clustering never ends, whatever the random numbers, if a vertex has an
edge that leaves it and there is no other vertex whose cluster is considered for it. -/
theorem C65_louvain_forever {masked : Bool} (rnd : Nat → Rat) (fuel maxIters : Nat) {G : Lil Rat} (hG : G.WF)
    (hsq : G.nrows = G.ncols) (hw : ∀ i j, G.get i j ≠ none → 0 < allWeight G.nrows G.get) {i : Nat} (hi : i < G.nrows)
    (ho : HasOut G.nrows G.get i) (hl : ∀ j, j < G.nrows → j ≠ i → ¬ Eligible masked G.nrows G.get i j) :
    louvain masked rnd fuel G maxIters = .error .running := by
  have hno : ∀ a, ¬ ∃ b, Moves masked G.nrows G.get G.nrows a b := by
    have key : ∀ k a b, i < k → ¬ Moves masked G.nrows G.get k a b := by
      intro k
      induction k with
      | zero => intro a b hk; omega
      | succ k ih =>
        rintro a b hk ⟨c, h1, h2⟩
        by_cases hik : i = k
        · subst hik
          rcases h2 with ⟨h, -⟩ | ⟨-, d, ⟨j, hj, hji, he, -⟩, -⟩
          · exact h ho
          · exact hl j hj hji he
        · exact ih a c (by omega) h1
    rintro a ⟨b, h⟩
    exact key _ a b hi h
  rcases louvain_cases masked rnd fuel hG hsq (by omega) hw maxIters with ⟨r, -, hr⟩ | ⟨e, -⟩
  · cases r with
    | thrown t =>
      obtain ⟨h1, a, h2⟩ := hr
      cases t with
      | zero => omega
      | succ t =>
        obtain ⟨b, -, h3, -⟩ := h2
        exact absurd ⟨_, h3⟩ (hno b)
    | returned S =>
      obtain ⟨k, a, -, -, h3, -⟩ := hr
      exact absurd ⟨_, h3⟩ (hno a)
  · exact e

/-- **C65** A graph that is not square is refused. -/
theorem C65_louvain_dimension (masked : Bool) (rnd : Nat → Rat) (fuel maxIters : Nat) {G : Lil Rat} (h : G.nrows ≠ G.ncols) :
    louvain masked rnd fuel G maxIters = .error (.err .dimension) := by
  unfold louvain
  rw [if_pos h]

/-- Two triangles joined by the edge 2 - 3. -/
def lvPair : Lil Rat :=
  { nrows := 6, ncols := 6, nvals := 14,
    rows := [[(1, 1), (2, 1)], [(0, 1), (2, 1)], [(0, 1), (1, 1), (3, 1)], [(2, 1), (4, 1), (5, 1)], [(3, 1), (5, 1)], [(3, 1), (4, 1)]] }

theorem lvPair_wf : lvPair.WF := Lil.wf_chk (by decide +kernel)

theorem lvPair_hw (i j : Nat) (_ : lvPair.get i j ≠ none) : 0 < allWeight lvPair.nrows lvPair.get := by decide +kernel

/-- The hypotheses hold, and the triangles are found. -/
example : lvPair.WF ∧ (∀ masked, (∃ S, louvain masked (fun k => (k : Rat)) 1 lvPair 10 = .ok (.returned S) ∧
    ((List.range 6).map fun i => (List.range 6).filter fun c => S.get i c == some true) = [[1], [1], [1], [5], [5], [5]])) := by
  refine ⟨lvPair_wf, fun masked => ?_⟩
  have : (match louvain masked (fun k => (k : Rat)) 1 lvPair 10 with
      | .ok (.returned S) => ((List.range 6).map fun i => (List.range 6).filter fun c => S.get i c == some true) ==
          [[1], [1], [1], [5], [5], [5]]
      | _ => false) = true := by
    cases masked <;> decide +kernel
  split at this
  · next S e => exact ⟨S, e, by simpa using this⟩
  · cases this

/-- The hypotheses of the termination hold. -/
example : ∃ r, louvain true (fun k => (k : Rat)) 1 lvPair 1 = .ok r :=
  C65_louvain_total_partial true 1 lvPair_wf rfl (by decide) lvPair_hw (fun x y h => by exact_mod_cast h) (by decide)
    (by
      intro i hi _
      unfold Eligible
      exact (show ∀ i, i < 6 → ∃ j, j < 6 ∧ j ≠ i ∧ (lvPair.get i j).getD 0 + (lvPair.get j i).getD 0 ≠ 0 by decide +kernel) i hi)

/-- After one sweep of two the clustering still changes. -/
example : louvain false (fun k => (k : Rat)) 1 lvPair 0 = .ok (.thrown 1) := by decide +kernel

/-- Two vertices, each with an edge to itself only. -/
def lvLoops : Lil Rat := { nrows := 2, ncols := 2, nvals := 2, rows := [[(0, 1)], [(1, 1)]] }

/-- **C65** The clustering that is returned need not be one from which no move increases the
modularity: two vertices that have only an edge to themselves are put in one cluster, though
the modularity is greater with each of them in a cluster of its own, where they started. -/
theorem C65_louvain_disproof : lvLoops.WF ∧
    (∃ S, louvain false (fun k => (k : Rat)) 1 lvLoops 10 = .ok (.returned S)) ∧
    ∀ rnd fuel maxIters S, louvain false rnd fuel lvLoops maxIters = .ok (.returned S) →
      ∃ a : Nat → Nat, (∀ i c, i < 2 → c < 2 → S.get i c = if c = a i then some true else none) ∧
        modularity 2 lvLoops.get a < modularity 2 lvLoops.get id := by
  have hwf : lvLoops.WF := Lil.wf_chk (by decide +kernel)
  refine ⟨hwf, ?_, ?_⟩
  · have : (match louvain false (fun k => (k : Rat)) 1 lvLoops 10 with
        | .ok (.returned _) => true
        | _ => false) = true := by decide +kernel
    split at this
    · next S e => exact ⟨S, e⟩
    · cases this
  · intro rnd fuel maxIters S h
    obtain ⟨a, h1, -, h3, -⟩ := C65_louvain_partial hwf (by decide) (fun _ _ _ => by decide +kernel) h
    refine ⟨a, h1, ?_⟩
    obtain ⟨j, hj, hji, -, he⟩ := h3 0 (by decide) ⟨0, by decide, by decide +kernel⟩
    have hj2 : j < 2 := hj
    have h01 : a 1 = a 0 := by rw [← he]; congr 1; omega
    have : modularity 2 lvLoops.get a = modularity 2 lvLoops.get fun _ => 0 := by
      unfold modularity
      simp [List.range_succ, h01]
    rw [this]
    decide +kernel

/-- One vertex with an edge to itself. -/
def lvLoop : Lil Rat := { nrows := 1, ncols := 1, nvals := 1, rows := [[(0, 1)]] }

/-- **C65** On a graph of one vertex with an edge to itself Louvain clustering never ends. -/
theorem C65_louvain_total_disproof : lvLoop.WF ∧
    ∀ masked rnd fuel maxIters, louvain masked rnd fuel lvLoop maxIters = .error .running := by
  have hwf : lvLoop.WF := Lil.wf_chk (by decide +kernel)
  exact ⟨hwf, fun masked rnd fuel maxIters => C65_louvain_forever rnd fuel maxIters hwf rfl (fun _ _ _ => by decide +kernel)
    (i := 0) (by decide) ⟨0, by decide, by decide +kernel⟩ (fun j hj hji => absurd (show j < 1 from hj) (by omega))⟩

/-- **C65** The masked version never ends either where a vertex of a larger graph has only
an edge to itself, though the version without a mask does: here on two such vertices. -/
theorem C65_louvain_masked_disproof : lvLoops.WF ∧
    ∀ rnd fuel maxIters, louvain true rnd fuel lvLoops maxIters = .error .running := by
  have hwf : lvLoops.WF := Lil.wf_chk (by decide +kernel)
  refine ⟨hwf, fun rnd fuel maxIters => C65_louvain_forever rnd fuel maxIters hwf rfl (fun _ _ _ => by decide +kernel)
    (i := 0) (by decide) ⟨0, by decide, by decide +kernel⟩ ?_⟩
  intro j hj hji
  have hj2 : j < 2 := hj
  rw [show j = 1 by omega]
  unfold Eligible
  decide +kernel

end GBTL
