import Verif.Props.Backends
import Verif.Lemmas.BfsBatch
/-
C28, what `mxm` of the `optimized_sequential` backend leaves in the output for all arguments.
-/
namespace GBTL
open Spec (Outp MaskKind Accum)
open Row

variable {α β γ δ τ ζ μ : Type}

theorem nvals_none_iff {A : Lil α} (hA : A.WF) : A.nvals = 0 ↔ ∀ i j, A.get i j = none := by
  constructor
  · exact fun h i j => hA.get_none_of_nvals h i j
  · intro h
    apply Classical.byContradiction
    intro h0
    obtain ⟨i, j, y, -, -, hg⟩ := nonempty_of_nvalsM hA (Nat.pos_of_ne_zero h0)
    rw [h] at hg; cases hg

theorem rowD_nil_iff {A : Lil α} (hA : A.WFr) (i : Nat) : A.rowD i = [] ↔ ∀ j, A.get i j = none := by
  constructor
  · intro h j; rw [Lil.get, h]; rfl
  · intro h
    cases hr : A.rowD i with
    | nil => rfl
    | cons p r =>
      have := h p.1
      rw [Lil.get, get_of_mem (hA.rowD_ok i).sorted (i := p.1) (x := p.2) (by rw [hr]; exact List.mem_cons_self ..)] at this
      cases this

section
variable {x : OptOps α β γ τ ζ μ} {acc : AccOp γ τ ζ} {sf : Bool} {outp : Outp} {C : Lil γ}
  {m : Arg γ μ} {a : Arg γ α} {b : Arg γ β}

theorem abtStale_is (hC : C.WF)
    (hA : (a.at C).WF) (hB : (b.at C).WF) (h1 : C.nrows = (a.at C).nrows)
    (h2 : C.ncols = (b.at C).nrows) (hb : b.isC = false) (ha0 : (a.at C).nvals ≠ 0) (hb0 : (b.at C).nvals ≠ 0) :
    ∃ C', optNoMaskNoAccumABT x C a b = .ok C' ∧ C'.WF ∧ C'.nrows = C.nrows ∧ C'.ncols = C.ncols ∧
      ∀ i j, i < C.nrows → j < C.ncols →
        ((∀ l, (a.at C).get i l = none) → C'.get i j = C.get i j) ∧
        ((¬ ∀ l, (a.at C).get i l = none) → C'.get i j =
          (Spec.mxm (a.at C).ncols x.add x.mult (a.at C).get (Spec.Mat.tr (b.at C).get) i j).map x.castT) := by
  have hrows := abt_rows (add := x.add) (mult := x.mult) hA.toWFr hB.toWFr
  have he : optNoMaskNoAccumABT x C a b = abtNoMaskNoAccumK x.add x.mult x.castT C a b := by
    simp [optNoMaskNoAccumABT, ha0, hb0, hb]
  obtain ⟨C', e, h⟩ := Lil.rowLoop_is hC (fun i j => if (a.at C).rowD i = [] then C.get i j else
      (get (dotRow x.add x.mult ((a.at C).rowD i) (b.at C)) j).map x.castT)
    (body := fun i C => do
      let ar ← (a.at C).row i
      if ar.isEmpty then .ok C
      else do
        let t ← abtRow x.add x.mult ar (b.at C)
        C.setRow i id (Row.cast x.castT t))
    (fun i C' hi hw hn hc hr => by
      rw [a.row_at hA.toWFr hw.toWFr hr hn (by omega), Arg.at_eq hb C C']
      simp only [Except.bind_ok']
      by_cases hz : (a.at C).rowD i = []
      · refine .inr ⟨fun j _ => by rw [if_pos hz], ?_⟩
        rw [if_pos (List.isEmpty_iff.2 hz)]
      · refine .inl ⟨Row.cast x.castT (dotRow x.add x.mult ((a.at C).rowD i) (b.at C)), ?_, ?_, fun j hj => ?_⟩
        · rw [if_neg (fun h => hz (List.isEmpty_iff.1 h)), abtRow_eq hB.toWFr]
          rfl
        · rw [h2]; exact (hrows.ok i (by omega)).cast
        · rw [if_neg hz]; exact get_cast _ _ _)
  refine ⟨C', ?_, h.wf, h.nrows, h.ncols, fun i j hi hj => ?_⟩
  · rw [he, abtNoMaskNoAccumK, ← h1]; exact e
  · rw [h.get i j hi hj, ← rowD_nil_iff hA.toWFr]
    refine ⟨fun hz => by rw [if_pos hz], fun hz => ?_⟩
    rw [if_neg hz, hrows.get i j (by omega) (by omega)]

end

theorem optBackend_actual {x : OptOps α β γ τ ζ μ} {acc : Option (AccOp γ τ ζ)}
    {outp : Outp} {C : Lil γ} {M : ArgMask γ μ} {A : ArgOperand γ α} {B : ArgOperand γ β} {cast : τ → ζ}
    (ho : (x.out acc cast outp C M).WF) (hA : (A.at C).WF)
    (hB : (B.at C).WF) (hs : MxmShapes (x.out acc cast outp C M) (A.at C) (B.at C)) :
    ∃ C', optMxmBackend x acc outp C M A B = .ok C' ∧
      C.Is (fun i j => x.leaves acc outp C M A B i j (C.get i j) (Spec.mxm (A.at C).ncols x.add (x.mulFor (A.at C) (B.at C))
        (A.at C).get (B.at C).get i j)) C' := by
  classical
  obtain ⟨hC, hM⟩ := ho
  obtain ⟨s1, s2, s3, s4⟩ := hs
  have hC : C.WF := hC
  have hM' : ∀ k m, M = some (k, m) → (m.at C).WF ∧ (m.at C).nrows = C.nrows := by
    rintro k m rfl
    exact ⟨hM k _ rfl, (s1 k _ rfl).1⟩
  have hset : ∀ {A : ArgOperand γ α} {B : ArgOperand γ β} {R : Spec.Mat τ} {f : Except Err (Lil γ)}, ResSet x C R f →
      (∀ i, ¬ LeavesRow C A B i) →
      ∃ C', f = .ok C' ∧ C.Is (fun i j => x.leaves none outp C none A B i j (C.get i j) (R i j)) C' := by
    rintro A B R f ⟨C', e, h⟩ hn
    exact ⟨C', e, h.congr fun i j _ _ => by simp only [OptOps.leaves, if_neg (hn i)]⟩
  have hacc : ∀ {A : ArgOperand γ α} {B : ArgOperand γ β} {acc : AccOp γ τ ζ} {R : Spec.Mat τ} {f : Except Err (Lil γ)},
      ResAcc x acc C R f → ¬ FirstToC A B →
      ∃ C', f = .ok C' ∧ C.Is (fun i j => x.leaves (some acc) outp C none A B i j (C.get i j) (R i j)) C' := by
    rintro A B acc R f ⟨C', e, h⟩ hn
    exact ⟨C', e, h.congr fun i j _ _ => by simp only [OptOps.leaves, if_neg hn]⟩
  have hacc' : ∀ {A : ArgOperand γ α} {B : ArgOperand γ β} {acc : AccOp γ τ ζ} {R : Spec.Mat τ} {f : Except Err (Lil γ)},
      ResAcc x { acc with op := fun c t => x.accC c (x.castT t) } C R f → FirstToC A B →
      ∃ C', f = .ok C' ∧ C.Is (fun i j => x.leaves (some acc) outp C none A B i j (C.get i j) (R i j)) C' := by
    rintro A B acc R f ⟨C', e, h⟩ hn
    exact ⟨C', e, h.congr fun i j _ _ => by simp only [OptOps.leaves, if_pos hn]⟩
  have hT : ∀ {A : ArgOperand γ α} {B : ArgOperand γ β} {k : MaskKind} {m : Arg γ μ} {R : Spec.Mat τ} {mask comp : Bool → Except Err (Lil γ)},
      (∀ sf, ResT x sf false outp C (m.at C) R (mask sf)) → (∀ sf, ResT x sf true outp C (m.at C) R (comp sf)) →
      ∃ C', optDispatch k mask comp = .ok C' ∧
        C.Is (fun i j => x.leaves none outp C (some (k, m)) A B i j (C.get i j) (R i j)) C' := by
    intro A B k m R mask comp h1 h2
    cases k
    · obtain ⟨C', e, h⟩ := h1 false
      exact ⟨C', e, h.congr fun i j _ _ => by rw [lets_plain]; rfl⟩
    · obtain ⟨C', e, h⟩ := h2 false
      exact ⟨C', e, h.congr fun i j _ _ => by rw [lets_comp]; rfl⟩
    · obtain ⟨C', e, h⟩ := h1 true
      exact ⟨C', e, h.congr fun i j _ _ => by rw [lets_struct]; rfl⟩
    · obtain ⟨C', e, h⟩ := h2 true
      exact ⟨C', e, h.congr fun i j _ _ => by rw [lets_structComp]; rfl⟩
  have hZ : ∀ {A : ArgOperand γ α} {B : ArgOperand γ β} {acc : AccOp γ τ ζ} {k : MaskKind} {m : Arg γ μ} {R : Spec.Mat τ}
      {mask comp : Bool → Except Err (Lil γ)},
      (∀ sf, ResZ x acc sf false outp C (m.at C) R (mask sf)) →
      (∀ sf, (LeavesAll outp C (some (.comp, m)) A B ∧ comp sf = .ok C) ∨
        (¬ LeavesAll outp C (some (.comp, m)) A B ∧ ResZ x acc sf true outp C (m.at C) R (comp sf))) →
      ∃ C', optDispatch k mask comp = .ok C' ∧
        C.Is (fun i j => x.leaves (some acc) outp C (some (k, m)) A B i j (C.get i j) (R i j)) C' := by
    intro A B acc k m R mask comp h1 h2
    have hcc : LeavesAll outp C (some (.structComp, m)) A B ↔ LeavesAll outp C (some (.comp, m)) A B := by
      constructor
      · rintro ⟨⟨k, m, e, -, h⟩, h'⟩
        cases e
        exact ⟨⟨_, _, rfl, .inl rfl, h⟩, h'⟩
      · rintro ⟨⟨k, m, e, -, h⟩, h'⟩
        cases e
        exact ⟨⟨_, _, rfl, .inr rfl, h⟩, h'⟩
    cases k
    · obtain ⟨C', e, h⟩ := h1 false
      refine ⟨C', e, h.congr fun i j _ _ => ?_⟩
      have hn : ¬ LeavesAll outp C (some (.plain, m)) A B := by
        rintro ⟨⟨k, m, e, h, -⟩, -⟩
        cases e; simp at h
      simp only [OptOps.leaves, if_neg hn]
      rw [lets_plain]; rfl
    · rcases h2 false with ⟨hl, e⟩ | ⟨hl, C', e, h⟩
      · exact ⟨C, e, (Lil.Is.self hC).congr fun i j _ _ => by simp only [OptOps.leaves, if_pos hl]⟩
      · refine ⟨C', e, h.congr fun i j _ _ => ?_⟩
        simp only [OptOps.leaves, if_neg hl]
        rw [lets_comp]; rfl
    · obtain ⟨C', e, h⟩ := h1 true
      refine ⟨C', e, h.congr fun i j _ _ => ?_⟩
      have hn : ¬ LeavesAll outp C (some (.struct, m)) A B := by
        rintro ⟨⟨k, m, e, h, -⟩, -⟩
        cases e; simp at h
      simp only [OptOps.leaves, if_neg hn]
      rw [lets_struct]; rfl
    · rcases h2 true with ⟨hl, e⟩ | ⟨hl, C', e, h⟩
      · exact ⟨C, e, (Lil.Is.self hC).congr fun i j _ _ => by simp only [OptOps.leaves, if_pos (hcc.2 hl)]⟩
      · refine ⟨C', e, h.congr fun i j _ _ => ?_⟩
        simp only [OptOps.leaves, if_neg (fun h => hl (hcc.1 h))]
        rw [lets_structComp]; rfl
  rcases A with a | a <;> rcases B with b | b
  · rcases M with _ | ⟨k, m⟩ <;> rcases acc with _ | acc
    · exact hset (optNoMaskNoAccumAB_res hC hA hB s2 s3 s4) (by rintro i ⟨a, b, -, h, -⟩; cases h)
    · cases hb : b.isC with
      | false =>
        exact hacc (optNoMaskAccumAB_res hC hA hB s2 s3 s4 fun h => by rw [hb] at h; cases h)
          (by rintro ⟨a, b, -, h | h, h'⟩ <;> cases h; rw [hb] at h'; cases h')
      | true =>
        refine hacc' (acc := acc) (f := optNoMaskAccumAB x acc C a b) ?_ ⟨a, b, rfl, .inl rfl, hb⟩
        have e : optNoMaskAccumAB x acc C a b = optNoMaskAccumAB x { acc with op := fun c t => x.accC c (x.castT t) } C a b := by
          simp [optNoMaskAccumAB, hb]
        rw [e]
        exact optNoMaskAccumAB_res hC hA hB s2 s3 s4 fun _ _ _ => rfl
    · obtain ⟨m1, m2⟩ := hM' k m rfl
      exact hT (fun sf => optMaskNoAccumAB_res hC m1 m2 hA hB s2 s3 s4)
        (fun sf => optCompNoAccumAB_res hC m1 m2 hA hB s2 s3 s4)
    · obtain ⟨m1, m2⟩ := hM' k m rfl
      refine hZ (acc := acc) (k := k) (A := .plain a) (B := .plain b) (comp := fun sf => optCompAccumAB x acc sf outp C m a b)
        (fun sf => optMaskAccumAB_res hC m1 m2 hA hB s2 s3 s4) fun sf => ?_
      by_cases hl : outp = .replace ∧ (m.at C).nvals = 0 ∧ ((a.at C).nvals = 0 ∨ (b.at C).nvals = 0)
      · obtain ⟨l1, l2, l3⟩ := hl
        refine .inl ⟨⟨⟨_, _, rfl, .inl rfl, (nvals_none_iff m1).1 l2⟩, l1,
          l3.imp (nvals_none_iff hA).1 (nvals_none_iff hB).1, by rintro ⟨a, b, -, h⟩; cases h⟩, ?_⟩
        simp [optCompAccumAB, l1, l2, l3]
      · refine .inr ⟨?_, optCompAccumAB_res hC m1 m2 hA hB s2 s3 s4 fun l1 l2 l3 => absurd ⟨l1, l2, l3⟩ hl⟩
        rintro ⟨⟨k, m', e, -, h⟩, l1, l3, -⟩
        cases e
        exact hl ⟨l1, (nvals_none_iff m1).2 h, l3.imp (nvals_none_iff hA).2 (nvals_none_iff hB).2⟩
  · rcases M with _ | ⟨k, m⟩ <;> rcases acc with _ | acc
    · by_cases hst : b.isC = false ∧ (a.at C).nvals ≠ 0 ∧ (b.at C).nvals ≠ 0
      · obtain ⟨l1, l2, l3⟩ := hst
        obtain ⟨C', e, c1, c2, c3, c4⟩ := abtStale_is (x := x) hC hA hB s2 s3 l1 l2 l3
        refine ⟨C', e, c1, c2, c3, fun i j hi hj => ?_⟩
        have hex : ∀ {ξ : Type} {D : Lil ξ}, D.WF → D.nvals ≠ 0 → ∃ k l, D.get k l ≠ none := by
          intro ξ D hD h0
          apply Classical.byContradiction
          intro hne
          exact h0 ((nvals_none_iff hD).2 fun i j => Classical.byContradiction fun h => hne ⟨i, j, h⟩)
        by_cases hz : ∀ l, (a.at C).get i l = none
        · rw [(c4 i j hi hj).1 hz]
          simp only [OptOps.leaves]
          have hlv : LeavesRow C (.plain a) (.tr b) i := ⟨a, b, rfl, rfl, l1, hex hA l2, hex hB l3, hz⟩
          rw [if_pos hlv]; rfl
        · rw [(c4 i j hi hj).2 hz]
          simp only [OptOps.leaves]
          rw [if_neg]
          · rfl
          · rintro ⟨a', b', e1, e2, -, -, -, h⟩
            cases e1
            exact hz h
      · refine hset (f := optNoMaskNoAccumABT x C a b) ?_ ?_
        · by_cases hb : b.isC = true
          · exact optNoMaskNoAccumABT_res hC hA hB s2 s3 fun h => by rw [hb] at h; cases h
          · have hz : (a.at C).nvals = 0 ∨ (b.at C).nvals = 0 := by
              apply Classical.byContradiction
              intro h
              exact hst ⟨by simpa using hb, fun h' => h (.inl h'), fun h' => h (.inr h')⟩
            have e : optNoMaskNoAccumABT x C a b = .ok C.clear := by
              simp [optNoMaskNoAccumABT, hz]
            rw [e]
            refine ⟨_, rfl, (Lil.Is.clear hC).congr fun i j _ _ => ?_⟩
            show none = (Spec.mxm (a.at C).ncols x.add x.mult (a.at C).get (Spec.Mat.tr (b.at C).get) i j).map x.castT
            have h0 : Empties (a.at C).nvals (b.at C).nvals (Spec.mxm (a.at C).ncols x.add x.mult (a.at C).get (Spec.Mat.tr (b.at C).get)) :=
              tr_empties (fun h _ _ => hA.get_none_of_nvals h ..) (fun h _ _ => hB.get_none_of_nvals h ..)
            rw [h0 hz i j]; rfl
        · rintro i ⟨a', b', e1, e2, l1, ⟨k, l, h1⟩, ⟨k', l', h2⟩, -⟩
          cases e1; cases e2
          exact hst ⟨l1, fun h => h1 (hA.get_none_of_nvals h ..), fun h => h2 (hB.get_none_of_nvals h ..)⟩
    · cases hb : b.isC with
      | false =>
        exact hacc (optNoMaskAccumABT_res hC hA hB s2 s3 fun h => by rw [hb] at h; cases h)
          (by rintro ⟨a, b, -, h | h, h'⟩ <;> cases h; rw [hb] at h'; cases h')
      | true =>
        refine hacc' (acc := acc) (f := optNoMaskAccumABT x acc C a b) ?_ ⟨a, b, rfl, .inr rfl, hb⟩
        have e : optNoMaskAccumABT x acc C a b = optNoMaskAccumABT x { acc with op := fun c t => x.accC c (x.castT t) } C a b := by
          simp [optNoMaskAccumABT, hb]
        rw [e]
        exact optNoMaskAccumABT_res hC hA hB s2 s3 fun _ _ _ => rfl
    · obtain ⟨m1, m2⟩ := hM' k m rfl
      exact hT (fun sf => optMaskNoAccumABT_res hC m1 m2 hA hB s2 s3)
        (fun sf => optCompNoAccumABT_res hC m1 m2 hA hB s2 s3)
    · obtain ⟨m1, m2⟩ := hM' k m rfl
      exact hZ (fun sf => optMaskAccumABT_res hC m1 m2 hA hB s2 s3) fun sf =>
        .inr ⟨fun h => h.2.2.2 ⟨a, b, rfl, rfl⟩, optCompAccumABT_res hC m1 m2 hA hB s2 s3⟩
  · rcases M with _ | ⟨k, m⟩ <;> rcases acc with _ | acc
    · exact hset (optNoMaskNoAccumATB_res hC hA hB s2 s3 s4) (by rintro i ⟨a, b, h, -⟩; cases h)
    · exact hacc (optNoMaskAccumATB_res hC hA hB s2 s3 s4) (by rintro ⟨a, b, h, -⟩; cases h)
    · obtain ⟨m1, m2⟩ := hM' k m rfl
      exact hT (fun sf => optMaskNoAccumATB_res hC m1 m2 hA hB s2 s3 s4)
        (fun sf => optCompNoAccumATB_res hC m1 m2 hA hB s2 s3 s4)
    · obtain ⟨m1, m2⟩ := hM' k m rfl
      refine hZ (acc := acc) (k := k) (A := .tr a) (B := .plain b) (comp := fun sf => optCompAccumATB x acc sf outp C m a b)
        (fun sf => optMaskAccumATB_res hC m1 m2 hA hB s2 s3 s4) fun sf => ?_
      by_cases hl : outp = .replace ∧ (m.at C).nvals = 0 ∧ ((a.at C).nvals = 0 ∨ (b.at C).nvals = 0)
      · obtain ⟨l1, l2, l3⟩ := hl
        refine .inl ⟨⟨⟨_, _, rfl, .inl rfl, (nvals_none_iff m1).1 l2⟩, l1,
          l3.imp (fun h _ _ => (nvals_none_iff hA).1 h ..) (nvals_none_iff hB).1, by rintro ⟨a, b, h, -⟩; cases h⟩, ?_⟩
        simp [optCompAccumATB, l1, l2, l3]
      · refine .inr ⟨?_, optCompAccumATB_res hC m1 m2 hA hB s2 s3 s4 fun l1 l2 l3 => absurd ⟨l1, l2, l3⟩ hl⟩
        rintro ⟨⟨k, m', e, -, h⟩, l1, l3, -⟩
        cases e
        exact hl ⟨l1, (nvals_none_iff m1).2 h, l3.imp (fun h => (nvals_none_iff hA).2 fun i j => h j i) (nvals_none_iff hB).2⟩
  · rcases M with _ | ⟨k, m⟩ <;> rcases acc with _ | acc
    · exact hset (optNoMaskNoAccumATBT_res hC hA hB s2 s3 s4) (by rintro i ⟨a, b, h, -⟩; cases h)
    · exact hacc (optNoMaskAccumATBT_res hC hA hB s2 s3 s4) (by rintro ⟨a, b, h, -⟩; cases h)
    · obtain ⟨m1, m2⟩ := hM' k m rfl
      exact hT (fun sf => optMaskNoAccumATBT_res hC hA hB s2 s3 s4 m1 m2)
        (fun sf => optCompNoAccumATBT_res hC hA hB s2 s3 s4 m1 m2)
    · obtain ⟨m1, m2⟩ := hM' k m rfl
      refine hZ (acc := acc) (k := k) (A := .tr a) (B := .tr b) (comp := fun sf => optCompAccumATBT x acc sf outp C m a b)
        (fun sf => optMaskAccumATBT_res hC hA hB s2 s3 s4 m1 m2) fun sf => ?_
      by_cases hl : outp = .replace ∧ (m.at C).nvals = 0 ∧ ((a.at C).nvals = 0 ∨ (b.at C).nvals = 0)
      · obtain ⟨l1, l2, l3⟩ := hl
        refine .inl ⟨⟨⟨_, _, rfl, .inl rfl, (nvals_none_iff m1).1 l2⟩, l1,
          l3.imp (fun h _ _ => (nvals_none_iff hA).1 h ..) (fun h _ _ => (nvals_none_iff hB).1 h ..), by rintro ⟨a, b, h, -⟩; cases h⟩, ?_⟩
        simp [optCompAccumATBT, l1, l2, l3]
      · refine .inr ⟨?_, optCompAccumATBT_res hC hA hB s2 s3 s4 m1 m2 fun l1 l2 l3 => absurd ⟨l1, l2, l3⟩ hl⟩
        rintro ⟨⟨k, m', e, -, h⟩, l1, l3, -⟩
        cases e
        exact hl ⟨l1, (nvals_none_iff m1).2 h, l3.imp (fun h => (nvals_none_iff hA).2 fun i j => h j i)
          (fun h => (nvals_none_iff hB).2 fun i j => h j i)⟩

/-- **C28** What `mxm` of the `optimized_sequential` backend leaves in the output for all
arguments of fitting shapes, with any conversions, any sharing and any rows in the output:
`OptOps.leaves` has it position by position. -/
theorem C28_optimized_mxm_actual {x : OptOps α β γ τ ζ μ} {acc : Option (AccOp γ τ ζ)} {cast : τ → ζ}
    {outp : Outp} {C : Lil γ} {M : ArgMask γ μ} {A : ArgOperand γ α} {B : ArgOperand γ β}
    (ho : (x.out acc cast outp C M).WF) (hA : (A.at C).WF)
    (hB : (B.at C).WF) (hs : MxmShapes (x.out acc cast outp C M) (A.at C) (B.at C)) :
    ∃ C', optMxm x acc outp C M A B = .done C' ∧ C'.WF ∧ C'.nrows = C.nrows ∧ C'.ncols = C.ncols ∧
      ∀ i j, i < C.nrows → j < C.ncols → C'.get i j = x.leaves acc outp C M A B i j (C.get i j)
        (Spec.mxm (A.at C).ncols x.add (x.mulFor (A.at C) (B.at C)) (A.at C).get (B.at C).get i j) := by
  obtain ⟨C', e, h⟩ := optBackend_actual ho hA hB hs
  exact ⟨C', run_done ((dim_mxm (x.out acc cast outp C M) (A.at C) (B.at C)).ok hs) e, h.wf, h.nrows, h.ncols, h.get⟩

/-- The hypotheses are met where `C28_stale_rows_wrong` finds a wrong row: it is left. -/
example : MxmShapes (Ex.x.out none id .merge Ex.Q none) (.plain Ex.P) (.tr Ex.P) ∧
    LeavesRow Ex.Q (.plain (.obj Ex.P)) (.tr (.obj Ex.P)) 1 :=
  ⟨⟨(by intro k M e; cases e), rfl, rfl, rfl⟩, ⟨_, _, rfl, rfl, rfl, ⟨0, 0, by decide⟩, ⟨0, 0, by decide⟩, fun l => rfl⟩⟩

end GBTL
