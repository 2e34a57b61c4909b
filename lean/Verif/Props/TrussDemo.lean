import Verif.Model.TrussDemo
import Verif.Props.KTrussInc
import Verif.Lemmas.TriangleDemo
import Verif.Lemmas.Metamorph
/-
C87: `k_truss` applied to its own results, and `/repo/src/demo/k_truss_demo.cpp`.
-/
namespace GBTL
open Spec

variable {n : Nat} {t : ITy} {ov : Int → Int → Int} {es fs : List (Nat × Nat)} {E A R : Lil Int} {D : Lil Bool}

/-- The k'-truss of the k-truss. -/
theorem _root_.Spec.IsKTruss.trans {k k' : Nat} {E F F' : Nat → Nat → Bool} (hk : k ≤ k') (T : IsKTruss n k E F)
    (T' : IsKTruss n k' F F') : IsKTruss n k' E F' :=
  ⟨⟨T'.truss.symm, fun i j h => T.truss.sub i j (T'.truss.sub i j h), T'.truss.support⟩, fun F2 h2 =>
    T'.largest F2 ⟨h2.symm, T.largest F2 (IsTruss.less hk (fun _ _ h => h) h2), h2.support⟩⟩

theorem SimpleEdges.sublist (hs : SimpleEdges n es) (h : fs.Sublist es) : SimpleEdges n fs :=
  ⟨fun e he => hs.lt e (h.subset he), fun e he => hs.loopless e (h.subset he), hs.distinct.sublist h⟩

/-- Two sublists with the same elements are the same. -/
theorem sublist_unique {α : Type} {l l1 l2 : List α} (hd : l.Pairwise fun a b => b ≠ a) (h1 : l1.Sublist l) (h2 : l2.Sublist l)
    (h : ∀ x, x ∈ l1 ↔ x ∈ l2) : l1 = l2 := by
  induction l generalizing l1 l2 with
  | nil => rw [List.sublist_nil.1 h1, List.sublist_nil.1 h2]
  | cons a l ih =>
    obtain ⟨ha, hd⟩ := List.pairwise_cons.1 hd
    have hna : ∀ {l' : List α}, l'.Sublist l → a ∉ l' := fun h' hm => ha a (h'.subset hm) rfl
    cases h1 with
    | cons _ h1 =>
      cases h2 with
      | cons _ h2 => exact ih hd h1 h2 h
      | cons_cons _ h2 => exact absurd ((h a).2 (by simp)) (hna h1)
    | cons_cons _ h1 =>
      cases h2 with
      | cons _ h2 => exact absurd ((h a).1 (by simp)) (hna h2)
      | cons_cons _ h2 =>
        rw [ih hd h1 h2 fun x => ?_]
        constructor
        · intro hx
          rcases List.mem_cons.1 ((h x).1 (List.mem_cons_of_mem _ hx)) with rfl | h'
          · exact absurd hx (hna h1)
          · exact h'
        · intro hx
          rcases List.mem_cons.1 ((h x).2 (List.mem_cons_of_mem _ hx)) with rfl | h'
          · exact absurd hx (hna h2)
          · exact h'

/-- The rows of the k-truss are determined. -/
theorem truss_edges_unique {k : Nat} {fs fs' : List (Nat × Nat)} (hs : SimpleEdges n es) (h1 : fs.Sublist es)
    (h2 : fs'.Sublist es) (T : IsKTruss n k (adjOf es) (adjOf fs)) (T' : IsKTruss n k (adjOf es) (adjOf fs')) : fs = fs' := by
  have hd : es.Pairwise fun e f => f ≠ e := hs.distinct.imp fun h => h.1
  have key : ∀ {fs fs' : List (Nat × Nat)}, fs.Sublist es → fs'.Sublist es → (∀ i j, adjOf fs i j = true → adjOf fs' i j = true) →
      ∀ x ∈ fs, x ∈ fs' := by
    intro fs fs' h1 h2 hsub x hx
    have := hsub x.1 x.2 (by rw [adjOf_iff]; exact Or.inl hx)
    rcases adjOf_iff.1 this with h | h
    · exact h
    · exfalso
      have hm1 := h1.subset hx
      have hm2 := h2.subset h
      have hl := hs.loopless x hm1
      obtain ⟨a, ha, ea⟩ := List.getElem_of_mem hm1
      obtain ⟨b, hb, eb⟩ := List.getElem_of_mem hm2
      have hp := List.pairwise_iff_getElem.1 hs.distinct
      rcases Nat.lt_trichotomy a b with hab | rfl | hab
      · have := (hp a b ha hb hab).2
        rw [ea, eb] at this
        exact this rfl
      · rw [ea] at eb
        exact hl (congrArg Prod.fst eb)
      · have := (hp b a hb ha hab).2
        rw [ea, eb] at this
        exact this rfl
  exact sublist_unique hd h1 h2 fun x => ⟨key h1 h2 (fun i j h => T'.largest _ T.truss i j h) x,
    key h2 h1 (fun i j h => T.largest _ T'.truss i j h) x⟩

/-- **C87**, the limit: a graph without edges, such as an empty truss that `k_truss`
returned, makes `k_truss` throw. -/
theorem C87_empty_throws (hw : E.WF) (h0 : E.nrows = 0) (fuel k : Nat) :
    kTruss fuel t ov E k = .error (.err .invalidValue) := by
  have hE : Incidence E.ncols [] E := by
    have hnone : ∀ i v, E.get i v = none := fun i v => Classical.byContradiction fun h => by
      have := (some_lt hw h).1
      omega
    refine ⟨hw, h0, rfl, fun i v x h => ?_, fun i v => ?_⟩
    · rw [hnone] at h; cases h
    · rw [hnone]; simp
  obtain ⟨D, e1, hD⟩ := diagMask_spec E.ncols
  obtain ⟨A, e2, hA⟩ := gram_spec (t := t) (ov := ov) (es := []) ⟨by simp, by simp, by simp⟩ hE hD
  obtain ⟨R, e3, y⟩ := C09_mxm (o := mPlain id (Lil.new 0 E.ncols)) (sr := arithT t ov) (via := id) (A := E) (B := A)
    ⟨Lil.new_wf _ _, noMaskOKM⟩ hE.wf hA.wf ⟨noMaskFitsM, h0.symm, hA.ncols.symm, hA.nrows.symm⟩
  rw [kTruss]
  simp only [h0]
  rw [e1, prog_bind_ok, e2, exec_done, prog_bind_ok, e3, exec_done, prog_bind_ok]
  by_cases hn : E.ncols = 0
  · rw [hn]; rfl
  · obtain ⟨u, ones, e4, e5, ho⟩ := ones_spec (t := t) hn
    rw [e4, lift_ok, prog_bind_ok, e5, exec_done, prog_bind_ok]
    rfl

/-- **C87**, `k_truss` of its own result, with edges left, is `k_truss` of the graph: the
same edges in the same order. -/
theorem C87_again {k k' : Nat} (hs : SimpleEdges n es) (hE : Incidence n es E) (hne : es ≠ []) (hn : (n : Int) ≤ t.maxVal)
    (hk : t.Has ((k : Int) - 2)) (hk' : t.Has ((k' : Int) - 2)) (hkk : k ≤ k') (hk3 : k' < 2 ^ 64) :
    ∃ E1 es1, (∀ fuel, es.length ≤ fuel → kTruss fuel t ov E k = .ok E1) ∧ Incidence n es1 E1 ∧ es1.Sublist es ∧
      (es1 ≠ [] → ∃ E2 E3 es2, (∀ fuel, es.length ≤ fuel → kTruss fuel t ov E1 k' = .ok E2) ∧
        (∀ fuel, es.length ≤ fuel → kTruss fuel t ov E k' = .ok E3) ∧ Incidence n es2 E2 ∧ Incidence n es2 E3) := by
  obtain ⟨E1, es1, e1, hsub, hI, T⟩ := C53_k_truss (t := t) (ov := ov) (k := k) hs hE hne hn hk (by omega)
  refine ⟨E1, es1, e1, hI, hsub, fun h1 => ?_⟩
  obtain ⟨E2, es2, e2, hsub2, hI2, T2⟩ := C53_k_truss (t := t) (ov := ov) (k := k') (hs.sublist hsub) hI h1 hn hk' hk3
  obtain ⟨E3, es3, e3, hsub3, hI3, T3⟩ := C53_k_truss (t := t) (ov := ov) (k := k') hs hE hne hn hk' hk3
  have := truss_edges_unique hs (hsub2.trans hsub) hsub3 (T.trans hkk T2) T3
  subst this
  exact ⟨E2, E3, es2, fun fuel hf => e2 fuel (Nat.le_trans hsub.length_le hf), e3, hI2, hI3⟩

/-- **C87**, any number of times, as in the program: each matrix printed is the incidence
matrix of a truss of the graph the program began with. It ends regularly, or after the
first truss without edges by the exception. -/
theorem C87_chain (ks : List Nat) (hs : SimpleEdges n es) (hE : Incidence n es E) (hne : es ≠ []) (hn : (n : Int) ≤ t.maxVal)
    (hk : ∀ k ∈ ks, t.Has ((k : Int) - 2) ∧ k < 2 ^ 64) (hasc : ks.Pairwise (· ≤ ·)) (fuel : Nat) (hf : es.length ≤ fuel) :
    ∃ Rs out, trussChain fuel t ov E ks = (Rs, out) ∧
      (∀ (p : Nat) F, Rs[p]? = some F → ∃ k fs, ks[p]? = some k ∧ fs.Sublist es ∧ Incidence n fs F ∧
        IsKTruss n k (adjOf es) (adjOf fs)) ∧
      (∀ (p : Nat) F, p + 1 < Rs.length → Rs[p]? = some F → F.nrows ≠ 0) ∧
      ((out = none ∧ Rs.length = ks.length) ∨
        (out = some (.err .invalidValue) ∧ Rs.length < ks.length ∧ ∃ F, Rs.getLast? = some F ∧ F.nrows = 0)) := by
  induction ks generalizing es E with
  | nil => exact ⟨[], none, rfl, by simp, by simp, Or.inl ⟨rfl, rfl⟩⟩
  | cons k ks ih =>
    obtain ⟨hk1, hk3⟩ := hk k (by simp)
    obtain ⟨E1, es1, e1, hsub, hI, T⟩ := C53_k_truss (t := t) (ov := ov) (k := k) hs hE hne hn hk1 hk3
    obtain ⟨hle, hasc⟩ := List.pairwise_cons.1 hasc
    by_cases h1 : es1 = []
    · subst h1
      have h0 : E1.nrows = 0 := hI.nrows
      cases ks with
      | nil =>
        refine ⟨[E1], none, by rw [trussChain, e1 fuel hf]; rfl, fun p F h => ?_, fun p F h => ?_, Or.inl ⟨rfl, rfl⟩⟩
        · match p with
          | 0 => cases h; exact ⟨k, [], rfl, hsub, hI, T⟩
          | p + 1 => cases h
        · simp at h
      | cons k2 ks =>
        refine ⟨[E1], some (.err .invalidValue), ?_, fun p F h => ?_, fun p F h => ?_, Or.inr ⟨rfl, by simp, E1, rfl, h0⟩⟩
        · rw [trussChain, e1 fuel hf]
          dsimp only
          rw [trussChain, C87_empty_throws hI.wf h0]
        · match p with
          | 0 => cases h; exact ⟨k, [], rfl, hsub, hI, T⟩
          | p + 1 => cases h
        · simp at h
    · obtain ⟨Rs, out, e2, a, b, c⟩ := ih (hs.sublist hsub) hI h1 (fun k' h => hk k' (List.mem_cons_of_mem _ h)) hasc
        (Nat.le_trans hsub.length_le hf)
      have h0 : E1.nrows ≠ 0 := by rw [hI.nrows]; intro h; exact h1 (List.eq_nil_of_length_eq_zero h)
      refine ⟨E1 :: Rs, out, ?_, fun p F h => ?_, fun p F h hF => ?_, ?_⟩
      · rw [trussChain, e1 fuel hf]
        dsimp only
        rw [e2]
      · match p with
        | 0 => cases h; exact ⟨k, es1, rfl, hsub, hI, T⟩
        | p + 1 =>
          obtain ⟨k', fs, hk', hfs, hF, T'⟩ := a p F h
          exact ⟨k', fs, hk', hfs.trans hsub, hF, T.trans (hle k' (List.mem_of_getElem? hk')) T'⟩
      · match p with
        | 0 => cases hF; exact h0
        | p + 1 => exact b p F (by simpa using h) hF
      · rcases c with ⟨c1, c2⟩ | ⟨c1, c2, F, c3, c4⟩
        · exact Or.inl ⟨c1, by simp [c2]⟩
        · refine Or.inr ⟨c1, by simpa using c2, F, ?_, c4⟩
          rw [List.getLast?_cons, c3]; rfl

/-! ### The program -/

/-- The edges of the graph the program is about: the pairs above the diagonal. -/
def upperPairs (ij : List (Nat × Nat)) : List (Nat × Nat) := ij.filter fun e => e.1 < e.2

/-- The number of vertices: one more than the largest end of an edge. -/
def orderOf (es : List (Nat × Nat)) : Nat := maxId es + 1

/-- The pairs of an edge number and one of its ends. -/
def ends (m : Nat) (es : List (Nat × Nat)) : List (Nat × Nat) :=
  match es with
  | [] => []
  | e :: es => (m, e.1) :: (m, e.2) :: ends (m + 1) es

theorem mem_ends {es : List (Nat × Nat)} {m i v : Nat} :
    (i, v) ∈ ends m es ↔ ∃ e, m ≤ i ∧ es[i - m]? = some e ∧ (v = e.1 ∨ v = e.2) := by
  induction es generalizing m with
  | nil => simp [ends]
  | cons a es ih =>
    rw [ends, List.mem_cons, List.mem_cons, ih]
    constructor
    · rintro (h | h | ⟨e, h1, h2, h3⟩)
      · cases h; exact ⟨a, Nat.le_refl _, by simp, Or.inl rfl⟩
      · cases h; exact ⟨a, Nat.le_refl _, by simp, Or.inr rfl⟩
      · refine ⟨e, by omega, ?_, h3⟩
        rw [show i - m = (i - (m + 1)) + 1 by omega, List.getElem?_cons_succ, h2]
    · rintro ⟨e, h1, h2, h3⟩
      by_cases him : i = m
      · subst him
        rw [Nat.sub_self] at h2
        cases h2
        rcases h3 with rfl | rfl
        · exact Or.inl rfl
        · exact Or.inr (Or.inl rfl)
      · refine Or.inr (Or.inr ⟨e, by omega, ?_, h3⟩)
        rwa [show i - m = (i - (m + 1)) + 1 by omega, List.getElem?_cons_succ] at h2

theorem trussEdges_foldl (ij : List (Nat × Nat)) (q : Nat × List (Nat × Nat) × Nat) :
    ij.foldl (fun q e =>
      if e.1 < e.2 then (q.1 + 1, q.2.1 ++ [(q.1, e.1), (q.1, e.2)], max (max q.2.2 e.1) e.2) else q) q =
    (q.1 + (upperPairs ij).length, q.2.1 ++ ends q.1 (upperPairs ij), (upperPairs ij).foldl (fun m e =>
      let m := if e.1 > m then e.1 else m
      if e.2 > m then e.2 else m) q.2.2) := by
  induction ij generalizing q with
  | nil => simp [upperPairs, ends]
  | cons e ij ih =>
    rw [List.foldl_cons, ih]
    by_cases h : e.1 < e.2
    · rw [if_pos h, show upperPairs (e :: ij) = e :: upperPairs ij by unfold upperPairs; rw [List.filter_cons_of_pos (by simpa using h)]]
      simp only [List.length_cons, ends, List.append_assoc, List.cons_append, List.nil_append, List.foldl_cons]
      refine Prod.ext (by omega) (Prod.ext rfl ?_)
      show List.foldl _ _ _ = List.foldl _ _ _
      congr 1
      repeat' split
      all_goals omega
    · rw [if_neg h, show upperPairs (e :: ij) = upperPairs ij by unfold upperPairs; rw [List.filter_cons_of_neg (by simpa using h)]]

theorem trussEdges_eq (ij : List (Nat × Nat)) :
    trussEdges ij = ((upperPairs ij).length, ends 0 (upperPairs ij), maxId (upperPairs ij)) := by
  unfold trussEdges maxId
  rw [trussEdges_foldl]
  simp

theorem upper_simple {ij : List (Nat × Nat)} (hd : (upperPairs ij).Pairwise (· ≠ ·)) : SimpleEdges (orderOf (upperPairs ij)) (upperPairs ij) := by
  have hlt : ∀ e ∈ upperPairs ij, e.1 < e.2 := fun e he => by simpa using (List.mem_filter.1 he).2
  refine ⟨fun e he => ((maxId_foldl (upperPairs ij) 0 _).1 (Nat.lt_succ_self _)).2 e he, fun e he => Nat.ne_of_lt (hlt e he), ?_⟩
  refine hd.imp_of_mem fun {a b} ha hb h => ⟨fun h' => h h'.symm, fun h' => ?_⟩
  have h1 := hlt a ha
  have h2 := hlt b hb
  rw [h'] at h2
  exact Nat.lt_asymm h1 h2

/-- **C87**, the matrix the program builds: the incidence matrix of the graph. -/
theorem C87_matrix {ij : List (Nat × Nat)} (hd : (upperPairs ij).Pairwise (· ≠ ·)) :
    ∃ E, trussMatrix ij = .ok E ∧ Incidence (orderOf (upperPairs ij)) (upperPairs ij) E := by
  have hs := upper_simple hd
  have hin : ∀ q ∈ (ends 0 (upperPairs ij)).map (fun e => (e.1, e.2, (1 : Int))),
      q.1 < (upperPairs ij).length ∧ q.2.1 < orderOf (upperPairs ij) := by
    intro q hq
    obtain ⟨⟨i, v⟩, he, rfl⟩ := List.mem_map.1 hq
    obtain ⟨e, _, h2, h3⟩ := mem_ends.1 he
    have := hs.lt e (List.mem_of_getElem? h2)
    refine ⟨(List.getElem?_eq_some_iff.1 h2).1, ?_⟩
    rcases h3 with rfl | rfl
    · exact this.1
    · exact this.2
  obtain ⟨B, e, hB, h1, h2, hg⟩ := Lil.build_spec (fun _ y => y) ((ends 0 (upperPairs ij)).map (fun e => (e.1, e.2, (1 : Int))))
    (Lil.new (upperPairs ij).length (orderOf (upperPairs ij))) (Lil.new_wf _ _) hin
  have hget : ∀ i v, (B.get i v = some 1 ∧ (i, v) ∈ ends 0 (upperPairs ij)) ∨ (B.get i v = none ∧ (i, v) ∉ ends 0 (upperPairs ij)) := by
    intro i v
    rw [hg, Lil.get_new]
    exact build_ones _ _
  refine ⟨B, ?_, hB, h1, h2, fun i v x hx => ?_, fun i v => ?_⟩
  · unfold trussMatrix
    rw [trussEdges_eq]
    dsimp only
    rw [show maxId (upperPairs ij) + 1 = orderOf (upperPairs ij) from rfl, e]
    rfl
  · rcases hget i v with ⟨h', _⟩ | ⟨h', _⟩ <;> rw [h'] at hx
    · cases hx; exact Or.inr rfl
    · cases hx
  · rcases hget i v with ⟨h', hm⟩ | ⟨h', hm⟩ <;> rw [h']
    · obtain ⟨e, _, h3⟩ := mem_ends.1 hm
      exact ⟨fun _ => ⟨e, h3⟩, fun _ => rfl⟩
    · refine ⟨nofun, fun ⟨e, h3⟩ => absurd (mem_ends.2 ⟨e, Nat.zero_le _, h3⟩) hm⟩

/-- **C87**, the program. For every list of pairs without repetitions above the diagonal, the
largest of them `n - 1`, it
prints the incidence matrix of the graph and then those of its 3-, 4-, 5- and 6-truss, up
to the first that has no edges. If that is not the 6-truss, the program ends with an
exception that it does not catch. -/
theorem C87_demo_partial {ij : List (Nat × Nat)} (hmax : ∃ e ∈ upperPairs ij, e.2 + 1 = n)
    (hle : ∀ e ∈ upperPairs ij, e.2 < n) (hd : (upperPairs ij).Pairwise (· ≠ ·)) (hn : (n : Int) ≤ ITy.maxVal .i32) (fuel : Nat) (hf : (upperPairs ij).length ≤ fuel) :
    ∃ E Rs out, trussDemo fuel ov ij = (E :: Rs, out) ∧ Incidence (n) (upperPairs ij) E ∧
      (∀ (p : Nat) F, Rs[p]? = some F → p < 4 ∧ ∃ fs, fs.Sublist (upperPairs ij) ∧ Incidence (n) fs F ∧
        IsKTruss (n) (p + 3) (adjOf (upperPairs ij)) (adjOf fs)) ∧
      (∀ (p : Nat) F, p + 1 < Rs.length → Rs[p]? = some F → F.nrows ≠ 0) ∧
      ((out = none ∧ Rs.length = 4) ∨
        (out = some (.err .invalidValue) ∧ Rs.length < 4 ∧ ∃ F, Rs.getLast? = some F ∧ F.nrows = 0)) := by
  obtain ⟨e0, he0, hm0⟩ := hmax
  have hne : upperPairs ij ≠ [] := List.ne_nil_of_mem he0
  have ho : orderOf (upperPairs ij) = n := maxId_eq (fun e he => ⟨by
    have h1 : e.1 < e.2 := by simpa using (List.mem_filter.1 he).2
    have := hle e he
    omega, hle e he⟩) ⟨e0, he0, Or.inr hm0⟩
  obtain ⟨E, e, hE⟩ := C87_matrix hd
  have hs := upper_simple hd
  rw [ho] at hE hs
  obtain ⟨Rs, out, e2, a, b, c⟩ := C87_chain (t := .i32) (ov := ov) [3, 4, 5, 6] hs hE hne hn (by decide)
    (by decide) fuel hf
  refine ⟨E, Rs, out, by unfold trussDemo; rw [e]; dsimp only; rw [e2], hE, fun p F h => ?_, b, c⟩
  obtain ⟨k, fs, h1, h2, h3, h4⟩ := a p F h
  match p with
  | 0 | 1 | 2 | 3 => cases h1; exact ⟨by omega, fs, h2, h3, h4⟩
  | p + 4 => cases h1

/-- **C87**, a graph without edges. -/
theorem C87_demo_no_edges {ij : List (Nat × Nat)} (h : upperPairs ij = []) (fuel : Nat) :
    trussDemo fuel ov ij = ([Lil.new 0 1], some (.err .invalidValue)) := by
  have e : trussMatrix ij = .ok (Lil.new 0 1) := by
    unfold trussMatrix
    rw [trussEdges_eq, h]
    rfl
  unfold trussDemo
  rw [e]
  dsimp only
  rw [trussChain, C87_empty_throws (Lil.new_wf 0 1) rfl]

/-- **C87** is false as it stands: for a path the program prints the empty 3-truss and is
ended by the exception. -/
theorem C87_demo_wrong : ∃ ij : List (Nat × Nat), (upperPairs ij).Pairwise (· ≠ ·) ∧ upperPairs ij ≠ [] ∧
    ∀ fuel, 2 ≤ fuel → ∀ ov, ∃ E F, trussDemo fuel ov ij = ([E, F], some (.err .invalidValue)) ∧ F.nrows = 0 := by
  refine ⟨[(0, 1), (1, 0), (1, 2), (2, 1)], by decide, by decide, fun fuel hf ov => ?_⟩
  obtain ⟨E, e, hE⟩ := C87_matrix (ij := [(0, 1), (1, 0), (1, 2), (2, 1)]) (by decide)
  obtain ⟨F, fs, e2, h1, hF, T⟩ := C53_k_truss (t := .i32) (ov := ov) (k := 3) (upper_simple (by decide)) hE (by decide) (by decide)
    (by decide) (by decide)
  have hfs : fs = [] := by
    apply Classical.byContradiction
    intro hn
    obtain ⟨x, hx⟩ := List.exists_mem_of_ne_nil _ hn
    have h3 := T.truss.support x.1 x.2 (adjOf_iff.2 (Or.inl hx))
    have hpos : 0 < commonNbrs 3 (adjOf fs) x.1 x.2 := Nat.lt_of_succ_lt_succ (Nat.lt_of_succ_lt_succ h3)
    obtain ⟨m, hm⟩ := List.exists_mem_of_length_pos (show 0 < (List.filter (fun k => adjOf fs x.1 k && adjOf fs k x.2) (List.range 3)).length from hpos)
    have hm := List.mem_filter.1 hm
    simp only [Bool.and_eq_true, List.mem_range] at hm
    have k1 := T.truss.sub _ _ hm.2.1
    have k2 := T.truss.sub _ _ hm.2.2
    have k3 := h1.subset hx
    have all : ∀ x ∈ [(0, 1), (1, 2)], ∀ m, m < 3 → adjOf [(0, 1), (1, 2)] x.1 m = true →
      adjOf [(0, 1), (1, 2)] m x.2 = true → False := by decide
    exact all x k3 m hm.1 k1 k2
  subst hfs
  refine ⟨E, F, ?_, hF.nrows⟩
  unfold trussDemo
  rw [e]
  dsimp only
  rw [trussChain, e2 fuel hf]
  dsimp only
  rw [trussChain, C87_empty_throws hF.wf hF.nrows]

/-- Four vertices, all adjacent, and an edge 3 - 4: the 3- and the 4-truss are the four
vertices, the 5-truss is empty, and there is no 6-truss. -/
example : (∃ e ∈ upperPairs [(0, 1), (0, 2), (0, 3), (1, 2), (3, 1), (1, 3), (2, 3), (3, 4)], e.2 + 1 = 5) ∧
    (∀ e ∈ upperPairs [(0, 1), (0, 2), (0, 3), (1, 2), (3, 1), (1, 3), (2, 3), (3, 4)], e.2 < 5) ∧
    (upperPairs [(0, 1), (0, 2), (0, 3), (1, 2), (3, 1), (1, 3), (2, 3), (3, 4)]).Pairwise (· ≠ ·) ∧
    ((5 : Nat) : Int) ≤ ITy.maxVal .i32 ∧
    trussDemo 7 (fun _ _ => 0) [(0, 1), (0, 2), (0, 3), (1, 2), (3, 1), (1, 3), (2, 3), (3, 4)] =
      ([⟨7, 5, 14, [[(0, 1), (1, 1)], [(0, 1), (2, 1)], [(0, 1), (3, 1)], [(1, 1), (2, 1)], [(1, 1), (3, 1)],
          [(2, 1), (3, 1)], [(3, 1), (4, 1)]]⟩,
        ⟨6, 5, 12, [[(0, 1), (1, 1)], [(0, 1), (2, 1)], [(0, 1), (3, 1)], [(1, 1), (2, 1)], [(1, 1), (3, 1)],
          [(2, 1), (3, 1)]]⟩,
        ⟨6, 5, 12, [[(0, 1), (1, 1)], [(0, 1), (2, 1)], [(0, 1), (3, 1)], [(1, 1), (2, 1)], [(1, 1), (3, 1)],
          [(2, 1), (3, 1)]]⟩,
        ⟨0, 5, 0, []⟩], some (.err .invalidValue)) := by
  exact ⟨by decide, by decide, by decide, by decide, by decide +kernel⟩

/-- C87_again and C87_chain on the graph of C53. -/
example : SimpleEdges 5 Ex.incEdges ∧ Incidence 5 Ex.incEdges Ex.incMatrix ∧ Ex.incEdges ≠ [] ∧
    (∀ k ∈ [2, 3, 3, 4], ITy.Has .i8 ((k : Int) - 2) ∧ k < 2 ^ 64) ∧ [2, 3, 3, 4].Pairwise (· ≤ ·) ∧
    (trussChain 6 .i8 (fun _ _ => 0) Ex.incMatrix [2, 3, 3, 4]).1.map (·.nrows) = [6, 5, 5, 0] ∧
    (trussChain 6 .i8 (fun _ _ => 0) Ex.incMatrix [2, 3, 3, 4]).2 = none := by
  have hs : SimpleEdges 5 Ex.incEdges := ⟨by decide, by decide, by decide⟩
  exact ⟨hs, Ex.incidence_of (Lil.wf_chk (by decide)) rfl rfl hs (by decide +kernel), by decide, by decide, by decide,
    by decide +kernel, by decide +kernel⟩

end GBTL
