import Verif.Props.Louvain
/-
**C66** The assignment of vertices to clusters from the matrix of a Louvain clustering.
-/
namespace GBTL
open Spec

variable {n : Nat}

/-- **C66** The entry of a row of a square matrix is the last column with an element; it has
no entry if the row is empty. -/
theorem C66_louvain_assignments_partial {C : Lil Bool} (hC : C.WF) (hsq : C.nrows = C.ncols) (hn : 0 < C.nrows) :
    ∃ w, louvainAssignments C = .ok w ∧ w.WF ∧ w.size = C.nrows ∧ ∀ i, i < C.nrows →
      (∀ c, w.get i = some c ↔ C.get i c ≠ none ∧ ∀ d, C.get i d ≠ none → d ≤ c) ∧
      (w.get i = none ↔ ∀ c, C.get i c = none) := by
  obtain ⟨w, e1, z1, -⟩ := newV (τ := Nat) (show 0 < C.ncols by omega)
  obtain ⟨v, w0, e2, e3, z3, g3⟩ := indexVec_ok hn
  obtain ⟨w', e4, y⟩ := C12_mxv (o := vPlain id w) (sr := (⟨max, fun _ y => y, fun x _ => x⟩ : SR Bool Nat Nat)) (A := C) (u := v)
    (vPlain_wf z1.wf) z3.wf hC ⟨noMaskFits, z1.sz.trans hsq.symm, z3.sz.trans hsq⟩
  obtain ⟨z4, g4⟩ := vP_yields z1 y
  have hlt : ∀ {i c}, C.get i c ≠ none → c < C.ncols := fun h => (some_lt hC h).2
  have hval : ∀ i, i < C.nrows → w'.get i = osum max ((List.range C.ncols).map fun c => (C.get i c).map fun _ => c) := by
    intro i hi
    rw [g4 i (by rw [← hsq]; exact hi), Option.map_id, id]
    show osum max ((List.range C.ncols).map fun c => both (fun _ y => y) (C.get i c) (v.get c)) = _
    congr 1
    refine List.map_congr_left fun c hc => ?_
    rw [g3 c (by rw [hsq]; exact List.mem_range.1 hc)]
    cases C.get i c <;> rfl
  refine ⟨w', ?_, z4.wf, z4.sz.trans hsq.symm, fun i hi => ⟨fun c => ?_, ?_⟩⟩
  · unfold louvainAssignments
    rw [e1, lift_ok, prog_bind_ok, e2, lift_ok, prog_bind_ok, e3, prog_bind_ok, e4, exec_done]
  · have hbest : ∀ x, w'.get i = some x → C.get i x ≠ none ∧ ∀ d, C.get i d ≠ none → d ≤ x := by
      intro x hx
      rw [hval i hi] at hx
      obtain ⟨⟨k, hk, ek⟩, h2⟩ := osum_best (le := fun x y : Nat => y ≤ x) (fun _ => Nat.le_refl _) (fun x y z h1 h2 => Nat.le_trans h2 h1)
        (fun x y => by omega) hx
      constructor
      · cases hc : C.get i k with
        | none => rw [hc] at ek; cases ek
        | some b => rw [hc] at ek; injection ek with ek; rw [← ek, hc]; simp
      · intro d hd
        refine h2 d d (hlt hd) ?_
        cases hc : C.get i d with
        | none => exact absurd hc hd
        | some b => rfl
    constructor
    · exact hbest c
    · rintro ⟨h1, h2⟩
      cases hx : w'.get i with
      | none =>
        rw [hval i hi, osum_range_none] at hx
        have := hx c (hlt h1)
        cases hc : C.get i c with
        | none => exact absurd hc h1
        | some b => rw [hc] at this; cases this
      | some x =>
        obtain ⟨h3, h4⟩ := hbest x hx
        have := h2 x h3
        have := h4 c h1
        rw [show x = c by omega]
  · rw [hval i hi, osum_range_none]
    constructor
    · intro h c
      refine Classical.byContradiction fun hne => ?_
      have := h c (hlt hne)
      cases hc : C.get i c with
      | none => exact hne hc
      | some b => rw [hc] at this; cases this
    · intro h c _
      rw [h c]; rfl

/-- **C66** Of a matrix that Louvain clustering returns, the entry of each vertex is its
cluster. -/
theorem C66_assignments_of_louvain {masked : Bool} {rnd : Nat → Rat} {fuel maxIters : Nat} {G : Lil Rat} {S : Lil Bool} (hG : G.WF)
    (hn : 0 < G.nrows) (hw : ∀ i j, G.get i j ≠ none → 0 < allWeight G.nrows G.get)
    (h : louvain masked rnd fuel G maxIters = .ok (.returned S)) :
    ∃ w, louvainAssignments S = .ok w ∧ w.size = G.nrows ∧
      ∀ i c, i < G.nrows → (w.get i = some c ↔ S.get i c = some true) := by
  obtain ⟨h1, h2, h3, a, h4, h5, -⟩ := C65_louvain_returned hG hn hw h
  obtain ⟨w, e, -, hs, hg⟩ := C66_louvain_assignments_partial h1 (h2.trans h3.symm) (by omega)
  have hst : ∀ i c, i < G.nrows → (S.get i c ≠ none ↔ c = a i) := by
    intro i c hi
    constructor
    · intro hne
      have hc := (some_lt h1 hne).2
      rw [h5 i c hi (by omega)] at hne
      by_cases hca : c = a i
      · exact hca
      · rw [if_neg hca] at hne; exact absurd rfl hne
    · rintro rfl
      rw [h5 i _ hi (h4 i hi), if_pos rfl]; simp
  refine ⟨w, e, hs.trans h2, fun i c hi => ?_⟩
  rw [(hg i (by omega)).1 c, hst i c hi]
  constructor
  · rintro ⟨rfl, -⟩
    rw [h5 i _ hi (h4 i hi), if_pos rfl]
  · intro hs
    have hca := (hst i c hi).1 (by rw [hs]; simp)
    exact ⟨hca, fun d hd => by rw [hca, (hst i d hi).1 hd]; exact Nat.le_refl _⟩

/-- The hypotheses hold: the assignment of the two triangles. -/
example : ∃ S w, louvain false (fun k => (k : Rat)) 1 lvPair 10 = .ok (.returned S) ∧ louvainAssignments S = .ok w ∧
    (List.range 6).map w.get = [some 1, some 1, some 1, some 5, some 5, some 5] := by
  have : (match louvain false (fun k => (k : Rat)) 1 lvPair 10 with
      | .ok (.returned S) =>
        match louvainAssignments S with
        | .ok w => (List.range 6).map w.get == [some 1, some 1, some 1, some 5, some 5, some 5]
        | _ => false
      | _ => false) = true := by decide +kernel
  split at this
  · next S e =>
    split at this
    · next w e' => exact ⟨S, w, e, e', by simpa using this⟩
    · cases this
  · cases this

/-- **C66** A matrix that is not square is refused: here one with a row for each of three
vertices and a column for each of two clusters. -/
theorem C66_louvain_assignments_disproof :
    ∃ C : Lil Bool, C.WF ∧ C.nrows = 3 ∧ C.ncols = 2 ∧ (∀ i, i < 3 → ∃ c, c < 2 ∧ C.get i c = some true) ∧
      louvainAssignments C = .error (.err .dimension) :=
  ⟨{ nrows := 3, ncols := 2, nvals := 3, rows := [[(0, true)], [(1, true)], [(1, true)]] }, Lil.wf_chk (by decide +kernel), rfl, rfl,
    by decide +kernel, by decide +kernel⟩

end GBTL
