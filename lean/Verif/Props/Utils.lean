import Verif.Lemmas.Tuples
import Verif.Model.Utils
import Verif.Props.Containers
import Verif.Props.Select
import Verif.Props.Algebra
/-
C41, C43: the matrix helpers and the degree functions.
-/
namespace GBTL
open Spec

variable {α β γ τ : Type}

/-! ### C41 -/

/-- `build` of tuples with distinct positions into a matrix that stores nothing. -/
theorem build_distinct {A : Lil α} (hA : A.WF) (he : ∀ i j, A.get i j = none) (dup : α → α → α)
    {ts : List (Nat × Nat × α)} (hb : ∀ t ∈ ts, t.1 < A.nrows ∧ t.2.1 < A.ncols)
    (hd : (ts.map fun t => (t.1, t.2.1)).Nodup) :
    ∃ B, A.build dup ts = (.ok (), B) ∧ B.WF ∧ B.nrows = A.nrows ∧ B.ncols = A.ncols ∧
      ∀ i j x, B.get i j = some x ↔ (i, j, x) ∈ ts := by
  obtain ⟨B, e, hB, h1, h2, h3⟩ := Lil.build_spec dup ts A hA hb
  refine ⟨B, e, hB, h1, h2, ?_⟩
  intro i j x
  rw [h3, he]
  show combined dup _ _ = _ ↔ _
  rw [Lil.combined_nodup]
  · simp only [List.mem_map]
    constructor
    · rintro ⟨t, ht, e⟩
      obtain ⟨a, b, c⟩ := t
      cases e
      exact ht
    · intro h
      exact ⟨_, h, rfl⟩
  · rw [List.map_map]
    exact hd

theorem option_ext {o p : Option α} (h : ∀ x, o = some x ↔ p = some x) : o = p := by
  cases o with
  | some x => exact ((h x).1 rfl).symm
  | none =>
    cases p with
    | none => rfl
    | some x => exact (h x).2 rfl

/-- C41: `diag(v)` stores `v(i)` at `(i, i)` and nothing else. -/
theorem C41_diag [Inhabited α] (c : α → β) (v : BVec α) (hv : v.WF) :
    ∃ D, diag c v = .ok D ∧ D.WF ∧ D.nrows = v.size ∧ D.ncols = v.size ∧
      ∀ i j, D.get i j = if i = j then (v.get i).map c else none := by
  obtain ⟨ts, e, hs, hm, hl⟩ := C07_vector_tuples v hv
  have hlt : ∀ t ∈ ts, t.1 < v.size := by
    intro t ht
    rcases Nat.lt_or_ge t.1 v.size with h | h
    · exact h
    · have := (hm t.1 t.2).1 ht
      rw [hv.get_none h] at this; cases this
  obtain ⟨D, e', hD, h1, h2, h3⟩ := build_distinct (Lil.new_wf v.size v.size)
    (fun i j => by simp [Lil.get]) (fun _ y => y)
    (ts := ts.map fun p => (p.1, p.1, c p.2))
    (by
      intro t ht
      obtain ⟨p, hp, rfl⟩ := List.mem_map.1 ht
      exact ⟨hlt p hp, hlt p hp⟩)
    (by
      rw [List.map_map, List.Nodup, List.pairwise_map]
      refine hs.imp ?_
      intro p q h e
      simp only [Function.comp, Prod.mk.injEq] at e
      omega)
  refine ⟨D, ?_, hD, h1, h2, ?_⟩
  · simp only [diag, vecTuples_eq e hl, Except.bind_ok', e', method]
  · intro i j
    refine option_ext fun x => ?_
    rw [h3]
    by_cases h : i = j
    · subst h
      simp only [List.mem_map, if_true, Option.map_eq_some_iff]
      constructor
      · rintro ⟨p, hp, e⟩
        cases e
        exact ⟨p.2, (hm _ _).1 hp, rfl⟩
      · rintro ⟨y, hy, rfl⟩
        exact ⟨(i, y), (hm _ _).2 hy, rfl⟩
    · simp only [List.mem_map, if_neg h]
      constructor
      · rintro ⟨p, hp, e⟩
        cases e
        exact absurd rfl h
      · intro h'; cases h'

example : diag (fun x : Nat => x + 1) { size := 3, nvals := 2, vals := [5, 0, 7], bitmap := [true, false, true] } =
    .ok { nrows := 3, ncols := 3, nvals := 2, rows := [[(0, 6)], [], [(2, 8)]] } := by decide +kernel

/-- C41: `scaled_identity(n, x)` stores `x` at every `(i, i)` and nothing else. -/
theorem C41_scaled_identity (n : Nat) (x : α) :
    ∃ D, scaledIdentity n x = .ok D ∧ D.WF ∧ D.nrows = n ∧ D.ncols = n ∧
      ∀ i j, D.get i j = if i = j ∧ i < n then some x else none := by
  have hz : ∀ t, t ∈ (List.range n).zip ((List.range n).zip (List.replicate n x)) ↔
      t.1 = t.2.1 ∧ t.1 < n ∧ t.2.2 = x := by
    intro t
    obtain ⟨a, b, y⟩ := t
    rw [List.mem_iff_getElem?]
    simp only [List.getElem?_zip_eq_some, List.getElem?_replicate]
    constructor
    · rintro ⟨k, h1, h2, h3⟩
      by_cases hk : k < n
      · simp [hk] at h1 h2 h3
        subst h1; subst h2; subst h3
        exact ⟨rfl, hk, rfl⟩
      · simp [hk] at h3
    · rintro ⟨h1, h2, h3⟩
      change a = b at h1
      change a < n at h2
      change y = x at h3
      subst h1; subst h3
      exact ⟨a, by simp [h2]⟩
  obtain ⟨D, e', hD, h1, h2, h3⟩ := build_distinct (Lil.new_wf n n)
    (fun i j => by simp [Lil.get]) (fun _ y => y)
    (ts := (List.range n).zip ((List.range n).zip (List.replicate n x)))
    (by
      intro t ht
      obtain ⟨h1, h2, -⟩ := (hz t).1 ht
      exact ⟨h2, h1 ▸ h2⟩)
    (by
      have : ((List.range n).zip ((List.range n).zip (List.replicate n x))).map Prod.fst
          = List.range n := by
        rw [List.map_fst_zip]
        simp
      have hn : (((List.range n).zip ((List.range n).zip (List.replicate n x))).map Prod.fst).Nodup := by
        rw [this]; exact List.nodup_range
      rw [List.Nodup, List.pairwise_map] at hn ⊢
      refine hn.imp ?_
      intro p q h e
      simp only [Prod.mk.injEq] at e
      exact h e.1)
  refine ⟨D, ?_, hD, h1, h2, ?_⟩
  · simp only [scaledIdentity, Lil.buildArrays, List.length_range, List.length_replicate, ne_eq,
      not_true_eq_false, or_self, if_false, e', method]
  · intro i j
    refine option_ext fun y => ?_
    rw [h3, hz]
    simp only
    by_cases h : i = j ∧ i < n
    · simp [h, eq_comm]
    · rw [if_neg h]
      constructor
      · rintro ⟨h1, h2, -⟩; exact absurd ⟨h1, h2⟩ h
      · intro h'; cases h'

example : scaledIdentity 2 (7 : Nat) = .ok { nrows := 2, ncols := 2, nvals := 2, rows := [[(0, 7)], [(1, 7)]] } := by
  decide +kernel

theorem mem_splitLoop (ts : List (Nat × Nat × α)) (t : Nat × Nat × α) :
    (t ∈ (splitLoop ts).1 ↔ t ∈ ts ∧ ¬ t.1 < t.2.1) ∧ (t ∈ (splitLoop ts).2 ↔ t ∈ ts ∧ t.1 < t.2.1) := by
  induction ts with
  | nil => simp [splitLoop]
  | cons s ts ih =>
    unfold splitLoop
    by_cases hs : s.1 < s.2.1
    · rw [if_pos hs]
      simp only [List.mem_cons, ih.1, ih.2]
      constructor
      · constructor
        · rintro ⟨h1, h2⟩; exact ⟨.inr h1, h2⟩
        · rintro ⟨h1 | h1, h2⟩
          · subst h1; exact absurd hs h2
          · exact ⟨h1, h2⟩
      · constructor
        · rintro (h | ⟨h1, h2⟩)
          · subst h; exact ⟨.inl rfl, hs⟩
          · exact ⟨.inr h1, h2⟩
        · rintro ⟨h1 | h1, h2⟩
          · exact .inl h1
          · exact .inr ⟨h1, h2⟩
    · rw [if_neg hs]
      simp only [List.mem_cons, ih.1, ih.2]
      constructor
      · constructor
        · rintro (h | ⟨h1, h2⟩)
          · subst h; exact ⟨.inl rfl, hs⟩
          · exact ⟨.inr h1, h2⟩
        · rintro ⟨h1 | h1, h2⟩
          · exact .inl h1
          · exact .inr ⟨h1, h2⟩
      · constructor
        · rintro ⟨h1, h2⟩; exact ⟨.inr h1, h2⟩
        · rintro ⟨h1 | h1, h2⟩
          · subst h1; exact absurd h2 hs
          · exact ⟨h1, h2⟩

theorem splitLoop_sublist (ts : List (Nat × Nat × α)) :
    (splitLoop ts).1.Sublist ts ∧ (splitLoop ts).2.Sublist ts := by
  induction ts with
  | nil => simp [splitLoop]
  | cons s ts ih =>
    unfold splitLoop
    split
    · exact ⟨ih.1.cons _, ih.2.cons_cons _⟩
    · exact ⟨ih.1.cons_cons _, ih.2.cons _⟩

/-- C41: `split(A, L, U)` into matrices of `A`'s shape that store nothing: elements
right of the diagonal go to `U`, the others to `L`. -/
theorem C41_split [Inhabited α] (A L U : Lil α) (hA : A.WF) (hL : L.WF) (hU : U.WF)
    (sL : L.nrows = A.nrows ∧ L.ncols = A.ncols) (sU : U.nrows = A.nrows ∧ U.ncols = A.ncols)
    (eL : ∀ i j, L.get i j = none) (eU : ∀ i j, U.get i j = none) :
    ∃ L' U', split A L U = .ok (L', U') ∧ L'.WF ∧ U'.WF ∧
      L'.nrows = A.nrows ∧ L'.ncols = A.ncols ∧ U'.nrows = A.nrows ∧ U'.ncols = A.ncols ∧
      (∀ i j, L'.get i j = if j ≤ i then A.get i j else none) ∧
      (∀ i j, U'.get i j = if i < j then A.get i j else none) := by
  obtain ⟨hs, hm, hlen⟩ := C07_matrix_tuples A hA
  have hb : ∀ t ∈ A.extractTuples, t.1 < A.nrows ∧ t.2.1 < A.ncols := by
    rintro ⟨i, j, x⟩ ht
    have := (hm i j x).1 ht
    constructor
    · rcases Nat.lt_or_ge i A.nrows with h | h
      · exact h
      · rw [hA.toWFr.get_none (Or.inl h)] at this; cases this
    · rcases Nat.lt_or_ge j A.ncols with h | h
      · exact h
      · rw [hA.toWFr.get_none (Or.inr h)] at this; cases this
  have hnd : (A.extractTuples.map fun t => (t.1, t.2.1)).Nodup := by
    rw [List.Nodup, List.pairwise_map]
    refine hs.imp ?_
    intro p q h e
    simp only [Prod.mk.injEq] at e
    omega
  obtain ⟨b1, b2⟩ := splitLoop_sublist A.extractTuples
  obtain ⟨L', e1, w1, n1, c1, g1⟩ := build_distinct hL eL (fun _ y => y)
    (fun t ht => by rw [sL.1, sL.2]; exact hb t (b1.subset ht)) (hnd.sublist (b1.map _))
  obtain ⟨U', e2, w2, n2, c2, g2⟩ := build_distinct hU eU (fun _ y => y)
    (fun t ht => by rw [sU.1, sU.2]; exact hb t (b2.subset ht)) (hnd.sublist (b2.map _))
  refine ⟨L', U', ?_, w1, w2, by rw [n1, sL.1], by rw [c1, sL.2], by rw [n2, sU.1],
    by rw [c2, sU.2], ?_, ?_⟩
  · simp only [split, matTuples_eq hlen, Except.bind_ok', e1, e2, method]
  · intro i j
    refine option_ext fun x => ?_
    rw [g1, (mem_splitLoop _ _).1, hm]
    simp only
    by_cases h : j ≤ i
    · rw [if_pos h]
      exact ⟨fun h' => h'.1, fun h' => ⟨h', by omega⟩⟩
    · rw [if_neg h]
      constructor
      · rintro ⟨-, h'⟩; omega
      · intro h'; cases h'
  · intro i j
    refine option_ext fun x => ?_
    rw [g2, (mem_splitLoop _ _).2, hm]
    simp only
    by_cases h : i < j
    · rw [if_pos h]
      exact ⟨fun h' => h'.1, fun h' => ⟨h', h⟩⟩
    · rw [if_neg h]
      constructor
      · rintro ⟨-, h'⟩; exact absurd h' h
      · intro h'; cases h'

example : ∃ L U, split Ex.A (Lil.new 2 2) (Lil.new 2 2) = .ok (L, U) ∧ L.nvals = 2 ∧ U.nvals = 1 :=
  ⟨{ nrows := 2, ncols := 2, nvals := 2, rows := [[(0, 1)], [(1, 3)]] },
   { nrows := 2, ncols := 2, nvals := 1, rows := [[(1, 2)], []] }, by decide +kernel, rfl, rfl⟩

/-! ### C43 -/

theorem count_congr_lt {n : Nat} {f : Nat → Option α} {g : Nat → Option β}
    (h : ∀ i, i < n → (f i).isSome = (g i).isSome) : Vec.count n f = Vec.count n g := by
  unfold Vec.count
  congr 1
  refine List.filter_congr fun i hi => h i (List.mem_range.1 hi)

/-- A fresh vector filled by an unmasked, unaccumulated operation holds the result. -/
theorem plain_yields {c : τ → γ} {w w' : BVec γ} {t : Vec τ} (h : (vPlain c w).Yields t w') :
    w'.WF ∧ w'.size = w.size ∧ ∀ i, i < w.size → w'.get i = (t i).map c := by
  refine ⟨h.wf, h.size, ?_⟩
  intro i hi
  rw [h.get i hi]
  simp [vPlain, VMask.allows, Spec.write, Spec.accum]

theorem vPlain_wf {c : τ → γ} {w : BVec γ} (hw : w.WF) : (vPlain c w).WF :=
  ⟨hw, fun _ _ h => by cases h⟩

theorem vPlain_fits {c : τ → γ} {w : BVec γ} (n : Nat) : (vPlain c w).m.Fits n :=
  fun _ _ h => by cases h

/-- C43: what is returned for every square graph and every scalar type: the number of stored
edges, converted to the scalar type of the graph. The sum of both is converted too, except
that it is undefined if it overflows `int32_t` or `int64_t`. -/
theorem C43_degrees_exact [Inhabited α] (t : ITy) (G : Lil α) (v : Nat) (hG : G.WF)
    (hsq : G.nrows = G.ncols) (hv : v < G.nrows) :
    vertexInDegree t G v = .ok (t.conv (Vec.count G.nrows fun i => G.get i v)) ∧
    vertexOutDegree t G v = .ok (t.conv (Vec.count G.ncols (G.get v))) ∧
    (t ≠ .i32 → t ≠ .i64 → vertexDegree t G v =
      .ok (t.conv (Vec.count G.nrows (fun i => G.get i v) + Vec.count G.ncols (G.get v) : Int))) ∧
    (t = .i32 ∨ t = .i64 → vertexDegree t G v =
      if t.Has (t.conv (Vec.count G.nrows fun i => G.get i v) + t.conv (Vec.count G.ncols (G.get v))) then
        .ok (t.conv (Vec.count G.nrows fun i => G.get i v) + t.conv (Vec.count G.ncols (G.get v)))
      else .error .ub) := by
  obtain ⟨w, ew, hw, hsz, -⟩ := BVec.new_spec (α := α) (n := G.nrows) (by omega)
  have h1 : vertexInDegree t G v = .ok (t.conv (Vec.count G.nrows fun i => G.get i v)) := by
    obtain ⟨w', e, y⟩ := C18_extract_column (o := vPlain id w) (A := .plain G) (ri := .all) (j := v)
      (vPlain_wf hw) hG (vPlain_fits _) rfl (by trivial) (by show v < G.ncols; omega)
    obtain ⟨y1, y2, y3⟩ := plain_yields y
    have : w'.nvals = Vec.count G.nrows fun i => G.get i v := by
      rw [y1.nvals_eq, y2, hsz]
      refine count_congr_lt ?_
      intro i hi
      rw [y3 i (by omega)]
      simp [Spec.extract, Spec.nth, Idx.sel, Operand.nrows, hi, Operand.get]
    simp only [vertexInDegree, if_neg (show ¬ G.ncols ≤ v by omega), ew, Except.bind_ok', e, call, this]
  have h2 : vertexOutDegree t G v = .ok (t.conv (Vec.count G.ncols (G.get v))) := by
    obtain ⟨w', e, y⟩ := C18_extract_column (o := vPlain id w) (A := .tr G) (ri := .all) (j := v)
      (vPlain_wf hw) hG (vPlain_fits _) rfl (by trivial) (by show v < G.nrows; omega)
    obtain ⟨y1, y2, y3⟩ := plain_yields y
    have : w'.nvals = Vec.count G.ncols (G.get v) := by
      rw [y1.nvals_eq, y2, hsz, hsq]
      refine count_congr_lt ?_
      intro i hi
      rw [y3 i (by omega)]
      simp [Spec.extract, Spec.nth, Idx.sel, Operand.nrows, hi, Operand.get, Spec.Mat.tr]
    simp only [vertexOutDegree, if_neg (show ¬ G.nrows ≤ v by omega), ew, Except.bind_ok', e, call, this]
  have hd : vertexDegree t G v = arithOp (· + ·) t t t (t.conv (Vec.count G.nrows fun i => G.get i v))
      (t.conv (Vec.count G.ncols (G.get v))) := by
    simp only [vertexDegree, h1, h2, Except.bind_ok']
    rfl
  have ha : (0 : Int) ≤ (Vec.count G.nrows fun i => G.get i v : Nat) := Int.natCast_nonneg _
  have hb0 : (0 : Int) ≤ (Vec.count G.ncols (G.get v) : Nat) := Int.natCast_nonneg _
  generalize ((Vec.count G.nrows fun i => G.get i v : Nat) : Int) = a at hd h1 ha ⊢
  generalize ((Vec.count G.ncols (G.get v) : Nat) : Int) = b at hd h2 hb0 ⊢
  refine ⟨h1, h2, fun h32 h64 => ?_, fun ht => ?_⟩
  · rw [hd, plus_total h32 h64 (ITy.has_conv t _) (ITy.has_conv t _)]
    by_cases hb : t = .bool
    · subst hb
      simp only [ITy.conv, if_true]
      by_cases h1 : a = 0 <;> by_cases h2 : b = 0 <;> simp [h1, h2] <;> omega
    · rw [conv_add_left t hb, conv_add_right t hb]
  · have hp : t.promote = t := by rcases ht with rfl | rfl <;> rfl
    have hs : t.signed = true := by rcases ht with rfl | rfl <;> rfl
    rw [hd, arithOp_same (ITy.has_conv t _) (ITy.has_conv t _), hp, arith, if_pos hs]
    by_cases h : t.Has (t.conv a + t.conv b)
    · rw [if_pos h]
      show Except.ok (t.conv _) = _
      rw [ITy.conv_id h]
    · rw [if_neg h]
      rfl

/-- C43 (partial: the count must be representable in the graph's scalar type, which
is the return type). On a square graph, the degrees count stored edges. -/
theorem C43_degrees_partial [Inhabited α] (t : ITy) (G : Lil α) (v : Nat) (hG : G.WF)
    (hsq : G.nrows = G.ncols) (hv : v < G.nrows)
    (hin : t.Has (Vec.count G.nrows fun i => G.get i v))
    (hout : t.Has (Vec.count G.ncols (G.get v)))
    (hsum : t.Has (Vec.count G.nrows (fun i => G.get i v) + Vec.count G.ncols (G.get v) : Int)) :
    vertexInDegree t G v = .ok (Vec.count G.nrows fun i => G.get i v) ∧
    vertexOutDegree t G v = .ok (Vec.count G.ncols (G.get v)) ∧
    vertexDegree t G v =
      .ok (Vec.count G.nrows (fun i => G.get i v) + Vec.count G.ncols (G.get v) : Int) := by
  obtain ⟨h1, h2, h3, h4⟩ := C43_degrees_exact t G v hG hsq hv
  rw [ITy.conv_id hin] at h1
  rw [ITy.conv_id hout] at h2
  refine ⟨h1, h2, ?_⟩
  by_cases ht : t = .i32 ∨ t = .i64
  · rw [h4 ht, ITy.conv_id hin, ITy.conv_id hout, if_pos hsum]
  · rw [h3 (fun e => ht (Or.inl e)) (fun e => ht (Or.inr e)), ITy.conv_id hsum]

/-- In `bool`, and where the sum of both degrees is beyond `int8_t`. -/
example : vertexDegree .bool Ex.A 1 = .ok 1 ∧ (Ex.A.WF ∧ Ex.A.nrows = Ex.A.ncols) ∧ ITy.conv .i8 (100 + 100) = -56 :=
  ⟨by decide +kernel, ⟨Ex.A_wf, rfl⟩, by decide⟩

example : vertexInDegree .i32 Ex.A 1 = .ok 2 ∧ vertexOutDegree .i32 Ex.A 0 = .ok 2 ∧
    vertexDegree .i32 Ex.A 1 = .ok 3 := by decide +kernel

/-- C43: an out-of-range vertex throws `DimensionException`. -/
theorem C43_out_of_range [Inhabited α] (t : ITy) (G : Lil α) (v : Nat) (hsq : G.nrows = G.ncols)
    (hv : G.nrows ≤ v) :
    vertexInDegree t G v = .error .dimension ∧ vertexOutDegree t G v = .error .dimension ∧
    vertexDegree t G v = .error .dimension := by
  have h1 : vertexInDegree t G v = .error .dimension := by
    simp only [vertexInDegree, if_pos (show G.ncols ≤ v by omega)]
  refine ⟨h1, ?_, ?_⟩
  · simp only [vertexOutDegree, if_pos hv]
  · simp only [vertexDegree, h1]; rfl

/-- The degree is returned in the graph's scalar type: on a graph of `bool` every
positive degree is 1. -/
theorem C43_bool_graph_wrong :
    vertexInDegree .bool Ex.A 1 = .ok 1 ∧ Vec.count Ex.A.nrows (fun i => Ex.A.get i 1) = 2 := by
  decide +kernel

end GBTL
