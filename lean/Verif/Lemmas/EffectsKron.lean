import Verif.Lemmas.EffectsUpdate
import Verif.Lemmas.Kron
/-
The calls of `kronecker`: one after the other, each result pushed to the end of a row.
-/
namespace GBTL
open Spec (Outp MaskKind Accum Op EAccum Vec callAll stored storedMat resultAt kronCalls
  kronCallsEach)
open Act (call lib output store)

variable {ω χ X α β γ δ τ ζ μ σ κ : Type}

/-- The results that belong to row `r`. -/
def partOf (r : Nat) (ts : List ((Nat × Nat) × τ)) : Row τ :=
  ts.filterMap fun p => if p.1.1 = r then some (p.1.2, p.2) else none

theorem partOf_append (r : Nat) (a b : List ((Nat × Nat) × τ)) :
    partOf r (a ++ b) = partOf r a ++ partOf r b := List.filterMap_append

theorem get_partOf (r j : Nat) : ∀ ts : List ((Nat × Nat) × τ),
    Row.get (partOf r ts) j = resultAt ts (r, j)
  | [] => rfl
  | ((a, b), y) :: ts => by
    have ih := get_partOf r j ts
    unfold partOf at ih ⊢
    rw [List.filterMap_cons]
    unfold resultAt
    by_cases h : a = r
    · subst h
      simp only [if_true]
      rw [Row.get_cons, ih]
      by_cases hb : b = j
      · rw [if_pos hb, if_pos (by rw [hb])]
      · rw [if_neg hb, if_neg (by intro e; cases e; exact hb rfl)]
    · simp only [if_neg h]
      rw [ih, if_neg (by intro e; cases e; exact h rfl)]

/-- The matrix has `m` rows and `n` columns. -/
structure Lil.Shape (m n : Nat) (T : Lil τ) : Prop where
  nrows : T.nrows = m
  ncols : T.ncols = n
  len : T.rows.length = m

/-- The code makes the calls `L` in order and pushes each result to the end of its row. -/
def Pushes (m n : Nat) (f : Lil τ → Act ω χ X (Lil τ)) (L : List ((Nat × Nat) × Op ω X τ)) : Prop :=
  ∀ T, T.Shape m n → ∀ w c, match callAll L w with
    | (.error e, w') => f T (w, c) = (.error (.op e), (w', c))
    | (.ok ts, w') => ∃ T', f T (w, c) = (.ok T', (w', c)) ∧ T'.Shape m n ∧
        ∀ r, T'.rowD r = T.rowD r ++ partOf r ts

theorem Pushes.nil {m n : Nat} : Pushes m n (fun T => (pure T : Act ω χ X (Lil τ))) [] :=
  fun T hT _ _ => ⟨T, rfl, hT, fun _ => (List.append_nil _).symm⟩

theorem Pushes.bind {m n : Nat} {f g : Lil τ → Act ω χ X (Lil τ)} {L1 L2 : List ((Nat × Nat) × Op ω X τ)}
    (hf : Pushes m n f L1) (hg : Pushes m n g L2) : Pushes m n (fun T => f T >>= g) (L1 ++ L2) := by
  intro T hT w c
  have h := hf T hT w c
  rw [callAll_append]
  unfold Op.andThen
  cases h1 : callAll L1 w with
  | mk q w1 =>
    rw [h1] at h
    cases q with
    | error x => exact Act.bind_error h
    | ok ts =>
      obtain ⟨T1, e1, s1, r1⟩ := h
      have h := hg T1 s1 w1 c
      dsimp only
      cases h2 : callAll L2 w1 with
      | mk q w2 =>
        rw [h2] at h
        rw [Act.bind_ok e1]
        cases q with
        | error x => exact h
        | ok ts' =>
          obtain ⟨T2, e2, s2, r2⟩ := h
          exact ⟨T2, e2, s2, fun r => by rw [r2, r1, partOf_append, List.append_assoc]⟩

theorem Pushes.list {m n : Nat} {f : α → Lil τ → Act ω χ X (Lil τ)} {L : α → List ((Nat × Nat) × Op ω X τ)} :
    ∀ l : List α, (∀ p ∈ l, Pushes m n (f p) (L p)) →
      Pushes m n (fun T => l.foldlM (fun T p => f p T) T) (l.flatMap L)
  | [], _ => Pushes.nil
  | p :: r, h => by
    simp only [List.foldlM_cons, List.flatMap_cons]
    exact (h p (List.mem_cons_self ..)).bind (Pushes.list r fun q hq => h q (List.mem_cons_of_mem _ hq))

theorem Pushes.loop {m n k : Nat} {f : Nat → Lil τ → Act ω χ X (Lil τ)}
    {L : Nat → List ((Nat × Nat) × Op ω X τ)} (h : ∀ i, i < k → Pushes m n (f i) (L i)) :
    Pushes m n (fun T => forA k T f) ((List.range k).flatMap L) :=
  Pushes.list (List.range k) fun i hi => h i (List.mem_range.1 hi)

theorem Pushes.one {m n i j : Nat} (f : Op ω X τ) (hi : i < m) :
    Pushes m n (fun T => (call f >>= fun v => lib (pushAt T i j v) : Act ω χ X _)) [((i, j), f)] := by
  intro T hT w c
  simp only [call_bind, callAll]
  cases hf : f w with
  | mk q w1 =>
    cases q with
    | error x => rfl
    | ok y =>
      have hi' : i < T.rows.length := by rw [hT.len]; exact hi
      have e : pushAt T i j y = .ok { T with rows := T.rows.set i (T.rowD i ++ [(j, y)]) } := by
        unfold pushAt Lil.pokeRow
        rw [Lil.row_ok hi']
        show (wr T.rows i _ >>= _) = _
        rw [wr_ok hi']
        rfl
      refine ⟨_, Act.lib_ok e, ⟨hT.nrows, hT.ncols, by simpa using hT.len⟩, fun r => ?_⟩
      refine (Lil.rowD_set (A := T) (k := r) hi' rfl).trans ?_
      by_cases h : r = i
      · subst h
        simp [partOf]
      · rw [if_neg h]
        simp [partOf, show ¬ i = r from fun e => h e.symm]

theorem Pushes.recompute {m n : Nat} {f : Lil τ → Act ω χ X (Lil τ)} {L : List ((Nat × Nat) × Op ω X τ)}
    (hf : Pushes m n f L) : Pushes m n (fun T => f T >>= fun T => pure T.recomputeNvals) L := by
  have h : Pushes m n (fun T => (pure T.recomputeNvals : Act ω χ X (Lil τ))) [] :=
    fun T hT _ _ => ⟨T.recomputeNvals, rfl, ⟨hT.nrows, hT.ncols, hT.len⟩, fun _ => (List.append_nil _).symm⟩
  have := hf.bind h
  rw [List.append_nil] at this
  exact this

/-- The results of calls whose places in a row come in ascending order. -/
theorem Pushes.fills {m n : Nat} {f : Lil τ → Act ω χ X (Lil τ)} {L : List ((Nat × Nat) × Op ω X τ)}
    (hf : Pushes m n f L) (hb : ∀ p ∈ L, p.1.2 < n)
    (ho : L.Pairwise fun p q => p.1.1 = q.1.1 → p.1.2 < q.1.2) : Act.Fills m n (f (Lil.new m n)) L := by
  intro w c
  have h := hf (Lil.new m n) ⟨rfl, rfl, by simp [Lil.new]⟩ w c
  cases h1 : callAll L w with
  | mk q w1 =>
    rw [h1] at h
    cases q with
    | error x => exact h
    | ok ts =>
      obtain ⟨T, e, s, hr⟩ := h
      have hk := callAll_keys h1
      simp only [Lil.rowD_new, List.nil_append] at hr
      have hok : ∀ r, Row.OK n (T.rowD r) := by
        intro r
        rw [hr]
        constructor
        · unfold Row.Sorted partOf
          rw [List.pairwise_filterMap]
          have hp : (L.map (·.1)).Pairwise fun p q => p.1 = q.1 → p.2 < q.2 := List.pairwise_map.2 ho
          rw [← hk, List.pairwise_map] at hp
          refine hp.imp ?_
          rintro ⟨⟨a, b⟩, x⟩ ⟨⟨a', b'⟩, x'⟩ h y hy y' hy'
          simp only [Option.ite_none_right_eq_some, Option.some.injEq] at hy hy'
          obtain ⟨h1, h2⟩ := hy
          obtain ⟨h3, h4⟩ := hy'
          rw [← h2, ← h4]
          exact h (h1.trans h3.symm)
        · intro p hp
          unfold partOf at hp
          rw [List.mem_filterMap] at hp
          obtain ⟨q, hq, e⟩ := hp
          simp only [Option.ite_none_right_eq_some, Option.some.injEq] at e
          have : q.1 ∈ ts.map (·.1) := List.mem_map_of_mem hq
          rw [hk] at this
          obtain ⟨q', hq', e'⟩ := List.mem_map.1 this
          rw [← e.2]
          show q.1.2 < n
          rw [← e']
          exact hb q' hq'
      refine ⟨T, e, ⟨?_, s.nrows, s.ncols, fun i j => ?_⟩⟩
      · refine ⟨by rw [s.len, s.nrows], fun r hr' => ?_⟩
        obtain ⟨i, hi, e⟩ := List.mem_iff_getElem.1 hr'
        have := hok i
        rw [Lil.rowD_of_lt hi, e] at this
        rw [s.ncols]; exact this
      · show Row.get (T.rowD i) j = _
        rw [hr, get_partOf]

/-- The calls of the loop nest `A` row, `B` row, `A` element, `B` element. -/
def kronList (er ec : Nat → Nat → Nat → Nat → Nat) (op : α → β → Op ω X τ) (A : Lil α) (B : Lil β) :
    List ((Nat × Nat) × Op ω X τ) :=
  (List.range A.nrows).flatMap fun ia => (List.range B.nrows).flatMap fun ib =>
    (A.rowD ia).flatMap fun p => (B.rowD ib).map fun q =>
      ((er ia ib p.1 q.1, ec ia ib p.1 q.1), op p.2 q.2)

theorem kron_inner {m n : Nat} {k : β → Nat} {l : β → Nat} (g : β → Op ω X τ) (b : List β)
    (h : ∀ q ∈ b, k q < m) :
    Pushes m n (fun T => b.foldlM (fun T q => (call (g q) >>= fun v => lib (pushAt T (k q) (l q) v) :
      Act ω χ X _)) T) (b.map fun q => ((k q, l q), g q)) := by
  have := Pushes.list (χ := χ) (m := m) (n := n) (f := fun q T => call (g q) >>= fun v => lib (pushAt T (k q) (l q) v))
    (L := fun q => [((k q, l q), g q)]) b fun q hq => Pushes.one _ (h q hq)
  rw [← List.map_eq_flatMap] at this
  exact this

theorem kronNest_pushes {m n : Nat} {er ec : Nat → Nat → Nat → Nat → Nat} (op : α → β → Op ω X τ)
    {A : Lil α} {B : Lil β} (hA : A.WF) (hB : B.WF)
    (hr : ∀ ia ib ka kb, ia < A.nrows → ib < B.nrows → ka < A.ncols → kb < B.ncols →
      er ia ib ka kb < m) :
    Pushes m n (χ := χ) (fun T => forA A.nrows T fun ia T => do
      let a ← lib (A.row ia)
      if a.isEmpty then pure T
      else do
        let T ← forA B.nrows T fun ib T => do
          let b ← lib (B.row ib)
          if b.isEmpty then pure T
          else
            a.foldlM (fun T p => b.foldlM (fun T q => do
              let v ← call (op p.2 q.2)
              lib (pushAt T (er ia ib p.1 q.1) (ec ia ib p.1 q.1) v)) T) T
        pure T.recomputeNvals) (kronList er ec op A B) := by
  refine Pushes.loop fun ia hia => ?_
  have ha := (hA.toWFr.rowD_ok ia).bound
  rw [hA.toWFr.row_ok hia]
  have h : Pushes m n (χ := χ) (fun T => forA B.nrows T fun ib T => do
      let b ← lib (B.row ib)
      if b.isEmpty then pure T
      else
        (A.rowD ia).foldlM (fun T p => b.foldlM (fun T q => do
          let v ← call (op p.2 q.2)
          lib (pushAt T (er ia ib p.1 q.1) (ec ia ib p.1 q.1) v)) T) T)
      ((List.range B.nrows).flatMap fun ib =>
        (A.rowD ia).flatMap fun p => (B.rowD ib).map fun q =>
          ((er ia ib p.1 q.1, ec ia ib p.1 q.1), op p.2 q.2)) := by
    refine Pushes.loop fun ib hib => ?_
    have hb := (hB.toWFr.rowD_ok ib).bound
    rw [hB.toWFr.row_ok hib]
    have h' : Pushes m n (χ := χ) (fun T => (A.rowD ia).foldlM (fun T p => (B.rowD ib).foldlM (fun T q => do
          let v ← call (op p.2 q.2)
          lib (pushAt T (er ia ib p.1 q.1) (ec ia ib p.1 q.1) v)) T) T)
        ((A.rowD ia).flatMap fun p => (B.rowD ib).map fun q =>
          ((er ia ib p.1 q.1, ec ia ib p.1 q.1), op p.2 q.2)) :=
      Pushes.list _ fun p hp => kron_inner (fun q : Nat × β => op p.2 q.2) _ fun q hq =>
        hr ia ib p.1 q.1 hia hib (ha p hp) (hb q hq)
    cases hb' : B.rowD ib with
    | nil =>
      have e : ((A.rowD ia).flatMap fun p => ([] : Row β).map fun q =>
          ((er ia ib p.1 q.1, ec ia ib p.1 q.1), op p.2 q.2)) = [] := by simp
      rw [e]
      exact Pushes.nil
    | cons q r =>
      rw [hb'] at h'
      exact h'
  cases ha' : A.rowD ia with
  | nil =>
    have e : ((List.range B.nrows).flatMap fun ib => ([] : Row α).flatMap fun p => (B.rowD ib).map fun q =>
        ((er ia ib p.1 q.1, ec ia ib p.1 q.1), op p.2 q.2)) = [] := by simp
    rw [e]
    exact Pushes.nil
  | cons q r =>
    rw [ha'] at h
    exact h.recompute

/-- The calls of the loop nest `A` row, `A` element, `B` row, `B` element. -/
def kronList' (er ec : Nat → Nat → Nat → Nat → Nat) (op : α → β → Op ω X τ) (A : Lil α) (B : Lil β) :
    List ((Nat × Nat) × Op ω X τ) :=
  (List.range A.nrows).flatMap fun ia => (A.rowD ia).flatMap fun p =>
    (List.range B.nrows).flatMap fun ib => (B.rowD ib).map fun q =>
      ((er ia ib p.1 q.1, ec ia ib p.1 q.1), op p.2 q.2)

theorem kronNest'_pushes {m n : Nat} {er ec : Nat → Nat → Nat → Nat → Nat} (op : α → β → Op ω X τ)
    {A : Lil α} {B : Lil β} (hA : A.WF) (hB : B.WF)
    (hr : ∀ ia ib ka kb, ia < A.nrows → ib < B.nrows → ka < A.ncols → kb < B.ncols →
      er ia ib ka kb < m) :
    Pushes m n (χ := χ) (fun T => forA A.nrows T fun ia T => do
      let a ← lib (A.row ia)
      if a.isEmpty then pure T
      else do
        let T ← a.foldlM (fun T p => forA B.nrows T fun ib T => do
          let b ← lib (B.row ib)
          if b.isEmpty then pure T
          else
            b.foldlM (fun T q => do
              let v ← call (op p.2 q.2)
              lib (pushAt T (er ia ib p.1 q.1) (ec ia ib p.1 q.1) v)) T) T
        pure T.recomputeNvals) (kronList' er ec op A B) := by
  refine Pushes.loop fun ia hia => ?_
  have ha := (hA.toWFr.rowD_ok ia).bound
  rw [hA.toWFr.row_ok hia]
  have h : Pushes m n (χ := χ) (fun T => (A.rowD ia).foldlM (fun T p => forA B.nrows T fun ib T => do
      let b ← lib (B.row ib)
      if b.isEmpty then pure T
      else
        b.foldlM (fun T q => do
          let v ← call (op p.2 q.2)
          lib (pushAt T (er ia ib p.1 q.1) (ec ia ib p.1 q.1) v)) T) T)
      ((A.rowD ia).flatMap fun p => (List.range B.nrows).flatMap fun ib => (B.rowD ib).map fun q =>
          ((er ia ib p.1 q.1, ec ia ib p.1 q.1), op p.2 q.2)) := by
    refine Pushes.list (f := fun (p : Nat × α) T => forA B.nrows T fun ib T => do
      let b ← lib (B.row ib)
      if b.isEmpty then pure T
      else
        b.foldlM (fun T q => do
          let v ← call (op p.2 q.2)
          lib (pushAt T (er ia ib p.1 q.1) (ec ia ib p.1 q.1) v)) T) _ fun p hp => Pushes.loop fun ib hib => ?_
    have hb := (hB.toWFr.rowD_ok ib).bound
    rw [hB.toWFr.row_ok hib]
    have h' := kron_inner (χ := χ) (m := m) (n := n) (l := fun q : Nat × β => ec ia ib p.1 q.1)
      (fun q : Nat × β => op p.2 q.2) (B.rowD ib)
      fun q hq => hr ia ib p.1 q.1 hia hib (ha p hp) (hb q hq)
    cases hb' : B.rowD ib with
    | nil => exact Pushes.nil
    | cons q r =>
      rw [hb'] at h'
      exact h'
  cases ha' : A.rowD ia with
  | nil => exact Pushes.nil
  | cons q r =>
    rw [ha'] at h
    exact h.recompute

theorem kronList_ordered {n : Nat} {er ec : Nat → Nat → Nat → Nat → Nat} (op : α → β → Op ω X τ)
    {A : Lil α} {B : Lil β} (hA : A.WF) (hB : B.WF)
    (hc : ∀ ia ib ka kb, ia < A.nrows → ib < B.nrows → ka < A.ncols → kb < B.ncols →
      ec ia ib ka kb < n)
    (ho : ∀ ia ib ka kb ia' ib' ka' kb', ia < A.nrows → ib < B.nrows → ka < A.ncols → kb < B.ncols →
      ia' < A.nrows → ib' < B.nrows → ka' < A.ncols → kb' < B.ncols →
      er ia ib ka kb = er ia' ib' ka' kb' →
      (ia < ia' ∨ (ia = ia' ∧ (ib < ib' ∨ (ib = ib' ∧ (ka < ka' ∨ (ka = ka' ∧ kb < kb')))))) →
      ec ia ib ka kb < ec ia' ib' ka' kb') :
    (∀ p ∈ kronList er ec op A B, p.1.2 < n) ∧
    (kronList er ec op A B).Pairwise fun p q => p.1.1 = q.1.1 → p.1.2 < q.1.2 := by
  have ba := fun i p h => (hA.toWFr.rowD_ok i).bound p h
  have bb := fun i p h => (hB.toWFr.rowD_ok i).bound p h
  unfold kronList
  constructor
  · intro p hp
    simp only [List.mem_flatMap, List.mem_range, List.mem_map] at hp
    obtain ⟨ia, h1, ib, h2, p, h3, q, h4, rfl⟩ := hp
    exact hc ia ib p.1 q.1 h1 h2 (ba ia p h3) (bb ib q h4)
  · rw [List.pairwise_flatMap]
    refine ⟨fun ia h1 => ?_, ?_⟩
    · rw [List.mem_range] at h1
      rw [List.pairwise_flatMap]
      refine ⟨fun ib h2 => ?_, ?_⟩
      · rw [List.mem_range] at h2
        rw [List.pairwise_flatMap]
        refine ⟨fun p h3 => ?_, ?_⟩
        · rw [List.pairwise_map]
          refine (List.Pairwise.imp_of_mem ?_ (hB.toWFr.rowD_ok ib).sorted)
          intro q q' hq hq' hlt e
          exact ho ia ib p.1 q.1 ia ib p.1 q'.1 h1 h2 (ba ia p h3) (bb ib q hq) h1 h2 (ba ia p h3)
            (bb ib q' hq') e (.inr ⟨rfl, .inr ⟨rfl, .inr ⟨rfl, hlt⟩⟩⟩)
        · refine (List.Pairwise.imp_of_mem ?_ (hA.toWFr.rowD_ok ia).sorted)
          intro p p' hp hp' hlt x hx y hy e
          rw [List.mem_map] at hx hy
          obtain ⟨q, hq, rfl⟩ := hx
          obtain ⟨q', hq', rfl⟩ := hy
          exact ho ia ib p.1 q.1 ia ib p'.1 q'.1 h1 h2 (ba ia p hp) (bb ib q hq) h1 h2 (ba ia p' hp')
            (bb ib q' hq') e (.inr ⟨rfl, .inr ⟨rfl, .inl hlt⟩⟩)
      · refine (List.Pairwise.imp_of_mem ?_ List.pairwise_lt_range)
        intro ib ib' hb hb' hlt x hx y hy e
        rw [List.mem_range] at hb hb'
        simp only [List.mem_flatMap, List.mem_map] at hx hy
        obtain ⟨p, hp, q, hq, rfl⟩ := hx
        obtain ⟨p', hp', q', hq', rfl⟩ := hy
        exact ho ia ib p.1 q.1 ia ib' p'.1 q'.1 h1 hb (ba ia p hp) (bb ib q hq) h1 hb' (ba ia p' hp')
          (bb ib' q' hq') e (.inr ⟨rfl, .inl hlt⟩)
    · refine (List.Pairwise.imp_of_mem ?_ List.pairwise_lt_range)
      intro ia ia' ha ha' hlt x hx y hy e
      rw [List.mem_range] at ha ha'
      simp only [List.mem_flatMap, List.mem_map, List.mem_range] at hx hy
      obtain ⟨ib, hb, p, hp, q, hq, rfl⟩ := hx
      obtain ⟨ib', hb', p', hp', q', hq', rfl⟩ := hy
      exact ho ia ib p.1 q.1 ia' ib' p'.1 q'.1 ha hb (ba ia p hp) (bb ib q hq) ha' hb' (ba ia' p' hp')
        (bb ib' q' hq') e (.inl hlt)

theorem kronList'_ordered {n : Nat} {er ec : Nat → Nat → Nat → Nat → Nat} (op : α → β → Op ω X τ)
    {A : Lil α} {B : Lil β} (hA : A.WF) (hB : B.WF)
    (hc : ∀ ia ib ka kb, ia < A.nrows → ib < B.nrows → ka < A.ncols → kb < B.ncols →
      ec ia ib ka kb < n)
    (ho : ∀ ia ib ka kb ia' ib' ka' kb', ia < A.nrows → ib < B.nrows → ka < A.ncols → kb < B.ncols →
      ia' < A.nrows → ib' < B.nrows → ka' < A.ncols → kb' < B.ncols →
      er ia ib ka kb = er ia' ib' ka' kb' →
      (ia < ia' ∨ (ia = ia' ∧ (ka < ka' ∨ (ka = ka' ∧ (ib < ib' ∨ (ib = ib' ∧ kb < kb')))))) →
      ec ia ib ka kb < ec ia' ib' ka' kb') :
    (∀ p ∈ kronList' er ec op A B, p.1.2 < n) ∧
    (kronList' er ec op A B).Pairwise fun p q => p.1.1 = q.1.1 → p.1.2 < q.1.2 := by
  have ba := fun i p h => (hA.toWFr.rowD_ok i).bound p h
  have bb := fun i p h => (hB.toWFr.rowD_ok i).bound p h
  unfold kronList'
  constructor
  · intro p hp
    simp only [List.mem_flatMap, List.mem_range, List.mem_map] at hp
    obtain ⟨ia, h1, p, h3, ib, h2, q, h4, rfl⟩ := hp
    exact hc ia ib p.1 q.1 h1 h2 (ba ia p h3) (bb ib q h4)
  · rw [List.pairwise_flatMap]
    refine ⟨fun ia h1 => ?_, ?_⟩
    · rw [List.mem_range] at h1
      rw [List.pairwise_flatMap]
      refine ⟨fun p h3 => ?_, ?_⟩
      · rw [List.pairwise_flatMap]
        refine ⟨fun ib h2 => ?_, ?_⟩
        · rw [List.mem_range] at h2
          rw [List.pairwise_map]
          refine (List.Pairwise.imp_of_mem ?_ (hB.toWFr.rowD_ok ib).sorted)
          intro q q' hq hq' hlt e
          exact ho ia ib p.1 q.1 ia ib p.1 q'.1 h1 h2 (ba ia p h3) (bb ib q hq) h1 h2 (ba ia p h3)
            (bb ib q' hq') e (.inr ⟨rfl, .inr ⟨rfl, .inr ⟨rfl, hlt⟩⟩⟩)
        · refine (List.Pairwise.imp_of_mem ?_ List.pairwise_lt_range)
          intro ib ib' hb hb' hlt x hx y hy e
          rw [List.mem_range] at hb hb'
          simp only [List.mem_map] at hx hy
          obtain ⟨q, hq, rfl⟩ := hx
          obtain ⟨q', hq', rfl⟩ := hy
          exact ho ia ib p.1 q.1 ia ib' p.1 q'.1 h1 hb (ba ia p h3) (bb ib q hq) h1 hb' (ba ia p h3)
            (bb ib' q' hq') e (.inr ⟨rfl, .inr ⟨rfl, .inl hlt⟩⟩)
      · refine (List.Pairwise.imp_of_mem ?_ (hA.toWFr.rowD_ok ia).sorted)
        intro p p' hp hp' hlt x hx y hy e
        simp only [List.mem_flatMap, List.mem_map, List.mem_range] at hx hy
        obtain ⟨ib, hb, q, hq, rfl⟩ := hx
        obtain ⟨ib', hb', q', hq', rfl⟩ := hy
        exact ho ia ib p.1 q.1 ia ib' p'.1 q'.1 h1 hb (ba ia p hp) (bb ib q hq) h1 hb' (ba ia p' hp')
          (bb ib' q' hq') e (.inr ⟨rfl, .inl hlt⟩)
    · refine (List.Pairwise.imp_of_mem ?_ List.pairwise_lt_range)
      intro ia ia' ha ha' hlt x hx y hy e
      rw [List.mem_range] at ha ha'
      simp only [List.mem_flatMap, List.mem_map, List.mem_range] at hx hy
      obtain ⟨p, hp, ib, hb, q, hq, rfl⟩ := hx
      obtain ⟨p', hp', ib', hb', q', hq', rfl⟩ := hy
      exact ho ia ib p.1 q.1 ia' ib' p'.1 q'.1 ha hb (ba ia p hp) (bb ib q hq) ha' hb' (ba ia' p' hp')
        (bb ib' q' hq') e (.inl hlt)

theorem rowD_nil_of_nvals {A : Lil α} (hA : A.WF) (h : A.nvals = 0) (i : Nat) : A.rowD i = [] := by
  rw [← stored_lil hA.toWFr i]
  exact stored_none fun j _ => hA.get_none_of_nvals h i j

theorem kronList_nil {er ec : Nat → Nat → Nat → Nat → Nat} (op : α → β → Op ω X τ)
    {A : Lil α} {B : Lil β} (hA : A.WF) (hB : B.WF)
    (h : ¬ (decide (A.nvals > 0) && decide (B.nvals > 0)) = true) : kronList er ec op A B = [] := by
  unfold kronList
  rcases nvals_or h with h | h
  · simp [rowD_nil_of_nvals hA h]
  · simp [rowD_nil_of_nvals hB h]

theorem kronList'_nil {er ec : Nat → Nat → Nat → Nat → Nat} (op : α → β → Op ω X τ)
    {A : Lil α} {B : Lil β} (hA : A.WF) (hB : B.WF)
    (h : ¬ (decide (A.nvals > 0) && decide (B.nvals > 0)) = true) : kronList' er ec op A B = [] := by
  unfold kronList'
  rcases nvals_or h with h | h
  · simp [rowD_nil_of_nvals hA h]
  · simp [rowD_nil_of_nvals hB h]

theorem fills_new (m n : Nat) : Act.Fills m n (pure (Lil.new m n) : Act ω χ X (Lil τ)) [] :=
  (Pushes.nil (m := m) (n := n)).fills (by simp) List.Pairwise.nil

theorem flatMap_congr' {l : List α} {f g : α → List β} (h : ∀ x ∈ l, f x = g x) :
    l.flatMap f = l.flatMap g := by
  rw [List.flatMap_def, List.flatMap_def, List.map_congr_left h]

theorem kronCalls_eq {er ec : Nat → Nat → Nat → Nat → Nat} {place : Nat → Nat → Nat → Nat → Nat × Nat}
    (op : α → β → Op ω X τ) {A : Lil α} {B : Lil β} (hA : A.WF) (hB : B.WF)
    (h : ∀ ia ib ka kb, ia < A.nrows → ib < B.nrows → ka < A.ncols → kb < B.ncols →
      place ia ib ka kb = (er ia ib ka kb, ec ia ib ka kb)) :
    kronCalls op A.nrows A.ncols B.nrows B.ncols place A.get B.get = kronList er ec op A B := by
  unfold kronCalls kronList
  simp only [stored_lil hA.toWFr, stored_lil hB.toWFr]
  refine flatMap_congr' fun ia h1 => flatMap_congr' fun ib h2 => flatMap_congr' fun p h3 =>
    List.map_congr_left fun q h4 => ?_
  rw [List.mem_range] at h1 h2
  rw [h ia ib p.1 q.1 h1 h2 ((hA.toWFr.rowD_ok ia).bound p h3) ((hB.toWFr.rowD_ok ib).bound q h4)]

theorem kronCallsEach_eq {er ec : Nat → Nat → Nat → Nat → Nat} {place : Nat → Nat → Nat → Nat → Nat × Nat}
    (op : α → β → Op ω X τ) {A : Lil α} {B : Lil β} (hA : A.WF) (hB : B.WF)
    (h : ∀ ia ib ka kb, ia < A.nrows → ib < B.nrows → ka < A.ncols → kb < B.ncols →
      place ia ib ka kb = (er ia ib ka kb, ec ia ib ka kb)) :
    kronCallsEach op A.nrows A.ncols B.nrows B.ncols place A.get B.get = kronList' er ec op A B := by
  unfold kronCallsEach kronList'
  simp only [stored_lil hA.toWFr, stored_lil hB.toWFr]
  refine flatMap_congr' fun ia h1 => flatMap_congr' fun p h3 => flatMap_congr' fun ib h2 =>
    List.map_congr_left fun q h4 => ?_
  rw [List.mem_range] at h1 h2
  rw [h ia ib p.1 q.1 h1 h2 ((hA.toWFr.rowD_ok ia).bound p h3) ((hB.toWFr.rowD_ok ib).bound q h4)]

theorem kronABE_fills {C : Lil γ} (op : α → β → Op ω X τ) {A : Lil α} {B : Lil β} (hA : A.WF) (hB : B.WF)
    (h1 : C.nrows = A.nrows * B.nrows) (h2 : C.ncols = A.ncols * B.ncols)
    (hr : C.nrows < 2 ^ 64) (hc : C.ncols < 2 ^ 64) :
    Act.Fills C.nrows C.ncols (kronABE C op A B : Act ω χ X _)
      (kronCalls op A.nrows A.ncols B.nrows B.ncols
        (fun ia ib ka kb => (ia * B.nrows + ib, ka * B.ncols + kb)) A.get B.get) := by
  rw [h1] at hr
  rw [h2] at hc
  rw [kronCalls_eq (er := fun ia ib ka kb => add64 (mul64 ia B.nrows) ib)
    (ec := fun ia ib ka kb => add64 (mul64 ka B.ncols) kb) op hA hB (by
      intro ia ib ka kb a b c d
      simp only [idx64 a b hr, idx64 c d hc])]
  unfold kronABE
  split
  · obtain ⟨o1, o2⟩ := kronList_ordered (n := C.ncols)
      (er := fun ia ib ka kb => add64 (mul64 ia B.nrows) ib)
      (ec := fun ia ib ka kb => add64 (mul64 ka B.ncols) kb) op hA hB
      (by
        intro ia ib ka kb a b c d
        simp only [idx64 c d hc]
        exact h2 ▸ blk_bound c d)
      (by
        intro ia ib ka kb ia' ib' ka' kb' a b c d a' b' c' d'
        simp only [idx64 a b hr, idx64 c d hc, idx64 a' b' hr, idx64 c' d' hc]
        intro heq ho
        obtain ⟨rfl, rfl⟩ := blk_inj b b' heq
        rcases ho with h | ⟨_, h | ⟨_, h | ⟨rfl, h⟩⟩⟩
        · omega
        · omega
        · exact blk_lt h d
        · omega)
    exact Pushes.fills (kronNest_pushes (er := fun ia ib ka kb => add64 (mul64 ia B.nrows) ib)
      (ec := fun ia ib ka kb => add64 (mul64 ka B.ncols) kb) op hA hB (by
        intro ia ib ka kb a b c d
        simp only [idx64 a b hr]
        exact h1 ▸ blk_bound a b)) o1 o2
  · next h => rw [kronList_nil op hA hB h]; exact fills_new _ _

theorem kronATBE_fills {C : Lil γ} (op : α → β → Op ω X τ) {A : Lil α} {B : Lil β} (hA : A.WF) (hB : B.WF)
    (h1 : C.nrows = A.ncols * B.nrows) (h2 : C.ncols = A.nrows * B.ncols)
    (hr : C.nrows < 2 ^ 64) (hc : C.ncols < 2 ^ 64) :
    Act.Fills C.nrows C.ncols (kronATBE C op A B : Act ω χ X _)
      (kronCalls op A.nrows A.ncols B.nrows B.ncols
        (fun ia ib ka kb => (ka * B.nrows + ib, ia * B.ncols + kb)) A.get B.get) := by
  rw [h1] at hr
  rw [h2] at hc
  rw [kronCalls_eq (er := fun ia ib ka kb => add64 (mul64 ka B.nrows) ib)
    (ec := fun ia ib ka kb => add64 (mul64 ia B.ncols) kb) op hA hB (by
      intro ia ib ka kb a b c d
      simp only [idx64 c b hr, idx64 a d hc])]
  unfold kronATBE
  split
  · obtain ⟨o1, o2⟩ := kronList_ordered (n := C.ncols)
      (er := fun ia ib ka kb => add64 (mul64 ka B.nrows) ib)
      (ec := fun ia ib ka kb => add64 (mul64 ia B.ncols) kb) op hA hB
      (by
        intro ia ib ka kb a b c d
        simp only [idx64 a d hc]
        exact h2 ▸ blk_bound a d)
      (by
        intro ia ib ka kb ia' ib' ka' kb' a b c d a' b' c' d'
        simp only [idx64 c b hr, idx64 a d hc, idx64 c' b' hr, idx64 a' d' hc]
        intro heq ho
        obtain ⟨rfl, rfl⟩ := blk_inj b b' heq
        rcases ho with h | ⟨rfl, h | ⟨_, h | ⟨_, h⟩⟩⟩
        · exact blk_lt h d
        · omega
        · omega
        · omega)
    exact Pushes.fills (kronNest_pushes (er := fun ia ib ka kb => add64 (mul64 ka B.nrows) ib)
      (ec := fun ia ib ka kb => add64 (mul64 ia B.ncols) kb) op hA hB (by
        intro ia ib ka kb a b c d
        simp only [idx64 c b hr]
        exact h1 ▸ blk_bound c b)) o1 o2
  · next h => rw [kronList_nil op hA hB h]; exact fills_new _ _

theorem kronABTE_fills {C : Lil γ} (op : α → β → Op ω X τ) {A : Lil α} {B : Lil β} (hA : A.WF) (hB : B.WF)
    (h1 : C.nrows = A.nrows * B.ncols) (h2 : C.ncols = A.ncols * B.nrows)
    (hr : C.nrows < 2 ^ 64) (hc : C.ncols < 2 ^ 64) :
    Act.Fills C.nrows C.ncols (kronABTE C op A B : Act ω χ X _)
      (kronCallsEach op A.nrows A.ncols B.nrows B.ncols
        (fun ia ib ka kb => (ia * B.ncols + kb, ka * B.nrows + ib)) A.get B.get) := by
  rw [h1] at hr
  rw [h2] at hc
  rw [kronCallsEach_eq (er := fun ia ib ka kb => add64 (mul64 ia B.ncols) kb)
    (ec := fun ia ib ka kb => add64 (mul64 ka B.nrows) ib) op hA hB (by
      intro ia ib ka kb a b c d
      simp only [idx64 a d hr, idx64 c b hc])]
  unfold kronABTE
  split
  · obtain ⟨o1, o2⟩ := kronList'_ordered (n := C.ncols)
      (er := fun ia ib ka kb => add64 (mul64 ia B.ncols) kb)
      (ec := fun ia ib ka kb => add64 (mul64 ka B.nrows) ib) op hA hB
      (by
        intro ia ib ka kb a b c d
        simp only [idx64 c b hc]
        exact h2 ▸ blk_bound c b)
      (by
        intro ia ib ka kb ia' ib' ka' kb' a b c d a' b' c' d'
        simp only [idx64 a d hr, idx64 c b hc, idx64 a' d' hr, idx64 c' b' hc]
        intro heq ho
        obtain ⟨rfl, rfl⟩ := blk_inj d d' heq
        rcases ho with h | ⟨_, h | ⟨rfl, h | ⟨_, h⟩⟩⟩
        · omega
        · exact blk_lt h b
        · omega
        · omega)
    exact Pushes.fills (kronNest'_pushes (er := fun ia ib ka kb => add64 (mul64 ia B.ncols) kb)
      (ec := fun ia ib ka kb => add64 (mul64 ka B.nrows) ib) op hA hB (by
        intro ia ib ka kb a b c d
        simp only [idx64 a d hr]
        exact h1 ▸ blk_bound a d)) o1 o2
  · next h => rw [kronList'_nil op hA hB h]; exact fills_new _ _

theorem kronATBTE_fills {C : Lil γ} (op : α → β → Op ω X τ) {A : Lil α} {B : Lil β} (hA : A.WF) (hB : B.WF)
    (h1 : C.nrows = A.ncols * B.ncols) (h2 : C.ncols = A.nrows * B.nrows)
    (hr : C.nrows < 2 ^ 64) (hc : C.ncols < 2 ^ 64) :
    Act.Fills C.nrows C.ncols (kronATBTE C op A B : Act ω χ X _)
      (kronCalls op A.nrows A.ncols B.nrows B.ncols
        (fun ia ib ka kb => (ka * B.ncols + kb, ia * B.nrows + ib)) A.get B.get) := by
  rw [h1] at hr
  rw [h2] at hc
  rw [kronCalls_eq (er := fun ia ib ka kb => add64 (mul64 ka B.ncols) kb)
    (ec := fun ia ib ka kb => add64 (mul64 ia B.nrows) ib) op hA hB (by
      intro ia ib ka kb a b c d
      simp only [idx64 c d hr, idx64 a b hc])]
  unfold kronATBTE
  split
  · obtain ⟨o1, o2⟩ := kronList_ordered (n := C.ncols)
      (er := fun ia ib ka kb => add64 (mul64 ka B.ncols) kb)
      (ec := fun ia ib ka kb => add64 (mul64 ia B.nrows) ib) op hA hB
      (by
        intro ia ib ka kb a b c d
        simp only [idx64 a b hc]
        exact h2 ▸ blk_bound a b)
      (by
        intro ia ib ka kb ia' ib' ka' kb' a b c d a' b' c' d'
        simp only [idx64 c d hr, idx64 a b hc, idx64 c' d' hr, idx64 a' b' hc]
        intro heq ho
        obtain ⟨rfl, rfl⟩ := blk_inj d d' heq
        rcases ho with h | ⟨rfl, h | ⟨_, h | ⟨_, h⟩⟩⟩
        · exact blk_lt h b
        · omega
        · omega
        · omega)
    exact Pushes.fills (kronNest_pushes (er := fun ia ib ka kb => add64 (mul64 ka B.ncols) kb)
      (ec := fun ia ib ka kb => add64 (mul64 ia B.nrows) ib) op hA hB (by
        intro ia ib ka kb a b c d
        simp only [idx64 c d hr]
        exact h1 ▸ blk_bound c d)) o1 o2
  · next h => rw [kronList_nil op hA hB h]; exact fills_new _ _

end GBTL
