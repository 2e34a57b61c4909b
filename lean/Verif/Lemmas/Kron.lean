import Verif.Lemmas.Assign
namespace GBTL
open Spec (Outp MaskKind Accum both either osum)
open Row

variable {α β γ δ τ ζ μ ν : Type}

theorem foldlM_congr {σ ρ : Type} {l : List ρ} {f g : σ → ρ → Except Err σ}
    (h : ∀ x ∈ l, ∀ s, f s x = g s x) : ∀ s, l.foldlM f s = l.foldlM g s := by
  induction l with
  | nil => intro s; rfl
  | cons x l ih =>
    intro s
    rw [List.foldlM_cons, List.foldlM_cons, h x (List.mem_cons_self ..)]
    congr 1
    funext s
    exact ih (fun y hy => h y (List.mem_cons_of_mem _ hy)) s

theorem forN_congr_all {σ : Type} {n : Nat} {s : σ} {f g : Nat → σ → Except Err σ}
    (h : ∀ i, i < n → ∀ s, f i s = g i s) : forN n s f = forN n s g :=
  foldlM_congr (fun i hi s => h i (List.mem_range.1 hi) s) s

/-! ### index arithmetic -/

theorem blk_bound {a b r n : Nat} (ha : a < n) (hb : b < r) : a * r + b < n * r := by
  have h1 : (a + 1) * r ≤ n * r := Nat.mul_le_mul_right r ha
  rw [Nat.add_mul, Nat.one_mul] at h1
  omega

theorem blk_lt {a a' b b' r : Nat} (h : a < a') (hb : b < r) : a * r + b < a' * r + b' := by
  have h1 : (a + 1) * r ≤ a' * r := Nat.mul_le_mul_right r h
  rw [Nat.add_mul, Nat.one_mul] at h1
  omega

theorem blk_inj {a a' b b' r : Nat} (hb : b < r) (hb' : b' < r) (h : a * r + b = a' * r + b') :
    a = a' ∧ b = b' := by
  rcases Nat.lt_trichotomy a a' with h1 | h1 | h1
  · have := blk_lt (b := b) (b' := b') h1 hb; omega
  · subst h1; exact ⟨rfl, by omega⟩
  · have := blk_lt (b := b') (b' := b) h1 hb'; omega

theorem blk_div {a b r : Nat} (hb : b < r) : (a * r + b) / r = a := by
  rw [Nat.mul_comm, Nat.mul_add_div (by omega), Nat.div_eq_of_lt hb]; rfl

theorem blk_mod {a b r : Nat} (hb : b < r) : (a * r + b) % r = b := by
  rw [Nat.mul_comm, Nat.mul_add_mod, Nat.mod_eq_of_lt hb]

theorem blk_eq {i r : Nat} : i / r * r + i % r = i := Nat.div_add_mod' i r

theorem idx64 {a b r n : Nat} (ha : a < n) (hb : b < r) (h : n * r < 2 ^ 64) :
    add64 (mul64 a r) b = a * r + b := by
  have h1 := blk_bound ha hb
  have h2 : a * r < 2 ^ 64 := by omega
  rw [add64, mul64, Nat.mod_eq_of_lt h2, Nat.mod_eq_of_lt (by omega)]

/-! ### the two loop nests -/

/-- Loop nest `A` row, `B` row, `A` element, `B` element. -/
def kronLoop (m n : Nat) (er ec : Nat → Nat → Nat → Nat → Nat) (op : α → β → τ) (A : Lil α)
    (B : Lil β) : Except Err (Lil τ) :=
  if A.nvals > 0 && B.nvals > 0 then
    forN A.nrows (Lil.new m n) fun ia T => do
      let a ← A.row ia
      if a.isEmpty then .ok T
      else do
        let T ← forN B.nrows T fun ib T => do
          let b ← B.row ib
          if b.isEmpty then .ok T
          else
            a.foldlM (fun T p => b.foldlM (fun T q =>
              pushAt T (er ia ib p.1 q.1) (ec ia ib p.1 q.1) (op p.2 q.2)) T) T
        .ok T.recomputeNvals
  else .ok (Lil.new m n)

/-- Loop nest `A` row, `A` element, `B` row, `B` element. -/
def kronLoop' (m n : Nat) (er ec : Nat → Nat → Nat → Nat → Nat) (op : α → β → τ) (A : Lil α)
    (B : Lil β) : Except Err (Lil τ) :=
  if A.nvals > 0 && B.nvals > 0 then
    forN A.nrows (Lil.new m n) fun ia T => do
      let a ← A.row ia
      if a.isEmpty then .ok T
      else do
        let T ← a.foldlM (fun T p => forN B.nrows T fun ib T => do
          let b ← B.row ib
          if b.isEmpty then .ok T
          else
            b.foldlM (fun T q =>
              pushAt T (er ia ib p.1 q.1) (ec ia ib p.1 q.1) (op p.2 q.2)) T) T
        .ok T.recomputeNvals
  else .ok (Lil.new m n)

/-- The product content. -/
def KronContent (er ec : Nat → Nat → Nat → Nat → Nat) (op : α → β → τ) (A : Lil α) (B : Lil β)
    (T : Lil τ) : Prop :=
  ∀ i j x, T.get i j = some x ↔ ∃ ia ib ka kb a b, A.get ia ka = some a ∧ B.get ib kb = some b ∧
    i = er ia ib ka kb ∧ j = ec ia ib ka kb ∧ x = op a b

theorem kron_empty {m n : Nat} {er ec : Nat → Nat → Nat → Nat → Nat} {op : α → β → τ} {A : Lil α}
    {B : Lil β} (hA : A.WF) (hB : B.WF)
    (h : ¬ (decide (A.nvals > 0) && decide (B.nvals > 0)) = true) :
    KronContent er ec op A B (Lil.new m n) := by
  intro i j x
  rw [Lil.get, Lil.rowD_new, get_nil]
  simp only [reduceCtorEq, false_iff, not_exists]
  rintro ia ib ka kb a b ⟨h1, h2, _⟩
  rcases nvals_or h with h0 | h0
  · rw [hA.get_none_of_nvals h0] at h1; simp at h1
  · rw [hB.get_none_of_nvals h0] at h2; simp at h2

theorem kronLoop_spec {m n : Nat} {er ec : Nat → Nat → Nat → Nat → Nat} {op : α → β → τ} {A : Lil α}
    {B : Lil β} (hA : A.WF) (hB : B.WF)
    (hr : ∀ ia ib ka kb, ia < A.nrows → ib < B.nrows → ka < A.ncols → kb < B.ncols →
      er ia ib ka kb < m ∧ ec ia ib ka kb < n)
    (ho : ∀ ia ib ka kb ia' ib' ka' kb', ia < A.nrows → ib < B.nrows → ka < A.ncols → kb < B.ncols →
      ia' < A.nrows → ib' < B.nrows → ka' < A.ncols → kb' < B.ncols →
      er ia ib ka kb = er ia' ib' ka' kb' →
      (ia < ia' ∨ (ia = ia' ∧ (ib < ib' ∨ (ib = ib' ∧ (ka < ka' ∨ (ka = ka' ∧ kb < kb')))))) →
      ec ia ib ka kb < ec ia' ib' ka' kb') :
    ∃ T, kronLoop m n er ec op A B = .ok T ∧ T.WFr ∧ T.nrows = m ∧ T.ncols = n ∧
      KronContent er ec op A B T := by
  unfold kronLoop
  split
  · let ent : Nat → Nat → Nat × α → Nat × β → Entry τ := fun ia ib p q =>
      (er ia ib p.1 q.1, ec ia ib p.1 q.1, op p.2 q.2)
    let f : Nat → List (Entry τ) := fun ia => (List.range B.nrows).flatMap fun ib =>
      (A.rowD ia).flatMap fun p => (B.rowD ib).map fun q => ent ia ib p q
    have hinner : ∀ ia, ia < A.nrows → ∀ T : Lil τ,
        (forN B.nrows T fun ib T => do
          let b ← B.row ib
          if b.isEmpty then .ok T
          else
            (A.rowD ia).foldlM (fun T p => b.foldlM (fun T q =>
              pushAt T (er ia ib p.1 q.1) (ec ia ib p.1 q.1) (op p.2 q.2)) T) T)
          = pushAll (f ia) T := by
      intro ia _ T
      rw [pushAll, foldlM_flatMap', forN]
      refine foldlM_congr (fun ib hib T => ?_) T
      rw [hB.row_ok (List.mem_range.1 hib), foldlM_flatMap']
      simp only [Except.bind_ok', foldlM_map']
      split
      · next h =>
        rw [List.isEmpty_iff.1 h]
        simp only [List.foldlM_nil]
        generalize A.rowD ia = l
        induction l generalizing T with
        | nil => rfl
        | cons p l ih => exact ih T
      · rfl
    obtain ⟨T, e, hT⟩ := forN_push (k := A.nrows) (m := m) (n := n) f
      (body := fun ia T => do
        let a ← A.row ia
        if a.isEmpty then .ok T
        else do
          let T ← forN B.nrows T fun ib T => do
            let b ← B.row ib
            if b.isEmpty then .ok T
            else
              a.foldlM (fun T p => b.foldlM (fun T q =>
                pushAt T (er ia ib p.1 q.1) (ec ia ib p.1 q.1) (op p.2 q.2)) T) T
          .ok T.recomputeNvals)
      (by
        intro ia hia T _ _ _
        simp only [hA.row_ok hia, Except.bind_ok']
        split
        · next h =>
          left
          have : f ia = [] := by
            simp only [f, List.isEmpty_iff.1 h, List.flatMap_nil]
            simp
          rw [this]; rfl
        · right
          rw [hinner ia hia]
          cases pushAll (f ia) T <;> rfl)
      (by
        intro ia hia e he
        simp only [f, List.mem_flatMap, List.mem_map, List.mem_range] at he
        obtain ⟨ib, hib, p, hp, q, hq, rfl⟩ := he
        exact hr _ _ _ _ hia hib ((hA.rowD_ok ia).bound p hp) ((hB.rowD_ok ib).bound q hq))
      (by
        have mem : ∀ ia ib p e, e ∈ (B.rowD ib).map (ent ia ib p) →
            ∃ q ∈ B.rowD ib, e = ent ia ib p q := by
          intro ia ib p e he
          obtain ⟨q, hq, rfl⟩ := List.mem_map.1 he
          exact ⟨q, hq, rfl⟩
        refine pairwise_flatMap'.2 ⟨fun ia hia => ?_, ?_⟩
        · rw [List.mem_range] at hia
          refine pairwise_flatMap'.2 ⟨fun ib hib => ?_, ?_⟩
          · rw [List.mem_range] at hib
            refine pairwise_flatMap'.2 ⟨fun p hp => ?_, ?_⟩
            · rw [List.pairwise_map]
              refine List.Pairwise.imp_of_mem ?_ (hB.rowD_ok ib).sorted
              intro q q' hq hq' hlt heq
              exact ho _ _ _ _ _ _ _ _ hia hib ((hA.rowD_ok ia).bound p hp)
                ((hB.rowD_ok ib).bound q hq) hia hib ((hA.rowD_ok ia).bound p hp)
                ((hB.rowD_ok ib).bound q' hq') heq (Or.inr ⟨rfl, Or.inr ⟨rfl, Or.inr ⟨rfl, hlt⟩⟩⟩)
            · refine List.Pairwise.imp_of_mem ?_ (hA.rowD_ok ia).sorted
              intro p p' hp hp' hlt x hx y hy heq
              obtain ⟨q, hq, rfl⟩ := mem _ _ _ _ hx
              obtain ⟨q', hq', rfl⟩ := mem _ _ _ _ hy
              exact ho _ _ _ _ _ _ _ _ hia hib ((hA.rowD_ok ia).bound p hp)
                ((hB.rowD_ok ib).bound q hq) hia hib ((hA.rowD_ok ia).bound p' hp')
                ((hB.rowD_ok ib).bound q' hq') heq (Or.inr ⟨rfl, Or.inr ⟨rfl, Or.inl hlt⟩⟩)
          · refine List.Pairwise.imp_of_mem ?_ List.pairwise_lt_range
            intro ib ib' hib hib' hlt x hx y hy heq
            rw [List.mem_range] at hib hib'
            obtain ⟨p, hp, hx⟩ := List.mem_flatMap.1 hx
            obtain ⟨p', hp', hy⟩ := List.mem_flatMap.1 hy
            obtain ⟨q, hq, rfl⟩ := mem _ _ _ _ hx
            obtain ⟨q', hq', rfl⟩ := mem _ _ _ _ hy
            exact ho _ _ _ _ _ _ _ _ hia hib ((hA.rowD_ok ia).bound p hp)
              ((hB.rowD_ok ib).bound q hq) hia hib' ((hA.rowD_ok ia).bound p' hp')
              ((hB.rowD_ok ib').bound q' hq') heq (Or.inr ⟨rfl, Or.inl hlt⟩)
        · refine List.Pairwise.imp_of_mem ?_ List.pairwise_lt_range
          intro ia ia' hia hia' hlt x hx y hy heq
          rw [List.mem_range] at hia hia'
          obtain ⟨ib, hib, hx⟩ := List.mem_flatMap.1 hx
          obtain ⟨ib', hib', hy⟩ := List.mem_flatMap.1 hy
          obtain ⟨p, hp, hx⟩ := List.mem_flatMap.1 hx
          obtain ⟨p', hp', hy⟩ := List.mem_flatMap.1 hy
          obtain ⟨q, hq, rfl⟩ := mem _ _ _ _ hx
          obtain ⟨q', hq', rfl⟩ := mem _ _ _ _ hy
          rw [List.mem_range] at hib hib'
          exact ho _ _ _ _ _ _ _ _ hia hib ((hA.rowD_ok ia).bound p hp)
            ((hB.rowD_ok ib).bound q hq) hia' hib' ((hA.rowD_ok ia').bound p' hp')
            ((hB.rowD_ok ib').bound q' hq') heq (Or.inl hlt))
    refine ⟨T, e, hT.wfr, hT.nr, hT.nc, fun i j x => ?_⟩
    rw [hT.get]
    simp only [f, ent, List.mem_flatMap, List.mem_range, List.mem_map, Prod.mk.injEq]
    constructor
    · rintro ⟨ia, hia, ib, hib, p, hp, q, hq, rfl, rfl, rfl⟩
      exact ⟨ia, ib, p.1, q.1, p.2, q.2, get_of_mem (hA.rowD_ok ia).sorted hp,
        get_of_mem (hB.rowD_ok ib).sorted hq, rfl, rfl, rfl⟩
    · rintro ⟨ia, ib, ka, kb, a, b, h1, h2, rfl, rfl, rfl⟩
      have hia : ia < A.nrows := by
        apply Classical.byContradiction
        intro h
        rw [hA.toWFr.get_none (Or.inl (by omega))] at h1; simp at h1
      have hib : ib < B.nrows := by
        apply Classical.byContradiction
        intro h
        rw [hB.toWFr.get_none (Or.inl (by omega))] at h2; simp at h2
      exact ⟨ia, hia, ib, hib, (ka, a), mem_of_get h1, (kb, b), mem_of_get h2, rfl, rfl, rfl⟩
  · next h => exact ⟨_, rfl, (Lil.new_wf m n).toWFr, rfl, rfl, kron_empty hA hB h⟩

theorem kronLoop'_spec {m n : Nat} {er ec : Nat → Nat → Nat → Nat → Nat} {op : α → β → τ}
    {A : Lil α} {B : Lil β} (hA : A.WF) (hB : B.WF)
    (hr : ∀ ia ib ka kb, ia < A.nrows → ib < B.nrows → ka < A.ncols → kb < B.ncols →
      er ia ib ka kb < m ∧ ec ia ib ka kb < n)
    (ho : ∀ ia ib ka kb ia' ib' ka' kb', ia < A.nrows → ib < B.nrows → ka < A.ncols → kb < B.ncols →
      ia' < A.nrows → ib' < B.nrows → ka' < A.ncols → kb' < B.ncols →
      er ia ib ka kb = er ia' ib' ka' kb' →
      (ia < ia' ∨ (ia = ia' ∧ (ka < ka' ∨ (ka = ka' ∧ (ib < ib' ∨ (ib = ib' ∧ kb < kb')))))) →
      ec ia ib ka kb < ec ia' ib' ka' kb') :
    ∃ T, kronLoop' m n er ec op A B = .ok T ∧ T.WFr ∧ T.nrows = m ∧ T.ncols = n ∧
      KronContent er ec op A B T := by
  unfold kronLoop'
  split
  · let ent : Nat → Nat → Nat × α → Nat × β → Entry τ := fun ia ib p q =>
      (er ia ib p.1 q.1, ec ia ib p.1 q.1, op p.2 q.2)
    let f : Nat → List (Entry τ) := fun ia => (A.rowD ia).flatMap fun p =>
      (List.range B.nrows).flatMap fun ib => (B.rowD ib).map fun q => ent ia ib p q
    have hinner : ∀ ia, ia < A.nrows → ∀ T : Lil τ,
        ((A.rowD ia).foldlM (fun T p => forN B.nrows T fun ib T => do
          let b ← B.row ib
          if b.isEmpty then .ok T
          else
            b.foldlM (fun T q =>
              pushAt T (er ia ib p.1 q.1) (ec ia ib p.1 q.1) (op p.2 q.2)) T) T)
          = pushAll (f ia) T := by
      intro ia _ T
      rw [pushAll, foldlM_flatMap']
      refine foldlM_congr (fun p _ T => ?_) T
      rw [foldlM_flatMap', forN]
      refine foldlM_congr (fun ib hib T => ?_) T
      rw [hB.row_ok (List.mem_range.1 hib)]
      simp only [Except.bind_ok', foldlM_map']
      split
      · next h =>
        rw [List.isEmpty_iff.1 h]
        rfl
      · rfl
    obtain ⟨T, e, hT⟩ := forN_push (k := A.nrows) (m := m) (n := n) f
      (body := fun ia T => do
        let a ← A.row ia
        if a.isEmpty then .ok T
        else do
          let T ← a.foldlM (fun T p => forN B.nrows T fun ib T => do
            let b ← B.row ib
            if b.isEmpty then .ok T
            else
              b.foldlM (fun T q =>
                pushAt T (er ia ib p.1 q.1) (ec ia ib p.1 q.1) (op p.2 q.2)) T) T
          .ok T.recomputeNvals)
      (by
        intro ia hia T _ _ _
        simp only [hA.row_ok hia, Except.bind_ok']
        split
        · next h =>
          left
          have : f ia = [] := by
            simp only [f, List.isEmpty_iff.1 h, List.flatMap_nil]
          rw [this]; rfl
        · right
          rw [hinner ia hia]
          cases pushAll (f ia) T <;> rfl)
      (by
        intro ia hia e he
        simp only [f, List.mem_flatMap, List.mem_map, List.mem_range] at he
        obtain ⟨p, hp, ib, hib, q, hq, rfl⟩ := he
        exact hr _ _ _ _ hia hib ((hA.rowD_ok ia).bound p hp) ((hB.rowD_ok ib).bound q hq))
      (by
        have mem : ∀ ia ib p e, e ∈ (B.rowD ib).map (ent ia ib p) →
            ∃ q ∈ B.rowD ib, e = ent ia ib p q := by
          intro ia ib p e he
          obtain ⟨q, hq, rfl⟩ := List.mem_map.1 he
          exact ⟨q, hq, rfl⟩
        refine pairwise_flatMap'.2 ⟨fun ia hia => ?_, ?_⟩
        · rw [List.mem_range] at hia
          refine pairwise_flatMap'.2 ⟨fun p hp => ?_, ?_⟩
          · refine pairwise_flatMap'.2 ⟨fun ib hib => ?_, ?_⟩
            · rw [List.mem_range] at hib
              rw [List.pairwise_map]
              refine List.Pairwise.imp_of_mem ?_ (hB.rowD_ok ib).sorted
              intro q q' hq hq' hlt heq
              exact ho _ _ _ _ _ _ _ _ hia hib ((hA.rowD_ok ia).bound p hp)
                ((hB.rowD_ok ib).bound q hq) hia hib ((hA.rowD_ok ia).bound p hp)
                ((hB.rowD_ok ib).bound q' hq') heq (Or.inr ⟨rfl, Or.inr ⟨rfl, Or.inr ⟨rfl, hlt⟩⟩⟩)
            · refine List.Pairwise.imp_of_mem ?_ List.pairwise_lt_range
              intro ib ib' hib hib' hlt x hx y hy heq
              rw [List.mem_range] at hib hib'
              obtain ⟨q, hq, rfl⟩ := mem _ _ _ _ hx
              obtain ⟨q', hq', rfl⟩ := mem _ _ _ _ hy
              exact ho _ _ _ _ _ _ _ _ hia hib ((hA.rowD_ok ia).bound p hp)
                ((hB.rowD_ok ib).bound q hq) hia hib' ((hA.rowD_ok ia).bound p hp)
                ((hB.rowD_ok ib').bound q' hq') heq (Or.inr ⟨rfl, Or.inr ⟨rfl, Or.inl hlt⟩⟩)
          · refine List.Pairwise.imp_of_mem ?_ (hA.rowD_ok ia).sorted
            intro p p' hp hp' hlt x hx y hy heq
            obtain ⟨ib, hib, hx⟩ := List.mem_flatMap.1 hx
            obtain ⟨ib', hib', hy⟩ := List.mem_flatMap.1 hy
            rw [List.mem_range] at hib hib'
            obtain ⟨q, hq, rfl⟩ := mem _ _ _ _ hx
            obtain ⟨q', hq', rfl⟩ := mem _ _ _ _ hy
            exact ho _ _ _ _ _ _ _ _ hia hib ((hA.rowD_ok ia).bound p hp)
              ((hB.rowD_ok ib).bound q hq) hia hib' ((hA.rowD_ok ia).bound p' hp')
              ((hB.rowD_ok ib').bound q' hq') heq (Or.inr ⟨rfl, Or.inl hlt⟩)
        · refine List.Pairwise.imp_of_mem ?_ List.pairwise_lt_range
          intro ia ia' hia hia' hlt x hx y hy heq
          rw [List.mem_range] at hia hia'
          obtain ⟨p, hp, hx⟩ := List.mem_flatMap.1 hx
          obtain ⟨p', hp', hy⟩ := List.mem_flatMap.1 hy
          obtain ⟨ib, hib, hx⟩ := List.mem_flatMap.1 hx
          obtain ⟨ib', hib', hy⟩ := List.mem_flatMap.1 hy
          obtain ⟨q, hq, rfl⟩ := mem _ _ _ _ hx
          obtain ⟨q', hq', rfl⟩ := mem _ _ _ _ hy
          rw [List.mem_range] at hib hib'
          exact ho _ _ _ _ _ _ _ _ hia hib ((hA.rowD_ok ia).bound p hp)
            ((hB.rowD_ok ib).bound q hq) hia' hib' ((hA.rowD_ok ia').bound p' hp')
            ((hB.rowD_ok ib').bound q' hq') heq (Or.inl hlt))
    refine ⟨T, e, hT.wfr, hT.nr, hT.nc, fun i j x => ?_⟩
    rw [hT.get]
    simp only [f, ent, List.mem_flatMap, List.mem_range, List.mem_map, Prod.mk.injEq]
    constructor
    · rintro ⟨ia, hia, p, hp, ib, hib, q, hq, rfl, rfl, rfl⟩
      exact ⟨ia, ib, p.1, q.1, p.2, q.2, get_of_mem (hA.rowD_ok ia).sorted hp,
        get_of_mem (hB.rowD_ok ib).sorted hq, rfl, rfl, rfl⟩
    · rintro ⟨ia, ib, ka, kb, a, b, h1, h2, rfl, rfl, rfl⟩
      have hia : ia < A.nrows := by
        apply Classical.byContradiction
        intro h
        rw [hA.toWFr.get_none (Or.inl (by omega))] at h1; simp at h1
      have hib : ib < B.nrows := by
        apply Classical.byContradiction
        intro h
        rw [hB.toWFr.get_none (Or.inl (by omega))] at h2; simp at h2
      exact ⟨ia, hia, (ka, a), mem_of_get h1, ib, hib, (kb, b), mem_of_get h2, rfl, rfl, rfl⟩
  · next h => exact ⟨_, rfl, (Lil.new_wf m n).toWFr, rfl, rfl, kron_empty hA hB h⟩

theorem WFr.bounds {A : Lil α} (hA : A.WFr) {i j : Nat} {x : α} (h : A.get i j = some x) :
    i < A.nrows ∧ j < A.ncols := by
  apply Classical.byContradiction
  intro hn
  rw [hA.get_none (by omega)] at h
  simp at h

theorem both_eq_some {f : α → β → τ} {a : Option α} {b : Option β} {x : τ} :
    both f a b = some x ↔ ∃ y z, a = some y ∧ b = some z ∧ x = f y z := by
  cases a <;> cases b <;> simp [both, eq_comm]

/-- From the content to the specification. -/
theorem kron_content {er ec : Nat → Nat → Nat → Nat → Nat} {op : α → β → τ} {A : Lil α} {B : Lil β}
    {T : Lil τ} (h : KronContent er ec op A B T) (A' : Spec.Mat α) (B' : Spec.Mat β) (r c : Nat)
    (hAB : ∀ i j x, (∃ ia ib ka kb a b, A.get ia ka = some a ∧ B.get ib kb = some b ∧
      i = er ia ib ka kb ∧ j = ec ia ib ka kb ∧ x = op a b) ↔
      (∃ a b, A' (i / r) (j / c) = some a ∧ B' (i % r) (j % c) = some b ∧ x = op a b)) (i j : Nat) :
    T.get i j = Spec.kron r c op A' B' i j := by
  apply Option.ext
  intro x
  rw [h, hAB, Spec.kron, both_eq_some]

theorem kronAB_spec {C : Lil γ} {op : α → β → τ} {A : Lil α} {B : Lil β} (hA : A.WF) (hB : B.WF)
    (h1 : C.nrows = A.nrows * B.nrows) (h2 : C.ncols = A.ncols * B.ncols)
    (hr : C.nrows < 2 ^ 64) (hc : C.ncols < 2 ^ 64) :
    ∃ T, kronAB C op A B = .ok T ∧ T.WFr ∧ T.nrows = C.nrows ∧ T.ncols = C.ncols ∧
      ∀ i j, T.get i j = Spec.kron B.nrows B.ncols op A.get B.get i j := by
  rw [h1] at hr; rw [h2] at hc
  obtain ⟨T, t1, t2, t3, t4, t5⟩ := kronLoop_spec (m := C.nrows) (n := C.ncols) (op := op)
    (er := fun ia ib ka kb => add64 (mul64 ia B.nrows) ib)
    (ec := fun ia ib ka kb => add64 (mul64 ka B.ncols) kb) hA hB
    (by
      intro ia ib ka kb a b c d
      simp only [idx64 a b hr, idx64 c d hc]
      exact ⟨h1 ▸ blk_bound a b, h2 ▸ blk_bound c d⟩)
    (by
      intro ia ib ka kb ia' ib' ka' kb' a b c d a' b' c' d'
      simp only [idx64 a b hr, idx64 c d hc, idx64 a' b' hr, idx64 c' d' hc]
      intro heq ho
      obtain ⟨rfl, rfl⟩ := blk_inj b b' heq
      rcases ho with h | ⟨_, h | ⟨_, h | ⟨rfl, h⟩⟩⟩
      · omega
      · omega
      · exact blk_lt h d
      · omega)
  refine ⟨T, t1, t2, t3, t4, kron_content t5 A.get B.get B.nrows B.ncols ?_⟩
  intro i j x
  constructor
  · rintro ⟨ia, ib, ka, kb, a, b, e1, e2, rfl, rfl, rfl⟩
    have ba := WFr.bounds hA.toWFr e1
    have bb := WFr.bounds hB.toWFr e2
    refine ⟨a, b, ?_, ?_, rfl⟩
    · rw [idx64 ba.1 bb.1 hr, idx64 ba.2 bb.2 hc, blk_div bb.1, blk_div bb.2]; exact e1
    · rw [idx64 ba.1 bb.1 hr, idx64 ba.2 bb.2 hc, blk_mod bb.1, blk_mod bb.2]; exact e2
  · rintro ⟨a, b, e1, e2, rfl⟩
    have ba := WFr.bounds hA.toWFr e1
    have bb := WFr.bounds hB.toWFr e2
    exact ⟨_, _, _, _, a, b, e1, e2, by rw [idx64 ba.1 bb.1 hr, blk_eq],
      by rw [idx64 ba.2 bb.2 hc, blk_eq], rfl⟩

theorem kronATB_spec {C : Lil γ} {op : α → β → τ} {A : Lil α} {B : Lil β} (hA : A.WF) (hB : B.WF)
    (h1 : C.nrows = A.ncols * B.nrows) (h2 : C.ncols = A.nrows * B.ncols)
    (hr : C.nrows < 2 ^ 64) (hc : C.ncols < 2 ^ 64) :
    ∃ T, kronATB C op A B = .ok T ∧ T.WFr ∧ T.nrows = C.nrows ∧ T.ncols = C.ncols ∧
      ∀ i j, T.get i j = Spec.kron B.nrows B.ncols op (Spec.Mat.tr A.get) B.get i j := by
  rw [h1] at hr; rw [h2] at hc
  obtain ⟨T, t1, t2, t3, t4, t5⟩ := kronLoop_spec (m := C.nrows) (n := C.ncols) (op := op)
    (er := fun ia ib ka kb => add64 (mul64 ka B.nrows) ib)
    (ec := fun ia ib ka kb => add64 (mul64 ia B.ncols) kb) hA hB
    (by
      intro ia ib ka kb a b c d
      simp only [idx64 c b hr, idx64 a d hc]
      exact ⟨h1 ▸ blk_bound c b, h2 ▸ blk_bound a d⟩)
    (by
      intro ia ib ka kb ia' ib' ka' kb' a b c d a' b' c' d'
      simp only [idx64 c b hr, idx64 a d hc, idx64 c' b' hr, idx64 a' d' hc]
      intro heq ho
      obtain ⟨rfl, rfl⟩ := blk_inj b b' heq
      rcases ho with h | ⟨rfl, h | ⟨_, h | ⟨_, h⟩⟩⟩
      · exact blk_lt h d
      · omega
      · omega
      · omega)
  refine ⟨T, t1, t2, t3, t4, kron_content t5 (Spec.Mat.tr A.get) B.get B.nrows B.ncols ?_⟩
  intro i j x
  constructor
  · rintro ⟨ia, ib, ka, kb, a, b, e1, e2, rfl, rfl, rfl⟩
    have ba := WFr.bounds hA.toWFr e1
    have bb := WFr.bounds hB.toWFr e2
    refine ⟨a, b, ?_, ?_, rfl⟩
    · rw [idx64 ba.2 bb.1 hr, idx64 ba.1 bb.2 hc, blk_div bb.1, blk_div bb.2]; exact e1
    · rw [idx64 ba.2 bb.1 hr, idx64 ba.1 bb.2 hc, blk_mod bb.1, blk_mod bb.2]; exact e2
  · rintro ⟨a, b, e1, e2, rfl⟩
    have ba := WFr.bounds hA.toWFr e1
    have bb := WFr.bounds hB.toWFr e2
    exact ⟨_, _, _, _, a, b, e1, e2, by rw [idx64 ba.2 bb.1 hr, blk_eq],
      by rw [idx64 ba.1 bb.2 hc, blk_eq], rfl⟩

theorem kronABT_spec {C : Lil γ} {op : α → β → τ} {A : Lil α} {B : Lil β} (hA : A.WF) (hB : B.WF)
    (h1 : C.nrows = A.nrows * B.ncols) (h2 : C.ncols = A.ncols * B.nrows)
    (hr : C.nrows < 2 ^ 64) (hc : C.ncols < 2 ^ 64) :
    ∃ T, kronABT C op A B = .ok T ∧ T.WFr ∧ T.nrows = C.nrows ∧ T.ncols = C.ncols ∧
      ∀ i j, T.get i j = Spec.kron B.ncols B.nrows op A.get (Spec.Mat.tr B.get) i j := by
  rw [h1] at hr; rw [h2] at hc
  obtain ⟨T, t1, t2, t3, t4, t5⟩ := kronLoop'_spec (m := C.nrows) (n := C.ncols) (op := op)
    (er := fun ia ib ka kb => add64 (mul64 ia B.ncols) kb)
    (ec := fun ia ib ka kb => add64 (mul64 ka B.nrows) ib) hA hB
    (by
      intro ia ib ka kb a b c d
      simp only [idx64 a d hr, idx64 c b hc]
      exact ⟨h1 ▸ blk_bound a d, h2 ▸ blk_bound c b⟩)
    (by
      intro ia ib ka kb ia' ib' ka' kb' a b c d a' b' c' d'
      simp only [idx64 a d hr, idx64 c b hc, idx64 a' d' hr, idx64 c' b' hc]
      intro heq ho
      obtain ⟨rfl, rfl⟩ := blk_inj d d' heq
      rcases ho with h | ⟨_, h | ⟨rfl, h | ⟨_, h⟩⟩⟩
      · omega
      · exact blk_lt h b
      · omega
      · omega)
  refine ⟨T, t1, t2, t3, t4, kron_content t5 A.get (Spec.Mat.tr B.get) B.ncols B.nrows ?_⟩
  intro i j x
  constructor
  · rintro ⟨ia, ib, ka, kb, a, b, e1, e2, rfl, rfl, rfl⟩
    have ba := WFr.bounds hA.toWFr e1
    have bb := WFr.bounds hB.toWFr e2
    refine ⟨a, b, ?_, ?_, rfl⟩
    · rw [idx64 ba.1 bb.2 hr, idx64 ba.2 bb.1 hc, blk_div bb.1, blk_div bb.2]; exact e1
    · rw [idx64 ba.1 bb.2 hr, idx64 ba.2 bb.1 hc, blk_mod bb.1, blk_mod bb.2]; exact e2
  · rintro ⟨a, b, e1, e2, rfl⟩
    have ba := WFr.bounds hA.toWFr e1
    have bb := WFr.bounds hB.toWFr e2
    exact ⟨_, _, _, _, a, b, e1, e2, by rw [idx64 ba.1 bb.2 hr, blk_eq],
      by rw [idx64 ba.2 bb.1 hc, blk_eq], rfl⟩

theorem kronATBT_spec {C : Lil γ} {op : α → β → τ} {A : Lil α} {B : Lil β} (hA : A.WF) (hB : B.WF)
    (h1 : C.nrows = A.ncols * B.ncols) (h2 : C.ncols = A.nrows * B.nrows)
    (hr : C.nrows < 2 ^ 64) (hc : C.ncols < 2 ^ 64) :
    ∃ T, kronATBT C op A B = .ok T ∧ T.WFr ∧ T.nrows = C.nrows ∧ T.ncols = C.ncols ∧
      ∀ i j, T.get i j
        = Spec.kron B.ncols B.nrows op (Spec.Mat.tr A.get) (Spec.Mat.tr B.get) i j := by
  rw [h1] at hr; rw [h2] at hc
  obtain ⟨T, t1, t2, t3, t4, t5⟩ := kronLoop_spec (m := C.nrows) (n := C.ncols) (op := op)
    (er := fun ia ib ka kb => add64 (mul64 ka B.ncols) kb)
    (ec := fun ia ib ka kb => add64 (mul64 ia B.nrows) ib) hA hB
    (by
      intro ia ib ka kb a b c d
      simp only [idx64 c d hr, idx64 a b hc]
      exact ⟨h1 ▸ blk_bound c d, h2 ▸ blk_bound a b⟩)
    (by
      intro ia ib ka kb ia' ib' ka' kb' a b c d a' b' c' d'
      simp only [idx64 c d hr, idx64 a b hc, idx64 c' d' hr, idx64 a' b' hc]
      intro heq ho
      obtain ⟨rfl, rfl⟩ := blk_inj d d' heq
      rcases ho with h | ⟨rfl, h | ⟨_, h | ⟨_, h⟩⟩⟩
      · exact blk_lt h b
      · omega
      · omega
      · omega)
  refine ⟨T, t1, t2, t3, t4, kron_content t5 (Spec.Mat.tr A.get) (Spec.Mat.tr B.get) B.ncols B.nrows ?_⟩
  intro i j x
  constructor
  · rintro ⟨ia, ib, ka, kb, a, b, e1, e2, rfl, rfl, rfl⟩
    have ba := WFr.bounds hA.toWFr e1
    have bb := WFr.bounds hB.toWFr e2
    refine ⟨a, b, ?_, ?_, rfl⟩
    · rw [idx64 ba.2 bb.2 hr, idx64 ba.1 bb.1 hc, blk_div bb.1, blk_div bb.2]; exact e1
    · rw [idx64 ba.2 bb.2 hr, idx64 ba.1 bb.1 hc, blk_mod bb.1, blk_mod bb.2]; exact e2
  · rintro ⟨a, b, e1, e2, rfl⟩
    have ba := WFr.bounds hA.toWFr e1
    have bb := WFr.bounds hB.toWFr e2
    exact ⟨_, _, _, _, a, b, e1, e2, by rw [idx64 ba.2 bb.2 hr, blk_eq],
      by rw [idx64 ba.1 bb.1 hc, blk_eq], rfl⟩

end GBTL
