import Verif.Lemmas.Mxm
import Verif.Model.Ops
/-
Matrices filled by a sequence of `T[i].emplace_back(j, x)`.
-/
namespace GBTL
open Spec (Outp MaskKind Accum both either osum)
open Row

variable {α β γ δ τ ζ μ ν : Type}

abbrev Entry (τ : Type) := Nat × Nat × τ

def pushAll (L : List (Entry τ)) (T : Lil τ) : Except Err (Lil τ) :=
  L.foldlM (fun T e => pushAt T e.1 e.2.1 e.2.2) T

/-- Entries of one row are pushed in ascending column order. -/
def Ordered (L : List (Entry τ)) : Prop := L.Pairwise fun p q => p.1 = q.1 → p.2.1 < q.2.1

def rowOf (L : List (Entry τ)) (i : Nat) : Row τ := (L.filter fun e => e.1 = i).map (·.2)

structure Pushed (m n : Nat) (T : Lil τ) (L : List (Entry τ)) : Prop where
  wfr : T.WFr
  nr : T.nrows = m
  nc : T.ncols = n
  row : ∀ i, T.rowD i = rowOf L i

theorem Pushed.new (m n : Nat) : Pushed m n (Lil.new m n : Lil τ) [] :=
  ⟨(Lil.new_wf m n).toWFr, rfl, rfl, fun i => by simp [rowOf]⟩

theorem Pushed.recompute {m n : Nat} {T : Lil τ} {L : List (Entry τ)} (h : Pushed m n T L) :
    Pushed m n T.recomputeNvals L :=
  ⟨(Lil.recomputeNvals_wf h.wfr).toWFr, h.nr, h.nc, h.row⟩

theorem rowOf_mem {L : List (Entry τ)} {i : Nat} {q : Nat × τ} : q ∈ rowOf L i ↔ (i, q) ∈ L := by
  simp only [rowOf, List.mem_map, List.mem_filter, decide_eq_true_eq]
  constructor
  · rintro ⟨⟨a, b⟩, ⟨h1, rfl⟩, rfl⟩; exact h1
  · intro h; exact ⟨(i, q), ⟨h, rfl⟩, rfl⟩

theorem pushAt_spec {m n : Nat} {T : Lil τ} {L : List (Entry τ)} {e : Entry τ} (h : Pushed m n T L)
    (hi : e.1 < m) (hj : e.2.1 < n) (ho : Ordered (L ++ [e])) :
    ∃ T', pushAt T e.1 e.2.1 e.2.2 = .ok T' ∧ Pushed m n T' (L ++ [e]) := by
  obtain ⟨i, j, x⟩ := e
  simp only at hi hj
  have hlow : ∀ p ∈ T.rowD i, p.1 < j := by
    intro p hp
    rw [h.row] at hp
    have hp' := rowOf_mem.1 hp
    exact (List.pairwise_append.1 ho).2.2 _ hp' _ (List.mem_singleton.2 rfl) rfl
  obtain ⟨T1, e1, v1, v2, v3, _, v4⟩ := Lil.pokeRow_spec (i := i) (r := T.rowD i ++ [(j, x)]) h.wfr
    (by rw [h.nr]; exact hi) (ok_append_last (h.wfr.rowD_ok i) hlow (by rw [h.nc]; exact hj))
  refine ⟨T1, ?_, v1, by rw [v2, h.nr], by rw [v3, h.nc], fun k => ?_⟩
  · simp only [pushAt, h.wfr.row_ok (show i < T.nrows by rw [h.nr]; exact hi), Except.bind_ok', e1]
  · rw [v4, h.row, h.row]
    by_cases hk : k = i
    · subst hk
      simp [rowOf]
    · have : ¬ i = k := fun e => hk e.symm
      simp [rowOf, hk, this]

theorem pushAll_spec {m n : Nat} (L' : List (Entry τ)) : ∀ {T : Lil τ} {L : List (Entry τ)},
    Pushed m n T L → (∀ e ∈ L', e.1 < m ∧ e.2.1 < n) → Ordered (L ++ L') →
    ∃ T', pushAll L' T = .ok T' ∧ Pushed m n T' (L ++ L') := by
  induction L' with
  | nil => intro T L h _ _; exact ⟨T, rfl, by rw [List.append_nil]; exact h⟩
  | cons e L' ih =>
    intro T L h hb ho
    have ho' : Ordered ((L ++ [e]) ++ L') := by simpa [List.append_assoc] using ho
    obtain ⟨T1, e1, h1⟩ := pushAt_spec h (hb e (List.mem_cons_self ..)).1
      (hb e (List.mem_cons_self ..)).2 (List.pairwise_append.1 ho').1
    obtain ⟨T2, e2, h2⟩ := ih h1 (fun q hq => hb q (List.mem_cons_of_mem _ hq)) ho'
    refine ⟨T2, ?_, by simpa [List.append_assoc] using h2⟩
    rw [pushAll, List.foldlM_cons, e1]
    exact e2

theorem foldlM_flatMap' {σ ρ κ : Type} (l : List ρ) (f : ρ → List κ) (g : σ → κ → Except Err σ) :
    ∀ s, (l.flatMap f).foldlM g s = l.foldlM (fun s x => (f x).foldlM g s) s := by
  induction l with
  | nil => intro s; rfl
  | cons x l ih =>
    intro s
    rw [List.flatMap_cons, List.foldlM_append, List.foldlM_cons]
    congr 1
    funext s
    exact ih s

theorem foldlM_map' {σ ρ κ : Type} (l : List ρ) (f : ρ → κ) (g : σ → κ → Except Err σ) :
    ∀ s, (l.map f).foldlM g s = l.foldlM (fun s x => g s (f x)) s := by
  induction l with
  | nil => intro s; rfl
  | cons x l ih =>
    intro s
    rw [List.map_cons, List.foldlM_cons, List.foldlM_cons]
    congr 1
    funext s
    exact ih s

/-- A loop whose bodies push entries (and perhaps recompute the counter). -/
theorem foldlM_push {σ : Type} {m n : Nat} (f : σ → List (Entry τ))
    {body : Lil τ → σ → Except Err (Lil τ)} (l : List σ)
    (hbody : ∀ x ∈ l, ∀ T : Lil τ, T.WFr → T.nrows = m → T.ncols = n →
      body T x = pushAll (f x) T ∨ body T x = (pushAll (f x) T).map Lil.recomputeNvals)
    (hb : ∀ x ∈ l, ∀ e ∈ f x, e.1 < m ∧ e.2.1 < n) :
    ∀ {T : Lil τ} {L : List (Entry τ)}, Pushed m n T L → Ordered (L ++ l.flatMap f) →
    ∃ T', l.foldlM body T = .ok T' ∧ Pushed m n T' (L ++ l.flatMap f) := by
  induction l with
  | nil => intro T L h _; exact ⟨T, rfl, by simpa using h⟩
  | cons x l ih =>
    intro T L h ho
    rw [List.flatMap_cons] at ho
    have ho' : Ordered ((L ++ f x) ++ l.flatMap f) := by simpa [List.append_assoc] using ho
    obtain ⟨T1, e1, h1⟩ := pushAll_spec (f x) h (hb x (List.mem_cons_self ..))
      (List.pairwise_append.1 ho').1
    have ih' := @ih (fun y hy => hbody y (List.mem_cons_of_mem _ hy))
      (fun y hy => hb y (List.mem_cons_of_mem _ hy))
    rw [List.foldlM_cons, List.flatMap_cons, ← List.append_assoc]
    rcases hbody x (List.mem_cons_self ..) T h.wfr h.nr h.nc with e | e
    · rw [e, e1]
      exact ih' h1 ho'
    · rw [e, e1]
      exact ih' h1.recompute ho'

theorem forN_push {k m n : Nat} (f : Nat → List (Entry τ))
    {body : Nat → Lil τ → Except Err (Lil τ)}
    (hbody : ∀ i, i < k → ∀ T : Lil τ, T.WFr → T.nrows = m → T.ncols = n →
      body i T = pushAll (f i) T ∨ body i T = (pushAll (f i) T).map Lil.recomputeNvals)
    (hb : ∀ i, i < k → ∀ e ∈ f i, e.1 < m ∧ e.2.1 < n)
    (ho : Ordered ((List.range k).flatMap f)) :
    ∃ T', forN k (Lil.new m n) body = .ok T' ∧ Pushed m n T' ((List.range k).flatMap f) := by
  have := foldlM_push (m := m) (n := n) f (body := fun T i => body i T) (List.range k)
    (fun i hi => hbody i (List.mem_range.1 hi)) (fun i hi => hb i (List.mem_range.1 hi))
    (Pushed.new m n) (by simpa using ho)
  simpa [forN] using this

/-- The content of a pushed matrix. -/
theorem Pushed.get {m n : Nat} {T : Lil τ} {L : List (Entry τ)} (h : Pushed m n T L)
    (i j : Nat) (x : τ) : T.get i j = some x ↔ (i, j, x) ∈ L := by
  rw [Lil.get, get_eq_some_iff (h.wfr.rowD_ok i).sorted, h.row, rowOf_mem]

theorem pairwise_flatMap' {ρ κ : Type} {R : κ → κ → Prop} {l : List ρ} {f : ρ → List κ} :
    (l.flatMap f).Pairwise R ↔ (∀ a ∈ l, (f a).Pairwise R) ∧
      l.Pairwise (fun a b => ∀ x ∈ f a, ∀ y ∈ f b, R x y) := List.pairwise_flatMap

/-! ### pushing rows as columns -/

theorem pushCol_eq (k : Nat) (row : Row τ) (T : Lil τ) :
    pushCol k row T = pushAll (row.map fun p => (p.1, k, p.2)) T := by
  rw [pushCol, pushAll, foldlM_map']; rfl

theorem pushCols_spec {m n k : Nat} {row : Nat → Except Err (Row τ)} (r : Nat → Row τ)
    (hrow : ∀ i, i < k → row i = .ok (r i)) (hr : ∀ i, i < k → OK m (r i)) (hk : k ≤ n) :
    ∃ T, pushCols m n k row = .ok T ∧ T.WF ∧ T.nrows = m ∧ T.ncols = n ∧
      ∀ i j, T.get j i = if i < k then Row.get (r i) j else none := by
  obtain ⟨T, e, hT⟩ := forN_push (k := k) (m := m) (n := n)
    (fun i => (r i).map fun p => (p.1, i, p.2))
    (body := fun i T => do
      let r ← row i
      pushCol i r T)
    (by
      intro i hi T _ _ _
      left
      rw [hrow i hi]
      exact pushCol_eq ..)
    (by
      intro i hi e he
      obtain ⟨p, hp, rfl⟩ := List.mem_map.1 he
      exact ⟨(hr i hi).bound p hp, by simp only; omega⟩)
    (by
      refine pairwise_flatMap'.2 ⟨?_, ?_⟩
      · intro i hi
        rw [List.pairwise_map]
        exact (hr i (List.mem_range.1 hi)).sorted.imp fun {p q} h e => by
          simp only at e; omega
      · refine List.pairwise_lt_range.imp fun {a b} hab x hx y hy _ => ?_
        obtain ⟨p, _, rfl⟩ := List.mem_map.1 hx
        obtain ⟨q, _, rfl⟩ := List.mem_map.1 hy
        exact hab)
  refine ⟨T.recomputeNvals, ?_, Lil.recomputeNvals_wf hT.wfr, hT.nr, hT.nc, ?_⟩
  · simp only [pushCols, e, Except.bind_ok']
  · intro i j
    apply Option.ext
    intro x
    rw [hT.recompute.get]
    simp only [List.mem_flatMap, List.mem_range, List.mem_map, Prod.mk.injEq]
    constructor
    · rintro ⟨a, ha, p, hp, rfl, rfl, rfl⟩
      rw [if_pos ha]
      exact get_of_mem (hr a ha).sorted hp
    · intro h
      split at h
      · next hi => exact ⟨i, hi, (j, x), mem_of_get h, rfl, rfl, rfl⟩
      · simp at h

end GBTL
