import Verif.Lemmas.Mask
import Verif.Model.Mxm
namespace GBTL
open Spec (Outp MaskKind Accum both either osum)
open Row

variable {α β γ δ τ ζ μ ν : Type}

/-! ### general facts -/

theorem osum_replicate_none (add : τ → τ → τ) (n : Nat) :
    osum add (List.replicate n none) = none := by
  rw [osum_eq_foldl]
  induction n with
  | zero => rfl
  | succ n ih => simpa [List.replicate_succ] using ih

theorem osum_none {σ : Type} (add : τ → τ → τ) (l : List σ) (f : σ → Option τ)
    (h : ∀ x ∈ l, f x = none) : osum add (l.map f) = none := by
  have : l.map f = List.replicate l.length none := by
    rw [List.eq_replicate_iff]
    refine ⟨by simp, ?_⟩
    intro y hy
    obtain ⟨x, hx, rfl⟩ := List.mem_map.1 hy
    exact h x hx
  rw [this, osum_replicate_none]

@[simp] theorem both_none_left (f : α → β → τ) (b : Option β) : both f none b = none := rfl
@[simp] theorem both_none_right (f : α → β → τ) (a : Option α) : both f a none = none := by
  cases a <;> rfl

theorem both_swap (f : α → β → τ) (a : Option α) (b : Option β) :
    both f a b = both (fun b a => f a b) b a := by
  cases a <;> cases b <;> rfl

namespace Lil

theorem pokeRow_spec {A : Lil α} {i : Nat} {r : Row α} (hA : A.WFr) (hi : i < A.nrows)
    (hr : Row.OK A.ncols r) :
    ∃ B, A.pokeRow i r = .ok B ∧ B.WFr ∧ B.nrows = A.nrows ∧ B.ncols = A.ncols ∧
      B.nvals = A.nvals ∧ (∀ k, B.rowD k = if k = i then r else A.rowD k) := by
  have hi' : i < A.rows.length := by rw [hA.len]; exact hi
  refine ⟨{ A with rows := A.rows.set i r }, ?_, ?_, rfl, rfl, rfl, ?_⟩
  · simp [pokeRow, wr_ok hi']
  · exact hA.set hr rfl rfl rfl
  · intro k
    exact rowD_set hi' rfl

theorem WF.rowD_nil_of_nvals {A : Lil α} (hA : A.WF) (h : A.nvals = 0) (i : Nat) :
    A.rowD i = [] := by
  by_cases hi : i < A.rows.length
  · have h1 := length_le_sum A.rows i hi
    have h2 := hA.count
    rw [rowD_of_lt hi]
    apply List.eq_nil_of_length_eq_zero
    omega
  · exact rowD_of_ge (by omega)

theorem WF.get_none_of_nvals {A : Lil α} (hA : A.WF) (h : A.nvals = 0) (i j : Nat) :
    A.get i j = none := by
  rw [get, hA.rowD_nil_of_nvals h]; rfl

theorem recomputeNvals_wf {A : Lil α} (hA : A.WFr) : A.recomputeNvals.WF :=
  ⟨⟨hA.len, hA.rowOK⟩, rfl⟩

end Lil

theorem BVec.WF.get_none_of_nvals {v : BVec α} (hv : v.WF) (h : v.nvals = 0) (i : Nat) :
    v.get i = none := by
  by_cases hi : i < v.size
  · obtain ⟨r, h1, h2, h3, h4⟩ := BVec.getContents_spec hv
    rw [← h3]
    rw [h] at h4
    rw [List.eq_nil_of_length_eq_zero h4]; rfl
  · exact hv.get_none (by omega)

theorem BVec.hasElement_spec {v : BVec α} (hv : v.WF) {i : Nat} (hi : i < v.size) :
    v.hasElement i = .ok (v.get i).isSome := by
  rw [BVec.hasElement, if_neg (by omega), BVec.rd_bitmap hv.vlen hv.blen hi]

theorem BVec.extractElement_spec {v : BVec α} (hv : v.WF) {i : Nat} (hi : i < v.size) {x : α}
    (h : v.get i = some x) : v.extractElement i = .ok x := by
  rw [BVec.extractElement, if_neg (by omega), BVec.rd_bitmap hv.vlen hv.blen hi, h]
  simp only [Option.isSome_some]
  simp only [BVec.get] at h
  split at h
  · simp [rd, h]
  · simp at h

theorem nvals_or {a b : Nat} (h : ¬ (decide (a > 0) && decide (b > 0)) = true) :
    a = 0 ∨ b = 0 := by
  simp only [Bool.and_eq_true, decide_eq_true_eq] at h
  omega

/-! ### one row of a product -/

/-- The sum of the rows `B k` scaled by the elements of `a`, added to `init`. -/
def rowProd (add : τ → τ → τ) (mult : α → β → τ) (a : Row α) (B : Nat → Row β) (init : Row τ) :
    Row τ :=
  a.foldl (fun t p => axpy add mult p.2 t (B p.1)) init

theorem rowProd_spec {n : Nat} (add : τ → τ → τ) (mult : α → β → τ) (a : Row α)
    {B : Nat → Row β} (hB : ∀ k, OK n (B k)) : ∀ {init : Row τ}, OK n init →
    OK n (rowProd add mult a B init) ∧ ∀ j, get (rowProd add mult a B init) j
      = a.foldl (fun acc p => ostep add acc ((get (B p.1) j).map (mult p.2))) (get init j) := by
  induction a with
  | nil => intro init hi; exact ⟨hi, fun j => rfl⟩
  | cons p a ih =>
    intro init hi
    obtain ⟨h1, h2⟩ := ih (axpy_ok (add := add) (mult := mult) (a := p.2) hi (hB p.1))
    refine ⟨h1, fun j => ?_⟩
    have := h2 j
    rw [axpy_get hi.sorted (hB p.1).sorted] at this
    exact this

theorem rowProd_get {m n : Nat} (add : τ → τ → τ) (mult : α → β → τ) {a : Row α}
    (ha : OK m a) {B : Nat → Row β} (hB : ∀ k, OK n (B k)) (j : Nat) :
    get (rowProd add mult a B []) j
      = osum add ((List.range m).map fun k => both mult (get a k) (get (B k) j)) := by
  rw [(rowProd_spec add mult a hB OK.nil).2, osum_map,
    Row.foldl_eq_range ha (fun acc k x => ostep add acc ((get (B k) j).map (mult x)))]
  rw [get_nil]
  congr 1
  funext acc k
  cases get a k with
  | none => simp
  | some x => cases get (B k) j <;> simp [both]

/-! ### mxm -/

theorem mxmAB_spec {C : Lil γ} (add : τ → τ → τ) (mult : α → β → τ) {A : Lil α} {B : Lil β}
    (hA : A.WFr) (hB : B.WFr) (h1 : C.nrows = A.nrows) (h2 : C.ncols = B.ncols)
    (h3 : A.ncols = B.nrows) :
    ∃ T, mxmAB C add mult A B = .ok T ∧ T.WFr ∧ T.nrows = C.nrows ∧ T.ncols = C.ncols ∧
      ∀ i j, T.get i j = Spec.mxm A.ncols add mult A.get B.get i j := by
  have inner : ∀ (i : Nat), i < C.nrows → ∀ (a : Row α), (∀ p ∈ a, p.1 < A.ncols) →
      ∀ (T : Lil τ), T.WFr → T.nrows = C.nrows → T.ncols = C.ncols →
      ∃ T', a.foldlM (fun T p => do
          let b ← B.row p.1
          if b.isEmpty then .ok T
          else
            let t ← T.row i
            T.pokeRow i (axpy add mult p.2 t b)) T = Except.ok T' ∧ T'.WFr ∧
        T'.nrows = C.nrows ∧ T'.ncols = C.ncols ∧
        ∀ k, T'.rowD k = if k = i then rowProd add mult a B.rowD (T.rowD i) else T.rowD k := by
    intro i hi a
    induction a with
    | nil =>
      intro _ T hT hr hc
      refine ⟨T, rfl, hT, hr, hc, fun k => ?_⟩
      split
      · next h => subst h; rfl
      · rfl
    | cons p a ih =>
      intro hb T hT hr hc
      have hp := hb p (List.mem_cons_self ..)
      rw [List.foldlM_cons]
      simp only [hB.row_ok (show p.1 < B.nrows by omega), Except.bind_ok']
      cases he : (B.rowD p.1).isEmpty with
      | true =>
        simp only [if_true, Except.bind_ok']
        obtain ⟨T', e, w1, w2, w3, w4⟩ := ih (fun q hq => hb q (List.mem_cons_of_mem _ hq)) T hT hr hc
        refine ⟨T', e, w1, w2, w3, ?_⟩
        intro k
        rw [w4]
        have : B.rowD p.1 = [] := List.isEmpty_iff.1 he
        simp only [rowProd, List.foldl_cons, this, axpy]
      | false =>
        simp only [Bool.false_eq_true, if_false, hT.row_ok (show i < T.nrows by omega),
          Except.bind_ok']
        obtain ⟨T1, e1, v1, v2, v3, _, v4⟩ := Lil.pokeRow_spec (i := i)
          (r := axpy add mult p.2 (T.rowD i) (B.rowD p.1)) hT (by omega)
          (axpy_ok (hT.rowD_ok i) (by rw [hc, h2]; exact hB.rowD_ok _))
        rw [e1]
        simp only [Except.bind_ok']
        obtain ⟨T', e, w1, w2, w3, w4⟩ := ih (fun q hq => hb q (List.mem_cons_of_mem _ hq)) T1 v1
          (by omega) (by omega)
        refine ⟨T', e, w1, w2, w3, ?_⟩
        intro k
        rw [w4, v4, v4]
        by_cases hk : k = i
        · simp [hk, rowProd]
        · simp [hk]
  obtain ⟨T, e, w1, w2, w3, w4⟩ := forN_inv (n := A.nrows) (s := (Lil.new C.nrows C.ncols : Lil τ))
    (body := fun i T => do
      let a ← A.row i
      a.foldlM (fun T p => do
        let b ← B.row p.1
        if b.isEmpty then .ok T
        else
          let t ← T.row i
          T.pokeRow i (axpy add mult p.2 t b)) T)
    (fun (i : Nat) (T : Lil τ) => T.WFr ∧ T.nrows = C.nrows ∧ T.ncols = C.ncols ∧
      ∀ k, T.rowD k = if k < i then rowProd add mult (A.rowD k) B.rowD [] else [])
    ⟨(Lil.new_wf _ _).toWFr, rfl, rfl, fun k => by simp⟩ (by
      rintro i T hi ⟨hT, hr, hc, hrow⟩
      rw [hA.row_ok hi]
      simp only [Except.bind_ok']
      obtain ⟨T', e, w1, w2, w3, w4⟩ := inner i (by omega) (A.rowD i) (hA.rowD_ok i).bound T hT hr hc
      refine ⟨T', e, w1, w2, w3, ?_⟩
      intro k
      rw [w4, hrow, hrow]
      by_cases hk : k = i
      · subst hk
        rw [if_pos rfl, if_neg (Nat.lt_irrefl _), if_pos (by omega)]
      · rw [if_neg hk]
        by_cases hk2 : k < i
        · rw [if_pos hk2, if_pos (by omega)]
        · rw [if_neg hk2, if_neg (by omega)])
  refine ⟨T, e, w1, w2, w3, ?_⟩
  intro i j
  rw [Lil.get, w4]
  split
  · rw [rowProd_get add mult (hA.rowD_ok i) hB.rowD_ok]; rfl
  · rw [get_nil, Spec.mxm, osum_none]
    intro k _
    rw [hA.get_none (Or.inl (by omega))]; rfl

theorem mxmATB_spec {C : Lil γ} (add : τ → τ → τ) (mult : α → β → τ) {A : Lil α} {B : Lil β}
    (hA : A.WFr) (hB : B.WFr) (h1 : C.nrows = A.ncols) (h2 : C.ncols = B.ncols)
    (h3 : A.nrows = B.nrows) :
    ∃ T, mxmATB C add mult A B = .ok T ∧ T.WFr ∧ T.nrows = C.nrows ∧ T.ncols = C.ncols ∧
      ∀ i j, T.get i j = Spec.mxm A.nrows add mult (Spec.Mat.tr A.get) B.get i j := by
  have inner : ∀ (k : Nat) (a : Row α), (∀ p ∈ a, p.1 < A.ncols) → Sorted a →
      ∀ (T : Lil τ), T.WFr → T.nrows = C.nrows → T.ncols = C.ncols →
      ∃ T', a.foldlM (fun T p => do
          let t ← T.row p.1
          T.pokeRow p.1 (axpy add mult p.2 t (B.rowD k))) T = Except.ok T' ∧ T'.WFr ∧
        T'.nrows = C.nrows ∧ T'.ncols = C.ncols ∧
        ∀ i, T'.rowD i = match get a i with
          | some x => axpy add mult x (T.rowD i) (B.rowD k)
          | none => T.rowD i := by
    intro k a
    induction a with
    | nil => intro _ _ T hT hr hc; exact ⟨T, rfl, hT, hr, hc, fun k => rfl⟩
    | cons p a ih =>
      obtain ⟨pi, px⟩ := p
      intro hb hs T hT hr hc
      rw [sorted_cons] at hs
      have hp := hb (pi, px) (List.mem_cons_self ..)
      simp only at hp
      rw [List.foldlM_cons]
      simp only [hT.row_ok (show pi < T.nrows by omega), Except.bind_ok']
      obtain ⟨T1, e1, v1, v2, v3, _, v4⟩ := Lil.pokeRow_spec (i := pi)
        (r := axpy add mult px (T.rowD pi) (B.rowD k)) hT (by omega)
        (axpy_ok (hT.rowD_ok pi) (by rw [hc, h2]; exact hB.rowD_ok _))
      rw [e1]
      simp only [Except.bind_ok']
      obtain ⟨T', e, w1, w2, w3, w4⟩ := ih (fun q hq => hb q (List.mem_cons_of_mem _ hq)) hs.2 T1 v1
        (by omega) (by omega)
      refine ⟨T', e, w1, w2, w3, ?_⟩
      intro i
      rw [w4, v4, get_cons]
      by_cases hk : i = pi
      · subst hk
        have : get a i = none := get_none_of_lt fun p hp => hs.1 p hp
        simp [this]
      · rw [if_neg hk, if_neg (Ne.symm hk)]
  obtain ⟨T, e, w1, w2, w3, w4⟩ := forN_inv (n := A.nrows) (s := (Lil.new C.nrows C.ncols : Lil τ))
    (body := fun k T => do
      let a ← A.row k
      let b ← B.row k
      if a.isEmpty || b.isEmpty then .ok T
      else a.foldlM (fun T p => do
        let t ← T.row p.1
        T.pokeRow p.1 (axpy add mult p.2 t b)) T)
    (fun (k : Nat) (T : Lil τ) => T.WFr ∧ T.nrows = C.nrows ∧ T.ncols = C.ncols ∧
      ∀ i j, T.get i j = (List.range k).foldl
        (fun acc k => ostep add acc (both mult (A.get k i) (B.get k j))) none)
    ⟨(Lil.new_wf _ _).toWFr, rfl, rfl, fun i j => by simp [Lil.get]⟩ (by
      rintro k T hk ⟨hT, hr, hc, hget⟩
      rw [hA.row_ok hk, hB.row_ok (by omega)]
      simp only [Except.bind_ok']
      have hsplit : ∀ i j, (List.range (k+1)).foldl
          (fun acc k => ostep add acc (both mult (A.get k i) (B.get k j))) none
            = ostep add (T.get i j) (both mult (A.get k i) (B.get k j)) := by
        intro i j
        rw [List.range_succ, List.foldl_append, ← hget]; rfl
      split
      · next he =>
        refine ⟨T, rfl, hT, hr, hc, ?_⟩
        intro i j
        rw [hsplit]
        simp only [Bool.or_eq_true, List.isEmpty_iff] at he
        have : both mult (A.get k i) (B.get k j) = none := by
          rcases he with he | he
          · have : A.get k i = none := by rw [Lil.get, he]; rfl
            rw [this]; rfl
          · have : B.get k j = none := by rw [Lil.get, he]; rfl
            rw [this]; simp
        rw [this]; simp
      · obtain ⟨T', e, w1, w2, w3, w4⟩ := inner k (A.rowD k) (hA.rowD_ok k).bound
          (hA.rowD_ok k).sorted T hT hr hc
        refine ⟨T', e, w1, w2, w3, ?_⟩
        intro i j
        rw [hsplit, Lil.get, w4]
        cases h : get (A.rowD k) i with
        | none =>
          have : A.get k i = none := h
          rw [this]; simp [Lil.get]
        | some x =>
          have : A.get k i = some x := h
          rw [this]
          simp only
          rw [axpy_get (hT.rowD_ok i).sorted (hB.rowD_ok k).sorted]
          show _ = ostep add (get (T.rowD i) j) (both mult (some x) (get (B.rowD k) j))
          cases get (B.rowD k) j <;> rfl)
  refine ⟨T, e, w1, w2, w3, ?_⟩
  intro i j
  rw [w4, Spec.mxm, osum_map]; rfl

/-- Appending a fresh last element to a row. -/
theorem ok_append_last {n j : Nat} {t : Row τ} {v : τ} (ht : OK n t) (hb : ∀ p ∈ t, p.1 < j)
    (hj : j < n) : OK n (t ++ [(j, v)]) := by
  refine ⟨sorted_append.2 ⟨ht.sorted, sorted_cons.2 ⟨by simp, sorted_nil⟩, ?_⟩, ?_⟩
  · intro p hp q hq
    simp only [List.mem_singleton] at hq
    subst hq; exact hb p hp
  · intro p hp
    rcases List.mem_append.1 hp with hp | hp
    · exact ht.bound p hp
    · simp only [List.mem_singleton] at hp
      subst hp; exact hj

theorem ofFun_succ (n : Nat) (f : Nat → Option τ) :
    ofFun (n+1) f = ofFun n f ++ (match f n with | some v => [(n, v)] | none => []) := by
  unfold ofFun
  rw [List.range_succ, List.filterMap_append]
  cases h : f n <;> simp [h]

theorem ofFun_ok_le {m n : Nat} (h : m ≤ n) (f : Nat → Option τ) : OK n (ofFun m f) :=
  ⟨(ofFun_ok m f).sorted, fun p hp => Nat.lt_of_lt_of_le ((ofFun_ok m f).bound p hp) h⟩

theorem mxmABT_spec {C : Lil γ} (add : τ → τ → τ) (mult : α → β → τ) {A : Lil α} {B : Lil β}
    (hA : A.WF) (hB : B.WF) (h1 : C.nrows = A.nrows) (h2 : C.ncols = B.nrows) :
    ∃ T, mxmABT C add mult A B = .ok T ∧ T.WFr ∧ T.nrows = C.nrows ∧ T.ncols = C.ncols ∧
      ∀ i j, T.get i j = Spec.mxm A.ncols add mult A.get (Spec.Mat.tr B.get) i j := by
  have hd : ∀ i j, dot add mult (A.rowD i) (B.rowD j)
      = Spec.mxm A.ncols add mult A.get (Spec.Mat.tr B.get) i j := fun i j =>
    dot_spec add mult (hA.rowD_ok i) (hB.rowD_ok j).sorted
  unfold mxmABT
  simp only
  split
  · have inner : ∀ i, i < C.nrows → (T : Lil τ) → T.WFr → T.nrows = C.nrows → T.ncols = C.ncols →
        T.rowD i = [] → ∃ T' : Lil τ, (forN B.nrows T fun j T => do
          let b ← B.row j
          if b.isEmpty then .ok T
          else emplaceIf T i j (dot add mult (A.rowD i) b)) = .ok T' ∧ T'.WFr ∧ T'.nrows = C.nrows ∧ T'.ncols = C.ncols ∧
          ∀ k, T'.rowD k = if k = i then
            ofFun B.nrows (fun j => dot add mult (A.rowD i) (B.rowD j)) else T.rowD k := by
      intro i hi T hT hr hc hnil
      refine forN_inv (fun (j : Nat) (T' : Lil τ) => T'.WFr ∧ T'.nrows = C.nrows ∧ T'.ncols = C.ncols ∧
          ∀ k, T'.rowD k = if k = i then
            ofFun j (fun j => dot add mult (A.rowD i) (B.rowD j)) else T.rowD k)
        ⟨hT, hr, hc, fun k => ?_⟩ ?_
      · split
        · next h => subst h; rw [hnil]; rfl
        · rfl
      · rintro j T' hj ⟨hT', hr', hc', hrow⟩
        simp only [hB.row_ok hj, Except.bind_ok']
        have hsame : dot add mult (A.rowD i) (B.rowD j) = none → ∀ k, T'.rowD k = if k = i then
            ofFun (j+1) (fun j => dot add mult (A.rowD i) (B.rowD j)) else T.rowD k := by
          intro hn k
          rw [hrow, ofFun_succ, hn, List.append_nil]
        split
        · next he =>
          refine ⟨T', rfl, hT', hr', hc', hsame ?_⟩
          simp [dot, he]
        · cases hv : dot add mult (A.rowD i) (B.rowD j) with
          | none => exact ⟨T', rfl, hT', hr', hc', hsame hv⟩
          | some v =>
            simp only [emplaceIf, hT'.row_ok (show i < T'.nrows by omega), Except.bind_ok']
            have hri : T'.rowD i = ofFun j (fun j => dot add mult (A.rowD i) (B.rowD j)) := by
              rw [hrow, if_pos rfl]
            obtain ⟨T1, e1, v1, v2, v3, _, v4⟩ := Lil.pokeRow_spec (i := i)
              (r := T'.rowD i ++ [(j, v)]) hT' (by omega) (by
                rw [hri]
                exact ok_append_last (ofFun_ok_le (by omega) _) (ofFun_ok _ _).bound (by omega))
            refine ⟨T1, e1, v1, by omega, by omega, ?_⟩
            intro k
            rw [v4, hri, hrow, ofFun_succ, hv]
            split <;> rfl
    obtain ⟨T, e, w1, w2, w3, w4⟩ := forN_inv (n := A.nrows) (s := (Lil.new C.nrows C.ncols : Lil τ))
      (body := fun i T => do
        let a ← A.row i
        if a.isEmpty then .ok T
        else forN B.nrows T fun j T => do
          let b ← B.row j
          if b.isEmpty then .ok T
          else emplaceIf T i j (dot add mult a b))
      (fun (i : Nat) (T : Lil τ) => T.WFr ∧ T.nrows = C.nrows ∧ T.ncols = C.ncols ∧
        ∀ k, T.rowD k = if k < i then
          ofFun B.nrows (fun j => dot add mult (A.rowD k) (B.rowD j)) else [])
      ⟨(Lil.new_wf _ _).toWFr, rfl, rfl, fun k => by simp⟩ (by
        rintro i T hi ⟨hT, hr, hc, hrow⟩
        simp only [hA.row_ok hi, Except.bind_ok']
        split
        · next he =>
          refine ⟨T, rfl, hT, hr, hc, ?_⟩
          intro k
          rw [hrow]
          by_cases hk : k = i
          · subst hk
            rw [if_neg (Nat.lt_irrefl _), if_pos (by omega)]
            simp [dot, he, ofFun]
          · by_cases hk2 : k < i
            · rw [if_pos hk2, if_pos (by omega)]
            · rw [if_neg hk2, if_neg (by omega)]
        · obtain ⟨T', e, w1, w2, w3, w4⟩ := inner i (by omega) T hT hr hc (by
            rw [hrow, if_neg (Nat.lt_irrefl _)])
          refine ⟨T', e, w1, w2, w3, ?_⟩
          intro k
          rw [w4, hrow]
          by_cases hk : k = i
          · subst hk; rw [if_pos rfl, if_pos (by omega)]
          · rw [if_neg hk]
            by_cases hk2 : k < i
            · rw [if_pos hk2, if_pos (by omega)]
            · rw [if_neg hk2, if_neg (by omega)])
    rw [e]
    refine ⟨_, rfl, (Lil.recomputeNvals_wf w1).toWFr, w2, w3, ?_⟩
    intro i j
    show get (T.rowD i) j = _
    rw [w4, ← hd]
    split
    · rw [get_ofFun]
      split
      · rfl
      · rw [Lil.rowD_of_ge (A := B) (by rw [hB.len]; omega)]
        simp [dot]
    · rw [Lil.rowD_of_ge (A := A) (by rw [hA.len]; omega)]
      simp [dot]
  · next hn =>
    refine ⟨_, rfl, (Lil.new_wf _ _).toWFr, rfl, rfl, ?_⟩
    intro i j
    rw [Lil.get, Lil.rowD_new, get_nil, Spec.mxm, osum_none]
    intro k _
    rcases nvals_or hn with hn | hn
    · rw [hA.get_none_of_nvals hn]; rfl
    · rw [Spec.Mat.tr, hB.get_none_of_nvals hn]; simp

/-- `A'*B'`: the sum of the products `mult b a`, each passed through `via`. -/
theorem mxmATBT_spec {C : Lil γ} (add : τ → τ → τ) (mult : β → α → τ) (via : τ → τ) {A : Lil α}
    {B : Lil β} (hA : A.WFr) (hB : B.WFr) (h1 : C.nrows = A.ncols) (h2 : C.ncols = B.nrows)
    (h3 : A.nrows = B.ncols) :
    ∃ T, mxmATBT C add mult via A B = .ok T ∧ T.WFr ∧ T.nrows = C.nrows ∧ T.ncols = C.ncols ∧
      ∀ i j, T.get i j = (Spec.mxm A.nrows add (fun a b => mult b a) (Spec.Mat.tr A.get)
        (Spec.Mat.tr B.get) i j).map via := by
  have row : ∀ (b : Row β), (∀ p ∈ b, p.1 < B.ncols) → ∀ t : Row τ,
      b.foldlM (fun (tRow : Row τ) p => do
        let a ← A.row p.1
        if a.isEmpty then .ok tRow else .ok (axpy add mult p.2 tRow a)) t
        = Except.ok (rowProd add mult b A.rowD t) := by
    intro b
    induction b with
    | nil => intro _ t; rfl
    | cons p b ih =>
      intro hb t
      have hp := hb p (List.mem_cons_self ..)
      rw [List.foldlM_cons]
      simp only [hA.row_ok (show p.1 < A.nrows by omega), Except.bind_ok']
      have ih' := ih fun q hq => hb q (List.mem_cons_of_mem _ hq)
      cases he : (A.rowD p.1).isEmpty with
      | true =>
        simp only [if_true, Except.bind_ok']
        rw [ih', rowProd, rowProd, List.foldl_cons, List.isEmpty_iff.1 he, axpy]
      | false =>
        simp only [Bool.false_eq_true, if_false, Except.bind_ok']
        rw [ih']; rfl
  have inner : ∀ (i : Nat), i < C.ncols → ∀ (tr : Row τ), OK C.nrows tr →
      ∀ (T : Lil τ), T.WFr → T.nrows = C.nrows → T.ncols = C.ncols →
      (∀ k, (get tr k).isSome → ∀ p ∈ T.rowD k, p.1 < i) →
      ∃ T', tr.foldlM (fun T p => do
          let t ← T.row p.1
          T.pokeRow p.1 (t ++ [(i, via p.2)])) T = Except.ok T' ∧ T'.WFr ∧
        T'.nrows = C.nrows ∧ T'.ncols = C.ncols ∧
        ∀ k, T'.rowD k = match get tr k with
          | some x => T.rowD k ++ [(i, via x)]
          | none => T.rowD k := by
    intro i hi tr
    induction tr with
    | nil => intro _ T hT hr hc _; exact ⟨T, rfl, hT, hr, hc, fun k => rfl⟩
    | cons p a ih =>
      obtain ⟨pi, px⟩ := p
      intro hok T hT hr hc hlow
      have hs := hok.sorted
      rw [sorted_cons] at hs
      have hp := hok.bound (pi, px) (List.mem_cons_self ..)
      simp only at hp
      rw [List.foldlM_cons]
      simp only [hT.row_ok (show pi < T.nrows by omega), Except.bind_ok']
      obtain ⟨T1, e1, v1, v2, v3, _, v4⟩ := Lil.pokeRow_spec (i := pi)
        (r := T.rowD pi ++ [(i, via px)]) hT (by omega)
        (ok_append_last (hT.rowD_ok pi) (hlow pi (by rw [get_cons, if_pos rfl]; rfl)) (by omega))
      rw [e1]
      simp only [Except.bind_ok']
      have hnone : get a pi = none := get_none_of_lt fun p hp => hs.1 p hp
      obtain ⟨T', e, w1, w2, w3, w4⟩ := ih hok.tail T1 v1 (by omega) (by omega) (by
        intro k hk p hp
        rw [v4] at hp
        have hne : k ≠ pi := by rintro rfl; rw [hnone] at hk; simp at hk
        rw [if_neg hne] at hp
        exact hlow k (by rw [get_cons, if_neg (Ne.symm hne)]; exact hk) p hp)
      refine ⟨T', e, w1, w2, w3, ?_⟩
      intro k
      rw [w4, v4, get_cons]
      by_cases hk : k = pi
      · subst hk
        rw [hnone, if_pos rfl, if_pos rfl]
      · rw [if_neg hk, if_neg (Ne.symm hk)]
  have prodOK : ∀ i, OK C.nrows (rowProd add mult (B.rowD i) A.rowD []) := fun i =>
    (rowProd_spec add mult (B.rowD i) (n := C.nrows) (fun k => by rw [h1]; exact hA.rowD_ok k) OK.nil).1
  obtain ⟨T, e, w1, w2, w3, w4⟩ := forN_inv (n := B.nrows) (s := (Lil.new C.nrows C.ncols : Lil τ))
    (body := fun i T => do
      let b ← B.row i
      let tRow ← b.foldlM (fun (tRow : Row τ) p => do
        let a ← A.row p.1
        if a.isEmpty then .ok tRow else .ok (axpy add mult p.2 tRow a)) []
      tRow.foldlM (fun T p => do
        let t ← T.row p.1
        T.pokeRow p.1 (t ++ [(i, via p.2)])) T)
    (fun (i : Nat) (T : Lil τ) => T.WFr ∧ T.nrows = C.nrows ∧ T.ncols = C.ncols ∧
      ∀ k, T.rowD k = ofFun i (fun i =>
        (get (rowProd add mult (B.rowD i) A.rowD []) k).map via))
    ⟨(Lil.new_wf _ _).toWFr, rfl, rfl, fun k => by simp [ofFun]⟩ (by
      rintro i T hi ⟨hT, hr, hc, hrow⟩
      simp only [hB.row_ok hi, Except.bind_ok']
      rw [row (B.rowD i) (hB.rowD_ok i).bound]
      simp only [Except.bind_ok']
      obtain ⟨T', e, w1, w2, w3, w4⟩ := inner i (by omega) _ (prodOK i) T hT hr hc (by
        intro k _ p hp
        rw [hrow] at hp
        exact (ofFun_ok _ _).bound p hp)
      refine ⟨T', e, w1, w2, w3, ?_⟩
      intro k
      rw [w4, hrow, ofFun_succ]
      cases get (rowProd add mult (B.rowD i) A.rowD []) k <;> simp)
  refine ⟨T, e, w1, w2, w3, ?_⟩
  intro i j
  have hval : get (rowProd add mult (B.rowD j) A.rowD []) i
      = Spec.mxm A.nrows add (fun a b => mult b a) (Spec.Mat.tr A.get) (Spec.Mat.tr B.get) i j := by
    rw [rowProd_get add mult (hB.rowD_ok j) hA.rowD_ok, Spec.mxm, h3]
    congr 1
    apply List.map_congr_left
    intro k _
    rw [both_swap]; rfl
  rw [Lil.get, w4, get_ofFun, ← hval]
  split
  · rfl
  · rw [Lil.rowD_of_ge (A := B) (by rw [hB.len]; omega)]
    rfl

/-! ### mxv, vxm -/

theorem dotLoop_rows {n : Nat} (f : Nat → Option τ) (E : Nat → Bool) (hE : ∀ i, E i = true → f i = none) :
    ∃ t : Row τ, (forN n [] fun i t => if E i then Except.ok t
        else .ok (emplaceIf1D t i (f i))) = .ok t ∧ t = ofFun n f := by
  refine forN_inv (fun i t => t = ofFun i f) rfl ?_
  rintro i t hi rfl
  split
  · next h => exact ⟨_, rfl, by rw [ofFun_succ, hE i h, List.append_nil]⟩
  · refine ⟨_, rfl, ?_⟩
    rw [ofFun_succ]
    cases h : f i with
    | none => rw [List.append_nil]; rfl
    | some v => rfl

theorem forN_congr {σ : Type} {n : Nat} {s : σ} {f g : Nat → σ → Except Err σ}
    (h : ∀ i s, i < n → f i s = g i s) : forN n s f = forN n s g := by
  unfold forN
  suffices ∀ l : List Nat, (∀ i ∈ l, i < n) → ∀ s, l.foldlM (fun s i => f i s) s
      = l.foldlM (fun s i => g i s) s from this _ (fun i hi => List.mem_range.1 hi) s
  intro l
  induction l with
  | nil => intro _ s; rfl
  | cons i l ih =>
    intro hl s
    rw [List.foldlM_cons, List.foldlM_cons, h i s (hl i (List.mem_cons_self ..))]
    congr 1
    funext s
    exact ih (fun k hk => hl k (List.mem_cons_of_mem _ hk)) s

theorem mxvA_spec {w : BVec γ} (add : τ → τ → τ) (mult : α → β → τ) {A : Lil α} {u : BVec β}
    (hA : A.WF) (hu : u.WF) (h1 : w.size = A.nrows) (h2 : u.size = A.ncols) :
    ∃ t, mxvA w add mult A u = .ok t ∧ OK w.size t ∧
      ∀ i, get t i = Spec.mxv A.ncols add mult A.get u.get i := by
  unfold mxvA
  split
  · obtain ⟨uc, c1, c2, c3, _⟩ := BVec.getContents_spec hu
    rw [c1]
    simp only [Except.bind_ok']
    have hd : ∀ i, dotRev add mult (A.rowD i) uc = Spec.mxv A.ncols add mult A.get u.get i := by
      intro i
      rw [dotRev_spec add mult (hA.rowD_ok i) (by rw [← h2]; exact c2), Spec.mxv]
      simp only [c3, Lil.get]
    rw [forN_congr (g := fun i t => if (A.rowD i).isEmpty then Except.ok t
        else .ok (emplaceIf1D t i (dotRev add mult (A.rowD i) uc))) (fun i t hi => by rw [hA.row_ok (by omega)]; rfl)]
    obtain ⟨t, e, rfl⟩ := dotLoop_rows (n := w.size) (fun i => dotRev add mult (A.rowD i) uc)
      (fun i => (A.rowD i).isEmpty) (by intro i hi; simp [dotRev, hi])
    refine ⟨_, e, ofFun_ok _ _, ?_⟩
    intro i
    rw [get_ofFun, ← hd]
    split
    · rfl
    · rw [Lil.rowD_of_ge (A := A) (by rw [hA.len]; omega)]; simp [dotRev]
  · next hn =>
    refine ⟨[], rfl, OK.nil, ?_⟩
    intro i
    rw [get_nil, Spec.mxv, osum_none]
    intro k _
    rcases nvals_or hn with hn | hn
    · rw [hA.get_none_of_nvals hn]; rfl
    · rw [hu.get_none_of_nvals hn]; simp

theorem vxmAT_spec {w : BVec γ} (add : τ → τ → τ) (mult : β → α → τ) {A : Lil α} {u : BVec β}
    (hA : A.WF) (hu : u.WF) (h1 : w.size = A.nrows) :
    ∃ t, vxmAT w add mult u A = .ok t ∧ OK w.size t ∧
      ∀ i, get t i = Spec.vxm u.size add mult u.get (Spec.Mat.tr A.get) i := by
  unfold vxmAT
  split
  · obtain ⟨uc, c1, c2, c3, _⟩ := BVec.getContents_spec hu
    rw [c1]
    simp only [Except.bind_ok']
    have hd : ∀ i, dot add mult uc (A.rowD i)
        = Spec.vxm u.size add mult u.get (Spec.Mat.tr A.get) i := by
      intro i
      rw [dot_spec add mult c2 (hA.rowD_ok i).sorted, Spec.vxm]
      simp only [c3]; rfl
    rw [forN_congr (g := fun i t => if (A.rowD i).isEmpty then Except.ok t
        else .ok (emplaceIf1D t i (dot add mult uc (A.rowD i)))) (fun i t hi => by rw [hA.row_ok (by omega)]; rfl)]
    obtain ⟨t, e, rfl⟩ := dotLoop_rows (n := w.size) (fun i => dot add mult uc (A.rowD i))
      (fun i => (A.rowD i).isEmpty) (by intro i hi; simp [dot, hi])
    refine ⟨_, e, ofFun_ok _ _, ?_⟩
    intro i
    rw [get_ofFun, ← hd]
    split
    · rfl
    · rw [Lil.rowD_of_ge (A := A) (by rw [hA.len]; omega)]; simp [dot]
  · next hn =>
    refine ⟨[], rfl, OK.nil, ?_⟩
    intro i
    rw [get_nil, Spec.vxm, osum_none]
    intro k _
    rcases nvals_or hn with hn | hn
    · rw [Spec.Mat.tr, hA.get_none_of_nvals hn]; simp
    · rw [hu.get_none_of_nvals hn]; rfl

theorem vxmA_spec (add : τ → τ → τ) (mult : β → α → τ) {A : Lil α} {u : BVec β}
    (hA : A.WF) (hu : u.WF) (h : u.size = A.nrows) :
    ∃ t, vxmA add mult u A = .ok t ∧ OK A.ncols t ∧
      ∀ j, get t j = Spec.vxm u.size add mult u.get A.get j := by
  unfold vxmA
  split
  · obtain ⟨t, e, h1, h2⟩ := forN_inv (n := u.size) (s := ([] : Row τ))
      (body := fun i t => do
        let h ← u.hasElement i
        if !h then .ok t
        else
          let a ← A.row i
          if a.isEmpty then .ok t
          else
            let x ← u.extractElement i
            .ok (axpy add mult x t a))
      (fun i t => OK A.ncols t ∧ ∀ j, get t j = (List.range i).foldl
        (fun acc k => ostep add acc (both mult (u.get k) (A.get k j))) none)
      ⟨OK.nil, fun j => rfl⟩ (by
        rintro i t hi ⟨ht, hget⟩
        have hsplit : ∀ j, (List.range (i+1)).foldl
            (fun acc k => ostep add acc (both mult (u.get k) (A.get k j))) none
              = ostep add (get t j) (both mult (u.get i) (A.get i j)) := by
          intro j
          rw [List.range_succ, List.foldl_append, ← hget]; rfl
        simp only [BVec.hasElement_spec hu hi, Except.bind_ok', hA.row_ok (show i < A.nrows by omega)]
        cases hx : u.get i with
        | none =>
          refine ⟨t, rfl, ht, fun j => ?_⟩
          rw [hsplit, hx]; simp
        | some x =>
          simp only [Option.isSome_some, Bool.not_true, Bool.false_eq_true, if_false]
          split
          · next he =>
            refine ⟨t, rfl, ht, fun j => ?_⟩
            have : A.get i j = none := by rw [Lil.get, List.isEmpty_iff.1 he]; rfl
            rw [hsplit, this]; simp
          · rw [BVec.extractElement_spec hu hi hx]
            refine ⟨_, rfl, axpy_ok ht (hA.rowD_ok i), fun j => ?_⟩
            rw [hsplit, hx, axpy_get ht.sorted (hA.rowD_ok i).sorted]
            show _ = ostep add (get t j) (both mult (some x) (get (A.rowD i) j))
            cases get (A.rowD i) j <;> rfl)
    refine ⟨t, e, h1, fun j => ?_⟩
    rw [h2, Spec.vxm, osum_map]
  · next hn =>
    refine ⟨[], rfl, OK.nil, ?_⟩
    intro i
    rw [get_nil, Spec.vxm, osum_none]
    intro k _
    rcases nvals_or hn with hn | hn
    · rw [hA.get_none_of_nvals hn]; simp
    · rw [hu.get_none_of_nvals hn]; rfl

end GBTL
