import Verif.Lemmas.Ewise
import Verif.Spec.Ops
namespace GBTL
open Spec (Outp MaskKind Accum both either osum ofold)
open Row

variable {α β γ δ τ ζ μ ν : Type}

/-- One step of `Spec.ofold`. -/
def fstep (first : α → τ) (next : τ → α → τ) (acc : Option τ) (x : Option α) : Option τ :=
  match acc, x with
  | some t, some a => some (next t a)
  | none, some a => some (first a)
  | acc, none => acc

theorem ofold_eq (first : α → τ) (next : τ → α → τ) (l : List (Option α)) :
    ofold first next l = l.foldl (fstep first next) none := by
  unfold ofold
  congr 1

@[simp] theorem fstep_none (first : α → τ) (next : τ → α → τ) (acc : Option τ) :
    fstep first next acc none = acc := by cases acc <;> rfl

theorem foldl_fstep_some (first : α → τ) (next : τ → α → τ) (r : Row α) (t : τ) :
    r.foldl (fun acc p => fstep first next acc (some p.2)) (some t)
      = some (r.foldl (fun t p => next t p.2) t) := by
  induction r generalizing t with
  | nil => rfl
  | cons p r ih => exact ih _

theorem reduction_eq {op : α → α → τ} {op' : τ → α → τ} {cast1 : α → τ}
    (hop : ∀ x y, op x y = op' (cast1 x) y) (r : Row α) :
    reduction op op' cast1 id r = r.foldl (fun acc p => fstep cast1 op' acc (some p.2)) none := by
  match r with
  | [] => rfl
  | [(_, x)] => rfl
  | (_, x) :: (_, y) :: r =>
    simp only [reduction, id, List.foldl_cons, fstep, hop]
    exact (foldl_fstep_some cast1 op' r _).symm

theorem reduction_spec {n : Nat} {op : α → α → τ} {op' : τ → α → τ} {cast1 : α → τ}
    (hop : ∀ x y, op x y = op' (cast1 x) y) {r : Row α} (hr : OK n r) :
    reduction op op' cast1 id r = ofold cast1 op' ((List.range n).map (Row.get r)) := by
  rw [reduction_eq hop, Row.foldl_eq_range hr (fun acc _ x => fstep cast1 op' acc (some x)),
    ofold_eq, List.foldl_map]
  congr 1
  funext acc k
  cases Row.get r k <;> simp

theorem ofold_none {σ : Type} (first : α → τ) (next : τ → α → τ) (l : List σ) (f : σ → Option α)
    (h : ∀ x ∈ l, f x = none) : ofold first next (l.map f) = none := by
  rw [ofold_eq, List.foldl_map]
  induction l with
  | nil => rfl
  | cons x l ih =>
    rw [List.foldl_cons, h x (List.mem_cons_self ..)]
    exact ih fun y hy => h y (List.mem_cons_of_mem _ hy)

theorem reduceRows_spec {op : α → α → τ} {op' : τ → α → τ} {cast1 : α → τ}
    (hop : ∀ x y, op x y = op' (cast1 x) y) {A : Lil α} (hA : A.WF) :
    ∃ t, reduceRows op op' cast1 A = .ok t ∧ OK A.nrows t ∧
      ∀ i, Row.get t i = ofold cast1 op' ((List.range A.ncols).map (A.get i)) := by
  unfold reduceRows
  have hd : ∀ i, reduction op op' cast1 id (A.rowD i)
      = ofold cast1 op' ((List.range A.ncols).map (A.get i)) := fun i =>
    reduction_spec hop (hA.rowD_ok i)
  split
  · rw [forN_congr (g := fun i t => if (fun _ => false) i then Except.ok t
        else .ok (emplaceIf1D t i (reduction op op' cast1 id (A.rowD i))))
        (fun i t hi => by rw [hA.row_ok (by omega)]; rfl)]
    obtain ⟨t, e, rfl⟩ := dotLoop_rows (n := A.nrows)
      (fun i => reduction op op' cast1 id (A.rowD i)) (fun _ => false) (by simp)
    refine ⟨_, e, ofFun_ok _ _, fun i => ?_⟩
    rw [get_ofFun, ← hd]
    split
    · rfl
    · rw [Lil.rowD_of_ge (A := A) (by rw [hA.len]; omega)]; rfl
  · next hn =>
    refine ⟨[], rfl, OK.nil, fun i => ?_⟩
    rw [get_nil, ofold_none]
    intro k _
    exact hA.get_none_of_nvals (by omega) i k

theorem reduceCols_spec (op' : τ → α → τ) (cast1 : α → τ) {A : Lil α} (hA : A.WF) :
    ∃ t, reduceCols op' cast1 A = .ok t ∧ OK A.ncols t ∧
      ∀ j, Row.get t j = ofold cast1 op' ((List.range A.nrows).map fun i => A.get i j) := by
  unfold reduceCols
  split
  · obtain ⟨t, e, h1, h2⟩ := forN_inv (n := A.nrows) (s := ([] : Row τ))
      (body := fun i t => do
        let a ← A.row i
        if !a.isEmpty then .ok (xpey op' cast1 t a) else .ok t)
      (fun i t => OK A.ncols t ∧ ∀ j, Row.get t j = (List.range i).foldl
        (fun acc k => fstep cast1 op' acc (A.get k j)) none)
      ⟨OK.nil, fun j => rfl⟩ (by
        rintro i t hi ⟨ht, hget⟩
        have hsplit : ∀ j, (List.range (i+1)).foldl
            (fun acc k => fstep cast1 op' acc (A.get k j)) none
              = fstep cast1 op' (Row.get t j) (A.get i j) := by
          intro j
          rw [List.range_succ, List.foldl_append, ← hget]; rfl
        simp only [hA.row_ok hi, Except.bind_ok']
        cases he : (A.rowD i).isEmpty with
        | true =>
          refine ⟨t, rfl, ht, fun j => ?_⟩
          have : A.get i j = none := by rw [Lil.get, List.isEmpty_iff.1 he]; rfl
          rw [hsplit, this]; simp
        | false =>
          refine ⟨_, rfl, xpey_ok ht (hA.rowD_ok i), fun j => ?_⟩
          rw [hsplit, (xpey_spec _ (hA.rowD_ok i).sorted _ ht.sorted).2]
          show _ = fstep cast1 op' _ (Row.get (A.rowD i) j)
          cases Row.get t j <;> cases Row.get (A.rowD i) j <;> rfl)
    refine ⟨t, e, h1, fun j => ?_⟩
    rw [h2, ofold_eq, List.foldl_map]
  · next hn =>
    refine ⟨[], rfl, OK.nil, fun j => ?_⟩
    rw [get_nil, ofold_none]
    intro k _
    exact hA.get_none_of_nvals (by omega) k j

/-! ### scalars -/

theorem reduceVec_spec {op : α → α → τ} {op' : τ → α → τ} {cast1 : α → τ}
    (hop : ∀ x y, op x y = op' (cast1 x) y) (e : τ) {u : BVec α} (hu : u.WF) :
    reduceVec op op' cast1 e u
      = .ok ((ofold cast1 op' ((List.range u.size).map u.get)).getD e) := by
  unfold reduceVec
  split
  · obtain ⟨c, c1, c2, c3, _⟩ := BVec.getContents_spec hu
    rw [c1]
    simp only [Except.bind_ok']
    rw [reduction_spec hop c2]
    congr 4
    funext i
    exact c3 i
  · next hn =>
    rw [ofold_none]
    · rfl
    · intro k _
      exact hu.get_none_of_nvals (by omega) k

/-- A lawful monoid. -/
theorem foldl_assoc {f : τ → τ → τ} (ha : ∀ x y z, f (f x y) z = f x (f y z)) (l : List τ) (a b : τ) :
    l.foldl f (f a b) = f a (l.foldl f b) := by
  induction l generalizing b with
  | nil => rfl
  | cons x l ih => rw [List.foldl_cons, List.foldl_cons, ha, ih]

theorem ofold_monoid {σ : Type} {f : τ → τ → τ} {e : τ} (hl : ∀ x, f e x = x) (c : α → τ) (l : List σ)
    (g : σ → Option α) :
    (ofold c (fun t x => f t (c x)) (l.map g)).getD e = ((l.filterMap g).map c).foldl f e := by
  rw [ofold_eq, List.foldl_map, List.foldl_map, List.foldl_filterMap]
  suffices ∀ (acc : Option τ) (t : τ), acc.getD e = t →
      (l.foldl (fun acc k => fstep c (fun t x => f t (c x)) acc (g k)) acc).getD e
        = l.foldl (fun t k => match g k with | some b => f t (c b) | none => t) t by
    exact this none e rfl
  induction l with
  | nil => intro acc t h; exact h
  | cons x l ih =>
    intro acc t h
    rw [List.foldl_cons, List.foldl_cons]
    apply ih
    cases g x with
    | none => simpa using h
    | some b =>
      cases acc with
      | none => simp only [Option.getD] at h; subst h; simp [fstep, hl]
      | some a => simp only [Option.getD] at h; subst h; simp [fstep]

theorem reduceMat_spec {f : τ → τ → τ} {e : τ} (ha : ∀ x y z, f (f x y) z = f x (f y z))
    (hl : ∀ x, f e x = x) (hr : ∀ x, f x e = x) (c : α → τ) {A : Lil α} (hA : A.WF) :
    reduceMat (fun x y => f (c x) (c y)) (fun t y => f t (c y)) f c e A
      = .ok (((Spec.Mat.vals A.nrows A.ncols A.get).map c).foldl f e) := by
  unfold reduceMat
  split
  · obtain ⟨t, e1, h⟩ := forN_inv (n := A.nrows) (s := e)
      (body := fun i t => do
        let a ← A.row i
        if !a.isEmpty then .ok (reduceStep f t
          (reduction (fun x y => f (c x) (c y)) (fun t y => f t (c y)) c id a)) else .ok t)
      (fun i t => t = ((Spec.Mat.vals i A.ncols A.get).map c).foldl f e) rfl (by
        rintro i t hi rfl
        simp only [hA.row_ok hi, Except.bind_ok']
        have hrow : ∀ t, t = f t (((Spec.Vec.vals A.ncols (A.get i)).map c).foldl f e) →
            True := fun _ _ => trivial
        have key : ((Spec.Mat.vals (i+1) A.ncols A.get).map c).foldl f e
            = f (((Spec.Mat.vals i A.ncols A.get).map c).foldl f e)
              (((Spec.Vec.vals A.ncols (A.get i)).map c).foldl f e) := by
          unfold Spec.Mat.vals
          rw [List.range_succ, List.flatMap_append, List.map_append, List.foldl_append,
            ← foldl_assoc ha, hr]
          simp
        rw [key]
        have hred := reduction_spec (op := fun x y => f (c x) (c y)) (op' := fun t y => f t (c y))
          (cast1 := c) (fun _ _ => rfl) (hA.rowD_ok i)
        have hm := ofold_monoid hl c (List.range A.ncols) (A.get i)
        have hget : (fun k => Row.get (A.rowD i) k) = A.get i := rfl
        rw [show Row.get (A.rowD i) = A.get i from rfl] at hred
        rw [← hred] at hm
        unfold Spec.Vec.vals
        rw [← hm]
        cases he : (A.rowD i).isEmpty with
        | true =>
          refine ⟨_, rfl, ?_⟩
          rw [List.isEmpty_iff.1 he]
          simp [reduction, hr]
        | false =>
          refine ⟨_, rfl, ?_⟩
          cases reduction (fun x y => f (c x) (c y)) (fun t y => f t (c y)) c id (A.rowD i) with
          | none => simp [reduceStep, hr]
          | some v => simp [reduceStep])
    rw [e1, h]
  · next hn =>
    have : Spec.Mat.vals A.nrows A.ncols A.get = [] := by
      unfold Spec.Mat.vals
      rw [List.flatMap_eq_nil_iff]
      intro i _
      unfold Spec.Vec.vals
      rw [List.filterMap_eq_nil_iff]
      intro j _
      exact hA.get_none_of_nvals (by omega) i j
    rw [this]; rfl

end GBTL
