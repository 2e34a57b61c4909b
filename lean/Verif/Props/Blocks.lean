import Verif.Spec.Blocks
import Verif.Props.LawsKron
import Verif.Props.LawsSelect
import Verif.Props.LawsMask
import Verif.Props.Indices
import Verif.Lemmas.BetweennessV
/-
C105: computing by blocks.
-/
namespace GBTL
open Spec (Outp MaskKind Accum osum both either)

variable {α : Type} {m n k : Nat} {add mult : α → α → α} {o1 : Outp}

theorem Lil.new_of (m n : Nat) : (Lil.new m n : Lil α).Of m n := ⟨(Lil.new_wf m n), rfl, rfl⟩

theorem block_eq {s l : Nat} (h : s + l < 2 ^ 64) : block s l = .list (Spec.interval s (s + l)) :=
  IxRange.idx_le (r := ⟨s, s + l⟩) ⟨by show s < _; omega, h⟩ (by show s ≤ s + l; omega)

theorem block_picks {s l N : Nat} (h : s + l < 2 ^ 64) (hN : s + l ≤ N) : (block s l).Picks l N := by
  rw [block_eq h]
  refine ⟨by simp [Spec.interval], fun i hi => ?_⟩
  have := List.mem_range'_1.mp hi
  omega

theorem block_pick {s l i : Nat} (h : s + l < 2 ^ 64) (hi : i < l) : (block s l).pick i = s + i := by
  rw [block_eq h]
  simp [Idx.pick, Spec.interval, List.getD_eq_getElem?_getD, List.getElem?_range', hi]

theorem block_nodup {s l : Nat} (h : s + l < 2 ^ 64) : (block s l).nodup := by
  rw [block_eq h]; exact interval_nodup ..

theorem into_mxm_acc {C : Lil α} {P Q : Lil α} (hC : C.Of m n) (hP : P.Of m k) (hQ : Q.Of k n) :
    ∃ Z, (MCall.mxm (SR.of add mult) id (.plain P) (.plain Q)).run (μ := Unit)
        ⟨C, none, fun _ => true, .some add id id, id, .merge⟩ = .done Z ∧
      Z.Con m n fun i j => oadd add (C.get i j) (osumN add k fun x => both mult (P.get i x) (Q.get x j)) := by
  obtain ⟨X, Z, e1, e2, e3⟩ := C72_accumulate_afterwards (μ := Unit) (.mxm (SR.of add mult) id (.plain P) (.plain Q)) add none
    (fun _ => true) .merge .merge hC hC (by intro k M e; cases e) (by intro k M e; cases e) ⟨hP.wf, hQ.wf⟩
    ⟨hP.nrows.symm, hQ.ncols.symm, hP.ncols.trans hQ.nrows.symm⟩ rfl
  obtain ⟨X', e1', i1⟩ := into_mxm (outp := .merge) (add := add) (mult := mult) hC hP.plain hQ.plain
    fun x => absurd x (by simp [Operand.isTr])
  cases e1.symm.trans e1'
  obtain ⟨Z', e2', i2⟩ := into_eWiseAdd (outp := .merge) (add := add) hC hC.plain i1.toOf.plain
  cases e2.symm.trans e2'
  refine ⟨Z, e3, i2.toOf, fun i j hi hj => ?_⟩
  rw [i2.get i j hi hj]
  show oadd add (C.get i j) (X.get i j) = _
  rw [i1.get i j hi hj]
  rfl

theorem byInner_ok (ha : ∀ x y z, add (add x y) z = add x (add y z)) {A B : Operand α} (hA : A.Of m k) (hB : B.Of k n)
    (hk : k < 2 ^ 64) : ∀ (ls : List Nat) (s : Nat) (C : Lil α), s + ls.sum = k →
    C.Con m n (fun i j => osumN add s fun x => both mult (A.get i x) (B.get x j)) →
    ∃ X, byInner add mult A B s ls C = .ok X ∧ X.Con m n fun i j => osumN add k fun x => both mult (A.get i x) (B.get x j)
  | [], s, C, h, hC => ⟨C, rfl, by rw [← h]; exact hC⟩
  | l :: ls, s, C, h, hC => by
    rw [List.sum_cons] at h
    have hp := block_picks (s := s) (l := l) (N := k) (by omega) (by omega)
    obtain ⟨P, e1, i1⟩ := into_extract' (outp := .merge) (Lil.new_of m l) hA (Idx.all_picks m) hp
    obtain ⟨Q, e2, i2⟩ := into_extract' (outp := .merge) (Lil.new_of l n) hB hp (Idx.all_picks n)
    obtain ⟨Z, e3, i3⟩ := into_mxm_acc (add := add) (mult := mult) hC.toOf i1.toOf i2.toOf
    obtain ⟨X, e4, i4⟩ := byInner_ok ha hA hB hk ls (s + l) Z (by omega) ⟨i3.toOf, fun i j hi hj => by
      rw [i3.get i j hi hj, hC.get i j hi hj, osumN_add ha]
      congr 1
      refine osumN_congr fun x hx => ?_
      rw [i1.get i x hi hx, i2.get x j hx hj, block_pick (by omega) hx]
      rfl⟩
    refine ⟨X, ?_, i4⟩
    rw [byInner, hA.nrows, hB.ncols, e1, e2]
    show (exec ((MCall.mxm (SR.of add mult) id (.plain P) (.plain Q)).run (μ := Unit)
      ⟨C, none, fun _ => true, .some add id id, id, .merge⟩) >>= fun C => byInner add mult A B (s + l) ls C) = _
    rw [e3]
    exact e4

/-- **C105** A product computed by adding up the products of blocks of columns of `A` with blocks
of rows of `B` is the product. -/
theorem C105_product_by_inner_blocks (ha : ∀ x y z, add (add x y) z = add x (add y z)) {A B : Operand α} {D : Lil α}
    (hA : A.Of m k) (hB : B.Of k n) (hD : D.Of m n) (hk : k < 2 ^ 64) {ls : List Nat} (hl : ls.sum = k)
    (hsw : A.isTr → B.isTr → ∀ a b, mult a b = mult b a) :
    ∃ X, byInner add mult A B 0 ls (Lil.new m n) = .ok X ∧ D.into o1 (.mxm (SR.of add mult) id A B) = .done X := by
  obtain ⟨X, e1, i1⟩ := byInner_ok (mult := mult) ha hA hB hk ls 0 (Lil.new m n) (by omega)
    ⟨Lil.new_of m n, fun i j _ _ => by rw [osumN_zero]; exact Lil.get_new ..⟩
  obtain ⟨Y, e2, i2⟩ := into_mxm (outp := o1) (add := add) hD hA hB hsw
  exact ⟨X, e1, i1.unique i2 (fun _ _ _ _ => rfl) ▸ e2⟩

theorem byRows_ok {A B : Operand α} (hA : A.Of m k) (hB : B.Of k n) (hm : m < 2 ^ 64) :
    ∀ (ls : List Nat) (s : Nat) (C : Lil α), s + ls.sum = m → C.Of m n →
    (∀ i j, i < s → j < n → C.get i j = osumN add k fun x => both mult (A.get i x) (B.get x j)) →
    ∃ X, byRows add mult A B s ls C = .ok X ∧ X.Con m n fun i j => osumN add k fun x => both mult (A.get i x) (B.get x j)
  | [], s, C, h, hC, hg => ⟨C, rfl, hC, fun i j hi hj => hg i j (by simp at h; omega) hj⟩
  | l :: ls, s, C, h, hC, hg => by
    rw [List.sum_cons] at h
    have hp := block_picks (s := s) (l := l) (N := m) (by omega) (by omega)
    obtain ⟨P, e1, i1⟩ := into_extract' (outp := .merge) (Lil.new_of l k) hA hp (Idx.all_picks k)
    obtain ⟨Q, e2, i2⟩ := into_mxm (outp := .merge) (add := add) (mult := mult) (Lil.new_of l n) i1.toOf.plain hB
      fun x => absurd x (by simp [Operand.isTr])
    obtain ⟨Z, e3, i3, g1, g2⟩ := into_assign (outp := .merge) hC i2.toOf.plain hp (Idx.all_picks n) (block_nodup (by omega)) trivial
    obtain ⟨X, e4, i4⟩ := byRows_ok hA hB hm ls (s + l) Z (by omega) i3 (fun i j hi hj => by
      by_cases h' : i < s
      · rw [g2 i j (by omega) hj fun a b ha _ hab => by rw [block_pick (by omega) ha] at hab; omega]
        exact hg i j h' hj
      · have := g1 (i - s) j (by omega) hj
        rw [block_pick (by omega) (by omega), show s + (i - s) = i by omega] at this
        refine this.trans ((i2.get _ j (by omega) hj).trans (osumN_congr fun x hx => ?_))
        show both mult (P.get _ x) _ = _
        rw [i1.get _ x (by omega) hx, block_pick (by omega) (by omega), show s + (i - s) = i by omega]
        rfl)
    refine ⟨X, ?_, i4⟩
    rw [byRows, hA.ncols, hB.ncols, e1]
    show (exec ((Lil.new l n : Lil α).into .merge (.mxm (SR.of add mult) id (.plain P) B)) >>= fun Q =>
      exec (C.into .merge (.assign id (.plain Q) (block s l) .all)) >>= fun C => byRows add mult A B (s + l) ls C) = _
    rw [e2]
    show (exec (C.into .merge (.assign id (.plain Q) (block s l) .all)) >>= fun C => byRows add mult A B (s + l) ls C) = _
    rw [e3]
    exact e4

/-- **C105** A product computed by blocks of rows is the product, whatever the output contained. -/
theorem C105_product_by_rows {A B : Operand α} {C D : Lil α} (hA : A.Of m k) (hB : B.Of k n) (hC : C.Of m n) (hD : D.Of m n)
    (hm : m < 2 ^ 64) {ls : List Nat} (hl : ls.sum = m) (hsw : A.isTr → B.isTr → ∀ a b, mult a b = mult b a) :
    ∃ X, byRows add mult A B 0 ls C = .ok X ∧ D.into o1 (.mxm (SR.of add mult) id A B) = .done X := by
  obtain ⟨X, e1, i1⟩ := byRows_ok (add := add) (mult := mult) hA hB hm ls 0 C (by omega) hC (fun _ _ h => absurd h (by omega))
  obtain ⟨Y, e2, i2⟩ := into_mxm (outp := o1) (add := add) hD hA hB hsw
  exact ⟨X, e1, i1.unique i2 (fun _ _ _ _ => rfl) ▸ e2⟩

theorem byColumns_ok {A B : Operand α} (hA : A.Of m k) (hB : B.Of k n) (hn : n < 2 ^ 64) :
    ∀ (ls : List Nat) (s : Nat) (C : Lil α), s + ls.sum = n → C.Of m n →
    (∀ i j, i < m → j < s → C.get i j = osumN add k fun x => both mult (A.get i x) (B.get x j)) →
    ∃ X, byColumns add mult A B s ls C = .ok X ∧ X.Con m n fun i j => osumN add k fun x => both mult (A.get i x) (B.get x j)
  | [], s, C, h, hC, hg => ⟨C, rfl, hC, fun i j hi hj => hg i j hi (by simp at h; omega)⟩
  | l :: ls, s, C, h, hC, hg => by
    rw [List.sum_cons] at h
    have hp := block_picks (s := s) (l := l) (N := n) (by omega) (by omega)
    obtain ⟨P, e1, i1⟩ := into_extract' (outp := .merge) (Lil.new_of k l) hB (Idx.all_picks k) hp
    obtain ⟨Q, e2, i2⟩ := into_mxm (outp := .merge) (add := add) (mult := mult) (Lil.new_of m l) hA i1.toOf.plain
      fun _ x => absurd x (by simp [Operand.isTr])
    obtain ⟨Z, e3, i3, g1, g2⟩ := into_assign (outp := .merge) hC i2.toOf.plain (Idx.all_picks m) hp trivial (block_nodup (by omega))
    obtain ⟨X, e4, i4⟩ := byColumns_ok hA hB hn ls (s + l) Z (by omega) i3 (fun i j hi hj => by
      by_cases h' : j < s
      · rw [g2 i j hi (by omega) fun a b _ hb hab => by rw [block_pick (by omega) hb] at hab; omega]
        exact hg i j hi h'
      · have := g1 i (j - s) hi (by omega)
        rw [block_pick (by omega) (by omega), show s + (j - s) = j by omega] at this
        refine this.trans ((i2.get i _ hi (by omega)).trans (osumN_congr fun x hx => ?_))
        show both mult _ (P.get x _) = _
        rw [i1.get x _ hx (by omega), block_pick (by omega) (by omega), show s + (j - s) = j by omega]
        rfl)
    refine ⟨X, ?_, i4⟩
    rw [byColumns, hA.nrows, hB.nrows, e1]
    show (exec ((Lil.new m l : Lil α).into .merge (.mxm (SR.of add mult) id A (.plain P))) >>= fun Q =>
      exec (C.into .merge (.assign id (.plain Q) .all (block s l))) >>= fun C => byColumns add mult A B (s + l) ls C) = _
    rw [e2]
    show (exec (C.into .merge (.assign id (.plain Q) .all (block s l))) >>= fun C => byColumns add mult A B (s + l) ls C) = _
    rw [e3]
    exact e4

/-- **C105** The same for blocks of columns. -/
theorem C105_product_by_columns {A B : Operand α} {C D : Lil α} (hA : A.Of m k) (hB : B.Of k n) (hC : C.Of m n) (hD : D.Of m n)
    (hn : n < 2 ^ 64) {ls : List Nat} (hl : ls.sum = n) (hsw : A.isTr → B.isTr → ∀ a b, mult a b = mult b a) :
    ∃ X, byColumns add mult A B 0 ls C = .ok X ∧ D.into o1 (.mxm (SR.of add mult) id A B) = .done X := by
  obtain ⟨X, e1, i1⟩ := byColumns_ok (add := add) (mult := mult) hA hB hn ls 0 C (by omega) hC (fun _ _ _ h => absurd h (by omega))
  obtain ⟨Y, e2, i2⟩ := into_mxm (outp := o1) (add := add) hD hA hB hsw
  exact ⟨X, e1, i1.unique i2 (fun _ _ _ _ => rfl) ▸ e2⟩

/-! ### Vectors -/

theorem byRowsV_ok [Inhabited α] {A : Operand α} {u : BVec α} (hA : A.Of m k) (hu : u.Of k) (hm : m < 2 ^ 64) :
    ∀ (ls : List Nat) (s : Nat) (w : BVec α), (∀ l ∈ ls, 0 < l) → s + ls.sum = m → w.Of m →
    (∀ i, i < s → w.get i = osumN add k fun x => both mult (A.get i x) (u.get x)) →
    ∃ x, byRowsV add mult A u s ls w = .ok x ∧ x.Con m fun i => osumN add k fun x => both mult (A.get i x) (u.get x)
  | [], s, w, _, h, hw, hg => ⟨w, rfl, hw, fun i hi => hg i (by simp at h; omega)⟩
  | l :: ls, s, w, hl, h, hw, hg => by
    rw [List.sum_cons] at h
    have hp := block_picks (s := s) (l := l) (N := m) (by omega) (by omega)
    obtain ⟨P, e1, i1⟩ := into_extract' (outp := .merge) (Lil.new_of l k) hA hp (Idx.all_picks k)
    obtain ⟨q0, e0, z0, -⟩ := newV (τ := α) (hl l List.mem_cons_self)
    obtain ⟨q, e2, i2⟩ := into_mxv (outp := .merge) (add := add) (mult := mult) (w := q0) ⟨z0.wf, z0.sz⟩ i1.toOf.plain hu
      fun x => absurd x (by simp [Operand.isTr])
    obtain ⟨z, e3, i3, g1, g2⟩ := into_assignV (outp := .merge) hw i2.toOf hp (block_nodup (by omega))
    obtain ⟨x, e4, i4⟩ := byRowsV_ok hA hu hm ls (s + l) z (fun l h => hl l (List.mem_cons_of_mem _ h)) (by omega) i3 (fun i hi => by
      by_cases h' : i < s
      · rw [g2 i (by omega) fun a ha hab => by rw [block_pick (by omega) ha] at hab; omega]
        exact hg i h'
      · have := g1 (i - s) (by omega)
        rw [block_pick (by omega) (by omega), show s + (i - s) = i by omega] at this
        refine this.trans ((i2.get _ (by omega)).trans (osumN_congr fun x hx => ?_))
        show both mult (P.get _ x) _ = _
        rw [i1.get _ x (by omega) hx, block_pick (by omega) (by omega), show s + (i - s) = i by omega]
        rfl)
    refine ⟨x, ?_, i4⟩
    rw [byRowsV, hA.ncols, e1, e0]
    show (exec (q0.into .merge (.mxv (SR.of add mult) (.plain P) u)) >>= fun q =>
      exec (w.into .merge (.assign id q (block s l))) >>= fun w => byRowsV add mult A u (s + l) ls w) = _
    rw [e2]
    show (exec (w.into .merge (.assign id q (block s l))) >>= fun w => byRowsV add mult A u (s + l) ls w) = _
    rw [e3]
    exact e4

/-- **C105** A matrix times a vector, computed by blocks of rows, whatever the output contained. -/
theorem C105_mxv_by_rows [Inhabited α] {A : Operand α} {u w d : BVec α} (hA : A.Of m k) (hu : u.Of k) (hw : w.Of m) (hd : d.Of m)
    (hm : m < 2 ^ 64) {ls : List Nat} (h0 : ∀ l ∈ ls, 0 < l) (hl : ls.sum = m) (hsw : A.isTr → ∀ a b, mult a b = mult b a) :
    ∃ x y, byRowsV add mult A u 0 ls w = .ok x ∧ d.into o1 (.mxv (SR.of add mult) A u) = .done y ∧ x.Same y := by
  obtain ⟨x, e1, i1⟩ := byRowsV_ok (add := add) (mult := mult) hA hu hm ls 0 w h0 (by omega) hw (fun _ h => absurd h (by omega))
  obtain ⟨y, e2, i2⟩ := into_mxv (outp := o1) (add := add) hd hA hu hsw
  exact ⟨x, y, e1, e2, i1.same i2 fun _ _ => rfl⟩

theorem vals_add (s l : Nat) (v : Spec.Vec α) :
    Spec.Vec.vals (s + l) v = Spec.Vec.vals s v ++ Spec.Vec.vals l fun i => v (s + i) := by
  simp only [Spec.Vec.vals, List.range_add, List.filterMap_append, List.filterMap_map]
  rfl

theorem vals_congr {l : Nat} {v w : Spec.Vec α} (h : ∀ i, i < l → v i = w i) : Spec.Vec.vals l v = Spec.Vec.vals l w := by
  have : ∀ L : List Nat, (∀ i ∈ L, i < l) → L.filterMap v = L.filterMap w := by
    intro L hL
    induction L with
    | nil => rfl
    | cons i L ih => rw [List.filterMap_cons, List.filterMap_cons, h i (hL i List.mem_cons_self), ih fun j hj => hL j (List.mem_cons_of_mem _ hj)]
  exact this _ fun i hi => List.mem_range.mp hi

theorem reduceVS_acc {e val : α} {u : BVec α} (he : ∀ x, add e x = x) (hu : u.WF) :
    reduceVS id (.some add id id) (.of add id) e val u = .done (add val ((Spec.Vec.vals u.size u.get).foldl add e)) := by
  obtain ⟨v, e1, e2⟩ := C17_reduce_vector (castZ := id) (acc := .some add id id) (c := id) (val := val) he hu
  rw [e1]
  simp only [List.map_id] at e2
  cases e2
  rfl

theorem reduceBy_ok [Inhabited α] (ha : ∀ x y z, add (add x y) z = add x (add y z)) {e : α} (he : ∀ x, add e x = x)
    (he' : ∀ x, add x e = x) {u : BVec α} (hu : u.Of n) (hn : n < 2 ^ 64) :
    ∀ (ls : List Nat) (s : Nat) (val : α), (∀ l ∈ ls, 0 < l) → s + ls.sum = n →
    reduceBy add e u s ls val = .ok (add val ((Spec.Vec.vals ls.sum fun i => u.get (s + i)).foldl add e))
  | [], s, val, _, _ => by
    show Except.ok val = Except.ok (add val e)
    rw [he']
  | l :: ls, s, val, hl, h => by
    rw [List.sum_cons] at h
    have hp := block_picks (s := s) (l := l) (N := n) (by omega) (by omega)
    obtain ⟨p0, e0, z0, -⟩ := newV (τ := α) (hl l List.mem_cons_self)
    obtain ⟨p, e1, i1⟩ := into_extractV' (outp := .merge) (w := p0) ⟨z0.wf, z0.sz⟩ hu hp
    rw [reduceBy, e0]
    show (exec (p0.into .merge (.extract u (block s l))) >>= fun p =>
      exec (reduceVS id (.some add id id) (.of add id) e val p) >>= fun val => reduceBy add e u (s + l) ls val) = _
    rw [e1]
    show (exec (reduceVS id (.some add id id) (.of add id) e val p) >>= fun val => reduceBy add e u (s + l) ls val) = _
    rw [reduceVS_acc he i1.wf, i1.size]
    show reduceBy add e u (s + l) ls _ = _
    rw [reduceBy_ok ha he he' hu hn ls (s + l) _ (fun l h => hl l (List.mem_cons_of_mem _ h)) (by omega), List.sum_cons, vals_add,
      List.foldl_append, ha, vals_congr (v := p.get) (w := fun i => u.get (s + i)) fun i hi => by rw [i1.get i hi, block_pick (by omega) hi]]
    simp only [Nat.add_assoc]
    rw [← foldl_assoc ha, he']

/-- **C105** A vector reduced slice by slice into one scalar gives what reducing all of it gives. -/
theorem C105_reduce_by_slices [Inhabited α] (ha : ∀ x y z, add (add x y) z = add x (add y z)) {e : α} (he : ∀ x, add e x = x)
    (he' : ∀ x, add x e = x) {u : BVec α} (hu : u.Of n) (hn : n < 2 ^ 64) {ls : List Nat} (h0 : ∀ l ∈ ls, 0 < l) (hl : ls.sum = n)
    (val : α) : ∃ r, reduceBy add e u 0 ls val = .ok r ∧ reduceVS id (.some add id id) (.of add id) e val u = .done r := by
  refine ⟨_, reduceBy_ok ha he he' hu hn ls 0 val h0 (by omega), ?_⟩
  rw [reduceVS_acc he hu.wf, hu.size, hl]
  simp only [Nat.zero_add]

/-! ### Concrete cases -/

/-- The hypotheses hold of a product of matrices of 3 columns and 3 rows, cut in 2 and 1, and of a vector. -/
example : let A : Lil Int := ⟨3, 3, 4, [[(0, 2), (2, 3)], [(1, 5)], [(2, 7)]]⟩
    let B : Lil Int := ⟨3, 3, 4, [[(0, 1)], [(0, 4), (2, 6)], [(0, 8)]]⟩
    let u : BVec Int := ⟨3, 2, [4, 0, 9], [true, false, true]⟩
    A.Of 3 3 ∧ B.Of 3 3 ∧ u.Of 3 ∧
    byInner (· + ·) (· * ·) (.plain A) (.plain B) 0 [2, 1] (Lil.new 3 3) = .ok ⟨3, 3, 4, [[(0, 26)], [(0, 20), (2, 30)], [(0, 56)]]⟩ ∧
    byRows (· + ·) (· * ·) (.plain A) (.plain B) 0 [2, 1] A = .ok ⟨3, 3, 4, [[(0, 26)], [(0, 20), (2, 30)], [(0, 56)]]⟩ ∧
    byColumns (· + ·) (· * ·) (.plain A) (.plain B) 0 [2, 1] A = .ok ⟨3, 3, 4, [[(0, 26)], [(0, 20), (2, 30)], [(0, 56)]]⟩ ∧
    byRowsV (· + ·) (· * ·) (.plain A) u 0 [2, 1] u = .ok ⟨3, 2, [35, 0, 63], [true, false, true]⟩ ∧
    reduceBy (· + ·) 0 u 0 [2, 1] 100 = .ok 113 :=
  ⟨⟨Lil.wf_chk (by decide +kernel), rfl, rfl⟩, ⟨Lil.wf_chk (by decide +kernel), rfl, rfl⟩, ⟨⟨rfl, rfl, by decide +kernel⟩, rfl⟩,
    by decide +kernel, by decide +kernel, by decide +kernel, by decide +kernel, by decide +kernel⟩

end GBTL
