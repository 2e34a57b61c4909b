import Verif.Spec.Powers
import Verif.Lemmas.Laws
import Verif.Lemmas.Algo
import Verif.Props.Laws
import Verif.Lemmas.BetweennessCalls
/-
C109: powers of a matrix sum over walks.
-/
namespace GBTL
open Spec (Outp both osum along stops IsWalk)

variable {α : Type} {add mult : α → α → α} {n k : Nat} {A : Lil α} {D : Nat → Lil α} {outp : Outp}

theorem stops_mem {l : List Nat} : l ∈ stops n k ↔ l.length = k ∧ ∀ x ∈ l, x < n := by
  induction k generalizing l with
  | zero => simp only [stops, List.mem_singleton]; constructor <;> (intro h; first | (subst h; simp) | exact List.length_eq_zero_iff.1 h.1)
  | succ k ih =>
    simp only [stops, List.mem_flatMap, List.mem_range, List.mem_map]
    constructor
    · rintro ⟨x, hx, l', hl, rfl⟩
      obtain ⟨h1, h2⟩ := ih.1 hl
      refine ⟨by simp [h1], fun y hy => ?_⟩
      rcases List.mem_append.1 hy with h | h
      · exact h2 y h
      · rw [List.mem_singleton.1 h]; exact hx
    · rintro ⟨h1, h2⟩
      rcases List.eq_nil_or_concat l with rfl | ⟨l', x, rfl⟩
      · exact absurd h1 (by simp)
      · simp only [List.concat_eq_append] at *
        exact ⟨x, h2 x (by simp), l', ih.2 ⟨by simpa using h1, fun y hy => h2 y (by simp [hy])⟩, rfl⟩

theorem along_snoc (hm : ∀ x y z, mult (mult x y) z = mult x (mult y z)) (M : Spec.Mat α) (i : Nat) (l : List Nat) (x j : Nat) :
    along mult M i (l ++ [x]) j = both mult (along mult M i l x) (M x j) := by
  induction l generalizing i with
  | nil => rfl
  | cons y l ih =>
    show both mult (M i y) (along mult M y (l ++ [x]) j) = both mult (both mult (M i y) (along mult M y l x)) (M x j)
    rw [ih, both_assoc hm]

theorem osum_snoc (l : List (Option α)) (x : Option α) : osum add (l ++ [x]) = oadd add (osum add l) x := by
  rw [osum_append]
  cases osum add l <;> cases x <;> rfl

theorem list_snoc_induct {β : Type} {P : List β → Prop} (h0 : P []) (h1 : ∀ l x, P l → P (l ++ [x])) (l : List β) : P l := by
  suffices h : ∀ n, ∀ l : List β, l.length = n → P l from h _ l rfl
  intro n
  induction n with
  | zero => intro l h; rw [List.length_eq_zero_iff.1 h]; exact h0
  | succ n ih =>
    intro l h
    rcases List.eq_nil_or_concat l with rfl | ⟨l', x, rfl⟩
    · exact h0
    · rw [List.concat_eq_append] at *
      exact h1 l' x (ih l' (by simpa using h))

theorem osum_concat (ha : ∀ x y z, add (add x y) z = add x (add y z)) (l l' : List (Option α)) :
    osum add (l ++ l') = oadd add (osum add l) (osum add l') := by
  induction l' using list_snoc_induct with
  | h0 => rw [List.append_nil]; exact (oadd_none _).symm
  | h1 l' x ih => rw [← List.append_assoc, osum_snoc, osum_snoc, ih, oadd_assoc ha]

theorem osum_flatMap (ha : ∀ x y z, add (add x y) z = add x (add y z)) (n : Nat) (f : Nat → List (Option α)) :
    osum add ((List.range n).flatMap f) = osumN add n fun x => osum add (f x) := by
  induction n with
  | zero => rfl
  | succ n ih =>
    rw [List.range_succ, List.flatMap_append, osum_concat ha, ih, osumN_succ]
    simp

theorem osum_mult {β : Type} (hr : ∀ x y z, mult (add x y) z = add (mult x z) (mult y z)) (l : List β) (f : β → Option α) (y : Option α) :
    both mult (osum add (l.map f)) y = osum add (l.map fun a => both mult (f a) y) := by
  induction l using list_snoc_induct with
  | h0 => cases y <;> rfl
  | h1 l x ih =>
    rw [List.map_append, List.map_append, List.map_cons, List.map_nil, List.map_cons, List.map_nil, osum_snoc, osum_snoc, ← ih,
      oadd_both hr]

/-- **C109** The element at `(i, j)` after `k` multiplications by `A` is the sum, over all choices of `k` vertices, of the products along
the walk from `i` over these vertices to `j`. -/
theorem C109_power_sums_walks (hs : Spec.Semiring add mult) (hA : A.Of n n) (hD : ∀ t, (D t).Of n n) (k : Nat) :
    ∃ X, powerBySteps add mult outp D A k = .ok X ∧
      X.Con n n fun i j => osum add ((stops n k).map fun l => along mult A.get i l j) := by
  induction k with
  | zero =>
    refine ⟨A, rfl, hA, fun i j _ _ => ?_⟩
    show A.get i j = osum add [A.get i j]
    cases A.get i j <;> rfl
  | succ k ih =>
    obtain ⟨X, e, i⟩ := ih
    obtain ⟨Y, e', i'⟩ := into_mxm (outp := outp) (add := add) (mult := mult) (hD k) i.toOf.plain hA.plain fun h => h.elim
    refine ⟨Y, ?_, i'.toOf, fun a b ha hb => ?_⟩
    · rw [powerBySteps, e]
      show exec _ = _
      rw [e']
      rfl
    · rw [i'.get a b ha hb, stops, List.map_flatMap, osum_flatMap hs.add_assoc]
      refine osumN_congr fun x hx => ?_
      show both mult (X.get a x) (A.get x b) = _
      rw [i.get a x ha hx, osum_mult hs.right, List.map_map]
      congr 1
      exact List.map_congr_left fun l _ => (along_snoc hs.mult_assoc A.get a l x b).symm

theorem along_walk {M : Spec.Mat α} {i j : Nat} {l : List Nat} : along mult M i l j ≠ none ↔ IsWalk M i l j := by
  induction l generalizing i with
  | nil => exact Iff.rfl
  | cons x l ih =>
    show both mult (M i x) (along mult M x l j) ≠ none ↔ M i x ≠ none ∧ IsWalk M x l j
    rw [← ih]
    cases M i x <;> cases along mult M x l j <;> simp [both]

theorem osum_ne {β : Type} {l : List β} {f : β → Option α} : osum add (l.map f) ≠ none ↔ ∃ a ∈ l, f a ≠ none := by
  induction l using list_snoc_induct with
  | h0 => simp [osum]
  | h1 l x ih =>
    rw [List.map_append, List.map_cons, List.map_nil, osum_snoc]
    have : oadd add (osum add (l.map f)) (f x) ≠ none ↔ osum add (l.map f) ≠ none ∨ f x ≠ none := by
      cases osum add (l.map f) <;> cases f x <;> simp [oadd, Spec.either]
    rw [this, ih]
    constructor
    · rintro (⟨a, ha, h⟩ | h)
      · exact ⟨a, List.mem_append_left _ ha, h⟩
      · exact ⟨x, by simp, h⟩
    · rintro ⟨a, ha, h⟩
      rcases List.mem_append.1 ha with ha | ha
      · exact .inl ⟨a, ha, h⟩
      · rw [List.mem_singleton.1 ha] at h; exact .inr h

theorem walk_below (hA : A.Of n n) {i j : Nat} {l : List Nat} (h : IsWalk A.get i l j) : ∀ x ∈ l, x < n := by
  induction l generalizing i with
  | nil => intro x hx; cases hx
  | cons y l ih =>
    intro x hx
    rcases List.mem_cons.1 hx with rfl | hx
    · exact Nat.lt_of_not_le fun hc => h.1 (Sh.out (r := n) (c := n) ⟨hA.wf, hA.nrows, hA.ncols⟩ fun hh => absurd hh.2 (Nat.not_lt.2 hc))
    · exact ih h.2 x hx

/-- **C109** An element is stored there exactly if there is a walk of `k + 1` edges. -/
theorem C109_power_stored (hs : Spec.Semiring add mult) (hA : A.Of n n) (hD : ∀ t, (D t).Of n n) {k : Nat} {X : Lil α}
    (e : powerBySteps add mult outp D A k = .ok X) {i j : Nat} (hi : i < n) (hj : j < n) :
    X.get i j ≠ none ↔ ∃ l : List Nat, l.length = k ∧ IsWalk A.get i l j := by
  obtain ⟨X', e', c⟩ := C109_power_sums_walks (outp := outp) hs hA hD k
  cases e.symm.trans e'
  rw [c.get i j hi hj, osum_ne]
  constructor
  · rintro ⟨l, hl, h⟩
    exact ⟨l, (stops_mem.1 hl).1, along_walk.1 h⟩
  · rintro ⟨l, hl, h⟩
    exact ⟨l, stops_mem.2 ⟨hl, walk_below hA h⟩, along_walk.2 h⟩

theorem osum_least {β : Type} {le : α → α → Prop} (hrefl : ∀ x, le x x) (htrans : ∀ x y z, le x y → le y z → le x z)
    (hadd : ∀ x y, (add x y = x ∨ add x y = y) ∧ le (add x y) x ∧ le (add x y) y) {l : List β} {f : β → Option α} {d : α}
    (h : osum add (l.map f) = some d) : (∃ a ∈ l, f a = some d) ∧ ∀ a ∈ l, ∀ y, f a = some y → le d y := by
  induction l using list_snoc_induct generalizing d with
  | h0 => simp [osum] at h
  | h1 l x ih =>
    rw [List.map_append, List.map_cons, List.map_nil, osum_snoc] at h
    cases ho : osum add (l.map f) with
    | none =>
      rw [ho, none_oadd] at h
      refine ⟨⟨x, by simp, h⟩, fun a ha y hy => ?_⟩
      rcases List.mem_append.1 ha with ha | ha
      · exact absurd ho (osum_ne.2 ⟨a, ha, by rw [hy]; simp⟩)
      · rw [List.mem_singleton.1 ha] at hy
        cases h.symm.trans hy
        exact hrefl _
    | some c =>
      obtain ⟨⟨b, hb, hb'⟩, h2⟩ := ih ho
      rw [ho] at h
      cases hx : f x with
      | none =>
        rw [hx, oadd_none] at h
        cases h
        refine ⟨⟨b, List.mem_append_left _ hb, hb'⟩, fun a ha y hy => ?_⟩
        rcases List.mem_append.1 ha with ha | ha
        · exact h2 a ha y hy
        · rw [List.mem_singleton.1 ha, hx] at hy; cases hy
      | some z =>
        rw [hx] at h
        have h : some (add c z) = some d := h
        cases h
        obtain ⟨h3, h4, h5⟩ := hadd c z
        refine ⟨?_, fun a ha y hy => ?_⟩
        · rcases h3 with h3 | h3
          · exact ⟨b, List.mem_append_left _ hb, by rw [h3]; exact hb'⟩
          · exact ⟨x, by simp, by rw [h3]; exact hx⟩
        · rcases List.mem_append.1 ha with ha | ha
          · exact htrans _ _ _ h4 (h2 a ha y hy)
          · rw [List.mem_singleton.1 ha, hx] at hy; cases hy; exact h5

/-- **C109** With an addition that selects the better of two values, such as `min`, the element is the best product along a walk of
`k + 1` edges. -/
theorem C109_power_best {le : α → α → Prop} (hrefl : ∀ x, le x x) (htrans : ∀ x y z, le x y → le y z → le x z)
    (hadd : ∀ x y, (add x y = x ∨ add x y = y) ∧ le (add x y) x ∧ le (add x y) y) (hs : Spec.Semiring add mult) (hA : A.Of n n)
    (hD : ∀ t, (D t).Of n n) {k : Nat} {X : Lil α} (e : powerBySteps add mult outp D A k = .ok X) {i j : Nat} (hi : i < n) (hj : j < n)
    {d : α} (hd : X.get i j = some d) :
    (∃ l : List Nat, l.length = k ∧ along mult A.get i l j = some d) ∧
      ∀ (l : List Nat) (y : α), l.length = k → along mult A.get i l j = some y → le d y := by
  obtain ⟨X', e', c⟩ := C109_power_sums_walks (outp := outp) hs hA hD k
  cases e.symm.trans e'
  rw [c.get i j hi hj] at hd
  obtain ⟨⟨l, h1, h2⟩, h3⟩ := osum_least hrefl htrans hadd hd
  refine ⟨⟨l, (stops_mem.1 h1).1, h2⟩, fun l y hl hy => h3 l (stops_mem.2 ⟨hl, walk_below hA (along_walk (mult := mult) (i := i) (j := j).1 ?_)⟩) y hy⟩
  rw [hy]; simp

/-- Each choice of `k` vertices below `n` occurs once in the sums. -/
theorem C109_stops (n k : Nat) : (∀ l, l ∈ stops n k ↔ l.length = k ∧ ∀ x ∈ l, x < n) ∧ (stops n k).Nodup := by
  refine ⟨fun l => stops_mem, ?_⟩
  induction k with
  | zero => simp [stops]
  | succ k ih =>
    unfold stops
    generalize hr : List.range n = r
    have hn : r.Nodup := hr ▸ List.nodup_range
    clear hr
    induction r with
    | nil => simp
    | cons x r ihr =>
      rw [List.flatMap_cons, List.nodup_append]
      have hx := List.nodup_cons.1 hn
      refine ⟨?_, ihr hx.2, ?_⟩
      · refine List.Pairwise.map _ (fun a b hab hc => hab ?_) ih
        exact List.append_cancel_right hc
      · rintro a ha b hb rfl
        obtain ⟨l, -, rfl⟩ := List.mem_map.1 ha
        obtain ⟨y, hy, hb⟩ := List.mem_flatMap.1 hb
        obtain ⟨l', -, e⟩ := List.mem_map.1 hb
        have := List.append_inj_right' e rfl
        cases this
        exact hx.1 hy

theorem along_one {num : Nat → α} (hm : mult (num 1) (num 1) = num 1) {M : Spec.Mat α} (hM : ∀ i j v, M i j = some v → v = num 1)
    (i : Nat) (l : List Nat) (j : Nat) : along mult M i l j = if IsWalk M i l j then some (num 1) else none := by
  have h : ∀ v, along mult M i l j = some v → v = num 1 := by
    induction l generalizing i with
    | nil => exact hM i j
    | cons x l ih =>
      intro v hv
      have hv : both mult (M i x) (along mult M x l j) = some v := hv
      cases h1 : M i x with
      | none => rw [h1] at hv; cases hv
      | some a =>
        cases h2 : along mult M x l j with
        | none => rw [h1, h2] at hv; cases hv
        | some b =>
          rw [h1, h2] at hv
          have hv : some (mult a b) = some v := hv
          cases hv
          rw [hM _ _ _ h1, ih x b h2, hm]
  cases ha : along mult M i l j with
  | none => rw [if_neg fun hc => absurd ha (along_walk.2 hc)]
  | some v => rw [if_pos (along_walk (mult := mult).1 (by rw [ha]; simp)), h v ha]

theorem osum_counts {β : Type} {num : Nat → α} (hadd : ∀ a, add (num a) (num 1) = num (a + 1)) {p : β → Prop} [DecidablePred p]
    (l : List β) : osum add (l.map fun a => if p a then some (num 1) else none) =
      if (l.filter fun a => p a).length = 0 then none else some (num (l.filter fun a => p a).length) := by
  induction l using list_snoc_induct with
  | h0 => rfl
  | h1 l x ih =>
    rw [List.map_append, List.map_cons, List.map_nil, osum_snoc, ih, List.filter_append, List.length_append]
    by_cases hx : p x
    · simp only [hx, if_true, List.filter_cons, decide_true, List.filter_nil, List.length_singleton, Nat.add_eq_zero_iff]
      by_cases h0 : (l.filter fun a => p a).length = 0
      · simp [h0, oadd, Spec.either]
      · simp [h0, oadd, Spec.either, hadd]
    · simp only [hx, if_false, List.filter_cons, decide_false, List.filter_nil, List.length_nil, Nat.add_zero, oadd_none]
      simp [oadd_none]

/-- **C109** If every element is one, the element at `(i, j)` is the number of walks of `k + 1` edges. `num` makes numbers of the scalar
type, e.g. modulo a power of two. -/
theorem C109_power_counts {num : Nat → α} (hadd : ∀ a, add (num a) (num 1) = num (a + 1)) (hm : mult (num 1) (num 1) = num 1)
    (hs : Spec.Semiring add mult) (hA : A.Of n n) (hD : ∀ t, (D t).Of n n) (hone : ∀ i j v, A.get i j = some v → v = num 1) {k : Nat}
    {X : Lil α} (e : powerBySteps add mult outp D A k = .ok X) {i j : Nat} (hi : i < n) (hj : j < n) :
    X.get i j = if ((stops n k).filter fun l => IsWalk A.get i l j).length = 0 then none
      else some (num ((stops n k).filter fun l => IsWalk A.get i l j).length) := by
  obtain ⟨X', e', c⟩ := C109_power_sums_walks (outp := outp) hs hA hD k
  cases e.symm.trans e'
  rw [c.get i j hi hj, ← osum_counts hadd]
  congr 1
  exact List.map_congr_left fun l _ => along_one hm hone i l j

/-- **C109** Exponents add up. -/
theorem C109_exponents_add (hs : Spec.Semiring add mult) (hA : A.Of n n) (hD : ∀ t, (D t).Of n n) {E : Lil α} (hE : E.Of n n) {p : Outp}
    {a b : Nat} {X Y : Lil α} (eX : powerBySteps add mult outp D A a = .ok X) (eY : powerBySteps add mult outp D A b = .ok Y) :
    ∃ Z, E.into p (.mxm (SR.of add mult) id (.plain X) (.plain Y)) = .done Z ∧ powerBySteps add mult outp D A (a + b + 1) = .ok Z := by
  have of : ∀ {t T}, powerBySteps add mult outp D A t = .ok T → T.Of n n := fun {t T} e => by
    obtain ⟨X', e', c⟩ := C109_power_sums_walks (outp := outp) hs hA hD t
    cases e.symm.trans e'
    exact c.toOf
  induction b generalizing Y E p with
  | zero =>
    cases eY
    obtain ⟨Z, e1, i1⟩ := into_mxm (outp := p) (add := add) (mult := mult) hE (of eX).plain hA.plain fun h => h.elim
    obtain ⟨Z', e2, i2⟩ := into_mxm (outp := outp) (add := add) (mult := mult) (hD a) (of eX).plain hA.plain fun h => h.elim
    refine ⟨Z, e1, ?_⟩
    show powerBySteps add mult outp D A (a + 1) = _
    rw [powerBySteps, eX]
    show exec _ = _
    rw [e2, i1.unique i2 fun _ _ _ _ => rfl]
    rfl
  | succ b ih =>
    obtain ⟨Y0, e0, c0⟩ := C109_power_sums_walks (outp := outp) hs hA hD b
    obtain ⟨X1, Y1, Z, g1, g2, g3, g4⟩ := C70_mxm_associative (o1 := p) (o2 := outp) (o3 := outp) (o4 := p) hs (of eX).plain c0.toOf.plain
      hA.plain hE (hD b) (hD (a + b + 1)) hE (by rintro (h | h) <;> exact h.1.elim)
    obtain ⟨Z1, f1, f2⟩ := ih (p := p) hE e0
    cases g1.symm.trans f1
    have : Y = Y1 := by
      rw [powerBySteps, e0] at eY
      have eY : exec _ = Except.ok Y := eY
      rw [g3] at eY
      cases eY
      rfl
    subst this
    refine ⟨Z, g4, ?_⟩
    show powerBySteps add mult outp D A (a + b + 1 + 1) = _
    rw [powerBySteps, f2]
    show exec _ = _
    rw [g2]
    rfl

/-- **C109** Squaring `k` times gives what multiplying by `A` `2 ^ k - 1` times gives. -/
theorem C109_squares (hs : Spec.Semiring add mult) (hA : A.Of n n) (hD : ∀ t, (D t).Of n n) {D' : Nat → Lil α} (hD' : ∀ t, (D' t).Of n n)
    {p : Outp} (k : Nat) :
    ∃ X, powerBySquares add mult p D' A k = .ok X ∧ powerBySteps add mult outp D A (2 ^ k - 1) = .ok X := by
  induction k with
  | zero => exact ⟨A, rfl, rfl⟩
  | succ k ih =>
    obtain ⟨X, e, e'⟩ := ih
    obtain ⟨Z, g1, g2⟩ := C109_exponents_add (p := p) hs hA hD (hD' k) e' e'
    have h1 : 0 < 2 ^ k := Nat.two_pow_pos k
    refine ⟨Z, ?_, ?_⟩
    · rw [powerBySquares, e]
      show exec _ = _
      rw [g1]
      rfl
    · rw [← g2, show 2 ^ (k + 1) - 1 = 2 ^ k - 1 + (2 ^ k - 1) + 1 by rw [Nat.pow_succ]; omega]

/-! ### concrete arguments -/

theorem natSemiring : Spec.Semiring (α := Nat) (· + ·) (· * ·) :=
  ⟨Nat.add_assoc, Nat.add_comm, Nat.mul_assoc, Nat.mul_add, Nat.add_mul⟩

theorem minPlusSemiring : Spec.Semiring (α := Int) min (· + ·) :=
  ⟨fun x y z => by omega, fun x y => by omega, Int.add_assoc, fun x y z => by omega, fun x y z => by omega⟩

theorem bits64Semiring : Spec.Semiring (α := BitVec 64) (· + ·) (· * ·) :=
  ⟨BitVec.add_assoc, BitVec.add_comm, BitVec.mul_assoc, fun x y z => BitVec.mul_add, fun x y z => BitVec.add_mul⟩

/-- Edges `0 → 1`, `0 → 2`, `1 → 2`, `2 → 0`, `2 → 2`. -/
def Ex.five : Lil Nat := ⟨3, 3, 5, [[(1, 1), (2, 1)], [(2, 1)], [(0, 1), (2, 1)]]⟩

theorem Ex.five_of : Ex.five.Of 3 3 := ⟨Lil.wf_chk (by decide +kernel), rfl, rfl⟩

theorem Ex.five_one (i j v : Nat) (h : Ex.five.get i j = some v) : v = 1 := by
  by_cases hr : i < 3 ∧ j < 3
  · have : ∀ i < 3, ∀ j < 3, (Ex.five.get i j).all (· = 1) = true := by decide +kernel
    have := this i hr.1 j hr.2
    rw [h] at this
    simpa using this
  · rw [Sh.out (r := 3) (c := 3) ⟨Ex.five_of.wf, rfl, rfl⟩ hr] at h
    cases h

/-- Of the walks of four edges from 0 to 2 there are six. -/
example : ∃ X, powerBySteps (· + ·) (· * ·) .merge (fun _ => Lil.new 3 3) Ex.five 3 = .ok X ∧ X.get 0 2 = some 6 ∧
    ((stops 3 3).filter fun l => IsWalk Ex.five.get 0 l 2).length = 6 := by
  obtain ⟨X, e, -⟩ := C109_power_sums_walks (outp := .merge) natSemiring Ex.five_of (fun _ => ⟨Lil.new_wf 3 3, rfl, rfl⟩) 3
  have h5 : ((stops 3 3).filter fun l => IsWalk Ex.five.get 0 l 2).length = 6 := by decide +kernel
  refine ⟨X, e, ?_, h5⟩
  rw [C109_power_counts (num := id) (fun _ => rfl) rfl natSemiring Ex.five_of (fun _ => ⟨Lil.new_wf 3 3, rfl, rfl⟩) Ex.five_one e (by decide)
    (by decide), h5]
  rfl

/-- Numbers modulo `2 ^ 64`. -/
example (a : Nat) : BitVec.ofNat 64 a + BitVec.ofNat 64 1 = BitVec.ofNat 64 (a + 1) ∧ BitVec.ofNat 64 1 * BitVec.ofNat 64 1 = BitVec.ofNat 64 1 :=
  ⟨by rw [BitVec.ofNat_add], by decide⟩

/-- The hypotheses of `C109_power_best` for (min, +), and two squarings. -/
example : (∀ x y : Int, (min x y = x ∨ min x y = y) ∧ min x y ≤ x ∧ min x y ≤ y) ∧
    ∃ X, powerBySquares min (· + ·) .merge (fun _ => Lil.new 2 2) (⟨2, 2, 3, [[(0, 4), (1, 1)], [(0, 1)]]⟩ : Lil Int) 2 = .ok X ∧
      X.get 0 0 = some 4 ∧ X.get 0 1 = some 7 :=
  ⟨fun x y => by omega, ⟨2, 2, 4, [[(0, 4), (1, 7)], [(0, 7), (1, 4)]]⟩, by decide +kernel⟩

end GBTL
