import Verif.Spec.Closure
import Verif.Props.Powers
import Verif.Props.LawsMask
import Verif.Lemmas.Paths
import Verif.Props.Apsp
/-
C110: accumulating products in place sums over walks of bounded length, and reaches the closure.
-/
namespace GBTL
open Spec (Outp both osum along stops IsWalk)

variable {α : Type} {add mult : α → α → α} {n k : Nat} {A : Lil α} {outp : Outp}

theorem accumulate_con {X Y Z : Lil α} {f g h : Spec.Mat α} (hX : X.Con n n f) (hY : Y.Con n n g) (hZ : Z.Con n n h) :
    ∃ W, accumulateProduct add mult outp X Y Z = .ok W ∧
      W.Con n n fun i j => oadd add (f i j) (osumN add n fun x => both mult (g i x) (h x j)) := by
  obtain ⟨T, V, e1, e2, e3⟩ := C72_accumulate_afterwards (MCall.mxm (SR.of add mult) id (.plain Y) (.plain Z)) add (none : MMask Unit)
    (fun _ => true) outp .merge hX.toOf hX.toOf (by intro k M e; cases e) (by intro k M e; cases e) ⟨hY.wf, hZ.wf⟩
    ⟨hY.nrows.symm, hZ.ncols.symm, hY.ncols.trans hZ.nrows.symm⟩ rfl
  obtain ⟨T', e1', c1⟩ := into_mxm (outp := .merge) (add := add) (mult := mult) hX.toOf hY.toOf.plain hZ.toOf.plain fun h => h.elim
  cases e1.symm.trans e1'
  obtain ⟨V', e2', c2⟩ := into_eWiseAdd (outp := outp) (add := add) hX.toOf hX.toOf.plain c1.toOf.plain
  have e2'' : _ = Outcome.done V' := e2'
  cases e2.symm.trans e2''
  refine ⟨V, by rw [accumulateProduct, e3]; rfl, c2.toOf, fun i j hi hj => ?_⟩
  rw [c2.get i j hi hj]
  show oadd add (X.get i j) (T.get i j) = _
  rw [hX.get i j hi hj, c1.get i j hi hj]
  congr 1
  refine osumN_congr fun x hx => ?_
  show both mult (Y.get i x) (Z.get x j) = _
  rw [hY.get i x hi hx, hZ.get x j hx hj]

/-- The product of two matrices. -/
def mmul (add mult : α → α → α) (n : Nat) (f g : Spec.Mat α) : Spec.Mat α := fun i j => osumN add n fun x => both mult (f i x) (g x j)

/-- The sum over the walks with `t` stops. -/
def walkSum (add mult : α → α → α) (n : Nat) (M : Spec.Mat α) (t : Nat) : Spec.Mat α :=
  fun i j => osum add ((stops n t).map fun l => along mult M i l j)

/-- The sum over the walks with at most `k` stops. -/
def walkSums (add mult : α → α → α) (n : Nat) (M : Spec.Mat α) (k : Nat) : Spec.Mat α :=
  fun i j => osumN add (k + 1) fun t => walkSum add mult n M t i j

variable {M f g h : Spec.Mat α}

theorem walkSum_zero : walkSum add mult n M 0 = M := by
  funext i j
  show osum add [M i j] = M i j
  cases M i j <;> rfl

theorem walkSum_succ (hs : Spec.Semiring add mult) (t : Nat) : walkSum add mult n M (t + 1) = mmul add mult n (walkSum add mult n M t) M := by
  funext a b
  show osum add ((stops n (t + 1)).map _) = _
  rw [stops, List.map_flatMap, osum_flatMap hs.add_assoc]
  refine osumN_congr fun x _ => ?_
  show _ = both mult (osum add ((stops n t).map fun l => along mult M a l x)) (M x b)
  rw [osum_mult hs.right, List.map_map]
  congr 1
  exact List.map_congr_left fun l _ => along_snoc hs.mult_assoc M a l x b

/-- Element by element. -/
def madd (add : α → α → α) (f g : Spec.Mat α) : Spec.Mat α := fun i j => oadd add (f i j) (g i j)

theorem mmul_madd_left (hs : Spec.Semiring add mult) : mmul add mult n (madd add f g) h = madd add (mmul add mult n f h) (mmul add mult n g h) := by
  funext i j
  show osumN add n (fun x => both mult (oadd add (f i x) (g i x)) (h x j)) = oadd add (osumN add n _) (osumN add n _)
  rw [← osumN_oadd hs.add_assoc hs.add_comm]
  exact osumN_congr fun x _ => oadd_both hs.right ..

theorem mmul_madd_right (hs : Spec.Semiring add mult) : mmul add mult n h (madd add f g) = madd add (mmul add mult n h f) (mmul add mult n h g) := by
  funext i j
  show osumN add n (fun x => both mult (h i x) (oadd add (f x j) (g x j))) = oadd add (osumN add n _) (osumN add n _)
  rw [← osumN_oadd hs.add_assoc hs.add_comm]
  exact osumN_congr fun x _ => both_oadd hs.left ..

theorem mmul_assoc (hs : Spec.Semiring add mult) : mmul add mult n (mmul add mult n f g) h = mmul add mult n f (mmul add mult n g h) := by
  funext i j
  show osumN add n (fun x => both mult (osumN add n fun y => both mult (f i y) (g y x)) (h x j)) =
    osumN add n fun y => both mult (f i y) (osumN add n fun x => both mult (g y x) (h x j))
  have e1 : ∀ x, both mult (osumN add n fun y => both mult (f i y) (g y x)) (h x j) =
      osumN add n fun y => both mult (f i y) (both mult (g y x) (h x j)) := fun x => by
    rw [osumN_both hs.right]; exact osumN_congr fun y _ => both_assoc hs.mult_assoc ..
  have e2 : ∀ y, both mult (f i y) (osumN add n fun x => both mult (g y x) (h x j)) =
      osumN add n fun x => both mult (f i y) (both mult (g y x) (h x j)) := fun y => both_osumN hs.left ..
  simp only [e1, e2]
  exact osumN_swap hs.add_assoc hs.add_comm ..

theorem madd_assoc (hs : Spec.Semiring add mult) : madd add (madd add f g) h = madd add f (madd add g h) := by
  funext i j; exact oadd_assoc hs.add_assoc ..

theorem madd_comm (hs : Spec.Semiring add mult) : madd add f g = madd add g f := by
  funext i j; exact oadd_comm hs.add_comm ..

theorem madd_self (hi : ∀ x, add x x = x) : madd add f f = f := by
  funext i j
  show oadd add (f i j) (f i j) = f i j
  cases f i j with
  | none => rfl
  | some x => show some (add x x) = _; rw [hi]

theorem walkSums_zero : walkSums add mult n M 0 = M := by
  funext i j
  show osumN add 1 _ = _
  rw [osumN_succ, osumN_zero, none_oadd, walkSum_zero]

theorem walkSums_succ : walkSums add mult n M (k + 1) = madd add (walkSums add mult n M k) (walkSum add mult n M (k + 1)) := by
  funext i j
  exact osumN_succ (k + 1) _

theorem walkSums_step (hs : Spec.Semiring add mult) (k : Nat) :
    madd add M (mmul add mult n (walkSums add mult n M k) M) = walkSums add mult n M (k + 1) := by
  induction k with
  | zero => rw [walkSums_succ, walkSums_zero, walkSum_succ hs, walkSum_zero]
  | succ k ih =>
    rw [walkSums_succ (k := k), mmul_madd_left hs, ← madd_assoc hs, ih, walkSums_succ (k := k + 1), walkSum_succ hs (k + 1)]

theorem walkSums_absorb (hs : Spec.Semiring add mult) (hi : ∀ x, add x x = x) (k : Nat) :
    madd add (walkSums add mult n M k) M = walkSums add mult n M k := by
  induction k with
  | zero => rw [walkSums_zero, madd_self hi]
  | succ k ih => rw [walkSums_succ, madd_assoc hs, madd_comm hs (f := walkSum add mult n M (k + 1)) (g := M), ← madd_assoc hs, ih]

theorem walkSums_accumulate (hs : Spec.Semiring add mult) (hi : ∀ x, add x x = x) (k : Nat) :
    madd add (walkSums add mult n M k) (mmul add mult n (walkSums add mult n M k) M) = walkSums add mult n M (k + 1) := by
  have e : madd add (walkSums add mult n M k) (walkSums add mult n M (k + 1)) = walkSums add mult n M (k + 1) := by
    rw [walkSums_succ, ← madd_assoc hs, madd_self hi]
  rw [← walkSums_absorb hs hi k, madd_assoc hs, walkSums_absorb hs hi k, walkSums_step hs, e]

theorem walkSums_product (hs : Spec.Semiring add mult) (hi : ∀ x, add x x = x) (a b : Nat) :
    madd add (walkSums add mult n M a) (mmul add mult n (walkSums add mult n M a) (walkSums add mult n M b)) =
      walkSums add mult n M (a + b + 1) := by
  induction b with
  | zero => rw [walkSums_zero]; exact walkSums_accumulate hs hi a
  | succ b ih =>
    have e := walkSums_accumulate (n := n) (M := M) hs hi (a + b + 1)
    rw [← ih, mmul_madd_left hs, mmul_assoc hs] at e
    have e1 : mmul add mult n (walkSums add mult n M a) (walkSums add mult n M b) =
        madd add (mmul add mult n (walkSums add mult n M a) (walkSums add mult n M b)) (mmul add mult n (walkSums add mult n M a) M) := by
      rw [← mmul_madd_right hs, walkSums_absorb hs hi]
    rw [← walkSums_accumulate hs hi b, mmul_madd_right hs]
    rw [show a + (b + 1) + 1 = a + b + 1 + 1 from by omega, ← e, e1]
    simp only [madd_assoc hs]
    rw [← madd_assoc hs (f := mmul add mult n (walkSums add mult n M a) M) (g := mmul add mult n (walkSums add mult n M a) M), madd_self hi]

/-- **C110** With an idempotent addition, such as `min` or logical or, accumulating the product with `A` in place `k` times sums over
the walks of at most `k + 1` edges. -/
theorem C110_closure_sums_walks (hs : Spec.Semiring add mult) (hi : ∀ x, add x x = x) (hA : A.Of n n) (k : Nat) :
    ∃ X, closeBySteps add mult outp A k = .ok X ∧
      X.Con n n fun i j => osumN add (k + 1) fun t => osum add ((stops n t).map fun l => along mult A.get i l j) := by
  show ∃ X : Lil α, _ ∧ X.Con n n (walkSums add mult n A.get k)
  have cA : A.Con n n A.get := ⟨hA, fun _ _ _ _ => rfl⟩
  induction k with
  | zero => exact ⟨A, rfl, by rw [walkSums_zero]; exact cA⟩
  | succ k ih =>
    obtain ⟨X, e, c⟩ := ih
    obtain ⟨W, e', c'⟩ := accumulate_con (add := add) (mult := mult) (outp := outp) c c cA
    refine ⟨W, by rw [closeBySteps, e]; exact e', ?_⟩
    rw [← walkSums_accumulate hs hi]
    exact c'

/-- **C110** Accumulating the square in place `k` times gives what accumulating the product with `A` `2 ^ k - 1` times gives. -/
theorem C110_squares (hs : Spec.Semiring add mult) (hi : ∀ x, add x x = x) (hA : A.Of n n) {p : Outp} (k : Nat) :
    ∃ X, closeBySquares add mult p A k = .ok X ∧ closeBySteps add mult outp A (2 ^ k - 1) = .ok X := by
  suffices h : ∃ X, closeBySquares add mult p A k = .ok X ∧ X.Con n n (walkSums add mult n A.get (2 ^ k - 1)) by
    obtain ⟨X, e, c⟩ := h
    obtain ⟨Y, e', c'⟩ := C110_closure_sums_walks (outp := outp) hs hi hA (2 ^ k - 1)
    exact ⟨X, e, by rw [e', c'.unique c fun _ _ _ _ => rfl]⟩
  induction k with
  | zero => exact ⟨A, rfl, by rw [show 2 ^ 0 - 1 = 0 from rfl, walkSums_zero]; exact ⟨hA, fun _ _ _ _ => rfl⟩⟩
  | succ k ih =>
    obtain ⟨X, e, c⟩ := ih
    obtain ⟨W, e', c'⟩ := accumulate_con (add := add) (mult := mult) (outp := p) c c c
    refine ⟨W, by rw [closeBySquares, e]; exact e', ?_⟩
    have h1 : 0 < 2 ^ k := Nat.two_pow_pos k
    rw [show 2 ^ (k + 1) - 1 = 2 ^ k - 1 + (2 ^ k - 1) + 1 from by rw [Nat.pow_succ]; omega, ← walkSums_product hs hi]
    exact c'

/-- **C110** An element is stored there exactly if there is a walk of at most `k + 1` edges. -/
theorem C110_stored (hs : Spec.Semiring add mult) (hi : ∀ x, add x x = x) (hA : A.Of n n) {X : Lil α}
    (e : closeBySteps add mult outp A k = .ok X) {i j : Nat} (hin : i < n) (hj : j < n) :
    X.get i j ≠ none ↔ ∃ l : List Nat, l.length ≤ k ∧ IsWalk A.get i l j := by
  obtain ⟨X', e', c⟩ := C110_closure_sums_walks (outp := outp) hs hi hA k
  cases e.symm.trans e'
  rw [c.get i j hin hj, osumN, osum_ne]
  constructor
  · rintro ⟨t, ht, h⟩
    obtain ⟨l, hl, h⟩ := osum_ne.1 h
    exact ⟨l, by have := (stops_mem.1 hl).1; have := List.mem_range.1 ht; omega, along_walk.1 h⟩
  · rintro ⟨l, hl, h⟩
    exact ⟨l.length, List.mem_range.2 (by omega), osum_ne.2 ⟨l, stops_mem.2 ⟨rfl, walk_below hA h⟩, along_walk.2 h⟩⟩

/-- **C110** With an addition that selects the better of two values the element is the best product along a walk of at most `k + 1`
edges. -/
theorem C110_best {le : α → α → Prop} (hrefl : ∀ x, le x x) (htrans : ∀ x y z, le x y → le y z → le x z)
    (hadd : ∀ x y, (add x y = x ∨ add x y = y) ∧ le (add x y) x ∧ le (add x y) y) (hs : Spec.Semiring add mult) (hA : A.Of n n)
    {X : Lil α} (e : closeBySteps add mult outp A k = .ok X) {i j : Nat} (hin : i < n) (hj : j < n) {d : α} (hd : X.get i j = some d) :
    (∃ l : List Nat, l.length ≤ k ∧ along mult A.get i l j = some d) ∧
      ∀ (l : List Nat) (y : α), l.length ≤ k → along mult A.get i l j = some y → le d y := by
  obtain ⟨X', e', c⟩ := C110_closure_sums_walks (outp := outp) hs (fun x => (hadd x x).1.elim id id) hA k
  cases e.symm.trans e'
  rw [c.get i j hin hj] at hd
  obtain ⟨⟨t, h1, h2⟩, h3⟩ := osum_least hrefl htrans hadd hd
  refine ⟨?_, fun l y hl hy => ?_⟩
  · obtain ⟨⟨l, g1, g2⟩, -⟩ := osum_least hrefl htrans hadd h2
    exact ⟨l, by have := (stops_mem.1 g1).1; have := List.mem_range.1 h1; omega, g2⟩
  · have hm : l ∈ stops n l.length :=
      stops_mem.2 ⟨rfl, walk_below hA (along_walk (mult := mult) (i := i) (j := j).1 (by rw [hy]; simp))⟩
    cases ho : osum add ((stops n l.length).map fun l => along mult A.get i l j) with
    | none => exact absurd ho (osum_ne.2 ⟨l, hm, by rw [hy]; simp⟩)
    | some z => exact htrans _ _ _ (h3 l.length (List.mem_range.2 (by omega)) z ho) ((osum_least hrefl htrans hadd ho).2 l hm y hy)

theorem along_split (hm : ∀ x y z, mult (mult x y) z = mult x (mult y z)) (M : Spec.Mat α) (i : Nat) (p : List Nat) (x : Nat) (q : List Nat)
    (j : Nat) : along mult M i (p ++ x :: q) j = both mult (along mult M i p x) (along mult M x q j) := by
  induction p generalizing i with
  | nil => rfl
  | cons y p ih =>
    show both mult (M i y) (along mult M y (p ++ x :: q) j) = both mult (both mult (M i y) (along mult M y p x)) (along mult M x q j)
    rw [ih, both_assoc hm]

theorem both_some {x y : Option α} {v : α} (h : both mult x y = some v) : ∃ a b, x = some a ∧ y = some b ∧ v = mult a b := by
  cases x with
  | none => cases h
  | some a =>
    cases y with
    | none => cases h
    | some b => cases h; exact ⟨a, b, rfl, rfl, rfl⟩

theorem along_cut {le : α → α → Prop} (hm : ∀ x y z, mult (mult x y) z = mult x (mult y z))
    (hmono : ∀ a b c, le b c → le (mult a b) (mult a c)) (hg : Spec.NoGain le mult M) {i j : Nat} {l : List Nat} (hd : ¬ (i :: l).Nodup)
    {v : α} (h : along mult M i l j = some v) : ∃ l' v', l'.length < l.length ∧ along mult M i l' j = some v' ∧ le v' v := by
  induction l generalizing i v with
  | nil => exact absurd (by simp) hd
  | cons x l ih =>
    by_cases hi : i ∈ x :: l
    · obtain ⟨p, q, e⟩ := List.append_of_mem hi
      rw [e, along_split hm] at h
      obtain ⟨c, b, h1, h2, rfl⟩ := both_some h
      exact ⟨q, b, by rw [e]; simp; omega, h2, hg i p c h1 b⟩
    · have hd' : ¬ (x :: l).Nodup := fun hc => hd (List.nodup_cons.2 ⟨hi, hc⟩)
      obtain ⟨a, b, h1, h2, rfl⟩ := both_some (show both mult (M i x) (along mult M x l j) = some v from h)
      obtain ⟨l', b', g1, g2, g3⟩ := ih hd' h2
      refine ⟨x :: l', mult a b', by simp; omega, ?_, hmono _ _ _ g3⟩
      show both mult (M i x) (along mult M x l' j) = _
      rw [h1, g2]
      rfl

theorem along_short {le : α → α → Prop} (hrefl : ∀ x, le x x) (htrans : ∀ x y z, le x y → le y z → le x z)
    (hm : ∀ x y z, mult (mult x y) z = mult x (mult y z)) (hmono : ∀ a b c, le b c → le (mult a b) (mult a c))
    (hA : A.Of n n) (hg : Spec.NoGain le mult A.get) {i j : Nat} (hi : i < n) {l : List Nat} {v : α}
    (h : along mult A.get i l j = some v) : ∃ l' v', l'.length + 1 ≤ n ∧ along mult A.get i l' j = some v' ∧ le v' v := by
  generalize hk : l.length = k
  induction k using Nat.strongRecOn generalizing l v with
  | ind k ih =>
    subst hk
    by_cases hl : l.length + 1 ≤ n
    · exact ⟨l, v, hl, h, hrefl v⟩
    · have hb := walk_below hA (along_walk (mult := mult) (i := i) (j := j) (l := l).1 (by rw [h]; simp))
      obtain ⟨l', v', h1, h2, h3⟩ := along_cut hm hmono hg (i := i) (j := j) (l := l) (fun hc => hl (by
        have := hc.length_le_of_subset (l₂ := List.range n) fun x hx => List.mem_range.2 (by
          rcases List.mem_cons.1 hx with rfl | hx
          · exact hi
          · exact hb x hx)
        simpa using this)) h
      obtain ⟨l'', v'', g1, g2, g3⟩ := ih l'.length h1 h2 rfl
      exact ⟨l'', v'', g1, g2, htrans _ _ _ g3 h3⟩

/-- **C110** After one accumulation less than there are vertices, the stored elements are those of the pairs joined by some walk. -/
theorem C110_reach (hs : Spec.Semiring add mult) (hi : ∀ x, add x x = x) (hA : A.Of n n) (hk : n ≤ k + 1) {X : Lil α}
    (e : closeBySteps add mult outp A k = .ok X) {i j : Nat} (hin : i < n) (hj : j < n) :
    X.get i j ≠ none ↔ ∃ l : List Nat, IsWalk A.get i l j := by
  rw [C110_stored hs hi hA e hin hj]
  refine ⟨fun ⟨l, _, h⟩ => ⟨l, h⟩, fun ⟨l, h⟩ => ?_⟩
  obtain ⟨v, hv⟩ := Option.ne_none_iff_exists'.1 (along_walk (mult := mult).2 h)
  obtain ⟨l', v', h1, h2, -⟩ := along_short (le := fun _ _ => True) (fun _ => trivial) (fun _ _ _ _ _ => trivial) hs.mult_assoc
    (fun _ _ _ _ => trivial) hA (fun _ _ _ _ _ => trivial) hin hv
  exact ⟨l', by omega, along_walk (mult := mult).1 (by rw [h2]; simp)⟩

/-- **C110** If no closed walk improves what follows it, the elements are then the best products along any walk. -/
theorem C110_best_of_all {le : α → α → Prop} (hrefl : ∀ x, le x x) (htrans : ∀ x y z, le x y → le y z → le x z)
    (hadd : ∀ x y, (add x y = x ∨ add x y = y) ∧ le (add x y) x ∧ le (add x y) y) (hmono : ∀ a b c, le b c → le (mult a b) (mult a c))
    (hs : Spec.Semiring add mult) (hA : A.Of n n) (hg : Spec.NoGain le mult A.get) (hk : n ≤ k + 1) {X : Lil α}
    (e : closeBySteps add mult outp A k = .ok X) {i j : Nat} (hin : i < n) (hj : j < n) {d : α} (hd : X.get i j = some d) :
    (∃ l : List Nat, along mult A.get i l j = some d) ∧ ∀ (l : List Nat) (y : α), along mult A.get i l j = some y → le d y := by
  obtain ⟨⟨l, -, h1⟩, h2⟩ := C110_best hrefl htrans hadd hs hA e hin hj hd
  refine ⟨⟨l, h1⟩, fun l y hy => ?_⟩
  obtain ⟨l', v', g1, g2, g3⟩ := along_short hrefl htrans hs.mult_assoc hmono hA hg hin hy
  exact htrans _ _ _ (h2 l' v' (by omega) g2) g3

/-- **C110** Further accumulations then change nothing. -/
theorem C110_stable {le : α → α → Prop} (hrefl : ∀ x, le x x) (htrans : ∀ x y z, le x y → le y z → le x z)
    (hanti : ∀ x y, le x y → le y x → x = y)
    (hadd : ∀ x y, (add x y = x ∨ add x y = y) ∧ le (add x y) x ∧ le (add x y) y) (hmono : ∀ a b c, le b c → le (mult a b) (mult a c))
    (hs : Spec.Semiring add mult) (hA : A.Of n n) (hg : Spec.NoGain le mult A.get) {p : Outp} {k' : Nat} (hk : n ≤ k + 1) (hk' : n ≤ k' + 1) :
    closeBySteps add mult outp A k = closeBySteps add mult p A k' := by
  have hi : ∀ x, add x x = x := fun x => (hadd x x).1.elim id id
  obtain ⟨X, e, c⟩ := C110_closure_sums_walks (outp := outp) hs hi hA k
  obtain ⟨Y, e', c'⟩ := C110_closure_sums_walks (outp := p) hs hi hA k'
  rw [e, e']
  congr 1
  refine Lil.Con.unique (f := X.get) (g := Y.get) ⟨c.toOf, fun _ _ _ _ => rfl⟩ ⟨c'.toOf, fun _ _ _ _ => rfl⟩ fun i j hin hj => ?_
  have h := (C110_reach hs hi hA hk e hin hj).trans (C110_reach hs hi hA hk' e' hin hj).symm
  cases h1 : X.get i j with
  | none =>
    cases h2 : Y.get i j with
    | none => rfl
    | some y => exact absurd h1 (h.2 (by rw [h2]; simp))
  | some x =>
    cases h2 : Y.get i j with
    | none => exact absurd h2 (h.1 (by rw [h1]; simp))
    | some y =>
      obtain ⟨⟨l1, a1⟩, b1⟩ := C110_best_of_all hrefl htrans hadd hmono hs hA hg hk e hin hj h1
      obtain ⟨⟨l2, a2⟩, b2⟩ := C110_best_of_all hrefl htrans hadd hmono hs hA hg hk' e' hin hj h2
      rw [hanti _ _ (b1 l2 y a2) (b2 l1 x a1)]

theorem accumulateV_con {w u : BVec α} {f g : Spec.Vec α} {h : Spec.Mat α} {B : Lil α} (hw : w.Con n f) (hu : u.Con n g) (hB : B.Con n n h) :
    ∃ x, accumulateVxm add mult outp w u B = .ok x ∧
      x.Con n fun j => oadd add (f j) (osumN add n fun i => both mult (g i) (h i j)) := by
  obtain ⟨x, e, y⟩ := C11_vxm (o := ⟨w, none, fun _ => true, .some add id id, id, outp⟩) (μ := Unit) (A := .plain B)
    (sr := SR.of add mult) ⟨hw.wf, by intro k M e; cases e⟩ hu.wf hB.wf
    ⟨(by intro k M e; cases e), hw.size.trans hB.ncols.symm, hu.size.trans hB.nrows.symm⟩
  refine ⟨x, by rw [accumulateVxm]; show exec (vxm _ _ _ _) = _; rw [e]; rfl, ⟨y.wf, y.size.trans hw.size⟩, fun j hj => ?_⟩
  rw [y.get j (by show j < w.size; rw [hw.size]; exact hj)]
  have e1 : Spec.vxm u.size add mult u.get B.get j = osumN add n fun i => both mult (g i) (h i j) := by
    rw [hu.size]
    refine osumN_congr fun i hi => ?_
    rw [hu.get i hi, hB.get i j hi hj]
  show Spec.write id true outp (w.get j) (Spec.accum (.some add id id) (w.get j) (Spec.vxm u.size add mult u.get B.get j)) = _
  rw [e1, hw.get j hj]
  cases f j <;> cases (osumN add n fun i => both mult (g i) (h i j)) <;> rfl

/-- **C110** A vector from which products are accumulated in place `k + 1` times holds its old elements plus, for each element, the sums
over the walks of at most `k + 1` edges from there. -/
theorem C110_vector_sums_walks (hs : Spec.Semiring add mult) (hi : ∀ x, add x x = x) (hA : A.Of n n) {w : BVec α} (hw : w.Of n) (k : Nat) :
    ∃ x, relaxBySteps add mult outp w A (k + 1) = .ok x ∧ x.Con n fun j => oadd add (w.get j) (osumN add n fun i => both mult (w.get i)
      (osumN add (k + 1) fun t => osum add ((stops n t).map fun l => along mult A.get i l j))) := by
  show ∃ x : BVec α, _ ∧ x.Con n fun j => madd add (fun _ => w.get) (mmul add mult n (fun _ => w.get) (walkSums add mult n A.get k)) 0 j
  have cA : A.Con n n A.get := ⟨hA, fun _ _ _ _ => rfl⟩
  induction k with
  | zero =>
    obtain ⟨x, e, c⟩ := accumulateV_con (add := add) (mult := mult) (outp := outp) (w := w) (f := w.get) ⟨hw, fun _ _ => rfl⟩ ⟨hw, fun _ _ => rfl⟩ cA
    exact ⟨x, e, by rw [walkSums_zero]; exact c⟩
  | succ k ih =>
    obtain ⟨x, e, c⟩ := ih
    obtain ⟨y, e', c'⟩ := accumulateV_con (add := add) (mult := mult) (outp := outp) c c cA
    refine ⟨y, by rw [relaxBySteps, e]; exact e', c'.toOf, fun j hj => ?_⟩
    rw [c'.get j hj]
    generalize hW : (fun _ => w.get : Spec.Mat α) = W
    generalize hR : walkSums add mult n A.get k = R
    have key : madd add (madd add W (mmul add mult n W R)) (mmul add mult n (madd add W (mmul add mult n W R)) A.get) =
        madd add W (mmul add mult n W (walkSums add mult n A.get (k + 1))) := by
      rw [← walkSums_accumulate hs hi, hR, mmul_madd_left hs, mmul_assoc hs]
      have e1 : mmul add mult n W R = madd add (mmul add mult n W R) (mmul add mult n W A.get) := by
        rw [← mmul_madd_right hs, ← hR, walkSums_absorb hs hi]
      rw [mmul_madd_right hs, e1]
      simp only [madd_assoc hs]
      rw [← madd_assoc hs (f := mmul add mult n W A.get) (g := mmul add mult n W A.get), madd_self hi]
    exact congrFun (congrFun key 0) j

/-- **C110** One product with the closure gives what the same number of products with `A` gives. -/
theorem C110_query (hs : Spec.Semiring add mult) (hi : ∀ x, add x x = x) (hA : A.Of n n) {w : BVec α} (hw : w.Of n) {o1 o2 : Outp} {X : Lil α}
    (e : closeBySteps add mult outp A k = .ok X) :
    ∃ x y, relaxBySteps add mult o1 w A (k + 1) = .ok x ∧ accumulateVxm add mult o2 w w X = .ok y ∧ x.Same y := by
  obtain ⟨X', e', c⟩ := C110_closure_sums_walks (outp := outp) hs hi hA k
  cases e.symm.trans e'
  obtain ⟨x, e1, c1⟩ := C110_vector_sums_walks (outp := o1) hs hi hA hw k
  obtain ⟨y, e2, c2⟩ := accumulateV_con (add := add) (mult := mult) (outp := o2) (w := w) (f := w.get) ⟨hw, fun _ _ => rfl⟩ ⟨hw, fun _ _ => rfl⟩ c
  exact ⟨x, y, e1, e2, c1.same c2 fun _ _ => rfl⟩

theorem minPlus : Spec.Semiring (min : Int → Int → Int) (· + ·) :=
  ⟨fun _ _ _ => by omega, fun _ _ => by omega, fun _ _ _ => by omega, fun _ _ _ => by omega, fun _ _ _ => by omega⟩

theorem wwalk_along {W : Spec.Mat Int} {u : Nat} {x : Int} {v : Nat} :
    Spec.WWalk W (Spec.source u) (k + 1) v x ↔ ∃ l : List Nat, l.length = k ∧ along (· + ·) W u l v = some x := by
  induction k generalizing v x with
  | zero =>
    constructor
    · rintro ⟨w, y, z, h1, h2, rfl⟩
      have h1 : (if w = u then some (0 : Int) else none) = some y := h1
      by_cases e : w = u
      · rw [if_pos e] at h1
        have h1 : (0 : Int) = y := Option.some.inj h1
        subst h1
        subst e
        exact ⟨[], rfl, by rw [Int.zero_add]; exact h2⟩
      · rw [if_neg e] at h1
        cases h1
    · rintro ⟨l, hl, h⟩
      cases List.length_eq_zero_iff.1 hl
      exact ⟨u, 0, x, by show (if u = u then some (0 : Int) else none) = _; rw [if_pos rfl], h, by omega⟩
  | succ k ih =>
    constructor
    · rintro ⟨w, y, z, h1, h2, rfl⟩
      obtain ⟨l, hl, h⟩ := ih.1 h1
      exact ⟨l ++ [w], by simp [hl], by rw [along_snoc Int.add_assoc, h, h2]; rfl⟩
    · rintro ⟨l, hl, h⟩
      rcases List.eq_nil_or_concat l with rfl | ⟨l', w, rfl⟩
      · cases hl
      · rw [List.concat_eq_append] at h hl
        rw [along_snoc Int.add_assoc] at h
        obtain ⟨a, b, h1, h2, rfl⟩ := both_some h
        exact ⟨w, a, b, ih.2 ⟨l', by simpa using hl, h1⟩, h2, rfl⟩

/-- In a graph without closed walks of negative weight no closed walk shortens what follows it. -/
theorem noGain_of_noNeg {W : Spec.Mat Int} (h : ¬ Spec.HasNegCycle W) : Spec.NoGain (· ≤ ·) (· + ·) W := by
  intro x l c hc b
  have : ¬ c < 0 := fun hn => h ⟨x, l.length + 1, c, wwalk_along.2 ⟨l, rfl, hc⟩, hn⟩
  show b ≤ c + b
  omega

/-- **C110** With `min` and `+` (in integers that do not overflow) the elements are the least weights of walks of one or more edges. -/
theorem C110_distances {G X : Lil Int} (hG : G.Of n n) (hc : ¬ Spec.HasNegCycle G.get) (hk : n ≤ k + 1)
    (e : closeBySteps min (· + ·) outp G k = .ok X) {u v : Nat} (hu : u < n) (hv : v < n) (d : Int) :
    X.get u v = some d ↔ (∃ t, Spec.WWalk G.get (Spec.source u) (t + 1) v d) ∧
      ∀ t x, Spec.WWalk G.get (Spec.source u) (t + 1) v x → d ≤ x := by
  have best := fun {d} => C110_best_of_all (le := fun x y : Int => x ≤ y) (d := d) (fun x => by omega) (fun x y z => by omega)
    (fun x y => by omega) (fun a b c => by omega) minPlus hG (noGain_of_noNeg hc) hk e hu hv
  constructor
  · intro h
    obtain ⟨⟨l, h1⟩, h2⟩ := best h
    exact ⟨⟨l.length, wwalk_along.2 ⟨l, rfl, h1⟩⟩, fun t x hx => by obtain ⟨l, -, h⟩ := wwalk_along.1 hx; exact h2 l x h⟩
  · rintro ⟨⟨t, h1⟩, h2⟩
    obtain ⟨l, -, h1⟩ := wwalk_along.1 h1
    have := (C110_reach minPlus (fun x => by omega) hG hk e hu hv).2 ⟨l, along_walk (mult := fun x y : Int => x + y).1 (by rw [h1]; simp)⟩
    obtain ⟨y, hy⟩ := Option.ne_none_iff_exists'.1 this
    obtain ⟨⟨l', h3⟩, h4⟩ := best hy
    have g1 := h4 l d h1
    have g2 := h2 l'.length y (wwalk_along.2 ⟨l', rfl, h3⟩)
    rw [hy]
    congr 1
    omega

/-- **C110** It agrees with `apsp` between different vertices, and at vertices with a self-loop. -/
theorem C110_apsp {t : ITy} {ov : Int → Int → Int} {G X D : Lil Int} (h : ApspInput t G) (hc : ¬ Spec.HasNegCycle G.get)
    (hk : G.nrows ≤ k + 1) (e : closeBySteps min (· + ·) outp G k = .ok X) (e' : apsp t ov G = .ok D) {u v : Nat} (hu : u < G.nrows)
    (hv : v < G.nrows) (huv : u ≠ v ∨ G.get u u ≠ none) : X.get u v = D.get u v := by
  obtain ⟨D', g, -, -, -, d4, d5⟩ := C37_apsp_exact (ov := ov) h hc
  cases e'.symm.trans g
  have key : ∀ x, D.get u v = some x ↔ (∃ t, Spec.WWalk G.get (Spec.source u) (t + 1) v x) ∧
      ∀ t y, Spec.WWalk G.get (Spec.source u) (t + 1) v y → x ≤ y := by
    intro x
    by_cases hne : u = v
    · subst hne
      exact d5 u (huv.resolve_left fun hh => hh rfl) x
    · rw [(d4 u v hu (.inl hne)).2 x]
      have h0 : ∀ x, ¬ Spec.WWalk G.get (Spec.source u) 0 v x := fun x hx => by
        have hx : (if v = u then some (0 : Int) else none) = some x := hx
        rw [if_neg fun hh => hne hh.symm] at hx
        cases hx
      constructor
      · rintro ⟨⟨t, h1⟩, h2⟩
        cases t with
        | zero => exact absurd h1 (h0 _)
        | succ t => exact ⟨⟨t, h1⟩, fun t y hy => h2 (t + 1) y hy⟩
      · rintro ⟨⟨t, h1⟩, h2⟩
        refine ⟨⟨t + 1, h1⟩, fun t y hy => ?_⟩
        cases t with
        | zero => exact absurd hy (h0 _)
        | succ t => exact h2 t y hy
  apply Option.ext
  intro d
  rw [C110_distances ⟨h.graph, rfl, h.square⟩ hc hk e hu hv d, key]

/-- A graph with an edge of negative weight: three accumulations of products, and two of squares. -/
example : ∃ G X : Lil Int, G.Of 4 4 ∧ closeBySteps min (· + ·) .merge G 3 = .ok X ∧ closeBySquares min (· + ·) .replace G 2 = .ok X ∧
    X.get 0 3 = some 4 ∧ X.get 1 1 = some 6 ∧ G.get 0 3 = none ∧ G.get 1 1 = none :=
  ⟨⟨4, 4, 4, [[(1, 5)], [(2, -2)], [(1, 8), (3, 1)], []]⟩,
    ⟨4, 4, 9, [[(1, 5), (2, 3), (3, 4)], [(1, 6), (2, -2), (3, -1)], [(1, 8), (2, 6), (3, 1)], []]⟩,
    ⟨Lil.wf_chk (by decide +kernel), rfl, rfl⟩, by decide +kernel⟩

/-- From the vertices 0 and 2, at distances 1 and 0: the closure above answers what four products with the graph answer. -/
example : ∃ x y : BVec Int,
    relaxBySteps min (· + ·) .merge ⟨4, 2, [1, 0, 0, 0], [true, false, true, false]⟩ ⟨4, 4, 4, [[(1, 5)], [(2, -2)], [(1, 8), (3, 1)], []]⟩ 4 =
      .ok x ∧
    accumulateVxm min (· + ·) .merge ⟨4, 2, [1, 0, 0, 0], [true, false, true, false]⟩ ⟨4, 2, [1, 0, 0, 0], [true, false, true, false]⟩
      ⟨4, 4, 9, [[(1, 5), (2, 3), (3, 4)], [(1, 6), (2, -2), (3, -1)], [(1, 8), (2, 6), (3, 1)], []]⟩ = .ok y ∧
    (List.range 4).map x.get = [some 1, some 6, some 0, some 1] ∧ (List.range 4).map y.get = [some 1, some 6, some 0, some 1] :=
  ⟨⟨4, 4, [1, 6, 0, 1], [true, true, true, true]⟩, ⟨4, 4, [1, 6, 0, 1], [true, true, true, true]⟩, by decide +kernel⟩

/-- Logical or and and: the hypotheses of `C110_reach`. -/
example : Spec.Semiring or and ∧ ∀ x, or x x = x :=
  ⟨⟨by decide, by decide, by decide, by decide, by decide⟩, by decide⟩

example : Spec.NoGain (· ≤ ·) (· + ·) (Lil.get (α := Int) ⟨2, 2, 3, [[(0, 7), (1, 2)], [(0, 3)]]⟩) :=
  noGain_of_noNeg (noNeg_of_nonneg fun u v w h => (Ex.get_chk (A := ⟨2, 2, 3, [[(0, 7), (1, 2)], [(0, 3)]]⟩) (Lil.wf_chk (by decide))
    (P := fun w => 0 ≤ w) (by decide) h))

end GBTL
