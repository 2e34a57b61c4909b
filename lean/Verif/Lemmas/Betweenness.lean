import Verif.Spec.Betweenness
import Verif.Lemmas.BfsBatch
import Verif.Lemmas.Triangle
/-
Counting shortest paths (Brandes): the dependency of a source on a vertex follows from
those on its successors.
-/
namespace GBTL
open Spec

/-- The edge relation of a graph given by a Boolean function. -/
def bE (E : Nat → Nat → Bool) (u v : Nat) : Prop := E u v = true

/-- All edges are between vertices below `n`. -/
def EdgesIn (n : Nat) (E : Nat → Nat → Bool) : Prop := ∀ u v, E u v = true → u < n ∧ v < n

/-- The number of walks of `k` edges. -/
def cnt (n : Nat) (E : Nat → Nat → Bool) (k s t : Nat) : Nat := (walkList n E k s t).length

variable {n : Nat} {E : Nat → Nat → Bool}

theorem length_flatMap_range (n : Nat) (f : Nat → List (List Nat)) :
    ((List.range n).flatMap f).length = sumTo n (fun u => (f u).length) := by
  rw [List.length_flatMap, sumTo_eq]

theorem cnt_zero (s t : Nat) : cnt n E 0 s t = if s = t then 1 else 0 := by
  unfold cnt walkList
  split <;> rfl

theorem cnt_succ (k s t : Nat) :
    cnt n E (k + 1) s t = sumTo n (fun u => ind (E u t) * cnt n E k s u) := by
  unfold cnt
  rw [walkList, length_flatMap_range]
  refine sumTo_congr ?_
  intro u _
  cases E u t <;> simp [ind]

/-- A sum with one term that is not zero. -/
theorem sumTo_single {n i : Nat} (hi : i < n) {f : Nat → Nat} (h : ∀ j, j ≠ i → f j = 0) :
    sumTo n f = f i := by
  induction n with
  | zero => omega
  | succ n ih =>
    rw [sumTo]
    by_cases h' : i = n
    · subst h'
      have : sumTo i f = 0 := by
        rw [sumTo_congr (g := fun _ => 0) (fun j hj => h j (by omega)), sumTo_zero]
      omega
    · rw [ih (by omega), h n (by omega)]; omega

theorem sumTo_eq_zero {n : Nat} {f : Nat → Nat} (h : ∀ j, j < n → f j = 0) : sumTo n f = 0 := by
  rw [sumTo_congr h, sumTo_zero]

/-- The first step of a walk. -/
theorem cnt_first (hE : EdgesIn n E) (k s t : Nat) :
    cnt n E (k + 1) s t = sumTo n (fun u => ind (E s u) * cnt n E k u t) := by
  induction k generalizing t with
  | zero =>
    rw [cnt_succ]
    by_cases h : E s t = true
    · obtain ⟨hs, ht⟩ := hE s t h
      rw [sumTo_single hs (by intro j hj; rw [cnt_zero, if_neg (fun e => hj e.symm)]; rfl),
        sumTo_single ht (by intro j hj; rw [cnt_zero, if_neg hj]; rfl), cnt_zero, cnt_zero]
      simp
    · rw [sumTo_eq_zero, sumTo_eq_zero]
      · intro j _
        rw [cnt_zero]
        by_cases hj : j = t
        · subst hj; simp [ind, h]
        · simp [hj]
      · intro j _
        rw [cnt_zero]
        by_cases hj : s = j
        · subst hj; simp [ind, h]
        · simp [hj]
  | succ k ih =>
    rw [cnt_succ]
    rw [sumTo_congr (g := fun u => sumTo n (fun w => ind (E u t) * (ind (E s w) * cnt n E k w u)))
      (fun u _ => by rw [ih, sumTo_mul])]
    rw [sumTo_comm]
    refine sumTo_congr ?_
    intro w _
    rw [cnt_succ, ← sumTo_mul]
    refine sumTo_congr ?_
    intro u _
    rw [Nat.mul_left_comm]

theorem sumTo_pos {n : Nat} {f : Nat → Nat} : 0 < sumTo n f ↔ ∃ i, i < n ∧ 0 < f i := by
  constructor
  · intro h
    apply Classical.byContradiction
    intro hn
    rw [sumTo_eq_zero] at h
    · omega
    · intro j hj
      rcases Nat.eq_zero_or_pos (f j) with h' | h'
      · exact h'
      · exact absurd ⟨j, hj, h'⟩ hn
  · rintro ⟨i, hi, h⟩
    exact Nat.lt_of_lt_of_le h (sumTo_term hi)

/-- There is a walk iff the number of walks is not zero. -/
theorem cnt_pos (hE : EdgesIn n E) {k s t : Nat} : 0 < cnt n E k s t ↔ Walk (bE E) (· = s) k t := by
  induction k generalizing t with
  | zero =>
    rw [cnt_zero]
    show _ ↔ t = s
    constructor
    · intro h
      split at h
      · rename_i e; exact e.symm
      · omega
    · intro h; rw [if_pos h.symm]; omega
  | succ k ih =>
    rw [cnt_succ, sumTo_pos]
    show _ ↔ ∃ u, Walk (bE E) (· = s) k u ∧ bE E u t
    constructor
    · rintro ⟨u, -, h⟩
      have h1 : 0 < ind (E u t) := Nat.pos_of_mul_pos_right h
      have h2 : 0 < cnt n E k s u := Nat.pos_of_mul_pos_left h
      refine ⟨u, ih.1 h2, ?_⟩
      show E u t = true
      cases hE : E u t
      · rw [hE] at h1; exact absurd h1 (by decide)
      · rfl
    · rintro ⟨u, h1, h2⟩
      refine ⟨u, (hE u t h2).1, ?_⟩
      have h2 : E u t = true := h2
      rw [h2]
      have := ih.2 h1
      simp only [ind, if_true]; omega

/-- Walks put together. -/
theorem walk_append {E : Nat → Nat → Prop} {j k s v t : Nat} (h1 : Walk E (· = s) j v)
    (h2 : Walk E (· = v) k t) : Walk E (· = s) (j + k) t := by
  induction k generalizing t with
  | zero => have h2 : t = v := h2; subst h2; exact h1
  | succ k ih =>
    obtain ⟨u, hu, e⟩ := h2
    exact ⟨u, ih hu, e⟩

/-- The walks of `k` edges that visit `v`. -/
def thr (n : Nat) (E : Nat → Nat → Bool) (k s t v : Nat) : Nat :=
  ((walkList n E k s t).filter (·.contains v)).length

theorem thr_le (k s t v : Nat) : thr n E k s t v ≤ cnt n E k s t := List.length_filter_le _ _

theorem thr_end (k s t : Nat) : thr n E k s t t = cnt n E k s t := by
  unfold thr cnt
  rw [List.filter_eq_self.2]
  intro p hp
  cases k with
  | zero =>
    rw [walkList] at hp
    split at hp
    · simp at hp; subst hp; simp
    · cases hp
  | succ k =>
    rw [walkList, List.mem_flatMap] at hp
    obtain ⟨u, -, hp⟩ := hp
    split at hp
    · obtain ⟨q, -, rfl⟩ := List.mem_map.1 hp
      simp
    · cases hp

theorem thr_succ {k s t v : Nat} (hv : v ≠ t) :
    thr n E (k + 1) s t v = sumTo n (fun u => ind (E u t) * thr n E k s u v) := by
  unfold thr
  rw [walkList, List.filter_flatMap, length_flatMap_range]
  refine sumTo_congr ?_
  intro u _
  cases E u t
  · simp [ind]
  · simp only [if_true, ind, Nat.one_mul]
    rw [List.filter_map, List.length_map]
    congr 2
    funext p
    simp [hv]

/-- The number of shortest walks to `t` that visit `v` is the product of the numbers of
shortest walks from `s` to `v` and from `v` to `t`. -/
theorem thr_eq (hE : EdgesIn n E) {s t v d : Nat} (ht : HopDist (bE E) (· = s) t d) :
    (∀ i, HopDist (bE E) (· = s) v i → i ≤ d →
      thr n E d s t v = cnt n E i s v * cnt n E (d - i) v t) ∧
    (∀ i, HopDist (bE E) (· = s) v i → d < i → thr n E d s t v = 0) ∧
    (¬ Reachable (bE E) (· = s) v → thr n E d s t v = 0) := by
  induction d generalizing t with
  | zero =>
    obtain rfl : t = s := (hopDist_zero (S := (· = s))).1 ht
    have h0 : thr n E 0 t t v = if v = t then 1 else 0 := by
      unfold thr
      rw [walkList, if_pos rfl]
      by_cases h : v = t
      · subst h; simp
      · simp [h]
    refine ⟨?_, ?_, ?_⟩
    · intro i hi hle
      obtain rfl : i = 0 := by omega
      obtain rfl : v = t := (hopDist_zero (S := (· = t))).1 hi
      rw [h0, if_pos rfl, cnt_zero]; simp [cnt_zero]
    · intro i hi hlt
      rw [h0, if_neg]
      intro e
      subst e
      have := (hopDist_zero (E := bE E) (S := (· = v)) (v := v)).2 rfl
      have := hi.unique this
      omega
    · intro hr
      rw [h0, if_neg]
      intro e
      subst e
      exact hr ⟨0, rfl⟩
  | succ d ih =>
    by_cases hv : v = t
    · subst hv
      refine ⟨?_, ?_, ?_⟩
      · intro i hi _
        have := hi.unique ht
        subst this
        rw [thr_end, Nat.sub_self, cnt_zero, if_pos rfl, Nat.mul_one]
      · intro i hi hlt
        have := hi.unique ht
        omega
      · intro hr
        exact absurd ⟨_, ht.1⟩ hr
    · rw [thr_succ hv]
      -- a predecessor with walks of `d` edges is at distance `d`
      have hd : ∀ u, E u t = true → 0 < cnt n E d s u → HopDist (bE E) (· = s) u d := by
        intro u he hc
        have hw := (cnt_pos hE).1 hc
        refine ⟨hw, ?_⟩
        intro k hk
        have := ht.2 (k + 1) ⟨u, hk, he⟩
        omega
      have hz : ∀ u, (E u t = true → HopDist (bE E) (· = s) u d → thr n E d s u v = 0) →
          ind (E u t) * thr n E d s u v = 0 := by
        intro u h
        cases he : E u t
        · simp [ind]
        · rcases Nat.eq_zero_or_pos (cnt n E d s u) with h0 | h0
          · have := thr_le (n := n) (E := E) d s u v
            have : thr n E d s u v = 0 := by omega
            rw [this]; rfl
          · rw [h he (hd u he h0)]; rfl
      refine ⟨?_, ?_, ?_⟩
      · intro i hi hle
        rcases Nat.lt_or_ge d i with hlt | hge
        · obtain rfl : i = d + 1 := by omega
          rw [Nat.sub_self, cnt_zero, if_neg hv, Nat.mul_zero]
          exact sumTo_eq_zero (fun u _ => hz u (fun _ hu => (ih hu).2.1 _ hi (by omega)))
        · obtain ⟨e, rfl⟩ : ∃ e, d = i + e := ⟨d - i, by omega⟩
          rw [show i + e + 1 - i = e + 1 by omega, cnt_succ, ← sumTo_mul]
          refine sumTo_congr ?_
          intro u _
          rw [Nat.mul_left_comm]
          cases he : E u t
          · simp [ind]
          · simp only [ind, if_true, Nat.one_mul]
            rcases Nat.eq_zero_or_pos (cnt n E (i + e) s u) with h0 | h0
            · have := thr_le (n := n) (E := E) (i + e) s u v
              have h1 : thr n E (i + e) s u v = 0 := by omega
              rw [h1]
              rcases Nat.eq_zero_or_pos (cnt n E e v u) with h2 | h2
              · rw [h2]; rfl
              · have := (cnt_pos hE).2 (walk_append hi.1 ((cnt_pos hE).1 h2))
                omega
            · rw [(ih (hd u he h0)).1 i hi (by omega), show i + e - i = e by omega]
      · intro i hi hlt
        exact sumTo_eq_zero (fun u _ => hz u (fun _ hu => (ih hu).2.1 _ hi (by omega)))
      · intro hr
        exact sumTo_eq_zero (fun u _ => hz u (fun _ hu => (ih hu).2.2 hr))

/-- The shortest paths are the walks whose number of edges is the hop distance. -/
theorem shortestPaths_eq (hE : EdgesIn n E) {s t d : Nat} (hs : s < n)
    (h : HopDist (bE E) (· = s) t d) : shortestPaths n E s t = walkList n E d s t := by
  have hdn : d < n := hopDist_lt (E := bE E) (S := (· = s)) (fun u v e => (hE u v e).2)
    (fun v e => by subst e; exact hs) h
  have hne : ∀ k, (!(walkList n E k s t).isEmpty) = true ↔ Walk (bE E) (· = s) k t := by
    intro k
    rw [← cnt_pos hE, cnt]
    cases walkList n E k s t <;> simp
  unfold shortestPaths
  have hf : (List.range n).find? (fun k => !(walkList n E k s t).isEmpty) = some d := by
    rw [List.find?_range_eq_some]
    refine ⟨(hne d).2 h.1, by simpa using hdn, ?_⟩
    intro j hj
    cases hb : (!(walkList n E j s t).isEmpty)
    · rfl
    · have := h.2 j ((hne j).1 hb)
      omega
  rw [hf]

/-- Without a walk there is no shortest path. -/
theorem shortestPaths_none (hE : EdgesIn n E) {s t : Nat} (h : ¬ Reachable (bE E) (· = s) t) :
    shortestPaths n E s t = [] := by
  have h0 : ∀ k, walkList n E k s t = [] := by
    intro k
    rcases Nat.eq_zero_or_pos (cnt n E k s t) with h' | h'
    · exact List.eq_nil_of_length_eq_zero h'
    · exact absurd ⟨k, (cnt_pos hE).1 h'⟩ h
  unfold shortestPaths
  split
  · exact h0 _
  · rfl

end GBTL

namespace GBTL
open Spec

/-! ### sums of rational numbers -/

/-- `f 0 + … + f (n - 1)`. -/
def rsum : Nat → (Nat → Rat) → Rat
  | 0, _ => 0
  | n + 1, f => rsum n f + f n

theorem rat_sum_append (l m : List Rat) : (l ++ m).sum = l.sum + m.sum := by
  induction l with
  | nil => simp [Rat.zero_add]
  | cons a l ih => simp [List.sum_cons, ih, Rat.add_assoc]

theorem rsum_eq (n : Nat) (f : Nat → Rat) : ((List.range n).map f).sum = rsum n f := by
  induction n with
  | zero => rfl
  | succ n ih =>
    rw [List.range_succ, List.map_append, rat_sum_append, ih]
    simp [rsum, Rat.add_zero]

theorem rsum_congr {n : Nat} {f g : Nat → Rat} (h : ∀ i, i < n → f i = g i) : rsum n f = rsum n g := by
  induction n with
  | zero => rfl
  | succ n ih => rw [rsum, rsum, ih (fun i hi => h i (by omega)), h n (by omega)]

theorem rsum_zero (n : Nat) : rsum n (fun _ => 0) = 0 := by
  induction n with
  | zero => rfl
  | succ n ih => rw [rsum, ih, Rat.add_zero]

theorem rsum_eq_zero {n : Nat} {f : Nat → Rat} (h : ∀ i, i < n → f i = 0) : rsum n f = 0 := by
  rw [rsum_congr h, rsum_zero]

theorem rsum_add (n : Nat) (f g : Nat → Rat) : rsum n (fun i => f i + g i) = rsum n f + rsum n g := by
  induction n with
  | zero => exact (Rat.add_zero 0).symm
  | succ n ih => rw [rsum, rsum, rsum, ih]; grind

theorem rsum_mul (n : Nat) (c : Rat) (f : Nat → Rat) : rsum n (fun i => c * f i) = c * rsum n f := by
  induction n with
  | zero => exact (Rat.mul_zero c).symm
  | succ n ih => rw [rsum, rsum, ih]; grind

theorem rsum_div (n : Nat) (c : Rat) (f : Nat → Rat) : rsum n (fun i => f i / c) = rsum n f / c := by
  induction n with
  | zero => rw [rsum, rsum]; grind
  | succ n ih => rw [rsum, rsum, ih]; grind

theorem rsum_comm (m n : Nat) (f : Nat → Nat → Rat) :
    rsum m (fun i => rsum n (f i)) = rsum n (fun j => rsum m (fun i => f i j)) := by
  induction m with
  | zero => exact (rsum_zero n).symm
  | succ m ih => rw [rsum, ih, ← rsum_add]; rfl

theorem rsum_single {n i : Nat} (hi : i < n) {f : Nat → Rat} (h : ∀ j, j < n → j ≠ i → f j = 0) :
    rsum n f = f i := by
  induction n with
  | zero => omega
  | succ n ih =>
    rw [rsum]
    by_cases h' : i = n
    · subst h'
      rw [rsum_eq_zero (fun j hj => h j (by omega) (by omega)), Rat.zero_add]
    · rw [ih (by omega) (fun j hj => h j (by omega)), h n (by omega) (by omega), Rat.add_zero]

theorem rsum_cast (n : Nat) (f : Nat → Nat) : ((sumTo n f : Nat) : Rat) = rsum n (fun i => (f i : Rat)) := by
  induction n with
  | zero => rfl
  | succ n ih => rw [sumTo, rsum, Rat.natCast_add, ih]

/-! ### Brandes' recurrence -/

variable {n : Nat} {E : Nat → Nat → Bool}

/-- The hop distance from `s`, if there is one. -/
def hops (n : Nat) (E : Nat → Nat → Bool) (s t : Nat) : Option Nat :=
  (List.range n).find? (fun k => !(walkList n E k s t).isEmpty)

theorem hops_some (hE : EdgesIn n E) {s : Nat} (hs : s < n) {t d : Nat} :
    hops n E s t = some d ↔ HopDist (bE E) (· = s) t d := by
  have hne : ∀ k, (!(walkList n E k s t).isEmpty) = true ↔ Walk (bE E) (· = s) k t := by
    intro k
    rw [← cnt_pos hE, cnt]
    cases walkList n E k s t <;> simp
  have key : ∀ d, HopDist (bE E) (· = s) t d → hops n E s t = some d := by
    intro d h
    have hdn : d < n := hopDist_lt (E := bE E) (S := (· = s)) (fun u v e => (hE u v e).2)
      (fun v e => by subst e; exact hs) h
    unfold hops
    rw [List.find?_range_eq_some]
    refine ⟨(hne d).2 h.1, by simpa using hdn, ?_⟩
    intro j hj
    cases hb : (!(walkList n E j s t).isEmpty)
    · rfl
    · have := h.2 j ((hne j).1 hb)
      omega
  refine ⟨?_, key d⟩
  intro h
  have h1 := List.find?_some (p := fun k => !(walkList n E k s t).isEmpty) h
  have hw := (hne d).1 h1
  obtain ⟨e, -, he⟩ := Walk.dist hw
  have := key e he
  rw [h] at this
  cases this
  exact he

theorem hops_none (hE : EdgesIn n E) {s : Nat} (hs : s < n) {t : Nat} :
    hops n E s t = none ↔ ¬ Reachable (bE E) (· = s) t := by
  constructor
  · rintro h ⟨k, hk⟩
    obtain ⟨e, -, he⟩ := Walk.dist hk
    rw [(hops_some hE hs).2 he] at h
    cases h
  · intro h
    cases ht : hops n E s t with
    | none => rfl
    | some d => exact absurd ⟨d, ((hops_some hE hs).1 ht).1⟩ h

/-- The number of shortest paths from `s` to `v`. -/
def spc (n : Nat) (E : Nat → Nat → Bool) (s v : Nat) : Nat := (shortestPaths n E s v).length

theorem spc_eq (hE : EdgesIn n E) {s v d : Nat} (hs : s < n) (h : hops n E s v = some d) :
    spc n E s v = cnt n E d s v := by
  unfold spc cnt
  rw [shortestPaths_eq hE hs ((hops_some hE hs).1 h)]

theorem spc_none (hE : EdgesIn n E) {s v : Nat} (hs : s < n) (h : hops n E s v = none) :
    spc n E s v = 0 := by
  unfold spc
  rw [shortestPaths_none hE ((hops_none hE hs).1 h)]; rfl

theorem spc_pos (hE : EdgesIn n E) {s v d : Nat} (hs : s < n) (h : hops n E s v = some d) :
    0 < spc n E s v := by
  rw [spc_eq hE hs h]
  exact (cnt_pos hE).2 ((hops_some hE hs).1 h).1

theorem spc_ne (hE : EdgesIn n E) {s v d : Nat} (hs : s < n) (h : hops n E s v = some d) :
    ((spc n E s v : Nat) : Rat) ≠ 0 := by
  have := spc_pos hE hs h
  simp; omega

theorem spc_self (hE : EdgesIn n E) {s : Nat} (hs : s < n) : spc n E s s = 1 := by
  rw [spc_eq hE hs ((hops_some hE hs).2 (hopDist_zero.2 rfl)), cnt_zero, if_pos rfl]

/-- The walks from `v` to `t` that end shortest paths from `s`, as a fraction of the
shortest paths from `s` to `t`. -/
def frac (n : Nat) (E : Nat → Nat → Bool) (s v t : Nat) : Rat :=
  match hops n E s v, hops n E s t with
  | some i, some d => if i ≤ d then (cnt n E (d - i) v t : Rat) / (spc n E s t : Rat) else 0
  | _, _ => 0

/-- One plus the dependency. -/
def dep1 (n : Nat) (E : Nat → Nat → Bool) (s v : Nat) : Rat :=
  if (hops n E s v).isSome then (spc n E s v : Rat) * rsum n (frac n E s v) else 1

theorem passing_eq (hE : EdgesIn n E) {s v i : Nat} (hs : s < n) (hv : hops n E s v = some i) (t : Nat) :
    passing n E s t v = (spc n E s v : Rat) * frac n E s v t := by
  unfold passing frac
  rw [hv]
  cases ht : hops n E s t with
  | none =>
    rw [shortestPaths_none hE ((hops_none hE hs).1 ht)]
    simp only [List.filter_nil, List.length_nil, Rat.mul_zero]
    grind
  | some d =>
    have hd := (hops_some hE hs).1 ht
    have hi := (hops_some hE hs).1 hv
    obtain ⟨h1, h2, -⟩ := thr_eq hE hd (v := v)
    have e1 := spc_eq hE hs ht
    rw [shortestPaths_eq hE hs hd]
    show ((thr n E d s t v : Nat) : Rat) / ((cnt n E d s t : Nat) : Rat) = _
    simp only
    rw [e1]
    split
    · rename_i hle
      rw [h1 i hi hle, spc_eq hE hs hv, Rat.natCast_mul]
      grind
    · rename_i hle
      rw [h2 i hi (by omega), Rat.mul_zero]
      grind

theorem passing_none (hE : EdgesIn n E) {s v : Nat} (hs : s < n) (hv : hops n E s v = none) (t : Nat) :
    passing n E s t v = 0 := by
  unfold passing
  cases ht : hops n E s t with
  | none =>
    rw [shortestPaths_none hE ((hops_none hE hs).1 ht)]
    simp only [List.filter_nil, List.length_nil]
    grind
  | some d =>
    have hd := (hops_some hE hs).1 ht
    have := (thr_eq hE hd (v := v)).2.2 ((hops_none hE hs).1 hv)
    rw [shortestPaths_eq hE hs hd]
    show ((thr n E d s t v : Nat) : Rat) / _ = _
    rw [this]
    grind

theorem frac_self {s v i : Nat} (hv : hops n E s v = some i) :
    frac n E s v v = 1 / (spc n E s v : Rat) := by
  unfold frac
  rw [hv]
  simp only [Nat.le_refl, if_true, Nat.sub_self]
  rw [cnt_zero, if_pos rfl]
  rfl

/-- The dependency of a source on another vertex. -/
theorem dependency_eq (hE : EdgesIn n E) {s v : Nat} (hs : s < n) (hvn : v < n) (hne : v ≠ s) :
    dependency n E s v = dep1 n E s v - 1 := by
  unfold dependency dep1
  rw [if_neg hne, rsum_eq]
  cases hv : hops n E s v with
  | none =>
    rw [rsum_eq_zero]
    · simp; grind
    · intro t _
      split
      · rfl
      · exact passing_none hE hs hv t
  | some i =>
    have h0 := spc_ne hE hs hv
    have h1 : rsum n (frac n E s v) =
        rsum n (fun t => if t = v then 0 else frac n E s v t) + 1 / (spc n E s v : Rat) := by
      rw [← frac_self hv]
      have : rsum n (fun t => if t = v then frac n E s v t else 0) = frac n E s v v := by
        rw [rsum_single hvn (by intro j _ hj; rw [if_neg hj]), if_pos rfl]
      rw [← this, ← rsum_add]
      refine rsum_congr ?_
      intro t _
      split <;> grind
    rw [h1]
    simp only [Option.isSome_some, if_true]
    rw [rsum_congr (g := fun t => (spc n E s v : Rat) * (if t = v then 0 else frac n E s v t)), rsum_mul]
    · grind
    · intro t _
      split
      · grind
      · exact passing_eq hE hs hv t

/-- Of the walks that end shortest paths, the first step leads one hop further. -/
theorem frac_step (hE : EdgesIn n E) {s v i : Nat} (hs : s < n) (hv : hops n E s v = some i) (t : Nat) :
    frac n E s v t = (if t = v then 1 / (spc n E s v : Rat) else 0) +
      rsum n (fun w => if E v w = true ∧ hops n E s w = some (i + 1) then frac n E s w t else 0) := by
  by_cases htv : t = v
  · subst htv
    rw [if_pos rfl, frac_self hv, rsum_eq_zero, Rat.add_zero]
    intro w _
    split
    · rename_i h
      unfold frac
      rw [h.2, hv]
      simp only
      rw [if_neg (by omega)]
    · rfl
  · rw [if_neg htv, Rat.zero_add]
    cases ht : hops n E s t with
    | none =>
      rw [rsum_eq_zero]
      · unfold frac; rw [hv, ht]
      · intro w _
        split
        · unfold frac; rw [ht]; split <;> simp_all
        · rfl
    | some d =>
      have hd := (hops_some hE hs).1 ht
      have hi := (hops_some hE hs).1 hv
      rcases Nat.lt_or_ge i d with hlt | hge
      · obtain ⟨e, rfl⟩ : ∃ e, d = i + e + 1 := ⟨d - i - 1, by omega⟩
        have h1 : frac n E s v t = (cnt n E (e + 1) v t : Rat) / (spc n E s t : Rat) := by
          unfold frac
          rw [hv, ht]
          simp only
          rw [if_pos (by omega), show i + e + 1 - i = e + 1 by omega]
        rw [h1, cnt_first hE, rsum_cast, ← rsum_div]
        refine rsum_congr ?_
        intro w _
        by_cases hw : E v w = true ∧ hops n E s w = some (i + 1)
        · rw [if_pos hw]
          unfold frac
          rw [hw.2, ht]
          simp only
          rw [if_pos (by omega), show i + e + 1 - (i + 1) = e by omega, hw.1]
          simp [ind]
        · rw [if_neg hw]
          have : ind (E v w) * cnt n E e w t = 0 := by
            cases he : E v w
            · simp [ind]
            · rcases Nat.eq_zero_or_pos (cnt n E e w t) with h0 | h0
              · rw [h0]; rfl
              · exfalso
                refine hw ⟨he, ?_⟩
                rw [hops_some hE hs]
                have hw1 : Walk (bE E) (· = s) (i + 1) w := ⟨v, hi.1, he⟩
                refine ⟨hw1, ?_⟩
                intro k hk
                have := hd.2 _ (walk_append hk ((cnt_pos hE).1 h0))
                omega
          rw [this]
          grind
      · rw [rsum_eq_zero]
        · unfold frac
          rw [hv, ht]
          simp only
          split
          · rename_i hle
            obtain rfl : i = d := by omega
            rw [Nat.sub_self, cnt_zero, if_neg (fun e => htv e.symm)]
            grind
          · rfl
        · intro w _
          split
          · rename_i h
            unfold frac
            rw [h.2, ht]
            simp only
            rw [if_neg (by omega)]
          · rfl

/-- **Brandes' recurrence**: one plus the dependency on a vertex is one plus the sum over
its successors one hop further from the source. -/
theorem dep1_rec (hE : EdgesIn n E) {s v i : Nat} (hs : s < n) (hvn : v < n)
    (hv : hops n E s v = some i) :
    dep1 n E s v = 1 + (spc n E s v : Rat) * rsum n (fun w =>
      if E v w = true ∧ hops n E s w = some (i + 1) then dep1 n E s w / (spc n E s w : Rat) else 0) := by
  have h0 := spc_ne hE hs hv
  have e : rsum n (frac n E s v) = 1 / (spc n E s v : Rat) + rsum n (fun w =>
      if E v w = true ∧ hops n E s w = some (i + 1) then dep1 n E s w / (spc n E s w : Rat) else 0) := by
    rw [rsum_congr (fun t _ => frac_step hE hs hv t), rsum_add]
    congr 1
    · rw [rsum_single hvn (by intro j _ hj; rw [if_neg hj]), if_pos rfl]
    · rw [rsum_comm]
      refine rsum_congr ?_
      intro w _
      split
      · rename_i hw
        rw [dep1, hw.2]
        have := spc_ne hE hs hw.2
        simp only [Option.isSome_some, if_true]
        show rsum n (frac n E s w) = _
        grind
      · exact rsum_zero n
  unfold dep1 at *
  rw [if_pos (by rw [hv]; rfl), e]
  grind

/-- A vertex none of whose successors is further from the source. -/
theorem dep1_last (hE : EdgesIn n E) {s v i : Nat} (hs : s < n) (hvn : v < n)
    (hv : hops n E s v = some i) (h : ∀ w, hops n E s w ≠ some (i + 1)) : dep1 n E s v = 1 := by
  rw [dep1_rec hE hs hvn hv, rsum_eq_zero]
  · grind
  · intro w _
    rw [if_neg (fun hw => h w hw.2)]

end GBTL
