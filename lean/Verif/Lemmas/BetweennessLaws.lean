import Verif.Spec.PathLength
import Verif.Lemmas.EdgeBetweenness
import Verif.Lemmas.Renumber
import Verif.Lemmas.PageRankMath
/-
Laws of betweenness centrality: totals, bounds, reversal and renumbering.
-/
namespace GBTL
open Spec

variable {n : Nat} {E E' : Nat → Nat → Bool}

theorem walkList_length {k s t : Nat} {p : List Nat} (h : p ∈ walkList n E k s t) : p.length = k + 1 := by
  induction k generalizing t p with
  | zero =>
    rw [walkList] at h
    split at h
    · rw [List.mem_singleton.1 h]; rfl
    · cases h
  | succ k ih =>
    rw [walkList] at h
    obtain ⟨u, _, h⟩ := List.mem_flatMap.1 h
    split at h
    · obtain ⟨q, hq, rfl⟩ := List.mem_map.1 h
      simp [ih hq]
    · cases h

theorem pathLength_eq (hE : EdgesIn n E) {s t d : Nat} (hs : s < n) (h : hops n E s t = some d) :
    pathLength n E s t = d := by
  have hh := (hops_some hE hs).1 h
  have hp := spc_pos hE hs h
  unfold spc at hp
  unfold pathLength
  cases hl : shortestPaths n E s t with
  | nil => rw [hl] at hp; cases hp
  | cons p l =>
    have : p ∈ walkList n E d s t := by rw [← shortestPaths_eq hE hs hh, hl]; simp
    simp [walkList_length this]

theorem pathLength_none (hE : EdgesIn n E) {s t : Nat} (hs : s < n) (h : hops n E s t = none) :
    pathLength n E s t = 0 := by
  unfold pathLength
  rw [shortestPaths_none hE ((hops_none hE hs).1 h)]

/-- A walk to a neighbour of a vertex one step further away is a shortest one. -/
theorem hopDist_before {s t u d : Nat} (h : HopDist (bE E) (· = s) t (d + 1)) (hw : Walk (bE E) (· = s) d u)
    (he : E u t = true) : HopDist (bE E) (· = s) u d :=
  ⟨hw, fun k hk => by have := h.2 (k + 1) ⟨u, hk, he⟩; omega⟩

/-- All shortest paths together visit as many vertices as they have. -/
theorem thr_total (hE : EdgesIn n E) {s : Nat} (hs : s < n) : ∀ {d t : Nat}, HopDist (bE E) (· = s) t d →
    sumTo n (fun v => thr n E d s t v) = (d + 1) * cnt n E d s t := by
  intro d
  induction d with
  | zero =>
    intro t h
    have ht : t = s := h.1
    subst ht
    rw [sumTo_single hs (fun v hv => ?_), thr_end, Nat.zero_add, Nat.one_mul]
    unfold thr
    rw [walkList, if_pos rfl]
    simp [hv]
  | succ d ih =>
    intro t h
    have htn : t < n := by
      obtain ⟨u, _, e⟩ := h.1
      exact (hE u t e).2
    have hterm : ∀ v, v < n → thr n E (d + 1) s t v =
        (if v = t then cnt n E (d + 1) s t else 0) + sumTo n (fun u => ind (E u t) * thr n E d s u v) := by
      intro v _
      by_cases hv : v = t
      · subst hv
        suffices hz : sumTo n (fun u => ind (E u v) * thr n E d s u v) = 0 by
          rw [if_pos rfl, thr_end, hz]
          rfl
        refine sumTo_eq_zero fun u _ => ?_
        cases he : E u v with
        | false => rw [show ind false = 0 from rfl, Nat.zero_mul]
        | true =>
          rcases Nat.eq_zero_or_pos (cnt n E d s u) with hz | hp
          · have := thr_le (n := n) (E := E) d s u v
            rw [show thr n E d s u v = 0 by omega, Nat.mul_zero]
          · have := (thr_eq hE (hopDist_before h ((cnt_pos hE).1 hp) he) (v := v)).2.1 (d + 1) h (by omega)
            rw [this, Nat.mul_zero]
      · rw [if_neg hv, Nat.zero_add, thr_succ hv]
    rw [sumTo_congr hterm, sumTo_add, sumTo_single htn (fun v hv => if_neg hv), if_pos rfl, sumTo_comm]
    have : ∀ u, u < n → sumTo n (fun v => ind (E u t) * thr n E d s u v) = (d + 1) * (ind (E u t) * cnt n E d s u) := by
      intro u _
      rw [sumTo_mul]
      cases he : E u t with
      | false => simp [ind]
      | true =>
        rcases Nat.eq_zero_or_pos (cnt n E d s u) with hz | hp
        · rw [sumTo_eq_zero (fun v _ => by have := thr_le (n := n) (E := E) d s u v; omega), hz]
          simp
        · rw [ih (hopDist_before h ((cnt_pos hE).1 hp) he)]
          simp [ind]
    rw [sumTo_congr this, sumTo_mul, ← cnt_succ, Nat.add_mul (d + 1) 1, Nat.one_mul, Nat.add_comm]

theorem passing_source (hE : EdgesIn n E) {s t d : Nat} (hs : s < n) (h : hops n E s t = some d) :
    passing n E s t s = 1 := by
  have hh := (hops_some hE hs).1 h
  have h0 := spc_ne hE hs h
  unfold spc at h0
  unfold passing
  rw [shortestPaths_eq hE hs hh] at h0 ⊢
  have h1 : thr n E d s t s = cnt n E d s t := by
    rw [(thr_eq hE hh (v := s)).1 0 (hopDist_zero.2 rfl) (Nat.zero_le _), cnt_zero, if_pos rfl, Nat.one_mul, Nat.sub_zero]
  unfold thr cnt at h1
  rw [h1]
  rw [Rat.div_def, Rat.mul_inv_cancel _ h0]

theorem passing_target (hE : EdgesIn n E) {s t d : Nat} (hs : s < n) (h : hops n E s t = some d) :
    passing n E s t t = 1 := by
  have hh := (hops_some hE hs).1 h
  have h0 := spc_ne hE hs h
  unfold spc at h0
  unfold passing
  rw [shortestPaths_eq hE hs hh] at h0 ⊢
  have h1 := thr_end (n := n) (E := E) d s t
  unfold thr cnt at h1
  rw [h1]
  rw [Rat.div_def, Rat.mul_inv_cancel _ h0]

theorem passing_total (hE : EdgesIn n E) {s t d : Nat} (hs : s < n) (h : hops n E s t = some d) :
    rsum n (passing n E s t) = (d : Rat) + 1 := by
  have hh := (hops_some hE hs).1 h
  have h0 := spc_ne hE hs h
  have h2 := thr_total hE hs hh
  have h3 : rsum n (fun v => passing n E s t v) = rsum n (fun v => (thr n E d s t v : Rat) / (spc n E s t : Rat)) := by
    refine rsum_congr fun v _ => ?_
    unfold passing spc thr
    rw [shortestPaths_eq hE hs hh]
  show rsum n (fun v => passing n E s t v) = _
  rw [h3, rsum_div, ← rsum_cast, h2, spc_eq hE hs h]
  rw [spc_eq hE hs h] at h0
  rw [Rat.natCast_mul, Rat.natCast_add]
  grind

theorem passing_unreachable (hE : EdgesIn n E) {s t : Nat} (hs : s < n) (h : hops n E s t = none) (v : Nat) :
    passing n E s t v = 0 := by
  unfold passing
  rw [shortestPaths_none hE ((hops_none hE hs).1 h)]
  simp
  grind

/-- The part of `s` and `t` in the betweenness of `v`. -/
def mid (n : Nat) (E : Nat → Nat → Bool) (s t v : Nat) : Rat := if v = s ∨ v = t then 0 else passing n E s t v

theorem dependency_mid (s v : Nat) : dependency n E s v = rsum n (fun t => mid n E s t v) := by
  unfold dependency mid
  by_cases h : v = s
  · rw [if_pos h, rsum_eq_zero (fun t _ => if_pos (.inl h))]
  · rw [if_neg h, rsum_eq]
    refine rsum_congr fun t _ => ?_
    by_cases ht : v = t
    · rw [if_pos ht.symm, if_pos (.inr ht)]
    · rw [if_neg (fun e => ht e.symm), if_neg (fun e => e.elim h ht)]

theorem mid_total (hE : EdgesIn n E) {s t : Nat} (hs : s < n) (ht : t < n) :
    rsum n (mid n E s t) = (inner n E s t : Nat) := by
  unfold inner
  cases h : hops n E s t with
  | none =>
    rw [pathLength_none hE hs h, rsum_eq_zero (fun v _ => ?_)]
    · rfl
    · unfold mid
      split
      · rfl
      · exact passing_unreachable hE hs h v
  | some d =>
    rw [pathLength_eq hE hs h]
    have hp := passing_total hE hs h
    have e : rsum n (mid n E s t) + (rsum n (fun v => if v = s then 1 else 0) +
        rsum n (fun v => if v = t ∧ t ≠ s then 1 else 0)) = rsum n (passing n E s t) := by
      rw [← rsum_add, ← rsum_add]
      refine rsum_congr fun v _ => ?_
      unfold mid
      by_cases h1 : v = s
      · subst h1
        rw [if_pos (.inl rfl), if_pos rfl, if_neg (fun h => h.2 h.1.symm), passing_source hE hs h]
        grind
      · by_cases h2 : v = t
        · subst h2
          rw [if_pos (.inr rfl), if_neg h1, if_pos ⟨rfl, h1⟩, passing_target hE hs h]
          grind
        · rw [if_neg (fun h => h.elim h1 h2), if_neg h1, if_neg (fun h => h2 h.1)]
          grind
    rw [hp, rsum_single hs (fun j _ hj => if_neg hj), if_pos rfl] at e
    by_cases hts : t = s
    · subst hts
      have h0 : d = 0 := by
        have := (hops_some hE hs).2 (hopDist_zero (E := bE E) (S := (· = t)) (v := t) |>.2 rfl)
        rw [h] at this
        exact Option.some.inj this
      subst h0
      rw [rsum_eq_zero (fun v _ => if_neg (fun h => h.2 rfl))] at e
      simp only [Nat.zero_sub] at e ⊢
      grind
    · have hd : d ≠ 0 := by
        intro h0
        subst h0
        exact hts ((hops_some hE hs).1 h).1
      rw [rsum_single ht (fun j _ hj => if_neg (fun h => hj h.1)), if_pos ⟨rfl, hts⟩] at e
      obtain ⟨k, rfl⟩ := Nat.exists_eq_succ_of_ne_zero hd
      rw [Nat.succ_sub_one]
      rw [Nat.succ_eq_add_one, Rat.natCast_add] at e
      grind

theorem dependency_total (hE : EdgesIn n E) {s : Nat} (hs : s < n) :
    rsum n (dependency n E s) = (sumTo n (inner n E s) : Nat) := by
  rw [rsum_congr (fun v _ => dependency_mid s v), rsum_comm, rsum_cast]
  exact rsum_congr fun t ht => mid_total hE hs ht

theorem rsum_list (n : Nat) (l : List Nat) (f : Nat → Nat → Rat) :
    rsum n (fun v => (l.map fun s => f s v).sum) = (l.map fun s => rsum n (f s)).sum := by
  induction l with
  | nil => exact rsum_zero n
  | cons a l ih =>
    rw [List.map_cons, List.sum_cons, ← ih, ← rsum_add]
    exact rsum_congr fun v _ => by rw [List.map_cons, List.sum_cons]

theorem cast_list (l : List Nat) (f : Nat → Nat) : ((l.map f).sum : Nat) = (l.map fun s => ((f s : Nat) : Rat)).sum := by
  induction l with
  | nil => rfl
  | cons a l ih => rw [List.map_cons, List.sum_cons, Rat.natCast_add, ih, List.map_cons, List.sum_cons]

/-- The betweennesses add up to the number of inner vertices of shortest paths. -/
theorem betweenness_total (hE : EdgesIn n E) {l : List Nat} (hl : ∀ s ∈ l, s < n) :
    ((List.range n).map (betweenness n E l)).sum =
      ((l.map fun s => ((List.range n).map (inner n E s)).sum).sum : Nat) := by
  rw [rsum_eq, cast_list]
  show rsum n (fun v => (l.map fun s => dependency n E s v).sum) = _
  rw [rsum_list]
  congr 1
  refine List.map_congr_left fun s hs => ?_
  rw [dependency_total hE (hl s hs), sumTo_eq]

/-! ### Reversal and renumbering -/

theorem thr_zero (s t v : Nat) : thr n E 0 s t v = if s = t ∧ v = t then 1 else 0 := by
  unfold thr
  rw [walkList]
  by_cases h : s = t
  · by_cases h2 : v = t <;> simp [h, h2]
  · simp [h]

theorem hops_congr {s t s' t' : Nat} (h : ∀ k, cnt n E' k s' t' = cnt n E k s t) : hops n E' s' t' = hops n E s t := by
  unfold hops
  congr 1
  funext k
  have := h k
  unfold cnt at this
  rw [Bool.eq_iff_iff]
  simp only [Bool.not_eq_true', List.isEmpty_eq_false_iff, ← List.length_pos_iff]
  omega

theorem passing_hops (s t v : Nat) : passing n E s t v =
    match hops n E s t with
    | some k => (thr n E k s t v : Rat) / (cnt n E k s t : Rat)
    | none => 0 := by
  have e : shortestPaths n E s t = match hops n E s t with
    | some k => walkList n E k s t
    | none => [] := rfl
  unfold passing
  rw [e]
  cases hops n E s t with
  | some k => rfl
  | none =>
    simp
    grind

theorem opposite_in (hE : EdgesIn n E) : EdgesIn n (opposite E) := fun u v h => ⟨(hE v u h).2, (hE v u h).1⟩

theorem cnt_opposite (hE : EdgesIn n E) (k s t : Nat) : cnt n (opposite E) k t s = cnt n E k s t := by
  induction k generalizing s t with
  | zero => rw [cnt_zero, cnt_zero]; simp only [eq_comm]
  | succ k ih =>
    rw [cnt_succ, cnt_first hE]
    exact sumTo_congr fun u _ => by rw [ih]; rfl

theorem hopDist_cnt (hE : EdgesIn n E) {s t d : Nat} :
    HopDist (bE E) (· = s) t d ↔ 0 < cnt n E d s t ∧ ∀ k, 0 < cnt n E k s t → d ≤ k := by
  unfold HopDist
  simp only [cnt_pos hE]

theorem hopDist_opposite (hE : EdgesIn n E) {s t d : Nat} :
    HopDist (bE (opposite E)) (· = t) s d ↔ HopDist (bE E) (· = s) t d := by
  rw [hopDist_cnt (opposite_in hE), hopDist_cnt hE]
  simp only [cnt_opposite hE]

/-- A vertex on a shortest path is on it at its distance from the source. -/
theorem thr_pos (hE : EdgesIn n E) {s t v d : Nat} (ht : HopDist (bE E) (· = s) t d) (h : 0 < thr n E d s t v) :
    ∃ i, i ≤ d ∧ HopDist (bE E) (· = s) v i ∧ HopDist (bE E) (· = v) t (d - i) := by
  obtain ⟨h1, h2, h3⟩ := thr_eq hE ht (v := v)
  by_cases hr : Reachable (bE E) (· = s) v
  · obtain ⟨i, -, hi⟩ := Walk.dist hr.choose_spec
    by_cases hid : i ≤ d
    · rw [h1 i hi hid] at h
      refine ⟨i, hid, hi, (cnt_pos hE).1 (Nat.pos_of_ne_zero fun h0 => by simp [h0] at h), fun k hk => ?_⟩
      have := ht.2 (i + k) (walk_append hi.1 hk)
      omega
    · rw [h2 i hi (by omega)] at h
      cases h
  · rw [h3 hr] at h
    cases h

theorem thr_opposite_le (hE : EdgesIn n E) {s t v d : Nat} (ht : HopDist (bE E) (· = s) t d) (h : 0 < thr n E d s t v) :
    thr n (opposite E) d t s v = thr n E d s t v := by
  obtain ⟨i, hi, h1, h2⟩ := thr_pos hE ht h
  rw [(thr_eq hE ht (v := v)).1 i h1 hi,
    (thr_eq (opposite_in hE) ((hopDist_opposite hE).2 ht) (v := v)).1 (d - i) ((hopDist_opposite hE).2 h2) (by omega),
    cnt_opposite hE, cnt_opposite hE, show d - (d - i) = i by omega, Nat.mul_comm]

theorem thr_opposite (hE : EdgesIn n E) {s t v d : Nat} (ht : HopDist (bE E) (· = s) t d) :
    thr n (opposite E) d t s v = thr n E d s t v := by
  rcases Nat.eq_zero_or_pos (thr n E d s t v) with h | h
  · rcases Nat.eq_zero_or_pos (thr n (opposite E) d t s v) with h' | h'
    · rw [h, h']
    · exact (thr_opposite_le (opposite_in hE) ((hopDist_opposite hE).2 ht) h').symm
  · exact thr_opposite_le hE ht h

theorem passing_opposite (hE : EdgesIn n E) {s t : Nat} (hs : s < n) (v : Nat) :
    passing n (opposite E) t s v = passing n E s t v := by
  rw [passing_hops, passing_hops, hops_congr (fun k => cnt_opposite hE k s t)]
  cases h : hops n E s t with
  | none => rfl
  | some d =>
    show _ / _ = _ / _
    rw [thr_opposite hE ((hops_some hE hs).1 h), cnt_opposite hE]

/-- The betweenness from all vertices is the same in the reversed graph. -/
theorem betweenness_opposite (hE : EdgesIn n E) (v : Nat) :
    betweenness n (opposite E) (List.range n) v = betweenness n E (List.range n) v := by
  unfold betweenness
  rw [rsum_eq, rsum_eq, rsum_congr (fun s _ => dependency_mid s v), rsum_comm,
    rsum_congr (n := n) (f := fun s => dependency n E s v) (fun s _ => dependency_mid s v)]
  refine rsum_congr fun s hs => rsum_congr fun t _ => ?_
  unfold mid
  rw [passing_opposite hE hs]
  simp only [or_comm]

section
variable {d τ : Nat → Nat}

theorem cnt_moved (R : Renumbering n d τ) (hm : ∀ u v, u < n → v < n → E' (d u) (d v) = E u v) (k : Nat) {s t : Nat}
    (hs : s < n) (ht : t < n) : cnt n E' k (d s) (d t) = cnt n E k s t := by
  induction k generalizing t with
  | zero =>
    rw [cnt_zero, cnt_zero]
    have : d s = d t ↔ s = t := ⟨fun e => by rw [← (R.there s hs).2, e, (R.there t ht).2], fun e => by rw [e]⟩
    simp only [this]
  | succ k ih =>
    rw [cnt_succ, cnt_succ, ← sumTo_renumber (d := τ) (τ := d) ⟨R.back, R.there⟩]
    exact sumTo_congr fun u hu => by rw [ih hu, hm u t hu ht]

theorem thr_moved (R : Renumbering n d τ) (hm : ∀ u v, u < n → v < n → E' (d u) (d v) = E u v) (k : Nat) {s t v : Nat}
    (hs : s < n) (ht : t < n) (hv : v < n) : thr n E' k (d s) (d t) (d v) = thr n E k s t v := by
  have inj : ∀ {a b}, a < n → b < n → (d a = d b ↔ a = b) := fun {a b} ha hb =>
    ⟨fun e => by rw [← (R.there a ha).2, e, (R.there b hb).2], fun e => by rw [e]⟩
  induction k generalizing t with
  | zero =>
    rw [thr_zero, thr_zero]
    simp only [inj hs ht, inj hv ht]
  | succ k ih =>
    by_cases h : v = t
    · subst h
      rw [thr_end, thr_end, cnt_moved R hm _ hs hv]
    · rw [thr_succ h, thr_succ (fun e => h ((inj hv ht).1 e)), ← sumTo_renumber (d := τ) (τ := d) ⟨R.back, R.there⟩]
      exact sumTo_congr fun u hu => by rw [ih hu, hm u t hu ht]

theorem mid_moved (R : Renumbering n d τ) (hm : ∀ u v, u < n → v < n → E' (d u) (d v) = E u v) {s t v : Nat}
    (hs : s < n) (ht : t < n) (hv : v < n) : mid n E' (d s) (d t) (d v) = mid n E s t v := by
  have inj : ∀ {a b}, a < n → b < n → (d a = d b ↔ a = b) := fun {a b} ha hb =>
    ⟨fun e => by rw [← (R.there a ha).2, e, (R.there b hb).2], fun e => by rw [e]⟩
  unfold mid
  simp only [inj hv hs, inj hv ht]
  rw [passing_hops, passing_hops, hops_congr (fun k => cnt_moved R hm k hs ht)]
  cases hops n E s t with
  | none => rfl
  | some k =>
    show (if _ then _ else _ / _) = (if _ then _ else _ / _)
    rw [thr_moved R hm k hs ht hv, cnt_moved R hm k hs ht]

theorem rsum_renumber (R : Renumbering n d τ) (f : Nat → Rat) : rsum n (fun a => f (d a)) = rsum n f := by
  have h1 : ∀ a, a < n → f (d a) = rsum n (fun i => if d a = i then f i else 0) := by
    intro a ha
    rw [rsum_single (R.there a ha).1 (fun j _ hj => if_neg (fun e => hj e.symm)), if_pos rfl]
  rw [rsum_congr h1, rsum_comm]
  refine rsum_congr fun i hi => ?_
  rw [rsum_single (R.back i hi).1 (fun j hj hji => if_neg (fun e => hji (by rw [← e, (R.there j hj).2]))),
    if_pos (R.back i hi).2]

/-- The betweenness does not depend on the numbering of the vertices. -/
theorem betweenness_moved (R : Renumbering n d τ) (hm : ∀ u v, u < n → v < n → E' (d u) (d v) = E u v)
    {l : List Nat} (hl : ∀ s ∈ l, s < n) {v : Nat} (hv : v < n) :
    betweenness n E' (l.map d) (d v) = betweenness n E l v := by
  unfold betweenness
  rw [List.map_map]
  congr 1
  refine List.map_congr_left fun s hs => ?_
  show dependency n E' (d s) (d v) = _
  rw [dependency_mid, dependency_mid, ← rsum_renumber R]
  exact rsum_congr fun t ht => mid_moved R hm (hl s hs) ht hv

end

/-! ### Bounds -/

theorem passing_nonneg (s t v : Nat) : 0 ≤ passing n E s t v := by
  unfold passing
  exact rat_div_nonneg (Rat.natCast_nonneg) (Rat.natCast_nonneg)

theorem passing_le (s t v : Nat) : passing n E s t v ≤ 1 := by
  unfold passing
  have h := List.length_filter_le (·.contains v) (shortestPaths n E s t)
  by_cases h0 : (shortestPaths n E s t).length = 0
  · rw [h0]
    simp
    grind
  · have h1 : (0 : Rat) < ((shortestPaths n E s t).length : Nat) := Rat.natCast_pos.2 (by omega)
    refine Rat.le_of_mul_le_mul_right (c := ((shortestPaths n E s t).length : Nat)) ?_ h1
    rw [Rat.div_mul_cancel (by grind), Rat.one_mul]
    exact Rat.natCast_le_natCast.2 h

theorem mid_nonneg (s t v : Nat) : 0 ≤ mid n E s t v := by
  unfold mid
  split
  · exact Rat.le_refl
  · exact passing_nonneg s t v

theorem passing_pos {s t v : Nat} : 0 < passing n E s t v ↔ ∃ p ∈ shortestPaths n E s t, v ∈ p := by
  unfold passing
  constructor
  · intro h
    apply Classical.byContradiction
    intro hn
    rw [List.filter_eq_nil_iff.2 (fun p hp hv => hn ⟨p, hp, by simpa using hv⟩)] at h
    simp at h
    grind
  · rintro ⟨p, hp, hv⟩
    have h1 : 0 < ((shortestPaths n E s t).filter (·.contains v)).length :=
      List.length_pos_of_mem (List.mem_filter.2 ⟨hp, by simpa using hv⟩)
    have h2 : 0 < (shortestPaths n E s t).length := List.length_pos_of_mem hp
    rw [Rat.div_def]
    exact Rat.mul_pos (Rat.natCast_pos.2 h1) (Rat.inv_pos.2 (Rat.natCast_pos.2 h2))

theorem rsum_le {n : Nat} {f g : Nat → Rat} (h : ∀ i, i < n → f i ≤ g i) : rsum n f ≤ rsum n g := by
  induction n with
  | zero => exact Rat.le_refl
  | succ n ih =>
    rw [rsum, rsum]
    have := ih fun i hi => h i (by omega)
    have := h n (by omega)
    grind

theorem rsum_pos {n : Nat} {f : Nat → Rat} (h : ∀ i, i < n → 0 ≤ f i) : 0 < rsum n f ↔ ∃ i, i < n ∧ 0 < f i := by
  induction n with
  | zero => exact ⟨fun h => absurd h Rat.lt_irrefl, fun ⟨i, h, _⟩ => by omega⟩
  | succ n ih =>
    have ih := ih fun i hi => h i (by omega)
    have h1 : 0 ≤ rsum n f := rsum_nonneg fun i hi => h i (by omega)
    have h2 := h n (by omega)
    rw [rsum]
    constructor
    · intro h3
      by_cases h4 : 0 < f n
      · exact ⟨n, by omega, h4⟩
      · obtain ⟨i, hi, hp⟩ := ih.1 (by grind)
        exact ⟨i, by omega, hp⟩
    · rintro ⟨i, hi, hp⟩
      by_cases e : i = n
      · subst e; grind
      · have := ih.2 ⟨i, by omega, hp⟩
        grind

theorem sum_nonneg {l : List Nat} {f : Nat → Rat} (h : ∀ s ∈ l, 0 ≤ f s) : 0 ≤ (l.map f).sum := by
  induction l with
  | nil => exact Rat.le_refl
  | cons a l ih =>
    rw [List.map_cons, List.sum_cons]
    have := h a (by simp)
    have := ih fun s hs => h s (by simp [hs])
    grind

theorem sum_pos {l : List Nat} {f : Nat → Rat} (h : ∀ s ∈ l, 0 ≤ f s) : 0 < (l.map f).sum ↔ ∃ s ∈ l, 0 < f s := by
  induction l with
  | nil => exact ⟨fun h => absurd h Rat.lt_irrefl, fun ⟨i, h, _⟩ => by cases h⟩
  | cons a l ih =>
    rw [List.map_cons, List.sum_cons]
    have h1 := h a (by simp)
    have h2 : 0 ≤ (l.map f).sum := sum_nonneg fun s hs => h s (by simp [hs])
    have ih := ih fun s hs => h s (by simp [hs])
    constructor
    · intro h3
      by_cases h4 : 0 < f a
      · exact ⟨a, by simp, h4⟩
      · obtain ⟨i, hi, hp⟩ := ih.1 (by grind)
        exact ⟨i, by simp [hi], hp⟩
    · rintro ⟨i, hi, hp⟩
      rcases List.mem_cons.1 hi with rfl | hi
      · grind
      · have := ih.2 ⟨i, hi, hp⟩
        grind

theorem dependency_nonneg (s v : Nat) : 0 ≤ dependency n E s v := by
  rw [dependency_mid]
  exact rsum_nonneg fun t _ => mid_nonneg s t v

/-- The vertices between others are those with a positive betweenness. -/
theorem betweenness_pos (l : List Nat) (v : Nat) : 0 < betweenness n E l v ↔
    ∃ s ∈ l, ∃ t, t < n ∧ v ≠ s ∧ v ≠ t ∧ ∃ p ∈ shortestPaths n E s t, v ∈ p := by
  unfold betweenness
  rw [sum_pos fun s _ => dependency_nonneg s v]
  refine exists_congr fun s => and_congr_right fun _ => ?_
  rw [dependency_mid, rsum_pos fun t _ => mid_nonneg s t v]
  refine exists_congr fun t => and_congr_right fun _ => ?_
  unfold mid
  split
  · rename_i h
    exact ⟨fun h => absurd h Rat.lt_irrefl, fun h' => (h.elim h'.1 h'.2.1).elim⟩
  · rename_i h
    rw [passing_pos]
    exact ⟨fun h' => ⟨fun e => h (.inl e), fun e => h (.inr e), h'⟩, fun h' => h'.2.2⟩

theorem mid_self (hE : EdgesIn n E) {s : Nat} (hs : s < n) (v : Nat) : mid n E s s v = 0 := by
  unfold mid
  split
  · rfl
  · rename_i h
    have e : hops n E s s = some 0 := (hops_some hE hs).2 (hopDist_zero.2 rfl)
    rw [passing_hops, e]
    show _ / _ = _
    rw [thr_zero, if_neg (fun h' => h (.inl h'.2))]
    simp
    grind

theorem dependency_le (hE : EdgesIn n E) {s v : Nat} (hs : s < n) (hv : v < n) : dependency n E s v ≤ (n - 2 : Nat) := by
  by_cases h : v = s
  · unfold dependency
    rw [if_pos h]
    exact Rat.natCast_nonneg
  · have h1 : rsum n (fun t => if t = s ∨ t = v then (0 : Rat) else 1) + (1 + 1) = n := by
      have e : ((sumTo n fun _ => 1 : Nat) : Rat) = rsum n (fun t => (if t = s ∨ t = v then (0 : Rat) else 1) +
          ((if t = s then 1 else 0) + (if t = v then 1 else 0))) := by
        rw [rsum_cast]
        refine rsum_congr fun t _ => ?_
        by_cases h1 : t = s
        · subst h1
          rw [if_pos (.inl rfl), if_pos rfl, if_neg (fun e => h e.symm)]
          grind
        · by_cases h2 : t = v
          · rw [if_pos (.inr h2), if_neg h1, if_pos h2]
            grind
          · rw [if_neg (fun e => e.elim h1 h2), if_neg h1, if_neg h2]
            grind
      rw [rsum_add, rsum_add, rsum_single hs (fun j _ hj => if_neg hj), rsum_single hv (fun j _ hj => if_neg hj),
        if_pos rfl, if_pos rfl] at e
      rw [← e]
      have hc : ∀ m, sumTo m (fun _ => 1) = m := by
        intro m
        induction m with
        | zero => rfl
        | succ m ih => rw [sumTo, ih]
      rw [hc]
    have h2 : dependency n E s v ≤ rsum n (fun t => if t = s ∨ t = v then (0 : Rat) else 1) := by
      rw [dependency_mid]
      refine rsum_le fun t _ => ?_
      split
      · rename_i e
        rcases e with e | e
        · subst e
          rw [mid_self hE hs]
          exact Rat.le_refl
        · subst e
          unfold mid
          rw [if_pos (.inr rfl)]
          exact Rat.le_refl
      · unfold mid
        split
        · decide
        · exact passing_le s t v
    obtain ⟨k, rfl⟩ : ∃ k, n = k + 2 := ⟨n - 2, by omega⟩
    rw [Rat.natCast_add] at h1
    rw [show k + 2 - 2 = k by omega]
    grind

theorem betweenness_le (hE : EdgesIn n E) {l : List Nat} (hl : ∀ s ∈ l, s < n) {v : Nat} (hv : v < n) :
    betweenness n E l v ≤ (l.length * (n - 2) : Nat) := by
  unfold betweenness
  induction l with
  | nil => simp
  | cons a l ih =>
    have h1 := ih fun s hs => hl s (by simp [hs])
    have h2 := dependency_le hE (hl a (by simp)) hv
    rw [List.map_cons, List.sum_cons, List.length_cons, Nat.add_mul, Nat.one_mul, Rat.natCast_add]
    grind

/-- A vertex inside a shortest path has an edge in and an edge out. -/
theorem inside (hE : EdgesIn n E) {s t v : Nat} (hs : s < n) (h1 : v ≠ s) (h2 : v ≠ t) {p : List Nat}
    (hp : p ∈ shortestPaths n E s t) (hv : v ∈ p) : (∃ u, E u v = true) ∧ ∃ w, E v w = true := by
  cases h : hops n E s t with
  | none =>
    rw [shortestPaths_none hE ((hops_none hE hs).1 h)] at hp
    cases hp
  | some d =>
    have hd := (hops_some hE hs).1 h
    rw [shortestPaths_eq hE hs hd] at hp
    have : 0 < thr n E d s t v := List.length_pos_of_mem (List.mem_filter.2 ⟨hp, by simpa using hv⟩)
    obtain ⟨i, hi, ha, hb⟩ := thr_pos hE hd this
    constructor
    · cases i with
      | zero => exact absurd ha.1 h1
      | succ i =>
        obtain ⟨u, _, e⟩ := ha.1
        exact ⟨u, e⟩
    · have hb := (hopDist_opposite hE).2 hb
      cases hk : d - i with
      | zero => rw [hk] at hb; exact absurd hb.1 h2
      | succ j =>
        rw [hk] at hb
        obtain ⟨u, _, e⟩ := hb.1
        exact ⟨u, e⟩

/-! ### Edges -/

/-- All shortest paths together use as many edges as they have. -/
theorem ethr_total (hE : EdgesIn n E) {s : Nat} : ∀ {d t : Nat}, HopDist (bE E) (· = s) t d →
    sumTo n (fun v => sumTo n (fun w => ethr n E d s t v w)) = d * cnt n E d s t := by
  intro d
  induction d with
  | zero =>
    intro t _
    rw [Nat.zero_mul]
    exact sumTo_eq_zero fun v _ => sumTo_eq_zero fun w _ => ethr_zero s t v w
  | succ d ih =>
    intro t h
    have htn : t < n := by
      obtain ⟨u, _, e⟩ := h.1
      exact (hE u t e).2
    have hterm : ∀ v w, ethr n E (d + 1) s t v w =
        sumTo n (fun u => (if v = u then (if w = t then ind (E u t) * cnt n E d s u else 0) else 0) +
          ind (E u t) * ethr n E d s u v w) := by
      intro v w
      rw [ethr_succ]
      refine sumTo_congr fun u _ => ?_
      by_cases h1 : u = v ∧ t = w
      · obtain ⟨rfl, rfl⟩ := h1
        rw [if_pos ⟨rfl, rfl⟩, if_pos rfl, if_pos rfl]
        cases he : E u t with
        | false => rw [show ind false = 0 from rfl, Nat.zero_mul, Nat.zero_mul]
        | true =>
          rcases Nat.eq_zero_or_pos (ethr n E d s u u t) with hz | hp
          · rw [hz]; rfl
          · have hc : 0 < cnt n E d s u := Nat.lt_of_lt_of_le hp (ethr_le d s u u t)
            obtain ⟨_, i, _, hw, hi⟩ := ethr_pos hE (hopDist_pred hE h he hc) hp
            have := hw.unique h
            omega
      · rw [if_neg h1]
        by_cases h2 : v = u
        · rw [if_pos h2, if_neg (fun e => h1 ⟨h2.symm, e.symm⟩), Nat.zero_add]
        · rw [if_neg h2, Nat.zero_add]
    have e1 : sumTo n (fun v => sumTo n (fun w => ethr n E (d + 1) s t v w)) =
        sumTo n (fun u => ind (E u t) * cnt n E d s u) +
          sumTo n (fun u => ind (E u t) * sumTo n (fun v => sumTo n (fun w => ethr n E d s u v w))) := by
      have e2 : ∀ v, v < n → sumTo n (fun w => ethr n E (d + 1) s t v w) =
          sumTo n (fun u => (if v = u then ind (E u t) * cnt n E d s u else 0) +
            ind (E u t) * sumTo n (fun w => ethr n E d s u v w)) := by
        intro v _
        rw [sumTo_congr (fun w _ => hterm v w), sumTo_comm]
        refine sumTo_congr fun u _ => ?_
        rw [sumTo_add, sumTo_mul]
        congr 1
        by_cases h2 : v = u
        · simp only [if_pos h2]
          rw [sumTo_single htn (fun w hw => if_neg hw), if_pos rfl]
        · simp only [if_neg h2]
          exact sumTo_eq_zero fun _ _ => rfl
      rw [sumTo_congr e2, sumTo_comm, ← sumTo_add]
      refine sumTo_congr fun u hu => ?_
      rw [sumTo_add, sumTo_mul, sumTo_single hu (fun v hv => if_neg hv), if_pos rfl]
    have e3 : ∀ u, u < n → ind (E u t) * sumTo n (fun v => sumTo n (fun w => ethr n E d s u v w)) =
        d * (ind (E u t) * cnt n E d s u) := by
      intro u _
      cases he : E u t with
      | false => rw [show ind false = 0 from rfl, Nat.zero_mul, Nat.zero_mul, Nat.mul_zero]
      | true =>
        rcases Nat.eq_zero_or_pos (cnt n E d s u) with hz | hp
        · rw [sumTo_eq_zero (fun v _ => sumTo_eq_zero fun w _ => by have := ethr_le (n := n) (E := E) d s u v w; omega), hz]
          simp
        · rw [ih (hopDist_pred hE h he hp)]
          simp [ind]
    rw [e1, sumTo_congr e3, sumTo_mul, ← cnt_succ, Nat.add_mul d 1, Nat.one_mul, Nat.add_comm]

/-- The edge scores add up to the number of edges of all shortest paths. -/
theorem edgeScore_total (hE : EdgesIn n E) :
    sumTo n (fun v => sumTo n (fun w => edgeScore n E v w)) =
      sumTo n (fun s => sumTo n (fun t => spc n E s t * pathLength n E s t)) := by
  have e1 : ∀ v w, edgeScore n E v w =
      sumTo n (fun s => sumTo n (fun t => ((shortestPaths n E s t).filter (usesEdge v w)).length)) := by
    intro v w
    unfold edgeScore
    rw [sumTo_eq]
    exact sumTo_congr fun s _ => edgePaths_sumTo s v w
  have e2 : ∀ v, sumTo n (fun w => edgeScore n E v w) = sumTo n (fun s => sumTo n (fun t => sumTo n (fun w =>
      ((shortestPaths n E s t).filter (usesEdge v w)).length))) := by
    intro v
    rw [sumTo_congr (fun w _ => e1 v w), sumTo_comm]
    exact sumTo_congr fun s _ => sumTo_comm _ _ _
  rw [sumTo_congr (fun v _ => e2 v), sumTo_comm]
  refine sumTo_congr fun s hs => ?_
  rw [sumTo_comm]
  refine sumTo_congr fun t _ => ?_
  cases h : hops n E s t with
  | none =>
    rw [spc_none hE hs h, Nat.zero_mul, shortestPaths_none hE ((hops_none hE hs).1 h)]
    exact sumTo_eq_zero fun v _ => sumTo_eq_zero fun w _ => rfl
  | some d =>
    have hd := (hops_some hE hs).1 h
    rw [spc_eq hE hs h, pathLength_eq hE hs h, Nat.mul_comm, ← ethr_total hE hd]
    rw [shortestPaths_eq hE hs hd]
    rfl

theorem ethr_opposite_le (hE : EdgesIn n E) {s t v w d : Nat} (ht : HopDist (bE E) (· = s) t d)
    (h : 0 < ethr n E d s t v w) : ethr n (opposite E) d t s w v = ethr n E d s t v w := by
  obtain ⟨he, i, hv, hw, hi⟩ := ethr_pos hE ht h
  have e := ethr_eq hE ht he hv hw hi
  have hp : 0 < cnt n E (d - (i + 1)) w t := Nat.pos_of_ne_zero fun h0 => by rw [e, h0, Nat.mul_zero] at h; cases h
  have hwt := (cnt_pos hE).1 hp
  have h1 : HopDist (bE E) (· = w) t (d - (i + 1)) := ⟨hwt, fun k hk => by
    have := ht.2 _ (walk_append hw.1 hk); omega⟩
  have h2 : HopDist (bE E) (· = v) t (d - (i + 1) + 1) := by
    refine ⟨?_, fun k hk => ?_⟩
    · have : Walk (bE E) (· = v) 1 w := ⟨v, rfl, he⟩
      have := walk_append this hwt
      rwa [Nat.add_comm] at this
    · have := ht.2 _ (walk_append hv.1 hk); omega
  rw [e, ethr_eq (opposite_in hE) ((hopDist_opposite hE).2 ht) (show opposite E w v = true from he)
    ((hopDist_opposite hE).2 h1) ((hopDist_opposite hE).2 h2) (by omega), cnt_opposite hE, cnt_opposite hE,
    show d - (d - (i + 1) + 1) = i by omega, Nat.mul_comm]

theorem ethr_opposite (hE : EdgesIn n E) {s t v w d : Nat} (ht : HopDist (bE E) (· = s) t d) :
    ethr n (opposite E) d t s w v = ethr n E d s t v w := by
  rcases Nat.eq_zero_or_pos (ethr n E d s t v w) with h | h
  · rcases Nat.eq_zero_or_pos (ethr n (opposite E) d t s w v) with h' | h'
    · rw [h, h']
    · exact (ethr_opposite_le (opposite_in hE) ((hopDist_opposite hE).2 ht) h').symm
  · exact ethr_opposite_le hE ht h

theorem edgeScore_opposite (hE : EdgesIn n E) (v w : Nat) : edgeScore n (opposite E) w v = edgeScore n E v w := by
  unfold edgeScore
  rw [sumTo_eq, sumTo_eq, sumTo_congr (fun s _ => edgePaths_sumTo s w v), sumTo_comm]
  refine sumTo_congr fun s hs => ?_
  rw [edgePaths_sumTo]
  refine sumTo_congr fun t ht => ?_
  have hh : hops n (opposite E) t s = hops n E s t := hops_congr (fun k => cnt_opposite hE k s t)
  cases h : hops n E s t with
  | none =>
    rw [shortestPaths_none hE ((hops_none hE hs).1 h),
      shortestPaths_none (opposite_in hE) ((hops_none (opposite_in hE) ht).1 (hh.trans h))]
    rfl
  | some d =>
    have hd := (hops_some hE hs).1 h
    rw [shortestPaths_eq hE hs hd, shortestPaths_eq (opposite_in hE) ht ((hopDist_opposite hE).2 hd)]
    exact ethr_opposite hE hd

end GBTL
