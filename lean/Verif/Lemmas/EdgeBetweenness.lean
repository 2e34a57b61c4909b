import Verif.Spec.EdgeBetweenness
import Verif.Lemmas.BetweennessSteps
/-
Counting the shortest paths that use an edge.
-/
namespace GBTL
open Spec

variable {n : Nat} {E : Nat → Nat → Bool}

theorem usesEdge_snoc (v w u t : Nat) (l : List Nat) :
    usesEdge v w (l ++ [u] ++ [t]) = (usesEdge v w (l ++ [u]) || (u == v && t == w)) := by
  induction l with
  | nil => simp [usesEdge]
  | cons a l ih =>
    cases l with
    | nil => simp [usesEdge, Bool.or_assoc]
    | cons b l =>
      simp only [List.cons_append, usesEdge] at ih ⊢
      rw [ih, Bool.or_assoc]

theorem walkList_last {k s u : Nat} {p : List Nat} (h : p ∈ walkList n E k s u) : ∃ l, p = l ++ [u] := by
  cases k with
  | zero =>
    rw [walkList] at h
    split at h
    · simp at h; exact ⟨[], h⟩
    · cases h
  | succ k =>
    rw [walkList, List.mem_flatMap] at h
    obtain ⟨x, -, h⟩ := h
    split at h
    · obtain ⟨q, -, rfl⟩ := List.mem_map.1 h
      exact ⟨q, rfl⟩
    · cases h

/-- The walks of `k` edges that use the edge from `v` to `w`. -/
def ethr (n : Nat) (E : Nat → Nat → Bool) (k s t v w : Nat) : Nat :=
  ((walkList n E k s t).filter (usesEdge v w)).length

theorem ethr_le (k s t v w : Nat) : ethr n E k s t v w ≤ cnt n E k s t := List.length_filter_le _ _

theorem ethr_zero (s t v w : Nat) : ethr n E 0 s t v w = 0 := by
  unfold ethr walkList
  split <;> simp [usesEdge]

theorem ethr_succ (k s t v w : Nat) :
    ethr n E (k + 1) s t v w =
      sumTo n (fun u => ind (E u t) * if u = v ∧ t = w then cnt n E k s u else ethr n E k s u v w) := by
  unfold ethr
  rw [walkList, List.filter_flatMap, length_flatMap_range]
  refine sumTo_congr ?_
  intro u _
  cases E u t
  · simp [ind]
  · simp only [if_true, ind, Nat.one_mul]
    rw [List.filter_map, List.length_map]
    split
    · rename_i h
      unfold cnt
      rw [List.filter_eq_self.2]
      intro p hp
      obtain ⟨l, rfl⟩ := walkList_last hp
      show usesEdge v w (l ++ [u] ++ [t]) = true
      rw [usesEdge_snoc, h.1, h.2]; simp
    · rename_i h
      congr 1
      refine List.filter_congr ?_
      intro p hp
      obtain ⟨l, rfl⟩ := walkList_last hp
      show usesEdge v w (l ++ [u] ++ [t]) = _
      rw [usesEdge_snoc]
      have : (u == v && t == w) = false := by
        cases hb : (u == v && t == w)
        · rfl
        · rw [Bool.and_eq_true, beq_iff_eq, beq_iff_eq] at hb
          exact absurd hb h
      rw [this, Bool.or_false]

/-- A predecessor with walks of `d` edges is at distance `d`. -/
theorem hopDist_pred (hE : EdgesIn n E) {s t u d : Nat} (ht : HopDist (bE E) (· = s) t (d + 1))
    (he : E u t = true) (hc : 0 < cnt n E d s u) : HopDist (bE E) (· = s) u d := by
  refine ⟨(cnt_pos hE).1 hc, ?_⟩
  intro k hk
  have := ht.2 (k + 1) ⟨u, hk, he⟩
  omega

/-- Shortest walks use only edges that lead one hop further. -/
theorem ethr_pos (hE : EdgesIn n E) {s t v w d : Nat} (ht : HopDist (bE E) (· = s) t d)
    (h : 0 < ethr n E d s t v w) :
    E v w = true ∧ ∃ i, HopDist (bE E) (· = s) v i ∧ HopDist (bE E) (· = s) w (i + 1) ∧ i + 1 ≤ d := by
  induction d generalizing t with
  | zero => rw [ethr_zero] at h; omega
  | succ d ih =>
    rw [ethr_succ, sumTo_pos] at h
    obtain ⟨u, -, h⟩ := h
    have he : E u t = true := by
      cases he : E u t
      · rw [he] at h; simp [ind] at h
      · rfl
    replace h := Nat.pos_of_mul_pos_left h
    split at h
    · rename_i e
      obtain ⟨rfl, rfl⟩ := e
      exact ⟨he, d, hopDist_pred hE ht he h, ht, Nat.le_refl _⟩
    · have := ethr_le (n := n) (E := E) d s u v w
      obtain ⟨h1, i, h2, h3, h4⟩ := ih (hopDist_pred hE ht he (by omega)) h
      exact ⟨h1, i, h2, h3, by omega⟩

theorem ethr_eq (hE : EdgesIn n E) {s t v w d i : Nat} (ht : HopDist (bE E) (· = s) t d)
    (hvw : E v w = true) (hv : HopDist (bE E) (· = s) v i) (hw : HopDist (bE E) (· = s) w (i + 1)) (hd : i + 1 ≤ d) :
    ethr n E d s t v w = cnt n E i s v * cnt n E (d - (i + 1)) w t := by
  induction d generalizing t with
  | zero => omega
  | succ d ih =>
    rw [ethr_succ]
    rcases Nat.lt_or_ge i d with hlt | hge
    · have htw : t ≠ w := by
        intro e; subst e
        have := ht.unique hw
        omega
      obtain ⟨e, rfl⟩ : ∃ e, d = i + 1 + e := ⟨d - (i + 1), by omega⟩
      rw [show i + 1 + e + 1 - (i + 1) = e + 1 by omega, cnt_succ, ← sumTo_mul]
      refine sumTo_congr ?_
      intro u _
      rw [if_neg (fun h => htw h.2), Nat.mul_left_comm]
      cases he : E u t
      · simp [ind]
      · simp only [ind, if_true, Nat.one_mul]
        rcases Nat.eq_zero_or_pos (cnt n E (i + 1 + e) s u) with h0 | h0
        · have := ethr_le (n := n) (E := E) (i + 1 + e) s u v w
          rw [show ethr n E (i + 1 + e) s u v w = 0 by omega]
          rcases Nat.eq_zero_or_pos (cnt n E e w u) with h2 | h2
          · rw [h2]; rfl
          · have := (cnt_pos hE).2 (walk_append hw.1 ((cnt_pos hE).1 h2))
            omega
        · rw [ih (hopDist_pred hE ht he h0) (by omega), show i + 1 + e - (i + 1) = e by omega]
    · obtain rfl : i = d := by omega
      rw [Nat.sub_self, cnt_zero]
      have hz : ∀ u, E u t = true → ethr n E i s u v w = 0 := by
        intro u he
        rcases Nat.eq_zero_or_pos (ethr n E i s u v w) with h0 | h0
        · exact h0
        · have := ethr_le (n := n) (E := E) i s u v w
          obtain ⟨-, j, h1, -, h3⟩ := ethr_pos hE (hopDist_pred hE ht he (by omega)) h0
          have := h1.unique hv
          omega
      by_cases htw : t = w
      · subst htw
        rw [if_pos rfl, Nat.mul_one, sumTo_single (hE v t hvw).1]
        · rw [if_pos ⟨rfl, rfl⟩, hvw]; simp [ind]
        · intro u hu
          rw [if_neg (fun h => hu h.1)]
          cases he : E u t
          · simp [ind]
          · rw [hz u he]; rfl
      · rw [if_neg (fun h => htw h.symm), Nat.mul_zero, sumTo_eq_zero]
        intro u _
        rw [if_neg (fun h => htw h.2)]
        cases he : E u t
        · simp [ind]
        · rw [hz u he]; rfl

/-- The walks from `v` to `t` that end shortest paths from `s`. -/
def con (n : Nat) (E : Nat → Nat → Bool) (s v t : Nat) : Nat :=
  match hops n E s v, hops n E s t with
  | some i, some d => if i ≤ d then cnt n E (d - i) v t else 0
  | _, _ => 0

/-- The number of ways to continue a shortest path from `s` to `v`, including not at all. -/
def ext (n : Nat) (E : Nat → Nat → Bool) (s v : Nat) : Nat := sumTo n (con n E s v)

/-- The edge leads one hop further from `s`. -/
def Down (n : Nat) (E : Nat → Nat → Bool) (s v w : Nat) : Prop :=
  E v w = true ∧ ∃ i, hops n E s v = some i ∧ hops n E s w = some (i + 1)

theorem con_self {s v i : Nat} (hv : hops n E s v = some i) : con n E s v v = 1 := by
  unfold con
  rw [hv]
  simp only [Nat.le_refl, if_true, Nat.sub_self]
  rw [cnt_zero, if_pos rfl]

theorem con_step (hE : EdgesIn n E) {s v i : Nat} (hs : s < n) (hv : hops n E s v = some i) (t : Nat) :
    con n E s v t = (if t = v then 1 else 0) +
      sumTo n (fun w => if E v w = true ∧ hops n E s w = some (i + 1) then con n E s w t else 0) := by
  by_cases htv : t = v
  · subst htv
    rw [if_pos rfl, con_self hv, sumTo_eq_zero]
    intro w _
    split
    · rename_i h
      unfold con
      rw [h.2, hv]
      simp only
      rw [if_neg (by omega)]
    · rfl
  · rw [if_neg htv, Nat.zero_add]
    cases ht : hops n E s t with
    | none =>
      rw [sumTo_eq_zero]
      · unfold con; rw [hv, ht]
      · intro w _
        split
        · unfold con; rw [ht]; split <;> simp_all
        · rfl
    | some d =>
      have hd := (hops_some hE hs).1 ht
      have hi := (hops_some hE hs).1 hv
      rcases Nat.lt_or_ge i d with hlt | hge
      · obtain ⟨e, rfl⟩ : ∃ e, d = i + e + 1 := ⟨d - i - 1, by omega⟩
        have h1 : con n E s v t = cnt n E (e + 1) v t := by
          unfold con
          rw [hv, ht]
          simp only
          rw [if_pos (by omega), show i + e + 1 - i = e + 1 by omega]
        rw [h1, cnt_first hE]
        refine sumTo_congr ?_
        intro w _
        by_cases hw : E v w = true ∧ hops n E s w = some (i + 1)
        · rw [if_pos hw]
          unfold con
          rw [hw.2, ht]
          simp only
          rw [if_pos (by omega), show i + e + 1 - (i + 1) = e by omega, hw.1]
          simp [ind]
        · rw [if_neg hw]
          cases he : E v w
          · simp [ind]
          · rcases Nat.eq_zero_or_pos (cnt n E e w t) with h0 | h0
            · rw [h0]; rfl
            · exfalso
              refine hw ⟨he, ?_⟩
              rw [hops_some hE hs]
              have hw1 : Walk (bE E) (· = s) (i + 1) w := ⟨v, hi.1, he⟩
              refine ⟨hw1, ?_⟩
              intro k hk
              have := hd.2 _ (walk_append hk ((cnt_pos hE).1 h0))
              omega
      · rw [sumTo_eq_zero]
        · unfold con
          rw [hv, ht]
          simp only
          split
          · rename_i hle
            obtain rfl : i = d := by omega
            rw [Nat.sub_self, cnt_zero, if_neg (fun e => htv e.symm)]
          · rfl
        · intro w _
          split
          · rename_i h
            unfold con
            rw [h.2, ht]
            simp only
            rw [if_neg (by omega)]
          · rfl

/-- A shortest path ends, or goes on one hop further. -/
theorem ext_rec (hE : EdgesIn n E) {s v i : Nat} (hs : s < n) (hv : hops n E s v = some i) :
    ext n E s v = 1 + sumTo n (fun w => if E v w = true ∧ hops n E s w = some (i + 1) then ext n E s w else 0) := by
  unfold ext
  rw [sumTo_congr (fun t _ => con_step hE hs hv t), sumTo_add]
  congr 1
  · rw [sumTo_single (hops_in hE hs hv) (by intro j hj; rw [if_neg hj]), if_pos rfl]
  · rw [sumTo_comm]
    refine sumTo_congr ?_
    intro w _
    split
    · rfl
    · exact sumTo_zero n

theorem spc_ext_le (hE : EdgesIn n E) {s v i : Nat} (hs : s < n) (hv : hops n E s v = some i) :
    spc n E s v * ext n E s v ≤ totalPaths n E s := by
  unfold ext totalPaths
  rw [← sumTo_mul]
  refine sumTo_mono ?_
  intro t _
  unfold con
  rw [hv]
  cases ht : hops n E s t with
  | none => simp
  | some d =>
    simp only
    split
    · rename_i hle
      rw [spc_eq hE hs hv, spc_eq hE hs ht,
        ← (thr_eq hE ((hops_some hE hs).1 ht) (v := v)).1 i ((hops_some hE hs).1 hv) hle]
      exact thr_le _ _ _ _
    · simp

theorem edgePaths_sumTo (s v w : Nat) :
    edgePaths n E s v w = sumTo n (fun t => ((shortestPaths n E s t).filter (usesEdge v w)).length) := sumTo_eq _ _

theorem edgePaths_le (s v w : Nat) : edgePaths n E s v w ≤ totalPaths n E s := by
  rw [edgePaths_sumTo]
  exact sumTo_mono (fun t _ => List.length_filter_le _ _)

theorem edgePaths_down (hE : EdgesIn n E) {s v w : Nat} (hs : s < n) (h : Down n E s v w) :
    edgePaths n E s v w = spc n E s v * ext n E s w := by
  obtain ⟨he, i, hv, hw⟩ := h
  have hv' := (hops_some hE hs).1 hv
  have hw' := (hops_some hE hs).1 hw
  unfold ext
  rw [edgePaths_sumTo, ← sumTo_mul]
  refine sumTo_congr ?_
  intro t _
  unfold con
  rw [hw]
  cases ht : hops n E s t with
  | none => rw [shortestPaths_none hE ((hops_none hE hs).1 ht)]; rfl
  | some d =>
    have ht' := (hops_some hE hs).1 ht
    rw [shortestPaths_eq hE hs ht']
    show ethr n E d s t v w = _
    simp only
    split
    · rename_i hle
      rw [ethr_eq hE ht' he hv' hw' hle, spc_eq hE hs hv]
    · rename_i hle
      rcases Nat.eq_zero_or_pos (ethr n E d s t v w) with h0 | h0
      · rw [h0]; rfl
      · obtain ⟨-, j, h1, -, h3⟩ := ethr_pos hE ht' h0
        have := h1.unique hv'
        omega

theorem edgePaths_not (hE : EdgesIn n E) {s v w : Nat} (hs : s < n) (h : ¬ Down n E s v w) :
    edgePaths n E s v w = 0 := by
  rw [edgePaths_sumTo]
  refine sumTo_eq_zero ?_
  intro t _
  cases ht : hops n E s t with
  | none => rw [shortestPaths_none hE ((hops_none hE hs).1 ht)]; rfl
  | some d =>
    have ht' := (hops_some hE hs).1 ht
    rw [shortestPaths_eq hE hs ht']
    show ethr n E d s t v w = _
    rcases Nat.eq_zero_or_pos (ethr n E d s t v w) with h0 | h0
    · exact h0
    · obtain ⟨he, j, h1, h2, h3⟩ := ethr_pos hE ht' h0
      exact absurd ⟨he, j, (hops_some hE hs).2 h1, (hops_some hE hs).2 h2⟩ h

/-- An edge between two different vertices is a shortest path. -/
theorem edgePaths_pos (hE : EdgesIn n E) {v w : Nat} (hvw : v ≠ w) (he : E v w = true) :
    0 < edgePaths n E v v w := by
  have hs := (hE v w he).1
  have hv := hops_self hE hs
  obtain ⟨d, h1, h2⟩ := hops_edge hE hs hv he
  have hd : d = 1 := by
    rcases Nat.eq_zero_or_pos d with h0 | h0
    · subst h0; exact absurd (hops_zero hE hs h2).symm hvw
    · omega
  subst hd
  rw [edgePaths_down hE hs ⟨he, 0, hv, h2⟩]
  have h3 := spc_pos hE hs hv
  have h4 := ext_rec hE hs h2
  exact Nat.mul_pos h3 (by omega)

end GBTL
