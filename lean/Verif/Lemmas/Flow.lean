import Verif.Spec.Flow
import Verif.Lemmas.BfsBatch
/-
Sums, cuts and the theorem that a flow without an augmenting path is maximal.
-/
namespace GBTL
open Spec

/-! ### sums -/

@[simp] theorem total_zero (f : Nat → Int) : total 0 f = 0 := rfl

theorem total_succ (n : Nat) (f : Nat → Int) : total (n + 1) f = total n f + f n := by
  simp [total, List.range_succ]

theorem total_congr {n : Nat} {f g : Nat → Int} (h : ∀ i, i < n → f i = g i) : total n f = total n g := by
  induction n with
  | zero => rfl
  | succ n ih => rw [total_succ, total_succ, ih (fun i hi => h i (by omega)), h n (by omega)]

theorem total_add (n : Nat) (f g : Nat → Int) : total n (fun i => f i + g i) = total n f + total n g := by
  induction n with
  | zero => rfl
  | succ n ih => rw [total_succ, total_succ, total_succ, ih]; omega

theorem total_neg (n : Nat) (f : Nat → Int) : total n (fun i => - f i) = - total n f := by
  induction n with
  | zero => rfl
  | succ n ih => rw [total_succ, total_succ, ih]; omega

theorem total_sub (n : Nat) (f g : Nat → Int) : total n (fun i => f i - g i) = total n f - total n g := by
  induction n with
  | zero => rfl
  | succ n ih => rw [total_succ, total_succ, total_succ, ih]; omega

theorem total_const_zero {n : Nat} {f : Nat → Int} (h : ∀ i, i < n → f i = 0) : total n f = 0 := by
  induction n with
  | zero => rfl
  | succ n ih => rw [total_succ, ih (fun i hi => h i (by omega)), h n (by omega)]; rfl

theorem total_mono {n : Nat} {f g : Nat → Int} (h : ∀ i, i < n → f i ≤ g i) : total n f ≤ total n g := by
  induction n with
  | zero => exact Int.le_refl _
  | succ n ih =>
    rw [total_succ, total_succ]
    have := ih (fun i hi => h i (by omega))
    have := h n (by omega)
    omega

theorem total_nonneg {n : Nat} {f : Nat → Int} (h : ∀ i, i < n → 0 ≤ f i) : 0 ≤ total n f := by
  have := total_mono (f := fun _ => 0) (g := f) h
  rwa [total_const_zero (fun _ _ => rfl)] at this

theorem total_swap (n m : Nat) (f : Nat → Nat → Int) :
    total n (fun i => total m fun j => f i j) = total m (fun j => total n fun i => f i j) := by
  induction n with
  | zero => rw [total_zero, total_const_zero (f := fun j => total 0 fun i => f i j) (fun _ _ => rfl)]
  | succ n ih =>
    rw [total_succ, ih, ← total_add]
    refine total_congr fun j _ => ?_
    rw [total_succ]

/-- Changing one summand. -/
theorem total_upd {n k : Nat} (hk : k < n) {f g : Nat → Int} (h : ∀ i, i < n → i ≠ k → g i = f i) :
    total n g = total n f + (g k - f k) := by
  induction n with
  | zero => omega
  | succ n ih =>
    rw [total_succ, total_succ]
    by_cases hkn : k = n
    · subst hkn
      rw [total_congr (f := g) (g := f) (fun i hi => h i (by omega) (by omega))]
      omega
    · rw [ih (by omega) (fun i hi => h i (by omega)), h n (by omega) (by omega)]
      omega

theorem le_total {n k : Nat} (hk : k < n) {f : Nat → Int} (h : ∀ i, i < n → 0 ≤ f i) : f k ≤ total n f := by
  have h1 := total_upd hk (f := f) (g := fun i => if i = k then 0 else f i) (fun i _ hi => by simp [hi])
  have h2 : 0 ≤ total n (fun i => if i = k then 0 else f i) := total_nonneg fun i hi => by
    by_cases h' : i = k <;> simp [h', h i hi]
  simp only [if_true] at h1
  omega

theorem le_total2 {n k l : Nat} (hk : k < n) (hl : l < n) (hkl : k ≠ l) {f : Nat → Int}
    (h : ∀ i, i < n → 0 ≤ f i) : f k + f l ≤ total n f := by
  have h1 := total_upd hk (f := f) (g := fun i => if i = k then 0 else f i) (fun i _ hi => by simp [hi])
  have h2 := le_total hl (f := fun i => if i = k then 0 else f i) (fun i hi => by
    by_cases h' : i = k <;> simp [h', h i hi])
  simp only [if_true, if_neg (Ne.symm hkl)] at h1 h2
  omega

/-- The double sum of an antisymmetric function is zero. -/
theorem total_antisymm {n : Nat} {g : Nat → Nat → Int}
    (h : ∀ x y, x < n → y < n → g x y = - g y x) : total n (fun x => total n fun y => g x y) = 0 := by
  have h1 := total_swap n n g
  have h2 : total n (fun x => total n fun y => g x y) =
      - total n (fun x => total n fun y => g y x) := by
    rw [← total_neg]
    refine total_congr fun x hx => ?_
    rw [← total_neg]
    exact total_congr fun y hy => h x y hx hy
  omega

/-! ### net flows and cuts -/

/-- What leaves a set of vertices in total crosses its boundary. -/
theorem total_cut {n : Nat} {f : Nat → Nat → Int} (anti : ∀ x y, x < n → y < n → f x y = - f y x)
    (U : Nat → Prop) [DecidablePred U] :
    total n (fun x => if U x then total n (fun y => f x y) else 0) =
      total n (fun x => if U x then total n (fun y => if U y then 0 else f x y) else 0) := by
  have h0 := total_antisymm (n := n) (g := fun x y => if U x ∧ U y then f x y else 0) (by
    intro x y hx hy
    by_cases h1 : U x <;> by_cases h2 : U y <;> simp [h1, h2, anti x y hx hy])
  have h1 : total n (fun x => if U x then total n (fun y => f x y) else 0) =
      total n (fun x => (total n fun y => if U x ∧ U y then f x y else 0) +
        (if U x then total n (fun y => if U y then 0 else f x y) else 0)) := by
    refine total_congr fun x hx => ?_
    by_cases hx : U x
    · simp only [hx, true_and, if_true]
      rw [← total_add]
      refine total_congr fun y _ => ?_
      by_cases hy : U y <;> simp [hy]
    · simp only [hx, false_and, if_false]
      rw [total_const_zero (fun _ _ => rfl)]
      rfl
  rw [h1, total_add, h0, Int.zero_add]

/-- A net flow: antisymmetric, within the capacities, conserved. -/
structure NetFlow (n s t : Nat) (c f : Nat → Nat → Int) : Prop where
  anti : ∀ x y, x < n → y < n → f x y = - f y x
  cap : ∀ x y, x < n → y < n → f x y ≤ c x y
  cons : ∀ x, x < n → x ≠ s → x ≠ t → total n (fun y => f x y) = 0

theorem _root_.Spec.IsFlow.net {n s t : Nat} {c g : Nat → Nat → Int} (h : IsFlow n s t c g) :
    NetFlow n s t c (fun x y => g x y - g y x) := by
  refine ⟨fun x y _ _ => by omega, ?_, ?_⟩
  · intro x y hx hy
    have := h.capacity x y hx hy
    have := h.nonneg y x hy hx
    show g x y - g y x ≤ c x y
    omega
  · intro x hx h1 h2
    have h3 := h.conserved x hx h1 h2
    rw [total_sub]
    exact Int.sub_eq_zero.2 h3.symm

theorem net_value (n s : Nat) (g : Nat → Nat → Int) :
    total n (fun y => g s y - g y s) = flowValue n s g := by rw [total_sub, flowValue]

theorem NetFlow.flow {n s t : Nat} {c f : Nat → Nat → Int} (h : NetFlow n s t c f)
    (hc : ∀ x y, x < n → y < n → 0 ≤ c x y) :
    IsFlow n s t c (fun x y => max (f x y) 0) ∧
      flowValue n s (fun x y => max (f x y) 0) = (if s < n then total n (f s) else
        flowValue n s (fun x y => max (f x y) 0)) := by
  have key : ∀ x, x < n → total n (fun y => max (f x y) 0) - total n (fun y => max (f y x) 0) =
      total n (fun y => f x y) := by
    intro x hx
    rw [← total_sub]
    refine total_congr fun y hy => ?_
    have := h.anti x y hx hy
    omega
  refine ⟨⟨?_, ?_, ?_⟩, ?_⟩
  · intro u v _ _
    show 0 ≤ max (f u v) 0
    omega
  · intro u v hu hv
    have := h.cap u v hu hv
    have := hc u v hu hv
    show max (f u v) 0 ≤ c u v
    omega
  · intro u hu h1 h2
    have := key u hu
    rw [h.cons u hu h1 h2] at this
    show total n (fun v => max (f v u) 0) = total n (fun v => max (f u v) 0)
    omega
  · by_cases hs : s < n
    · rw [if_pos hs]; exact key s hs
    · rw [if_neg hs]

/-- The edges with capacity left. -/
def Res (n : Nat) (c f : Nat → Nat → Int) (x y : Nat) : Prop := x < n ∧ y < n ∧ f x y < c x y

/-- The value of a flow is what crosses a cut. -/
theorem NetFlow.cut {n s t : Nat} {c f : Nat → Nat → Int} (h : NetFlow n s t c f) (hs : s < n)
    (U : Nat → Prop) [DecidablePred U] (h1 : U s) (h2 : ¬ U t) :
    total n (f s) = total n (fun x => if U x then total n (fun y => if U y then 0 else f x y) else 0) := by
  rw [← total_cut h.anti U]
  have := total_upd (n := n) (k := s) hs (f := fun _ => 0)
    (g := fun x => if U x then total n (fun y => f x y) else 0) (by
      intro x hx hxs
      by_cases hU : U x
      · simp only [hU, if_true]
        exact h.cons x hx hxs (fun e => h2 (e ▸ hU))
      · simp only [hU, if_false])
  rw [this, total_const_zero (fun _ _ => rfl)]
  simp [h1]

/-- A flow is maximal when no path with capacity left leads from the source to the
sink. -/
theorem NetFlow.maximal {n s t : Nat} {c f : Nat → Nat → Int} (h : NetFlow n s t c f)
    (hc : ∀ x y, x < n → y < n → 0 ≤ c x y) (hs : s < n)
    (hno : ¬ Reachable (Res n c f) (· = s) t) : IsMaxFlow n s t c (total n (f s)) := by
  classical
  obtain ⟨g1, g2⟩ := h.flow hc
  rw [if_pos hs] at g2
  refine ⟨⟨_, g1, g2⟩, ?_⟩
  intro g hg
  rw [← net_value]
  have hU : Reachable (Res n c f) (· = s) s := ⟨0, rfl⟩
  have e1 := h.cut hs (Reachable (Res n c f) (· = s)) hU hno
  have e2 := hg.net.cut hs (Reachable (Res n c f) (· = s)) hU hno
  refine Int.le_trans (Int.le_of_eq e2) ?_
  rw [e1]
  refine total_mono fun x hx => ?_
  by_cases hUx : Reachable (Res n c f) (· = s) x
  · simp only [hUx, if_true]
    refine total_mono fun y hy => ?_
    by_cases hUy : Reachable (Res n c f) (· = s) y
    · simp [hUy]
    · simp only [hUy, if_false]
      have hsat : c x y ≤ f x y := by
        rcases Int.lt_or_le (f x y) (c x y) with h' | h'
        · obtain ⟨k, hk⟩ := hUx
          exact absurd ⟨k + 1, x, hk, hx, hy, h'⟩ hUy
        · exact h'
      have := hg.net.cap x y hx hy
      omega
  · simp [hUx]

/-! ### preflows -/

/-- A preflow with its excesses. -/
structure Preflow (n s : Nat) (c f : Nat → Nat → Int) (e : Nat → Int) : Prop where
  anti : ∀ x y, x < n → y < n → f x y = - f y x
  cap : ∀ x y, x < n → y < n → f x y ≤ c x y
  net : ∀ x, x < n → x ≠ s → e x = total n (fun y => f y x)
  pos : ∀ x, x < n → x ≠ s → 0 ≤ e x

variable {n s t : Nat} {c f : Nat → Nat → Int} {e : Nat → Int}

theorem Preflow.out (h : Preflow n s c f e) {x : Nat} (hx : x < n) :
    total n (fun y => f x y) = - total n (fun y => f y x) := by
  rw [← total_neg]
  exact total_congr fun y hy => h.anti x y hx hy

/-- What has left the source is in the excesses. -/
theorem Preflow.sum (h : Preflow n s c f e) (hs : s < n) :
    total n (f s) = total n (fun x => if x = s then 0 else e x) := by
  have h0 := total_antisymm h.anti
  have h1 := total_upd (n := n) (k := s) hs (f := fun x => total n fun y => f x y)
    (g := fun x => if x = s then 0 else total n fun y => f x y) (fun i _ hi => by simp [hi])
  simp only [if_true] at h1
  rw [h0] at h1
  have h2 : total n (fun x => if x = s then 0 else total n fun y => f x y) =
      - total n (fun x => if x = s then 0 else e x) := by
    rw [← total_neg]
    refine total_congr fun x hx => ?_
    by_cases hxs : x = s
    · simp [hxs]
    · simp only [hxs, if_false]
      rw [h.out hx, h.net x hx hxs]
  have h3 : total n (fun y => f s y) = total n (f s) := rfl
  omega

theorem Preflow.sum_nonneg (h : Preflow n s c f e) (hs : s < n) : 0 ≤ total n (f s) := by
  rw [h.sum hs]
  refine total_nonneg fun x hx => ?_
  by_cases hxs : x = s
  · simp [hxs]
  · simpa [hxs] using h.pos x hx hxs

theorem Preflow.excess_le (h : Preflow n s c f e) (hs : s < n) {x : Nat} (hx : x < n) (hxs : x ≠ s) :
    e x ≤ total n (f s) := by
  rw [h.sum hs]
  have := le_total hx (f := fun x => if x = s then 0 else e x) (by
    intro y hy
    by_cases hys : y = s
    · simp [hys]
    · simpa [hys] using h.pos y hy hys)
  simpa [hxs] using this

/-- From a vertex with excess there is a path with capacity left back to the source. -/
theorem Preflow.path (h : Preflow n s c f e) (hc : ∀ x y, x < n → y < n → 0 ≤ c x y) {u : Nat}
    (hu : u < n) (hus : u ≠ s) (he : 0 < e u) : Reachable (Res n c f) (· = u) s := by
  classical
  refine Classical.byContradiction fun hno => ?_
  have hcut := total_cut h.anti (Reachable (Res n c f) (· = u))
  -- nothing enters
  have h1 : 0 ≤ total n (fun x => if Reachable (Res n c f) (· = u) x then
      total n (fun y => if Reachable (Res n c f) (· = u) y then 0 else f x y) else 0) := by
    refine total_nonneg fun x hx => ?_
    by_cases hUx : Reachable (Res n c f) (· = u) x
    · simp only [hUx, if_true]
      refine total_nonneg fun y hy => ?_
      by_cases hUy : Reachable (Res n c f) (· = u) y
      · simp [hUy]
      · simp only [hUy, if_false]
        rcases Int.lt_or_le (f x y) (c x y) with h' | h'
        · obtain ⟨k, hk⟩ := hUx
          exact absurd ⟨k + 1, x, hk, hx, hy, h'⟩ hUy
        · have := hc x y hx hy
          omega
    · simp [hUx]
  rw [← hcut] at h1
  have h2 : total n (fun x => if Reachable (Res n c f) (· = u) x then total n (fun y => f x y) else 0) =
      - total n (fun x => if Reachable (Res n c f) (· = u) x then e x else 0) := by
    rw [← total_neg]
    refine total_congr fun x hx => ?_
    by_cases hUx : Reachable (Res n c f) (· = u) x
    · simp only [hUx, if_true]
      rw [h.out hx, h.net x hx (fun e => hno (e ▸ hUx))]
    · simp [hUx]
  have h3 := le_total hu (f := fun x => if Reachable (Res n c f) (· = u) x then e x else 0) (by
    intro x hx
    by_cases hUx : Reachable (Res n c f) (· = u) x
    · simp only [hUx, if_true]
      exact h.pos x hx (fun e => hno (e ▸ hUx))
    · simp [hUx])
  have hU : Reachable (Res n c f) (· = u) u := ⟨0, rfl⟩
  simp only [hU, if_true] at h3
  omega

/-! ### labels -/

/-- The labels drop by at most one along an edge with capacity left. -/
def Valid (n : Nat) (c f : Nat → Nat → Int) (h : Nat → Int) : Prop :=
  ∀ x y, Res n c f x y → h x ≤ h y + 1

theorem Valid.walk {h : Nat → Int} (hv : Valid n c f h) {u k v : Nat} (hw : Walk (Res n c f) (· = u) k v) :
    h u ≤ h v + k := by
  induction k generalizing v with
  | zero =>
    have : v = u := hw
    subst this; omega
  | succ k ih =>
    obtain ⟨x, h1, h2⟩ := hw
    have := ih h1
    have := hv x v h2
    omega

theorem Valid.reach {h : Nat → Int} (hv : Valid n c f h) {u v : Nat} (hu : u < n)
    (hw : Reachable (Res n c f) (· = u) v) : h u < h v + n := by
  obtain ⟨k, hk⟩ := hw
  obtain ⟨d, -, hd⟩ := hk.dist
  have h1 := hopDist_lt (n := n) (E := Res n c f) (fun _ _ e => e.2.1) (fun x hx => by omega) hd
  have h2 := hv.walk hd.1
  omega

/-- The height of a vertex with excess. -/
theorem Preflow.height_lt (hp : Preflow n s c f e) (hc : ∀ x y, x < n → y < n → 0 ≤ c x y)
    {h : Nat → Int} (hv : Valid n c f h) (hs : h s = n) {u : Nat} (hu : u < n) (hus : u ≠ s) (he : 0 < e u) :
    h u < 2 * n := by
  have := hv.reach hu (hp.path hc hu hus he)
  omega

/-- At the end: a preflow without excess, with valid labels, is a maximal flow. -/
theorem Preflow.final (hp : Preflow n s c f e) (hc : ∀ x y, x < n → y < n → 0 ≤ c x y) (hs : s < n)
    {h : Nat → Int} (hv : Valid n c f h) (h1 : h s = n) (h2 : h t = 0)
    (he : ∀ x, x < n → x ≠ s → x ≠ t → e x = 0) : IsMaxFlow n s t c (total n (f s)) := by
  refine NetFlow.maximal ⟨hp.anti, hp.cap, ?_⟩ hc hs ?_
  · intro x hx hxs hxt
    rw [hp.out hx, ← hp.net x hx hxs, he x hx hxs hxt]
    rfl
  · intro hr
    have := hv.reach hs hr
    omega

/-- The flow after `d` units have been sent from `u` to `v`. -/
def sendF (f : Nat → Nat → Int) (u v : Nat) (d : Int) (x y : Nat) : Int :=
  if x = u ∧ y = v then f x y + d else if x = v ∧ y = u then f x y - d else f x y

/-- The excesses after `d` units have been sent from `u` to `v`. -/
def sendE (e : Nat → Int) (u v : Nat) (d : Int) (x : Nat) : Int :=
  if x = u then e x - d else if x = v then e x + d else e x

theorem Preflow.send (h : Preflow n s c f e) {u v : Nat} {d : Int} (hu : u < n) (hv : v < n) (huv : u ≠ v)
    (h0 : 0 ≤ d) (h1 : d ≤ c u v - f u v) (h2 : u ≠ s → d ≤ e u)
    (hc : ∀ x y, x < n → y < n → 0 ≤ c x y) : Preflow n s c (sendF f u v d) (sendE e u v d) := by
  constructor
  · intro x y hx hy
    have := h.anti x y hx hy
    unfold sendF
    by_cases a : x = u ∧ y = v
    · rw [if_pos a, if_neg (by omega), if_pos (by omega)]; omega
    · rw [if_neg a]
      by_cases b : x = v ∧ y = u
      · rw [if_pos b, if_pos (by omega)]; omega
      · rw [if_neg b, if_neg (by omega), if_neg (by omega)]; omega
  · intro x y hx hy
    have := h.cap x y hx hy
    unfold sendF
    by_cases a : x = u ∧ y = v
    · obtain ⟨rfl, rfl⟩ := a
      simp; omega
    · rw [if_neg a]
      split <;> omega
  · intro x hx hxs
    have h3 := h.net x hx hxs
    unfold sendE
    by_cases a : x = u
    · subst a
      rw [if_pos rfl, total_upd (n := n) (k := v) hv (f := fun y => f y x) (by
        intro y hy hyv
        simp [sendF, hyv, huv]), h3]
      simp [sendF, Ne.symm huv]
      omega
    · rw [if_neg a]
      by_cases b : x = v
      · subst b
        rw [if_pos rfl, total_upd (n := n) (k := u) hu (f := fun y => f y x) (by
          intro y hy hyu
          simp [sendF, hyu, a]), h3]
        simp [sendF]
        omega
      · rw [if_neg b, h3]
        refine total_congr fun y hy => ?_
        simp [sendF, a, b]
  · intro x hx hxs
    have := h.pos x hx hxs
    unfold sendE
    by_cases a : x = u
    · rw [if_pos a]
      subst a
      have := h2 hxs
      omega
    · rw [if_neg a]
      split <;> omega

end GBTL
