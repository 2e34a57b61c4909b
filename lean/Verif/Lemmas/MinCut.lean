import Verif.Lemmas.Bfs
import Verif.Props.FordFulk
import Verif.Spec.Cut
/-
The maximum flow is the minimum cut. How flows change with the network.
-/
namespace GBTL
open Spec

variable {n s t : Nat} {c c' f g : Nat → Nat → Int}

/-- Antisymmetric and within the capacities. -/
structure Within (n : Nat) (c g : Nat → Nat → Int) : Prop where
  anti : ∀ x y, x < n → y < n → g x y = - g y x
  cap : ∀ x y, x < n → y < n → g x y ≤ c x y

theorem Within.send (h : Within n c g) {u v : Nat} (huv : u ≠ v) (h1 : g u v < c u v) :
    Within n c (sendF g u v 1) := by
  constructor
  · intro x y hx hy
    have := h.anti x y hx hy
    unfold sendF
    by_cases a : x = u ∧ y = v
    · rw [if_pos a, if_neg (by omega), if_pos (by omega)]; omega
    · rw [if_neg a]
      by_cases b : x = v ∧ y = u
      · rw [if_pos b, if_pos (by omega)]; omega
      · rw [if_neg b, if_neg (by omega), if_neg (by omega)]; omega
  · intro x y hx hy
    have := h.cap x y hx hy
    unfold sendF
    by_cases a : x = u ∧ y = v
    · obtain ⟨rfl, rfl⟩ := a
      simp; omega
    · rw [if_neg a]
      split <;> omega

theorem send_total {u v : Nat} (huv : u ≠ v) (hu : u < n) (hv : v < n) (x : Nat) :
    total n (sendF g u v 1 x) = total n (g x) + (delta x u - delta x v) := by
  unfold delta
  by_cases hxu : x = u
  · subst hxu
    have := total_upd (n := n) (k := v) hv (f := g x) (g := sendF g x v 1 x) (fun i _ hi => by
      unfold sendF; rw [if_neg (by omega), if_neg (by omega)])
    have e : sendF g x v 1 x v = g x v + 1 := by unfold sendF; rw [if_pos ⟨rfl, rfl⟩]
    rw [if_pos rfl, if_neg huv]
    omega
  · by_cases hxv : x = v
    · subst hxv
      have := total_upd (n := n) (k := u) hu (f := g x) (g := sendF g u x 1 x) (fun i _ hi => by
        unfold sendF; rw [if_neg (by omega), if_neg (by omega)])
      have e : sendF g u x 1 x u = g x u - 1 := by unfold sendF; rw [if_neg (by omega), if_pos ⟨rfl, rfl⟩]
      rw [if_pos rfl, if_neg hxu]
      omega
    · rw [if_neg hxu, if_neg hxv, total_congr (g := g x) (fun i _ => by
        unfold sendF; rw [if_neg (by omega), if_neg (by omega)])]
      omega

/-- One unit more can be sent along a shortest path with capacity left. -/
theorem push_unit (hs : s < n) : ∀ (d v : Nat) (h : Nat → Nat → Int), HopDist (Res n c g) (· = s) v d → Within n c h →
    (∀ a b i, HopDist (Res n c g) (· = s) a i → HopDist (Res n c g) (· = s) b (i + 1) → i + 1 ≤ d → h a b = g a b) →
    ∃ h', Within n c h' ∧ ∀ x, total n (h' x) = total n (h x) + (delta x s - delta x v) := by
  intro d
  induction d with
  | zero =>
    intro v h hv hw _
    obtain rfl : v = s := hv.1
    exact ⟨h, hw, fun x => by omega⟩
  | succ d ih =>
    intro v h hv hw heq
    obtain ⟨u, hu, he⟩ := hv.1
    have hud : HopDist (Res n c g) (· = s) u d := ⟨hu, fun k hk => by
      have := hv.2 (k + 1) ⟨u, hk, he⟩
      omega⟩
    have huv : u ≠ v := by
      rintro rfl
      have := hv.2 d hu
      omega
    have hlt : h u v < c u v := by rw [heq u v d hud hv (Nat.le_refl _)]; exact he.2.2
    obtain ⟨h', w', ht⟩ := ih u _ hud (hw.send huv hlt) (fun a b i ha hb hi => by
      have hbv : b ≠ v := by
        rintro rfl
        have := hv.2 _ hb.1
        omega
      have hav : a ≠ v := by
        rintro rfl
        have := hv.2 _ ha.1
        omega
      unfold sendF
      rw [if_neg (fun e => hbv e.2), if_neg (fun e => hav e.1)]
      exact heq a b i ha hb (by omega))
    refine ⟨h', w', fun x => ?_⟩
    rw [ht, send_total huv he.1 he.2.1]
    omega

/-- A flow is maximal only if there is no path with capacity left. -/
theorem no_path (hs : s < n) (hst : s ≠ t) (hc : ∀ x y, x < n → y < n → 0 ≤ c x y) (hg : IsFlow n s t c g)
    (hm : ∀ g', IsFlow n s t c g' → flowValue n s g' ≤ flowValue n s g) :
    ¬ Reachable (Res n c fun x y => g x y - g y x) (· = s) t := by
  rintro ⟨k, hk⟩
  obtain ⟨d, _, hd⟩ := hk.dist
  have hn := hg.net
  obtain ⟨h', w', ht⟩ := push_unit hs d t _ hd ⟨hn.anti, hn.cap⟩ (fun _ _ _ _ _ _ => rfl)
  have hn' : NetFlow n s t c h' := ⟨w'.anti, w'.cap, fun x hx h1 h2 => by
    have := ht x
    rw [hn.cons x hx h1 h2] at this
    simp only [delta, if_neg h1, if_neg h2] at this
    show total n (h' x) = 0
    omega⟩
  obtain ⟨f1, f2⟩ := hn'.flow hc
  rw [if_pos hs] at f2
  have h1 := hm _ f1
  rw [f2, ht s, ← net_value] at h1
  simp only [delta, if_true, if_neg hst] at h1
  omega

theorem cutCapacity_eq (U : Nat → Bool) : cutCapacity n c U =
    total n (fun x => if U x = true then total n (fun y => if U y = true then 0 else c x y) else 0) := by
  refine total_congr fun x _ => ?_
  by_cases h : U x = true
  · rw [if_pos h]
    refine total_congr fun y _ => ?_
    by_cases h' : U y = true <;> simp [h, h']
  · rw [if_neg h]
    exact total_const_zero fun y _ => by simp [h]

theorem flow_le_cut (hs : s < n) (hg : IsFlow n s t c g) {U : Nat → Bool} (h1 : U s = true) (h2 : U t = false) :
    flowValue n s g ≤ cutCapacity n c U := by
  rw [← net_value, cutCapacity_eq]
  refine Int.le_trans (Int.le_of_eq (hg.net.cut hs (fun x => U x = true) h1 (by simp [h2]))) ?_
  refine total_mono fun x hx => ?_
  by_cases h : U x = true
  · simp only [h, if_true]
    refine total_mono fun y hy => ?_
    by_cases h' : U y = true
    · simp [h']
    · simp only [h', if_false]; exact hg.net.cap x y hx hy
  · simp [h]

/-- The maximum flow is the minimum cut. -/
theorem max_flow_min_cut (hs : s < n) (hst : s ≠ t) (hc : ∀ x y, x < n → y < n → 0 ≤ c x y) {m : Int}
    (h : IsMaxFlow n s t c m) : IsMinCut n s t c m := by
  classical
  obtain ⟨⟨g, hg, hv⟩, hm⟩ := h
  subst hv
  refine ⟨?_, fun U h1 h2 => flow_le_cut hs hg h1 h2⟩
  have hno := no_path hs hst hc hg hm
  let R := Reachable (Res n c fun x y => g x y - g y x) (· = s)
  refine ⟨fun x => decide (R x), decide_eq_true ⟨0, rfl⟩, decide_eq_false hno, ?_⟩
  rw [cutCapacity_eq, ← net_value]
  refine Eq.trans ?_ (hg.net.cut hs R ⟨0, rfl⟩ hno).symm
  refine total_congr fun x hx => ?_
  by_cases h : R x
  · simp only [h, decide_true, if_true]
    refine total_congr fun y hy => ?_
    by_cases h' : R y
    · simp [h']
    · simp only [h', decide_false, if_false]
      have h1 := hg.net.cap x y hx hy
      have h2 : ¬ (g x y - g y x < c x y) := fun hlt => by
        obtain ⟨k, hk⟩ := h
        exact h' ⟨k + 1, x, hk, hx, hy, hlt⟩
      show (if false = true then 0 else c x y) = g x y - g y x
      simp; omega
  · simp [h]

theorem IsMaxFlow.unique {m m' : Int} (h : IsMaxFlow n s t c m) (h' : IsMaxFlow n s t c m') : m = m' := by
  obtain ⟨⟨g, hg, hv⟩, hm⟩ := h
  obtain ⟨⟨g', hg', hv'⟩, hm'⟩ := h'
  have := hm _ hg'
  have := hm' _ hg
  omega

theorem maxFlow_mono (h : ∀ x y, x < n → y < n → c x y ≤ c' x y) {m m' : Int} (hm : IsMaxFlow n s t c m)
    (hm' : IsMaxFlow n s t c' m') : m ≤ m' := by
  obtain ⟨⟨g, hg, rfl⟩, _⟩ := hm
  exact hm'.2 g ⟨hg.nonneg, fun x y hx hy => Int.le_trans (hg.capacity x y hx hy) (h x y hx hy), hg.conserved⟩

theorem flow_rev (hs : s < n) (ht : t < n) (hst : s ≠ t) (h : ∀ x y, x < n → y < n → c' y x = c x y)
    (hg : IsFlow n s t c g) : IsFlow n t s c' (fun x y => g y x) ∧ flowValue n t (fun x y => g y x) = flowValue n s g := by
  refine ⟨⟨fun x y hx hy => hg.nonneg y x hy hx, fun x y hx hy => by rw [h y x hy hx]; exact hg.capacity y x hy hx,
    fun x hx h1 h2 => (hg.conserved x hx h2 h1).symm⟩, ?_⟩
  have := hg.net.sink hs ht hst
  rw [← net_value, ← net_value, ← this]

theorem maxFlow_rev (hs : s < n) (ht : t < n) (hst : s ≠ t) (h : ∀ x y, x < n → y < n → c' y x = c x y) {m m' : Int}
    (hm : IsMaxFlow n s t c m) (hm' : IsMaxFlow n t s c' m') : m' = m := by
  obtain ⟨⟨g, hg, rfl⟩, h1⟩ := hm
  obtain ⟨⟨g', hg', rfl⟩, h2⟩ := hm'
  obtain ⟨a1, a2⟩ := flow_rev hs ht hst h hg
  obtain ⟨b1, b2⟩ := flow_rev (c' := c) ht hs (Ne.symm hst) (fun x y hx hy => (h y x hy hx).symm) hg'
  have := h2 _ a1
  have := h1 _ b1
  omega

theorem cut_scale {a : Int} (h : ∀ x y, x < n → y < n → c' x y = a * c x y) (U : Nat → Bool) :
    cutCapacity n c' U = a * cutCapacity n c U := by
  unfold cutCapacity
  rw [← total_mul]
  refine total_congr fun x hx => ?_
  rw [← total_mul]
  refine total_congr fun y hy => ?_
  split
  · exact h x y hx hy
  · simp

theorem maxFlow_scale {a : Int} (ha : 0 ≤ a) (hs : s < n) (hst : s ≠ t) (hc : ∀ x y, x < n → y < n → 0 ≤ c x y)
    (h : ∀ x y, x < n → y < n → c' x y = a * c x y) {m m' : Int} (hm : IsMaxFlow n s t c m)
    (hm' : IsMaxFlow n s t c' m') : m' = a * m := by
  obtain ⟨⟨U, u1, u2, u3⟩, h1⟩ := max_flow_min_cut hs hst hc hm
  obtain ⟨⟨U', v1, v2, v3⟩, h2⟩ := max_flow_min_cut hs hst
    (fun x y hx hy => by rw [h x y hx hy]; exact Int.mul_nonneg ha (hc x y hx hy)) hm'
  have a1 := h2 U u1 u2
  have a2 := Int.mul_le_mul_of_nonneg_left (h1 U' v1 v2) ha
  rw [cut_scale h] at a1 v3
  rw [u3] at a1
  rw [v3] at a2
  omega

end GBTL
