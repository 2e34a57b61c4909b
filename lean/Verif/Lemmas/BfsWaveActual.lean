import Verif.Lemmas.BfsBatch
/-
The parent BFS from wavefronts for any scalar types: one round, pointwise.
-/
namespace GBTL
open Spec

/-- A conversion to a type and then to `IndexType` changes nothing the second time. -/
theorem ITy.conv_u64_idem (t : ITy) (x : Int) :
    ITy.conv .u64 (t.conv (ITy.conv .u64 (t.conv x))) = ITy.conv .u64 (t.conv x) := by
  cases t <;> simp [ITy.conv, ITy.signed, ITy.width, Int.bmod] <;> (repeat' split) <;> omega

variable {E : Nat → Nat → Prop} {S : Nat → Prop} {d n : Nat}

/-- A parent BFS from the vertices `S` after `d` rounds, pointwise, with vertex `u` known to
its neighbours as `label u`, and the smallest label `m` stored as `f (g m)`. -/
structure LabAt (E : Nat → Nat → Prop) (S : Nat → Prop) (label : Nat → Int) (f g : Int → Int) (d : Nat)
    (wave par : Nat → Option Int) : Prop where
  inW : ∀ v, HopDist E S v d → wave v ≠ none
  outW : ∀ v, ¬ HopDist E S v d → wave v = none
  root : ∀ v, S v → ∃ c, par v = some c ∧ f c = f v ∧ (0 < d → c = f v)
  inP : ∀ v k, k < d → HopDist E S v (k + 1) →
    ∃ m, par v = some (f (g m)) ∧ IsLeastLabel E S label v m
  outP : ∀ v, (∀ k, k ≤ d → ¬ HopDist E S v k) → par v = none

variable {label : Nat → Int} {f g : Int → Int} {wv par wv' par' : Nat → Option Int}

theorem LabAt.par_ne (h : LabAt E S label f g d wv par) {v k : Nat} (hk : k ≤ d) (hd : HopDist E S v k) :
    par v ≠ none := by
  cases k with
  | zero =>
    obtain ⟨c, hc, -⟩ := h.root v (hopDist_zero.1 hd)
    rw [hc]; simp
  | succ k =>
    obtain ⟨p, hp, -⟩ := h.inP v k (by omega) hd
    rw [hp]; simp

/-- One round. -/
theorem LabAt.step (h : LabAt E S label f g d wv par) (hf : ∀ x, f (f x) = f x)
    (h1 : ∀ v, par v ≠ none → wv' v = none)
    (h2 : ∀ v, par v = none → (∀ u, wv u ≠ none → ¬ E u v) → wv' v = none)
    (h3 : ∀ v u, par v = none → wv u ≠ none → E u v →
      ∃ p : Nat, wv' v = some (g (label p)) ∧ wv p ≠ none ∧ E p v ∧
        ∀ u, wv u ≠ none → E u v → label p ≤ label u)
    (h4 : ∀ v, wv' v = none → par' v = (par v).map f)
    (h5 : ∀ v x, wv' v = some x → par v = none → par' v = some (f x)) :
    LabAt E S label f g (d + 1) wv' par' := by
  have hw : ∀ u, wv u ≠ none ↔ HopDist E S u d := by
    intro u
    constructor
    · intro hu
      by_cases hd : HopDist E S u d
      · exact hd
      · exact absurd (h.outW u hd) hu
    · exact h.inW u
  have hnew : ∀ v, HopDist E S v (d + 1) →
      par v = none ∧ ∃ m, wv' v = some (g m) ∧ IsLeastLabel E S label v m := by
    intro v hv
    have hn : par v = none := by
      refine h.outP v ?_
      intro k hk hd
      have := hv.unique hd
      omega
    obtain ⟨u, hu, e⟩ := hv.pred
    obtain ⟨p, p1, p2, p3, p4⟩ := h3 v u hn ((hw u).2 hu) e
    exact ⟨hn, label p, p1, d, hv, ⟨p, (hw p).1 p2, p3, rfl⟩, fun u hu => p4 u ((hw u).2 hu)⟩
  have hold : ∀ v, par v = none → ¬ HopDist E S v (d + 1) → wv' v = none := by
    intro v hn hv
    refine h2 v hn ?_
    intro u hu e
    apply hv
    rw [hopDist_succ]
    refine ⟨⟨u, (hw u).1 hu, e⟩, ?_⟩
    intro k hk hd
    exact h.par_ne hk hd hn
  have keep : ∀ v, par v ≠ none → par' v = (par v).map f := fun v hv => h4 v (h1 v hv)
  refine ⟨?_, ?_, ?_, ?_, ?_⟩
  · intro v hv
    obtain ⟨-, p, hp, -⟩ := hnew v hv
    rw [hp]; simp
  · intro v hv
    by_cases hn : par v = none
    · exact hold v hn hv
    · exact h1 v hn
  · intro v hv
    obtain ⟨c, hc, hcf, -⟩ := h.root v hv
    refine ⟨f v, ?_, hf _, fun _ => rfl⟩
    rw [keep v (by rw [hc]; simp), hc, Option.map_some, hcf]
  · intro v k hk hd
    rcases Nat.lt_or_ge k d with h' | h'
    · obtain ⟨m, hp, hq⟩ := h.inP v k h' hd
      exact ⟨m, by rw [keep v (by rw [hp]; simp), hp, Option.map_some, hf], hq⟩
    · have : k = d := by omega
      subst this
      obtain ⟨hn, m, hp, hq⟩ := hnew v hd
      exact ⟨m, h5 v _ hp hn, hq⟩
  · intro v hv
    have hn : par v = none := h.outP v (fun k hk => hv k (by omega))
    rw [h4 v (hold v hn (hv (d + 1) (Nat.le_refl _))), hn]; rfl

theorem LabAt.start (h1 : ∀ v, wv v ≠ none ↔ S v)
    (h2 : ∀ v, S v → ∃ c, par v = some c ∧ f c = f v) (h3 : ∀ v, ¬ S v → par v = none) :
    LabAt E S label f g 0 wv par := by
  refine ⟨fun v hv => (h1 v).2 (hopDist_zero.1 hv), ?_, ?_, fun v k hk => absurd hk (Nat.not_lt_zero _),
    fun v hv => h3 v (fun h => hv 0 (Nat.le_refl _) (hopDist_zero.2 h))⟩
  · intro v hv
    apply Classical.not_not.1
    intro h
    exact hv (hopDist_zero.2 ((h1 v).1 h))
  · intro v hv
    obtain ⟨c, a, b⟩ := h2 v hv
    exact ⟨c, a, b, fun h => absurd h (Nat.lt_irrefl _)⟩

/-- What the parents are when the wavefront is empty. -/
theorem LabAt.final (h : LabAt E S label f g d wv par) (he : ∀ v, wv v = none) :
    (∀ v, S v → par v = some (f v)) ∧
    (∀ v, Reachable E S v → ¬ S v → ∃ m, par v = some (f (g m)) ∧ IsLeastLabel E S label v m) ∧
    (∀ v, ¬ Reachable E S v → par v = none) := by
  have hnd : ∀ v, ¬ HopDist E S v d := fun v hv => h.inW v hv (he v)
  refine ⟨?_, ?_, fun v hv => h.outP v (fun k _ hd => hv ⟨k, hd.1⟩)⟩
  · intro v hv
    obtain ⟨c, hc, -, h0⟩ := h.root v hv
    rw [hc, h0]
    cases d with
    | zero => exact absurd (hopDist_zero.2 hv) (hnd v)
    | succ d => omega
  · rintro v ⟨k, hk⟩ hv
    obtain ⟨j, -, hd⟩ := Walk.dist hk
    cases j with
    | zero => exact absurd (hopDist_zero.1 hd) hv
    | succ j =>
      rcases Nat.lt_or_ge j d with h' | h'
      · exact h.inP v j h' hd
      · exact absurd hd (hopDist_none hnd (by omega))

/-- The operations of one round, pointwise: vertex `v` of the wavefront is renumbered to
`num v` (`w1`), the wavefront is multiplied with the graph and masked (`wv'`), and added to
the parents. -/
theorem LabAt.round {A : Nat → Nat → Option Int} {t w : ITy} {w1 : Nat → Option Int} {num : Nat → Int}
    (h : LabAt (Edge A) S (fun u => t.conv (num u)) (fun x => ITy.conv .u64 (t.conv x)) w.conv d wv par)
    (hE : ∀ u v, Edge A u v → v < n) (hlt : ∀ u, wv u ≠ none → u < n)
    (h1 : ∀ v, w1 v = if wv v = none then none else some (num v))
    (h2 : ∀ v, v < n → wv' v = if par v = none then
      (Spec.vxm n t.minT (fun a (_ : Int) => t.conv a) w1 A v).map w.conv else none)
    (h2' : ∀ v, ¬ v < n → wv' v = none)
    (h3 : ∀ v, v < n → wv' v = none → par' v = (par v).map fun c => ITy.conv .u64 (t.conv c))
    (h4 : ∀ v x, v < n → wv' v = some x → par v = none → par' v = some (ITy.conv .u64 (t.conv x)))
    (h3' : ∀ v, ¬ v < n → par v = none ∧ par' v = none) :
    LabAt (Edge A) S (fun u => t.conv (num u)) (fun x => ITy.conv .u64 (t.conv x)) w.conv (d + 1) wv' par' := by
  have hval : ∀ v k x, both (fun a (_ : Int) => t.conv a) (w1 k) (A k v) = some x →
      x = t.conv (num k) ∧ wv k ≠ none ∧ Edge A k v := by
    intro v k x hx
    rw [h1] at hx
    by_cases hk : wv k = none
    · rw [if_pos hk] at hx; cases hx
    · rw [if_neg hk] at hx
      cases hg : A k v with
      | none => rw [hg] at hx; cases hx
      | some y =>
        rw [hg] at hx
        cases hx
        exact ⟨rfl, hk, by rw [Edge, hg]; rfl⟩
  have hval2 : ∀ v k, wv k ≠ none → Edge A k v →
      both (fun a (_ : Int) => t.conv a) (w1 k) (A k v) = some (t.conv (num k)) := by
    intro v k hk he
    obtain ⟨y, hy⟩ := Option.isSome_iff_exists.1 he
    rw [h1, if_neg hk, hy]
    rfl
  refine h.step (ITy.conv_u64_idem t) ?_ ?_ ?_ ?_ ?_
  · intro v hv
    by_cases hn : v < n
    · rw [h2 v hn, if_neg hv]
    · exact h2' v hn
  · intro v hv hu
    by_cases hn : v < n
    · rw [h2 v hn, if_pos hv, show Spec.vxm n t.minT (fun a (_ : Int) => t.conv a) w1 A v = none from
        osum_range_none.2 ?_, Option.map_none]
      intro k _
      cases hx : both (fun a (_ : Int) => t.conv a) (w1 k) (A k v) with
      | none => rfl
      | some x =>
        obtain ⟨-, a, b⟩ := hval v k x hx
        exact absurd b (hu k a)
    · exact h2' v hn
  · intro v u hv hu he
    cases hsum : Spec.vxm n t.minT (fun a (_ : Int) => t.conv a) w1 A v with
    | none =>
      have := osum_range_none.1 hsum u (hlt u hu)
      rw [hval2 v u hu he] at this
      cases this
    | some x =>
      obtain ⟨⟨k, hk, hx⟩, hmin⟩ := osum_minT
        (fun k x hk hx => by rw [(hval v k x hx).1]; exact ITy.has_conv t _) hsum
      obtain ⟨rfl, a, b⟩ := hval v k x hx
      refine ⟨k, ?_, a, b, fun u hu he => ?_⟩
      · rw [h2 v (hE k v b), if_pos hv, hsum, Option.map_some]
      · exact hmin u _ (hlt u hu) (hval2 v u hu he)
  · intro v hv
    by_cases hn : v < n
    · rw [h3 v hn hv]
    · rw [(h3' v hn).1, (h3' v hn).2]; rfl
  · intro v x hv hn
    by_cases hvn : v < n
    · exact h4 v x hvn hv hn
    · rw [h2' v hvn] at hv; cases hv

end GBTL
