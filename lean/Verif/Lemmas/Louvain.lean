import Verif.Spec.Louvain
import Verif.Model.Louvain
import Verif.Props.ClusterAssign
/-
Louvain clustering: the modularity after a move, the choice of a cluster, the breaking of
ties.
-/
namespace GBTL
open Spec

variable {n : Nat}

/-! ### Modularity -/

theorem rsum_split {i : Nat} (hi : i < n) (f : Nat → Rat) :
    rsum n f = f i + rsum n fun j => if j = i then 0 else f j := by
  have h : rsum n f = rsum n fun j => (if j = i then f j else 0) + if j = i then 0 else f j :=
    rsum_congr fun j _ => by split <;> grind
  rw [h, rsum_add, rsum_single hi (f := fun j => if j = i then f j else 0) (fun j _ hj => by rw [if_neg hj])]
  rw [if_pos rfl]

theorem outWeight_eq (W : Mat Rat) (i : Nat) : outWeight n W i = rsum n fun j => (W i j).getD 0 := sumOf_eq _ _

theorem allWeight_eq (W : Mat Rat) : allWeight n W = rsum n (outWeight n W) := rsum_eq _ _

/-- The modularity, not divided. -/
def rawMod (n : Nat) (W : Mat Rat) (a : Nat → Nat) : Rat :=
  rsum n fun i => rsum n fun j => if a i = a j then pairWeight n W i j else 0

theorem modularity_eq (W : Mat Rat) (a : Nat → Nat) : modularity n W a = rawMod n W a / allWeight n W := by
  unfold modularity rawMod
  rw [rsum_eq]
  congr 1
  exact rsum_congr fun i _ => rsum_eq _ _

/-- What a vertex `j` in the cluster of `i` contributes. -/
def pairSum (n : Nat) (W : Mat Rat) (i j : Nat) : Rat := pairWeight n W i j + pairWeight n W j i

/-- What the other members of cluster `c` contribute when `i` is in it. -/
def gain (n : Nat) (W : Mat Rat) (a : Nat → Nat) (i c : Nat) : Rat :=
  rsum n fun j => if j ≠ i ∧ a j = c then pairSum n W i j else 0

theorem rawMod_move {W : Mat Rat} {a : Nat → Nat} {i : Nat} (hi : i < n) (c : Nat) :
    rawMod n W (moveTo a i c) = (pairWeight n W i i + rsum n fun x => if x = i then 0 else
      rsum n fun y => if y = i then 0 else if a x = a y then pairWeight n W x y else 0) + gain n W a i c := by
  unfold rawMod gain
  rw [rsum_split hi]
  have h1 : (rsum n fun j => if moveTo a i c i = moveTo a i c j then pairWeight n W i j else 0) =
      pairWeight n W i i + rsum n fun j => if j ≠ i ∧ a j = c then pairWeight n W i j else 0 := by
    rw [rsum_split hi]
    congr 1
    · rw [if_pos rfl]
    · refine rsum_congr fun j _ => ?_
      by_cases hj : j = i
      · simp [hj]
      · by_cases hc : a j = c
        · simp [moveTo, hj, hc]
        · simp [moveTo, hj, hc]
          exact fun h => absurd h.symm hc
  have h2 : (rsum n fun x => if x = i then 0 else
        rsum n fun j => if moveTo a i c x = moveTo a i c j then pairWeight n W x j else 0) =
      (rsum n fun x => if x ≠ i ∧ a x = c then pairWeight n W x i else 0) + rsum n fun x => if x = i then 0 else
      rsum n fun y => if y = i then 0 else if a x = a y then pairWeight n W x y else 0 := by
    rw [← rsum_add]
    refine rsum_congr fun x _ => ?_
    by_cases hx : x = i
    · simp [hx, Rat.add_zero]
    · rw [if_neg hx, if_neg hx, rsum_split hi]
      congr 1
      · simp [moveTo, hx]
      · refine rsum_congr fun y _ => ?_
        by_cases hy : y = i
        · simp [hy]
        · simp [moveTo, hx, hy]
  rw [h1, h2]
  have h3 : (rsum n fun j => if j ≠ i ∧ a j = c then pairSum n W i j else 0) =
      (rsum n fun j => if j ≠ i ∧ a j = c then pairWeight n W i j else 0) +
      rsum n fun x => if x ≠ i ∧ a x = c then pairWeight n W x i else 0 := by
    rw [← rsum_add]
    refine rsum_congr fun j _ => ?_
    unfold pairSum
    split <;> grind
  rw [h3]
  generalize (rsum n fun x => if x = i then 0 else rsum n fun y => if y = i then 0 else if a x = a y then pairWeight n W x y else 0) = u
  generalize (rsum n fun j => if j ≠ i ∧ a j = c then pairWeight n W i j else 0) = v
  generalize (rsum n fun x => if x ≠ i ∧ a x = c then pairWeight n W x i else 0) = w
  grind

/-- The cluster with the greater gain gives the greater modularity. -/
theorem modularity_le_iff {W : Mat Rat} {a : Nat → Nat} {i : Nat} (hi : i < n) (hm : 0 < allWeight n W) (c c' : Nat) :
    modularity n W (moveTo a i c') ≤ modularity n W (moveTo a i c) ↔ gain n W a i c' ≤ gain n W a i c := by
  rw [modularity_eq, modularity_eq, rawMod_move hi, rawMod_move hi]
  generalize (pairWeight n W i i + rsum n fun x => if x = i then 0 else
      rsum n fun y => if y = i then 0 else if a x = a y then pairWeight n W x y else 0) = u
  generalize gain n W a i c = x
  generalize gain n W a i c' = y
  have h1 : (u + y) / allWeight n W ≤ (u + x) / allWeight n W ↔ ¬ (u + x) / allWeight n W < (u + y) / allWeight n W := by grind
  rw [h1, Rat.div_lt_iff hm, Rat.div_mul_cancel (by grind)]
  grind

theorem moveTo_self (a : Nat → Nat) (i : Nat) : moveTo a i (a i) = a := by
  funext j
  unfold moveTo
  split
  · next h => rw [h]
  · rfl

/-! ### Sets of clusters -/

/-- `t` stores true for the clusters with `P`, and nothing else. -/
structure IsSet (n : Nat) (t : BVec Bool) (P : Nat → Prop) : Prop where
  sz : Sz n t
  yes : ∀ c, c < n → P c → t.get c = some true
  no : ∀ c, c < n → ¬ P c → t.get c = none

theorem IsSet.some_iff {t : BVec Bool} {P : Nat → Prop} (h : IsSet n t P) {c : Nat} (hc : c < n) : (t.get c).isSome = true ↔ P c := by
  by_cases hp : P c
  · rw [h.yes c hc hp]; simp [hp]
  · rw [h.no c hc hp]; simp [hp]

theorem IsSet.one_iff {t : BVec Bool} {P : Nat → Prop} (h : IsSet n t P) :
    t.nvals = 1 ↔ ∃ c, c < n ∧ P c ∧ ∀ c', c' < n → P c' → c' = c := by
  rw [h.sz.wf.nvals_eq, h.sz.sz, Spec.Vec.count, List.length_eq_one_iff]
  have hnd : ((List.range n).filter fun i => (t.get i).isSome).Nodup := List.Pairwise.filter _ List.nodup_range
  have hmem : ∀ c, c ∈ (List.range n).filter (fun i => (t.get i).isSome) ↔ c < n ∧ P c := by
    intro c
    rw [List.mem_filter, List.mem_range]
    constructor
    · rintro ⟨h1, h2⟩; exact ⟨h1, (h.some_iff h1).1 h2⟩
    · rintro ⟨h1, h2⟩; exact ⟨h1, (h.some_iff h1).2 h2⟩
  constructor
  · rintro ⟨c, hc⟩
    rw [hc] at hmem
    obtain ⟨h1, h2⟩ := (hmem c).1 (by simp)
    exact ⟨c, h1, h2, fun c' h1 h2 => by simpa using (hmem c').2 ⟨h1, h2⟩⟩
  · rintro ⟨c, h1, h2, h3⟩
    refine ⟨c, ?_⟩
    generalize (List.range n).filter (fun i => (t.get i).isSome) = l at hnd hmem
    match l, hnd, hmem with
    | [], _, hmem => exact absurd ((hmem c).2 ⟨h1, h2⟩) (by simp)
    | [x], _, hmem =>
      have := (hmem c).2 ⟨h1, h2⟩
      simp at this
      rw [this]
    | x :: y :: l, hnd, hmem =>
      have e1 := (hmem x).1 (by simp)
      have e2 := (hmem y).1 (by simp)
      have := (h3 x e1.1 e1.2).trans (h3 y e2.1 e2.2).symm
      subst this
      simp at hnd

theorem IsSet.congr {t : BVec Bool} {P Q : Nat → Prop} (h : IsSet n t P) (hpq : ∀ c, c < n → (P c ↔ Q c)) : IsSet n t Q :=
  ⟨h.sz, fun c hc hq => h.yes c hc ((hpq c hc).2 hq), fun c hc hq => h.no c hc fun hp => hq ((hpq c hc).1 hp)⟩

/-! ### Maxima -/

theorem maxInf_fold (v : Vec Rat) : ∀ n, 
    (∀ c, c < n → ∀ y, v c = some y → ∃ x, ((Vec.vals n v).map some).foldl maxInf none = some x ∧ y ≤ x) ∧
    (∀ x, ((Vec.vals n v).map some).foldl maxInf none = some x → ∃ c, c < n ∧ v c = some x) := by
  intro n
  induction n with
  | zero => exact ⟨fun c hc => absurd hc (Nat.not_lt_zero c), fun x h => by cases h⟩
  | succ n ih =>
    obtain ⟨h1, h2⟩ := ih
    rw [Vec.vals, List.range_succ, List.filterMap_append, List.map_append, List.foldl_append, ← Vec.vals]
    generalize ((Vec.vals n v).map some).foldl maxInf none = k at h1 h2
    cases hv : v n with
    | none =>
      simp only [List.filterMap_cons, hv, List.filterMap_nil, List.map_nil, List.foldl_nil]
      refine ⟨fun c hc y hy => ?_, fun x hx => ?_⟩
      · rcases Nat.lt_or_ge c n with h | h
        · exact h1 c h y hy
        · rw [show c = n by omega, hv] at hy; cases hy
      · obtain ⟨c, hc, e⟩ := h2 x hx
        exact ⟨c, by omega, e⟩
    | some z =>
      simp only [List.filterMap_cons, hv, List.filterMap_nil, List.map_cons, List.map_nil, List.foldl_cons, List.foldl_nil]
      cases k with
      | none =>
        refine ⟨fun c hc y hy => ⟨z, rfl, ?_⟩, fun x hx => ⟨n, by omega, hv.trans hx⟩⟩
        rcases Nat.lt_or_ge c n with h | h
        · obtain ⟨_, e, _⟩ := h1 c h y hy; cases e
        · rw [show c = n by omega, hv] at hy; injection hy with hy; rw [hy]; exact Rat.le_refl
      | some w =>
        obtain ⟨d, hd, ed⟩ := h2 w rfl
        refine ⟨fun c hc y hy => ⟨ratMax w z, rfl, ?_⟩, fun x hx => ?_⟩
        · rcases Nat.lt_or_ge c n with h | h
          · obtain ⟨x, e, hx⟩ := h1 c h y hy
            injection e with e
            subst e
            unfold ratMax; split <;> grind
          · rw [show c = n by omega, hv] at hy; injection hy with hy; subst hy
            unfold ratMax; split <;> grind
        · simp only [maxInf, Option.some.injEq] at hx
          unfold ratMax at hx
          split at hx
          · exact ⟨n, by omega, by rw [hv, hx]⟩
          · exact ⟨d, by omega, by rw [ed, hx]⟩

theorem lvMax_ok {q : BVec Rat} (hq : Sz n q) : ∃ k, lvMax q = .ok k ∧
    (∀ c, c < n → ∀ y, q.get c = some y → ∃ x, k = some x ∧ y ≤ x) ∧ (∀ x, k = some x → ∃ c, c < n ∧ q.get c = some x) := by
  obtain ⟨k, e, h⟩ := C17_reduce_vector (castZ := (id : Option Rat → Option Rat)) (acc := .none (id : Option Rat → Option Rat)) (f := maxInf)
    (e := none) (c := some) (val := some 0) (u := q) (fun x => rfl) hq.wf
  refine ⟨k, by unfold lvMax; rw [e, exec_done], ?_⟩
  simp [Spec.accum] at h
  rw [h, hq.sz]
  exact maxInf_fold q.get n

theorem lvEqual_ok {t : BVec Bool} {q : BVec Rat} {k : Option Rat} (ht : Sz n t) (hq : Sz n q) :
    ∃ t', lvEqual t q k = .ok t' ∧ IsSet n t' fun c => ∃ x, q.get c = some x ∧ k = some x := by
  obtain ⟨t1, e1, z1, g1⟩ := applyVP_ok (f := fun x => decide (some x = k)) ht hq
  obtain ⟨t2, e2, y⟩ := C15_apply_vector (o := vMasked id t1 .plain id t1 .replace) (f := id) (u := t1)
    (vM_wf z1 z1) z1.wf ⟨vM_fits z1 z1, rfl⟩
  obtain ⟨z2, g2⟩ := vM_yields z1 y
  refine ⟨t2, by unfold lvEqual; rw [e1, prog_bind_ok, e2, exec_done], z2, ?_, ?_⟩
  · rintro c hc ⟨x, hx, rfl⟩
    rw [g2 c hc, g1 c hc, hx]
    simp [Spec.allows]
  · intro c hc hno
    rw [g2 c hc, g1 c hc]
    cases hx : q.get c with
    | none => simp
    | some x =>
      have : ¬ some x = k := fun h => hno ⟨x, hx, h.symm⟩
      simp [Spec.allows, this]

/-- The elements of a vector that are not exceeded. -/
def ArgMax (n : Nat) (q : Nat → Option Rat) (c : Nat) : Prop :=
  ∃ x, q c = some x ∧ ∀ c', c' < n → ∀ y, q c' = some y → y ≤ x

theorem lvBest_ok {t : BVec Bool} {q : BVec Rat} (ht : Sz n t) (hq : Sz n q) :
    ∃ k t', lvMax q = .ok k ∧ lvEqual t q k = .ok t' ∧ IsSet n t' (ArgMax n q.get) := by
  obtain ⟨k, e1, h1, h2⟩ := lvMax_ok hq
  obtain ⟨t', e2, hs⟩ := lvEqual_ok (k := k) ht hq
  refine ⟨k, t', e1, e2, hs.congr fun c hc => ⟨?_, ?_⟩⟩
  · rintro ⟨x, hx, hk⟩
    refine ⟨x, hx, fun c' hc' y hy => ?_⟩
    obtain ⟨z, hz, hle⟩ := h1 c' hc' y hy
    rw [hk] at hz
    injection hz with hz
    rw [hz]; exact hle
  · rintro ⟨x, hx, hmax⟩
    obtain ⟨z, hz, hle⟩ := h1 c hc x hx
    obtain ⟨d, hd, ed⟩ := h2 z hz
    have := hmax d hd z ed
    exact ⟨x, hx, by rw [hz]; congr 1; grind⟩

theorem argMax_exists {q : Nat → Option Rat} (h : ∃ c, c < n ∧ q c ≠ none) : ∃ c, c < n ∧ ArgMax n q c := by
  obtain ⟨c, hc, hq⟩ := h
  obtain ⟨h1, h2⟩ := maxInf_fold q n
  obtain ⟨y, hy⟩ := Option.ne_none_iff_exists'.1 hq
  obtain ⟨x, hx, -⟩ := h1 c hc y hy
  obtain ⟨d, hd, ed⟩ := h2 x hx
  refine ⟨d, hd, x, ed, fun c' hc' y hy => ?_⟩
  obtain ⟨z, hz, hle⟩ := h1 c' hc' y hy
  rw [hx] at hz
  injection hz with hz
  rw [hz]; exact hle

/-! ### Ties -/

theorem lvDraw_ok {rnd : Nat → Rat} {t : BVec Bool} {P : Nat → Prop} (ht : IsSet n t P) (hn : 0 < n) (d : Nat) :
    ∃ (pd : BVec Rat × Nat) (f : Nat → Nat), lvDraw rnd n t d = .ok pd ∧ Sz n pd.1 ∧
      (∀ c, c < n → P c → pd.1.get c = some (rnd (f c) + 1 / 10000)) ∧ (∀ c, c < n → ¬ P c → pd.1.get c = none) ∧
      (∀ c c', c < n → c' < n → P c → P c' → f c = f c' → c = c') := by
  classical
  obtain ⟨p, e0, z0, g0⟩ := newV (τ := Rat) hn
  have key := forP_inv (b := fun c (pd : BVec Rat × Nat) => (do
      let b ← lift (t.hasElement c)
      if b then do
        let x ← lift (t.extractElement c)
        let p ← lift (method (pd.1.setElement c (b2r x * rnd pd.2 + 1 / 10000)))
        .ok (p, pd.2 + 1)
      else .ok pd))
    (fun k pd => ∃ f : Nat → Nat, Sz n pd.1 ∧ (∀ c, c < k → P c → pd.1.get c = some (rnd (f c) + 1 / 10000)) ∧
      (∀ c, c < k → ¬ P c → pd.1.get c = none) ∧ (∀ c, k ≤ c → pd.1.get c = none) ∧ (∀ c, c < k → P c → f c < pd.2) ∧
      (∀ c c', c < k → c' < k → P c → P c' → f c = f c' → c = c')) n (p, d)
    ⟨id, z0, fun c hc => absurd hc (Nat.not_lt_zero c), fun c hc => absurd hc (Nat.not_lt_zero c), fun c _ => g0 c,
      fun c hc => absurd hc (Nat.not_lt_zero c), fun c _ hc => absurd hc (Nat.not_lt_zero c)⟩
    (by
      rintro k pd hk ⟨f, z, g1, g2, g3, g4, g5⟩
      rw [BVec.hasElement_spec ht.sz.wf (by rw [ht.sz.sz]; exact hk), lift_ok, prog_bind_ok]
      by_cases hp : P k
      · have hg := ht.yes k hk hp
        rw [hg, if_pos (by rfl), BVec.extractElement_spec ht.sz.wf (by rw [ht.sz.sz]; exact hk) hg, lift_ok, prog_bind_ok]
        obtain ⟨p', e, z', g'⟩ := setV_ok z hk (b2r true * rnd pd.2 + 1 / 10000)
        rw [e, lift_ok, prog_bind_ok]
        refine ⟨_, rfl, fun c => if c = k then pd.2 else f c, z', ?_, ?_, ?_, ?_, ?_⟩
        · intro c hc hpc
          dsimp only
          rw [g' c]
          by_cases hck : c = k
          · rw [if_pos hck, if_pos hck]
            simp [b2r, Rat.one_mul]
          · rw [if_neg hck, if_neg hck]; exact g1 c (by omega) hpc
        · intro c hc hpc
          dsimp only
          rw [g' c, if_neg (fun h : c = k => hpc (h ▸ hp))]
          refine g2 c ?_ hpc
          rcases Nat.lt_or_ge c k with h | h
          · exact h
          · exact absurd (show P c by rw [show c = k by omega]; exact hp) hpc
        · intro c hc
          dsimp only
          rw [g' c, if_neg (by omega)]; exact g3 c (by omega)
        · intro c hc hpc
          dsimp only
          split
          · omega
          · have := g4 c (by omega) hpc; omega
        · intro c c' hc hc' hpc hpc' he
          dsimp only at he
          by_cases h1 : c = k <;> by_cases h2 : c' = k
          · omega
          · rw [if_pos h1, if_neg h2] at he
            have := g4 c' (by omega) hpc'; omega
          · rw [if_neg h1, if_pos h2] at he
            have := g4 c (by omega) hpc; omega
          · rw [if_neg h1, if_neg h2] at he
            exact g5 c c' (by omega) (by omega) hpc hpc' he
      · rw [ht.no k hk hp, if_neg (by simp)]
        refine ⟨pd, rfl, f, z, ?_, ?_, fun c hc => g3 c (by omega), ?_, ?_⟩
        · intro c hc hpc
          by_cases hck : c = k
          · exact absurd (hck ▸ hpc) hp
          · exact g1 c (by omega) hpc
        · intro c hc hpc
          by_cases hck : c = k
          · exact g3 c (by omega)
          · exact g2 c (by omega) hpc
        · intro c hc hpc
          by_cases hck : c = k
          · exact absurd (hck ▸ hpc) hp
          · exact g4 c (by omega) hpc
        · intro c c' hc hc' hpc hpc' he
          by_cases hck : c = k
          · exact absurd (hck ▸ hpc) hp
          · by_cases hck' : c' = k
            · exact absurd (hck' ▸ hpc') hp
            · exact g5 c c' (by omega) (by omega) hpc hpc' he)
  obtain ⟨pd, e, f, z, g1, g2, -, -, g5⟩ := key
  refine ⟨pd, f, ?_, z, g1, g2, g5⟩
  unfold lvDraw
  rw [e0, lift_ok, prog_bind_ok]
  exact e

/-- One round of breaking ties leaves some of the clusters, at least one, and only one if
no two of the numbers drawn are equal. -/
theorem lvTieBody_ok {rnd : Nat → Rat} {s : LvTie} {P : Nat → Prop} (hs : IsSet n s.t P) (hn : 0 < n) :
    ∃ s' Q, lvTieBody rnd n s = .ok s' ∧ IsSet n s'.t Q ∧ (∀ c, c < n → Q c → P c) ∧
      ((∃ c, c < n ∧ P c) → ∃ c, c < n ∧ Q c) ∧
      ((∀ x y, rnd x = rnd y → x = y) → ∀ c c', c < n → c' < n → Q c → Q c' → c = c') := by
  obtain ⟨pd, f, e1, z1, g1, g2, g3⟩ := lvDraw_ok (rnd := rnd) hs hn s.draws
  obtain ⟨k, t', e2, e3, h⟩ := lvBest_ok hs.sz z1
  have hsub : ∀ c, c < n → ArgMax n pd.1.get c → P c := by
    rintro c hc ⟨x, hx, -⟩
    refine Classical.byContradiction fun hp => ?_
    rw [g2 c hc hp] at hx; cases hx
  refine ⟨{ t := t', draws := pd.2 }, ArgMax n pd.1.get, ?_, h, hsub, ?_, ?_⟩
  · unfold lvTieBody
    rw [e1, prog_bind_ok, e2, prog_bind_ok, e3, prog_bind_ok]
  · rintro ⟨c, hc, hp⟩
    exact argMax_exists ⟨c, hc, by rw [g1 c hc hp]; simp⟩
  · rintro hinj c c' hc hc' hq hq'
    have hp := hsub c hc hq
    have hp' := hsub c' hc' hq'
    obtain ⟨x, hx, hm⟩ := hq
    obtain ⟨x', hx', hm'⟩ := hq'
    have h1 := hm c' hc' x' hx'
    have h2 := hm' c hc x hx
    have h3 := g1 c hc hp
    have h4 := g1 c' hc' hp'
    rw [hx] at h3
    rw [hx'] at h4
    injection h3 with h3
    injection h4 with h4
    exact g3 c c' hc hc' hp hp' (hinj _ _ (by grind))

/-- If breaking ties ends, one of the clusters is left. -/
theorem lvTies_partial {rnd : Nat → Rat} {s r : LvTie} {P : Nat → Prop} {fuel : Nat} (hs : IsSet n s.t P) (hn : 0 < n)
    (h : lvTies rnd n fuel s = .ok r) : ∃ c, c < n ∧ P c ∧ IsSet n r.t fun c' => c' = c := by
  obtain ⟨⟨Q, h1, h2⟩, h3⟩ := loop_partial (c := fun s : LvTie => s.t.nvals != 1) (b := lvTieBody rnd n)
    (fun s => ∃ Q, IsSet n s.t Q ∧ ∀ c, c < n → Q c → P c)
    (by
      rintro s s' ⟨Q, h1, h2⟩ - e
      obtain ⟨s1, Q1, e1, h3, h4, -⟩ := lvTieBody_ok (rnd := rnd) h1 hn
      rw [e] at e1
      injection e1 with e1
      subst e1
      exact ⟨Q1, h3, fun c hc hq => h2 c hc (h4 c hc hq)⟩)
    fuel s r ⟨P, hs, fun _ _ h => h⟩ h
  simp at h3
  obtain ⟨c, hc, hq, hu⟩ := h1.one_iff.1 h3
  refine ⟨c, hc, h2 c hc hq, h1.congr fun c' hc' => ⟨hu c' hc', fun h => h ▸ hq⟩⟩

/-- Breaking ties ends if no two of the numbers drawn are equal and there is a cluster. -/
theorem lvTies_total {rnd : Nat → Rat} {s : LvTie} {P : Nat → Prop} {fuel : Nat} (hs : IsSet n s.t P) (hn : 0 < n)
    (hinj : ∀ x y, rnd x = rnd y → x = y) (hP : ∃ c, c < n ∧ P c) (hf : 0 < fuel) : ∃ r, lvTies rnd n fuel s = .ok r := by
  obtain ⟨fuel, rfl⟩ : ∃ f, fuel = f + 1 := ⟨fuel - 1, by omega⟩
  unfold lvTies
  by_cases h1 : s.t.nvals = 1
  · exact ⟨s, by rw [loop]; simp [h1]⟩
  · obtain ⟨s', Q, e, h2, -, h3, h4⟩ := lvTieBody_ok (rnd := rnd) hs hn
    obtain ⟨c, hc, hq⟩ := h3 hP
    have h5 : s'.t.nvals = 1 := h2.one_iff.2 ⟨c, hc, hq, fun c' hc' hq' => h4 hinj c' c hc' hc hq' hq⟩
    refine ⟨s', ?_⟩
    rw [loop]
    simp only [bne_iff_ne, ne_eq, h1, not_false_eq_true, if_true]
    rw [e, prog_bind_ok]
    cases fuel <;> simp [loop, h5]

/-- Breaking ties never ends if there is no cluster. -/
theorem lvTies_forever {rnd : Nat → Rat} {s : LvTie} {P : Nat → Prop} (fuel : Nat) (hs : IsSet n s.t P) (hn : 0 < n)
    (hP : ∀ c, c < n → ¬ P c) : lvTies rnd n fuel s = .error .running := by
  refine loop_forever (fun s => IsSet n s.t fun _ => False) ?_ fuel s (hs.congr fun c hc => ⟨fun h => hP c hc h, fun h => h.elim⟩)
  intro s hs
  constructor
  · have : s.t.nvals ≠ 1 := fun h => by
      obtain ⟨_, _, h, _⟩ := hs.one_iff.1 h
      exact h
    simpa using this
  · obtain ⟨s', Q, e, h1, h2, -⟩ := lvTieBody_ok (rnd := rnd) hs hn
    exact ⟨s', e, h1.congr fun c hc => ⟨h2 c hc, fun h => h.elim⟩⟩

end GBTL
