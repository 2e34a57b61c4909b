import Verif.Lemmas.Betweenness
/-
One source of a betweenness computation: what a round of the breadth-first phase does to
the numbers of shortest paths, and what a round of the backward phase does to the
dependencies. `F`, `P`, `U` are the contents of one row (or column) of the matrices.
-/
namespace GBTL
open Spec

variable {n : Nat} {E : Nat → Nat → Bool} {ν : Type}

theorem hops_self (hE : EdgesIn n E) {s : Nat} (hs : s < n) : hops n E s s = some 0 :=
  (hops_some hE hs).2 ((hopDist_zero (S := (· = s))).2 rfl)

theorem hops_zero (hE : EdgesIn n E) {s v : Nat} (hs : s < n) (h : hops n E s v = some 0) : v = s :=
  (hopDist_zero (S := (· = s))).1 ((hops_some hE hs).1 h)

theorem hops_in (hE : EdgesIn n E) {s v d : Nat} (hs : s < n) (h : hops n E s v = some d) : v < n := by
  have := ((hops_some hE hs).1 h).1
  cases d with
  | zero => have : v = s := this; subst this; exact hs
  | succ d => obtain ⟨u, -, e⟩ := this; exact (hE u v e).2

theorem hops_lt {s v d : Nat} (h : hops n E s v = some d) : d < n := by
  have := List.mem_of_find?_eq_some h
  simpa using this

/-- An edge leads at most one hop further. -/
theorem hops_edge (hE : EdgesIn n E) {s u v d : Nat} (hs : s < n) (h : hops n E s u = some d)
    (e : E u v = true) : ∃ d', d' ≤ d + 1 ∧ hops n E s v = some d' := by
  have hw : Walk (bE E) (· = s) (d + 1) v := ⟨u, ((hops_some hE hs).1 h).1, e⟩
  obtain ⟨d', h1, h2⟩ := Walk.dist hw
  exact ⟨d', h1, (hops_some hE hs).2 h2⟩

/-- A vertex at distance `d + 1` has a predecessor at distance `d`. -/
theorem hops_pred (hE : EdgesIn n E) {s v d : Nat} (hs : s < n) (h : hops n E s v = some (d + 1)) :
    ∃ u, hops n E s u = some d ∧ E u v = true := by
  obtain ⟨u, h1, h2⟩ := ((hops_some hE hs).1 h).pred
  exact ⟨u, (hops_some hE hs).2 h1, h2⟩

theorem hops_none_above (hE : EdgesIn n E) {s d : Nat} (hs : s < n)
    (h : ∀ v, hops n E s v ≠ some d) {k v : Nat} (hk : d ≤ k) : hops n E s v ≠ some k := by
  intro hv
  exact hopDist_none (E := bE E) (S := (· = s)) (fun v h' => h v ((hops_some hE hs).2 h')) hk
    ((hops_some hE hs).1 hv)

/-! ### counting in a scalar type -/

/-- `num` represents the numbers up to `M` in a scalar type, where `add` adds them as long
as the sum is at most `M`, and where all but 0 are true. -/
structure Counts (add : ν → ν → ν) (truthy : ν → Bool) (num : Nat → ν) (M : Nat) : Prop where
  add : ∀ a b, a + b ≤ M → add (num a) (num b) = num (a + b)
  truthy : ∀ a, 0 < a → a ≤ M → truthy (num a) = true

/-- The element is the number `g`; there is none only if `g = 0`. -/
def NVal (num : Nat → ν) (o : Option ν) (g : Nat) : Prop :=
  match o with
  | some x => x = num g
  | none => g = 0

theorem osum_nval {add : ν → ν → ν} {truthy : ν → Bool} {num : Nat → ν} {M m : Nat}
    (hc : Counts add truthy num M) {h : Nat → Option ν} {g : Nat → Nat}
    (hv : ∀ k, k < m → NVal num (h k) (g k)) (hM : sumTo m g ≤ M) :
    NVal num (osum add ((List.range m).map h)) (sumTo m g) := by
  induction m with
  | zero => rfl
  | succ m ih =>
    rw [sumTo] at hM ⊢
    have h1 := ih (fun k hk => hv k (by omega)) (by omega)
    have h2 := hv m (by omega)
    rw [List.range_succ, List.map_append, List.map_cons, List.map_nil, osum_append]
    cases ho : osum add ((List.range m).map h) with
    | none =>
      rw [ho] at h1
      have h1 : sumTo m g = 0 := h1
      rw [h1, Nat.zero_add]; exact h2
    | some a =>
      rw [ho] at h1
      have h1 : a = num (sumTo m g) := h1
      cases hn : h m with
      | none =>
        rw [hn] at h2
        have h2 : g m = 0 := h2
        show a = _
        rw [h2]; exact h1
      | some b =>
        rw [hn] at h2
        have h2 : b = num (g m) := h2
        show add a b = _
        rw [h1, h2, hc.add _ _ hM]

/-- The number of shortest paths from `s` to all vertices together. -/
def totalPaths (n : Nat) (E : Nat → Nat → Bool) (s : Nat) : Nat := sumTo n (spc n E s)

theorem spc_le (hE : EdgesIn n E) {s v d : Nat} (hs : s < n) (h : hops n E s v = some d) :
    spc n E s v ≤ totalPaths n E s :=
  sumTo_term (f := spc n E s) (hops_in hE hs h)

/-! ### the breadth-first phase -/

/-- The numbers of shortest paths to the vertices at distance `k`. The source may have a
count at distance 1 too, if it has a loop. -/
structure Front (n : Nat) (E : Nat → Nat → Bool) (num : Nat → ν) (s k : Nat) (F : Nat → Option ν) : Prop where
  at_ : ∀ v, v ≠ s → hops n E s v = some k → F v = some (num (spc n E s v))
  off : ∀ v, v ≠ s → hops n E s v ≠ some k → F v = none
  src : F s = none ∨ k ≤ 1 ∧ F s = some (num 1)
  zero : k = 0 → F s = some (num 1)

/-- The numbers of shortest paths to the vertices up to distance `k`. The source may have
been counted twice. -/
structure Nsp (n : Nat) (E : Nat → Nat → Bool) (num : Nat → ν) (s k : Nat) (P : Nat → Option ν) : Prop where
  at_ : ∀ v j, v ≠ s → hops n E s v = some j → j ≤ k → P v = some (num (spc n E s v))
  off : ∀ v, v ≠ s → (∀ j, j ≤ k → hops n E s v ≠ some j) → P v = none
  src : P s = some (num 1) ∨ 1 ≤ k ∧ P s = some (num 2)

section
variable {add : ν → ν → ν} {truthy : ν → Bool} {num : Nat → ν} {M s k : Nat} {F P F' P' : Nat → Option ν}

theorem Front.init (hE : EdgesIn n E) (hs : s < n) (h1 : F s = some (num 1)) (h2 : ∀ v, v ≠ s → F v = none) :
    Front n E num s 0 F :=
  ⟨fun v hv h => absurd (hops_zero hE hs h) hv, fun v hv _ => h2 v hv, .inr ⟨by omega, h1⟩, fun _ => h1⟩

theorem Nsp.init (hE : EdgesIn n E) (hs : s < n) (h1 : P s = some (num 1)) (h2 : ∀ v, v ≠ s → P v = none) :
    Nsp n E num s 0 P :=
  ⟨fun v j hv h hj => absurd (hops_zero hE hs (by rw [h]; congr 1; omega)) hv, fun v hv _ => h2 v hv, .inl h1⟩

/-- The neighbours of the source as first frontier. -/
theorem Front.first (hE : EdgesIn n E) (hs : s < n) (h : ∀ v, F v = if E s v = true then some (num 1) else none) :
    Front n E num s 1 F := by
  have hone : ∀ v, v ≠ s → (hops n E s v = some 1 ↔ E s v = true) := by
    intro v hv
    constructor
    · intro h
      obtain ⟨u, h1, h2⟩ := hops_pred hE hs h
      rw [← hops_zero hE hs h1]; exact h2
    · intro e
      obtain ⟨d, h1, h2⟩ := hops_edge hE hs (hops_self hE hs) e
      have : d ≠ 0 := by intro h0; subst h0; exact hv (hops_zero hE hs h2)
      rw [h2]; congr 1; omega
  refine ⟨?_, ?_, ?_, by omega⟩
  · intro v hv h1
    have e := (hone v hv).1 h1
    rw [h v, if_pos e, spc_eq hE hs h1, cnt_succ, sumTo_single hs]
    · rw [cnt_zero, e, if_pos rfl]; rfl
    · intro u hu
      rw [cnt_zero, if_neg (fun e => hu e.symm)]; simp
  · intro v hv h1
    rw [h v, if_neg (fun e => h1 ((hone v hv).2 e))]
  · rw [h s]
    by_cases e : E s s = true
    · rw [if_pos e]; exact .inr ⟨by omega, rfl⟩
    · rw [if_neg e]; exact .inl rfl

/-- Adding the frontier to the counts. -/
theorem Nsp.next (hc : Counts add truthy num M) (hM : 2 ≤ M)
    (hP : Nsp n E num s k P)
    (hF : Front n E num s (k + 1) F) (h : ∀ v, P' v = either add id id (P v) (F v)) :
    Nsp n E num s (k + 1) P' := by
  refine ⟨?_, ?_, ?_⟩
  · intro v j hv hj hjk
    rw [h v]
    by_cases hk : j = k + 1
    · subst hk
      rw [hF.at_ v hv hj, hP.off v hv (by intro i hi e; rw [hj] at e; cases e; omega)]; rfl
    · rw [hF.off v hv (by rw [hj]; intro e; cases e; exact hk rfl), hP.at_ v j hv hj (by omega)]; rfl
  · intro v hv hno
    rw [h v, hP.off v hv (fun j hj => hno j (by omega)), hF.off v hv (hno _ (by omega))]; rfl
  · rw [h s]
    rcases hF.src with e | ⟨e0, e⟩
    · rw [e]
      rcases hP.src with e' | ⟨e1, e'⟩
      · rw [e']; exact .inl rfl
      · rw [e']; exact .inr ⟨by omega, rfl⟩
    · have hk : k = 0 := by omega
      subst hk
      rcases hP.src with e' | ⟨e1, _⟩
      · rw [e, e']
        refine .inr ⟨by omega, ?_⟩
        show some (add (num 1) (num 1)) = _
        rw [hc.add 1 1 (by omega)]
      · omega

/-- A round of the search: the frontier times the adjacency matrix, without the vertices
already counted. `T v` sums over the predecessors `u` of `v` in the frontier. -/
theorem Front.next (hE : EdgesIn n E) (hs : s < n) (hc : Counts add truthy num M)
    (hM : totalPaths n E s ≤ M) (hM2 : 2 ≤ M) (hP : Nsp n E num s k P) (hF : Front n E num s k F)
    {pr : Nat → Nat → Option ν}
    (hpr : ∀ u v a, F u = some (num a) → a ≤ M → pr u v = if E u v = true then some (num a) else none)
    (hpn : ∀ u v, F u = none → pr u v = none)
    (h : ∀ v, F' v = if (P v).any truthy then none else osum add ((List.range n).map fun u => pr u v)) :
    Front n E num s (k + 1) F' := by
  have hPs : (P s).any truthy = true := by
    rcases hP.src with e | ⟨-, e⟩
    · rw [e]; exact hc.truthy 1 (by omega) (by omega)
    · rw [e]; exact hc.truthy 2 (by omega) (by omega)
  have hseen : ∀ v j, v ≠ s → hops n E s v = some j → j ≤ k → (P v).any truthy = true := by
    intro v j hv hj hjk
    rw [hP.at_ v j hv hj hjk]
    exact hc.truthy _ (spc_pos hE hs hj) (Nat.le_trans (spc_le hE hs hj) hM)
  have hsrc : F' s = none := by rw [h s, if_pos hPs]
  refine ⟨?_, ?_, .inl hsrc, by omega⟩
  · intro v hv hd
    have hPv : P v = none := hP.off v hv (by intro j hj e; rw [hd] at e; cases e; omega)
    rw [h v, if_neg (by rw [hPv]; simp)]
    have hval : ∀ u, u < n → NVal num (pr u v) (ind (E u v) * cnt n E k s u) := by
      intro u hu
      cases e : E u v with
      | false =>
        show NVal num (pr u v) (ind false * _)
        rw [show ind false = 0 from rfl, Nat.zero_mul]
        cases hf : F u with
        | none => rw [hpn u v hf]; rfl
        | some x =>
          by_cases hus : u = s
          · subst hus
            rcases hF.src with e' | ⟨_, e'⟩
            · rw [e'] at hf; cases hf
            · rw [hpr u v 1 e' (by omega), if_neg (by rw [e]; simp)]; rfl
          · by_cases hk : hops n E s u = some k
            · rw [hpr u v _ (hF.at_ u hus hk) (Nat.le_trans (spc_le hE hs hk) hM), if_neg (by rw [e]; simp)]; rfl
            · rw [hF.off u hus hk] at hf; cases hf
      | true =>
        rw [show ind true = 1 from rfl, Nat.one_mul]
        by_cases hk : hops n E s u = some k
        · rw [← spc_eq hE hs hk]
          by_cases hus : u = s
          · subst hus
            rw [hops_self hE hs] at hk
            cases hk
            rw [hpr u v 1 (hF.zero rfl) (by omega), if_pos e, spc_self hE hs]; rfl
          · rw [hpr u v _ (hF.at_ u hus hk) (Nat.le_trans (spc_le hE hs hk) hM), if_pos e]; rfl
        · have hz : cnt n E k s u = 0 := by
            rcases Nat.eq_zero_or_pos (cnt n E k s u) with h0 | h0
            · exact h0
            · obtain ⟨d, hd1, hd2⟩ := Walk.dist ((cnt_pos hE).1 h0)
              have hd2 := (hops_some hE hs).2 hd2
              obtain ⟨d', h1, h2⟩ := hops_edge hE hs hd2 e
              rw [hd] at h2
              cases h2
              exact absurd (by rw [hd2]; congr 1; omega) hk
          rw [hz]
          have hf : F u = none := by
            by_cases hus : u = s
            · subst hus
              rcases hF.src with e' | ⟨hk1, _⟩
              · exact e'
              · have : k ≠ 0 := by intro h0; subst h0; exact hk (hops_self hE hs)
                obtain ⟨d', h1, h2⟩ := hops_edge hE hs (hops_self hE hs) e
                rw [hd] at h2
                cases h2
                omega
            · exact hF.off u hus hk
          rw [hpn u v hf]; rfl
    have hcnt : sumTo n (fun u => ind (E u v) * cnt n E k s u) = spc n E s v := by
      rw [spc_eq hE hs hd, cnt_succ]
    have := osum_nval hc hval (by rw [hcnt]; exact Nat.le_trans (spc_le hE hs hd) hM)
    rw [hcnt] at this
    have hp := spc_pos hE hs hd
    revert this
    cases osum add ((List.range n).map fun u => pr u v) with
    | none => intro h0; have h0 : spc n E s v = 0 := h0; omega
    | some x => intro h0; have h0 : x = _ := h0; rw [h0]
  · intro v hv hd
    rw [h v]
    split
    · rfl
    · rename_i hno
      rw [osum_range_none]
      intro u hu
      have hnj : ∀ j, j ≤ k → hops n E s v ≠ some j := fun j hj e => hno (hseen v j hv e hj)
      have key : ∀ d, d ≤ k → hops n E s u = some d → E u v ≠ true := by
        intro d hdk hd' e
        obtain ⟨d', h1, h2⟩ := hops_edge hE hs hd' e
        by_cases hk : d' = k + 1
        · subst hk; exact hd h2
        · exact hnj d' (by omega) h2
      by_cases hus : u = s
      · subst hus
        rcases hF.src with e' | ⟨_, e'⟩
        · exact hpn _ v e'
        · rw [hpr _ v 1 e' (by omega), if_neg (key 0 (by omega) (hops_self hE hs))]
      · by_cases hk : hops n E s u = some k
        · rw [hpr u v _ (hF.at_ u hus hk) (Nat.le_trans (spc_le hE hs hk) hM), if_neg (key k (by omega) hk)]
        · exact hpn u v (hF.off u hus hk)

/-- A frontier that is not empty is at a distance of at most `n`. -/
theorem Front.le (hF : Front n E num s k F) (hs : s < n) {v : Nat} (h : F v ≠ none) : k ≤ n := by
  by_cases hv : v = s
  · subst hv
    rcases hF.src with e | ⟨e, -⟩
    · exact absurd e h
    · omega
  · by_cases hk : hops n E s v = some k
    · exact Nat.le_of_lt (hops_lt hk)
    · exact absurd (hF.off v hv hk) h

end

/-! ### the backward phase -/

open Classical in
/-- One plus the dependencies on the vertices at distance `i` or more, one elsewhere. -/
def BackAt (n : Nat) (E : Nat → Nat → Bool) (s i : Nat) (U : Nat → Option Rat) : Prop :=
  ∀ v, v < n → U v = some (if ∃ d, i ≤ d ∧ 1 ≤ d ∧ hops n E s v = some d then dep1 n E s v else 1)

/-- The vertices at distance `k` are marked; the source may be marked at distance 1. -/
structure Marks (n : Nat) (E : Nat → Nat → Bool) (s k : Nat) (S : Nat → Bool) : Prop where
  iff : ∀ v, v ≠ s → (S v = true ↔ hops n E s v = some k)
  src : S s = true → k ≤ 1

theorem Front.marks (hE : EdgesIn n E) {add : ν → ν → ν} {truthy : ν → Bool} {num : Nat → ν} {M s k : Nat}
    {F : Nat → Option ν} (hs : s < n) (hc : Counts add truthy num M)
    (hM : totalPaths n E s ≤ M) (hF : Front n E num s k F) {S : Nat → Bool}
    (h : ∀ v, S v = (F v).any truthy) : Marks n E s k S := by
  refine ⟨?_, ?_⟩
  · intro v hv
    rw [h v]
    by_cases hk : hops n E s v = some k
    · rw [hF.at_ v hv hk]
      have : truthy (num (spc n E s v)) = true :=
        hc.truthy _ (spc_pos hE hs hk) (Nat.le_trans (spc_le hE hs hk) hM)
      simp [hk, this]
    · rw [hF.off v hv hk]; simp [hk]
  · rw [h s]
    rcases hF.src with e | ⟨e, -⟩
    · rw [e]; simp
    · exact fun _ => e

/-- Before the first round: all ones, when there is no vertex at distance `i + 1`. -/
theorem BackAt.start (hE : EdgesIn n E) {s i : Nat} (hs : s < n) (h : ∀ v, hops n E s v ≠ some (i + 1))
    {U : Nat → Option Rat} (hU : ∀ v, v < n → U v = some 1) : BackAt n E s i U := by
  intro v hv
  rw [hU v hv]
  split
  · rename_i hd
    obtain ⟨d, h1, h2, h3⟩ := hd
    have hdi : ¬ i + 1 ≤ d := fun hle => hops_none_above hE hs h hle h3
    have : d = i := by omega
    subst this
    rw [dep1_last hE hs hv h3 h]
  · rfl

/-- `Σ` of an optional rational product, as a sum. -/
theorem osum_rat {m : Nat} {h : Nat → Option Rat} :
    (osum (· + ·) ((List.range m).map h)).getD 0 = rsum m (fun k => (h k).getD 0) := by
  induction m with
  | zero => rfl
  | succ m ih =>
    rw [rsum, List.range_succ, List.map_append, List.map_cons, List.map_nil, osum_append, ← ih]
    cases osum (· + ·) ((List.range m).map h) with
    | none => show (h m).getD 0 = 0 + _; rw [Rat.zero_add]
    | some a =>
      cases h m with
      | none => show a = a + 0; rw [Rat.add_zero]
      | some b => rfl

/-- A round of the backward phase, at the vertices of distance `i`. -/
theorem BackAt.next (hE : EdgesIn n E) {s i : Nat} (hs : s < n) (hi : 1 ≤ i) {S1 S0 : Nat → Bool}
    (h1 : Marks n E s (i + 1) S1) (h0 : Marks n E s i S0) {U W1 W2 U' : Nat → Option Rat} {σ : Nat → Rat}
    (hσ : ∀ v d, v ≠ s → d ≤ i + 1 → hops n E s v = some d → σ v = (spc n E s v : Rat))
    (hU : BackAt n E s (i + 1) U)
    (hW1 : ∀ v, v < n → W1 v = if S1 v = true then (U v).map (fun u => 1 / σ v * u) else none)
    (hW2 : ∀ v, v < n → W2 v = if S0 v = true then
      osum (· + ·) ((List.range n).map fun w => if E v w = true then W1 w else none) else none)
    (hU' : ∀ v, v < n → U' v = match U v, W2 v with
      | some u, some w => some (u + w * σ v)
      | u, none => u
      | none, some w => some (w * σ v)) :
    BackAt n E s i U' := by
  intro v hv
  have hS1s : S1 s = false := by
    cases h : S1 s with
    | false => rfl
    | true => have := h1.src h; omega
  by_cases hvi : hops n E s v = some i
  · have hvs : v ≠ s := by
      intro h; subst h
      rw [hops_self hE hs] at hvi
      cases hvi; omega
    have hS0 : S0 v = true := (h0.iff v hvs).2 hvi
    have hUv : U v = some 1 := by
      rw [hU v hv, if_neg]
      rintro ⟨d, h1, -, h3⟩
      rw [hvi] at h3; cases h3; omega
    rw [if_pos ⟨i, Nat.le_refl _, hi, hvi⟩]
    have hsum : (W2 v).getD 0 = rsum n (fun w =>
        if E v w = true ∧ hops n E s w = some (i + 1) then dep1 n E s w / (spc n E s w : Rat) else 0) := by
      rw [hW2 v hv, if_pos hS0, osum_rat]
      refine rsum_congr ?_
      intro w hw
      by_cases e : E v w = true
      · simp only [e, if_true, true_and]
        rw [hW1 w hw]
        by_cases hws : w = s
        · subst hws
          rw [hS1s, if_neg Bool.false_ne_true, if_neg (by rw [hops_self hE hs]; intro h; cases h)]; rfl
        · by_cases hk : hops n E s w = some (i + 1)
          · rw [if_pos ((h1.iff w hws).2 hk), if_pos hk, hU w hw, if_pos ⟨i + 1, Nat.le_refl _, by omega, hk⟩,
              hσ w (i + 1) hws (Nat.le_refl _) hk]
            show 1 / (spc n E s w : Rat) * _ = _
            grind
          · rw [if_neg (fun h => hk ((h1.iff w hws).1 h)), if_neg hk]; rfl
      · rw [if_neg e, if_neg (fun h => e h.1)]; rfl
    rw [hU' v hv, hUv, dep1_rec hE hs hv hvi, ← hsum, hσ v i hvs (by omega) hvi]
    cases W2 v with
    | none => show some (1 : Rat) = some (1 + _ * (0 : Rat)); rw [Rat.mul_zero, Rat.add_zero]
    | some x => show some (1 + x * _) = some (1 + _ * x); rw [Rat.mul_comm]
  · have hW : W2 v = none ∨ v = s := by
      by_cases hvs : v = s
      · exact .inr hvs
      · left
        rw [hW2 v hv, if_neg (fun h => hvi ((h0.iff v hvs).1 h))]
    have hW : W2 v = none := by
      rcases hW with h | h
      · exact h
      · subst h
        rw [hW2 v hv]
        split
        · rename_i hS
          have hi1 := h0.src hS
          rw [osum_range_none]
          intro w hw
          split
          · rename_i e
            rw [hW1 w hw, if_neg]
            intro hS1
            have hws : w ≠ v := by intro h; rw [h, hS1s] at hS1; cases hS1
            have hd := (h1.iff w hws).1 hS1
            obtain ⟨d, h3, h4⟩ := hops_edge hE hs (hops_self hE hs) e
            rw [hd] at h4; cases h4; omega
          · rfl
        · rfl
    rw [hU' v hv, hW]
    have : (match U v, (none : Option Rat) with
      | some u, some w => some (u + w * σ v)
      | u, none => u
      | none, some w => some (w * σ v)) = U v := by cases U v <;> rfl
    rw [this, hU v hv]
    congr 1
    by_cases hd : ∃ d, i + 1 ≤ d ∧ 1 ≤ d ∧ hops n E s v = some d
    · obtain ⟨d, h1, h2, h3⟩ := hd
      rw [if_pos ⟨d, h1, h2, h3⟩, if_pos ⟨d, by omega, h2, h3⟩]
    · rw [if_neg hd, if_neg]
      rintro ⟨d, h1, h2, h3⟩
      by_cases hdi : d = i
      · subst hdi; exact hvi h3
      · exact hd ⟨d, by omega, h2, h3⟩

/-- When the backward phase is over, one plus the dependency. -/
theorem BackAt.final (hE : EdgesIn n E) {s i : Nat} (hs : s < n) (hi : i ≤ 1) {U : Nat → Option Rat}
    (hU : BackAt n E s i U) {v : Nat} (hv : v < n) : U v = some (1 + dependency n E s v) := by
  rw [hU v hv]
  congr 1
  by_cases hvs : v = s
  · subst hvs
    rw [if_neg (by rintro ⟨d, h1, h2, h3⟩; rw [hops_self hE hs] at h3; cases h3; omega)]
    rw [dependency, if_pos rfl, Rat.add_zero]
  · rw [dependency_eq hE hs hv hvs]
    cases hd : hops n E s v with
    | some d =>
      have : d ≠ 0 := by intro h; subst h; exact hvs (hops_zero hE hs hd)
      rw [if_pos ⟨d, by omega, by omega, rfl⟩]
      grind
    | none =>
      rw [if_neg (by rintro ⟨d, -, -, h⟩; cases h)]
      have : dep1 n E s v = 1 := by unfold dep1; rw [hd]; simp
      rw [this]; grind

end GBTL
