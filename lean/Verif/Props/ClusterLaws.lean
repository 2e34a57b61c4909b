import Verif.Spec.Component
import Verif.Props.Cluster
import Verif.Props.ClusterAssign
import Verif.Props.Markov
import Verif.Props.Louvain
import Verif.Lemmas.BetweennessLaws
import Verif.Lemmas.OptDispatch
/-
C93: clusters do not join what no edge joins.
-/
namespace GBTL
open Spec

variable {n : Nat} {α : Type}

/-! ### peer pressure -/

theorem peer_apart {W : Mat Rat} {a0 b : Vec Nat} {K : Nat} {P : Nat → Prop} (hP : Apart W P) (h : PeerPressure n W a0 K b)
    (h0 : ∀ j c, j < n → a0 j = some c → (P c ↔ P j)) : ∀ j c, j < n → b j = some c → (P c ↔ P j) := by
  obtain ⟨k, a, ha, rfl, -, hst, -⟩ := h
  have : ∀ t, t ≤ k → ∀ j c, j < n → a t j = some c → (P c ↔ P j) := by
    intro t
    induction t with
    | zero => intro _; rw [ha]; exact h0
    | succ t ih =>
      intro ht j c hj hc
      obtain ⟨⟨u, hu, hau, hW⟩, -⟩ := ((hst t ht).1.elected j c hj).1 hc
      exact (ih (by omega) u c hu hau).trans (hP u j hW)
  exact this k (Nat.le_refl k)

theorem clustering_apart {C : Lil Bool} {b : Vec Nat} {P : Nat → Prop} (hC : IsClustering n C b)
    (h : ∀ j c, j < n → b j = some c → (P c ↔ P j)) (c j : Nat) (hg : C.get c j ≠ none) : P c ↔ P j := by
  have hlt : c < n ∧ j < n := Classical.byContradiction fun hn => hg (hC.sh.out hn)
  rw [hC.get c j hlt.1 hlt.2] at hg
  by_cases hb : b j = some c
  · exact h j c hlt.2 hb
  · rw [if_neg hb] at hg; exact absurd rfl hg

/-- **C93** Peer-pressure clustering puts a vertex only in a cluster whose number is on the same
side of every boundary that no edge crosses. -/
theorem C93_peer_pressure {conv : α → Rat} {G : Lil α} {maxIters : Nat} {P : Nat → Prop} (hG : G.WF) (hn : 0 < G.nrows)
    (hsq : G.ncols = G.nrows) (hs : ∀ u, (∃ v, G.get u v ≠ none) → sumOf G.nrows (fun v => (G.get u v).map conv) ≠ 0)
    (hP : Apart G.get P) :
    ∃ C, peerPressureId conv G maxIters = .ok C ∧ ∀ c j, C.get c j ≠ none → (P c ↔ P j) := by
  obtain ⟨C, b, e, hc, hp⟩ := C62_peer_pressure_start (maxIters := maxIters) hG hn hsq hs
  refine ⟨C, e, clustering_apart hc (peer_apart (fun u v h => hP u v fun hg => h ?_) hp fun j c hj h => ?_)⟩
  · simp only [rowsNormalized, hg, Option.map_none]
  · unfold ownCluster at h
    rw [if_pos hj] at h
    cases h
    exact Iff.rfl

/-- **C93** The same for clusterings that are given to start with, if they are on the same sides. -/
theorem C93_peer_pressure_from {conv : α → Rat} {G : Lil α} {C0 : Lil Bool} {a0 : Vec Nat} {maxIters : Nat} {P : Nat → Prop}
    (hG : G.WF) (hn : 0 < G.nrows) (hsq : G.ncols = G.nrows) (hC : IsClustering G.nrows C0 a0) (hP : Apart G.get P)
    (h0 : ∀ c j, C0.get c j ≠ none → (P c ↔ P j)) :
    ((∀ u, (∃ v, G.get u v ≠ none) → sumOf G.nrows (fun v => (G.get u v).map conv) ≠ 0) →
      ∃ C, peerPressure conv G C0 maxIters = .ok C ∧ ∀ c j, C.get c j ≠ none → (P c ↔ P j)) ∧
    ∃ C, peerPressureV2 conv G C0 maxIters = .ok C ∧ ∀ c j, C.get c j ≠ none → (P c ↔ P j) := by
  have h0' : ∀ j c, j < G.nrows → a0 j = some c → (P c ↔ P j) := fun j c hj h => h0 c j (by
    rw [hC.get c j (hC.lt j c hj h) hj, if_pos h]; simp)
  refine ⟨fun hs => ?_, ?_⟩
  · obtain ⟨C, b, e, hc, hp⟩ := C62_peer_pressure (maxIters := maxIters) hG hn hsq hC hs
    refine ⟨C, e, clustering_apart hc (peer_apart (fun u v h => hP u v fun hg => h ?_) hp h0')⟩
    simp only [rowsNormalized, hg, Option.map_none]
  · obtain ⟨C, b, e, hc, hp⟩ := C62_peer_pressure_v2 (conv := conv) (maxIters := maxIters) hG hn hsq hC
    refine ⟨C, e, clustering_apart hc (peer_apart (fun u v h => hP u v fun hg => h ?_) hp h0')⟩
    rw [hg]; rfl

theorem normalized_scaled {f : Nat → Rat} (hf : ∀ u, f u ≠ 0) {W W' : Mat Rat} (h : ∀ u v, W' u v = (W u v).map (f u * ·)) :
    rowsNormalized n W' = rowsNormalized n W := by
  funext u v
  unfold rowsNormalized
  have hs : sumOf n (W' u) = f u * sumOf n (W u) := by
    rw [sumOf_eq, sumOf_eq, ← rsum_mul]
    refine rsum_congr fun v _ => ?_
    rw [h]
    cases W u v with
    | none => exact (Rat.mul_zero _).symm
    | some x => rfl
  rw [hs, h]
  cases W u v with
  | none => rfl
  | some x =>
    show some (f u * x / (f u * sumOf n (W u))) = some (x / sumOf n (W u))
    congr 1
    have := hf u
    rw [Rat.div_def, Rat.div_def, Rat.inv_mul_rev]
    have h1 : f u * (f u)⁻¹ = 1 := Rat.mul_inv_cancel _ this
    grind

/-- **C93** Peer-pressure clustering depends only on the proportions of the weights of the edges that
leave each vertex. -/
theorem C93_peer_pressure_scaled {conv : α → Rat} {β : Type} {conv' : β → Rat} {G : Lil α} {G' : Lil β} {maxIters : Nat} {f : Nat → Rat}
    (hG : G.WF) (hG' : G'.WF) (hn : 0 < G.nrows) (hsq : G.ncols = G.nrows) (hr : G'.nrows = G.nrows) (hc : G'.ncols = G.nrows)
    (hs : ∀ u, (∃ v, G.get u v ≠ none) → sumOf G.nrows (fun v => (G.get u v).map conv) ≠ 0)
    (hf : ∀ u, f u ≠ 0) (h : ∀ u v, (G'.get u v).map conv' = ((G.get u v).map conv).map (f u * ·)) :
    ∃ C, peerPressureId conv G maxIters = .ok C ∧ peerPressureId conv' G' maxIters = .ok C := by
  have hw := normalized_scaled (n := G.nrows) hf h
  obtain ⟨C, b, e, hC, hp⟩ := C62_peer_pressure_start (maxIters := maxIters) hG hn hsq hs
  obtain ⟨C', b', e', hC', hp'⟩ := C62_peer_pressure_start (conv := conv') (maxIters := maxIters) hG' (by omega) (by omega)
    (fun u ⟨v, hv⟩ => by
      rw [hr, sumOf_eq]
      have h1 := hs u ⟨v, fun hg => hv (by have := h u v; rw [hg] at this; exact Option.map_eq_none_iff.1 this)⟩
      rw [sumOf_eq] at h1
      have h2 : (rsum G.nrows fun v => ((G'.get u v).map conv').getD 0) = f u * rsum G.nrows fun v => ((G.get u v).map conv).getD 0 := by
        rw [← rsum_mul]
        refine rsum_congr fun v _ => ?_
        rw [h]
        cases G.get u v with
        | none => exact (Rat.mul_zero _).symm
        | some x => rfl
      rw [h2]
      exact fun h0 => (Rat.mul_eq_zero.1 h0).elim (hf u) h1)
  rw [hr] at hC' hp'
  rw [hw] at hp'
  have hbb := hp.unique hp'
  obtain rfl : C = C' := by
    refine Lil.ext_get hC.sh.wf hC'.sh.wf (by rw [hC.sh.nr, hC'.sh.nr]) (by rw [hC.sh.nc, hC'.sh.nc]) ?_
    intro i j hi hj
    rw [hC.sh.nr] at hi
    rw [hC.sh.nc] at hj
    rw [hC.get i j hi hj, hC'.get i j hi hj, hbb j hj]
  exact ⟨_, e, e'⟩

/-! ### Markov clustering -/

/-- **C93** Markov clustering assigns every vertex with an element in its column to a vertex on the
same side of every boundary that no edge crosses. -/
theorem C93_markov {conv : α → Rat} {G : Lil α} {e r : Nat} {threshold : Rat} {maxIters : Nat} {P : Nat → Prop} (hn : 0 < n)
    (hG : G.WF) (hnr : G.nrows = n) (hnc : G.ncols = n) (hpos : ∀ u v x, G.get u v = some x → 0 < conv x)
    (he : 0 < e) (he2 : e < 2 ^ 64) (hr : 0 < r) (hr2 : r < 2 ^ 64) (hP : Apart G.get P) :
    ∃ C s, markovCluster conv G e r threshold maxIters = .ok C ∧ clusterAssignments id C = .ok s ∧
      ∀ j, j < n → (∃ i, s[j]? = some i ∧ C.get i j ≠ none ∧ (P i ↔ P j)) ∨ s[j]? = some (2 ^ 64 - 1) ∧ ∀ i, C.get i j = none := by
  obtain ⟨C, e1, h1, h2, h3, h4, -, h6⟩ := C64_markov_cluster_columns (conv := conv) (threshold := threshold) (maxIters := maxIters)
    hn hG hnr hnc hpos he he2 hr hr2
  obtain ⟨s, e2, -, h⟩ := C63_cluster_assignments_partial (conv := id) h1 (by rw [h2, h3]; exact Nat.le_refl n)
  refine ⟨C, s, e1, e2, fun j hj => ?_⟩
  rcases h j (by rw [h2]; exact hj) with ⟨i, x, hi, -, hb⟩ | ⟨hi, hb⟩
  · have hg : C.get i j ≠ none := fun hg => by
      have := hb.stored
      simp only [hg] at this
      cases this
    exact .inl ⟨i, hi, hg, hP i j (h6 i j hg)⟩
  · refine .inr ⟨hi, fun i => ?_⟩
    cases hg : C.get i j with
    | none => rfl
    | some x =>
      have a := hb i x hg
      have b := h4 i j x hg
      have a : x ≤ -1 := a
      exact absurd a (by grind)

/-! ### Louvain clustering -/

theorem sweeps_inv {masked : Bool} {W : Mat Rat} {I : (Nat → Nat) → Prop} (h0 : I id)
    (hmove : ∀ a i b, i < n → I a → Move masked n W a i b → I b) : ∀ k a, Sweeps masked n W k a → I a := by
  have hm : ∀ k, k ≤ n → ∀ a b, I a → Moves masked n W k a b → I b := by
    intro k
    induction k with
    | zero => rintro - a b ha rfl; exact ha
    | succ k ih =>
      rintro hk a b ha ⟨c, h1, h2⟩
      exact hmove c k b (by omega) (ih (by omega) a c ha h1) h2
  intro k
  induction k with
  | zero => rintro a rfl; exact h0
  | succ k ih =>
    rintro b ⟨a, h1, h2, -⟩
    exact hm n (Nat.le_refl n) a b (ih a h1) h2

theorem moveTo_apart {a : Nat → Nat} {P : Nat → Prop} {i c : Nat} (ha : ∀ j, j < n → (P (a j) ↔ P j)) (hc : P c ↔ P i) (j : Nat)
    (hj : j < n) : P (moveTo a i c j) ↔ P j := by
  unfold moveTo
  by_cases h : j = i
  · rw [if_pos h, h]; exact hc
  · rw [if_neg h]; exact ha j hj

theorem masked_apart {W : Mat Rat} {P : Nat → Prop} (hP : Apart W P) (a : Nat → Nat) (i : Nat) (b : Nat → Nat) (_ : i < n)
    (ha : ∀ j, j < n → (P (a j) ↔ P j)) (h : Move true n W a i b) : ∀ j, j < n → (P (b j) ↔ P j) := by
  rcases h with ⟨-, rfl⟩ | ⟨-, c, ⟨j, hj, -, hel, rfl⟩, rfl, -⟩
  · exact ha
  · refine moveTo_apart ha ((ha j hj).trans ?_)
    have hel : (W i j).getD 0 + (W j i).getD 0 ≠ 0 := hel
    by_cases h1 : W i j = none
    · by_cases h2 : W j i = none
      · rw [h1, h2] at hel; exact absurd (Rat.add_zero 0) hel
      · exact hP j i h2
    · exact (hP i j h1).symm

theorem result_apart {S : Lil Bool} {a : Nat → Nat} {P : Nat → Prop} (hS : S.WF) (h1 : S.nrows = n) (h2 : S.ncols = n)
    (hg : ∀ i c, i < n → c < n → S.get i c = if c = a i then some true else none) (ha : ∀ j, j < n → (P (a j) ↔ P j))
    (i c : Nat) (h : S.get i c ≠ none) : P c ↔ P i := by
  have hlt : i < n ∧ c < n := by
    have := some_lt hS h; rw [h1, h2] at this; exact this
  rw [hg i c hlt.1 hlt.2] at h
  by_cases hc : c = a i
  · rw [hc]; exact ha i hlt.1
  · rw [if_neg hc] at h; exact absurd rfl h

/-- **C93** Masked Louvain clustering puts a vertex only in a cluster whose number is on the same
side of every boundary that no edge crosses. -/
theorem C93_louvain_masked {rnd : Nat → Rat} {fuel maxIters : Nat} {G : Lil Rat} {S : Lil Bool} {P : Nat → Prop} (hG : G.WF)
    (hn : 0 < G.nrows) (hw : ∀ i j, G.get i j ≠ none → 0 < allWeight G.nrows G.get) (hP : Apart G.get P)
    (h : louvain true rnd fuel G maxIters = .ok (.returned S)) : ∀ i c, S.get i c ≠ none → (P c ↔ P i) := by
  obtain ⟨h1, h2, h3, a, -, hg, k, -, hs, -⟩ := C65_louvain_returned hG hn hw h
  exact result_apart h1 h2 h3 hg (sweeps_inv (I := fun a => ∀ j, j < G.nrows → (P (a j) ↔ P j)) (fun _ _ => Iff.rfl) (masked_apart hP) k a hs)

theorem rsum_nonpos {f : Nat → Rat} (h : ∀ i, i < n → f i ≤ 0) : rsum n f ≤ 0 :=
  Rat.le_trans (rsum_le h) (by rw [rsum_zero]; exact Rat.le_refl)

theorem pairSum_eq {W : Mat Rat} (hsym : ∀ u v, W u v = W v u) (i j : Nat) :
    pairSum n W i j = 2 * (W i j).getD 0 - 2 * outWeight n W i / allWeight n W * outWeight n W j := by
  unfold pairSum pairWeight
  rw [hsym j i]
  grind

theorem gains_apart {W : Mat Rat} {a : Nat → Nat} {i : Nat} {T : Nat → Prop} [DecidablePred T] (ha : ∀ j, j < n → a j < n)
    (haT : ∀ j, j < n → (T (a j) ↔ T j)) :
    (rsum n fun c => if T c then gain n W a i c else 0) = rsum n fun j => if j ≠ i ∧ T j then pairSum n W i j else 0 := by
  have h1 : (rsum n fun c => if T c then gain n W a i c else 0) =
      rsum n fun c => rsum n fun j => if T c ∧ j ≠ i ∧ a j = c then pairSum n W i j else 0 := by
    refine rsum_congr fun c _ => ?_
    by_cases h : T c
    · rw [if_pos h]; unfold gain
      exact rsum_congr fun j _ => by simp only [h, true_and]
    · rw [if_neg h]
      exact (rsum_eq_zero fun j _ => by simp only [h, false_and, if_false]).symm
  rw [h1, rsum_comm]
  refine rsum_congr fun j hj => ?_
  rw [rsum_single (ha j hj)]
  · by_cases h : j ≠ i ∧ T j
    · rw [if_pos h, if_pos ⟨(haT j hj).2 h.2, h.1, rfl⟩]
    · rw [if_neg h, if_neg fun h' => h ⟨h'.2.1, (haT j hj).1 h'.1⟩]
  · intro c _ hne
    rw [if_neg fun h => hne h.2.2.symm]

theorem outWeight_nonneg {W : Mat Rat} (hpos : ∀ u v x, W u v = some x → 0 < x) (u : Nat) : 0 ≤ outWeight n W u := by
  rw [outWeight_eq]
  refine rsum_nonneg fun v _ => ?_
  cases h : W u v with
  | none => exact Rat.le_refl
  | some x => exact Rat.le_of_lt (hpos u v x h)

theorem unmasked_apart {W : Mat Rat} {P : Nat → Prop} (hP : Apart W P) (hsym : ∀ u v, W u v = W v u)
    (hpos : ∀ u v x, W u v = some x → 0 < x) (hloop : ∀ u, W u u = none) (a : Nat → Nat) (i : Nat) (b : Nat → Nat) (hi : i < n)
    (hlt : ∀ j, j < n → a j < n) (ha : ∀ j, j < n → (P (a j) ↔ P j)) (h : Move false n W a i b) :
    ∀ j, j < n → (P (b j) ↔ P j) := by
  rcases h with ⟨-, rfl⟩ | ⟨⟨j0, hj0, hW0⟩, c, ⟨jc, hjc, hjci, hel, rfl⟩, rfl, hbest⟩
  · exact ha
  refine moveTo_apart ha (Classical.byContradiction fun hc => ?_)
  have := Classical.propDecidable
  let T : Nat → Prop := fun x => P x ↔ P i
  have haT : ∀ j, j < n → (T (a j) ↔ T j) := fun j hj => by show (P (a j) ↔ P i) ↔ (P j ↔ P i); rw [ha j hj]
  have hk := outWeight_nonneg (n := n) hpos
  have hki : 0 < outWeight n W i := by
    rw [outWeight_eq, rsum_pos]
    · obtain ⟨x, hx⟩ := Option.ne_none_iff_exists'.1 hW0
      exact ⟨j0, hj0, by rw [hx]; exact hpos i j0 x hx⟩
    · intro v _
      cases h : W i v with
      | none => exact Rat.le_refl
      | some x => exact Rat.le_of_lt (hpos i v x h)
  have hm : 0 < allWeight n W := by
    rw [allWeight_eq, rsum_pos fun v _ => hk v]
    exact ⟨i, hi, hki⟩
  have hkim : 0 < outWeight n W i / allWeight n W := by
    rw [Rat.div_def]; exact Rat.mul_pos hki (Rat.inv_pos.2 hm)
  have hsum := gains_apart (W := W) (i := i) hlt haT
  -- nothing is gained in the clusters on the other side
  have hgc : gain n W a i (a jc) ≤ 0 := by
    unfold gain
    refine rsum_nonpos fun j hj => ?_
    by_cases hjj : j ≠ i ∧ a j = a jc
    · rw [if_pos hjj, pairSum_eq hsym]
      have hnone : W i j = none := Classical.byContradiction fun hne => by
        refine hc ?_
        rw [← hjj.2, ha j hj]
        exact (hP i j hne).symm
      rw [hnone]
      have := Rat.mul_nonneg (Rat.le_of_lt hkim) (hk j)
      show 2 * 0 - _ ≤ _
      grind
    · rw [if_neg hjj]; exact Rat.le_refl
  have hle : (rsum n fun c => if T c then gain n W a i c else 0) ≤ 0 := by
    refine rsum_nonpos fun c' hc' => ?_
    by_cases hT : T c'
    · rw [if_pos hT]
      by_cases hcon : Considered false n W a i c'
      · exact Rat.le_trans ((modularity_le_iff hi hm _ _).1 (hbest c' hcon)) hgc
      · unfold gain
        refine rsum_nonpos fun j hj => ?_
        by_cases hjj : j ≠ i ∧ a j = c'
        · have hno : ¬ Eligible false n W i j := fun he => hcon ⟨j, hj, hjj.1, he, hjj.2⟩
          have hno' : W i j = none := Classical.byContradiction fun hne => hno (.inr (.inl hne))
          rw [if_pos hjj, pairSum_eq hsym, hno']
          have := Rat.mul_nonneg (Rat.le_of_lt hkim) (hk j)
          show 2 * 0 - _ ≤ _
          grind
        · rw [if_neg hjj]; exact Rat.le_refl
    · rw [if_neg hT]; exact Rat.le_refl
  rw [hsum] at hle
  have hge : (rsum n fun j => if j = i then 0 else 2 * (W i j).getD 0 - 2 * outWeight n W i / allWeight n W * outWeight n W j) ≤
      rsum n fun j => if j ≠ i ∧ T j then pairSum n W i j else 0 := by
    refine rsum_le fun j hj => ?_
    by_cases h1 : j = i
    · rw [if_pos h1, if_neg fun h => h.1 h1]; exact Rat.le_refl
    · rw [if_neg h1]
      by_cases h2 : T j
      · rw [if_pos ⟨h1, h2⟩, pairSum_eq hsym]; exact Rat.le_refl
      · rw [if_neg fun h => h2 h.2]
        have hnone : W i j = none := Classical.byContradiction fun hne => h2 (hP i j hne).symm
        rw [hnone]
        have := Rat.mul_nonneg (Rat.le_of_lt hkim) (hk j)
        show 2 * 0 - _ ≤ _
        grind
  have hfull := rsum_split hi fun j => 2 * (W i j).getD 0 - 2 * outWeight n W i / allWeight n W * outWeight n W j
  have htot : (rsum n fun j => 2 * (W i j).getD 0 - 2 * outWeight n W i / allWeight n W * outWeight n W j) = 0 := by
    have e : (fun j => 2 * (W i j).getD 0 - 2 * outWeight n W i / allWeight n W * outWeight n W j) =
        fun j => 2 * (W i j).getD 0 + (-(2 * outWeight n W i / allWeight n W)) * outWeight n W j := by
      funext j; grind
    rw [e, rsum_add, rsum_mul, rsum_mul, ← outWeight_eq, ← allWeight_eq]
    grind
  have hii : W i i = none := hloop i
  have hsq := Rat.mul_pos hkim hki
  rw [hii] at hfull
  have hfull' : (0 : Rat) = 2 * 0 - 2 * outWeight n W i / allWeight n W * outWeight n W i + _ := htot.symm.trans hfull
  grind

/-- **C93** Louvain clustering of an undirected graph with positive weights and without loops does
the same. -/
theorem C93_louvain_partial {rnd : Nat → Rat} {fuel maxIters : Nat} {G : Lil Rat} {S : Lil Bool} {P : Nat → Prop} (hG : G.WF)
    (hn : 0 < G.nrows) (hsym : ∀ u v, G.get u v = G.get v u) (hpos : ∀ u v x, G.get u v = some x → 0 < x)
    (hloop : ∀ u, G.get u u = none) (hP : Apart G.get P)
    (h : louvain false rnd fuel G maxIters = .ok (.returned S)) : ∀ i c, S.get i c ≠ none → (P c ↔ P i) := by
  have hw : ∀ i j, G.get i j ≠ none → 0 < allWeight G.nrows G.get := by
    intro i j hij
    have hlt := some_lt hG hij
    have hin : j < G.nrows := by
      have := some_lt hG (i := j) (j := i) (by rw [hsym]; exact hij)
      exact this.1
    obtain ⟨x, hx⟩ := Option.ne_none_iff_exists'.1 hij
    rw [allWeight_eq, rsum_pos fun v _ => outWeight_nonneg hpos v]
    refine ⟨i, hlt.1, ?_⟩
    rw [outWeight_eq, rsum_pos]
    · exact ⟨j, hin, by rw [hx]; exact hpos i j x hx⟩
    · intro v _
      cases h : G.get i v with
      | none => exact Rat.le_refl
      | some x => exact Rat.le_of_lt (hpos i v x h)
  obtain ⟨h1, h2, h3, a, -, hg, k, -, hs, -⟩ := C65_louvain_returned hG hn hw h
  have hinv := sweeps_inv (I := fun a => (∀ j, j < G.nrows → a j < G.nrows) ∧ ∀ j, j < G.nrows → (P (a j) ↔ P j))
    ⟨fun _ h => h, fun _ _ => Iff.rfl⟩ (fun a i b hi hI hm => ⟨fun j hj => ?_, unmasked_apart hP hsym hpos hloop a i b hi hI.1 hI.2 hm⟩) k a hs
  · exact result_apart h1 h2 h3 hg hinv.2
  · rcases hm with ⟨-, rfl⟩ | ⟨-, c, ⟨j', hj', -, -, rfl⟩, rfl, -⟩
    · exact hI.1 j hj
    · unfold moveTo
      split
      · exact hI.1 j' hj'
      · exact hI.1 j hj

/-- **C93** With loops, Louvain clustering can join what no edge joins: two vertices that have only
an edge to themselves are put in one cluster. -/
theorem C93_louvain_wrong : lvLoops.WF ∧ Apart lvLoops.get (· = 0) ∧
    ∃ S c, louvain false (fun k => (k : Rat)) 1 lvLoops 10 = .ok (.returned S) ∧ S.get 0 c = some true ∧ S.get 1 c = some true := by
  have hwf : lvLoops.WF := Lil.wf_chk (by decide +kernel)
  refine ⟨hwf, fun u v h => ?_, ?_⟩
  · have hlt := some_lt hwf h
    exact (show ∀ u, u < 2 → ∀ v, v < 2 → lvLoops.get u v ≠ none → (u = 0 ↔ v = 0) by decide +kernel) u hlt.1 v hlt.2 h
  · have : (match louvain false (fun k => (k : Rat)) 1 lvLoops 10 with
        | .ok (.returned S) => decide (S.get 0 1 = some true ∧ S.get 1 1 = some true)
        | _ => false) = true := by decide +kernel
    split at this
    · next S e => exact ⟨S, 1, e, of_decide_eq_true this⟩
    · cases this

/-! ### examples -/

namespace Ex

/-- A triangle 0, 1, 2 and an edge 3 - 4 without connection. -/
def apart : Lil Rat :=
  { nrows := 5, ncols := 5, nvals := 8, rows := [[(1, 1), (2, 2)], [(0, 1), (2, 1)], [(0, 2), (1, 1)], [(4, 3)], [(3, 3)]] }

theorem apart_wf : apart.WF := Lil.wf_chk (by decide +kernel)

theorem apart_pos (u v : Nat) (x : Rat) (h : apart.get u v = some x) : 0 < x := by
  have hlt := some_lt apart_wf (i := u) (j := v) (by rw [h]; simp)
  exact (show ∀ u, u < 5 → ∀ v, v < 5 → ∀ x ∈ apart.get u v, 0 < x by decide +kernel) u hlt.1 v hlt.2 x h

theorem apart_sides : Apart apart.get (· < 3) := fun u v h => by
  have hlt := some_lt apart_wf h
  exact (show ∀ u, u < 5 → ∀ v, v < 5 → apart.get u v ≠ none → (u < 3 ↔ v < 3) by decide +kernel) u hlt.1 v hlt.2 h

theorem apart_sym (u v : Nat) : apart.get u v = apart.get v u := by
  by_cases h : u < 5 ∧ v < 5
  · exact (show ∀ u, u < 5 → ∀ v, v < 5 → apart.get u v = apart.get v u by decide +kernel) u h.1 v h.2
  · rw [apart_wf.toWFr.get_none (by show 5 ≤ u ∨ 5 ≤ v; omega), apart_wf.toWFr.get_none (by show 5 ≤ v ∨ 5 ≤ u; omega)]

theorem apart_sum (u : Nat) (hu : ∃ v, apart.get u v ≠ none) : sumOf apart.nrows (fun v => (apart.get u v).map id) ≠ 0 := by
  obtain ⟨v, hv⟩ := hu
  exact (show ∀ u, u < 5 → sumOf 5 (fun v => (apart.get u v).map id) ≠ 0 by decide +kernel) u (some_lt apart_wf hv).1

/-- `apart` with the weights of the edges that leave 0 doubled. -/
def apartScaled : Lil Rat :=
  { nrows := 5, ncols := 5, nvals := 8, rows := [[(1, 2), (2, 4)], [(0, 1), (2, 1)], [(0, 2), (1, 1)], [(4, 3)], [(3, 3)]] }

theorem apartScaled_wf : apartScaled.WF := Lil.wf_chk (by decide +kernel)

end Ex

open Ex

example : ∃ C, peerPressureId id apart 20 = .ok C ∧ ∀ c j, C.get c j ≠ none → (c < 3 ↔ j < 3) :=
  C93_peer_pressure apart_wf (by decide) rfl apart_sum apart_sides

example : ∃ C, peerPressureV2 id apart ⟨5, 5, 5, [[(0, true)], [(1, true)], [(2, true)], [(3, true)], [(4, true)]]⟩ 20 = .ok C ∧
    ∀ c j, C.get c j ≠ none → (c < 3 ↔ j < 3) := by
  have hw : (⟨5, 5, 5, [[(0, true)], [(1, true)], [(2, true)], [(3, true)], [(4, true)]]⟩ : Lil Bool).WF := Lil.wf_chk (by decide)
  refine (C93_peer_pressure_from (a0 := fun j => if j < 5 then some j else none) apart_wf (by decide) rfl ⟨⟨hw, rfl, rfl⟩, ?_, ?_⟩ apart_sides ?_).2
  · exact fun i j hi hj => (show ∀ i, i < 5 → ∀ j, j < 5 →
      Lil.get ⟨5, 5, 5, [[(0, true)], [(1, true)], [(2, true)], [(3, true)], [(4, true)]]⟩ i j =
        if (if j < 5 then some j else none) = some i then some true else none by decide) i hi j hj
  · exact (show ∀ j i, j < 5 → (if j < 5 then some j else none) = some i → i < 5 from fun j i hj h => by rw [if_pos hj] at h; cases h; exact hj)
  · intro c j h
    have hlt := some_lt hw h
    exact (show ∀ c, c < 5 → ∀ j, j < 5 → Lil.get ⟨5, 5, 5, [[(0, true)], [(1, true)], [(2, true)], [(3, true)], [(4, true)]]⟩ c j ≠ none →
      (c < 3 ↔ j < 3) by decide) c hlt.1 j hlt.2 h

example : ∃ C, peerPressureId id apart 20 = .ok C ∧ peerPressureId id apartScaled 20 = .ok C :=
  C93_peer_pressure_scaled (f := fun u => if u = 0 then 2 else 1) apart_wf apartScaled_wf (by decide) rfl rfl rfl apart_sum
    (fun u => by by_cases h : u = 0 <;> simp only [h] <;> decide +kernel) fun u v => by
      by_cases h : u < 5 ∧ v < 5
      · exact (show ∀ u, u < 5 → ∀ v, v < 5 → (apartScaled.get u v).map id = ((apart.get u v).map id).map ((if u = 0 then 2 else 1) * ·)
          by decide +kernel) u h.1 v h.2
      · rw [apartScaled_wf.toWFr.get_none (by show 5 ≤ u ∨ 5 ≤ v; omega), apart_wf.toWFr.get_none (by show 5 ≤ u ∨ 5 ≤ v; omega)]
        rfl

example := C93_markov (conv := id) (n := 5) (e := 2) (r := 2) (threshold := 1 / 10 ^ 16) (maxIters := 20) (by decide) apart_wf rfl rfl
  apart_pos (by decide) (by decide) (by decide) (by decide) apart_sides

/-- Louvain clustering, with and without mask, of `apart`: the hypotheses hold. -/
example : (∃ S, louvain true (fun k => (k : Rat)) 1 apart 10 = .ok (.returned S) ∧ ∀ i c, S.get i c ≠ none → (c < 3 ↔ i < 3)) ∧
    ∃ S, louvain false (fun k => (k : Rat)) 1 apart 10 = .ok (.returned S) ∧ ∀ i c, S.get i c ≠ none → (c < 3 ↔ i < 3) := by
  have hret : ∀ masked, ∃ S, louvain masked (fun k => (k : Rat)) 1 apart 10 = .ok (.returned S) := by
    intro masked
    have : (match louvain masked (fun k => (k : Rat)) 1 apart 10 with
        | .ok (.returned _) => true
        | _ => false) = true := by cases masked <;> decide +kernel
    split at this
    · next S e => exact ⟨S, e⟩
    · cases this
  obtain ⟨S, e⟩ := hret true
  obtain ⟨S', e'⟩ := hret false
  refine ⟨⟨S, e, C93_louvain_masked apart_wf (by decide) (fun _ _ _ => by decide +kernel) apart_sides e⟩,
    S', e', C93_louvain_partial apart_wf (by decide) apart_sym apart_pos (fun u => ?_) apart_sides e'⟩
  by_cases h : u < 5
  · exact (show ∀ u, u < 5 → apart.get u u = none by decide +kernel) u h
  · exact apart_wf.toWFr.get_none (by show 5 ≤ u ∨ 5 ≤ u; omega)

end GBTL
