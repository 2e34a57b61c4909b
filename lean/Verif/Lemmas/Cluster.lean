import Verif.Spec.Cluster
import Verif.Model.Cluster
import Verif.Lemmas.PageRankMath
import Verif.Props.Containers
/-
What the calls of peer-pressure clustering compute.
-/
namespace GBTL
open Spec

variable {α β γ τ : Type} {n : Nat}

theorem votes_eq (W : Mat Rat) (a : Vec Nat) (i j : Nat) :
    votes n W a i j = rsum n fun u => if a u = some i then (W u j).getD 0 else 0 := rsum_eq _ _

/-- `C` is the matrix of the clustering `a`: a well-formed `n` by `n` matrix with a true
element at `(i, j)` where vertex `j` is in cluster `i`, and no other element. -/
structure IsClustering (n : Nat) (C : Lil Bool) (a : Vec Nat) : Prop where
  sh : Sh n n C
  get : ∀ i j, i < n → j < n → C.get i j = if a j = some i then some true else none
  lt : ∀ j i, j < n → a j = some i → i < n

theorem mxmM_ok {C : Lil γ} {M : Lil Bool} {A : Lil α} {B : Lil β} {sr : SR α β γ} {via : γ → γ} (hC : Sh n n C) (hM : Sh n n M)
    (hA : Sh n n A) (hB : Sh n n B) :
    ∃ C', exec (mxm (mMasked C .plain id M) sr via (.plain A) (.plain B)) = .ok C' ∧ Sh n n C' ∧
      ∀ i j, i < n → j < n → C'.get i j = if (M.get i j).any id = true then
        osum sr.add ((List.range n).map fun k => both sr.mult (A.get i k) (B.get k j)) else none := by
  obtain ⟨C', e, y⟩ := C09_mxm (o := mMasked C .plain id M) (sr := sr) (via := via) (A := A) (B := B)
    ⟨hC.wf, maskOKM hM.wf⟩ hA.wf hB.wf
    ⟨maskFitsM (hM.nr.trans hC.nr.symm) (hM.nc.trans hC.nc.symm), hC.nr.trans hA.nr.symm, hC.nc.trans hB.nc.symm, hA.nc.trans hB.nr.symm⟩
  obtain ⟨h1, h2⟩ := masked_yields hC y
  refine ⟨C', by rw [e, exec_done], h1, fun i j hi hj => ?_⟩
  rw [h2 i j hi hj, hA.nc]
  rfl

theorem applyMM_ok {C : Lil γ} {M : Lil Bool} {A : Lil α} {f : α → γ} (hC : Sh n n C) (hM : Sh n n M) (hA : Sh n n A) :
    ∃ C', exec (applyM (mMasked C .plain id M) f (.plain A)) = .ok C' ∧ Sh n n C' ∧
      ∀ i j, i < n → j < n → C'.get i j = if (M.get i j).any id = true then (A.get i j).map f else none := by
  obtain ⟨C', e, y⟩ := C15_apply_matrix (o := mMasked C .plain id M) (f := f) (A := .plain A)
    ⟨hC.wf, maskOKM hM.wf⟩ hA.wf
    ⟨maskFitsM (hM.nr.trans hC.nr.symm) (hM.nc.trans hC.nc.symm), hC.nc.trans hA.nc.symm, hC.nr.trans hA.nr.symm⟩
  obtain ⟨h1, h2⟩ := masked_yields hC y
  refine ⟨C', by rw [e, exec_done], h1, fun i j hi hj => ?_⟩
  rw [h2 i j hi hj]
  rfl

theorem osum_max {f : Nat → Option Rat} {x : Rat} (h : osum ratMax ((List.range n).map f) = some x) :
    (∃ k, k < n ∧ f k = some x) ∧ ∀ k y, k < n → f k = some y → y ≤ x :=
  osum_best (le := fun x y => y ≤ x) (fun _ => Rat.le_refl) (fun x y z h1 h2 => Rat.le_trans h2 h1)
    (fun x y => by unfold ratMax; split <;> grind) h

/-- `Cf` marks the maxima of the columns. -/
theorem ppColMax_ok {m : BVec Rat} {Cf : Lil Bool} {T : Lil Rat} (hm : Sz n m) (hC : Sh n n Cf) (hT : Sh n n T) :
    ∃ m' Cf', ppColMax m Cf T = .ok (m', Cf') ∧ Sz n m' ∧ Sh n n Cf' ∧
      ∀ i j, i < n → j < n → (Cf'.get i j = some true ↔
        ∃ x, T.get i j = some x ∧ ∀ k y, k < n → T.get k j = some y → y ≤ x) := by
  obtain ⟨m', e1, z1, g1⟩ := colSum_ok (add := ratMax) hm hT
  obtain ⟨D, e2, z2, g2⟩ := diagV_ok z1
  obtain ⟨Cf', e3, z3, g3⟩ := mxmP_ok (sr := plusEqual) (via := id) hC hT z2
  refine ⟨m', Cf', ?_, z1, z3, fun i j hi hj => ?_⟩
  · unfold ppColMax
    rw [e1]
    simp only [prog_bind_ok]
    rw [e2]
    simp only [lift_ok, prog_bind_ok]
    rw [e3]
    rfl
  · rw [g3 i j hi hj, osum_single hj (fun k _ hk => by rw [g2, if_neg hk]; cases T.get i k <;> rfl), g2, if_pos rfl, g1 j hj]
    cases ho : osum ratMax ((List.range n).map fun k => T.get k j) with
    | none =>
      rw [osum_range_none.1 ho i hi]
      simp [both]
    | some x =>
      obtain ⟨⟨k, hk, hkx⟩, hmax⟩ := osum_max ho
      cases hy : T.get i j with
      | none => simp [both]
      | some y =>
        simp only [both, plusEqual, Option.some.injEq, decide_eq_true_eq]
        constructor
        · intro h
          subst h
          exact ⟨y, rfl, hmax⟩
        · rintro ⟨z, hz, hz2⟩
          subst hz
          have h1 := hz2 k x hk hkx
          have h2 := hmax i y hi hy
          grind

theorem clusterNum_ok (n : Nat) : ∃ N, clusterNum n = .ok N ∧ Sh n n N ∧
    ∀ i j, i < n → j < n → N.get i j = if i = j then some (i + 1) else none := by
  obtain ⟨N, e, hs, hg⟩ := forP_inv (b := fun ix (N : Lil Nat) => lift (method (N.setElement ix ix (ix + 1))))
    (fun k N => Sh n n N ∧ ∀ i j, N.get i j = if i = j ∧ i < k then some (i + 1) else none) n (Lil.new n n)
    ⟨Sh.new n n, fun i j => by rw [if_neg (by omega)]; exact Lil.get_new n n i j⟩
    (by
      rintro k N hk ⟨hs, hg⟩
      obtain ⟨B, e, h1, h2, h3, h4⟩ := Lil.setElement_spec hs.wf (i := k) (j := k) (by rw [hs.nr]; exact hk) (by rw [hs.nc]; exact hk) (k + 1)
      refine ⟨B, by rw [e]; rfl, ⟨h1, h2.trans hs.nr, h3.trans hs.nc⟩, fun i j => ?_⟩
      rw [h4, hg]
      by_cases h : i = k ∧ j = k
      · rw [if_pos h, if_pos (by omega), h.1]
      · rw [if_neg h]
        by_cases h' : i = j ∧ i < k
        · rw [if_pos h', if_pos (by omega)]
        · rw [if_neg h', if_neg (by omega)])
  exact ⟨N, e, hs, fun i j hi hj => by
    rw [hg]
    by_cases h : i = j
    · rw [if_pos ⟨h, hi⟩, if_pos h]
    · rw [if_neg (fun h' => h h'.1), if_neg h]⟩

/-- The elected cluster is unique. -/
theorem _root_.Spec.Elected.unique {W : Mat Rat} {a : Vec Nat} {j i i' : Nat} (h : Elected n W a j i) (h' : Elected n W a j i') : i = i' := by
  have h1 := h.best i' h'.candidate
  have h2 := h'.best i h.candidate
  rcases h1 with h1 | ⟨h1, h3⟩ <;> rcases h2 with h2 | ⟨h2, h4⟩
  · grind
  · grind
  · grind
  · omega

/-- One round. -/
theorem ppBody_ok {conv : α → Rat} {A : Lil α} {N : Lil Nat} {q : PpSt} {a : Vec Nat} (hA : Sh n n A) (hN : Sh n n N)
    (hNg : ∀ i j, i < n → j < n → N.get i j = if i = j then some (i + 1) else none) (hC : IsClustering n q.C a)
    (hm : Sz n q.m) (hCf : Sh n n q.Cf) (hT : Sh n n q.Tally) :
    ∃ q' b, ppBody conv A N q = .ok q' ∧ Sz n q'.m ∧ Sh n n q'.Cf ∧ Sh n n q'.Tally ∧
      NextClusters n (fun u v => (A.get u v).map conv) a b ∧ IsClustering n q'.C b ∧
      (q'.stop = true ↔ ∀ j, j < n → b j = a j) := by
  obtain ⟨T1, e1, z1, g1⟩ := mxmP_ok (sr := (⟨(· + ·), fun c a => b2r c * conv a, fun a c => conv a * b2r c⟩ : SR Bool α Rat))
    (via := id) hT hC.sh hA
  obtain ⟨m1, Cf1, e2, zm1, zC1, g2⟩ := ppColMax_ok hm hCf z1
  obtain ⟨T2, e3, z3, g3⟩ := mxmM_ok
    (sr := (⟨(· + ·), fun (k : Nat) c => (k : Rat) * b2r c, fun c (k : Nat) => b2r c * (k : Rat)⟩ : SR Nat Bool Rat))
    (via := id) z1 zC1 hN zC1
  obtain ⟨m2, Cf2, e4, zm2, zC2, g4⟩ := ppColMax_ok zm1 zC1 z3
  obtain ⟨Cf3, e5, zC3, g5⟩ := applyMM_ok (f := (id : Bool → Bool)) zC2 zC2 zC2
  -- the tally
  have hT1 : ∀ i j x, i < n → j < n → (T1.get i j = some x ↔
      Candidate n (fun u v => (A.get u v).map conv) a i j ∧ x = votes n (fun u v => (A.get u v).map conv) a i j) := by
    intro i j x hi hj
    rw [g1 i j hi hj]
    have hterm : ∀ u, u < n → both (fun c a => b2r c * conv a) (q.C.get i u) (A.get u j)
        = if a u = some i then (A.get u j).map conv else none := by
      intro u hu
      rw [hC.get i u hi hu]
      by_cases hau : a u = some i
      · rw [if_pos hau, if_pos hau]
        cases A.get u j with
        | none => rfl
        | some y => simp [both, b2r, Rat.one_mul]
      · rw [if_neg hau, if_neg hau]; rfl
    by_cases hc : Candidate n (fun u v => (A.get u v).map conv) a i j
    · obtain ⟨u, hu, hu1, hu2⟩ := hc
      rw [osum_ratS ⟨u, hu, by rw [hterm u hu, if_pos hu1]; exact hu2⟩]
      rw [sumOf_eq, votes_eq, rsum_congr (g := fun u => if a u = some i then ((A.get u j).map conv).getD 0 else 0) (fun v hv => by
        dsimp only
        rw [hterm v hv]
        split <;> rfl)]
      simp only [Option.some.injEq]
      exact ⟨fun h => ⟨⟨u, hu, hu1, hu2⟩, h.symm⟩, fun h => h.2.symm⟩
    · rw [osum_range_none.2 (fun u hu => by
        show both (fun c a => b2r c * conv a) (q.C.get i u) (A.get u j) = none
        rw [hterm u hu]
        by_cases hau : a u = some i
        · rw [if_pos hau]
          exact Classical.byContradiction fun h => hc ⟨u, hu, hau, h⟩
        · rw [if_neg hau])]
      exact ⟨fun h => (by cases h), fun h => absurd h.1 hc⟩
  have hcand : ∀ i j, j < n → Candidate n (fun u v => (A.get u v).map conv) a i j → i < n := by
    rintro i j hj ⟨u, hu, hau, -⟩
    exact hC.lt u i hu hau
  -- the clusters with the most votes
  have hC1 : ∀ i j, i < n → j < n → (Cf1.get i j = some true ↔
      Candidate n (fun u v => (A.get u v).map conv) a i j ∧ ∀ k, Candidate n (fun u v => (A.get u v).map conv) a k j →
        votes n (fun u v => (A.get u v).map conv) a k j ≤ votes n (fun u v => (A.get u v).map conv) a i j) := by
    intro i j hi hj
    rw [g2 i j hi hj]
    constructor
    · rintro ⟨x, hx, hmax⟩
      obtain ⟨h1, rfl⟩ := (hT1 i j x hi hj).1 hx
      exact ⟨h1, fun k hk => hmax k _ (hcand k j hj hk) ((hT1 k j _ (hcand k j hj hk) hj).2 ⟨hk, rfl⟩)⟩
    · rintro ⟨h1, h2⟩
      refine ⟨_, (hT1 i j _ hi hj).2 ⟨h1, rfl⟩, fun k y hk hy => ?_⟩
      obtain ⟨h3, rfl⟩ := (hT1 k j y hk hj).1 hy
      exact h2 k h3
  -- their numbers
  have hT2 : ∀ i j x, i < n → j < n → (T2.get i j = some x ↔ Cf1.get i j = some true ∧ x = ((i + 1 : Nat) : Rat)) := by
    intro i j x hi hj
    rw [g3 i j hi hj]
    by_cases hc : Cf1.get i j = some true
    · rw [hc, if_pos (by rfl), osum_single hi (fun k hk hki => by
        show both (fun (k : Nat) c => (k : Rat) * b2r c) (N.get i k) (Cf1.get k j) = none
        rw [hNg i k hi hk, if_neg (fun h => hki h.symm)]; rfl), hNg i i hi hi, if_pos rfl, hc]
      simp only [both, b2r, if_true, Rat.mul_one, Option.some.injEq, true_and]
      exact ⟨fun h => h.symm, fun h => h.symm⟩
    · rw [if_neg (by
        cases hb : Cf1.get i j with
        | none => simp
        | some b => cases b <;> simp_all)]
      exact ⟨fun h => (by cases h), fun h => absurd h.1 hc⟩
  -- the elected cluster
  have hC2 : ∀ i j, i < n → j < n → (Cf2.get i j = some true ↔ Elected n (fun u v => (A.get u v).map conv) a j i) := by
    intro i j hi hj
    rw [g4 i j hi hj]
    constructor
    · rintro ⟨x, hx, hmax⟩
      obtain ⟨h1, rfl⟩ := (hT2 i j x hi hj).1 hx
      obtain ⟨h2, h3⟩ := (hC1 i j hi hj).1 h1
      refine ⟨h2, fun k hk => ?_⟩
      have h4 := h3 k hk
      by_cases h5 : votes n (fun u v => (A.get u v).map conv) a k j = votes n (fun u v => (A.get u v).map conv) a i j
      · refine Or.inr ⟨h5, ?_⟩
        have hk' := hcand k j hj hk
        have h6 : Cf1.get k j = some true := (hC1 k j hk' hj).2 ⟨hk, fun l hl => by rw [h5]; exact h3 l hl⟩
        have h7 := hmax k _ hk' ((hT2 k j _ hk' hj).2 ⟨h6, rfl⟩)
        have := Rat.natCast_le_natCast.1 h7
        omega
      · exact Or.inl (by grind)
    · intro h
      refine ⟨_, (hT2 i j _ hi hj).2 ⟨(hC1 i j hi hj).2 ⟨h.candidate, fun k hk => ?_⟩, rfl⟩, fun k y hk hy => ?_⟩
      · rcases h.best k hk with h1 | ⟨h1, -⟩
        · exact Rat.le_of_lt h1
        · rw [h1]; exact Rat.le_refl
      · obtain ⟨h1, rfl⟩ := (hT2 k j y hk hj).1 hy
        obtain ⟨h2, h3⟩ := (hC1 k j hk hj).1 h1
        refine Rat.natCast_le_natCast.2 ?_
        rcases h.best k h2 with h4 | ⟨-, h4⟩
        · have := h3 i h.candidate
          grind
        · omega
  have hC3 : ∀ i j, i < n → j < n → Cf3.get i j = if Cf2.get i j = some true then some true else none := by
    intro i j hi hj
    rw [g5 i j hi hj]
    cases hb : Cf2.get i j with
    | none => rfl
    | some b => cases b <;> rfl
  -- the next clustering
  have hex : ∃ b : Vec Nat, ∀ j i, j < n → (b j = some i ↔ Elected n (fun u v => (A.get u v).map conv) a j i) := by
    refine ⟨fun j => (List.range n).find? fun i => Cf2.get i j == some true, fun j i hj => ?_⟩
    constructor
    · intro h
      have h1 := List.find?_some h
      have h2 := List.mem_of_find?_eq_some h
      exact (hC2 i j (List.mem_range.1 h2) hj).1 (by simpa using h1)
    · intro h
      have hi := hcand i j hj h.candidate
      have h1 := (hC2 i j hi hj).2 h
      cases hf : (List.range n).find? fun i => Cf2.get i j == some true with
      | none =>
        have := List.find?_eq_none.1 hf i (List.mem_range.2 hi)
        simp [h1] at this
      | some k =>
        have h2 := List.find?_some hf
        have h3 := List.mem_range.1 (List.mem_of_find?_eq_some hf)
        show (List.range n).find? (fun i => Cf2.get i j == some true) = some i
        rw [hf, ((hC2 k j h3 hj).1 (by simpa using h2)).unique h]
  obtain ⟨b, hb⟩ := hex
  have hnone : ∀ j, j < n → (b j = none ↔ ∀ i, ¬ Candidate n (fun u v => (A.get u v).map conv) a i j) := by
    intro j hj
    constructor
    · intro h i hc
      have hi := hcand i j hj hc
      cases ho : osum ratMax ((List.range n).map fun k => T1.get k j) with
      | none =>
        have := osum_range_none.1 ho i hi
        rw [(hT1 i j _ hi hj).2 ⟨hc, rfl⟩] at this
        cases this
      | some x =>
        obtain ⟨⟨k, hk, hkx⟩, hmax⟩ := osum_max ho
        have hk1 : Cf1.get k j = some true := (g2 k j hk hj).2 ⟨x, hkx, hmax⟩
        cases ho2 : osum ratMax ((List.range n).map fun k => T2.get k j) with
        | none =>
          have := osum_range_none.1 ho2 k hk
          rw [(hT2 k j _ hk hj).2 ⟨hk1, rfl⟩] at this
          cases this
        | some y =>
          obtain ⟨⟨l, hl, hly⟩, hmax2⟩ := osum_max ho2
          have := (hb j l hj).2 ((hC2 l j hl hj).1 ((g4 l j hl hj).2 ⟨y, hly, hmax2⟩))
          rw [h] at this
          cases this
    · intro h
      cases hbj : b j with
      | none => rfl
      | some i => exact absurd ((hb j i hj).1 hbj).candidate (h i)
  have hcl : IsClustering n Cf3 b := by
    refine ⟨zC3, fun i j hi hj => ?_, fun j i hj h => hcand i j hj ((hb j i hj).1 h).candidate⟩
    rw [hC3 i j hi hj]
    by_cases h : Cf2.get i j = some true
    · rw [if_pos h, if_pos ((hb j i hj).2 ((hC2 i j hi hj).1 h))]
    · rw [if_neg h, if_neg (fun h' => h ((hC2 i j hi hj).2 ((hb j i hj).1 h')))]
  have hsame : Cf3.eq q.C = true ↔ ∀ j, j < n → b j = a j := by
    rw [C06_matrix_eq _ _ zC3.wf hC.sh.wf]
    constructor
    · rintro ⟨-, -, h⟩ j hj
      have hb1 : ∀ i, b j = some i → a j = some i := by
        intro i hi
        have hlt := hcl.lt j i hj hi
        have h1 := h i j
        rw [hcl.get i j hlt hj, hC.get i j hlt hj, if_pos hi] at h1
        by_cases h2 : a j = some i
        · exact h2
        · rw [if_neg h2] at h1; cases h1
      have ha1 : ∀ i, a j = some i → b j = some i := by
        intro i hi
        have hlt := hC.lt j i hj hi
        have h1 := h i j
        rw [hcl.get i j hlt hj, hC.get i j hlt hj, if_pos hi] at h1
        by_cases h2 : b j = some i
        · exact h2
        · rw [if_neg h2] at h1; cases h1
      cases hbj : b j with
      | some i => rw [hb1 i hbj]
      | none =>
        cases haj : a j with
        | none => rfl
        | some i => rw [ha1 i haj] at hbj; cases hbj
    · intro h
      refine ⟨zC3.nr.trans hC.sh.nr.symm, zC3.nc.trans hC.sh.nc.symm, fun i j => ?_⟩
      by_cases hij : i < n ∧ j < n
      · rw [hcl.get i j hij.1 hij.2, hC.get i j hij.1 hij.2, h j hij.2]
      · rw [zC3.out hij, hC.sh.out hij]
  have hrun : ppBody conv A N q = if Cf3.eq q.C then .ok { C := q.C, m := m2, Cf := Cf3, Tally := T2, stop := true }
      else .ok { C := Cf3, m := m2, Cf := Cf3, Tally := T2, stop := false } := by
    unfold ppBody
    rw [e1]
    simp only [prog_bind_ok]
    rw [e2]
    simp only [prog_bind_ok]
    rw [e3]
    simp only [prog_bind_ok]
    rw [e4]
    simp only [prog_bind_ok]
    rw [e5]
    rfl
  by_cases hs : Cf3.eq q.C = true
  · refine ⟨_, b, by rw [hrun, if_pos hs], zm2, zC3, z3, ⟨hb, hnone⟩, ?_, ⟨fun _ => hsame.1 hs, fun _ => rfl⟩⟩
    refine ⟨hC.sh, fun i j hi hj => ?_, hcl.lt⟩
    show q.C.get i j = _
    rw [hC.get i j hi hj, hsame.1 hs j hj]
  · exact ⟨_, b, by rw [hrun, if_neg hs], zm2, zC3, z3, ⟨hb, hnone⟩, hcl, ⟨fun h => (by cases h), fun h => absurd (hsame.2 h) hs⟩⟩

end GBTL
