import Verif.Lemmas.MaxFlow
import Verif.Props.Metrics
/-
C51: `maxflow_push_relabel` returns the value of a maximum flow.
-/
namespace GBTL
open Spec

variable {t : ITy} {ov : Int → Int → Int} {C F : Lil Int} {n s k : Nat} {K : Int}

/-! ### the main loop -/

/-- The invariant of the main loop: the list is in topological order, and the vertices
before `p` have no excess. -/
structure FrontInv (t : ITy) (C : Lil Int) (n s k : Nat) (z : FrontSt) : Prop where
  inv : PInv t C n s k z.st
  nodup : z.list.Nodup
  mem : ∀ x, x ∈ z.list ↔ x < n ∧ x ≠ s ∧ x ≠ k
  order : z.list.Pairwise fun a b => ¬ Adm n (val2 C) (val2 z.st.F) (val1 z.st.height) b a
  done : ∀ x, x ∈ z.list.take z.p → val1 z.st.excess x = 0

/-- The measure of the main loop. -/
def fMeasure (n : Nat) (z : FrontSt) : Nat :=
  (total n fun x => 2 * (n : Int) - val1 z.st.height x).toNat * (n + 1) + (n - z.p)

theorem frontBody_spec (N : Net t C n s K) {z : FrontSt} (I : FrontInv t C n s k z) {fuel : Nat}
    (hf : prFuel n ≤ fuel) (hlen : z.list.length ≤ n) (hp : z.p < z.list.length) :
    ∃ z', frontBody fuel t C z = .ok z' ∧ FrontInv t C n s k z' ∧ z'.list.length = z.list.length ∧
      fMeasure n z' < fMeasure n z := by
  obtain ⟨u, hu⟩ : ∃ u, u = z.list[z.p] := ⟨_, rfl⟩
  have hmem : u ∈ z.list := hu ▸ List.getElem_mem hp
  obtain ⟨hun, hus, huk⟩ := (I.mem u).1 hmem
  obtain ⟨q, e1, I1, M, he⟩ := discharge_spec N I.inv hun hus huk hf
  have hread := BVec.at0_spec I.inv.wfh (i := u) (by rw [I.inv.sizeh]; exact hun)
  have hread' := BVec.at0_spec I1.wfh (i := u) (by rw [I1.sizeh]; exact hun)
  have hbody : frontBody fuel t C z = if val1 q.height u > val1 z.st.height u
      then .ok ⟨q, u :: z.list.eraseIdx z.p, 0⟩ else .ok ⟨q, z.list, z.p + 1⟩ := by
    unfold frontBody
    rw [List.getElem?_eq_getElem hp, ← hu]
    simp only
    rw [hread, e1]
    simp only [lift_ok, prog_bind_ok]
    rw [hread']
    simp only [lift_ok, prog_bind_ok]
  have htot : ∀ y, y < n → 2 * (n : Int) - val1 q.height y ≤ 2 * (n : Int) - val1 z.st.height y := by
    intro y hy
    by_cases hyu : y = u
    · subst hyu; have := M.up; omega
    · rw [M.others y hyu]; exact Int.le_refl _
  have hnn : 0 ≤ total n fun x => 2 * (n : Int) - val1 q.height x :=
    total_nonneg fun y hy => by have := I1.heights y hy; omega
  rw [hbody]
  by_cases hr : val1 z.st.height u < val1 q.height u
  · rw [if_pos hr]
    obtain ⟨m1, m2⟩ := M.risen hr
    have hmem' : ∀ x, x ∈ z.list.eraseIdx z.p ↔ x ∈ z.list ∧ x ≠ u := by
      intro x
      rw [List.mem_eraseIdx_iff_getElem]
      constructor
      · rintro ⟨i, hi, hne, hx⟩
        refine ⟨hx ▸ List.getElem_mem hi, ?_⟩
        intro h
        rw [← hx, hu] at h
        exact hne ((List.getElem_inj I.nodup).1 h)
      · rintro ⟨hx, hne⟩
        obtain ⟨i, hi, hx⟩ := List.mem_iff_getElem.1 hx
        refine ⟨i, hi, ?_, hx⟩
        intro h
        subst h
        exact hne (by rw [hu, hx])
    have hsub : (z.list.eraseIdx z.p).Sublist z.list := List.eraseIdx_sublist _ _
    refine ⟨_, rfl, ⟨I1, ?_, ?_, ?_, ?_⟩, ?_, ?_⟩
    · rw [List.nodup_cons]
      exact ⟨fun h => ((hmem' u).1 h).2 rfl, I.nodup.sublist hsub⟩
    · intro x
      rw [← I.mem x]
      simp only [List.mem_cons]
      rw [hmem' x]
      constructor
      · rintro (rfl | ⟨h, -⟩)
        · exact hmem
        · exact h
      · intro h
        by_cases hx : x = u
        · exact .inl hx
        · exact .inr ⟨h, hx⟩
    · rw [List.pairwise_cons]
      refine ⟨fun x _ => m2 x, ?_⟩
      refine List.Pairwise.imp_of_mem ?_ (I.order.sublist hsub)
      intro a b ha hb hn h
      exact hn (m1 b a ((hmem' b).1 hb).2 ((hmem' a).1 ha).2 h)
    · intro x hx
      simp at hx
    · simp only [List.length_cons]
      rw [List.length_eraseIdx_of_lt hp]
      omega
    · unfold fMeasure
      simp only
      have h1 := total_upd hun (f := fun x => 2 * (n : Int) - val1 z.st.height x)
        (g := fun x => 2 * (n : Int) - val1 q.height x) (fun y _ hy => by simp only [M.others y hy])
      have hd : (total n fun x => 2 * (n : Int) - val1 q.height x).toNat + 1 ≤
          (total n fun x => 2 * (n : Int) - val1 z.st.height x).toNat := by omega
      have hm := Nat.mul_le_mul_right (n + 1) hd
      rw [Nat.succ_mul] at hm
      omega
  · rw [if_neg hr]
    have hsame : val1 q.height u = val1 z.st.height u := by have := M.up; omega
    obtain ⟨m1, m2⟩ := M.still hsame
    refine ⟨_, rfl, ⟨I1, I.nodup, I.mem, ?_, ?_⟩, rfl, ?_⟩
    · exact I.order.imp fun hn h => hn (m1 _ _ h)
    · intro x hx
      obtain ⟨i, hi, hx⟩ := List.mem_take_iff_getElem.1 hx
      have hi : i < min (z.p + 1) z.list.length := hi
      have hil : i < z.list.length := by omega
      by_cases hip : i = z.p
      · subst hip
        rw [← hu] at hx
        rw [← hx]
        exact he
      · have hi' : i < z.p := by omega
        have hx0 : val1 z.st.excess x = 0 := I.done x (List.mem_take_iff_getElem.2 ⟨i, by omega, hx⟩)
        have hxm : x ∈ z.list := hx ▸ List.getElem_mem hil
        obtain ⟨x1, x2, x3⟩ := (I.mem x).1 hxm
        have hne : x ≠ u := by
          intro h
          rw [← hx, hu] at h
          exact hip ((List.getElem_inj I.nodup).1 h)
        have hnadm := List.pairwise_iff_getElem.1 I.order i z.p hil hp hi'
        rw [hx, ← hu] at hnadm
        show val1 q.excess x = 0
        rw [← hx0]
        exact Classical.byContradiction fun h => hnadm (m2 x x1 x2 hne h)
    · unfold fMeasure
      simp only
      have h1 := total_mono htot
      have hd : (total n fun x => 2 * (n : Int) - val1 q.height x).toNat ≤
          (total n fun x => 2 * (n : Int) - val1 z.st.height x).toNat := by omega
      have hm := Nat.mul_le_mul_right (n + 1) hd
      omega

theorem total_le_const {n : Nat} {f : Nat → Int} {b : Int} (h : ∀ i, i < n → f i ≤ b) : total n f ≤ n * b := by
  induction n with
  | zero => simp
  | succ n ih =>
    have h1 := ih fun i hi => h i (by omega)
    have h2 := h n (by omega)
    rw [total_succ, Int.natCast_succ, Int.add_mul]
    omega

theorem fMeasure_le {z : FrontSt} (I : PInv t C n s k z.st) : fMeasure n z ≤ prFuel n := by
  unfold fMeasure prFuel
  have h1 := total_le_const (n := n) (f := fun x => 2 * (n : Int) - val1 z.st.height x) (b := 2 * n)
    (fun y hy => by have := I.heights y hy; omega)
  have hd : (total n fun x => 2 * (n : Int) - val1 z.st.height x).toNat ≤ 2 * (n * n) := by
    have h2 : (n : Int) * (2 * n) = ((2 * (n * n) : Nat) : Int) := by
      rw [Int.mul_left_comm]
      simp
    rw [h2] at h1
    omega
  have hm := Nat.mul_le_mul_right (n + 1) hd
  have h3 : 2 * (n * n) * (n + 1) = 2 * (n * n * n) + 2 * (n * n) := by
    rw [Nat.mul_add, Nat.mul_one, Nat.mul_assoc 2]
  rw [h3] at hm
  omega

/-! ### the first pushes -/

theorem first_pushes (N : Net t C n s K) {F0 : Lil Int} {e0 : BVec Int} (B0 : Base t C n s F0 e0) :
    ∃ r, forP n (F0, e0) (fun i r => lift (pushFlow t C r.1 r.2 s i)) = .ok r ∧ Base t C n s r.1 r.2 ∧
      ∀ y, y < n → y ≠ s → val2 r.1 s y = val2 C s y := by
  obtain ⟨r, e1, h1, h2⟩ := forP_inv (b := fun i (r : Lil Int × BVec Int) => lift (pushFlow t C r.1 r.2 s i))
    (fun i r => Base t C n s r.1 r.2 ∧ ∀ y, y < i → y ≠ s → val2 r.1 s y = val2 C s y) n (F0, e0)
    ⟨B0, fun y hy => absurd hy (Nat.not_lt_zero y)⟩ (by
      rintro i ⟨F, e⟩ hi ⟨B, hsat⟩
      simp only at B hsat
      by_cases his : i = s
      · subst his
        obtain ⟨F', e', r1, r2, r3, -⟩ := pushFlow_self N B hi
        refine ⟨(F', e'), by rw [r1]; rfl, r2, ?_⟩
        intro y hy hys
        show val2 F' i y = _
        rw [r3]
        exact hsat y (by omega) hys
      · obtain ⟨F', e', r1, r2, r3, -⟩ := pushFlow_spec N B N.src hi (Ne.symm his)
        refine ⟨(F', e'), by rw [r1]; rfl, r2, ?_⟩
        -- the source has enough
        have hfull : min (val1 e s) (val2 C s i - val2 F s i) = val2 C s i - val2 F s i := by
          have h1 := total_upd hi (f := val2 F s) (g := fun y => if y = i then val2 C s i else val2 F s y)
            (fun y _ hy => by simp [hy])
          have h2 : total n (fun y => if y = i then val2 C s i else val2 F s y) ≤ total n (val2 C s) := by
            refine total_mono fun y hy => ?_
            by_cases hyi : y = i
            · subst hyi; simp
            · simp only [hyi, if_false]; exact B.pre.cap s y N.src hy
          have h3 := N.row_le N.src
          have h4 := N.le_max
          have h5 := B.src
          simp only [if_true] at h1
          omega
        rw [hfull] at r3
        intro y hy hys
        show val2 F' s y = _
        rw [r3]
        unfold sendF
        by_cases hyi : y = i
        · subst hyi
          rw [if_pos ⟨rfl, rfl⟩]; omega
        · rw [if_neg (fun h => hyi h.2), if_neg (fun h => his h.1.symm)]
          exact hsat y (by omega) hys)
  exact ⟨r, e1, h1, h2⟩

/-! ### the result -/

theorem osum_total {f : Nat → Option Int} {n : Nat} (h1 : ∀ i x, i < n → f i = some x → t.Has x)
    (h2 : ∀ m, m ≤ n → t.Has (total m fun i => (f i).getD 0)) :
    ∀ m, m ≤ n → (osum (t.plusT ov) ((List.range m).map f)).getD 0 = total m fun i => (f i).getD 0 := by
  intro m
  induction m with
  | zero => intro _; rfl
  | succ m ih =>
    intro hm
    have ih := ih (by omega)
    rw [List.range_succ, List.map_append, List.map_cons, List.map_nil, osum_append, total_succ, ← ih]
    cases ho : osum (t.plusT ov) ((List.range m).map f) with
    | none => cases hx : f m <;> simp
    | some a =>
      cases hx : f m with
      | none => simp
      | some x =>
        rw [ho] at ih
        simp only [Option.getD_some] at ih ⊢
        have h3 := h2 (m + 1) hm
        rw [total_succ, ← ih, hx] at h3
        refine ITy.plusT_eq ov ?_ (h1 m x (by omega) hx) h3
        rw [ih]
        exact h2 m (by omega)

theorem total_prefix_le {f : Nat → Int} {m n : Nat} (hmn : m ≤ n) (h : ∀ i, i < n → 0 ≤ f i) :
    total m f ≤ total n f := by
  induction n with
  | zero => have : m = 0 := by omega
            subst this; exact Int.le_refl _
  | succ n ih =>
    by_cases hm : m = n + 1
    · subst hm; exact Int.le_refl _
    · have h1 := ih (by omega) (fun i hi => h i (by omega))
      have h2 := h n (by omega)
      rw [total_succ]
      omega

/-- The value of a row sum of the flow. -/
theorem Base.reduce {e : BVec Int} (N : Net t C n s K) (B : Base t C n s F e) {w : BVec Int} (hw : w.WF) (hsz : w.size = n) :
    ∃ w', reduceMV (vPlain id w) (redPlus t ov) (.plain F) = .done w' ∧ w'.at0 s = .ok (total n (val2 F s)) := by
  obtain ⟨w', e1, hy⟩ := C16_reduce_rows (o := vPlain id w) (r := redPlus t ov) (A := .plain F)
    (vPlain_wf hw) B.wfF ⟨vPlain_fits _, by show w.size = F.nrows; rw [hsz, B.rows]⟩ (fun _ _ => rfl)
  obtain ⟨h1, h2, h3⟩ := plain_yields hy
  have hs : s < w.size := by rw [hsz]; exact N.src
  refine ⟨w', e1, ?_⟩
  rw [BVec.at0_spec h1 (by rw [h2]; exact hs)]
  unfold val1
  rw [h3 s hs]
  show Except.ok ((Option.map id (ofold id (t.plusT ov) ((List.range F.ncols).map (F.get s)))).getD 0) = _
  rw [Option.map_id_fun, id, ofold_osum, B.cols]
  congr 1
  refine osum_total (f := F.get s) ?_ ?_ n (Nat.le_refl _)
  · intro i x hi hx
    have := B.flow_range N N.src hi
    unfold val2 at this
    rw [hx] at this
    exact N.flow _ this.1 this.2
  · intro m hm
    have u1 : total m (val2 F s) ≤ total m (val2 C s) := total_mono fun y hy => B.pre.cap s y N.src (by omega)
    have u2 := total_prefix_le hm (f := val2 C s) fun y hy => N.nonneg s y N.src hy
    have u3 := N.row_le N.src
    have l1 : total m (fun y => - val2 C y s) ≤ total m (val2 F s) := total_mono fun y hy => by
      have a1 := B.pre.cap y s (by omega) N.src
      have a2 := B.pre.anti y s (by omega) N.src
      omega
    rw [total_neg] at l1
    have l2 := total_prefix_le hm (f := fun y => val2 C y s) fun y hy => N.nonneg y s hy N.src
    have l3 : total n (fun y => val2 C y s) ≤ K := by
      rw [← N.sum]
      exact total_mono fun y hy => le_total N.src (f := val2 C y) fun z hz => N.nonneg y z hy hz
    exact N.flow _ (show -K ≤ total m (val2 F s) by omega) (show total m (val2 F s) ≤ K by omega)

theorem others_length (hs : s < n) (hk : k < n) (hsk : s ≠ k) :
    ((List.range n).filter fun i => decide (i ≠ s ∧ i ≠ k)).length = n - 2 := by
  have h1 : (List.range n).filter (fun i => decide (i ≠ s ∧ i ≠ k)) = ((List.range n).erase s).erase k := by
    have hn := List.nodup_range (n := n)
    rw [List.Nodup.erase_eq_filter hn, List.Nodup.erase_eq_filter (hn.filter _), List.filter_filter]
    congr 1
    funext i
    by_cases h1 : i = s <;> by_cases h2 : i = k <;> simp [h1, h2]
  rw [h1, List.length_erase_of_mem, List.length_erase_of_mem (List.mem_range.2 hs), List.length_range]
  · omega
  · rw [List.mem_erase_of_ne (Ne.symm hsk)]
    exact List.mem_range.2 hk

/-- **C51** `maxflow_push_relabel(capacity, source, sink)` terminates and returns the
value of a maximum flow from the source to the sink, for every square matrix of
capacities that are not negative and every source and sink that differ, provided the
scalar type holds the sum of all capacities, its negation and twice the number of
vertices. The bound on `fuel` says that no loop makes more iterations than that. -/
theorem C51_push_relabel (ov : Int → Int → Int) (hC : C.WF) (hsq : C.nrows = C.ncols) (hs : s < C.nrows)
    (hk : k < C.nrows) (hsk : s ≠ k) (hc : ∀ u v x, C.get u v = some x → 0 ≤ x)
    (hK : t.Has (totalCapacity C.nrows (capacityOf C.get)))
    (hK' : t.Has (- totalCapacity C.nrows (capacityOf C.get))) (hsmall : t.Has (2 * C.nrows))
    {fuel : Nat}
    (hf : 2 * (C.nrows * C.nrows * C.nrows) + 6 * (C.nrows * C.nrows) + 6 * C.nrows + 1 ≤ fuel) :
    ∃ m, maxflowPushRelabel fuel t ov C s k = .ok m ∧ IsMaxFlow C.nrows s k (capacityOf C.get) m := by
  obtain ⟨n, hn⟩ : ∃ n, n = C.nrows := ⟨_, rfl⟩
  have hval : ∀ x y, 0 ≤ val2 C x y := by
    intro x y
    unfold val2
    cases hx : C.get x y with
    | none => exact Int.le_refl _
    | some z => exact hc x y z hx
  have N : Net t C n s (totalCapacity n (val2 C)) := by
    refine ⟨hC, hn.symm, by rw [hn]; exact hsq.symm, by rw [hn]; exact hs, fun x y _ _ => hval x y, rfl, ?_, ?_⟩
    · intro x h1 h2
      subst hn
      exact ⟨Int.le_trans hK'.1 h1, Int.le_trans h2 hK.2⟩
    · intro x h1 h2
      subst hn
      exact ITy.has_nn h1 (Int.le_trans h2 hsmall.2)
  have hkn : k < n := by omega
  have hsn : s < n := by omega
  have hz : t.Has (n : Int) := N.small _ (by omega) (by omega)
  have hn0 : n ≠ 0 := by omega
  obtain ⟨h0, a1, a2, a3, a4⟩ := BVec.new_spec (α := Int) hn0
  -- the vectors
  obtain ⟨h1, b1, b2, b3, b4⟩ := setV a2 (i := s) (by rw [a3]; exact hsn) (n : Int)
  obtain ⟨e1, c1, c2, c3, c4⟩ := setV a2 (i := s) (by rw [a3]; exact hsn) t.maxVal
  have a0 : ∀ x, val1 h0 x = 0 := fun x => by unfold val1; rw [a4]; rfl
  have f0 : ∀ x y, val2 (Lil.new n n : Lil Int) x y = 0 := fun x y => by unfold val2; rw [Lil.get_new]; rfl
  have B0 : Base t C n s (Lil.new n n) e1 := by
    refine ⟨Lil.new_wf n n, rfl, rfl, c2, by rw [c3, a3], ⟨?_, ?_, ?_, ?_⟩, ?_⟩
    · intro x y _ _; rw [f0, f0]; rfl
    · intro x y _ _; rw [f0]; exact hval x y
    · intro x _ hx
      rw [c4, if_neg hx, a0, total_const_zero (fun y _ => f0 y x)]
    · intro x _ hx
      rw [c4, if_neg hx, a0]; exact Int.le_refl _
    · rw [c4, if_pos rfl, total_const_zero (fun y _ => f0 s y)]; omega
  obtain ⟨r, d1, B1, d2⟩ := first_pushes N B0
  have hh : ∀ x, x ≠ s → val1 h1 x = 0 := fun x hx => by rw [b4, if_neg hx, a0]
  have hhs : val1 h1 s = n := by rw [b4, if_pos rfl]
  have P1 : PInv t C n s k ⟨r.1, r.2, h1, h0⟩ := by
    refine ⟨B1, b2, by rw [b3, a3], a2, a3, hhs, hh k (Ne.symm hsk), ?_, ?_, ?_, ?_⟩
    · intro x hx
      show 0 ≤ val1 h1 x ∧ val1 h1 x < 2 * n
      by_cases hxs : x = s
      · rw [hxs, hhs]; omega
      · rw [hh x hxs]; omega
    · intro x _
      show 0 ≤ val1 h0 x ∧ val1 h0 x ≤ n
      rw [a0]; omega
    · intro x y hR
      show val1 h1 x ≤ val1 h1 y + 1
      by_cases hxs : x = s
      · subst hxs
        by_cases hys : y = x
        · subst hys; omega
        · have h1 := d2 y hR.2.1 hys
          have h2 := hR.2.2
          simp only at h2
          omega
      · rw [hh x hxs]
        by_cases hys : y = s
        · subst hys; omega
        · rw [hh y hys]; omega
    · intro x y hy
      have : (y : Int) < val1 h0 x := hy
      rw [a0] at this
      omega
  have hmem : ∀ x, x ∈ (List.range n).filter (fun i => decide (i ≠ s ∧ i ≠ k)) ↔ x < n ∧ x ≠ s ∧ x ≠ k := by
    intro x
    simp
  have I0 : FrontInv t C n s k
      ⟨⟨r.1, r.2, h1, h0⟩, (List.range n).filter fun i => decide (i ≠ s ∧ i ≠ k), 0⟩ := by
    refine ⟨P1, (List.nodup_range (n := n)).filter _, hmem, ?_, fun x hx => by simp at hx⟩
    rw [List.pairwise_iff_getElem]
    intro i j hi hj _ h
    have m1 := (hmem _).1 (List.getElem_mem hi)
    have m2 := (hmem _).1 (List.getElem_mem hj)
    have h2 := h.2
    simp only at h2
    rw [hh _ m1.2.1, hh _ m2.2.1] at h2
    omega
  have hlim : (n + 2 ^ 64 - 2) % 2 ^ 64 = n - 2 := by
    have h1 := (ITy.has_u64 hz).2
    have h2 : (n : Int) ≤ 18446744073709551615 := h1
    have h3 : n + 2 ^ 64 - 2 = (n - 2) + 2 ^ 64 := by omega
    rw [h3, Nat.add_mod_right, Nat.mod_eq_of_lt (by omega)]
  have hfl : prFuel n ≤ fuel := by rw [prFuel, hn]; exact hf
  obtain ⟨z, l1, ⟨I, hl⟩, l3⟩ := loop_rule
    (c := fun z : FrontSt => decide (z.p < (n + 2 ^ 64 - 2) % 2 ^ 64)) (b := frontBody fuel t C)
    (fun z => FrontInv t C n s k z ∧ z.list.length = n - 2) (fMeasure n) (by
      rintro z ⟨I, hl⟩ hcnd
      rw [hlim] at hcnd
      have hp : z.p < n - 2 := by simpa using hcnd
      obtain ⟨z', x1, x2, x3, x4⟩ := frontBody_spec N I hfl (by omega) (by omega)
      exact ⟨z', x1, ⟨x2, by omega⟩, x4⟩)
    fuel _ ⟨I0, others_length hsn hkn hsk⟩ (Nat.le_trans (fMeasure_le P1) hfl)
  have hp : n - 2 ≤ z.p := by
    rw [hlim] at l3
    simpa using l3
  have hdone : ∀ x, x < n → x ≠ s → x ≠ k → val1 z.st.excess x = 0 := by
    intro x x1 x2 x3
    refine I.done x ?_
    rw [List.take_of_length_le (by omega)]
    exact (I.mem x).2 ⟨x1, x2, x3⟩
  have hfin := I.inv.base.pre.final N.nonneg hsn I.inv.valid I.inv.top I.inv.bottom hdone
  obtain ⟨w, r1, r2⟩ := I.inv.base.reduce (ov := ov) N a2 a3
  refine ⟨total n (val2 z.st.F s), ?_, ?_⟩
  · unfold maxflowPushRelabel
    have hnc : C.ncols = n := by rw [hn]; exact hsq.symm
    rw [← hn, hnc]
    simp only
    rw [a1]
    simp only [lift_ok, prog_bind_ok]
    rw [ITy.conv_id hz, b1, c1]
    simp only [lift_ok, prog_bind_ok]
    rw [d1]
    simp only [prog_bind_ok]
    rw [l1]
    simp only [prog_bind_ok]
    rw [r1]
    simp only [exec_done, prog_bind_ok]
    rw [r2]
    rfl
  · rw [← hn]
    exact hfin

/-- A source outside the matrix is rejected. -/
theorem C51_rejects (fuel : Nat) (t : ITy) (ov : Int → Int → Int) (C : Lil Int) (s k : Nat) (h0 : C.nrows ≠ 0)
    (hs : C.nrows ≤ s) : maxflowPushRelabel fuel t ov C s k = .error (.err .indexOutOfBounds) := by
  obtain ⟨v, a1, a2, a3, a4⟩ := BVec.new_spec (α := Int) h0
  have hset : ∀ x, method (v.setElement s x) = .error .indexOutOfBounds := by
    intro x
    rw [BVec.setElement, if_pos (by rw [a3]; exact hs)]
    rfl
  unfold maxflowPushRelabel
  simp only
  rw [a1]
  simp only [lift_ok, prog_bind_ok]
  rw [hset]
  rfl

namespace Ex

/-- A network with the maximum flow 23. -/
def flowNet : Lil Int :=
  ((Lil.new 6 6 : Lil Int).build (fun _ y => y) [(0, 1, 16), (0, 2, 13), (1, 2, 10), (2, 1, 4), (1, 3, 12),
    (3, 2, 9), (2, 4, 14), (4, 3, 7), (3, 5, 20), (4, 5, 4)]).2

example : ∃ m, maxflowPushRelabel 700 .i8 (fun _ _ => 0) flowNet 0 5 = .ok m ∧
    IsMaxFlow 6 0 5 (capacityOf flowNet.get) m :=
  C51_push_relabel (t := .i8) (fun _ _ => 0) (Lil.wf_chk (by decide +kernel)) (by decide +kernel) (by decide +kernel)
    (by decide +kernel) (by decide)
    (fun _ _ _ h => Ex.get_chk (Lil.wf_chk (by decide +kernel)) (P := fun x => decide (0 ≤ x)) (by decide +kernel) h |> of_decide_eq_true)
    (by decide +kernel) (by decide +kernel) (by decide +kernel) (by decide +kernel)

example : maxflowPushRelabel 700 .i8 (fun _ _ => 0) flowNet 0 5 = .ok 23 := by decide +kernel

example : maxflowPushRelabel 1 .i8 (fun _ _ => 0) flowNet 6 5 = .error (.err .indexOutOfBounds) :=
  C51_rejects _ _ _ _ _ _ (by decide) (by decide +kernel)

/-- One edge `0 → 1`, from which the sink `2` cannot be reached. -/
def deadEnd : Lil Int := ((Lil.new 3 3 : Lil Int).build (fun _ y => y) [(0, 1, 5)]).2

def dF : Lil Int := ⟨3, 3, 5, [[(0, 0), (1, 5), (2, 0)], [(0, 251)], [(0, 0)]]⟩

/-- The states between which `discharge` cycles. -/
def dSt (seen : BVec Int) : PRSt :=
  ⟨dF, ⟨3, 3, [250, 5, 0], [true, true, true]⟩, ⟨3, 1, [3, 0, 0], [true, false, false]⟩, seen⟩

def seen0 : BVec Int := ⟨3, 0, [0, 0, 0], [false, false, false]⟩
def seenAt (x : Int) : BVec Int := ⟨3, 1, [0, x, 0], [false, true, false]⟩

end Ex

/-- For a scalar type that is unsigned and narrower than `int` the function can run
forever: the flow back to the source is stored modulo `2^w`, the capacity left is
computed in `int` and is negative, and a vertex that the sink cannot be reached from
keeps its excess. -/
theorem C51_narrow_unsigned_disproof (fuel : Nat) (ov : Int → Int → Int) :
    maxflowPushRelabel fuel .u8 ov Ex.deadEnd 0 2 = .error .running := by
  have hd : ∀ fuel, discharge fuel .u8 Ex.deadEnd 1 (Ex.dSt Ex.seen0) = .error .running := by
    intro fuel
    refine loop_forever (fun q => q = Ex.dSt Ex.seen0 ∨ q = Ex.dSt (Ex.seenAt 0) ∨ q = Ex.dSt (Ex.seenAt 1) ∨
      q = Ex.dSt (Ex.seenAt 2) ∨ q = Ex.dSt (Ex.seenAt 3)) ?_ fuel _ (.inl rfl)
    rintro q (rfl | rfl | rfl | rfl | rfl)
    · exact ⟨by decide +kernel, Ex.dSt (Ex.seenAt 1), by decide +kernel, by simp⟩
    · exact ⟨by decide +kernel, Ex.dSt (Ex.seenAt 1), by decide +kernel, by simp⟩
    · exact ⟨by decide +kernel, Ex.dSt (Ex.seenAt 2), by decide +kernel, by simp⟩
    · exact ⟨by decide +kernel, Ex.dSt (Ex.seenAt 3), by decide +kernel, by simp⟩
    · exact ⟨by decide +kernel, Ex.dSt (Ex.seenAt 0), by decide +kernel, by simp⟩
  have hb : frontBody fuel .u8 Ex.deadEnd ⟨Ex.dSt Ex.seen0, [1], 0⟩ = .error .running := by
    show (lift ((Ex.dSt Ex.seen0).height.at0 1) >>= fun old => discharge fuel .u8 Ex.deadEnd 1 (Ex.dSt Ex.seen0) >>= _)
      = _
    rw [hd]
    rfl
  have h1 : forP 3 ((Lil.new 3 3 : Lil Int), (⟨3, 1, [255, 0, 0], [true, false, false]⟩ : BVec Int))
      (fun i r => lift (pushFlow .u8 Ex.deadEnd r.1 r.2 0 i)) =
      .ok (Ex.dF, ⟨3, 3, [250, 5, 0], [true, true, true]⟩) := by decide +kernel
  have h2 : (List.range 3).filter (fun i => decide (i ≠ 0 ∧ i ≠ 2)) = [1] := by decide
  have h3 : loop (fun s : FrontSt => decide (s.p < (3 + 2 ^ 64 - 2) % 2 ^ 64)) (frontBody fuel .u8 Ex.deadEnd) fuel
      ⟨Ex.dSt Ex.seen0, [1], 0⟩ = .error .running := by
    cases hfu : fuel with
    | zero => simp [loop]
    | succ m =>
      rw [← hfu, hfu, loop]
      rw [← hfu, hb]
      simp
  have hr : Ex.deadEnd.nrows = 3 := by decide +kernel
  have hc : Ex.deadEnd.ncols = 3 := by decide +kernel
  have g1 : (BVec.new 3 : Except Err (BVec Int)) = .ok Ex.seen0 := rfl
  have g2 : method (Ex.seen0.setElement 0 (ITy.conv .u8 (3 : Nat))) = .ok ⟨3, 1, [3, 0, 0], [true, false, false]⟩ := by
    decide +kernel
  have g3 : method (Ex.seen0.setElement 0 (ITy.maxVal .u8)) = .ok ⟨3, 1, [255, 0, 0], [true, false, false]⟩ := by
    decide +kernel
  unfold maxflowPushRelabel
  rw [hr, hc]
  simp only
  rw [g1]
  simp only [lift_ok, prog_bind_ok]
  rw [g2, g3]
  simp only [lift_ok, prog_bind_ok]
  rw [h1, h2]
  simp only [prog_bind_ok]
  show (loop (fun s : FrontSt => decide (s.p < (3 + 2 ^ 64 - 2) % 2 ^ 64)) (frontBody fuel .u8 Ex.deadEnd) fuel
      ⟨Ex.dSt Ex.seen0, [1], 0⟩ >>= _) = _
  rw [h3]
  rfl

end GBTL
