import Verif.Lemmas.Bfs
import Verif.Props.Select
/-
C32, C33: breadth-first search.
-/
namespace GBTL
open Spec

variable {α γ ω : Type}

/-- A level type that represents the levels `1 … n`: converting to it and back to
`IndexType` or `unsigned int` gives the same number, and a level converts to `true`. -/
structure LevTy.Fits (L : LevTy γ) (n : Nat) : Prop where
  ix : ∀ k, 1 ≤ k → k ≤ n → L.toIx (L.ofIx k) = k
  u : ∀ k, 1 ≤ k → k ≤ n → L.toU (L.ofU k) = k
  same : ∀ k, 1 ≤ k → k ≤ n → L.ofU k = L.ofIx k
  truthy : ∀ k, 1 ≤ k → k ≤ n → L.truthy (L.ofIx k) = true

/-- An integer type as a level type. -/
def ITy.lev (t : ITy) : LevTy Int :=
  { toIx := fun x => (ITy.conv .u64 x).toNat, ofIx := fun k => t.conv k,
    toU := fun x => (ITy.conv .u32 x).toNat, ofU := fun k => t.conv k, truthy := isTrue }

/-- An integer type fits if it holds the number of vertices. -/
theorem ITy.lev_fits (t : ITy) (n : Nat) (h : t.Has n) (hu : n < 2 ^ 32) : t.lev.Fits n := by
  have hk : ∀ k : Nat, 1 ≤ k → k ≤ n → t.conv k = k := by
    intro k h1 h2
    refine ITy.conv_id ⟨?_, ?_⟩
    · have : t.minVal ≤ 0 := by cases t <;> decide
      omega
    · have := h.2; omega
  have c64 : ∀ k : Nat, k ≤ n → ITy.conv .u64 k = k := by
    intro k h2
    refine ITy.conv_id ⟨?_, ?_⟩
    · show (0 : Int) ≤ k; omega
    · show (k : Int) ≤ 18446744073709551615; omega
  have c32 : ∀ k : Nat, k ≤ n → ITy.conv .u32 k = k := by
    intro k h2
    refine ITy.conv_id ⟨?_, ?_⟩
    · show (0 : Int) ≤ k; omega
    · show (k : Int) ≤ 4294967295; omega
  refine ⟨?_, ?_, ?_, ?_⟩
  · intro k h1 h2
    show (ITy.conv .u64 (t.conv k)).toNat = k
    rw [hk k h1 h2, c64 k h2]; simp
  · intro k h1 h2
    show (ITy.conv .u32 (t.conv k)).toNat = k
    rw [hk k h1 h2, c32 k h2]; simp
  · intro k h1 h2; rfl
  · intro k h1 h2
    show isTrue (t.conv k) = true
    rw [hk k h1 h2]
    simp only [isTrue, bne_iff_ne, ne_eq]
    omega

/-- The consistent states of a level BFS after some rounds. -/
structure BfsOK (E : Nat → Nat → Prop) (S : Nat → Prop) (n : Nat) (one : ω) (mk : Nat → γ)
    (s : BfsSt γ ω) : Prop where
  wwf : s.wave.WF
  wsize : s.wave.size = n
  lwf : s.levels.WF
  lsize : s.levels.size = n
  inv : LevInv E S n s.depth one mk s.wave.get s.levels.get

theorem edge_lt {G : Lil α} (hG : G.WF) {u v : Nat} (h : Edge G.get u v) : u < G.nrows ∧ v < G.ncols := by
  constructor
  · rcases Nat.lt_or_ge u G.nrows with h' | h'
    · exact h'
    · rw [Edge, hG.toWFr.get_none (Or.inl h')] at h; cases h
  · rcases Nat.lt_or_ge v G.ncols with h' | h'
    · exact h'
    · rw [Edge, hG.toWFr.get_none (Or.inr h')] at h; cases h

theorem vec_some_lt {v : BVec α} (hv : v.WF) {i : Nat} (h : v.get i ≠ none) : i < v.size := by
  rcases Nat.lt_or_ge i v.size with h' | h'
  · exact h'
  · exact absurd (hv.get_none h') h

/-- From the results of the two calls of a round to the next state. -/
theorem BfsOK.round {G : Lil α} {S : Nat → Prop} {n : Nat} {one : ω} {mk : Nat → γ}
    {s : BfsSt γ ω} (hs : BfsOK (Edge G.get) S n one mk s) (hne : 0 < s.wave.nvals)
    {truthy : γ → Bool} (ht : ∀ k, 1 ≤ k → k ≤ n → truthy (mk k) = true)
    {lev : BVec γ} (l1 : lev.WF) (l2 : lev.size = n)
    (l3 : ∀ v, v < n → s.wave.get v = some one → s.levels.get v = none →
      lev.get v = some (mk (s.depth + 1)))
    (l4 : ∀ v, v < n → s.wave.get v = none → lev.get v = s.levels.get v)
    {wave : BVec ω} (w1 : wave.WF) (w2 : wave.size = n)
    (w3 : ∀ v, v < n → (lev.get v).any truthy = true → wave.get v = none)
    (w4 : ∀ v, v < n → lev.get v = none → (∃ u, s.wave.get u = some one ∧ Edge G.get u v) →
      wave.get v = some one)
    (w5 : ∀ v, v < n → lev.get v = none → (¬ ∃ u, s.wave.get u = some one ∧ Edge G.get u v) →
      wave.get v = none)
    (hG : G.WF) (hn : G.ncols = n) :
    BfsOK (Edge G.get) S n one mk { depth := s.depth + 1, wave := wave, levels := lev } ∧
      n - Vec.count n lev.get < n - Vec.count n s.levels.get := by
  obtain ⟨i, x, hi, hx⟩ := nonempty_of_nvals hs.wwf hne
  have hin : i < n := by rw [← hs.wsize]; exact hi
  have hxd := (hs.inv.wave_some hx).1
  obtain rfl := (hs.inv.wave_some hx).2
  have hl4 : ∀ v, s.wave.get v = none → lev.get v = s.levels.get v := by
    intro v h
    rcases Nat.lt_or_ge v n with h' | h'
    · exact l4 v h' h
    · rw [l1.get_none (by omega), hs.lwf.get_none (by rw [hs.lsize]; exact h')]
  have hl3 : ∀ v, s.wave.get v = some x → s.levels.get v = none →
      lev.get v = some (mk (s.depth + 1)) := by
    intro v h
    exact l3 v (by rw [← hs.wsize]; exact vec_some_lt hs.wwf (by rw [h]; simp)) h
  have hlt : Vec.count n s.levels.get < Vec.count n lev.get := by
    have hnone : s.levels.get i = none := by
      refine hs.inv.outL i ?_
      intro k hk hd
      have := hxd.unique hd
      omega
    refine count_lt ?_ hin hnone (by rw [hl3 i hx hnone]; rfl)
    intro j _ hj
    cases hwj : s.wave.get j with
    | none => rw [hl4 j hwj]; exact hj
    | some y =>
      obtain ⟨hd, rfl⟩ := hs.inv.wave_some hwj
      rw [hl3 j hwj]; · rfl
      refine hs.inv.outL j ?_
      intro k hk hd'
      have := hd.unique hd'
      omega
  have hdn : s.depth + 1 ≤ n := by
    have h1 := hs.inv.count
    have h2 := count_le n lev.get
    omega
  have htr : ∀ v y, lev.get v = some y → truthy y = true := by
    intro v y hy
    cases hwv : s.wave.get v with
    | none =>
      rw [hl4 v hwv] at hy
      obtain ⟨k, hk, -, rfl⟩ := hs.inv.lev_some hy
      exact ht _ (by omega) (by omega)
    | some z =>
      obtain ⟨hd, rfl⟩ := hs.inv.wave_some hwv
      rw [hl3 v hwv] at hy
      · cases hy
        exact ht _ (by omega) hdn
      · refine hs.inv.outL v ?_
        intro k hk hd'
        have := hd.unique hd'
        omega
  refine ⟨⟨w1, w2, l1, l2, ?_⟩, ?_⟩
  · refine hs.inv.step ?_ ⟨i, by rw [hx]; simp⟩ hl3 hl4 ?_ ?_ ?_
    · intro v hv
      rw [← hs.wsize]; exact vec_some_lt hs.wwf hv
    · intro v hv
      have hvn : v < n := by rw [← l2]; exact vec_some_lt l1 hv
      show wave.get v = none
      refine w3 v hvn ?_
      cases hl : lev.get v with
      | none => exact absurd hl hv
      | some y => simp [htr v y hl]
    · intro v hv hu
      have hvn : v < n := by
        obtain ⟨u, -, e⟩ := hu
        rw [← hn]; exact (edge_lt hG e).2
      exact w4 v hvn hv hu
    · intro v hv hu
      show wave.get v = none
      rcases Nat.lt_or_ge v n with hvn | hvn
      · exact w5 v hvn hv hu
      · exact w1.get_none (by omega)
  · have h2 := count_le n lev.get
    omega

/-- In a round the depth is below the number of vertices. -/
theorem BfsOK.depth_lt {G : Lil α} {S : Nat → Prop} {n : Nat} {one : ω} {mk : Nat → γ}
    {s : BfsSt γ ω} (hs : BfsOK (Edge G.get) S n one mk s) (hne : 0 < s.wave.nvals) :
    s.depth + 1 ≤ n := by
  obtain ⟨i, x, hi, hx⟩ := nonempty_of_nvals hs.wwf hne
  obtain ⟨hd, rfl⟩ := hs.inv.wave_some hx
  refine Nat.lt_of_le_of_lt hs.inv.count ?_
  have := count_lt (f := s.levels.get) (g := fun _ => some ()) (n := n) (k := i) (fun _ _ _ => rfl)
    (by rw [← hs.wsize]; exact hi) (hs.inv.outL i (fun k hk hd' => by have := hd.unique hd'; omega)) rfl
  exact Nat.lt_of_lt_of_le this (count_le _ _)

theorem start_in {wave : BVec ω} {one : ω} (h : ∀ v x, wave.get v = some x → x = one) (v : Nat)
    (hv : wave.get v ≠ none) : wave.get v = some one := by
  cases hw : wave.get v with
  | none => exact absurd hw hv
  | some x => rw [h v x hw]

theorem maskOK {k : MaskKind} {v : BVec γ} (hv : v.WF) : VMask.WF (some (k, v)) := by
  intro k' v' e; cases e; exact hv

theorem maskFits {k : MaskKind} {v : BVec γ} {n : Nat} (hv : v.size = n) :
    VMask.Fits (some (k, v)) n := by
  intro k' v' e; cases e; exact hv

theorem noMaskOK : VMask.WF (none : VMask γ) := by intro k' v' e; cases e
theorem noMaskFits {n : Nat} : VMask.Fits (none : VMask γ) n := by intro k' v' e; cases e

/-- The level BFSs with a given body. -/
theorem bfs_loop {G : Lil α} {S : Nat → Prop} {n : Nat} {one : ω} {mk : Nat → γ}
    {body : BfsSt γ ω → Prog (BfsSt γ ω)}
    (hb : ∀ s, BfsOK (Edge G.get) S n one mk s → 0 < s.wave.nvals →
      ∃ s', body s = .ok s' ∧ BfsOK (Edge G.get) S n one mk s' ∧
        n - Vec.count n s'.levels.get < n - Vec.count n s.levels.get)
    {s : BfsSt γ ω} (hs : BfsOK (Edge G.get) S n one mk s) {fuel : Nat} (hf : n ≤ fuel) :
    ∃ s', loop (fun s => decide (0 < s.wave.nvals)) body fuel s = .ok s' ∧
      s'.levels.WF ∧ s'.levels.size = n ∧ IsLevels (Edge G.get) S mk s'.levels.get := by
  obtain ⟨s', e, h, hc⟩ := loop_rule (c := fun s => decide (0 < s.wave.nvals)) (b := body)
    (BfsOK (Edge G.get) S n one mk) (fun s => n - Vec.count n s.levels.get)
    (fun s hs hc => hb s hs (of_decide_eq_true hc)) fuel s hs (by omega)
  refine ⟨s', e, h.lwf, h.lsize, h.inv.final ?_⟩
  have : s'.wave.nvals = 0 := by
    have := of_decide_eq_false hc
    omega
  exact none_of_nvals h.wwf this

/-- Nothing has been done yet. -/
theorem bfs_start {G : Lil α} {S : Nat → Prop} {n : Nat} {one : ω} {mk : Nat → γ}
    {wave : BVec ω} {levels : BVec γ} (w1 : wave.WF) (w2 : wave.size = n) (l1 : levels.WF)
    (l2 : levels.size = n) (l3 : ∀ v, levels.get v = none)
    (w3 : ∀ v, S v → wave.get v = some one) (w4 : ∀ v, ¬ S v → wave.get v = none) :
    BfsOK (Edge G.get) S n one mk { depth := 0, wave := wave, levels := levels } := by
  refine ⟨w1, w2, l1, l2, ?_, ?_, ?_, fun v _ => l3 v, Nat.zero_le _⟩
  · intro v hv; exact w3 v (hopDist_zero.1 hv)
  · intro v hv; exact w4 v (fun h => hv (hopDist_zero.2 h))
  · intro v k hk; exact absurd hk (Nat.not_lt_zero _)

/-- The product of a wavefront and a graph over a semiring in which everything is one. -/
theorem wave_vxm {G : Lil α} {wave : BVec ω} (hw : wave.WF) {τ : Type} {add : τ → τ → τ} {one : ω}
    {mult : ω → α → τ} {one' : τ}
    (h1 : ∀ u x, wave.get u = some x → x = one)
    (hm : ∀ u v x, G.get u v = some x → mult one x = one') (ha : add one' one' = one') (v : Nat) :
    ((∃ u, wave.get u = some one ∧ Edge G.get u v) →
      Spec.vxm wave.size add mult wave.get G.get v = some one') ∧
    ((¬ ∃ u, wave.get u = some one ∧ Edge G.get u v) →
      Spec.vxm wave.size add mult wave.get G.get v = none) := by
  have hyes : ∀ k, wave.get k = some one → Edge G.get k v →
      both mult (wave.get k) (G.get k v) = some one' := by
    intro k h2 h3
    obtain ⟨y, hy⟩ := Option.isSome_iff_exists.1 h3
    rw [h2, hy]
    simp [both, hm k v y hy]
  have hno : ∀ k, ¬ (wave.get k = some one ∧ Edge G.get k v) →
      both mult (wave.get k) (G.get k v) = none := by
    intro k h2
    cases h3 : wave.get k with
    | none => rfl
    | some x =>
      obtain rfl := h1 k x h3
      cases h4 : G.get k v with
      | none => rfl
      | some y => exact absurd ⟨h3, by rw [Edge, h4]; rfl⟩ h2
  constructor
  · rintro ⟨u, hu, he⟩
    refine osum_const ha ?_ ⟨u, vec_some_lt hw (by rw [hu]; simp), hyes u hu he⟩
    intro k _
    by_cases h : wave.get k = some one ∧ Edge G.get k v
    · exact .inr (hyes k h.1 h.2)
    · exact .inl (hno k h)
  · intro h
    refine osum_range_none.2 ?_
    intro k _
    exact hno k (fun h' => h ⟨k, h'⟩)

theorem bfsLevelBody_spec {gtrue : α → Bool} {G : Lil α} (hG : G.WF) {n : Nat} (hr : G.nrows = n)
    (hc : G.ncols = n) (ht : ∀ u v x, G.get u v = some x → gtrue x = true) {L : LevTy γ}
    (hL : L.Fits n) {S : Nat → Prop} {s : BfsSt γ Bool}
    (hs : BfsOK (Edge G.get) S n true L.ofIx s) (hne : 0 < s.wave.nvals) :
    ∃ s', bfsLevelBody gtrue G L s = .ok s' ∧ BfsOK (Edge G.get) S n true L.ofIx s' ∧
      n - Vec.count n s'.levels.get < n - Vec.count n s.levels.get := by
  obtain ⟨lev, e1, y1⟩ := C15_apply_vector (o := levOut L s.levels)
    (f := fun b : Bool => (s.depth + 1) * b.toNat) (u := s.wave) ⟨hs.lwf, noMaskOK⟩ hs.wwf
    ⟨noMaskFits, by show s.levels.size = s.wave.size; rw [hs.lsize, hs.wsize]⟩
  have hls : lev.size = n := y1.size.trans hs.lsize
  obtain ⟨wave, e2, y2⟩ := C12_mxv_transposed_actual (o := waveOut id L.truthy s.wave lev)
    (sr := ⟨fun x y => x || y, fun a b => gtrue a && b, fun b a => b && gtrue a⟩)
    (u := s.wave) (A := G) ⟨hs.wwf, maskOK y1.wf⟩ hs.wwf hG
    ⟨maskFits (by show lev.size = s.wave.size; rw [hls, hs.wsize]),
      by show s.wave.size = G.ncols; rw [hs.wsize, hc],
      by show s.wave.size = G.nrows; rw [hs.wsize, hr]⟩
  refine ⟨{ depth := s.depth + 1, wave := wave, levels := lev },
    by simp only [bfsLevelBody, e1, e2, exec_done, prog_bind_ok], ?_⟩
  obtain ⟨hp, hq⟩ := forall_and.1 fun v => wave_vxm (G := G) hs.wwf
    (add := fun x y => x || y) (one := true) (mult := fun b a => b && gtrue a) (one' := true)
    (fun u x h => (hs.inv.wave_some h).2) (fun u v x h => by simp [ht u v x h]) rfl v
  refine hs.round hne hL.truthy y1.wf hls ?_ ?_ y2.wf (y2.size.trans hs.wsize) ?_ ?_ ?_ hG hc
  · intro v hv hw hl
    have := y1.get v (by show v < s.levels.size; rw [hs.lsize]; exact hv)
    rw [this]
    simp [levOut, VMask.allows, Spec.write, Spec.accum, hw, hl]
  · intro v hv hw
    have := y1.get v (by show v < s.levels.size; rw [hs.lsize]; exact hv)
    rw [this]
    simp only [levOut, VMask.allows, Spec.write, Spec.accum, hw, Option.map_none]
    cases hl : s.levels.get v with
    | none => simp
    | some x =>
      obtain ⟨k, hk, -, rfl⟩ := hs.inv.lev_some hl
      have := hs.inv.count
      have := count_le n s.levels.get
      simp [hL.ix (k + 1) (by omega) (by omega)]
  all_goals
    intro v hv hl
    have := y2.get v (by show v < s.wave.size; rw [hs.wsize]; exact hv)
    rw [this]
    simp only [waveOut, VMask.allows, Spec.write, Spec.accum, Spec.allows, hl]
  · simp
  · intro he
    rw [hp v he]; simp
  · intro he
    rw [hq v he]; simp

/-- **C32**, `bfs_level(graph, source, levels)`: on a square graph whose stored
elements convert to `true`, with empty levels, it returns (after at most as many
rounds as there are vertices), and every vertex has its hop distance from the source
plus one as level, unreachable vertices having none. -/
theorem C32_bfs_level (gtrue : α → Bool) (G : Lil α) (source : Nat) (L : LevTy γ) (levels : BVec γ)
    (hG : G.WF) (hsq : G.nrows = G.ncols) (hsrc : source < G.nrows)
    (ht : ∀ u v x, G.get u v = some x → gtrue x = true)
    (hl : levels.WF) (hls : levels.size = G.nrows) (hle : ∀ v, levels.get v = none)
    (hL : L.Fits G.nrows) (fuel : Nat) (hf : G.nrows ≤ fuel) :
    ∃ levels', bfsLevel fuel gtrue G source L levels = .ok levels' ∧
      levels'.WF ∧ levels'.size = G.nrows ∧
      (∀ v d, HopDist (Edge G.get) (· = source) v d → levels'.get v = some (L.ofIx (d + 1))) ∧
      (∀ v, ¬ Reachable (Edge G.get) (· = source) v → levels'.get v = none) := by
  obtain ⟨w0, e0, w1, w2, w3⟩ := BVec.new_spec (α := Bool) (n := G.nrows) (by omega)
  obtain ⟨w, e1, v1, v2, v3⟩ := BVec.setElement_spec w1 (i := source) (by omega) true
  obtain ⟨s', e, r1, r2, r3⟩ := bfs_loop (G := G) (S := (· = source)) (one := true) (mk := L.ofIx)
    (body := bfsLevelBody gtrue G L)
    (fun s hs hne => bfsLevelBody_spec hG rfl hsq.symm ht hL hs hne)
    (bfs_start v1 (v2.trans w2) hl hls hle
      (by intro v hv; rw [v3, if_pos hv]) (by intro v hv; rw [v3, if_neg hv, w3])) hf
  refine ⟨s'.levels, ?_, r1, r2, r3.reached, r3.unreached⟩
  simp only [bfsLevel, e0, e1, e, lift_ok, method_ok, prog_bind_ok]


/-- The value 1 of a wavefront type survives conversions. -/
structure WaveTy.Fits (W : WaveTy ω) : Prop where
  ix : W.toIx (W.ofIx 1) = 1
  truthy : W.truthy (W.ofIx 1) = true

theorem wave_next {gIx : α → Nat} {G : Lil α} (hG : G.WF) {n : Nat} (hr : G.nrows = n)
    (hc : G.ncols = n) (ht : ∀ u v x, G.get u v = some x → gIx x ≠ 0) {W : WaveTy ω} (hW : W.Fits)
    {truthy : γ → Bool} {wave : BVec ω} (w1 : wave.WF) (w2 : wave.size = n)
    (w3 : ∀ u x, wave.get u = some x → x = W.ofIx 1) {lev : BVec γ} (l1 : lev.WF) (l2 : lev.size = n) :
    ∃ wave', vxm (waveOut W.ofIx truthy wave lev) (logicalIx W gIx) wave (.plain G) = .done wave' ∧
      wave'.WF ∧ wave'.size = n ∧
      (∀ v, v < n → (lev.get v).any truthy = true → wave'.get v = none) ∧
      (∀ v, v < n → lev.get v = none → (∃ u, wave.get u = some (W.ofIx 1) ∧ Edge G.get u v) →
        wave'.get v = some (W.ofIx 1)) ∧
      (∀ v, v < n → lev.get v = none → (¬ ∃ u, wave.get u = some (W.ofIx 1) ∧ Edge G.get u v) →
        wave'.get v = none) := by
  obtain ⟨wave', e2, y2⟩ := C11_vxm (o := waveOut W.ofIx truthy wave lev) (sr := logicalIx W gIx)
    (u := wave) (A := .plain G) ⟨w1, maskOK l1⟩ w1 hG
    ⟨maskFits (by show lev.size = wave.size; rw [l2, w2]), by show wave.size = G.ncols; rw [w2, hc],
      by show wave.size = G.nrows; rw [w2, hr]⟩
  obtain ⟨hp, hq⟩ := forall_and.1 fun v => wave_vxm (G := G) w1
    (add := orIx) (one := W.ofIx 1) (mult := fun w a => andIx (W.toIx w) (gIx a)) (one' := 1)
    w3 (fun u v x h => by simp [andIx, hW.ix, ht u v x h]) rfl v
  refine ⟨wave', e2, y2.wf, y2.size.trans w2, ?_, ?_, ?_⟩
  all_goals
    intro v hv hl
    have := y2.get v (by show v < wave.size; rw [w2]; exact hv)
    rw [this]
    simp only [waveOut, VMask.allows, Spec.write, Spec.accum, Spec.allows, hl, logicalIx, Operand.get]
  · simp
  · intro he
    rw [hp v he]; simp
  · intro he
    rw [hq v he]; simp

theorem bfsMaskedBody_spec {gIx : α → Nat} {G : Lil α} (hG : G.WF) {n : Nat} (hr : G.nrows = n)
    (hc : G.ncols = n) (ht : ∀ u v x, G.get u v = some x → gIx x ≠ 0) {W : WaveTy ω} (hW : W.Fits)
    {L : LevTy γ} (hL : L.Fits n) (hn : n < 2 ^ 32) {S : Nat → Prop} {s : BfsSt γ ω}
    (hs : BfsOK (Edge G.get) S n (W.ofIx 1) L.ofIx s) (hne : 0 < s.wave.nvals) :
    ∃ s', bfsMaskedBody gIx G W L s = .ok s' ∧ BfsOK (Edge G.get) S n (W.ofIx 1) L.ofIx s' ∧
      n - Vec.count n s'.levels.get < n - Vec.count n s.levels.get := by
  obtain ⟨lev, e1, y1⟩ := C15_apply_vector (o := levOutU L s.levels)
    (f := fun x => (s.depth + 1) * W.toIx x) (u := s.wave) ⟨hs.lwf, noMaskOK⟩ hs.wwf
    ⟨noMaskFits, by show s.levels.size = s.wave.size; rw [hs.lsize, hs.wsize]⟩
  have hls : lev.size = n := y1.size.trans hs.lsize
  obtain ⟨wave, e2, w1, w2, w3, w4, w5⟩ := wave_next hG hr hc ht hW (truthy := L.truthy) hs.wwf
    hs.wsize (fun u x h => (hs.inv.wave_some h).2) y1.wf hls
  have hd : s.depth + 1 ≤ n := hs.depth_lt hne
  refine ⟨{ depth := s.depth + 1, wave := wave, levels := lev },
    by simp only [bfsMaskedBody, e1, e2, exec_done, prog_bind_ok], ?_⟩
  refine hs.round hne hL.truthy y1.wf hls ?_ ?_ w1 w2 w3 w4 w5 hG hc
  · intro v hv hw hl
    have := y1.get v (by show v < s.levels.size; rw [hs.lsize]; exact hv)
    rw [this]
    simp only [levOutU, VMask.allows, Spec.write, Spec.accum, hw, hl, Option.map_some, if_true, hW.ix,
      Nat.mul_one, u32]
    rw [Nat.mod_eq_of_lt (by omega), hL.same _ (by omega) hd]
  · intro v hv hw
    have := y1.get v (by show v < s.levels.size; rw [hs.lsize]; exact hv)
    rw [this]
    simp only [levOutU, VMask.allows, Spec.write, Spec.accum, hw, Option.map_none]
    cases hl : s.levels.get v with
    | none => simp
    | some x =>
      obtain ⟨k, hk, -, rfl⟩ := hs.inv.lev_some hl
      rw [← hL.same (k + 1) (by omega) (by omega)]
      simp [hL.u (k + 1) (by omega) (by omega)]

theorem bfsMaskedV2Body_spec {gIx : α → Nat} {G : Lil α} (hG : G.WF) {n : Nat} (hr : G.nrows = n)
    (hc : G.ncols = n) (ht : ∀ u v x, G.get u v = some x → gIx x ≠ 0) {W : WaveTy ω} (hW : W.Fits)
    {L : LevTy γ} (hL : L.Fits n) {S : Nat → Prop} {s : BfsSt γ ω}
    (hs : BfsOK (Edge G.get) S n (W.ofIx 1) L.ofIx s) (hne : 0 < s.wave.nvals) :
    ∃ s', bfsMaskedV2Body gIx G W L s = .ok s' ∧ BfsOK (Edge G.get) S n (W.ofIx 1) L.ofIx s' ∧
      n - Vec.count n s'.levels.get < n - Vec.count n s.levels.get := by
  obtain ⟨lev, e1, y1⟩ := C20_assign_const_vector_partial (o := levOutV2 L W s.levels s.wave)
    (keep := id) (x := s.depth + 1) (ix := .all) ⟨hs.lwf, maskOK hs.wwf⟩
    ⟨maskFits (by show s.wave.size = s.levels.size; rw [hs.lsize, hs.wsize]), Nat.le_refl _⟩
    trivial trivial
  have hls : lev.size = n := y1.size.trans hs.lsize
  obtain ⟨wave, e2, w1, w2, w3, w4, w5⟩ := wave_next hG hr hc ht hW (truthy := L.truthy) hs.wwf
    hs.wsize (fun u x h => (hs.inv.wave_some h).2) y1.wf hls
  have hd : s.depth + 1 ≤ n := hs.depth_lt hne
  refine ⟨{ depth := s.depth + 1, wave := wave, levels := lev },
    by simp only [bfsMaskedV2Body, e1, e2, exec_done, prog_bind_ok], ?_⟩
  refine hs.round hne hL.truthy y1.wf hls ?_ ?_ w1 w2 w3 w4 w5 hG hc
  · intro v hv hw hl
    have := y1.get v (by show v < s.levels.size; rw [hs.lsize]; exact hv)
    rw [this]
    simp [levOutV2, VMask.allows, Spec.write, Spec.accum, hw, Spec.allows, hW.truthy, Spec.assignAt,
      Spec.selected, Spec.posOf, Idx.sel, hs.lsize, hv]
  · intro v hv hw
    have := y1.get v (by show v < s.levels.size; rw [hs.lsize]; exact hv)
    rw [this]
    simp [levOutV2, VMask.allows, Spec.write, hw, Spec.allows]

/-- **C32**, `bfs_level_masked(graph, wavefront, levels)`: the sources are the stored
elements of the wavefront, all of them 1. -/
theorem C32_bfs_level_masked (gIx : α → Nat) (G : Lil α) (W : WaveTy ω) (wave : BVec ω) (L : LevTy γ)
    (levels : BVec γ) (hG : G.WF) (hsq : G.nrows = G.ncols)
    (ht : ∀ u v x, G.get u v = some x → gIx x ≠ 0)
    (hW : W.Fits) (hw : wave.WF) (hws : wave.size = G.nrows)
    (hw1 : ∀ v x, wave.get v = some x → x = W.ofIx 1)
    (hl : levels.WF) (hls : levels.size = G.nrows) (hle : ∀ v, levels.get v = none)
    (hL : L.Fits G.nrows) (hn : G.nrows < 2 ^ 32) (fuel : Nat) (hf : G.nrows ≤ fuel) :
    ∃ levels', bfsLevelMasked fuel gIx G W wave L levels = .ok levels' ∧
      levels'.WF ∧ levels'.size = G.nrows ∧
      (∀ v d, HopDist (Edge G.get) (fun s => wave.get s ≠ none) v d →
        levels'.get v = some (L.ofIx (d + 1))) ∧
      (∀ v, ¬ Reachable (Edge G.get) (fun s => wave.get s ≠ none) v → levels'.get v = none) := by
  obtain ⟨s', e, r1, r2, r3⟩ := bfs_loop (G := G) (S := fun s => wave.get s ≠ none) (one := W.ofIx 1)
    (mk := L.ofIx) (body := bfsMaskedBody gIx G W L)
    (fun s hs hne => bfsMaskedBody_spec hG rfl hsq.symm ht hW hL hn hs hne)
    (bfs_start hw hws hl hls hle (start_in hw1) (fun v h => Classical.not_not.1 h)) hf
  refine ⟨s'.levels, ?_, r1, r2, r3.reached, r3.unreached⟩
  simp only [bfsLevelMasked, e, prog_bind_ok, hws, hsq, ne_eq, not_true_eq_false, or_self, if_false]

/-- **C32**, `bfs_level_masked_v2(graph, wavefront, levels)`. -/
theorem C32_bfs_level_masked_v2 (gIx : α → Nat) (G : Lil α) (W : WaveTy ω) (wave : BVec ω)
    (L : LevTy γ) (levels : BVec γ) (hG : G.WF) (hsq : G.nrows = G.ncols)
    (ht : ∀ u v x, G.get u v = some x → gIx x ≠ 0)
    (hW : W.Fits) (hw : wave.WF) (hws : wave.size = G.nrows)
    (hw1 : ∀ v x, wave.get v = some x → x = W.ofIx 1)
    (hl : levels.WF) (hls : levels.size = G.nrows) (hle : ∀ v, levels.get v = none)
    (hL : L.Fits G.nrows) (fuel : Nat) (hf : G.nrows ≤ fuel) :
    ∃ levels', bfsLevelMaskedV2 fuel gIx G W wave L levels = .ok levels' ∧
      levels'.WF ∧ levels'.size = G.nrows ∧
      (∀ v d, HopDist (Edge G.get) (fun s => wave.get s ≠ none) v d →
        levels'.get v = some (L.ofIx (d + 1))) ∧
      (∀ v, ¬ Reachable (Edge G.get) (fun s => wave.get s ≠ none) v → levels'.get v = none) := by
  obtain ⟨s', e, r1, r2, r3⟩ := bfs_loop (G := G) (S := fun s => wave.get s ≠ none) (one := W.ofIx 1)
    (mk := L.ofIx) (body := bfsMaskedV2Body gIx G W L)
    (fun s hs hne => bfsMaskedV2Body_spec hG rfl hsq.symm ht hW hL hs hne)
    (bfs_start hw hws hl hls hle (start_in hw1) (fun v h => Classical.not_not.1 h)) hf
  refine ⟨s'.levels, ?_, r1, r2, r3.reached, r3.unreached⟩
  simp only [bfsLevelMaskedV2, e, prog_bind_ok, hws, hsq, ne_eq, not_true_eq_false, or_self, if_false]

/-! Concrete case: vertices 0 → 1 → 2, 0 → 2, and 3 → 0, which is not reachable. -/

namespace Ex

def bG : Lil Int :=
  { nrows := 4, ncols := 4, nvals := 4, rows := [[(1, 1), (2, 1)], [(2, 1)], [], [(0, 1)]] }

theorem bG_wf : bG.WF := Lil.wf_chk (by decide)

def bLev : BVec Int := { size := 4, nvals := 0, vals := [9, 9, 9, 9], bitmap := [false, false, false, false] }

theorem bLev_wf : bLev.WF := ⟨rfl, rfl, rfl⟩

def bWave : BVec Int := { size := 4, nvals := 2, vals := [1, 5, 5, 1], bitmap := [true, false, false, true] }

theorem bWave_wf : bWave.WF := ⟨rfl, rfl, rfl⟩

/-- A wavefront of `int`. -/
def bW : WaveTy Int := { toIx := fun x => (ITy.conv .u64 x).toNat, ofIx := fun k => k, truthy := isTrue }

end Ex

example : Ex.bG.WF ∧ Ex.bG.nrows = Ex.bG.ncols ∧ Ex.bLev.WF ∧ (ITy.i32.lev).Fits 4 ∧
    bfsLevel 4 isTrue Ex.bG 0 ITy.i32.lev Ex.bLev =
      .ok { size := 4, nvals := 3, vals := [1, 2, 2, 9], bitmap := [true, true, true, false] } :=
  ⟨Ex.bG_wf, rfl, Ex.bLev_wf, ITy.lev_fits _ _ (by decide) (by decide), by decide +kernel⟩

example : Ex.bWave.WF ∧ Ex.bW.Fits ∧
    bfsLevelMasked 4 (fun x => (ITy.conv .u64 x).toNat) Ex.bG Ex.bW Ex.bWave ITy.i32.lev Ex.bLev =
      .ok { size := 4, nvals := 4, vals := [1, 2, 2, 1], bitmap := [true, true, true, true] } ∧
    bfsLevelMaskedV2 4 (fun x => (ITy.conv .u64 x).toNat) Ex.bG Ex.bW Ex.bWave ITy.i32.lev Ex.bLev =
      .ok { size := 4, nvals := 4, vals := [1, 2, 2, 1], bitmap := [true, true, true, true] } :=
  ⟨Ex.bWave_wf, ⟨by decide, by decide⟩, by decide +kernel, by decide +kernel⟩

namespace Ex

def fG : Lil Int := { nrows := 2, ncols := 2, nvals := 2, rows := [[(1, 0)], [(1, 1)]] }

def fL : BVec Int := { size := 2, nvals := 0, vals := [0, 0], bitmap := [false, false] }

/-- The states in which the search below is caught. -/
structure Caught (s : BfsSt Int Bool) : Prop where
  wwf : s.wave.WF
  wsize : s.wave.size = 2
  lwf : s.levels.WF
  lsize : s.levels.size = 2
  wave : s.wave.get 1 = some false
  lev : s.levels.get 1 = none ∨ s.levels.get 1 = some 0

theorem caught_step {s : BfsSt Int Bool} (hs : Caught s) :
    ∃ s', bfsLevelBody isTrue fG ITy.i32.lev s = .ok s' ∧ Caught s' := by
  have hG : fG.WF := Lil.wf_chk (by decide)
  obtain ⟨lev, e1, y1⟩ := C15_apply_vector (o := levOut ITy.i32.lev s.levels)
    (f := fun b : Bool => (s.depth + 1) * b.toNat) (u := s.wave) ⟨hs.lwf, noMaskOK⟩ hs.wwf
    ⟨noMaskFits, by show s.levels.size = s.wave.size; rw [hs.lsize, hs.wsize]⟩
  have hls : lev.size = 2 := y1.size.trans hs.lsize
  obtain ⟨wave, e2, y2⟩ := C12_mxv_transposed_actual (o := waveOut id ITy.i32.lev.truthy s.wave lev)
    (sr := ⟨fun x y => x || y, fun a b => isTrue a && b, fun b a => b && isTrue a⟩)
    (u := s.wave) (A := fG) ⟨hs.wwf, maskOK y1.wf⟩ hs.wwf hG
    ⟨maskFits (by show lev.size = s.wave.size; rw [hls, hs.wsize]), hs.wsize, hs.wsize⟩
  have hl : lev.get 1 = some 0 := by
    have := y1.get 1 (by show 1 < s.levels.size; rw [hs.lsize]; decide)
    rw [this]
    rcases hs.lev with h | h <;>
      simp [levOut, VMask.allows, Spec.write, Spec.accum, hs.wave, h, ITy.lev] <;> decide
  refine ⟨{ depth := s.depth + 1, wave := wave, levels := lev },
    by simp only [bfsLevelBody, e1, e2, exec_done, prog_bind_ok],
    y2.wf, y2.size.trans hs.wsize, y1.wf, hls, ?_, .inr hl⟩
  have := y2.get 1 (by show 1 < s.wave.size; rw [hs.wsize]; decide)
  show wave.get 1 = some false
  rw [this]
  have h0 : fG.get 0 1 = some 0 := by decide
  have h1 : fG.get 1 1 = some 1 := by decide
  simp only [waveOut, VMask.allows, Spec.write, Spec.accum, Spec.allows, hl, Spec.vxm, hs.wsize,
    List.range, List.range.loop, List.map, h0, h1, hs.wave]
  cases hw : s.wave.get 0 <;> simp [both, Spec.osum, ITy.lev, isTrue]

end Ex

/-- Why the stored edges have to be true: with a stored `false` edge 0 → 1 and a true
loop 1 → 1, `bfs_level` from 0 runs forever (vertex 1 gets level 0 in every round). -/
theorem C32_false_edge_forever :
    Ex.fG.WF ∧ Ex.fL.WF ∧ (∀ v, Ex.fL.get v = none) ∧
      ∀ fuel, bfsLevel fuel isTrue Ex.fG 0 ITy.i32.lev Ex.fL = .error .running := by
  refine ⟨Lil.wf_chk (by decide), ⟨rfl, rfl, rfl⟩, ?_, ?_⟩
  · intro v
    match v with
    | 0 => rfl
    | 1 => rfl
    | v + 2 => rfl
  · intro fuel
    have h := loop_forever (c := fun s : BfsSt Int Bool => decide (0 < s.wave.nvals))
      (b := bfsLevelBody isTrue Ex.fG ITy.i32.lev)
      (fun s => s = ⟨0, ⟨2, 1, [true, false], [true, false]⟩, Ex.fL⟩ ∨ Ex.Caught s)
      (by
        rintro s (rfl | hs)
        · exact ⟨rfl, ⟨1, ⟨2, 1, [true, false], [false, true]⟩, ⟨2, 1, [1, 0], [true, false]⟩⟩,
            by decide +kernel, .inr ⟨⟨rfl, rfl, rfl⟩, rfl, ⟨rfl, rfl, rfl⟩, rfl, rfl, .inl rfl⟩⟩
        · refine ⟨?_, ?_⟩
          · have := Nat.lt_of_lt_of_le (count_lt (n := 2) (k := 1) (f := fun _ => (none : Option Nat))
              (g := s.wave.get) (fun _ _ h => by cases h) (by decide) rfl (by rw [hs.wave]; rfl))
              (Nat.le_refl _)
            rw [← hs.wsize, ← hs.wwf.nvals_eq] at this
            exact decide_eq_true (by omega)
          · obtain ⟨s', e, h⟩ := Ex.caught_step hs
            exact ⟨s', e, .inr h⟩)
      fuel _ (.inl rfl)
    have e : method (BVec.setElement ⟨2, 0, [false, false], [false, false]⟩ 0 true) =
      .ok ⟨2, 1, [true, false], [true, false]⟩ := by decide
    simp only [bfsLevel, show BVec.new Ex.fG.nrows = (.ok ⟨2, 0, [false, false], [false, false]⟩ :
      Except Err (BVec Bool)) by decide, lift_ok, prog_bind_ok, e, h, prog_bind_error]

/-! ### C33 -/

/-- The state of a parent BFS after `d` rounds, pointwise. -/
structure ParInv (E : Nat → Nat → Prop) (src n d : Nat) (wave par : Nat → Option Nat) : Prop where
  inW : ∀ v, HopDist E (· = src) v d → wave v ≠ none
  outW : ∀ v, ¬ HopDist E (· = src) v d → wave v = none
  root : par src = some src
  inP : ∀ v k, k < d → HopDist E (· = src) v (k + 1) →
    ∃ p, par v = some p ∧ IsParent E (· = src) v p
  outP : ∀ v, (∀ k, k ≤ d → ¬ HopDist E (· = src) v k) → par v = none

theorem ParInv.par_ne {E : Nat → Nat → Prop} {src n d : Nat} {wave par : Nat → Option Nat}
    (h : ParInv E src n d wave par) {v k : Nat} (hk : k ≤ d) (hd : HopDist E (· = src) v k) :
    par v ≠ none := by
  cases k with
  | zero =>
    obtain rfl := hopDist_zero.1 hd
    rw [h.root]; simp
  | succ k =>
    obtain ⟨p, hp, -⟩ := h.inP v k (by omega) hd
    rw [hp]; simp

/-- One round of the parent BFS. -/
theorem ParInv.step {E : Nat → Nat → Prop} {src n d : Nat} {wave par wave' par' : Nat → Option Nat}
    (h : ParInv E src n d wave par)
    (h1 : ∀ v, par v ≠ none → wave' v = none)
    (h2 : ∀ v, par v = none → (∀ u, wave u ≠ none → ¬ E u v) → wave' v = none)
    (h3 : ∀ v u, par v = none → wave u ≠ none → E u v →
      ∃ p, wave' v = some p ∧ wave p ≠ none ∧ E p v ∧ ∀ u, wave u ≠ none → E u v → p ≤ u)
    (h4 : ∀ v, wave' v = none → par' v = par v)
    (h5 : ∀ v x, wave' v = some x → par v = none → par' v = some x) :
    ParInv E src n (d + 1) wave' par' := by
  have hw : ∀ u, wave u ≠ none ↔ HopDist E (· = src) u d := by
    intro u
    constructor
    · intro hu
      by_cases hd : HopDist E (· = src) u d
      · exact hd
      · exact absurd (h.outW u hd) hu
    · exact h.inW u
  have hnew : ∀ v, HopDist E (· = src) v (d + 1) →
      par v = none ∧ ∃ p, wave' v = some p ∧ IsParent E (· = src) v p := by
    intro v hv
    have hn : par v = none := by
      refine h.outP v ?_
      intro k hk hd
      have := hv.unique hd
      omega
    obtain ⟨u, hu, e⟩ := hv.pred
    obtain ⟨p, p1, p2, p3, p4⟩ := h3 v u hn ((hw u).2 hu) e
    exact ⟨hn, p, p1, d, hv, (hw p).1 p2, p3, fun u hu => p4 u ((hw u).2 hu)⟩
  refine ⟨?_, ?_, ?_, ?_, ?_⟩
  · intro v hv
    obtain ⟨-, p, hp, -⟩ := hnew v hv
    rw [hp]; simp
  · intro v hv
    by_cases hn : par v = none
    · refine h2 v hn ?_
      intro u hu e
      apply hv
      rw [hopDist_succ]
      refine ⟨⟨u, (hw u).1 hu, e⟩, ?_⟩
      intro k hk hd
      exact h.par_ne hk hd hn
    · exact h1 v hn
  · rw [h4 src (h1 src (by rw [h.root]; simp)), h.root]
  · intro v k hk hd
    rcases Nat.lt_or_ge k d with h' | h'
    · obtain ⟨p, hp, hq⟩ := h.inP v k h' hd
      refine ⟨p, ?_, hq⟩
      rw [h4 v (h1 v (by rw [hp]; simp)), hp]
    · have : k = d := by omega
      subst this
      obtain ⟨hn, p, hp, hq⟩ := hnew v hd
      exact ⟨p, h5 v p hp hn, hq⟩
  · intro v hv
    have hn : par v = none := h.outP v (fun k hk => hv k (by omega))
    rw [h4 v, hn]
    refine h2 v hn ?_
    intro u hu e
    obtain ⟨j, hj, hd⟩ := Walk.dist (E := E) (S := (· = src)) (v := v) (k := d + 1) ⟨u, ((hw u).1 hu).1, e⟩
    exact hv j hj hd

/-- The consistent states of a parent BFS after `d` rounds. -/
structure ParOK (E : Nat → Nat → Prop) (src n : Nat) (s : ParSt) : Prop where
  wwf : s.wave.WF
  wsize : s.wave.size = n
  pwf : s.parents.WF
  psize : s.parents.size = n
  inv : ∃ d, ParInv E src n d s.wave.get s.parents.get
  waveIn : ∀ v, s.wave.get v ≠ none → s.parents.get v ≠ none

theorem indexRamp_spec {n : Nat} (hn : n ≠ 0) :
    ∃ r, indexRamp n = .ok r ∧ r.WF ∧ r.size = n ∧ ∀ i, i < n → r.get i = some i := by
  obtain ⟨r0, e0, h1, h2, h3⟩ := BVec.new_spec (α := Nat) hn
  obtain ⟨r, e, a, b, c⟩ := forP_inv (b := fun i (r : BVec Nat) => lift (method (r.setElement i i)))
    (fun k r => r.WF ∧ r.size = n ∧ ∀ i, i < k → r.get i = some i) n r0
    ⟨h1, h2, fun i hi => absurd hi (Nat.not_lt_zero _)⟩
    (by
      rintro i r hi ⟨a, b, c⟩
      obtain ⟨r', e, a', b', c'⟩ := BVec.setElement_spec a (i := i) (by omega) i
      refine ⟨r', by simp only [e, method_ok, lift_ok], a', b'.trans b, ?_⟩
      intro j hj
      rw [c']
      split
      · rename_i h; rw [h]
      · exact c j (by omega))
  refine ⟨r, ?_, a, b, c⟩
  simp only [indexRamp, e0, lift_ok, prog_bind_ok, e]

theorem bfsBody_spec {G : Lil α} (hG : G.WF) {n : Nat} (hr : G.nrows = n) (hc : G.ncols = n)
    {ramp : BVec Nat} (r1 : ramp.WF) (r2 : ramp.size = n) (r3 : ∀ i, i < n → ramp.get i = some i)
    {src : Nat} {s : ParSt} (hs : ParOK (Edge G.get) src n s) :
    ∃ s', bfsBody G ramp s = .ok s' ∧ ParOK (Edge G.get) src n s' ∧
      (0 < s'.wave.nvals → n - Vec.count n s'.parents.get < n - Vec.count n s.parents.get) := by
  obtain ⟨w1, e1, y1⟩ := C14_eWiseMult_vector (o := vPlain id s.wave) (f := ewFirst) (u := ramp)
    (v := s.wave) (vPlain_wf hs.wwf) r1 hs.wwf
    ⟨noMaskFits, by show s.wave.size = ramp.size; rw [r2, hs.wsize], by rw [r2, hs.wsize]⟩
  obtain ⟨w1a, w1b, w1c⟩ := plain_yields y1
  rw [hs.wsize] at w1b w1c
  have hw1 : ∀ v, w1.get v = if s.wave.get v = none then none else some v := by
    intro v
    rcases Nat.lt_or_ge v n with hv | hv
    · rw [w1c v hv, r3 v hv]
      cases s.wave.get v <;> simp [both, ewFirst]
    · rw [w1a.get_none (by omega), if_pos (hs.wwf.get_none (by rw [hs.wsize]; exact hv))]
  obtain ⟨w2, e2, y2⟩ := C11_vxm (o := waveOutS w1 s.parents) (sr := minFirst) (u := w1)
    (A := .plain G) ⟨w1a, maskOK hs.pwf⟩ w1a hG
    ⟨maskFits (by show s.parents.size = w1.size; rw [hs.psize, w1b]),
      by show w1.size = G.ncols; rw [w1b, hc], by show w1.size = G.nrows; rw [w1b, hr]⟩
  have w2s : w2.size = n := y2.size.trans w1b
  obtain ⟨par, e3, y3⟩ := C15_apply_vector (o := parOut s.parents) (f := id) (u := w2)
    ⟨hs.pwf, noMaskOK⟩ y2.wf
    ⟨noMaskFits, by show s.parents.size = w2.size; rw [hs.psize, w2s]⟩
  have ps : par.size = n := y3.size.trans hs.psize
  -- the new wavefront
  have hT : ∀ v, (∀ u, s.wave.get u ≠ none → ¬ Edge G.get u v) →
      Spec.vxm w1.size (minFirst (α := α)).add (minFirst (α := α)).mult w1.get G.get v = none := by
    intro v hv
    refine osum_range_none.2 ?_
    intro k _
    rw [hw1]
    by_cases hk : s.wave.get k = none
    · rw [if_pos hk]; rfl
    · rw [if_neg hk]
      have := hv k hk
      rw [Edge] at this
      cases hg : G.get k v with
      | none => rfl
      | some x => rw [hg] at this; exact absurd rfl this
  have hT2 : ∀ v u, s.wave.get u ≠ none → Edge G.get u v →
      ∃ p, Spec.vxm w1.size (minFirst (α := α)).add (minFirst (α := α)).mult w1.get G.get v = some p ∧
        s.wave.get p ≠ none ∧ Edge G.get p v ∧ ∀ u, s.wave.get u ≠ none → Edge G.get u v → p ≤ u := by
    intro v u hu he
    have hval : ∀ k x, both (minFirst (α := α)).mult (w1.get k) (G.get k v) = some x →
        x = k ∧ s.wave.get k ≠ none ∧ Edge G.get k v := by
      intro k x hx
      rw [hw1] at hx
      by_cases hk : s.wave.get k = none
      · rw [if_pos hk] at hx; cases hx
      · rw [if_neg hk] at hx
        cases hg : G.get k v with
        | none => rw [hg] at hx; cases hx
        | some y =>
          rw [hg] at hx
          cases hx
          exact ⟨rfl, hk, by rw [Edge, hg]; rfl⟩
    have hval2 : ∀ k, s.wave.get k ≠ none → Edge G.get k v →
        both (minFirst (α := α)).mult (w1.get k) (G.get k v) = some k := by
      intro k hk he
      obtain ⟨y, hy⟩ := Option.isSome_iff_exists.1 he
      rw [hw1, if_neg hk, hy]
      rfl
    have hlt : ∀ k, s.wave.get k ≠ none → k < w1.size := by
      intro k hk
      rw [w1b, ← hs.wsize]; exact vec_some_lt hs.wwf hk
    cases hsum : Spec.vxm w1.size (minFirst (α := α)).add (minFirst (α := α)).mult w1.get G.get v with
    | none =>
      have := osum_range_none.1 hsum u (hlt u hu)
      rw [hval2 u hu he] at this
      cases this
    | some p =>
      obtain ⟨⟨k, hk, hx⟩, hmin⟩ := osum_best (le := (· ≤ ·)) (fun _ => Nat.le_refl _)
        (fun _ _ _ => Nat.le_trans) (by
          intro x y
          show ((if x < y then x else y) = x ∨ (if x < y then x else y) = y) ∧
            (if x < y then x else y) ≤ x ∧ (if x < y then x else y) ≤ y
          split
          · exact ⟨.inl rfl, Nat.le_refl _, by omega⟩
          · exact ⟨.inr rfl, by omega, Nat.le_refl _⟩) hsum
      obtain ⟨rfl, h1, h2⟩ := hval k p hx
      exact ⟨p, rfl, h1, h2, fun u hu he => hmin u u (hlt u hu) (hval2 u hu he)⟩
  have hw2 : ∀ v, v < n → w2.get v = if s.parents.get v = none then
      Spec.vxm w1.size (minFirst (α := α)).add (minFirst (α := α)).mult w1.get G.get v else none := by
    intro v hv
    have := y2.get v (by show v < w1.size; rw [w1b]; exact hv)
    rw [this]
    cases h : s.parents.get v with
    | none => simp [waveOutS, VMask.allows, Spec.write, Spec.accum, Spec.allows, Operand.get, h]
    | some x => simp [waveOutS, VMask.allows, Spec.write, Spec.accum, Spec.allows, h]
  have hp : ∀ v, v < n → par.get v = match s.parents.get v, w2.get v with
      | some c, some t => some (c + t)
      | some c, none => some c
      | none, y => y := by
    intro v hv
    have := y3.get v (by show v < s.parents.size; rw [hs.psize]; exact hv)
    rw [this]
    simp only [parOut, VMask.allows, Spec.write, Spec.accum, Option.map_id, id]
    cases s.parents.get v <;> cases w2.get v <;> rfl
  have hpin : ∀ v, v < n ∨ (s.parents.get v = none ∧ w2.get v = none ∧ par.get v = none) := by
    intro v
    rcases Nat.lt_or_ge v n with h | h
    · exact .inl h
    · exact .inr ⟨hs.pwf.get_none (by rw [hs.psize]; exact h), y2.wf.get_none (by rw [w2s]; exact h),
        y3.wf.get_none (by rw [ps]; exact h)⟩
  have g1 : ∀ v, s.parents.get v ≠ none → w2.get v = none := by
    intro v hv
    rcases hpin v with h | h
    · rw [hw2 v h, if_neg hv]
    · exact h.2.1
  have g4 : ∀ v, w2.get v = none → par.get v = s.parents.get v := by
    intro v hv
    rcases hpin v with h | h
    · rw [hp v h, hv]; cases s.parents.get v <;> rfl
    · rw [h.1, h.2.2]
  have g5 : ∀ v x, w2.get v = some x → s.parents.get v = none → par.get v = some x := by
    intro v x hv hn
    rcases hpin v with h | h
    · rw [hp v h, hv, hn]
    · rw [h.2.1] at hv; cases hv
  refine ⟨{ wave := w2, parents := par },
    by simp only [bfsBody, e1, e2, e3, exec_done, prog_bind_ok], ⟨y2.wf, w2s, y3.wf, ps, ?_, ?_⟩, ?_⟩
  · obtain ⟨d, hi⟩ := hs.inv
    refine ⟨d + 1, hi.step g1 ?_ ?_ g4 g5⟩
    · intro v hn hv
      rcases hpin v with h | h
      · show w2.get v = none
        rw [hw2 v h, if_pos hn, hT v hv]
      · exact h.2.1
    · intro v u hn hu he
      obtain ⟨p, hp⟩ := hT2 v u hu he
      refine ⟨p, ?_, hp.2⟩
      show w2.get v = some p
      rw [hw2 v (by rw [← hc]; exact (edge_lt hG he).2), if_pos hn, hp.1]
  · intro v hv
    show par.get v ≠ none
    have hv : w2.get v ≠ none := hv
    cases hx : w2.get v with
    | none => exact absurd hx hv
    | some x =>
      by_cases hn : s.parents.get v = none
      · rw [g5 v x hx hn]; simp
      · exact absurd (g1 v hn) hv
  · intro hne
    obtain ⟨i, x, hi, hx⟩ := nonempty_of_nvals y2.wf hne
    have hi : i < n := by rw [← w2s]; exact hi
    have hn : s.parents.get i = none := by
      by_cases hn : s.parents.get i = none
      · exact hn
      · rw [show w2.get i = none from g1 i hn] at hx; cases hx
    have h1 := count_lt (n := n) (f := s.parents.get) (g := par.get) (k := i) (by
      intro j _ hj
      rw [g4 j (g1 j (by intro h; rw [h] at hj; cases hj))]; exact hj) hi hn
      (by rw [g5 i x hx hn]; rfl)
    have h2 := count_le n par.get
    show n - Vec.count n par.get < n - Vec.count n s.parents.get
    omega

/-- **C33**, `bfs(graph, source, parent_list)` on a square graph: it returns (after at
most as many rounds as there are vertices); the source is its own parent; every other
reachable vertex has as parent the smallest-numbered in-neighbour among the vertices one
hop closer; unreachable vertices have none. -/
theorem C33_bfs_parents (G : Lil α) (source : Nat) (parents : BVec Nat) (hG : G.WF)
    (hsq : G.nrows = G.ncols) (hsrc : source < G.nrows) (hp : parents.WF)
    (hps : parents.size = G.nrows) (fuel : Nat) (hf : G.nrows ≤ fuel) :
    ∃ parents', bfsParents fuel G source parents = .ok parents' ∧ parents'.WF ∧
      parents'.size = G.nrows ∧ parents'.get source = some source ∧
      (∀ v, Reachable (Edge G.get) (· = source) v → v ≠ source →
        ∃ p, parents'.get v = some p ∧ IsParent (Edge G.get) (· = source) v p) ∧
      (∀ v, ¬ Reachable (Edge G.get) (· = source) v → parents'.get v = none) := by
  obtain ⟨ramp, er, r1, r2, r3⟩ := indexRamp_spec (n := G.nrows) (by omega)
  obtain ⟨w0, e0, w1, w2, w3⟩ := BVec.new_spec (α := Nat) (n := G.nrows) (by omega)
  obtain ⟨w, e1, v1, v2, v3⟩ := BVec.setElement_spec w1 (i := source) (by omega) 1
  obtain ⟨p, e2, p1, p2, p3⟩ := BVec.setElement_spec (BVec.clear_wf hp.vlen) (i := source)
    (by show source < parents.size; omega) source
  have hp2 : p.size = G.nrows := p2.trans hps
  have hw2 : w.size = G.nrows := v2.trans w2
  have hstart : ParOK (Edge G.get) source G.nrows { wave := w, parents := p } := by
    refine ⟨v1, hw2, p1, hp2, ⟨0, ?_, ?_, ?_, ?_, ?_⟩, ?_⟩
    · intro v hv
      show w.get v ≠ none
      rw [v3, if_pos (hopDist_zero.1 hv)]; simp
    · intro v hv
      show w.get v = none
      rw [v3, if_neg (fun h => hv (hopDist_zero.2 h)), w3]
    · show p.get source = some source
      rw [p3, if_pos rfl]
    · intro v k hk; exact absurd hk (Nat.not_lt_zero _)
    · intro v hv
      show p.get v = none
      rw [p3, if_neg (fun h => hv 0 (Nat.le_refl _) (hopDist_zero.2 h)), BVec.get_clear]
    · intro v
      show w.get v ≠ none → p.get v ≠ none
      rw [v3, p3]
      by_cases h : v = source
      · simp [h]
      · simp [h, w3]
  obtain ⟨s', e, h, hc⟩ := loop_rule (c := fun s => decide (0 < s.wave.nvals)) (b := bfsBody G ramp)
    (ParOK (Edge G.get) source G.nrows)
    (fun s => if 0 < s.wave.nvals then G.nrows - Vec.count G.nrows s.parents.get + 1 else 0)
    (by
      intro s hs hc
      have hc : 0 < s.wave.nvals := of_decide_eq_true hc
      obtain ⟨s', e, h1, h2⟩ := bfsBody_spec hG rfl hsq.symm r1 r2 r3 hs
      refine ⟨s', e, h1, ?_⟩
      simp only [hc, if_true]
      split
      · rename_i h; have := h2 h; omega
      · omega) fuel _ hstart (by
      show (if 0 < w.nvals then G.nrows - Vec.count G.nrows p.get + 1 else 0) ≤ fuel
      have := count_lt (n := G.nrows) (f := fun _ => (none : Option Nat)) (g := p.get) (k := source)
        (fun _ _ h => by cases h) hsrc rfl (by rw [p3, if_pos rfl]; rfl)
      split <;> omega)
  obtain ⟨d, hi⟩ := h.inv
  have hnv : s'.wave.nvals = 0 := by
    have := of_decide_eq_false hc
    omega
  have hnone := none_of_nvals h.wwf hnv
  have hnd : ∀ v, ¬ HopDist (Edge G.get) (· = source) v d := fun v hv => hi.inW v hv (hnone v)
  refine ⟨s'.parents, ?_, h.pwf, h.psize, hi.root, ?_, ?_⟩
  · simp only [bfsParents, er, e0, e1, e2, e, lift_ok, method_ok, prog_bind_ok]
  · rintro v ⟨k, hk⟩ hv
    obtain ⟨j, -, hd⟩ := Walk.dist hk
    cases j with
    | zero => exact absurd (hopDist_zero.1 hd) hv
    | succ j =>
      rcases Nat.lt_or_ge j d with h' | h'
      · exact hi.inP v j h' hd
      · exact absurd hd (hopDist_none hnd (by omega))
  · intro v hv
    exact hi.outP v (fun k _ hd => hv ⟨k, hd.1⟩)

example : Ex.bG.WF ∧ bfsParents 4 Ex.bG 3
    { size := 4, nvals := 1, vals := [7, 7, 7, 7], bitmap := [false, true, false, false] } =
      .ok { size := 4, nvals := 4, vals := [3, 0, 0, 3], bitmap := [true, true, true, true] } :=
  ⟨Ex.bG_wf, by decide +kernel⟩

end GBTL
