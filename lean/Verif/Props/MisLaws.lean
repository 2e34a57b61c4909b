import Verif.Props.Mis
import Verif.Lemmas.Renumber
/-
C40, exactly which set is returned and when; C94: laws of independent sets.
-/
namespace GBTL
open Spec

variable {α δ ρ σ : Type}

/-- A loop, exactly. -/
theorem loop_exact {c : σ → Bool} {b : σ → Prog σ} (I : Nat → σ → Prop)
    (hb : ∀ k s, I k s → c s = true → ∃ s', b s = .ok s' ∧ I (k + 1) s') :
    ∀ fuel k s, I k s →
      (∃ j s', j ≤ fuel ∧ loop c b fuel s = .ok s' ∧ I (k + j) s' ∧ c s' = false ∧ ∀ i, i < j → ∃ q, I (k + i) q ∧ c q = true) ∨
      (loop c b fuel s = .error .running ∧ ∀ i, i ≤ fuel → ∃ q, I (k + i) q ∧ c q = true) := by
  intro fuel
  induction fuel with
  | zero =>
    intro k s h
    cases hc : c s with
    | false => exact .inl ⟨0, s, by omega, by simp [loop, hc], h, hc, fun i hi => by omega⟩
    | true => exact .inr ⟨by simp [loop, hc], fun i hi => ⟨s, by rw [show k + i = k by omega]; exact h, hc⟩⟩
  | succ fuel ih =>
    intro k s h
    cases hc : c s with
    | false => exact .inl ⟨0, s, by omega, by simp [loop, hc], h, hc, fun i hi => by omega⟩
    | true =>
      obtain ⟨s', e, h'⟩ := hb k s h hc
      have hl : loop c b (fuel + 1) s = loop c b fuel s' := by simp [loop, hc, e]
      rw [hl]
      have hq : ∀ {m}, (∀ i, i < m → ∃ q, I (k + 1 + i) q ∧ c q = true) → ∀ i, i < m + 1 → ∃ q, I (k + i) q ∧ c q = true := by
        intro m hm i hi
        cases i with
        | zero => exact ⟨s, h, hc⟩
        | succ i =>
          obtain ⟨q, h1, h2⟩ := hm i (by omega)
          exact ⟨q, by rw [show k + (i + 1) = k + 1 + i by omega]; exact h1, h2⟩
      rcases ih (k + 1) s' h' with ⟨j, r, h1, h2, h3, h4, h5⟩ | ⟨h1, h2⟩
      · exact .inl ⟨j + 1, r, by omega, h2, by rw [show k + (j + 1) = k + 1 + j by omega]; exact h3, h4, hq h5⟩
      · exact .inr ⟨h1, fun i hi => hq (m := fuel + 1) (fun i hi => h2 i (by omega)) i (by omega)⟩

/-- The order of the numbers drawn. -/
def lessOf (R : MisTy α δ ρ) (draw : Nat → Nat → ρ) (r u v : Nat) : Prop := R.lt (draw r u) (draw r v) = true

theorem misLoop_exact [Inhabited ρ] {R : MisTy α δ ρ} (hR : R.Ordered) {G : Lil α} (hG : R.Graph G)
    {n : Nat} (hn : G.nrows = n) {degrees : BVec δ} {draw : Nat → Nat → ρ}
    (hdr : ∀ r v, R.rtrue (draw r v) = true) {s : MisSt ρ} (hs : MisStart R G n degrees s) (fuel : Nat) :
    (∃ k q, k ≤ fuel ∧ misLoop R G degrees draw fuel s = .ok q ∧
      (∀ v, q.iset.get v = some true ↔ luby n (Edge G.get) (lessOf R draw) k v) ∧
      (∀ v, ¬ Free n (Edge G.get) (luby n (Edge G.get) (lessOf R draw) k) v) ∧
      ∀ i, i < k → ∃ v, Free n (Edge G.get) (luby n (Edge G.get) (lessOf R draw) i) v) ∨
    (misLoop R G degrees draw fuel s = .error .running ∧
      ∀ i, i ≤ fuel → ∃ v, Free n (Edge G.get) (luby n (Edge G.get) (lessOf R draw) i) v) := by
  have hset : ∀ {q : MisSt ρ} {k}, MisOK R G degrees n q →
      (∀ v, Flagged q.iset v ↔ luby n (Edge G.get) (lessOf R draw) k v) →
      ∀ v, Flagged q.cand v ↔ Free n (Edge G.get) (luby n (Edge G.get) (lessOf R draw) k) v := by
    intro q k h1 h2 v
    have hS : Flagged q.iset = luby n (Edge G.get) (lessOf R draw) k := funext fun v => propext (h2 v)
    have h3 := h1.inv.cand v
    rw [hS] at h3
    constructor
    · intro hc
      have hv : v < n := by rw [← h1.csize]; exact vec_some_lt h1.cwf (by rw [hc]; simp)
      exact ⟨hv, (h3 hv).1 hc⟩
    · rintro ⟨hv, h⟩
      exact (h3 hv).2 h
  have hfree : ∀ {q : MisSt ρ} {k}, MisOK R G degrees n q →
      (∀ v, Flagged q.iset v ↔ luby n (Edge G.get) (lessOf R draw) k v) →
      (decide (0 < q.cand.nvals) = true ↔ ∃ v, Free n (Edge G.get) (luby n (Edge G.get) (lessOf R draw) k) v) := by
    intro q k h1 h2
    constructor
    · intro h
      obtain ⟨i, x, -, hx⟩ := nonempty_of_nvals h1.cwf (of_decide_eq_true h)
      exact ⟨i, (hset h1 h2 i).1 (by rw [Flagged, hx, h1.ctrue i x hx])⟩
    · rintro ⟨v, hv⟩
      refine decide_eq_true (Nat.pos_of_ne_zero fun h0 => ?_)
      have := (hset h1 h2 v).2 hv
      rw [Flagged, none_of_nvals h1.cwf h0] at this
      cases this
  have := loop_exact (c := fun s : MisSt ρ => decide (0 < s.cand.nvals)) (b := misBody R G degrees draw)
    (fun k q => MisOK R G degrees n q ∧ q.round = k ∧ ∀ v, Flagged q.iset v ↔ luby n (Edge G.get) (lessOf R draw) k v)
    (by
      rintro k q ⟨h1, h2, h3⟩ -
      obtain ⟨q', e, h4, h5, -, h6⟩ := misBody_spec hR hG hn hs.dwf hs.dsize hdr h1
      refine ⟨q', e, h4, by omega, fun v => ?_⟩
      have hc : Flagged q.cand = Free n (Edge G.get) (luby n (Edge G.get) (lessOf R draw) k) := funext fun v => propext (hset h1 h3 v)
      rw [h6, h3, h2, hc]
      exact Iff.rfl) fuel 0 s ⟨hs.ok, hs.first, hs.alone⟩
  simp only [Nat.zero_add] at this
  rcases this with ⟨k, q, h1, h2, ⟨h3, h4, h5⟩, h6, h7⟩ | ⟨h1, h2⟩
  · refine .inl ⟨k, q, h1, h2, h5, fun v hv => ?_, fun i hi => ?_⟩
    · have := (hfree h3 h5).2 ⟨v, hv⟩
      rw [h6] at this; cases this
    · obtain ⟨q', ⟨a1, -, a3⟩, a4⟩ := h7 i hi
      exact (hfree a1 a3).1 a4
  · refine .inr ⟨h1, fun i hi => ?_⟩
    obtain ⟨q', ⟨a1, -, a3⟩, a4⟩ := h2 i hi
    exact (hfree a1 a3).1 a4

/-- **C40** Exactly when `mis` returns and what: it follows Luby's rounds with the numbers
drawn and returns the set of the first round after which no vertex is free; if there is no
such round it runs forever. -/
theorem C40_mis_exact [Inhabited δ] [Inhabited ρ] (R : MisTy α δ ρ) (hR : R.Ordered) (G : Lil α)
    (hG : R.Graph G) (hpos : 0 < G.nrows) (draw : Nat → Nat → ρ)
    (hdr : ∀ r v, R.rtrue (draw r v) = true) (iset : BVec Bool) (hi : iset.WF)
    (his : iset.size = G.nrows) (fuel : Nat) :
    (∃ k set, k ≤ fuel ∧ mis fuel R G draw iset = .ok set ∧
      (∀ v, set.get v = some true ↔ luby G.nrows (Edge G.get) (lessOf R draw) k v) ∧
      (∀ v, ¬ Free G.nrows (Edge G.get) (luby G.nrows (Edge G.get) (lessOf R draw) k) v) ∧
      ∀ i, i < k → ∃ v, Free G.nrows (Edge G.get) (luby G.nrows (Edge G.get) (lessOf R draw) i) v) ∨
    (mis fuel R G draw iset = .error .running ∧
      ∀ i, i ≤ fuel → ∃ v, Free G.nrows (Edge G.get) (luby G.nrows (Edge G.get) (lessOf R draw) i) v) := by
  obtain ⟨degrees, s, hs, he⟩ := mis_start hG hpos hi his draw
  rcases misLoop_exact hR hG rfl hdr hs fuel with ⟨k, q, h1, h2, h3⟩ | ⟨h1, h2⟩
  · exact .inl ⟨k, q.iset, h1, by rw [he, h2]; rfl, h3⟩
  · exact .inr ⟨by rw [he, h1]; rfl, h2⟩

/-- **C40** The same of `mis_appendixB6`. -/
theorem C40_appendixB6_exact [Inhabited δ] [Inhabited ρ] (R : MisTy α δ ρ) (hR : R.Ordered) (G : Lil α)
    (hG : R.Graph G) (hpos : 0 < G.nrows) (draw : Nat → Nat → ρ)
    (hdr : ∀ r v, R.rtrue (draw r v) = true) (iset : BVec Bool) (hi : iset.WF)
    (his : iset.size = G.nrows) (fuel : Nat) :
    (∃ k set, k ≤ fuel ∧ misB6 fuel R G draw iset = .ok set ∧
      (∀ v, set.get v = some true ↔ luby G.nrows (Edge G.get) (lessOf R draw) k v) ∧
      (∀ v, ¬ Free G.nrows (Edge G.get) (luby G.nrows (Edge G.get) (lessOf R draw) k) v) ∧
      ∀ i, i < k → ∃ v, Free G.nrows (Edge G.get) (luby G.nrows (Edge G.get) (lessOf R draw) i) v) ∨
    (misB6 fuel R G draw iset = .error .running ∧
      ∀ i, i ≤ fuel → ∃ v, Free G.nrows (Edge G.get) (luby G.nrows (Edge G.get) (lessOf R draw) i) v) := by
  obtain ⟨degrees, s, hs, he⟩ := misB6_start hG hpos hi his draw
  rcases misLoop_exact hR hG rfl hdr hs fuel with ⟨k, q, h1, h2, h3⟩ | ⟨h1, h2⟩
  · exact .inl ⟨k, q.iset, h1, by rw [he, h2]; rfl, h3⟩
  · exact .inr ⟨by rw [he, h1]; rfl, h2⟩


/-! ### laws -/

/-- `set` is what one of the two functions returned for the graph, with some numbers drawn. -/
def MisReturned [Inhabited δ] [Inhabited ρ] (R : MisTy α δ ρ) (G : Lil α) (set : BVec Bool) : Prop :=
  ∃ draw iset fuel, (∀ r v, R.rtrue (draw r v) = true) ∧ iset.WF ∧ iset.size = G.nrows ∧
    (mis fuel R G draw iset = .ok set ∨ misB6 fuel R G draw iset = .ok set)

theorem MisReturned.spec [Inhabited δ] [Inhabited ρ] {R : MisTy α δ ρ} (hR : R.Ordered) {G : Lil α}
    (hG : R.Graph G) (hpos : 0 < G.nrows) {set : BVec Bool} (h : MisReturned R G set) :
    set.WF ∧ set.size = G.nrows ∧ (∀ v b, set.get v = some b → b = true) ∧
      IsMIS G.nrows (Edge G.get) (fun v => set.get v = some true) := by
  obtain ⟨draw, iset, fuel, h1, h2, h3, h4 | h4⟩ := h
  · exact C40_mis R hR G hG hpos draw h1 iset h2 h3 fuel set h4
  · exact C40_appendixB6 R hR G hG hpos draw h1 iset h2 h3 fuel set h4

theorem count_sumTo {β : Type} (n : Nat) (f : Nat → Option β) : Vec.count n f = sumTo n fun i => ind (f i).isSome := by
  induction n with
  | zero => rfl
  | succ n ih => rw [count_succ, ih, sumTo]; rfl

/-- The facts about a returned set with which one counts. -/
structure MisCount (G : Lil α) (set : BVec Bool) : Prop where
  nv : set.nvals = sumTo G.nrows fun v => ind (set.get v).isSome
  indep : ∀ u v, (set.get u).isSome = true → (set.get v).isSome = true → (G.get u v).isSome = false
  maxi : ∀ v, v < G.nrows → (set.get v).isSome = false → ∃ u, u < G.nrows ∧ (set.get u).isSome = true ∧ (G.get v u).isSome = true
  sym : ∀ u v, (G.get u v).isSome = (G.get v u).isSome

theorem MisReturned.counts [Inhabited δ] [Inhabited ρ] {R : MisTy α δ ρ} (hR : R.Ordered) {G : Lil α}
    (hG : R.Graph G) (hpos : 0 < G.nrows) {set : BVec Bool} (h : MisReturned R G set) : MisCount G set := by
  obtain ⟨h1, h2, h3, h4⟩ := h.spec hR hG hpos
  have hs : ∀ v, (set.get v).isSome = true ↔ set.get v = some true := by
    intro v
    cases hv : set.get v with
    | none => simp
    | some b => simp [h3 v b hv]
  refine ⟨by rw [h1.nvals_eq, h2, count_sumTo], fun u v hu hv => ?_, fun v hv hn => ?_, fun u v => ?_⟩
  · have := h4.independent u v ((hs u).1 hu) ((hs v).1 hv)
    simpa [Edge] using this
  · obtain ⟨u, hu, he⟩ := h4.maximal v hv (fun h => by rw [(hs v).2 h] at hn; cases hn)
    exact ⟨u, h4.within u hu, (hs u).2 hu, he⟩
  · have a := hG.symm u v
    have b := hG.symm v u
    simp only [Edge] at a b
    exact Bool.eq_iff_iff.2 ⟨a, b⟩

theorem sumTo_ones (n : Nat) : sumTo n (fun _ => 1) = n := by
  induction n with
  | zero => rfl
  | succ n ih => rw [sumTo, ih]

/-- **C94** A vertex in the set and its neighbours leave room for no more than the rest: the
size of the set and the degree of any vertex in it make at most the number of vertices. -/
theorem C94_size_upper [Inhabited δ] [Inhabited ρ] (R : MisTy α δ ρ) (hR : R.Ordered) (G : Lil α)
    (hG : R.Graph G) (hpos : 0 < G.nrows) (set : BVec Bool) (h : MisReturned R G set)
    (v : Nat) (hv : set.get v = some true) : set.nvals + Vec.count G.nrows (G.get v) ≤ G.nrows := by
  have hc := h.counts hR hG hpos
  rw [hc.nv, count_sumTo, ← sumTo_add]
  refine Nat.le_trans (sumTo_le (c := 1) fun u _ => ?_) (by omega)
  cases hu : (set.get u).isSome with
  | false => have := ind_le (G.get v u).isSome; simp [ind] at *; omega
  | true => rw [hc.indep v u (by rw [hv]; rfl) hu]; decide

/-- **C94** The set dominates the graph: the vertices in the set and their neighbours are all
the vertices. -/
theorem C94_size_lower [Inhabited δ] [Inhabited ρ] (R : MisTy α δ ρ) (hR : R.Ordered) (G : Lil α)
    (hG : R.Graph G) (hpos : 0 < G.nrows) (set : BVec Bool) (h : MisReturned R G set) :
    G.nrows ≤ ((List.range G.nrows).map fun v =>
      if set.get v = some true then 1 + Vec.count G.nrows (G.get v) else 0).sum := by
  have hc := h.counts hR hG hpos
  obtain ⟨-, -, h3, -⟩ := h.spec hR hG hpos
  rw [sumTo_eq]
  have e1 : (sumTo G.nrows fun u => sumTo G.nrows fun v => ind (set.get v).isSome * (ind (decide (u = v)) + ind (G.get v u).isSome))
      = sumTo G.nrows fun v => if set.get v = some true then 1 + Vec.count G.nrows (G.get v) else 0 := by
    rw [sumTo_comm]
    refine sumTo_congr fun v hv => ?_
    rw [sumTo_mul, sumTo_add, sumTo_one (i := v) hv (fun j _ hj => by simp [ind, hj]), count_sumTo]
    cases hs : set.get v with
    | none => simp [ind]
    | some b => simp [ind, h3 v b hs]
  rw [← e1]
  refine Nat.le_trans (Nat.le_of_eq (sumTo_ones G.nrows).symm) (sumTo_mono fun u hu => ?_)
  cases hs : (set.get u).isSome with
  | true =>
    refine Nat.le_trans ?_ (sumTo_term hu)
    rw [hs]; simp [ind]
  | false =>
    obtain ⟨w, hw, h1, h2⟩ := hc.maxi u hu hs
    refine Nat.le_trans ?_ (sumTo_term hw)
    rw [h1, hc.sym w u, h2]; simp [ind]

/-- **C94** If no vertex has more than `d` neighbours the set has at least one of every `d + 1`
vertices. -/
theorem C94_size_degree [Inhabited δ] [Inhabited ρ] (R : MisTy α δ ρ) (hR : R.Ordered) (G : Lil α)
    (hG : R.Graph G) (hpos : 0 < G.nrows) (set : BVec Bool) (h : MisReturned R G set)
    (d : Nat) (hd : ∀ v, v < G.nrows → Vec.count G.nrows (G.get v) ≤ d) : G.nrows ≤ (d + 1) * set.nvals := by
  have hc := h.counts hR hG hpos
  refine Nat.le_trans (C94_size_lower R hR G hG hpos set h) ?_
  rw [sumTo_eq, hc.nv, ← sumTo_mul]
  refine sumTo_mono fun v hv => ?_
  have := hd v hv
  cases hs : set.get v with
  | none => simp
  | some b => by_cases hb : b = true <;> simp [ind, hb] <;> omega

/-- **C94** Two runs, whatever the numbers drawn: neither set is more than `d` times as large
as the other if no vertex has more than `d` neighbours, `d` not being 0. -/
theorem C94_two_runs [Inhabited δ] [Inhabited ρ] (R : MisTy α δ ρ) (hR : R.Ordered) (G : Lil α)
    (hG : R.Graph G) (hpos : 0 < G.nrows) (set set' : BVec Bool) (h : MisReturned R G set)
    (h' : MisReturned R G set') (d : Nat) (h1 : 1 ≤ d)
    (hd : ∀ v, v < G.nrows → Vec.count G.nrows (G.get v) ≤ d) : set.nvals ≤ d * set'.nvals := by
  have hc := h.counts hR hG hpos
  have hc' := h'.counts hR hG hpos
  rw [hc.nv, hc'.nv, ← sumTo_mul]
  refine Nat.le_trans (sumTo_mono (g := fun v => sumTo G.nrows fun w =>
    ind (set'.get w).isSome * (ind (set.get v).isSome * (ind (decide (v = w)) + ind (G.get w v).isSome))) fun v hv => ?_) ?_
  · cases hs : (set.get v).isSome with
    | false => simp [ind]
    | true =>
      cases hs' : (set'.get v).isSome with
      | true =>
        refine Nat.le_trans ?_ (sumTo_term hv)
        rw [hs']; simp [ind]
      | false =>
        obtain ⟨w, hw, a1, a2⟩ := hc'.maxi v hv hs'
        refine Nat.le_trans ?_ (sumTo_term hw)
        rw [a1, hc.sym w v, a2]; simp [ind]
  · rw [sumTo_comm]
    refine sumTo_mono fun w hw => ?_
    rw [sumTo_mul, Nat.mul_comm d]
    refine Nat.mul_le_mul_left _ ?_
    cases hs : (set.get w).isSome with
    | true =>
      have : (sumTo G.nrows fun v => ind (set.get v).isSome * (ind (decide (v = w)) + ind (G.get w v).isSome)) = 1 := by
        rw [sumTo_one hw]
        · rw [hs, hc.indep w w hs hs]; simp [ind]
        · intro v _ hv
          cases hs' : (set.get v).isSome with
          | false => simp [ind]
          | true => rw [hc.indep w v hs hs']; simp [ind, hv]
      omega
    | false =>
      have := hd w hw
      rw [count_sumTo] at this
      refine Nat.le_trans (sumTo_mono fun v _ => ?_) this
      by_cases hv : v = w
      · rw [hv, hs]; simp [ind]
      · have := ind_le (set.get v).isSome
        simp only [hv, decide_false]
        show ind _ * (0 + _) ≤ _
        rw [Nat.zero_add]
        cases (set.get v).isSome <;> simp [ind]

/-- **C94** In a complete graph exactly one vertex is selected. -/
theorem C94_complete [Inhabited δ] [Inhabited ρ] (R : MisTy α δ ρ) (hR : R.Ordered) (G : Lil α)
    (hG : R.Graph G) (hpos : 0 < G.nrows) (set : BVec Bool) (h : MisReturned R G set)
    (hk : ∀ u v, u < G.nrows → v < G.nrows → u ≠ v → Edge G.get u v) : set.nvals = 1 := by
  have hc := h.counts hR hG hpos
  have : ∃ w, w < G.nrows ∧ (set.get w).isSome = true := by
    cases hs : (set.get 0).isSome with
    | true => exact ⟨0, hpos, hs⟩
    | false =>
      obtain ⟨u, a, b, -⟩ := hc.maxi 0 hpos hs
      exact ⟨u, a, b⟩
  obtain ⟨w, hw, hs⟩ := this
  rw [hc.nv, sumTo_one hw, hs]
  · rfl
  · intro v hv hne
    cases hs' : (set.get v).isSome with
    | false => rfl
    | true =>
      have := hc.indep v w hs' hs
      have := hk v w hv hw hne
      simp_all [Edge]

/-- **C94** A vertex without neighbours is always selected; in a graph without edges every
vertex is. -/
theorem C94_isolated [Inhabited δ] [Inhabited ρ] (R : MisTy α δ ρ) (hR : R.Ordered) (G : Lil α)
    (hG : R.Graph G) (hpos : 0 < G.nrows) (set : BVec Bool) (h : MisReturned R G set)
    (v : Nat) (hv : v < G.nrows) (hn : ∀ u, ¬ Edge G.get v u) : set.get v = some true := by
  obtain ⟨-, -, -, h4⟩ := h.spec hR hG hpos
  apply Classical.byContradiction
  intro hc
  obtain ⟨u, -, hu⟩ := h4.maximal v hv hc
  exact hn u hu


/-- What `C40_mis_exact` and `C40_appendixB6_exact` say of an outcome. -/
def LubyOutcome (n : Nat) (E : Nat → Nat → Prop) (less : Nat → Nat → Nat → Prop) (fuel : Nat) (out : Prog (BVec Bool)) : Prop :=
  (∃ k set, k ≤ fuel ∧ out = .ok set ∧ (∀ v, set.get v = some true ↔ luby n E less k v) ∧
    (∀ v, ¬ Free n E (luby n E less k) v) ∧ ∀ i, i < k → ∃ v, Free n E (luby n E less i) v) ∨
  (out = .error .running ∧ ∀ i, i ≤ fuel → ∃ v, Free n E (luby n E less i) v)

theorem luby_renumber {n : Nat} {d τ : Nat → Nat} (hd : Renumbering n d τ) {E E' : Nat → Nat → Prop}
    {less less' : Nat → Nat → Nat → Prop} (hw : ∀ u v, E u v → u < n ∧ v < n) (hw' : ∀ u v, E' u v → u < n ∧ v < n)
    (hE : ∀ u v, u < n → v < n → (E' (d u) (d v) ↔ E u v))
    (hl : ∀ r u v, u < n → v < n → (less' r (d u) (d v) ↔ less r u v)) :
    ∀ k, (∀ v, v < n → (luby n E' less' k (d v) ↔ luby n E less k v)) ∧
      ∀ v, v < n → (Free n E' (luby n E' less' k) (d v) ↔ Free n E (luby n E less k) v) := by
  have hall : ∀ {P : Nat → Prop}, (∀ u, u < n → P (d u)) → ∀ a, a < n → P a := by
    intro P h a ha
    rw [← (hd.back a ha).2]
    exact h _ (hd.back a ha).1
  have hin : ∀ k v, luby n E' less' k v → v < n := by
    intro k
    induction k with
    | zero => intro v h; exact h.1
    | succ k ih =>
      intro v h
      rcases h with h | h
      · exact ih v h
      · exact h.1.1
  have hin2 : ∀ k v, luby n E less k v → v < n := by
    intro k
    induction k with
    | zero => intro v h; exact h.1
    | succ k ih =>
      intro v h
      rcases h with h | h
      · exact ih v h
      · exact h.1.1
  have hfree : ∀ k, (∀ v, v < n → (luby n E' less' k (d v) ↔ luby n E less k v)) →
      ∀ v, v < n → (Free n E' (luby n E' less' k) (d v) ↔ Free n E (luby n E less k) v) := by
    intro k h v hv
    constructor
    · rintro ⟨-, h2, h3⟩
      refine ⟨hv, fun hc => h2 ((h v hv).2 hc), fun u hu he => ?_⟩
      have hu' := hin2 k u hu
      exact h3 (d u) ((h u hu').2 hu) ((hE v u hv hu').2 he)
    · rintro ⟨-, h2, h3⟩
      refine ⟨(hd.there v hv).1, fun hc => h2 ((h v hv).1 hc), fun a ha => ?_⟩
      refine hall (P := fun a => luby n E' less' k a → ¬ E' (d v) a) (fun u hu hl he => ?_) a (hin k a ha) ha
      exact h3 u ((h u hu).1 hl) ((hE v u hv hu).1 he)
  intro k
  suffices h : ∀ v, v < n → (luby n E' less' k (d v) ↔ luby n E less k v) from ⟨h, hfree k h⟩
  induction k with
  | zero =>
    intro v hv
    constructor
    · rintro ⟨-, h⟩
      exact ⟨hv, fun u he => h (d u) ((hE v u hv (hw v u he).2).2 he)⟩
    · rintro ⟨-, h⟩
      refine ⟨(hd.there v hv).1, fun a he => ?_⟩
      refine hall (P := fun a => ¬ E' (d v) a) (fun u hu he => ?_) a (hw' _ a he).2 he
      exact h u ((hE v u hv hu).1 he)
  | succ k ih =>
    intro v hv
    have hf := hfree k ih
    show _ ∨ _ ↔ _ ∨ _
    rw [ih v hv, hf v hv]
    refine or_congr Iff.rfl (and_congr Iff.rfl ?_)
    constructor
    · intro h u hu he
      exact (hl k u v hu.1 hv).1 (h (d u) ((hf u hu.1).2 hu) ((hE v u hv hu.1).2 he))
    · intro h a ha
      refine hall (P := fun a => Free n E' (luby n E' less' k) a → E' (d v) a → less' k a (d v)) (fun u hu hfu he => ?_) a ha.1 ha
      exact (hl k u v hu hv).2 (h u ((hf u hu).1 hfu) ((hE v u hv hu).1 he))

/-- The outcomes for a graph and for the renumbered graph, with the numbers drawn renumbered. -/
theorem outcome_renumber {n : Nat} {d τ : Nat → Nat} (hd : Renumbering n d τ) {E E' : Nat → Nat → Prop}
    {less less' : Nat → Nat → Nat → Prop} (hw : ∀ u v, E u v → u < n ∧ v < n) (hw' : ∀ u v, E' u v → u < n ∧ v < n)
    (hE : ∀ u v, u < n → v < n → (E' (d u) (d v) ↔ E u v))
    (hl : ∀ r u v, u < n → v < n → (less' r (d u) (d v) ↔ less r u v))
    {fuel fuel' : Nat} {out out' : Prog (BVec Bool)} (h : LubyOutcome n E less fuel out)
    (h' : LubyOutcome n E' less' fuel' out') :
    (∀ set set', out = .ok set → out' = .ok set' → ∀ v, v < n → (set'.get (d v) = some true ↔ set.get v = some true)) ∧
    (fuel = fuel' → (out = .error .running ↔ out' = .error .running)) := by
  have key := luby_renumber hd hw hw' hE hl
  have hex : ∀ k, (∃ v, Free n E' (luby n E' less' k) v) ↔ ∃ v, Free n E (luby n E less k) v := by
    intro k
    constructor
    · rintro ⟨a, ha⟩
      refine ⟨τ a, ?_⟩
      rw [← (key k).2 (τ a) (hd.back a ha.1).1, (hd.back a ha.1).2]
      exact ha
    · rintro ⟨v, hv⟩
      exact ⟨d v, ((key k).2 v hv.1).2 hv⟩
  rcases h with ⟨k, s, h1, h2, h3, h4, h5⟩ | ⟨h1, h2⟩
  · rcases h' with ⟨k', s', g1, g2, g3, g4, g5⟩ | ⟨g1, g2⟩
    · have hk : k' = k := by
        rcases Nat.lt_trichotomy k' k with hlt | he | hgt
        · obtain ⟨v, hv⟩ := (hex k').2 (h5 k' hlt)
          exact absurd hv (g4 v)
        · exact he
        · obtain ⟨v, hv⟩ := (hex k).1 (g5 k hgt)
          exact absurd hv (h4 v)
      refine ⟨fun set set' e e' v hv => ?_, fun _ => by rw [h2, g2]; simp⟩
      rw [h2] at e; cases e
      rw [g2] at e'; cases e'
      rw [h3, g3, hk]
      exact (key k).1 v hv
    · refine ⟨fun set set' _ e' => (by rw [g1] at e'; cases e'), fun hf => ?_⟩
      obtain ⟨v, hv⟩ := (hex k).1 (g2 k (by omega))
      exact absurd hv (h4 v)
  · rcases h' with ⟨k', s', g1, g2, g3, g4, g5⟩ | ⟨g1, g2⟩
    · refine ⟨fun set set' e _ => (by rw [h1] at e; cases e), fun hf => ?_⟩
      obtain ⟨v, hv⟩ := (hex k').2 (h2 k' (by omega))
      exact absurd hv (g4 v)
    · exact ⟨fun set set' e _ => (by rw [h1] at e; cases e), fun _ => by rw [h1, g1]⟩

theorem renumbering_id (n : Nat) : Renumbering n id id := ⟨fun i hi => ⟨hi, rfl⟩, fun i hi => ⟨hi, rfl⟩⟩

/-- **C94** The two functions agree: with the same numbers drawn they return the same set, and
one runs forever exactly if the other does. -/
theorem C94_same_set [Inhabited δ] [Inhabited ρ] (R : MisTy α δ ρ) (hR : R.Ordered) (G : Lil α)
    (hG : R.Graph G) (hpos : 0 < G.nrows) (draw : Nat → Nat → ρ)
    (hdr : ∀ r v, R.rtrue (draw r v) = true) (iset iset' : BVec Bool) (hi : iset.WF) (hi' : iset'.WF)
    (his : iset.size = G.nrows) (his' : iset'.size = G.nrows) (fuel : Nat) :
    (∀ set set', mis fuel R G draw iset = .ok set → misB6 fuel R G draw iset' = .ok set' →
      ∀ v, set'.get v = some true ↔ set.get v = some true) ∧
    (mis fuel R G draw iset = .error .running ↔ misB6 fuel R G draw iset' = .error .running) := by
  have hw : ∀ u v, Edge G.get u v → u < G.nrows ∧ v < G.nrows := fun u v h => by
    have := edge_lt hG.wf h
    rw [hG.square]; rw [hG.square] at this; exact this
  have := outcome_renumber (renumbering_id G.nrows) hw hw (fun _ _ _ _ => Iff.rfl) (fun _ _ _ _ _ => Iff.rfl)
    (C40_mis_exact R hR G hG hpos draw hdr iset hi his fuel)
    (C40_appendixB6_exact R hR G hG hpos draw hdr iset' hi' his' fuel)
  refine ⟨fun set set' e e' v => ?_, this.2 rfl⟩
  rcases Nat.lt_or_ge v G.nrows with hv | hv
  · exact this.1 set set' e e' v hv
  · have a := C40_mis R hR G hG hpos draw hdr iset hi his fuel set e
    have b := C40_appendixB6 R hR G hG hpos draw hdr iset' hi' his' fuel set' e'
    exact ⟨fun h => absurd (b.2.2.2.within v h) (by omega), fun h => absurd (a.2.2.2.within v h) (by omega)⟩

/-- **C94** Renumbering the vertices, and with them the numbers drawn, renumbers the set; only
the edges matter, not their weights, and only the order of the numbers drawn. -/
theorem C94_renumber {α' δ' ρ' : Type} [Inhabited δ] [Inhabited ρ] [Inhabited δ'] [Inhabited ρ'] (R : MisTy α δ ρ) (hR : R.Ordered)
    (R' : MisTy α' δ' ρ') (hR' : R'.Ordered) (G : Lil α) (G' : Lil α')
    (hG : R.Graph G) (hG' : R'.Graph G') (hpos : 0 < G.nrows) (hn : G'.nrows = G.nrows)
    (d τ : Nat → Nat) (hd : Renumbering G.nrows d τ)
    (hE : ∀ u v, u < G.nrows → v < G.nrows → (Edge G'.get (d u) (d v) ↔ Edge G.get u v))
    (draw : Nat → Nat → ρ) (draw' : Nat → Nat → ρ')
    (hdr : ∀ r v, R.rtrue (draw r v) = true) (hdr' : ∀ r v, R'.rtrue (draw' r v) = true)
    (hlt : ∀ r u v, u < G.nrows → v < G.nrows → R'.lt (draw' r (d u)) (draw' r (d v)) = R.lt (draw r u) (draw r v))
    (iset iset' : BVec Bool) (hi : iset.WF) (hi' : iset'.WF)
    (his : iset.size = G.nrows) (his' : iset'.size = G.nrows) (fuel fuel' : Nat) :
    (∀ set set', mis fuel R G draw iset = .ok set → mis fuel' R' G' draw' iset' = .ok set' →
      ∀ v, v < G.nrows → (set'.get (d v) = some true ↔ set.get v = some true)) ∧
    (fuel = fuel' → (mis fuel R G draw iset = .error .running ↔ mis fuel' R' G' draw' iset' = .error .running)) := by
  have hw : ∀ u v, Edge G.get u v → u < G.nrows ∧ v < G.nrows := fun u v h => by
    have := edge_lt hG.wf h
    rw [hG.square]; rw [hG.square] at this; exact this
  have hw' : ∀ u v, Edge G'.get u v → u < G.nrows ∧ v < G.nrows := fun u v h => by
    have := edge_lt hG'.wf h
    rw [← hG'.square, hn] at this; exact this
  have h2 := C40_mis_exact R' hR' G' hG' (by omega) draw' hdr' iset' hi' (by omega) fuel'
  rw [hn] at h2
  exact outcome_renumber hd hw hw' hE (fun r u v hu hv => by unfold lessOf; rw [hlt r u v hu hv])
    (C40_mis_exact R hR G hG hpos draw hdr iset hi his fuel) h2

theorem luby_mono {n : Nat} {E : Nat → Nat → Prop} {less : Nat → Nat → Nat → Prop} {j : Nat} :
    ∀ k, j ≤ k → ∀ v, luby n E less j v → luby n E less k v := by
  intro k
  induction k with
  | zero => intro h v hv; rw [show j = 0 by omega] at hv; exact hv
  | succ k ih =>
    intro h v hv
    rcases Nat.lt_or_ge k j with hk | hk
    · rw [show k + 1 = j by omega]; exact hv
    · exact .inl (ih hk v hv)

/-- **C94** A vertex with a number greater than those of all its neighbours in the first round
is selected. -/
theorem C94_local_maximum [Inhabited δ] [Inhabited ρ] (R : MisTy α δ ρ) (hR : R.Ordered) (G : Lil α)
    (hG : R.Graph G) (hpos : 0 < G.nrows) (draw : Nat → Nat → ρ)
    (hdr : ∀ r v, R.rtrue (draw r v) = true) (iset : BVec Bool) (hi : iset.WF)
    (his : iset.size = G.nrows) (fuel : Nat) (set : BVec Bool)
    (e : mis fuel R G draw iset = .ok set ∨ misB6 fuel R G draw iset = .ok set) (v : Nat) (hv : v < G.nrows)
    (hm : ∀ u, Edge G.get v u → R.lt (draw 0 u) (draw 0 v) = true) : set.get v = some true := by
  have hgo : ∀ out, LubyOutcome G.nrows (Edge G.get) (lessOf R draw) fuel out → out = .ok set → set.get v = some true := by
    rintro out (⟨k, s, h1, h2, h3, h4, h5⟩ | ⟨h1, h2⟩) e
    · rw [h2] at e; cases e
      rw [h3]
      by_cases hz : ∃ u, Edge G.get v u
      · obtain ⟨w, hw⟩ := hz
        have hfree : Free G.nrows (Edge G.get) (luby G.nrows (Edge G.get) (lessOf R draw) 0) v :=
          ⟨hv, fun h => h.2 w hw, fun u hu he => hu.2 v (hG.symm v u he)⟩
        cases k with
        | zero => exact absurd hfree (h4 v)
        | succ k => exact luby_mono (j := 1) (k + 1) (by omega) v (.inr ⟨hfree, fun u _ he => hm u he⟩)
      · exact luby_mono (j := 0) k (by omega) v ⟨hv, fun u hu => hz ⟨u, hu⟩⟩
    · rw [h1] at e; cases e
  rcases e with e | e
  · exact hgo _ (C40_mis_exact R hR G hG hpos draw hdr iset hi his fuel) e
  · exact hgo _ (C40_appendixB6_exact R hR G hG hpos draw hdr iset hi his fuel) e

/-- In round `r` no two neighbours drew the same number. -/
def TieFree (R : MisTy α δ ρ) (E : Nat → Nat → Prop) (draw : Nat → Nat → ρ) (r : Nat) : Prop :=
  ∀ u v, E u v → R.lt (draw r u) (draw r v) = true ∨ R.lt (draw r v) (draw r u) = true

open Classical in
theorem luby_progress {R : MisTy α δ ρ} (hR : R.Ordered) (n : Nat) (E : Nat → Nat → Prop) (draw : Nat → Nat → ρ) :
    ∀ k (rs : List Nat), rs.Nodup → (∀ r ∈ rs, r < k ∧ TieFree R E draw r) →
      (∃ v, Free n E (luby n E (lessOf R draw) k) v) →
      Vec.count n (fun v => if Free n E (luby n E (lessOf R draw) k) v then some () else none) + rs.length ≤ n := by
  intro k
  induction k with
  | zero =>
    intro rs _ h2 _
    cases rs with
    | nil => exact count_le n _
    | cons r rs => exact absurd (h2 r (by simp)).1 (by omega)
  | succ k ih =>
    intro rs h1 h2 h3
    have hsub : ∀ v, Free n E (luby n E (lessOf R draw) (k + 1)) v → Free n E (luby n E (lessOf R draw) k) v :=
      fun v h => ⟨h.1, fun hc => h.2.1 (.inl hc), fun u hu => h.2.2 u (.inl hu)⟩
    obtain ⟨w, hw⟩ := h3
    by_cases hk : k ∈ rs
    · have hlen : (rs.erase k).length + 1 = rs.length := by
        rw [List.length_erase_of_mem hk]
        have := List.length_pos_of_mem hk
        omega
      have hi := ih (rs.erase k) (h1.erase k) (fun r hr => by
        have hr' := (h1.mem_erase_iff).1 hr
        have := h2 r hr'.2
        exact ⟨by omega, this.2⟩) ⟨w, hsub w hw⟩
      obtain ⟨v, hv, hf, htop⟩ := exists_top hR (draw k) (Free n E (luby n E (lessOf R draw) k)) n ⟨w, hw.1, hsub w hw⟩
      have hsel : luby n E (lessOf R draw) (k + 1) v := by
        refine .inr ⟨hf, fun u hu he => ?_⟩
        rcases (h2 k hk).2 v u he with h | h
        · rw [htop u hu.1 hu] at h; cases h
        · exact h
      have hlt := count_lt (n := n) (f := fun v => if Free n E (luby n E (lessOf R draw) (k + 1)) v then some () else none)
        (g := fun v => if Free n E (luby n E (lessOf R draw) k) v then some () else none)
        (fun i _ h => by
          by_cases hc : Free n E (luby n E (lessOf R draw) (k + 1)) i
          · simp [hsub i hc]
          · simp [hc] at h) hv (by rw [if_neg fun h => h.2.1 hsel]) (by simp [hf])
      omega
    · have hi := ih rs h1 (fun r hr => by
        have := h2 r hr
        refine ⟨?_, this.2⟩
        rcases Nat.lt_or_ge r k with h | h
        · exact h
        · exact absurd (show k = r by omega) (fun h => hk (h ▸ hr))) ⟨w, hsub w hw⟩
      have hle := count_mono (n := n) (f := fun v => if Free n E (luby n E (lessOf R draw) (k + 1)) v then some () else none)
        (g := fun v => if Free n E (luby n E (lessOf R draw) k) v then some () else none)
        (fun i _ h => by
          by_cases hc : Free n E (luby n E (lessOf R draw) (k + 1)) i
          · simp [hsub i hc]
          · simp [hc] at h)
      omega

/-- **C94** Both functions return as soon as there have been as many rounds without ties
between neighbours as the graph has vertices. -/
theorem C94_returns [Inhabited δ] [Inhabited ρ] (R : MisTy α δ ρ) (hR : R.Ordered) (G : Lil α)
    (hG : R.Graph G) (hpos : 0 < G.nrows) (draw : Nat → Nat → ρ)
    (hdr : ∀ r v, R.rtrue (draw r v) = true) (iset : BVec Bool) (hi : iset.WF)
    (his : iset.size = G.nrows) (fuel : Nat) (rs : List Nat) (hrs : rs.Nodup)
    (ht : ∀ r ∈ rs, r < fuel ∧ TieFree R (Edge G.get) draw r) (hn : G.nrows ≤ rs.length) :
    (∃ set, mis fuel R G draw iset = .ok set) ∧ ∃ set, misB6 fuel R G draw iset = .ok set := by
  have hno : ¬ ∃ v, Free G.nrows (Edge G.get) (luby G.nrows (Edge G.get) (lessOf R draw) fuel) v := by
    classical
    rintro ⟨v, hv⟩
    have h1 := luby_progress hR G.nrows (Edge G.get) draw fuel rs hrs ht ⟨v, hv⟩
    have h2 := count_lt (n := G.nrows) (f := fun _ => (none : Option Unit))
      (g := fun v => if Free G.nrows (Edge G.get) (luby G.nrows (Edge G.get) (lessOf R draw) fuel) v then some () else none)
      (fun i _ h => by cases h) hv.1 rfl (by simp [hv])
    have h3 : Vec.count G.nrows (fun v => if Free G.nrows (Edge G.get) (luby G.nrows (Edge G.get) (lessOf R draw) fuel) v then some () else none) = 0 := by
      omega
    omega
  constructor
  · rcases C40_mis_exact R hR G hG hpos draw hdr iset hi his fuel with ⟨k, s, -, h, -⟩ | ⟨-, h⟩
    · exact ⟨s, h⟩
    · exact absurd (h fuel (by omega)) hno
  · rcases C40_appendixB6_exact R hR G hG hpos draw hdr iset hi his fuel with ⟨k, s, -, h, -⟩ | ⟨-, h⟩
    · exact ⟨s, h⟩
    · exact absurd (h fuel (by omega)) hno


/-! ### the hypotheses are met -/

namespace Ex
/-- What `mis` returns for the path with `draws`: three rounds, the first with a tie. -/
def pathSet : BVec Bool := ⟨5, 3, [false, true, false, true, true], [false, true, false, true, true]⟩
theorem path_returned : MisReturned misR path pathSet :=
  ⟨draws, noSet, 5, draws_true, ⟨rfl, rfl, rfl⟩, rfl, .inl (by decide +kernel)⟩
/-- Another set, with the ends of the path. -/
def endSet : BVec Bool := ⟨5, 3, [true, false, false, true, true], [true, false, false, true, true]⟩
theorem end_returned : MisReturned misR path endSet :=
  ⟨fun _ v => [9, 8, 1, 3, 1].getD v 1, noSet, 5, fun r v => (by
    match v with
    | 0 | 1 | 2 | 3 | 4 => rfl
    | v + 5 => rfl), ⟨rfl, rfl, rfl⟩, rfl, .inr (by decide +kernel)⟩
theorem path_tie (r : Nat) (hr : r ≠ 0) : TieFree misR (Edge path.get) draws r := by
  intro u v h
  have hne : u ≠ v := by
    rintro rfl
    have := edge_lt path_graph.wf h
    exact absurd h ((by decide +kernel : ∀ u, u < 5 → ¬ (path.get u u).isSome = true) u this.1)
  simp only [draws, hr, if_false, misR, decide_eq_true_eq]; omega
/-- The complete graph with three vertices. -/
def triG : Lil Int := ⟨3, 3, 6, [[(1, 1), (2, 1)], [(0, 1), (2, 1)], [(0, 1), (1, 1)]]⟩
theorem triG_graph : misR.Graph triG :=
  misR_graph (Lil.wf_chk (by decide)) rfl (by decide) (by decide +kernel)
/-- The path and the vertex 4 in the opposite order. -/
def htap : Lil Int := ⟨5, 5, 6, [[], [(2, 1)], [(1, 1), (3, 1)], [(2, 1), (4, 1)], [(3, 1)]]⟩
theorem htap_graph : misR.Graph htap :=
  misR_graph (Lil.wf_chk (by decide)) rfl (by decide) (by decide +kernel)
def flip5 (v : Nat) : Nat := 4 - v
end Ex

example : mis 3 Ex.misR Ex.path Ex.draws Ex.noSet = .ok Ex.pathSet ∧
    mis 2 Ex.misR Ex.path Ex.draws Ex.noSet = .error .running ∧
    (∀ v, v < 5 → (Ex.pathSet.get v = some true ↔ v = 1 ∨ v = 3 ∨ v = 4)) := by
  refine ⟨by decide +kernel, by decide +kernel, by decide +kernel⟩

example : Ex.pathSet.nvals + Vec.count 5 (Ex.path.get 1) ≤ 5 :=
  C94_size_upper Ex.misR Ex.misR_ordered Ex.path Ex.path_graph (by decide) Ex.pathSet Ex.path_returned 1 (by decide)

example : 5 ≤ (2 + 1) * Ex.pathSet.nvals :=
  C94_size_degree Ex.misR Ex.misR_ordered Ex.path Ex.path_graph (by decide) Ex.pathSet Ex.path_returned 2
    (by decide +kernel)

example : Ex.pathSet.nvals ≤ 2 * Ex.endSet.nvals :=
  C94_two_runs Ex.misR Ex.misR_ordered Ex.path Ex.path_graph (by decide) Ex.pathSet Ex.endSet Ex.path_returned
    Ex.end_returned 2 (by decide) (by decide +kernel)

example : (⟨3, 1, [false, false, true], [false, false, true]⟩ : BVec Bool).nvals = 1 :=
  C94_complete Ex.misR Ex.misR_ordered Ex.triG Ex.triG_graph (by decide) _
    ⟨fun _ v => v + 1, ⟨3, 0, [false, false, false], [false, false, false]⟩, 5,
      fun _ v => (by simp only [Ex.misR, bne_iff_ne]; omega), ⟨rfl, rfl, rfl⟩, rfl, .inl (by decide +kernel)⟩
    (by
      have : ∀ u, u < 3 → ∀ v, v < 3 → u ≠ v → (Ex.triG.get u v).isSome = true := by decide +kernel
      exact fun u v hu hv h => this u hu v hv h)

example : Ex.endSet.get 4 = some true :=
  C94_isolated Ex.misR Ex.misR_ordered Ex.path Ex.path_graph (by decide) Ex.endSet Ex.end_returned 4 (by decide)
    (fun u h => by
      have := edge_lt Ex.path_graph.wf h
      exact absurd h ((by decide +kernel : ∀ u, u < 5 → ¬ (Ex.path.get 4 u).isSome = true) u this.2))

/-- Five rounds without ties among the first six. -/
example : ∃ set, mis 6 Ex.misR Ex.path Ex.draws Ex.noSet = .ok set :=
  (C94_returns Ex.misR Ex.misR_ordered Ex.path Ex.path_graph (by decide) Ex.draws Ex.draws_true Ex.noSet
    ⟨rfl, rfl, rfl⟩ rfl 6 [1, 2, 3, 4, 5] (by decide) (fun r hr => by
      have h : 1 ≤ r ∧ r < 6 := by simp at hr; omega
      exact ⟨h.2, Ex.path_tie r (by omega)⟩) (by decide)).1

/-- The hypotheses of `C94_renumber`. -/
example : Renumbering 5 Ex.flip5 Ex.flip5 ∧
    (∀ u v, u < 5 → v < 5 → (Edge Ex.htap.get (Ex.flip5 u) (Ex.flip5 v) ↔ Edge Ex.path.get u v)) ∧
    mis 5 Ex.misR Ex.htap (fun r v => Ex.draws r (Ex.flip5 v)) Ex.noSet
      = .ok ⟨5, 3, [true, true, false, true, false], [true, true, false, true, false]⟩ := by
  refine ⟨⟨by decide, by decide⟩, fun u v hu hv => ?_, by decide +kernel⟩
  have : ∀ u, u < 5 → ∀ v, v < 5 → (Ex.htap.get (Ex.flip5 u) (Ex.flip5 v)).isSome = (Ex.path.get u v).isSome := by
    decide +kernel
  unfold Edge
  rw [this u hu v hv]

end GBTL
