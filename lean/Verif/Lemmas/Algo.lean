import Verif.Model.Algo
import Verif.Lemmas.Mxm
import Verif.Props.Utils
/-
Rules for loops, and sums of present values.
-/
namespace GBTL
variable {σ τ α β γ : Type}

@[simp] theorem prog_bind_ok {α β : Type} (a : α) (f : α → Prog β) :
    ((Except.ok a : Prog α) >>= f) = f a := rfl
@[simp] theorem prog_bind_error {α β : Type} (e : Stop) (f : α → Prog β) :
    ((Except.error e : Prog α) >>= f) = Except.error e := rfl
@[simp] theorem lift_ok {α : Type} (a : α) : lift (Except.ok a : Except Err α) = .ok a := rfl
@[simp] theorem lift_error {α : Type} (e : Err) :
    lift (Except.error e : Except Err α) = .error (.err e) := rfl
@[simp] theorem exec_done {α : Type} (a : α) : exec (Outcome.done a) = .ok a := rfl
@[simp] theorem method_ok {α : Type} (a : α) : method (.ok (), a) = .ok a := rfl

theorem prog_bind_imp {α β : Type} {x : Prog α} {f g : α → Prog β} {r : β} (h : (x >>= f) = .ok r)
    (hfg : ∀ a, f a = .ok r → g a = .ok r) : (x >>= g) = .ok r := by
  cases x with
  | error e => cases h
  | ok a => exact hfg a h

/-- Total correctness of a loop: an invariant and a measure. -/
theorem loop_rule {c : σ → Bool} {b : σ → Prog σ} (I : σ → Prop) (μ : σ → Nat)
    (hb : ∀ s, I s → c s = true → ∃ s', b s = .ok s' ∧ I s' ∧ μ s' < μ s) :
    ∀ fuel s, I s → μ s ≤ fuel → ∃ s', loop c b fuel s = .ok s' ∧ I s' ∧ c s' = false := by
  intro fuel
  induction fuel with
  | zero =>
    intro s hi hm
    cases hc : c s with
    | false => exact ⟨s, by simp [loop, hc], hi, hc⟩
    | true =>
      obtain ⟨s', -, -, h⟩ := hb s hi hc
      omega
  | succ fuel ih =>
    intro s hi hm
    cases hc : c s with
    | false => exact ⟨s, by simp [loop, hc], hi, hc⟩
    | true =>
      obtain ⟨s', e, h1, h2⟩ := hb s hi hc
      obtain ⟨s2, e2, h3⟩ := ih s' h1 (by omega)
      exact ⟨s2, by simp [loop, hc, e, e2], h3⟩

/-- The rule for a loop whose invariant counts the iterations. -/
theorem loop_count {c : σ → Bool} {b : σ → Prog σ} (I : Nat → σ → Prop) (N : Nat)
    (hb : ∀ k s, I k s → c s = true → k < N ∧ ∃ s', b s = .ok s' ∧ I (k + 1) s') :
    ∀ fuel k s, I k s → N ≤ k + fuel → ∃ k' s', loop c b fuel s = .ok s' ∧ I k' s' ∧ c s' = false := by
  intro fuel
  induction fuel with
  | zero =>
    intro k s hi hm
    cases hc : c s with
    | false => exact ⟨k, s, by simp [loop, hc], hi, hc⟩
    | true => have := (hb k s hi hc).1; omega
  | succ fuel ih =>
    intro k s hi hm
    cases hc : c s with
    | false => exact ⟨k, s, by simp [loop, hc], hi, hc⟩
    | true =>
      obtain ⟨-, s', e, h1⟩ := hb k s hi hc
      obtain ⟨k', s2, e2, h3⟩ := ih (k + 1) s' h1 (by omega)
      exact ⟨k', s2, by simp [loop, hc, e, e2], h3⟩

/-- A loop whose body either throws `e` or makes one of at most `N` steps. -/
theorem loop_count_or {c : σ → Bool} {b : σ → Prog σ} {e : Stop} (I : Nat → σ → Prop) (N : Nat)
    (hb : ∀ k s, I k s → c s = true → k < N ∧ (b s = .error e ∨ ∃ s', b s = .ok s' ∧ I (k + 1) s')) :
    ∀ (fuel k : Nat) (s : σ), I k s → N ≤ k + fuel →
      (∃ k' s', loop c b fuel s = .ok s' ∧ I k' s' ∧ c s' = false) ∨
      (∃ k' s', loop c b fuel s = .error e ∧ I k' s' ∧ c s' = true ∧ b s' = .error e) := by
  intro fuel
  induction fuel with
  | zero =>
    intro k s hI hN
    cases hc : c s with
    | false => exact .inl ⟨k, s, by rw [loop, hc]; rfl, hI, hc⟩
    | true => have := (hb k s hI hc).1; omega
  | succ fuel ih =>
    intro k s hI hN
    cases hc : c s with
    | false => exact .inl ⟨k, s, by rw [loop, hc]; rfl, hI, hc⟩
    | true =>
      rcases (hb k s hI hc).2 with h | ⟨s', h1, h2⟩
      · exact .inr ⟨k, s, by rw [loop, hc]; simp [h], hI, hc, h⟩
      · have hl : loop c b (fuel + 1) s = loop c b fuel s' := by rw [loop, hc]; simp [h1]
        rw [hl]
        exact ih (k + 1) s' h2 (by omega)

/-- More fuel than needed does not matter. -/
theorem loop_more {c : σ → Bool} {b : σ → Prog σ} {d : Nat} : ∀ {fuel : Nat} {s r : σ},
    loop c b fuel s = .ok r → loop c b (fuel + d) s = .ok r := by
  intro fuel
  induction fuel with
  | zero =>
    intro s r h
    cases hc : c s with
    | false =>
      simp [loop, hc] at h; subst h
      cases d <;> simp [loop, hc]
    | true => simp [loop, hc] at h
  | succ fuel ih =>
    intro s r h
    rw [show fuel + 1 + d = fuel + d + 1 by omega]
    cases hc : c s with
    | false => simp [loop, hc] at h ⊢; exact h
    | true =>
      simp only [loop, hc, if_true] at h ⊢
      cases hb : b s with
      | error e => rw [hb] at h; cases h
      | ok s' =>
        rw [hb] at h
        exact ih h

/-- Partial correctness of a loop. -/
theorem loop_partial {c : σ → Bool} {b : σ → Prog σ} (I : σ → Prop)
    (hb : ∀ s s', I s → c s = true → b s = .ok s' → I s') :
    ∀ fuel s r, I s → loop c b fuel s = .ok r → I r ∧ c r = false := by
  intro fuel
  induction fuel with
  | zero =>
    intro s r hi e
    cases hc : c s with
    | false => simp [loop, hc] at e; subst e; exact ⟨hi, hc⟩
    | true => simp [loop, hc] at e
  | succ fuel ih =>
    intro s r hi e
    cases hc : c s with
    | false => simp [loop, hc] at e; subst e; exact ⟨hi, hc⟩
    | true =>
      simp only [loop, hc, if_true] at e
      cases hs : b s with
      | error x => rw [hs] at e; cases e
      | ok s' =>
        rw [hs] at e
        exact ih s' r (hb s s' hi hc hs) e

/-- A loop that can never leave. -/
theorem loop_forever {c : σ → Bool} {b : σ → Prog σ} (I : σ → Prop)
    (hb : ∀ s, I s → c s = true ∧ ∃ s', b s = .ok s' ∧ I s') :
    ∀ fuel s, I s → loop c b fuel s = .error .running := by
  intro fuel
  induction fuel with
  | zero => intro s hi; simp [loop, (hb s hi).1]
  | succ fuel ih =>
    intro s hi
    obtain ⟨hc, s', e, h⟩ := hb s hi
    simp [loop, hc, e, ih s' h]

/-- A body that returns wherever another does, and more iterations. -/
theorem loop_mono {c : σ → Bool} {b b' : σ → Prog σ} {d : Nat}
    (hb : ∀ s r, b s = .ok r → b' s = .ok r) : ∀ {fuel : Nat} {s r : σ},
    loop c b fuel s = .ok r → loop c b' (fuel + d) s = .ok r := by
  intro fuel
  induction fuel with
  | zero =>
    intro s r h
    cases hc : c s with
    | false => cases d <;> simpa [loop, hc] using h
    | true => simp [loop, hc] at h
  | succ fuel ih =>
    intro s r h
    rw [show fuel + 1 + d = fuel + d + 1 by omega]
    cases hc : c s with
    | false => simpa [loop, hc] using h
    | true =>
      simp only [loop, hc, if_true] at h ⊢
      cases hbs : b s with
      | error e => rw [hbs] at h; cases h
      | ok s' =>
        rw [hbs] at h
        rw [hb s s' hbs]
        exact ih h

/-- `for` loops. -/
theorem forP_inv {b : Nat → σ → Prog σ} (I : Nat → σ → Prop) (n : Nat) (s : σ) (h0 : I 0 s)
    (hb : ∀ i s, i < n → I i s → ∃ s', b i s = .ok s' ∧ I (i + 1) s') :
    ∃ s', forP n s b = .ok s' ∧ I n s' := by
  induction n with
  | zero => exact ⟨s, rfl, h0⟩
  | succ n ih =>
    obtain ⟨s1, e1, h1⟩ := ih (fun i s hi h => hb i s (by omega) h)
    obtain ⟨s2, e2, h2⟩ := hb n s1 (by omega) h1
    refine ⟨s2, ?_, h2⟩
    simp only [forP, List.range_succ, List.foldlM_append]
    simp only [forP] at e1
    rw [e1]
    simp only [prog_bind_ok, List.foldlM_cons, List.foldlM_nil, e2]
    rfl

/-! ### sums -/

theorem osum_append (add : τ → τ → τ) (l : List (Option τ)) (x : Option τ) :
    Spec.osum add (l ++ [x]) = match Spec.osum add l, x with
      | some a, some b => some (add a b)
      | some a, none => some a
      | none, y => y := by
  simp only [Spec.osum, List.foldl_append, List.foldl_cons, List.foldl_nil]
  rfl

/-- A property of partial sums gives one of the total. -/
theorem osum_range_none {add : τ → τ → τ} {n : Nat} {f : Nat → Option τ} :
    Spec.osum add ((List.range n).map f) = none ↔ ∀ k, k < n → f k = none := by
  induction n with
  | zero => simp [Spec.osum]
  | succ n ih =>
    rw [List.range_succ, List.map_append, List.map_cons, List.map_nil, osum_append]
    constructor
    · intro h k hk
      cases ho : Spec.osum add ((List.range n).map f) with
      | some a => rw [ho] at h; cases hf : f n <;> rw [hf] at h <;> cases h
      | none =>
        rw [ho] at h
        rcases Nat.lt_or_ge k n with h' | h'
        · exact ih.1 ho k h'
        · have : k = n := by omega
          subst this; exact h
    · intro h
      rw [ih.2 (fun k hk => h k (by omega)), h n (by omega)]

/-- If every value present is `x`, and `x + x = x`, the sum is `x`. -/
theorem osum_const {add : τ → τ → τ} {n : Nat} {f : Nat → Option τ} {x : τ} (hx : add x x = x)
    (hf : ∀ k, k < n → f k = none ∨ f k = some x) (he : ∃ k, k < n ∧ f k = some x) :
    Spec.osum add ((List.range n).map f) = some x := by
  induction n with
  | zero => obtain ⟨k, hk, -⟩ := he; omega
  | succ n ih =>
    rw [List.range_succ, List.map_append, List.map_cons, List.map_nil, osum_append]
    by_cases h : ∃ k, k < n ∧ f k = some x
    · rw [ih (fun k hk => hf k (by omega)) h]
      rcases hf n (by omega) with h' | h' <;> rw [h']
      simp [hx]
    · have hn : Spec.osum add ((List.range n).map f) = none := by
        rw [osum_range_none]
        intro k hk
        rcases hf k (by omega) with h' | h'
        · exact h'
        · exact absurd ⟨k, hk, h'⟩ h
      obtain ⟨k, hk, e⟩ := he
      have : k = n := by
        rcases Nat.lt_or_ge k n with h' | h'
        · exact absurd ⟨k, h', e⟩ h
        · omega
      subst this
      rw [hn, e]

/-- Sums over a selective operation: the result is one of the values, and nothing
present is better. -/
theorem osum_best {add : τ → τ → τ} {le : τ → τ → Prop} (hrefl : ∀ x, le x x)
    (htrans : ∀ x y z, le x y → le y z → le x z)
    (hadd : ∀ x y, (add x y = x ∨ add x y = y) ∧ le (add x y) x ∧ le (add x y) y)
    {n : Nat} {f : Nat → Option τ} {x : τ}
    (h : Spec.osum add ((List.range n).map f) = some x) :
    (∃ k, k < n ∧ f k = some x) ∧ ∀ k y, k < n → f k = some y → le x y := by
  induction n generalizing x with
  | zero => simp [Spec.osum] at h
  | succ n ih =>
    rw [List.range_succ, List.map_append, List.map_cons, List.map_nil, osum_append] at h
    cases ho : Spec.osum add ((List.range n).map f) with
    | none =>
      rw [ho] at h
      simp only at h
      have hn := osum_range_none.1 ho
      refine ⟨⟨n, by omega, h⟩, ?_⟩
      intro k y hk hy
      rcases Nat.lt_or_ge k n with h' | h'
      · rw [hn k h'] at hy; cases hy
      · have : k = n := by omega
        subst this
        rw [h] at hy; cases hy
        exact hrefl _
    | some a =>
      rw [ho] at h
      obtain ⟨⟨k, hk, e⟩, hle⟩ := ih ho
      cases hf : f n with
      | none =>
        rw [hf] at h; cases h
        refine ⟨⟨k, by omega, e⟩, ?_⟩
        intro j y hj hy
        rcases Nat.lt_or_ge j n with h' | h'
        · exact hle j y h' hy
        · have : j = n := by omega
          subst this; rw [hf] at hy; cases hy
      | some b =>
        rw [hf] at h; cases h
        obtain ⟨h1, h2, h3⟩ := hadd a b
        refine ⟨?_, ?_⟩
        · rcases h1 with h1 | h1 <;> rw [h1]
          · exact ⟨k, by omega, e⟩
          · exact ⟨n, by omega, hf⟩
        · intro j y hj hy
          rcases Nat.lt_or_ge j n with h' | h'
          · exact htrans _ _ _ h2 (hle j y h' hy)
          · have : j = n := by omega
            subst this
            rw [hf] at hy; cases hy
            exact h3

/-! ### counting -/

theorem count_le (n : Nat) (f : Nat → Option α) : Spec.Vec.count n f ≤ n := by
  unfold Spec.Vec.count
  refine Nat.le_trans (List.length_filter_le _ _) ?_
  simp

theorem count_succ (n : Nat) (f : Nat → Option α) :
    Spec.Vec.count (n + 1) f = Spec.Vec.count n f + (if (f n).isSome then 1 else 0) := by
  unfold Spec.Vec.count
  rw [List.range_succ, List.filter_append, List.length_append]
  congr 1
  by_cases h : (f n).isSome <;> simp [h]

theorem count_mono {n : Nat} {f : Nat → Option α} {g : Nat → Option β}
    (h : ∀ i, i < n → (f i).isSome → (g i).isSome) : Spec.Vec.count n f ≤ Spec.Vec.count n g := by
  induction n with
  | zero => simp [Spec.Vec.count]
  | succ n ih =>
    rw [count_succ, count_succ]
    have := ih (fun i hi => h i (by omega))
    have h2 := h n (by omega)
    by_cases h3 : (f n).isSome
    · rw [if_pos h3, if_pos (h2 h3)]; omega
    · rw [if_neg h3]; split <;> omega

theorem count_lt {n : Nat} {f : Nat → Option α} {g : Nat → Option β}
    (h : ∀ i, i < n → (f i).isSome → (g i).isSome) {k : Nat} (hk : k < n) (hf : f k = none)
    (hg : (g k).isSome) : Spec.Vec.count n f < Spec.Vec.count n g := by
  induction n with
  | zero => omega
  | succ n ih =>
    rw [count_succ, count_succ]
    rcases Nat.lt_or_ge k n with h' | h'
    · have := ih (fun i hi => h i (by omega)) h'
      have h2 := h n (by omega)
      by_cases h3 : (f n).isSome
      · rw [if_pos h3, if_pos (h2 h3)]; omega
      · rw [if_neg h3]; split <;> omega
    · have : k = n := by omega
      subst this
      have := count_mono (fun i hi => h i (by omega) : ∀ i, i < k → (f i).isSome → (g i).isSome)
      rw [hf, hg]
      simp only [Option.isSome_none, if_true]
      simp
      omega

/-- A consistent vector with elements has one inside. -/
theorem nonempty_of_nvals {v : BVec α} (hv : v.WF) (h : 0 < v.nvals) :
    ∃ i x, i < v.size ∧ v.get i = some x := by
  rw [hv.nvals_eq, Spec.Vec.count, List.length_pos_iff_exists_mem] at h
  obtain ⟨i, hi⟩ := h
  rw [List.mem_filter, List.mem_range, Option.isSome_iff_exists] at hi
  obtain ⟨hi, x, hx⟩ := hi
  exact ⟨i, x, hi, hx⟩

theorem none_of_nvals {v : BVec α} (hv : v.WF) (h : v.nvals = 0) (i : Nat) : v.get i = none := by
  rcases Nat.lt_or_ge i v.size with hi | hi
  · rw [hv.nvals_eq, Spec.Vec.count, List.length_eq_zero_iff, List.filter_eq_nil_iff] at h
    have := h i (List.mem_range.2 hi)
    cases hg : v.get i with
    | none => rfl
    | some x => rw [hg] at this; simp at this
  · exact hv.get_none hi

/-! ### consistency of concrete matrices and vectors -/

/-- A check of consistency. -/
def Lil.chk (A : Lil α) : Bool :=
  decide (A.rows.length = A.nrows) &&
  A.rows.all (fun r => decide ((r.map Prod.fst).Pairwise (· < ·)) && r.all fun p => decide (p.1 < A.ncols)) &&
  decide (A.nvals = (A.rows.map List.length).sum)

theorem Lil.wf_chk {A : Lil α} (h : A.chk = true) : A.WF := by
  simp only [Lil.chk, Bool.and_eq_true, decide_eq_true_eq, List.all_eq_true] at h
  obtain ⟨⟨h1, h2⟩, h3⟩ := h
  refine ⟨⟨h1, ?_⟩, h3⟩
  intro r hr
  obtain ⟨a, b⟩ := h2 r hr
  refine ⟨?_, b⟩
  rw [List.pairwise_map] at a
  exact a

end GBTL
