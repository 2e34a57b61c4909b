import Verif.Model.OptMxm
import Verif.Lemmas.Mxm
import Verif.Lemmas.Push
/-
The kernels with a fused mask (`masked_axpy`, `masked_accum`, `masked_merge`) do
what the unmasked operations do on rows filtered by the mask.
-/
namespace GBTL
open Spec (Outp MaskKind Accum both either osum)
open Row

variable {α β γ δ τ ζ μ ρ : Type}

/-- Does a mask row of kind (`sf`, `compl`) allow index `j`? -/
def lets (sf compl : Bool) (truthy : μ → Bool) (m : Row μ) (j : Nat) : Bool :=
  ((get m j).any fun v => sf || truthy v) != compl

theorem maskCheck_fst {sf : Bool} {truthy : μ → Bool} {m : Row μ} (hm : Sorted m) (j : Nat)
    (compl : Bool) : ((maskCheck sf truthy m j).1 == compl) = !lets sf compl truthy m j := by
  simp only [maskCheck, lets, headIs_dropBelow hm]
  cases get m j <;> simp [bne]

theorem maskCheck_snd {sf : Bool} {truthy : μ → Bool} {m : Row μ} (j : Nat) :
    (maskCheck sf truthy m j).2 = dropBelow j m := rfl

theorem lets_dropBelow {sf compl : Bool} {truthy : μ → Bool} {m : Row μ} (hm : Sorted m) {j k : Nat}
    (h : j ≤ k) : lets sf compl truthy (dropBelow j m) k = lets sf compl truthy m k := by
  simp only [lets, get_dropBelow hm, if_pos h]

theorem lets_nil (sf compl : Bool) (truthy : μ → Bool) (j : Nat) :
    lets sf compl truthy [] j = compl := by
  cases compl <;> rfl

/-- The row restricted to the indices satisfying `f`. -/
def keepIf (f : Nat → Bool) (r : Row α) : Row α := r.filter fun p => f p.1

theorem keepIf_cons (f : Nat → Bool) (p : Nat × α) (r : Row α) :
    keepIf f (p :: r) = if f p.1 then p :: keepIf f r else keepIf f r := by
  simp only [keepIf, List.filter_cons]

@[simp] theorem keepIf_nil (f : Nat → Bool) : keepIf f ([] : Row α) = [] := rfl

theorem keepIf_congr {f g : Nat → Bool} {r : Row α} (h : ∀ p ∈ r, f p.1 = g p.1) :
    keepIf f r = keepIf g r := List.filter_congr h

theorem keepIf_true {f : Nat → Bool} {r : Row α} (h : ∀ p ∈ r, f p.1 = true) : keepIf f r = r :=
  List.filter_eq_self.2 h

theorem keepIf_false {f : Nat → Bool} {r : Row α} (h : ∀ p ∈ r, f p.1 = false) : keepIf f r = [] :=
  List.filter_eq_nil_iff.2 fun p hp => by simp [h p hp]

theorem mem_keepIf {f : Nat → Bool} {r : Row α} {p : Nat × α} :
    p ∈ keepIf f r ↔ p ∈ r ∧ f p.1 = true := List.mem_filter

theorem sorted_keepIf {f : Nat → Bool} {r : Row α} (h : Sorted r) : Sorted (keepIf f r) :=
  List.Pairwise.sublist (List.filter_sublist) h

theorem Row.OK.keepIf {n : Nat} {f : Nat → Bool} {r : Row α} (h : OK n r) : OK n (keepIf f r) :=
  ⟨sorted_keepIf h.sorted, fun p hp => h.bound p (mem_keepIf.1 hp).1⟩

theorem get_keepIf (f : Nat → Bool) (r : Row α) (j : Nat) :
    get (keepIf f r) j = if f j then get r j else none := by
  induction r with
  | nil => simp
  | cons p r ih =>
    obtain ⟨k, x⟩ := p
    rw [keepIf_cons, get_cons]
    by_cases hk : k = j
    · subst hk
      cases hf : f k
      · simp [ih, hf]
      · simp [get_cons]
    · rw [if_neg hk]
      cases hf : f k
      · simpa using ih
      · simp [get_cons, hk, ih]

/-! ### masked_axpy -/

theorem maskedAxpyLoop_eq {sf compl : Bool} {truthy : μ → Bool} {add : τ → τ → τ}
    {mult : α → β → τ} {a : α} : ∀ (b : Row β), Sorted b → ∀ (c : Row τ) (m : Row μ), Sorted m →
    maskedAxpyLoop sf compl truthy add mult a c m b
      = axpy add mult a c (keepIf (lets sf compl truthy m) b) := by
  intro b
  induction b with
  | nil => intro _ c m _; simp [maskedAxpyLoop, axpy]
  | cons p b ih =>
    obtain ⟨j, y⟩ := p
    intro hb c m hm
    rw [sorted_cons] at hb
    have hrest : keepIf (lets sf compl truthy (dropBelow j m)) b
        = keepIf (lets sf compl truthy m) b := by
      refine keepIf_congr fun p hp => lets_dropBelow hm (Nat.le_of_lt (hb.1 p hp))
    have ih' := fun c => ih hb.2 c (dropBelow j m) (sorted_dropBelow hm)
    simp only [hrest] at ih'
    rw [maskedAxpyLoop, keepIf_cons]
    simp only [maskCheck_fst hm, maskCheck_snd]
    cases hl : lets sf compl truthy m j
    · simp [ih']
    · simp [axpy, ih']

theorem maskedAxpy_eq {sf compl : Bool} {truthy : μ → Bool} {add : τ → τ → τ}
    {mult : α → β → τ} {a : α} {b : Row β} (hb : Sorted b) {c : Row τ} {m : Row μ} (hm : Sorted m) :
    maskedAxpy sf compl truthy add mult a c m b
      = axpy add mult a c (keepIf (lets sf compl truthy m) b) := by
  rw [maskedAxpy]
  split
  · next h =>
    simp only [Bool.and_eq_true, List.isEmpty_iff] at h
    rw [h.1, keepIf_true]
    intro p _
    rw [lets_nil]; exact h.2
  · exact maskedAxpyLoop_eq b hb c m hm

theorem maskFilter_eq {sf compl : Bool} {truthy : μ → Bool} : ∀ (t : Row τ), Sorted t →
    ∀ (m : Row μ), Sorted m →
    maskFilter sf compl truthy m t = keepIf (lets sf compl truthy m) t := by
  intro t
  induction t with
  | nil => intros; simp [maskFilter]
  | cons p t ih =>
    obtain ⟨j, y⟩ := p
    intro ht m hm
    rw [sorted_cons] at ht
    have hrest : keepIf (lets sf compl truthy (dropBelow j m)) t
        = keepIf (lets sf compl truthy m) t :=
      keepIf_congr fun p hp => lets_dropBelow hm (Nat.le_of_lt (ht.1 p hp))
    rw [maskFilter, keepIf_cons]
    simp only [maskCheck_fst hm, maskCheck_snd, ih ht.2 _ (sorted_dropBelow hm), hrest]
    cases hl : lets sf compl truthy m j <;> simp

/-! ### masked_accum -/

theorem ewiseOr_nil_left {op : α → β → δ} {c1 : α → δ} {c2 : β → δ} (s : Row β) :
    ewiseOr op c1 c2 [] s = cast c2 s := by
  induction s with
  | nil => rw [ewiseOr]; rfl
  | cons p s ih => rw [ewiseOr, ih]; rfl

theorem ewiseOr_nil_right {op : α → β → δ} {c1 : α → δ} {c2 : β → δ} (r : Row α) :
    ewiseOr op c1 c2 r [] = cast c1 r := by
  induction r with
  | nil => rw [ewiseOr]; rfl
  | cons p r ih => rw [ewiseOr, ih]; rfl

/-- An element of the right row below everything in the left row comes first. -/
theorem ewiseOr_right_first {op : α → β → δ} {c1 : α → δ} {c2 : β → δ} {r : Row α} {j : Nat} {y : β}
    {s : Row β} (h : ∀ p ∈ r, j < p.1) :
    ewiseOr op c1 c2 r ((j, y) :: s) = (j, c2 y) :: ewiseOr op c1 c2 r s := by
  cases r with
  | nil => simp [ewiseOr]
  | cons p r =>
    obtain ⟨i, x⟩ := p
    have := h (i, x) (List.mem_cons_self ..)
    simp only at this
    rw [ewiseOr, if_neg (by omega), if_neg (by omega)]

/-- An element of the left row below everything in the right row comes first. -/
theorem ewiseOr_left_first {op : α → β → δ} {c1 : α → δ} {c2 : β → δ} {r : Row α} {i : Nat} {x : α}
    {s : Row β} (h : ∀ p ∈ s, i < p.1) :
    ewiseOr op c1 c2 ((i, x) :: r) s = (i, c1 x) :: ewiseOr op c1 c2 r s := by
  cases s with
  | nil => simp [ewiseOr]
  | cons p s =>
    obtain ⟨j, y⟩ := p
    have := h (j, y) (List.mem_cons_self ..)
    simp only at this
    rw [ewiseOr, if_neg (by omega), if_pos (by omega)]

/-- `masked_accum` of a row `t` that lies within the mask: `c` restricted to the mask
is accumulated with `t`. -/
theorem maskedAccum_eq {sf compl : Bool} {truthy : μ → Bool} {op : γ → τ → ζ} {cC : γ → ζ}
    {cT : τ → ζ} (m : Row μ) (c : Row γ) (t : Row τ) : Sorted m → Sorted c → Sorted t →
    (∀ p ∈ t, lets sf compl truthy m p.1 = true) →
    maskedAccum sf compl truthy op cC cT m c t
      = ewiseOr op cC cT (keepIf (lets sf compl truthy m) c) t := by
  have hbne : ∀ (x y : Bool), (x != y) = !(x == y) := fun x y => rfl
  fun_induction maskedAccum sf compl truthy op cC cT m c t with
  | case1 => intros; simp [ewiseOr]
  | case2 m ti t ts ih =>
    intro hm hc ht hl
    rw [sorted_cons] at ht
    rw [ih hm hc ht.2 fun p hp => hl p (List.mem_cons_of_mem _ hp)]
    simp [ewiseOr]
  | case3 m ci c cs ok m1 hok hne ih =>
    intro hm hc ht hl
    rw [sorted_cons] at hc
    have e1 : ok = (maskCheck sf truthy m ci).1 := by rw [hok]
    have e2 : m1 = dropBelow ci m := by rw [← maskCheck_snd (sf := sf) (truthy := truthy), hok]
    subst e2
    rw [hbne, e1, maskCheck_fst hm, Bool.not_not] at hne
    rw [ih (sorted_dropBelow hm) hc.2 ht (by simp), keepIf_cons, hne,
      keepIf_congr fun p hp => lets_dropBelow hm (Nat.le_of_lt (hc.1 p hp))]
    simp [ewiseOr]
  | case4 m ci c cs ok m1 hok hne ih =>
    intro hm hc ht hl
    rw [sorted_cons] at hc
    have e1 : ok = (maskCheck sf truthy m ci).1 := by rw [hok]
    have e2 : m1 = dropBelow ci m := by rw [← maskCheck_snd (sf := sf) (truthy := truthy), hok]
    subst e2
    rw [hbne, e1, maskCheck_fst hm, Bool.not_not] at hne
    rw [ih (sorted_dropBelow hm) hc.2 ht (by simp), keepIf_cons, if_neg hne,
      keepIf_congr fun p hp => lets_dropBelow hm (Nat.le_of_lt (hc.1 p hp))]
  | case5 m ci c cs ti t ts hlt ih =>
    intro hm hc ht hl
    rw [sorted_cons] at ht
    rw [ih hm hc ht.2 fun p hp => hl p (List.mem_cons_of_mem _ hp), ewiseOr_right_first]
    intro p hp
    have hp := (mem_keepIf.1 hp).1
    rcases List.mem_cons.1 hp with rfl | hp
    · exact hlt
    · have := (sorted_cons.1 hc).1 p hp; simp only at this; omega
  | case6 m ci c cs ti t ts hlt hlt2 ok m1 hok hne ih =>
    intro hm hc ht hl
    have hc' := sorted_cons.1 hc
    have ht' := sorted_cons.1 ht
    have e1 : ok = (maskCheck sf truthy m ci).1 := by rw [hok]
    have e2 : m1 = dropBelow ci m := by rw [← maskCheck_snd (sf := sf) (truthy := truthy), hok]
    subst e2
    rw [hbne, e1, maskCheck_fst hm, Bool.not_not] at hne
    have hge : ∀ p ∈ (ti, t) :: ts, ci < p.1 := by
      intro p hp
      rcases List.mem_cons.1 hp with rfl | hp
      · exact hlt2
      · have := ht'.1 p hp; simp only at this; omega
    rw [ih (sorted_dropBelow hm) hc'.2 ht (fun p hp => by
        rw [lets_dropBelow hm (Nat.le_of_lt (hge p hp))]; exact hl p hp), keepIf_cons, if_pos hne,
      keepIf_congr fun p hp => lets_dropBelow hm (Nat.le_of_lt (hc'.1 p hp)), ewiseOr_left_first hge]
  | case7 m ci c cs ti t ts hlt hlt2 ok m1 hok hne ih =>
    intro hm hc ht hl
    have hc' := sorted_cons.1 hc
    have ht' := sorted_cons.1 ht
    have e1 : ok = (maskCheck sf truthy m ci).1 := by rw [hok]
    have e2 : m1 = dropBelow ci m := by rw [← maskCheck_snd (sf := sf) (truthy := truthy), hok]
    subst e2
    rw [hbne, e1, maskCheck_fst hm, Bool.not_not] at hne
    have hge : ∀ p ∈ (ti, t) :: ts, ci < p.1 := by
      intro p hp
      rcases List.mem_cons.1 hp with rfl | hp
      · exact hlt2
      · have := ht'.1 p hp; simp only at this; omega
    rw [ih (sorted_dropBelow hm) hc'.2 ht (fun p hp => by
        rw [lets_dropBelow hm (Nat.le_of_lt (hge p hp))]; exact hl p hp), keepIf_cons, if_neg hne,
      keepIf_congr fun p hp => lets_dropBelow hm (Nat.le_of_lt (hc'.1 p hp))]
  | case8 m ci c cs ti t ts hlt hlt2 ih =>
    intro hm hc ht hl
    have e : ci = ti := by omega
    subst e
    rw [sorted_cons] at hc ht
    rw [ih hm hc.2 ht.2 fun p hp => hl p (List.mem_cons_of_mem _ hp), keepIf_cons,
      if_pos (hl _ (List.mem_cons_self ..)), ewiseOr, if_pos rfl]

/-! ### masked_merge -/

/-- `mergeEmit`: the elements below the bound that the mask does not let through are
emitted, the rest is left; the mask iterator has not passed any index that is still
to come. -/
theorem mergeEmit_spec {sf compl : Bool} {truthy : μ → Bool} (bound : Option Nat) :
    ∀ (c : Row γ) (m : Row μ), Sorted c → Sorted m →
      let f : Nat × γ → Bool := fun p => bound.all fun b => p.1 < b
      ∃ m', mergeEmit sf compl truthy bound c m
          = (keepIf (fun j => !lets sf compl truthy m j) (c.takeWhile f), c.dropWhile f, m') ∧
        Sorted m' ∧ ∀ k, (∀ p ∈ c.takeWhile f, p.1 ≤ k) →
          lets sf compl truthy m' k = lets sf compl truthy m k := by
  intro c
  induction c with
  | nil => intro m _ hm; exact ⟨m, rfl, hm, fun _ _ => rfl⟩
  | cons p c ih =>
    obtain ⟨ci, x⟩ := p
    intro m hc hm
    rw [sorted_cons] at hc
    simp only [mergeEmit]
    split
    · next hb =>
      obtain ⟨m', e, hm', hl⟩ := ih (dropBelow ci m) hc.2 (sorted_dropBelow hm)
      refine ⟨m', ?_, hm', ?_⟩
      · simp only [maskCheck_snd, e, maskCheck_fst hm]
        rw [List.takeWhile_cons_of_pos (by simpa using hb), List.dropWhile_cons_of_pos (by simpa using hb),
          keepIf_cons]
        have : keepIf (fun j => !lets sf compl truthy (dropBelow ci m) j)
              (c.takeWhile fun p => bound.all fun b => p.1 < b)
            = keepIf (fun j => !lets sf compl truthy m j)
              (c.takeWhile fun p => bound.all fun b => p.1 < b) := by
          refine keepIf_congr fun p hp => ?_
          rw [lets_dropBelow hm]
          exact Nat.le_of_lt (hc.1 p (List.takeWhile_subset _ hp))
        rw [this]
      · intro k hk
        rw [List.takeWhile_cons_of_pos (by simpa using hb)] at hk
        rw [hl k fun p hp => hk p (List.mem_cons_of_mem _ hp),
          lets_dropBelow hm (hk _ (List.mem_cons_self ..))]
    · next hb =>
      refine ⟨m, ?_, hm, fun _ _ => rfl⟩
      rw [List.takeWhile_cons_of_neg (by simpa using hb), List.dropWhile_cons_of_neg (by simpa using hb)]
      rfl

/-- What merging leaves at one position. -/
def mergeAt (cast : ζ → γ) (allowed : Bool) (c : Option γ) (z : Option ζ) : Option γ :=
  match z with
  | some x => some (cast x)
  | none => if allowed then none else c

theorem maskedMergeLoop_spec {sf compl : Bool} {truthy : μ → Bool} {cast : ζ → γ} :
    ∀ (z : Row ζ) (lastZ : Option Nat) (m : Row μ) (c : Row γ), Sorted z → Sorted m → Sorted c →
      (∀ p ∈ z, lets sf compl truthy m p.1 = true) →
      (∀ k, lastZ = some k → lets sf compl truthy m k = true ∧ (∀ p ∈ c, k ≤ p.1) ∧
        ∀ p ∈ z, k < p.1) →
      Sorted (maskedMergeLoop sf compl truthy cast lastZ m c z) ∧
      (∀ q ∈ maskedMergeLoop sf compl truthy cast lastZ m c z,
        (∃ p ∈ c, p.1 = q.1 ∧ ∀ k, lastZ = some k → k < q.1) ∨ ∃ p ∈ z, p.1 = q.1) ∧
      ∀ j, get (maskedMergeLoop sf compl truthy cast lastZ m c z) j
        = mergeAt cast (lets sf compl truthy m j) (get c j) (get z j) := by
  intro z
  induction z with
  | nil =>
    intro lastZ m c _ hm hc _ hlast
    -- dropping the leading element at `lastZ` does not matter: the mask lets it through
    have hkeep : ∀ c1 : Row γ, Sorted c1 →
        (mergeEmit sf compl truthy none c1 m).1 = keepIf (fun j => !lets sf compl truthy m j) c1 := by
      intro c1 hc1
      obtain ⟨m', e, _, _⟩ := mergeEmit_spec (sf := sf) (compl := compl) (truthy := truthy) none c1 m
        hc1 hm
      rw [e]
      have htw : ∀ l : Row γ, l.takeWhile (fun p => (none : Option Nat).all fun b => decide (p.1 < b)) = l := by
        intro l
        induction l with
        | nil => rfl
        | cons p l ih => rw [List.takeWhile_cons_of_pos rfl, ih]
      simp only [htw]
    have hgoal : maskedMergeLoop sf compl truthy cast lastZ m c ([] : Row ζ)
        = keepIf (fun j => !lets sf compl truthy m j) c := by
      cases lastZ with
      | none => exact hkeep c hc
      | some k =>
        obtain ⟨hk, hge, _⟩ := hlast k rfl
        show (mergeEmit sf compl truthy none (c.dropWhile fun p => p.1 ≤ k) m).1 = _
        rw [hkeep _ (List.Pairwise.sublist (List.dropWhile_sublist _) hc)]
        cases c with
        | nil => rfl
        | cons p c =>
          obtain ⟨ci, x⟩ := p
          have hci := hge (ci, x) (List.mem_cons_self ..)
          simp only at hci
          by_cases he : ci ≤ k
          · have : ci = k := by omega
            subst this
            rw [List.dropWhile_cons_of_pos (by simp), keepIf_cons]
            simp only [hk, Bool.not_true, Bool.false_eq_true, if_false]
            congr 1
            cases c with
            | nil => rfl
            | cons q c =>
              have := (sorted_cons.1 hc).1 q (List.mem_cons_self ..)
              rw [List.dropWhile_cons_of_neg]
              simpa using this
          · rw [List.dropWhile_cons_of_neg (by simpa using he)]
    rw [hgoal]
    refine ⟨sorted_keepIf hc, ?_, ?_⟩
    · intro q hq
      have hq := mem_keepIf.1 hq
      refine Or.inl ⟨q, hq.1, rfl, ?_⟩
      intro k hk
      obtain ⟨h1, h2, _⟩ := hlast k hk
      have := h2 q hq.1
      rcases Nat.lt_or_ge k q.1 with h | h
      · exact h
      · have : q.1 = k := by omega
        rw [this, h1] at hq
        simp at hq
    · intro j
      rw [get_keepIf, get_nil, mergeAt]
      cases lets sf compl truthy m j <;> simp
  | cons p z ih =>
    obtain ⟨zi, x⟩ := p
    intro lastZ m c hz hm hc hl hlast
    have hz' := sorted_cons.1 hz
    obtain ⟨m', e, hm', hsame⟩ := mergeEmit_spec (sf := sf) (compl := compl) (truthy := truthy)
      (some zi) c m hc hm
    have ef : (fun p : Nat × γ => (some zi).all fun b => decide (p.1 < b)) = fun p => decide (p.1 < zi) := by
      funext p; simp
    rw [ef] at e hsame
    have hbelow : ∀ p ∈ takeBelow zi c, p.1 < zi := fun p hp => (mem_takeBelow hp).2
    have hge : ∀ p ∈ dropBelow zi c, zi ≤ p.1 := dropBelow_ge hc
    have hsame' : ∀ k, zi ≤ k → lets sf compl truthy m' k = lets sf compl truthy m k :=
      fun k hk => hsame k fun p hp => by have := hbelow p hp; omega
    obtain ⟨ih1, ih2, ih3⟩ := ih (some zi) m' (dropBelow zi c) hz'.2 hm' (sorted_dropBelow hc)
      (fun p hp => by
        rw [hsame' _ (Nat.le_of_lt (hz'.1 p hp))]; exact hl p (List.mem_cons_of_mem _ hp))
      (by
        intro k hk
        cases hk
        exact ⟨by rw [hsame' _ (Nat.le_refl _)]; exact hl _ (List.mem_cons_self ..), hge,
          fun p hp => hz'.1 p hp⟩)
    have hrun : maskedMergeLoop sf compl truthy cast lastZ m c ((zi, x) :: z)
        = keepIf (fun j => !lets sf compl truthy m j) (takeBelow zi c) ++
          (zi, cast x) :: maskedMergeLoop sf compl truthy cast (some zi) m' (dropBelow zi c) z := by
      rw [maskedMergeLoop, e]; rfl
    have htail : ∀ q ∈ maskedMergeLoop sf compl truthy cast (some zi) m' (dropBelow zi c) z, zi < q.1 := by
      intro q hq
      rcases ih2 q hq with ⟨p, _, _, h⟩ | ⟨p, hp, h⟩
      · exact h zi rfl
      · have := hz'.1 p hp; simp only at this; omega
    rw [hrun]
    refine ⟨?_, ?_, ?_⟩
    · refine sorted_append.2 ⟨sorted_keepIf (sorted_takeBelow hc), sorted_cons.2 ⟨htail, ih1⟩, ?_⟩
      intro p hp q hq
      have hp := hbelow p (mem_keepIf.1 hp).1
      rcases List.mem_cons.1 hq with rfl | hq
      · exact hp
      · have := htail q hq; omega
    · intro q hq
      rcases List.mem_append.1 hq with hq | hq
      · have hq' := mem_keepIf.1 hq
        have hqc := (mem_takeBelow hq'.1).1
        refine Or.inl ⟨q, hqc, rfl, ?_⟩
        intro k hk
        obtain ⟨h1, h2, _⟩ := hlast k hk
        have := h2 q hqc
        rcases Nat.lt_or_ge k q.1 with h | h
        · exact h
        · have : q.1 = k := by omega
          rw [this, h1] at hq'
          simp at hq'
      · rcases List.mem_cons.1 hq with rfl | hq
        · exact Or.inr ⟨(zi, x), List.mem_cons_self .., rfl⟩
        · rcases ih2 q hq with ⟨p, hp, h, h'⟩ | ⟨p, hp, h⟩
          · refine Or.inl ⟨p, mem_of_dropBelow hp, h, ?_⟩
            intro k hk
            have h1 := (hlast k hk).2.2 (zi, x) (List.mem_cons_self ..)
            have h2 := h' zi rfl
            simp only at h1; omega
          · exact Or.inr ⟨p, List.mem_cons_of_mem _ hp, h⟩
    · intro j
      rw [get_append, get_keepIf, get_takeBelow hc, get_cons, get_cons, ih3, get_dropBelow hc]
      by_cases h1 : j < zi
      · rw [if_pos h1, if_neg (show ¬ zi = j by omega), if_neg (show ¬ zi = j by omega),
          if_neg (show ¬ zi ≤ j by omega)]
        have hzn : get z j = none := get_none_of_lt fun p hp => by
          have := hz'.1 p hp; simp only at this; omega
        rw [hzn]
        simp only [mergeAt]
        cases lets sf compl truthy m j <;> simp
      · rw [if_neg h1]
        by_cases h2 : zi = j
        · subst h2
          simp [mergeAt]
        · rw [if_neg h2, if_neg h2, if_pos (show zi ≤ j by omega), hsame' j (by omega)]
          simp

theorem maskedMerge_spec {sf compl : Bool} {truthy : μ → Bool} {cast : ζ → γ} {n : Nat} {m : Row μ}
    {c : Row γ} {z : Row ζ} (hz : OK n z) (hm : Sorted m) (hc : OK n c)
    (hl : ∀ p ∈ z, lets sf compl truthy m p.1 = true) :
    OK n (maskedMerge sf compl truthy cast m c z) ∧
    ∀ j, get (maskedMerge sf compl truthy cast m c z) j
      = mergeAt cast (lets sf compl truthy m j) (get c j) (get z j) := by
  obtain ⟨h1, h2, h3⟩ := maskedMergeLoop_spec (cast := cast) z none m c hz.sorted hm hc.sorted hl
    (by intro k hk; cases hk)
  refine ⟨⟨h1, ?_⟩, h3⟩
  intro q hq
  rcases h2 q hq with ⟨p, hp, h, _⟩ | ⟨p, hp, h⟩
  · rw [← h]; exact hc.bound p hp
  · rw [← h]; exact hz.bound p hp

/-! ### mergeRow -/

theorem mergeLoop_eq (op : α → β → α) (cast : β → α) (l : Row α) (r : Row β) :
    Lil.mergeLoop op cast l r = ewiseOr op id cast l r := by
  fun_induction Lil.mergeLoop op cast l r with
  | case1 r => rw [ewiseOr_nil_left]
  | case2 l h => rw [ewiseOr_nil_right, cast_id]
  | case3 li x l ri y r h ih => rw [ewiseOr, if_neg (by omega), if_pos (by omega), ih]; rfl
  | case4 li x l ri y r h h2 ih => rw [ewiseOr, if_neg (by omega), if_neg (by omega), ih]
  | case5 li x l ri y r h h2 ih =>
    have : li = ri := by omega
    subst this
    rw [ewiseOr, if_pos rfl, ih]

end GBTL
