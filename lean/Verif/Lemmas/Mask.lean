import Verif.Lemmas.Helpers
import Verif.Spec.Masks
namespace GBTL
open Spec (Outp MaskKind Accum both either osum)
open Row

variable {α β γ δ τ ζ μ ν : Type}

/-! ### apply_with_mask -/

theorem awm_cons (truthy : ν → Bool) (castZ : ζ → γ) (outp : Outp) (c : Row γ) (z : Row ζ)
    (mi : Nat) (mv : ν) (m : Row ν) :
    applyWithMask truthy castZ outp c z ((mi, mv) :: m) =
      if !truthy mv then applyWithMask truthy castZ outp c z m
      else
        (match outp with | .merge => takeBelow mi c | .replace => []) ++
        ((match headIs mi (dropBelow mi z) with | some x => [(mi, castZ x)] | none => []) ++
          applyWithMask truthy castZ outp
            (match outp with
              | .merge => (match headIs mi (dropBelow mi c) with
                | some _ => (dropBelow mi c).tail
                | none => dropBelow mi c)
              | .replace => (match headIs mi c with
                | some _ => c.tail
                | none => c))
            (dropBelow mi z) m) := by
  cases outp <;> rfl

theorem applyWithMask_keys (truthy : ν → Bool) (castZ : ζ → γ) (outp : Outp) (m : Row ν) :
    ∀ (c : Row γ) (z : Row ζ), ∀ q ∈ applyWithMask truthy castZ outp c z m,
      (outp = .merge ∧ ∃ p ∈ c, p.1 = q.1) ∨ ((∃ p ∈ z, p.1 = q.1) ∧ ∃ p ∈ m, p.1 = q.1) := by
  induction m with
  | nil =>
    intro c z q hq
    cases outp with
    | merge => simp only [applyWithMask] at hq; exact Or.inl ⟨rfl, q, hq, rfl⟩
    | replace => simp [applyWithMask] at hq
  | cons p m ih =>
    obtain ⟨mi, mv⟩ := p
    intro c z q hq
    rw [awm_cons] at hq
    split at hq
    · rcases ih c z q hq with h | ⟨h1, p, hp, e⟩
      · exact Or.inl h
      · exact Or.inr ⟨h1, p, List.mem_cons_of_mem _ hp, e⟩
    · rcases List.mem_append.1 hq with hq | hq
      · cases outp with
        | merge => exact Or.inl ⟨rfl, q, (mem_takeBelow hq).1, rfl⟩
        | replace => simp at hq
      · rcases List.mem_append.1 hq with hq | hq
        · cases hz : headIs mi (dropBelow mi z) with
          | none => simp [hz] at hq
          | some x =>
            simp only [hz, List.mem_singleton] at hq
            subst hq
            refine Or.inr ⟨?_, _, List.mem_cons_self .., rfl⟩
            cases hd : dropBelow mi z with
            | nil => rw [hd] at hz; simp [headIs] at hz
            | cons p t =>
              obtain ⟨k, y⟩ := p
              rw [hd] at hz
              simp only [headIs] at hz
              split at hz
              · refine ⟨(k, y), mem_of_dropBelow (j := mi) ?_, by assumption⟩
                rw [hd]; exact List.mem_cons_self ..
              · simp at hz
        · rcases ih _ _ q hq with ⟨h1, p, hp, e⟩ | ⟨⟨p, hp, e⟩, p', hp', e'⟩
          · refine Or.inl ⟨h1, p, ?_, e⟩
            subst h1
            simp only at hp
            split at hp
            · exact mem_of_dropBelow (List.mem_of_mem_tail hp)
            · exact mem_of_dropBelow hp
          · exact Or.inr ⟨⟨p, mem_of_dropBelow hp, e⟩, p', List.mem_cons_of_mem _ hp', e'⟩

/-- The rest of `c` after the mask index `mi`. -/
def cRest (outp : Outp) (mi : Nat) (c : Row γ) : Row γ :=
  match outp with
  | .merge => after mi c
  | .replace => match headIs mi c with
    | some _ => c.tail
    | none => c

theorem sorted_cRest {outp : Outp} {mi : Nat} {c : Row γ} (h : Sorted c) :
    Sorted (cRest outp mi c) := by
  cases outp with
  | merge => exact (after_spec h).1
  | replace =>
    simp only [cRest]
    split
    · exact List.Pairwise.sublist (List.tail_sublist c) h
    · exact h

theorem applyWithMask_cons {truthy : ν → Bool} {castZ : ζ → γ} {outp : Outp} {mi : Nat} {mv : ν}
    {m : Row ν} {c : Row γ} {z : Row ζ} (hz : Sorted z) (ht : truthy mv = true) :
    applyWithMask truthy castZ outp c z ((mi, mv) :: m) =
      (match outp with | .merge => takeBelow mi c | .replace => []) ++
      ((match get z mi with | some x => [(mi, castZ x)] | none => []) ++
        applyWithMask truthy castZ outp (cRest outp mi c) (dropBelow mi z) m) := by
  rw [awm_cons, if_neg (by simp [ht]), headIs_dropBelow hz]
  cases outp <;> rfl

theorem applyWithMask_spec (truthy : ν → Bool) (castZ : ζ → γ) (outp : Outp) (m : Row ν)
    (hm : Sorted m) : ∀ (c : Row γ) (z : Row ζ), Sorted c → Sorted z →
      Sorted (applyWithMask truthy castZ outp c z m) ∧
      ∀ i, get (applyWithMask truthy castZ outp c z m) i
        = Spec.write castZ ((get m i).any truthy) outp (get c i) (get z i) := by
  induction m with
  | nil =>
    intro c z hc hz
    cases outp <;> simp [applyWithMask, Spec.write, hc]
  | cons p m ih =>
    obtain ⟨mi, mv⟩ := p
    rw [sorted_cons] at hm
    intro c z hc hz
    have hmn : get m mi = none := get_none_of_lt fun p hp => hm.1 p hp
    by_cases ht : truthy mv = true
    · rw [applyWithMask_cons hz ht]
      obtain ⟨h1, h2⟩ := ih hm.2 (cRest outp mi c) (dropBelow mi z) (sorted_cRest hc)
        (sorted_dropBelow hz)
      have hlow : ∀ q ∈ applyWithMask truthy castZ outp (cRest outp mi c) (dropBelow mi z) m,
          mi < q.1 := by
        intro q hq
        rcases applyWithMask_keys _ _ _ _ _ _ q hq with ⟨h3, p, hp, e⟩ | ⟨_, p, hp, e⟩
        · subst h3
          rw [← e]
          exact ((after_spec hc).2.1 p hp).2
        · rw [← e]; exact hm.1 p hp
      refine ⟨?_, ?_⟩
      · rw [sorted_append, sorted_append]
        refine ⟨?_, ⟨?_, h1, ?_⟩, ?_⟩
        · cases outp
          · exact sorted_takeBelow hc
          · exact sorted_nil
        · cases get z mi
          · exact sorted_nil
          · exact sorted_cons.2 ⟨by simp, sorted_nil⟩
        · intro p hp q hq
          have := hlow q hq
          cases hg : get z mi with
          | none => simp [hg] at hp
          | some x => simp only [hg, List.mem_singleton] at hp; subst hp; exact this
        · intro p hp q hq
          cases outp with
          | replace => simp at hp
          | merge =>
            have hp := (mem_takeBelow hp).2
            rcases List.mem_append.1 hq with hq | hq
            · cases hg : get z mi with
              | none => simp [hg] at hq
              | some x => simp only [hg, List.mem_singleton] at hq; subst hq; exact hp
            · have := hlow q hq; omega
      · intro i
        rw [get_append, get_append, h2 i, get_dropBelow hz]
        have hput : ∀ (i : Nat), get (match get z mi with
            | some x => [(mi, castZ x)] | none => [] : Row γ) i
              = if mi = i then (get z mi).map castZ else none := by
          intro i
          cases get z mi with
          | none => simp
          | some x => simp [get_cons]
        rw [hput, get_cons]
        rcases Nat.lt_trichotomy i mi with hi | hi | hi
        · have hmi : get m i = none := get_none_of_lt fun p hp => by
            have := hm.1 p hp; simp only at this; omega
          rw [if_neg (by omega), if_neg (by omega), if_neg (by omega), hmi]
          cases outp with
          | replace => simp [Spec.write]
          | merge =>
            simp only [Spec.write, Option.any_none, Bool.false_eq_true, if_false, cRest]
            rw [get_takeBelow hc, if_pos hi, (after_spec hc).2.2, if_neg (by omega)]
            cases get c i <;> rfl
        · subst hi
          rw [if_pos rfl, if_pos (Nat.le_refl _), if_pos rfl, hmn]
          simp only [Option.any_some, ht, Spec.write, if_true, Option.any_none,
            Bool.false_eq_true, if_false]
          cases outp with
          | replace => simp
          | merge =>
            simp only [cRest]
            rw [get_takeBelow hc, if_neg (Nat.lt_irrefl _), (after_spec hc).2.2,
              if_neg (Nat.lt_irrefl _)]
            simp
        · rw [if_neg (by omega), if_pos (by omega), if_neg (by omega), Option.none_or]
          cases outp with
          | replace => simp [Spec.write]
          | merge =>
            simp only [cRest]
            rw [get_takeBelow hc, if_neg (by omega), (after_spec hc).2.2, if_pos hi,
              Option.none_or]
    · rw [awm_cons, if_pos (by simp [ht])]
      obtain ⟨h1, h2⟩ := ih hm.2 c z hc hz
      refine ⟨h1, ?_⟩
      intro i
      rw [h2 i, get_cons]
      by_cases hi : mi = i
      · subst hi
        rw [if_pos rfl, hmn]
        simp [ht]
      · rw [if_neg hi]

/-! ### masks -/

theorem complementLoop_spec (kf : μ → Bool) (n : Nat) : ∀ (lo : Nat) (r : Row μ), Sorted r →
    (∀ p ∈ r, lo ≤ p.1) →
    Sorted (complementLoop kf (List.range' lo n) r) ∧
    (∀ p ∈ complementLoop kf (List.range' lo n) r, lo ≤ p.1) ∧
    ∀ i, get (complementLoop kf (List.range' lo n) r) i
      = if lo ≤ i ∧ i < lo + n ∧ (get r i).all kf then some true else none := by
  induction n with
  | zero =>
    intro lo r hr hlo
    simp only [List.range'_zero, complementLoop]
    refine ⟨sorted_nil, by simp, fun i => ?_⟩
    rw [if_neg (by omega)]; rfl
  | succ n ih =>
    intro lo r hr hlo
    rw [List.range'_succ]
    have hput : ∀ (r' : Row μ), Sorted r' → (∀ p ∈ r', lo + 1 ≤ p.1) →
        (∀ i, lo < i → get r' i = get r i) → (get r lo).all kf = true →
        Sorted ((lo, true) :: complementLoop kf (List.range' (lo+1) n) r') ∧
        (∀ p ∈ (lo, true) :: complementLoop kf (List.range' (lo+1) n) r', lo ≤ p.1) ∧
        ∀ i, get ((lo, true) :: complementLoop kf (List.range' (lo+1) n) r') i
          = if lo ≤ i ∧ i < lo + (n+1) ∧ (get r i).all kf then some true else none := by
      intro r' hr' hlo' hg hk
      obtain ⟨h1, h2, h3⟩ := ih (lo+1) r' hr' hlo'
      refine ⟨sorted_cons.2 ⟨fun q hq => h2 q hq, h1⟩, ?_, ?_⟩
      · intro p hp
        rcases List.mem_cons.1 hp with rfl | hp
        · exact Nat.le_refl _
        · have := h2 p hp; omega
      · intro i
        rw [get_cons, h3]
        by_cases hi : lo = i
        · subst hi; rw [if_pos rfl, if_pos ⟨Nat.le_refl _, by omega, hk⟩]
        · rw [if_neg hi]
          by_cases hi2 : lo < i
          · rw [hg i hi2]
            have : (lo + 1 ≤ i ∧ i < lo + 1 + n ∧ (get r i).all kf = true)
              ↔ (lo ≤ i ∧ i < lo + (n + 1) ∧ (get r i).all kf = true) := by
              constructor <;> (rintro ⟨a, b, c⟩; exact ⟨by omega, by omega, c⟩)
            simp only [this]
          · rw [if_neg (by omega), if_neg (by omega)]
    cases r with
    | nil =>
      rw [complementLoop]
      exact hput [] sorted_nil (by simp) (fun i _ => rfl) rfl
    | cons p r =>
      obtain ⟨k, v⟩ := p
      rw [complementLoop]
      have hk := hlo (k, v) (List.mem_cons_self ..)
      have hr' := hr
      rw [sorted_cons] at hr'
      simp only at hk hr'
      split
      · next hlt =>
        have hall : ∀ p ∈ (k, v) :: r, lo + 1 ≤ p.1 := by
          intro p hp
          rcases List.mem_cons.1 hp with rfl | hp
          · exact hlt
          · have := hr'.1 p hp; omega
        refine hput _ hr hall (fun i _ => rfl) ?_
        rw [get_none_of_lt hall]; rfl
      · next hnl =>
        obtain rfl : k = lo := by omega
        have hrl : ∀ p ∈ r, k + 1 ≤ p.1 := fun p hp => hr'.1 p hp
        have hg : ∀ i, k < i → get r i = get ((k, v) :: r) i := fun i hi => by
          rw [get_cons, if_neg (by omega)]
        split
        · next hv =>
          refine hput r hr'.2 hrl hg ?_
          rw [get_cons, if_pos rfl]; simpa using hv
        · next hv =>
          obtain ⟨h1, h2, h3⟩ := ih (k+1) r hr'.2 hrl
          refine ⟨h1, fun p hp => ?_, ?_⟩
          · have := h2 p hp; omega
          · intro i
            rw [h3]
            by_cases hi : k < i
            · rw [hg i hi]
              have : (k + 1 ≤ i ∧ i < k + 1 + n ∧ (get ((k, v) :: r) i).all kf = true)
                ↔ (k ≤ i ∧ i < k + (n + 1) ∧ (get ((k, v) :: r) i).all kf = true) := by
                constructor <;> (rintro ⟨a, b, c⟩; exact ⟨by omega, by omega, c⟩)
              simp only [this]
            · rw [if_neg (by omega)]
              by_cases hi2 : k = i
              · subst hi2
                rw [if_neg]
                rw [get_cons, if_pos rfl]
                simpa using hv
              · rw [if_neg (by omega)]

theorem maskRow_spec (truthy : μ → Bool) (k : MaskKind) {n : Nat} {r : Row μ} (hr : Sorted r) :
    Sorted (maskRow truthy k n r) ∧
    ∀ i, i < n → (get (maskRow truthy k n r) i).any id = Spec.allows truthy k (get r i) := by
  cases k with
  | plain =>
    simp only [maskRow]
    refine ⟨sorted_cast hr, fun i _ => ?_⟩
    rw [get_cast]
    cases get r i <;> rfl
  | struct =>
    have e : structureRow r = Row.cast (fun _ => true) r := rfl
    simp only [maskRow, e]
    refine ⟨sorted_cast hr, fun i _ => ?_⟩
    rw [get_cast]
    cases get r i <;> rfl
  | comp =>
    simp only [maskRow, List.range_eq_range']
    obtain ⟨h1, _, h3⟩ := complementLoop_spec (fun v => !truthy v) n 0 r hr (fun _ _ => Nat.zero_le _)
    refine ⟨h1, fun i hi => ?_⟩
    rw [h3]
    simp only [Nat.zero_le, Nat.zero_add, hi, true_and]
    cases get r i with
    | none => simp [Spec.allows]
    | some v => cases h : truthy v <;> simp [Spec.allows, h]
  | structComp =>
    simp only [maskRow, List.range_eq_range']
    obtain ⟨h1, _, h3⟩ := complementLoop_spec (fun _ : μ => false) n 0 r hr (fun _ _ => Nat.zero_le _)
    refine ⟨h1, fun i hi => ?_⟩
    rw [h3]
    simp only [Nat.zero_le, Nat.zero_add, hi, true_and]
    cases get r i with
    | none => simp [Spec.allows]
    | some v => simp [Spec.allows]

/-- One row (or vector) of the masked write. -/
theorem applyMaskRow_spec (truthy : μ → Bool) (castZ : ζ → γ) (k : MaskKind) (outp : Outp) {n : Nat}
    {c : Row γ} {z : Row ζ} {m : Row μ} (hc : OK n c) (hz : OK n z) (hm : Sorted m) :
    OK n (applyWithMask id castZ outp c z (maskRow truthy k n m)) ∧
    ∀ i, get (applyWithMask id castZ outp c z (maskRow truthy k n m)) i
      = Spec.write castZ (Spec.allows truthy k (get m i)) outp (get c i) (get z i) := by
  obtain ⟨h1, h2⟩ := maskRow_spec truthy k (n := n) hm
  obtain ⟨h3, h4⟩ := applyWithMask_spec id castZ outp _ h1 c z hc.sorted hz.sorted
  refine ⟨⟨h3, ?_⟩, ?_⟩
  · intro q hq
    rcases applyWithMask_keys _ _ _ _ _ _ q hq with ⟨_, p, hp, e⟩ | ⟨⟨p, hp, e⟩, _⟩
    · rw [← e]; exact hc.bound p hp
    · rw [← e]; exact hz.bound p hp
  · intro i
    rw [h4]
    by_cases hi : i < n
    · rw [h2 i hi]
    · rw [hc.get_none (by omega), hz.get_none (by omega)]
      cases outp <;> simp [Spec.write]

/-! ### loops that set one row after the other -/

namespace Lil

theorem setRow_cast (A : Lil α) (i : Nat) (c : β → α) (r : Row β) :
    A.setRow i c r = A.setRow i id (r.cast c) := by
  rw [setRow, setRow, Row.cast_id]
  simp [Row.cast]

theorem rowLoop_spec {Z : Lil α} (hZ : Z.WF) {n : Nat} (hn : n = Z.nrows) (f : Nat → Row α)
    (hf : ∀ i, i < n → Row.OK Z.ncols (f i)) {body : Nat → Lil α → Except Err (Lil α)}
    (hbody : ∀ i Z', i < n → Z'.WF → Z'.nrows = Z.nrows → Z'.ncols = Z.ncols →
      (∀ k, Z'.rowD k = if k < i then f k else Z.rowD k) →
      body i Z' = Z'.setRow i id (f i) ∨
        (f i = [] ∧ Z'.rowD i = [] ∧ body i Z' = .ok Z')) :
    ∃ Z', forN n Z body = .ok Z' ∧ Z'.WF ∧ Z'.nrows = Z.nrows ∧ Z'.ncols = Z.ncols ∧
      (∀ k, Z'.rowD k = if k < n then f k else []) := by
  subst hn
  obtain ⟨Z', h1, h2, h3, h4, h5⟩ := forN_inv (body := body)
    (fun i Z' => Z'.WF ∧ Z'.nrows = Z.nrows ∧ Z'.ncols = Z.ncols ∧
      ∀ k, Z'.rowD k = if k < i then f k else Z.rowD k) (n := Z.nrows) (s := Z)
    ⟨hZ, rfl, rfl, fun k => by simp⟩ (by
      rintro i Z' hi ⟨hw, hr, hc, hrow⟩
      rcases hbody i Z' hi hw hr hc hrow with e | ⟨e1, e2, e⟩
      · obtain ⟨B, e', hB, hBr, hBc, hBw, hBrow⟩ :=
          setRow_spec (c := id) (i := i) hw.toWFr (by omega) (by rw [hc]; exact hf i hi)
        refine ⟨B, by rw [e, e'], hBw hw, by omega, by omega, ?_⟩
        intro k
        rw [hBrow, hrow, Row.cast_id]
        by_cases hk : k = i
        · subst hk; rw [if_pos rfl, if_pos (by omega)]
        · rw [if_neg hk]
          by_cases hk2 : k < i
          · rw [if_pos hk2, if_pos (by omega)]
          · rw [if_neg hk2, if_neg (by omega)]
      · refine ⟨Z', e, hw, hr, hc, ?_⟩
        intro k
        by_cases hk : k = i
        · subst hk; rw [e2, if_pos (by omega), e1]
        · rw [hrow]
          by_cases hk2 : k < i
          · rw [if_pos hk2, if_pos (by omega)]
          · rw [if_neg hk2, if_neg (by omega)])
  refine ⟨Z', h1, h2, h3, h4, ?_⟩
  intro k
  rw [h5]
  split
  · rfl
  · exact rowD_of_ge (by rw [hZ.len]; omega)

end Lil

/-! ### matrices: copy, accumulate, masked write -/

theorem sparseCopy_spec {cast : β → α} {dst : Lil α} {src : Lil β} (hd : dst.WFr) (hs : src.WFr)
    (hr : dst.nrows = src.nrows) (hc : dst.ncols = src.ncols) :
    ∃ D, sparseCopy cast dst src = .ok D ∧ D.WF ∧ D.nrows = dst.nrows ∧ D.ncols = dst.ncols ∧
      ∀ i j, D.get i j = (src.get i j).map cast := by
  obtain ⟨D, h1, h2, h3, h4, h5⟩ := Lil.rowLoop_spec (Lil.clear_wf hd) (n := dst.nrows) rfl
    (fun i => Row.cast cast (src.rowD i))
    (fun i _ => by
      have := (hs.rowD_ok i).cast (c := cast)
      rw [← hc] at this; exact this)
    (body := fun i d => do
      let srcRow ← src.row i
      let dstRow := Row.cast cast srcRow
      if !dstRow.isEmpty then d.setRow i id dstRow else .ok d) (by
      intro i Z' hi hw hZr hZc hrow
      rw [hs.row_ok (by omega)]
      simp only [Except.bind_ok']
      cases he : (Row.cast cast (src.rowD i)).isEmpty with
      | false => left; rfl
      | true =>
        right
        refine ⟨List.isEmpty_iff.1 he, ?_, rfl⟩
        rw [hrow, if_neg (Nat.lt_irrefl _), Lil.rowD_clear])
  refine ⟨D, h1, h2, h3, h4, ?_⟩
  intro i j
  simp only [Lil.get, h5]
  split
  · exact get_cast ..
  · rw [Lil.rowD_of_ge (by rw [hs.len]; omega)]; rfl

theorem ewiseOrOptAccum_spec {Z : Lil ζ} {C : Lil γ} {T : Lil τ} (acc : Accum γ τ ζ)
    (hZ : Z.WF) (hC : C.WFr) (hT : T.WFr)
    (hCr : C.nrows = Z.nrows) (hCc : C.ncols = Z.ncols)
    (hTr : T.nrows = Z.nrows) (hTc : T.ncols = Z.ncols) :
    ∃ Z', ewiseOrOptAccum Z C T acc = .ok Z' ∧ Z'.WF ∧ Z'.nrows = Z.nrows ∧ Z'.ncols = Z.ncols ∧
      ∀ i j, Z'.get i j = Spec.accum acc (C.get i j) (T.get i j) := by
  cases acc with
  | none cast =>
    obtain ⟨D, h1, h2, h3, h4, h5⟩ := sparseCopy_spec (cast := cast) hZ.toWFr hT hTr.symm hTc.symm
    exact ⟨D, h1, h2, h3, h4, fun i j => by rw [h5]; rfl⟩
  | some op cC cT =>
    obtain ⟨D, h1, h2, h3, h4, h5⟩ := Lil.rowLoop_spec hZ (n := Z.nrows) rfl
      (fun i => ewiseOr op cC cT (C.rowD i) (T.rowD i))
      (fun i _ => ewiseOr_ok (by rw [← hCc]; exact hC.rowD_ok i) (by rw [← hTc]; exact hT.rowD_ok i))
      (body := fun i Z => do
        let c ← C.row i
        let t ← T.row i
        Z.setRow i id (ewiseOr op cC cT c t)) (by
        intro i Z' hi hw hZr hZc hrow
        left
        rw [hC.row_ok (by omega), hT.row_ok (by omega)]
        rfl)
    refine ⟨D, h1, h2, h3, h4, ?_⟩
    intro i j
    simp only [Lil.get, h5]
    split
    · rw [(ewiseOr_spec _ _ (hC.rowD_ok i).sorted (hT.rowD_ok i).sorted).2]
      cases Row.get (C.rowD i) j <;> cases Row.get (T.rowD i) j <;> rfl
    · rw [Lil.rowD_of_ge (by rw [hC.len]; omega), Lil.rowD_of_ge (by rw [hT.len]; omega)]; rfl

theorem writeWithOptMask_spec (truthy : μ → Bool) (castZ : ζ → γ) {C : Lil γ} {Z : Lil ζ}
    (M : MMask μ) (outp : Outp) (hC : C.WF) (hZ : Z.WFr)
    (hZr : Z.nrows = C.nrows) (hZc : Z.ncols = C.ncols) (hM : M.OK C.nrows C.ncols) :
    ∃ C', writeWithOptMask truthy castZ C Z M outp = .ok C' ∧ C'.WF ∧ C'.nrows = C.nrows ∧
      C'.ncols = C.ncols ∧
      ∀ i j, C'.get i j
        = Spec.write castZ (M.allows truthy i j) outp (C.get i j) (Z.get i j) := by
  cases M with
  | none =>
    obtain ⟨D, h1, h2, h3, h4, h5⟩ := sparseCopy_spec (cast := castZ) hC.toWFr hZ hZr.symm hZc.symm
    exact ⟨D, h1, h2, h3, h4, fun i j => by rw [h5]; simp [MMask.allows, Spec.write]⟩
  | some km =>
    obtain ⟨k, M⟩ := km
    obtain ⟨hMw, hMr, hMc⟩ := hM
    have hrow := fun i => applyMaskRow_spec truthy castZ k outp (n := C.ncols) (hC.rowD_ok i)
      (by rw [← hZc]; exact hZ.rowD_ok i) (hMw.rowD_ok i).sorted
    obtain ⟨D, h1, h2, h3, h4, h5⟩ := Lil.rowLoop_spec hC (n := C.nrows) rfl
      (fun i => applyWithMask id castZ outp (C.rowD i) (Z.rowD i)
        (maskRow truthy k C.ncols (M.rowD i)))
      (fun i _ => (hrow i).1)
      (body := fun i C => do
        let c ← C.row i
        let z ← Z.row i
        let m ← M.row i
        C.setRow i id (applyWithMask id castZ outp c z (maskRow truthy k M.ncols m))) (by
        intro i Z' hi hw hZ'r hZ'c hrow'
        left
        rw [hw.row_ok (by omega), hZ.row_ok (by omega), hMw.row_ok (by omega), hrow',
          if_neg (Nat.lt_irrefl _), hMc]
        rfl)
    refine ⟨D, h1, h2, h3, h4, ?_⟩
    intro i j
    simp only [Lil.get, h5]
    split
    · rw [(hrow i).2]; rfl
    · rw [Lil.rowD_of_ge (A := C) (by rw [hC.len]; omega),
        Lil.rowD_of_ge (A := Z) (by rw [hZ.len]; omega)]
      cases outp <;> simp [Spec.write]

/-- The common tail of every matrix operation: accumulate, then write through the
mask. -/
theorem matrix_tail {T : Lil τ} {C : Lil γ} (truthy : μ → Bool) (castZ : ζ → γ) (M : MMask μ)
    (acc : Accum γ τ ζ) (outp : Outp) (hC : C.WF) (hT : T.WFr)
    (hTr : T.nrows = C.nrows) (hTc : T.ncols = C.ncols) (hM : M.OK C.nrows C.ncols) :
    ∃ Z C', ewiseOrOptAccum (Lil.new C.nrows C.ncols) C T acc = .ok Z ∧
      writeWithOptMask truthy castZ C Z M outp = .ok C' ∧ C'.WF ∧ C'.nrows = C.nrows ∧
      C'.ncols = C.ncols ∧
      ∀ i j, C'.get i j = Spec.write castZ (M.allows truthy i j) outp (C.get i j)
        (Spec.accum acc (C.get i j) (T.get i j)) := by
  obtain ⟨Z, h1, h2, h3, h4, h5⟩ := ewiseOrOptAccum_spec acc (Lil.new_wf C.nrows C.ncols) hC.toWFr
    hT rfl rfl hTr hTc
  obtain ⟨C', g1, g2, g3, g4, g5⟩ := writeWithOptMask_spec truthy castZ M outp hC h2.toWFr
    h3 h4 hM
  refine ⟨Z, C', h1, g1, g2, g3, g4, ?_⟩
  intro i j
  rw [g5, h5]

/-! ### vectors -/

theorem ewiseOrOptAccum1D_spec {w : BVec γ} {t : Row τ} (acc : Accum γ τ ζ) (hw : w.WF)
    (ht : Row.OK w.size t) :
    ∃ z : Row ζ, ewiseOrOptAccum1D w t acc = .ok z ∧ Row.OK w.size z ∧
      ∀ i, z.get i = Spec.accum acc (w.get i) (Row.get t i) := by
  cases acc with
  | none cast =>
    refine ⟨Row.cast cast t, rfl, ht.cast, fun i => ?_⟩
    rw [get_cast]; rfl
  | some op cC cT =>
    obtain ⟨r, h1, h2, h3, _⟩ := BVec.getContents_spec hw
    refine ⟨ewiseOr op cC cT r t, by simp [ewiseOrOptAccum1D, h1], ewiseOr_ok h2 ht, fun i => ?_⟩
    rw [(ewiseOr_spec _ _ h2.sorted ht.sorted).2, ← h3]
    cases Row.get r i <;> cases Row.get t i <;> rfl

theorem writeWithOptMask1D_spec (truthy : μ → Bool) (castZ : ζ → γ) {w : BVec γ} {z : Row ζ}
    (M : VMask μ) (outp : Outp) (hw : w.WF) (hz : Row.OK w.size z) (hM : M.OK w.size) :
    ∃ w', writeWithOptMask1D truthy castZ w z M outp = .ok w' ∧ w'.WF ∧ w'.size = w.size ∧
      ∀ i, w'.get i = Spec.write castZ (M.allows truthy i) outp (w.get i) (Row.get z i) := by
  cases M with
  | none =>
    obtain ⟨D, h1, h2, h3, h4⟩ := BVec.setContents_spec hw.vlen castZ hz
    exact ⟨D, h1, h2, h3, fun i => by rw [h4]; simp [VMask.allows, Spec.write]⟩
  | some km =>
    obtain ⟨k, m⟩ := km
    obtain ⟨hm, hms⟩ := hM
    obtain ⟨c, c1, c2, c3, _⟩ := BVec.getContents_spec hw
    obtain ⟨mc, m1, m2, m3, _⟩ := BVec.getContents_spec hm
    obtain ⟨a1, a2⟩ := applyMaskRow_spec truthy castZ k outp (n := w.size) c2 hz m2.sorted
    obtain ⟨D, h1, h2, h3, h4⟩ := BVec.setContents_spec hw.vlen id a1
    refine ⟨D, ?_, h2, h3, fun i => ?_⟩
    · simp only [writeWithOptMask1D, c1, m1, Except.bind_ok', hms, h1]
    · rw [h4, a2, c3, m3]
      simp [VMask.allows]

theorem vector_tail {t : Row τ} {w : BVec γ} (truthy : μ → Bool) (castZ : ζ → γ) (M : VMask μ)
    (acc : Accum γ τ ζ) (outp : Outp) (hw : w.WF) (ht : Row.OK w.size t) (hM : M.OK w.size) :
    ∃ z w', ewiseOrOptAccum1D w t acc = .ok z ∧
      writeWithOptMask1D truthy castZ w z M outp = .ok w' ∧ w'.WF ∧ w'.size = w.size ∧
      ∀ i, w'.get i = Spec.write castZ (M.allows truthy i) outp (w.get i)
        (Spec.accum acc (w.get i) (Row.get t i)) := by
  obtain ⟨z, h1, h2, h3⟩ := ewiseOrOptAccum1D_spec acc hw ht
  obtain ⟨w', g1, g2, g3, g4⟩ := writeWithOptMask1D_spec truthy castZ M outp hw h2 hM
  exact ⟨z, w', h1, g1, g2, g3, fun i => by rw [g4, h3]⟩

end GBTL
