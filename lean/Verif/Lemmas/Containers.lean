import Verif.Lemmas.Lil
import Verif.Model.Calls
namespace GBTL
open Spec (VecCall MatCall Ans AVec AMat runCalls combined combinedFrom)

/-! ### Simulation -/

structure VSim {α : Type} (v : BVec α) (a : AVec α) : Prop where
  wf : v.WF
  size : v.size = a.size
  get : ∀ i, v.get i = a.map i

theorem count_congr {α : Type} {n : Nat} {f g : Nat → Option α} (h : ∀ i, f i = g i) :
    Spec.Vec.count n f = Spec.Vec.count n g := by
  have : f = g := funext h
  rw [this]

theorem vsim_step {α : Type} [Inhabited α] {v : BVec α} {a : AVec α} (h : VSim v a)
    (c : VecCall α) : (v.call c).1 = (a.step c).1 ∧ VSim (v.call c).2 (a.step c).2 := by
  obtain ⟨hw, hs, hg⟩ := h
  cases c with
  | set i x =>
    simp only [BVec.call, AVec.step]
    by_cases hi : i < v.size
    · obtain ⟨w, e, h1, h2, h3⟩ := BVec.setElement_spec hw hi x
      rw [e, if_pos (by omega)]
      refine ⟨rfl, h1, by simp [h2, hs], ?_⟩
      intro k; simp only [h3, Spec.Vec.set, hg]
    · have e : v.setElement i x = (.error .indexOutOfBounds, v) := by
        rw [BVec.setElement, if_pos (by omega)]
      rw [e, if_neg (by omega)]
      exact ⟨rfl, hw, hs, hg⟩
  | remove i =>
    simp only [BVec.call, AVec.step]
    by_cases hi : i < v.size
    · obtain ⟨w, e, h1, h2, h3⟩ := BVec.removeElement_spec hw hi
      rw [e, if_pos (by omega)]
      refine ⟨rfl, h1, by simp [h2, hs], ?_⟩
      intro k; simp only [h3, Spec.Vec.set, hg]
    · have e : v.removeElement i = (.error .indexOutOfBounds, v) := by
        rw [BVec.removeElement, if_pos (by omega)]
      rw [e, if_neg (by omega)]
      exact ⟨rfl, hw, hs, hg⟩
  | clear =>
    exact ⟨rfl, BVec.clear_wf hw.vlen, hs, fun i => BVec.get_clear v i⟩
  | resize n =>
    simp only [BVec.call, AVec.step, BVec.resize]
    by_cases hn : n = 0
    · rw [if_pos hn, if_pos hn]; exact ⟨rfl, hw, hs, hg⟩
    · rw [if_neg hn, if_neg hn]
      obtain ⟨h1, h2, h3⟩ := BVec.resizeBackend_spec hw n
      refine ⟨rfl, h1, h2, ?_⟩
      intro k; simp only [h3, hg]
  | has i =>
    simp only [BVec.call, AVec.step, BVec.hasElement]
    by_cases hi : i < v.size
    · rw [if_neg (by omega), if_pos (by omega), BVec.rd_bitmap hw.vlen hw.blen hi, hg]
      exact ⟨rfl, hw, hs, hg⟩
    · rw [if_pos (by omega), if_neg (by omega)]
      exact ⟨rfl, hw, hs, hg⟩
  | extract i =>
    simp only [BVec.call, AVec.step, BVec.extractElement]
    by_cases hi : i < v.size
    · rw [if_neg (by omega), if_pos (by omega), BVec.rd_bitmap hw.vlen hw.blen hi]
      cases hx : v.get i with
      | none => rw [← hg i, hx]; exact ⟨rfl, hw, hs, hg⟩
      | some x =>
        rw [← hg i, hx]
        simp only [Option.isSome_some, BVec.rd_vals hx]
        exact ⟨trivial, hw, hs, hg⟩
    · rw [if_pos (by omega), if_neg (by omega)]
      exact ⟨rfl, hw, hs, hg⟩
  | nvals =>
    refine ⟨?_, hw, hs, hg⟩
    simp only [BVec.call, AVec.step, hw.nvals_eq, hs]
    rw [count_congr hg]
  | size => exact ⟨by simp [BVec.call, AVec.step, hs], hw, hs, hg⟩

theorem sim_run {σ τ κ ω : Type} {f : σ → κ → ω × σ} {g : τ → κ → ω × τ} {R : σ → τ → Prop}
    (hstep : ∀ s t c, R s t → (f s c).1 = (g t c).1 ∧ R (f s c).2 (g t c).2)
    (cs : List κ) : ∀ s t, R s t → (runCalls f s cs).1 = (runCalls g t cs).1 ∧
      R (runCalls f s cs).2 (runCalls g t cs).2 := by
  induction cs with
  | nil => intro s t h; exact ⟨rfl, h⟩
  | cons c cs ih =>
    intro s t h
    obtain ⟨h1, h2⟩ := hstep s t c h
    obtain ⟨h3, h4⟩ := ih _ _ h2
    simp only [runCalls]
    exact ⟨by rw [h1, h3], h4⟩

structure MSim {α : Type} (A : Lil α) (a : AMat α) : Prop where
  wf : A.WF
  nrows : A.nrows = a.nrows
  ncols : A.ncols = a.ncols
  get : ∀ i j, A.get i j = a.map i j

theorem msim_step {α : Type} {A : Lil α} {a : AMat α} (h : MSim A a)
    (c : MatCall α) : (A.call c).1 = (a.step c).1 ∧ MSim (A.call c).2 (a.step c).2 := by
  obtain ⟨hw, hr, hc, hg⟩ := h
  cases c with
  | set i j x =>
    simp only [Lil.call, AMat.step]
    by_cases hi : i < A.nrows ∧ j < A.ncols
    · obtain ⟨w, e, h1, h2, h2', h3⟩ := Lil.setElement_spec hw hi.1 hi.2 x
      rw [e, if_pos (by omega)]
      refine ⟨rfl, h1, by simp [h2, hr], by simp [h2', hc], ?_⟩
      intro k l; simp only [h3, Spec.Mat.set, hg]
    · have e : A.setElement i j x = (.error .indexOutOfBounds, A) := by
        rw [Lil.setElement, Lil.setElementMerge, if_pos (by omega)]
      rw [e, if_neg (by omega)]
      exact ⟨rfl, hw, hr, hc, hg⟩
  | setMerge i j x m =>
    simp only [Lil.call, AMat.step]
    by_cases hi : i < A.nrows ∧ j < A.ncols
    · obtain ⟨w, e, h1, h2, h2', h3⟩ := Lil.setElementMerge_spec hw hi.1 hi.2 x m
      rw [e, if_pos (by omega)]
      refine ⟨rfl, h1, by simp [h2, hr], by simp [h2', hc], ?_⟩
      intro k l; simp only [h3, Spec.Mat.set, hg]
      rw [← hg i j]
      cases A.get i j <;> rfl
    · have e : A.setElementMerge i j x m = (.error .indexOutOfBounds, A) := by
        rw [Lil.setElementMerge, if_pos (by omega)]
      rw [e, if_neg (by omega)]
      exact ⟨rfl, hw, hr, hc, hg⟩
  | remove i j =>
    simp only [Lil.call, AMat.step]
    by_cases hi : i < A.nrows ∧ j < A.ncols
    · obtain ⟨w, e, h1, h2, h2', h3⟩ := Lil.removeElement_spec hw hi.1 hi.2
      rw [e, if_pos (by omega)]
      refine ⟨rfl, h1, by simp [h2, hr], by simp [h2', hc], ?_⟩
      intro k l; simp only [h3, Spec.Mat.set, hg]
    · have e : A.removeElement i j = (.error .indexOutOfBounds, A) := by
        rw [Lil.removeElement, if_pos (by omega)]
      rw [e, if_neg (by omega)]
      exact ⟨rfl, hw, hr, hc, hg⟩
  | clear =>
    exact ⟨rfl, Lil.clear_wf hw.toWFr, hr, hc, fun i j => by simp [Lil.call, AMat.step, Lil.get]⟩
  | resize m n =>
    simp only [Lil.call, AMat.step, Lil.resize]
    by_cases hn : m = 0 ∨ n = 0
    · rw [if_pos hn, if_pos hn]; exact ⟨rfl, hw, hr, hc, hg⟩
    · rw [if_neg hn, if_neg hn]
      obtain ⟨h1, h2, h2', h3⟩ := Lil.resizeBackend_spec hw m n
      refine ⟨rfl, h1, h2, h2', ?_⟩
      intro k l; simp only [h3, hg]
  | has i j =>
    simp only [Lil.call, AMat.step]
    by_cases hi : i < A.nrows ∧ j < A.ncols
    · rw [if_pos (by omega), Lil.hasElement_spec hw.toWFr hi.1 hi.2, hg]
      exact ⟨rfl, hw, hr, hc, hg⟩
    · rw [if_neg (by omega), Lil.hasElement, if_pos (by omega)]
      exact ⟨rfl, hw, hr, hc, hg⟩
  | extract i j =>
    simp only [Lil.call, AMat.step]
    by_cases hi : i < A.nrows ∧ j < A.ncols
    · rw [if_pos (by omega), Lil.extractElement_spec hw.toWFr hi.1 hi.2, hg]
      cases a.map i j <;> exact ⟨rfl, hw, hr, hc, hg⟩
    · rw [if_neg (by omega), Lil.extractElement, if_pos (by omega)]
      exact ⟨rfl, hw, hr, hc, hg⟩
  | nvals =>
    refine ⟨?_, hw, hr, hc, hg⟩
    have e : A.get = a.map := funext fun i => funext fun j => hg i j
    simp only [Lil.call, AMat.step, hw.nvals_eq, hr, hc, e]
  | shape => exact ⟨by simp [Lil.call, AMat.step, hr, hc], hw, hr, hc, hg⟩

/-! ### build -/

theorem combinedFrom_cons {ι α : Type} [DecidableEq ι] (dup : α → α → α) (old : Option α)
    (k : ι) (x : α) (ts : List (ι × α)) (i : ι) :
    combinedFrom dup old ((k, x) :: ts) i =
      if k = i then combinedFrom dup (Spec.mergeInto dup old x) ts i
      else combinedFrom dup old ts i := by
  by_cases h : k = i
  · cases old <;> simp [combinedFrom, combined, h, Spec.mergeInto]
  · cases old <;> simp [combinedFrom, combined, h]

theorem combinedFrom_nil {ι α : Type} [DecidableEq ι] (dup : α → α → α) (old : Option α) (i : ι) :
    combinedFrom dup old [] i = old := by
  cases old <;> simp [combinedFrom, combined]

theorem combinedFrom_not_mem {ι α : Type} [DecidableEq ι] (dup : α → α → α) (old : Option α)
    (ts : List (ι × α)) (i : ι) (h : ∀ t ∈ ts, t.1 ≠ i) : combinedFrom dup old ts i = old := by
  induction ts generalizing old with
  | nil => exact combinedFrom_nil dup old i
  | cons t ts ih =>
    obtain ⟨k, x⟩ := t
    rw [combinedFrom_cons, if_neg (h (k, x) (List.mem_cons_self ..))]
    exact ih old fun t ht => h t (List.mem_cons_of_mem _ ht)

namespace BVec
variable {α : Type}

/-- content of a pair of arrays -/
def arrGet (vals : List α) (bitmap : List Bool) (i : Nat) : Option α :=
  if bitmap[i]? = some true then vals[i]? else none

theorem buildLoop_spec (n : Nat) (dup : α → α → α) (ts : List (Nat × α)) :
    ∀ (vals : List α) (bitmap : List Bool), vals.length = n → bitmap.length = n →
    (∀ t ∈ ts, t.1 < n) →
    ∃ vals' bitmap', buildLoop n dup ts vals bitmap = .ok (vals', bitmap') ∧
      vals'.length = n ∧ bitmap'.length = n ∧
      ∀ i, arrGet vals' bitmap' i = combinedFrom dup (arrGet vals bitmap i) ts i := by
  induction ts with
  | nil =>
    intro vals bitmap h1 h2 _
    exact ⟨vals, bitmap, rfl, h1, h2, fun i => (combinedFrom_nil dup _ i).symm⟩
  | cons t ts ih =>
    intro vals bitmap h1 h2 hb
    obtain ⟨k, x⟩ := t
    have hk : k < n := hb (k, x) (List.mem_cons_self ..)
    have hts : ∀ t ∈ ts, t.1 < n := fun t ht => hb t (List.mem_cons_of_mem _ ht)
    have hkb : k < bitmap.length := by omega
    have hkv : k < vals.length := by omega
    rw [buildLoop, if_neg (by omega), rd_ok hkb, Except.bind_ok']
    cases hbit : bitmap[k] with
    | true =>
      simp only [if_true, rd_ok hkv, wr_ok hkv, Except.bind_ok']
      obtain ⟨v', b', e, l1, l2, hg⟩ := ih (vals.set k (dup vals[k] x)) bitmap (by simp [h1]) h2 hts
      refine ⟨v', b', e, l1, l2, ?_⟩
      intro i
      rw [hg i, combinedFrom_cons]
      by_cases hi : k = i
      · subst hi
        simp [arrGet, List.getElem?_eq_getElem hkb, hbit, hkv, Spec.mergeInto]
      · simp [arrGet, hi]
    | false =>
      simp only [Bool.false_eq_true, if_false, wr_ok hkv, wr_ok hkb, Except.bind_ok']
      obtain ⟨v', b', e, l1, l2, hg⟩ :=
        ih (vals.set k x) (bitmap.set k true) (by simp [h1]) (by simp [h2]) hts
      refine ⟨v', b', e, l1, l2, ?_⟩
      intro i
      rw [hg i, combinedFrom_cons]
      by_cases hi : k = i
      · subst hi
        simp [arrGet, hbit, hkv, hkb, Spec.mergeInto]
      · simp [arrGet, hi]

theorem buildLoop_oob (n : Nat) (dup : α → α → α) (ts : List (Nat × α)) :
    ∀ (vals : List α) (bitmap : List Bool), vals.length = n → bitmap.length = n →
    (∃ t ∈ ts, n ≤ t.1) → buildLoop n dup ts vals bitmap = .error .indexOutOfBounds := by
  induction ts with
  | nil => intro _ _ _ _ h; simp at h
  | cons t ts ih =>
    intro vals bitmap h1 h2 hb
    obtain ⟨k, x⟩ := t
    rw [buildLoop]
    by_cases hk : n ≤ k
    · rw [if_pos hk]
    · rw [if_neg hk]
      have hb' : ∃ t ∈ ts, n ≤ t.1 := by
        obtain ⟨t, ht, h⟩ := hb
        rcases List.mem_cons.1 ht with rfl | ht
        · exact absurd h hk
        · exact ⟨t, ht, h⟩
      have hkb : k < bitmap.length := by omega
      have hkv : k < vals.length := by omega
      rw [rd_ok hkb, Except.bind_ok']
      cases hbit : bitmap[k] with
      | true =>
        simp only [if_true, rd_ok hkv, wr_ok hkv, Except.bind_ok']
        exact ih _ _ (by simp [h1]) h2 hb'
      | false =>
        simp only [Bool.false_eq_true, if_false, wr_ok hkv, wr_ok hkb, Except.bind_ok']
        exact ih _ _ (by simp [h1]) (by simp [h2]) hb'

theorem arrGet_empty [Inhabited α] (n i : Nat) :
    arrGet (List.replicate n (default : α)) (List.replicate n false) i = none := by
  simp only [arrGet, List.getElem?_replicate]
  split <;> simp_all

theorem build_spec [Inhabited α] (v : BVec α) (dup : α → α → α) (ts : List (Nat × α))
    (h : ∀ t ∈ ts, t.1 < v.size) :
    ∃ w, v.build dup ts = (.ok (), w) ∧ w.size = v.size ∧ w.vals.length = w.size ∧
      w.bitmap.length = w.size ∧ w.nvals = ts.length ∧ ∀ i, w.get i = combined dup ts i := by
  obtain ⟨v', b', e, l1, l2, hg⟩ := buildLoop_spec v.size dup ts (List.replicate v.size default)
    (List.replicate v.size false) (by simp) (by simp) h
  refine ⟨{ v with vals := v', bitmap := b', nvals := ts.length }, by simp [build, e], rfl, l1, l2,
    rfl, ?_⟩
  intro i
  have := hg i
  rw [arrGet_empty] at this
  exact this

end BVec

theorem Lil.build_spec {α : Type} (dup : α → α → α) (ts : List (Nat × Nat × α)) :
    ∀ (A : Lil α), A.WF → (∀ t ∈ ts, t.1 < A.nrows ∧ t.2.1 < A.ncols) →
    ∃ B, A.build dup ts = (.ok (), B) ∧ B.WF ∧ B.nrows = A.nrows ∧ B.ncols = A.ncols ∧
      ∀ i j, B.get i j = combinedFrom dup (A.get i j)
        (ts.map fun t => ((t.1, t.2.1), t.2.2)) (i, j) := by
  induction ts with
  | nil =>
    intro A hA _
    exact ⟨A, rfl, hA, rfl, rfl, fun i j => (combinedFrom_nil dup _ _).symm⟩
  | cons t ts ih =>
    intro A hA hb
    obtain ⟨i, j, x⟩ := t
    obtain ⟨hi, hj⟩ := hb _ (List.mem_cons_self ..)
    obtain ⟨B, e, hB, hn, hc, hg⟩ := Lil.setElementMerge_spec hA hi hj x dup
    obtain ⟨D, e', hD, hn', hc', hg'⟩ := ih B hB (fun t ht => by
      rw [hn, hc]; exact hb t (List.mem_cons_of_mem _ ht))
    refine ⟨D, by simp only [build, e, e'], hD, by rw [hn', hn], by rw [hc', hc], ?_⟩
    intro k l
    rw [hg' k l, List.map_cons, combinedFrom_cons, hg k l]
    by_cases hkl : k = i ∧ l = j
    · obtain ⟨rfl, rfl⟩ := hkl
      simp only [and_self, if_true]
      congr 1
      cases A.get k l <;> rfl
    · have : ¬ (i, j) = (k, l) := by
        intro h; cases h; exact hkl ⟨rfl, rfl⟩
      rw [if_neg hkl, if_neg this]

end GBTL
