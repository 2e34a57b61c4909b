import Verif.Lemmas.Basic
namespace GBTL

namespace Row
variable {α : Type}

/-- The row listing a partial function on `0..n-1`. -/
def ofFun (n : Nat) (f : Nat → Option α) : Row α :=
  (List.range n).filterMap fun i => (f i).map fun x => (i, x)

theorem mem_ofFun {n : Nat} {f : Nat → Option α} {p : Nat × α} :
    p ∈ ofFun n f ↔ p.1 < n ∧ f p.1 = some p.2 := by
  simp only [ofFun, List.mem_filterMap, List.mem_range, Option.map_eq_some_iff]
  constructor
  · rintro ⟨i, hi, x, hx, rfl⟩; exact ⟨hi, hx⟩
  · rintro ⟨h1, h2⟩; exact ⟨p.1, h1, p.2, h2, rfl⟩

theorem ofFun_ok (n : Nat) (f : Nat → Option α) : OK n (ofFun n f) := by
  refine ⟨?_, fun p hp => (mem_ofFun.1 hp).1⟩
  unfold Sorted ofFun
  apply List.Pairwise.filterMap (S := fun p q : Nat × α => p.1 < q.1) (R := fun a b : Nat => a < b)
  · intro a b hab p hp q hq
    simp only [Option.map_eq_some_iff] at hp hq
    obtain ⟨_, _, rfl⟩ := hp
    obtain ⟨_, _, rfl⟩ := hq
    exact hab
  · exact List.pairwise_lt_range

theorem get_ofFun (n : Nat) (f : Nat → Option α) (i : Nat) :
    get (ofFun n f) i = if i < n then f i else none := by
  split
  · next h =>
    cases hf : f i with
    | some x => exact get_of_mem (ofFun_ok n f).sorted (mem_ofFun.2 ⟨h, hf⟩)
    | none =>
      apply get_none_of_forall
      rintro p hp e
      have := (mem_ofFun.1 hp).2
      rw [e, hf] at this
      cases this
  · exact (ofFun_ok n f).get_none (by omega)

theorem eq_ofFun {n : Nat} {r : Row α} (hr : OK n r) {f : Nat → Option α}
    (h : ∀ i, i < n → get r i = f i) : r = ofFun n f := by
  apply ext hr.sorted (ofFun_ok n f).sorted
  intro i
  rw [get_ofFun]
  split
  · next hi => exact h i hi
  · exact hr.get_none (by omega)

end Row

namespace BVec
variable {α β : Type}

theorem countBits_set_true {l : List Bool} {i : Nat} (h : l[i]? = some false) :
    countBits (l.set i true) = countBits l + 1 := by
  induction l generalizing i with
  | nil => simp at h
  | cons b l ih =>
    cases i with
    | zero => simp at h; subst h; simp [countBits]
    | succ i =>
      have := ih (i := i) (by simpa using h)
      unfold countBits at *
      cases b <;> simp_all

theorem countBits_set_false {l : List Bool} {i : Nat} (h : l[i]? = some true) :
    countBits l = countBits (l.set i false) + 1 := by
  induction l generalizing i with
  | nil => simp at h
  | cons b l ih =>
    cases i with
    | zero => simp at h; subst h; simp [countBits]
    | succ i =>
      have := ih (i := i) (by simpa using h)
      unfold countBits at *
      cases b <;> simp_all

theorem countBits_eq (l : List Bool) :
    countBits l = ((List.range l.length).filter fun i => l[i]? = some true).length := by
  induction l with
  | nil => rfl
  | cons b l ih =>
    rw [List.length_cons, List.range_succ_eq_map, List.filter_cons, List.filter_map]
    unfold countBits at *
    rw [List.filter_cons]
    cases b
    · simpa [Function.comp_def] using ih
    · simpa [Function.comp_def] using ih

theorem countBits_replicate_false (n : Nat) : countBits (List.replicate n false) = 0 := by
  simp [countBits]

theorem countBits_replicate_true (n : Nat) : countBits (List.replicate n true) = n := by
  induction n with
  | zero => rfl
  | succ n ih => rw [List.replicate_succ]; unfold countBits at *; simp

theorem countBits_append (l k : List Bool) : countBits (l ++ k) = countBits l + countBits k := by
  simp [countBits]

theorem WF.get_none {v : BVec α} (hv : v.WF) {i : Nat} (hi : v.size ≤ i) : v.get i = none := by
  have : v.bitmap[i]? = none := by rw [List.getElem?_eq_none_iff, hv.blen]; exact hi
  simp [get, this]

/-- With arrays long enough, reading the bitmap tells whether a value is stored. -/
theorem bit_eq {v : BVec α} (h1 : v.vals.length = v.size) (h2 : v.bitmap.length = v.size)
    {i : Nat} (hi : i < v.size) : v.bitmap[i]? = some (v.get i).isSome := by
  have hb : i < v.bitmap.length := by omega
  have hv : i < v.vals.length := by omega
  simp only [get, List.getElem?_eq_getElem hb, List.getElem?_eq_getElem hv]
  cases v.bitmap[i] <;> simp

theorem get_isSome_iff {v : BVec α} (h1 : v.vals.length = v.size) (h2 : v.bitmap.length = v.size)
    {i : Nat} (hi : i < v.size) : (v.get i).isSome ↔ v.bitmap[i]? = some true := by
  rw [bit_eq h1 h2 hi]; simp

theorem countBits_eq_count {v : BVec α} (h1 : v.vals.length = v.size)
    (h2 : v.bitmap.length = v.size) : countBits v.bitmap = Spec.Vec.count v.size v.get := by
  rw [countBits_eq, Spec.Vec.count, h2]
  congr 1
  apply List.filter_congr
  intro i hi
  rw [List.mem_range] at hi
  rw [bit_eq h1 h2 hi]
  cases (v.get i).isSome <;> simp

theorem WF.nvals_eq {v : BVec α} (hv : v.WF) : v.nvals = Spec.Vec.count v.size v.get := by
  rw [hv.count, countBits_eq_count hv.vlen hv.blen]

theorem rd_bitmap {v : BVec α} (h1 : v.vals.length = v.size) (h2 : v.bitmap.length = v.size)
    {i : Nat} (hi : i < v.size) : rd v.bitmap i = .ok (v.get i).isSome := by
  rw [rd, bit_eq h1 h2 hi]

theorem rd_vals {v : BVec α} {i : Nat} {x : α} (h : v.get i = some x) : rd v.vals i = .ok x := by
  unfold get at h
  split at h
  · rw [rd, h]
  · cases h

theorem contentsLoop_eq {v : BVec α} (h1 : v.vals.length = v.size) (h2 : v.bitmap.length = v.size)
    (is : List Nat) (his : ∀ i ∈ is, i < v.size) :
    contentsLoop v is = .ok (is.filterMap fun i => (v.get i).map fun x => (i, x)) := by
  induction is with
  | nil => rfl
  | cons i is ih =>
    have hi := his i (List.mem_cons_self ..)
    have ih' := ih fun j hj => his j (List.mem_cons_of_mem _ hj)
    rw [contentsLoop, rd_bitmap h1 h2 hi, Except.bind_ok']
    cases hg : v.get i with
    | none => simp [hg, ih']
    | some x => simp [hg, ih', rd_vals hg]

/-- `getContents` lists the stored elements in ascending order. -/
theorem getContents_eq {v : BVec α} (hv : v.WF) :
    v.getContents = .ok (Row.ofFun v.size v.get) :=
  contentsLoop_eq hv.vlen hv.blen _ fun i hi => by simpa using hi

theorem extractTuples_eq {v : BVec α} (hv : v.WF) :
    v.extractTuples = .ok (Row.ofFun v.size v.get) :=
  contentsLoop_eq hv.vlen hv.blen _ fun i hi => by simpa using hi

theorem get_contents {v : BVec α} (hv : v.WF) (i : Nat) :
    Row.get (Row.ofFun v.size v.get) i = v.get i := by
  rw [Row.get_ofFun]
  split
  · rfl
  · exact (hv.get_none (by omega)).symm

/-- `getContents` as a row. -/
theorem getContents_spec {v : BVec α} (hv : v.WF) :
    ∃ r : Row α, v.getContents = .ok r ∧ Row.OK v.size r ∧ (∀ i, r.get i = v.get i) ∧
      r.length = v.nvals := by
  refine ⟨_, getContents_eq hv, Row.ofFun_ok _ _, get_contents hv, ?_⟩
  rw [Row.length_eq_count (Row.ofFun_ok _ _), hv.nvals_eq]
  congr 1
  funext i
  exact get_contents hv i

theorem clear_wf {v : BVec α} (h1 : v.vals.length = v.size) : v.clear.WF :=
  ⟨h1, by simp [clear], by simp [clear, countBits_replicate_false]⟩

@[simp] theorem get_clear (v : BVec α) (i : Nat) : v.clear.get i = none := by
  simp only [get, clear, List.getElem?_replicate]
  split <;> simp_all

theorem setContentsLoop_spec (cast : β → α) (ts : Row β) (v : BVec α) (hv : v.WF)
    (hs : Row.OK v.size ts) (hfree : ∀ p ∈ ts, v.get p.1 = none) :
    ∃ w, setContentsLoop cast ts v = .ok w ∧ w.WF ∧ w.size = v.size ∧
      ∀ i, w.get i = match Row.get ts i with | some x => some (cast x) | none => v.get i := by
  induction ts generalizing v with
  | nil => exact ⟨v, rfl, hv, rfl, fun i => rfl⟩
  | cons p ts ih =>
    obtain ⟨k, x⟩ := p
    rw [Row.ok_cons] at hs
    obtain ⟨hk, hlt, hts⟩ := hs
    have hkb : k < v.bitmap.length := by rw [hv.blen]; exact hk
    have hkv : k < v.vals.length := by rw [hv.vlen]; exact hk
    have hbit : v.bitmap[k]? = some false := by
      rw [bit_eq hv.vlen hv.blen hk, hfree _ (List.mem_cons_self ..)]; rfl
    let v1 : BVec α := { v with bitmap := v.bitmap.set k true, vals := v.vals.set k (cast x),
                                nvals := v.nvals + 1 }
    have hv1 : v1.WF := by
      refine ⟨by simp [v1, hv.vlen], by simp [v1, hv.blen], ?_⟩
      simp only [v1, countBits_set_true hbit, hv.count]
    have hg1 : ∀ i, v1.get i = if i = k then some (cast x) else v.get i := by
      intro i
      simp only [v1, get, List.getElem?_set]
      by_cases h : k = i
      · subst h; simp [hkb, hkv]
      · simp [h, Ne.symm h]
    have hfree1 : ∀ p ∈ ts, v1.get p.1 = none := by
      intro p hp
      have := hlt p hp
      simp only at this
      rw [hg1, if_neg (by omega)]
      exact hfree p (List.mem_cons_of_mem _ hp)
    obtain ⟨w, hw, hwf, hsz, hget⟩ := ih v1 hv1 hts hfree1
    refine ⟨w, ?_, hwf, hsz, ?_⟩
    · rw [setContentsLoop, wr_ok hkb, Except.bind_ok', wr_ok hkv, Except.bind_ok']
      exact hw
    · intro i
      rw [hget i, Row.get_cons, hg1]
      by_cases h : k = i
      · subst h
        rw [Row.get_none_of_lt hlt]; simp
      · simp [h, Ne.symm h]

/-- `setContents` with an ascending in-range list replaces the whole content. -/
theorem setContents_spec {v : BVec α} (hl : v.vals.length = v.size) (cast : β → α) {ts : Row β}
    (hs : Row.OK v.size ts) :
    ∃ w, v.setContents cast ts = .ok w ∧ w.WF ∧ w.size = v.size ∧
      ∀ i, w.get i = (Row.get ts i).map cast := by
  obtain ⟨w, hw, hwf, hsz, hget⟩ := setContentsLoop_spec cast ts v.clear (clear_wf hl) hs
    (fun p _ => get_clear v p.1)
  refine ⟨w, hw, hwf, hsz, ?_⟩
  intro i
  rw [hget i, get_clear]
  cases Row.get ts i <;> rfl

theorem new_spec [Inhabited α] {n : Nat} (hn : n ≠ 0) :
    ∃ v : BVec α, new n = .ok v ∧ v.WF ∧ v.size = n ∧ ∀ i, v.get i = none := by
  refine ⟨_, by rw [new, if_neg hn], ⟨by simp, by simp, by simp [countBits_replicate_false]⟩,
    rfl, ?_⟩
  intro i
  simp only [get, List.getElem?_replicate]
  split <;> simp_all

theorem setElement_spec {v : BVec α} (hv : v.WF) {i : Nat} (hi : i < v.size) (x : α) :
    ∃ w, v.setElement i x = (.ok (), w) ∧ w.WF ∧ w.size = v.size ∧
      ∀ k, w.get k = if k = i then some x else v.get k := by
  have hb : i < v.bitmap.length := by rw [hv.blen]; exact hi
  have hl : i < v.vals.length := by rw [hv.vlen]; exact hi
  have hbit := bit_eq hv.vlen hv.blen hi
  simp only [setElement, if_neg (Nat.not_le.2 hi), wr_ok hl, rd, hbit]
  cases hg : (v.get i).isSome with
  | true =>
    refine ⟨_, rfl, ⟨by simp [hv.vlen], hv.blen, hv.count⟩, rfl, ?_⟩
    intro k
    rw [hg] at hbit
    simp only [get, List.getElem?_set]
    by_cases h : i = k
    · subst h; simp [hl, hbit]
    · simp [h, Ne.symm h]
  | false =>
    rw [hg] at hbit
    refine ⟨_, rfl, ⟨by simp [hv.vlen], by simp [hv.blen], ?_⟩, rfl, ?_⟩
    · simp only [countBits_set_true hbit, hv.count]
    · intro k
      simp only [get, List.getElem?_set]
      by_cases h : i = k
      · subst h; simp [hl, hb]
      · simp [h, Ne.symm h]

theorem removeElement_spec {v : BVec α} (hv : v.WF) {i : Nat} (hi : i < v.size) :
    ∃ w, v.removeElement i = (.ok (), w) ∧ w.WF ∧ w.size = v.size ∧
      ∀ k, w.get k = if k = i then none else v.get k := by
  have hb : i < v.bitmap.length := by rw [hv.blen]; exact hi
  have hbit := bit_eq hv.vlen hv.blen hi
  simp only [removeElement, if_neg (Nat.not_le.2 hi), rd, hbit]
  cases hg : (v.get i).isSome with
  | true =>
    rw [hg] at hbit
    refine ⟨_, rfl, ⟨hv.vlen, by simp [hv.blen], ?_⟩, rfl, ?_⟩
    · have := countBits_set_false hbit
      simp only [hv.count, this]; omega
    · intro k
      simp only [get, List.getElem?_set]
      by_cases h : i = k
      · subst h; simp [hb]
      · simp [h, Ne.symm h]
  | false =>
    refine ⟨_, rfl, hv, rfl, ?_⟩
    intro k
    by_cases h : k = i
    · subst h; simpa using hg
    · simp [h]

theorem resizeBackend_spec [Inhabited α] {v : BVec α} (hv : v.WF) (n : Nat) :
    (v.resizeBackend n).WF ∧ (v.resizeBackend n).size = n ∧
      ∀ k, (v.resizeBackend n).get k = if k < n then v.get k else none := by
  have hvl := hv.vlen
  have hbl := hv.blen
  have hc := hv.count
  unfold resizeBackend
  split
  · next hlt =>
    have hnot : ¬ n < n / 2 := by omega
    simp only [if_neg hnot]
    refine ⟨⟨?_, ?_, ?_⟩, by simp, ?_⟩
    · simp [resizeList, hvl]; omega
    · simp [resizeList, hbl]; omega
    · have e : n - v.bitmap.length = 0 := by omega
      simp only [resizeList, e, List.replicate_zero, List.append_nil]
      have := countBits_append (v.bitmap.take n) (v.bitmap.drop n)
      rw [List.take_append_drop] at this
      omega
    · intro k
      have e : n - v.bitmap.length = 0 := by omega
      have e' : n - v.vals.length = 0 := by omega
      simp only [get, resizeList, e, e', List.replicate_zero, List.append_nil, List.getElem?_take]
      by_cases h : k < n <;> simp [h]
  · next hge =>
    split
    · next hgt =>
      refine ⟨⟨?_, ?_, ?_⟩, by simp, ?_⟩
      · simp [resizeList, hvl]; omega
      · simp [resizeList, hbl]; omega
      · simp only [resizeList]
        rw [countBits_append, countBits_replicate_false, List.take_of_length_le (by omega), hc]; rfl
      · intro k
        simp only [get, resizeList, List.take_of_length_le (show v.bitmap.length ≤ n by omega),
          List.take_of_length_le (show v.vals.length ≤ n by omega), List.getElem?_append, hvl, hbl,
          List.getElem?_replicate]
        by_cases h : k < v.size
        · have : k < n := by omega
          simp [h, this]
        · have hn := hv.get_none (i := k) (by omega)
          simp only [get] at hn
          simp only [h, if_false]
          by_cases h2 : k < n
          · simp only [h2, if_true]
            rw [hn]
            split <;> split <;> simp_all
          · simp only [h2, if_false]
            split <;> split <;> simp_all
    · have e : n = v.size := by omega
      subst e
      refine ⟨hv, rfl, ?_⟩
      intro k
      split
      · rfl
      · exact hv.get_none (by omega)

end BVec
end GBTL
