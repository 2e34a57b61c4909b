import Verif.Spec.Safety
import Verif.Lemmas.Basic
/-
Accesses within bounds. Unlike the other lemma files this one asks nothing of a
container but that its arrays have the lengths that go with its shape: rows may be
unsorted or have repeated indices, and the element count may be wrong.
-/
namespace GBTL
open Spec (Outp MaskKind Accum)

variable {α β γ δ τ ζ μ ν σ ρ : Type}

/-! ### Outcomes -/

/-- Not undefined, and the result satisfies `P` if there is one. -/
def Sound (x : Except Err α) (P : α → Prop) : Prop :=
  match x with
  | .ok a => P a
  | .error e => e ≠ .ub

theorem Sound.ok {a : α} {P : α → Prop} (h : P a) : Sound (.ok a) P := h

theorem Sound.bind {x : Except Err α} {f : α → Except Err β} {P : α → Prop} {Q : β → Prop}
    (hx : Sound x P) (hf : ∀ a, P a → Sound (f a) Q) : Sound (x >>= f) Q := by
  cases x with
  | ok a => exact hf a hx
  | error e => exact hx

theorem Sound.mono {x : Except Err α} {P Q : α → Prop} (h : Sound x P) (hi : ∀ a, P a → Q a) :
    Sound x Q := by
  cases x with
  | ok a => exact hi a h
  | error e => exact h

/-- Returns, and the result satisfies `P`. -/
def Returns (x : Except Err α) (P : α → Prop) : Prop :=
  match x with
  | .ok a => P a
  | .error _ => False

theorem Returns.ok {a : α} {P : α → Prop} (h : P a) : Returns (.ok a) P := h

theorem Returns.sound {x : Except Err α} {P : α → Prop} (h : Returns x P) : Sound x P := by
  cases x with
  | ok a => exact h
  | error e => exact h.elim

theorem Returns.bind {x : Except Err α} {f : α → Except Err β} {P : α → Prop} {Q : β → Prop}
    (hx : Returns x P) (hf : ∀ a, P a → Returns (f a) Q) : Returns (x >>= f) Q := by
  cases x with
  | ok a => exact hf a hx
  | error e => exact hx

theorem Returns.mono {x : Except Err α} {P Q : α → Prop} (h : Returns x P) (hi : ∀ a, P a → Q a) :
    Returns x Q := by
  cases x with
  | ok a => exact hi a h
  | error e => exact h

theorem Returns.ex {x : Except Err α} {P : α → Prop} (h : Returns x P) : ∃ a, x = .ok a ∧ P a := by
  cases x with
  | ok a => exact ⟨a, rfl, h⟩
  | error e => exact h.elim

theorem Returns.of {x : Except Err α} {a : α} {P : α → Prop} (h : x = .ok a) (hp : P a) : Returns x P := by
  subst h; exact hp

theorem foldlM_returns {ι : Type} (P : σ → Prop) (f : σ → ι → Except Err σ) (l : List ι)
    (h : ∀ s, ∀ i ∈ l, P s → Returns (f s i) P) : ∀ s, P s → Returns (l.foldlM f s) P := by
  induction l with
  | nil => intro s hs; exact hs
  | cons a l ih =>
    intro s hs
    rw [List.foldlM_cons]
    exact (h s a (List.mem_cons_self ..) hs).bind fun s' hs' =>
      ih (fun s i hi => h s i (List.mem_cons_of_mem _ hi)) s' hs'

theorem foldlM_sound {ι : Type} (P : σ → Prop) (f : σ → ι → Except Err σ) (l : List ι)
    (h : ∀ s, ∀ i ∈ l, P s → Sound (f s i) P) : ∀ s, P s → Sound (l.foldlM f s) P := by
  induction l with
  | nil => intro s hs; exact hs
  | cons a l ih =>
    intro s hs
    rw [List.foldlM_cons]
    exact (h s a (List.mem_cons_self ..) hs).bind fun s' hs' =>
      ih (fun s i hi => h s i (List.mem_cons_of_mem _ hi)) s' hs'

theorem forN_returns (P : σ → Prop) {n : Nat} {s : σ} {body : Nat → σ → Except Err σ} (h0 : P s)
    (h : ∀ i s, i < n → P s → Returns (body i s) P) : Returns (forN n s body) P :=
  foldlM_returns P (fun s i => body i s) (List.range n)
    (fun s i hi hs => h i s (List.mem_range.1 hi) hs) s h0

/-- The first `k` iterations do nothing and the next one fails. -/
theorem forN_fails {n k : Nat} {s : σ} {body : Nat → σ → Except Err σ} {e : Err} (hk : k < n)
    (h : ∀ i, i < k → body i s = .ok s) (he : body k s = .error e) : forN n s body = .error e := by
  have : ∀ j a, j + a = k → (List.range' a (n - a)).foldlM (fun s i => body i s) s = .error e := by
    intro j
    induction j with
    | zero =>
      intro a ha
      have ha : a = k := by omega
      subst ha
      rw [show n - a = (n - a - 1) + 1 by omega, List.range'_succ, List.foldlM_cons, he]; rfl
    | succ j ih =>
      intro a ha
      rw [show n - a = (n - a - 1) + 1 by omega, List.range'_succ, List.foldlM_cons, h a (by omega)]
      have := ih (a + 1) (by omega)
      rw [show n - (a + 1) = n - a - 1 by omega] at this
      exact this
  have := this k 0 (by omega)
  simpa [forN, List.range_eq_range'] using this

/-! ### Rows -/

namespace Row.Below
variable {n : Nat}

theorem nil : Row.Below n ([] : Row α) := by intro p hp; cases hp
theorem cons {p : Nat × α} {r : Row α} (hp : p.1 < n) (hr : Row.Below n r) : Row.Below n (p :: r) := by
  intro q hq
  rcases List.mem_cons.1 hq with rfl | hq
  · exact hp
  · exact hr q hq
theorem head {p : Nat × α} {r : Row α} (h : Row.Below n (p :: r)) : p.1 < n := h p (List.mem_cons_self ..)
theorem tail {p : Nat × α} {r : Row α} (h : Row.Below n (p :: r)) : Row.Below n r :=
  fun q hq => h q (List.mem_cons_of_mem _ hq)
theorem tail' {r : Row α} (h : Row.Below n r) : Row.Below n r.tail :=
  fun q hq => h q (List.mem_of_mem_tail hq)
theorem append {r s : Row α} (hr : Row.Below n r) (hs : Row.Below n s) : Row.Below n (r ++ s) := by
  intro p hp
  rcases List.mem_append.1 hp with h | h
  · exact hr p h
  · exact hs p h
theorem single {i : Nat} {x : α} (h : i < n) : Row.Below n [(i, x)] := cons h nil
theorem cast {c : α → β} {r : Row α} (h : Row.Below n r) : Row.Below n (Row.cast c r) := by
  intro p hp
  obtain ⟨q, hq, rfl⟩ := List.mem_map.1 hp
  exact h q hq
theorem sub {r s : Row α} (h : Row.Below n s) (hs : ∀ p ∈ r, p ∈ s) : Row.Below n r :=
  fun p hp => h p (hs p hp)
theorem takeBelow {j : Nat} {r : Row α} (h : Row.Below n r) : Row.Below n (takeBelow j r) :=
  h.sub fun _ => (List.takeWhile_sublist _).mem
theorem dropBelow {j : Nat} {r : Row α} (h : Row.Below n r) : Row.Below n (dropBelow j r) :=
  h.sub fun _ => (List.dropWhile_sublist _).mem
theorem emplace {i : Nat} {t : Row α} {o : Option α} (ht : Row.Below n t) (hi : i < n) :
    Row.Below n (emplaceIf1D t i o) := by
  cases o with
  | none => exact ht
  | some x => exact ht.append (single hi)

theorem insertMerge {m : α → α → α} {r : Row α} {j : Nat} {x : α} (hr : Row.Below n r) (hj : j < n) :
    Row.Below n (r.insertMerge m j x).1 := by
  induction r with
  | nil => exact single hj
  | cons p r ih =>
    obtain ⟨k, y⟩ := p
    rw [Row.insertMerge]
    split
    · exact cons hr.head hr.tail
    · split
      · exact cons hj hr
      · exact cons hr.head (ih hr.tail)

theorem erase {r : Row α} {j : Nat} (hr : Row.Below n r) : Row.Below n (r.erase j).1 := by
  induction r with
  | nil => exact nil
  | cons p r ih =>
    obtain ⟨k, y⟩ := p
    rw [Row.erase]
    split
    · exact hr.tail
    · exact cons hr.head (ih hr.tail)

theorem ewiseOr {op : α → β → δ} {c1 : α → δ} {c2 : β → δ} (r : Row α) (s : Row β) (hr : Row.Below n r)
    (hs : Row.Below n s) : Row.Below n (ewiseOr op c1 c2 r s) := by
  fun_induction GBTL.ewiseOr op c1 c2 r s with
  | case1 => exact nil
  | case2 i x r ih => exact cons hr.head (ih hr.tail nil)
  | case3 j y s ih => exact cons hs.head (ih nil hs.tail)
  | case4 i x r y s ih => exact cons hr.head (ih hr.tail hs.tail)
  | case5 i x r j y s h1 h2 ih => exact cons hr.head (ih hr.tail hs)
  | case6 i x r j y s h1 h2 ih => exact cons hs.head (ih hr hs.tail)

theorem ewiseAnd {op : α → β → δ} (r : Row α) (s : Row β) (hr : Row.Below n r)
    (hs : Row.Below n s) : Row.Below n (ewiseAnd op r s) := by
  fun_induction GBTL.ewiseAnd op r s with
  | case1 i x r y s ih => exact cons hr.head (ih hr.tail hs.tail)
  | case2 i x r j y s h1 h2 ih => exact ih hr.tail hs
  | case3 i x r j y s h1 h2 ih => exact ih hr hs.tail
  | case4 => exact nil
  | case5 => exact nil

theorem ewiseOrStencil {c1 : α → δ} {c2 : β → δ} {st : Idx} (r : Row α) (s : Row β) (hr : Row.Below n r)
    (hs : Row.Below n s) : Row.Below n (ewiseOrStencil c1 c2 st r s) := by
  fun_induction GBTL.ewiseOrStencil c1 c2 st r s with
  | case1 => exact nil
  | case2 i x r h ih => exact cons hr.head (ih hr.tail nil)
  | case3 i x r h ih => exact ih hr.tail nil
  | case4 j y s ih => exact cons hs.head (ih nil hs.tail)
  | case5 i x r y s ih => exact cons hs.head (ih hr.tail hs.tail)
  | case6 i x r j y s h1 h2 h3 ih => exact cons hr.head (ih hr.tail hs)
  | case7 i x r j y s h1 h2 h3 ih => exact ih hr.tail hs
  | case8 i x r j y s h1 h2 ih => exact cons hs.head (ih hr hs.tail)

theorem axpy {add : τ → τ → τ} {mult : α → β → τ} {a : α} (b : Row β) : ∀ {c : Row τ}, Row.Below n c →
    Row.Below n b → Row.Below n (axpy add mult a c b) := by
  induction b with
  | nil => intro c hc _; exact hc
  | cons p b ih =>
    intro c hc hb
    obtain ⟨j, y⟩ := p
    rw [GBTL.axpy]
    refine hc.takeBelow.append ?_
    split
    · exact cons hb.head (ih hc.dropBelow.tail' hb.tail)
    · exact cons hb.head (ih hc.dropBelow hb.tail)

theorem xpey {op : α → β → α} {cast : β → α} (b : Row β) : ∀ {c : Row α}, Row.Below n c →
    Row.Below n b → Row.Below n (xpey op cast c b) := by
  induction b with
  | nil => intro c hc _; rw [GBTL.xpey]; exact hc
  | cons p b ih =>
    intro c hc hb
    obtain ⟨j, y⟩ := p
    rw [GBTL.xpey]
    refine hc.takeBelow.append ?_
    split
    · exact cons hb.head (ih hc.dropBelow.tail' hb.tail)
    · exact cons hb.head (ih hc.dropBelow hb.tail)

theorem applyWithMask {truthy : ν → Bool} {castZ : ζ → γ} {outp : Outp} (m : Row ν) :
    ∀ {c : Row γ} {z : Row ζ}, Row.Below n c → Row.Below n m →
    Row.Below n (applyWithMask truthy castZ outp c z m) := by
  induction m with
  | nil =>
    intro c z hc _
    cases outp with
    | merge => simpa [GBTL.applyWithMask] using hc
    | replace => simpa [GBTL.applyWithMask] using nil
  | cons p m ih =>
    intro c z hc hm
    obtain ⟨mi, mv⟩ := p
    rw [GBTL.applyWithMask.eq_def]
    simp only
    split
    · exact ih hc hm.tail
    · have hc1 : Row.Below n (match outp with | .merge => GBTL.dropBelow mi c | .replace => c) := by
        cases outp with
        | merge => exact hc.dropBelow
        | replace => exact hc
      refine append ?_ (append ?_ (ih ?_ hm.tail))
      · cases outp with
        | merge => exact hc.takeBelow
        | replace => exact nil
      · split
        · exact single hm.head
        · exact nil
      · split
        · exact hc1.tail'
        · exact hc1

theorem complementLoop {kf : μ → Bool} (is : List Nat) : ∀ {r : Row μ}, (∀ i ∈ is, i < n) →
    Row.Below n (complementLoop kf is r) := by
  induction is with
  | nil => intro r _; rw [GBTL.complementLoop]; exact nil
  | cons i is ih =>
    intro r h
    have hi := h i (List.mem_cons_self ..)
    have h' : ∀ i ∈ is, i < n := fun j hj => h j (List.mem_cons_of_mem _ hj)
    cases r with
    | nil => exact cons hi (ih h')
    | cons p r =>
      rw [GBTL.complementLoop]
      split
      · exact cons hi (ih h')
      · split
        · exact cons hi (ih h')
        · exact ih h'

theorem maskRow {truthy : μ → Bool} {k : MaskKind} {r : Row μ} (hr : Row.Below n r) :
    Row.Below n (maskRow truthy k n r) := by
  cases k with
  | plain => exact hr.cast
  | comp => exact complementLoop _ fun i hi => List.mem_range.1 hi
  | struct => exact hr.cast (c := fun _ => true)
  | structComp => exact complementLoop _ fun i hi => List.mem_range.1 hi

theorem vectorExtract {src : Row α} (js : List Nat) : ∀ {k : Nat}, k + js.length ≤ n →
    Row.Below n (vectorExtract src k js) := by
  induction js with
  | nil => intro k _; exact nil
  | cons j js ih =>
    intro k h
    simp only [List.length_cons] at h
    exact (emplace nil (by omega)).append (ih (by omega))

theorem extractRowLoop {src : Row α} (js : List Nat) : ∀ {k : Nat}, k + js.length ≤ n →
    Row.Below n (extractRowLoop src k js) := by
  induction js with
  | nil => intro k _; exact nil
  | cons j js ih =>
    intro k h
    simp only [List.length_cons] at h
    refine append ?_ (ih (by omega))
    intro p hp
    obtain ⟨x, -, rfl⟩ := List.mem_map.1 hp
    show k < n
    omega

theorem vectorExpandLoop {src : Row α} (ps : List (Nat × Nat)) : ∀ {s : Row α}, (∀ p ∈ ps, p.1 < n) →
    Row.Below n (vectorExpandLoop src s ps) := by
  induction ps with
  | nil => intro s _; exact nil
  | cons p ps ih =>
    intro s h
    obtain ⟨o, i⟩ := p
    exact (emplace nil (h _ (List.mem_cons_self ..))).append
      (ih fun q hq => h q (List.mem_cons_of_mem _ hq))

theorem vectorExpand {src : Row α} {ps : List (Nat × Nat)} (h : ∀ p ∈ ps, p.1 < n) :
    Row.Below n (vectorExpand src ps) := vectorExpandLoop ps h

end Row.Below

theorem insertPair_mem (p : Nat × Nat) (l : List (Nat × Nat)) : ∀ q ∈ insertPair p l, q = p ∨ q ∈ l := by
  induction l with
  | nil => intro q hq; exact .inl (List.mem_singleton.1 hq)
  | cons a l ih =>
    intro q hq
    rw [insertPair] at hq
    split at hq
    · rcases List.mem_cons.1 hq with h | h
      · exact .inl h
      · exact .inr h
    · rcases List.mem_cons.1 hq with h | h
      · exact .inr (h ▸ List.mem_cons_self ..)
      · exact (ih q h).imp id (List.mem_cons_of_mem _)

theorem sortPairs_mem (l : List (Nat × Nat)) : ∀ q ∈ sortPairs l, q ∈ l := by
  induction l with
  | nil => intro q hq; exact hq
  | cons a l ih =>
    intro q hq
    rcases insertPair_mem a _ q hq with h | h
    · exact h ▸ List.mem_cons_self ..
    · exact List.mem_cons_of_mem _ (ih q h)

theorem outinMapping_mem {ix : List Nat} {p : Nat × Nat} (h : p ∈ outinMapping ix) :
    p.1 ∈ ix ∧ p.2 < ix.length := by
  obtain ⟨o, i⟩ := p
  have := List.of_mem_zip (sortPairs_mem _ _ h)
  exact ⟨this.1, List.mem_range.1 this.2⟩

/-! ### Containers -/

/-- A matrix of a given shape. -/
def Lil.SafeAt (m n : Nat) (A : Lil α) : Prop := A.Safe ∧ A.nrows = m ∧ A.ncols = n

def BVec.SafeAt (n : Nat) (v : BVec α) : Prop := v.Safe ∧ v.size = n

theorem Lil.Safe.at {A : Lil α} (h : A.Safe) : A.SafeAt A.nrows A.ncols := ⟨h, rfl, rfl⟩

namespace Lil.SafeAt
variable {m n : Nat} {A : Lil α}

theorem new : (Lil.new m n : Lil α).SafeAt m n :=
  ⟨⟨by simp [Lil.new], by
    intro r hr
    rw [(List.mem_replicate.1 hr).2]
    exact Row.Below.nil⟩, rfl, rfl⟩

theorem clear (h : A.SafeAt m n) : A.clear.SafeAt m n := by
  obtain ⟨h, rfl, rfl⟩ := h
  refine ⟨⟨by simpa [Lil.clear] using h.len, ?_⟩, rfl, rfl⟩
  intro r hr
  obtain ⟨_, _, rfl⟩ := List.mem_map.1 hr
  exact Row.Below.nil

theorem recompute (h : A.SafeAt m n) : A.recomputeNvals.SafeAt m n := ⟨⟨h.1.len, h.1.below⟩, h.2⟩

theorem row (h : A.SafeAt m n) {i : Nat} (hi : i < m) : Returns (A.row i) (Row.Below n) := by
  obtain ⟨h, rfl, rfl⟩ := h
  have : i < A.rows.length := by rw [h.len]; exact hi
  exact .of (rd_ok this) (h.below _ (List.getElem_mem this))

theorem set {rows : List (Row α)} {k : Nat} (h : A.SafeAt m n) {i : Nat} {r : Row α} (hr : Row.Below n r)
    (e : rows = A.rows.set i r) : ({ A with rows := rows, nvals := k } : Lil α).SafeAt m n := by
  obtain ⟨h, rfl, rfl⟩ := h
  subst e
  refine ⟨⟨by simpa using h.len, ?_⟩, rfl, rfl⟩
  intro s hs
  rcases List.mem_or_eq_of_mem_set hs with hs | rfl
  · exact h.below s hs
  · exact hr

theorem wr (h : A.SafeAt m n) {i : Nat} (hi : i < m) (r : Row α) :
    Returns (wr A.rows i r) (· = A.rows.set i r) := by
  obtain ⟨h, rfl, rfl⟩ := h
  exact .of (wr_ok (by rw [h.len]; exact hi)) rfl

theorem poke (h : A.SafeAt m n) {i : Nat} (hi : i < m) {r : Row α} (hr : Row.Below n r) :
    Returns (A.pokeRow i r) (Lil.SafeAt m n) :=
  (h.wr hi r).bind fun _ e => .ok (h.set (k := A.nvals) hr e)

theorem setRow (h : A.SafeAt m n) {i : Nat} (hi : i < m) {c : β → α} {r : Row β} (hr : Row.Below n r) :
    Returns (A.setRow i c r) (Lil.SafeAt m n) :=
  (h.row hi).bind fun _ _ => (h.wr hi _).bind fun _ e => .ok (h.set hr.cast e)

theorem setRowIf (h : A.SafeAt m n) {i : Nat} (hi : i < m) {r : Row α} (hr : Row.Below n r) :
    Returns (GBTL.setRowIf A i r) (Lil.SafeAt m n) := by
  rw [GBTL.setRowIf]
  split
  · exact h.setRow hi hr
  · exact h

theorem push (h : A.SafeAt m n) {i j : Nat} (hi : i < m) (hj : j < n) (x : α) :
    Returns (pushAt A i j x) (Lil.SafeAt m n) :=
  (h.row hi).bind fun _ ht => h.poke hi (ht.append (.single hj))

theorem emplace (h : A.SafeAt m n) {i j : Nat} (hi : i < m) (hj : j < n) (o : Option α) :
    Returns (emplaceIf A i j o) (Lil.SafeAt m n) := by
  cases o with
  | none => exact h
  | some x => exact h.push hi hj x

theorem pushCol (h : A.SafeAt m n) {k : Nat} (hk : k < n) {row : Row α} (hr : Row.Below m row) :
    Returns (pushCol k row A) (Lil.SafeAt m n) :=
  foldlM_returns (Lil.SafeAt m n) _ row (fun T p hp hT => hT.push (hr p hp) hk p.2) A h

theorem getCol (h : A.SafeAt m n) (j : Nat) : Returns (A.getCol j) (Row.Below m) := by
  obtain ⟨h', e, -⟩ := id h
  rw [Lil.getCol, e]
  refine forN_returns _ .nil fun i acc hi hacc => (h.row hi).bind fun r hr => .ok (hacc.append ?_)
  intro p hp
  obtain ⟨q, -, rfl⟩ := List.mem_map.1 hp
  exact hi

theorem sparseCopy {c : β → α} {B : Lil β} (h : A.SafeAt m n) (hB : B.SafeAt m n) :
    Returns (sparseCopy c A B) (Lil.SafeAt m n) := by
  rw [GBTL.sparseCopy, h.2.1]
  refine forN_returns _ h.clear fun i d hi hd => (hB.row hi).bind fun r hr => ?_
  simp only
  split
  · exact hd.setRow hi hr.cast
  · exact hd

end Lil.SafeAt

theorem pushCols_returns {m n k : Nat} {row : Nat → Except Err (Row τ)} (hk : k ≤ n)
    (h : ∀ i, i < k → Returns (row i) (Row.Below m)) :
    Returns (pushCols m n k row) (Lil.SafeAt m n) := by
  rw [pushCols]
  exact (forN_returns _ Lil.SafeAt.new fun i _ hi hT => (h i hi).bind fun r hr =>
    hT.pushCol (by omega) hr).bind fun T hT => .ok hT.recompute

/-! ### Accumulation and the masked write -/

variable {m n : Nat}

theorem ewiseOrOptAccum_returns {Z : Lil ζ} {C : Lil γ} {T : Lil τ} (hZ : Z.SafeAt m n) (hC : C.SafeAt m n)
    (hT : T.SafeAt m n) (acc : Accum γ τ ζ) : Returns (ewiseOrOptAccum Z C T acc) (Lil.SafeAt m n) := by
  cases acc with
  | none c => exact hZ.sparseCopy hT
  | some op c1 c2 =>
    rw [ewiseOrOptAccum, hZ.2.1]
    exact forN_returns _ hZ fun i Z hi hZ => (hC.row hi).bind fun c hc => (hT.row hi).bind fun t ht =>
      hZ.setRow hi (.ewiseOr c t hc ht)

theorem accumMat_returns {C : Lil γ} {T : Lil τ} (hC : C.SafeAt m n) (hT : T.SafeAt m n) (acc : Accum γ τ ζ) :
    Returns (accumMat C acc T) (Lil.SafeAt m n) := by
  rw [accumMat, hC.2.1, hC.2.2]
  exact ewiseOrOptAccum_returns .new hC hT acc

theorem stencil_returns {keep : γ → ζ} {Z : Lil ζ} {C : Lil γ} {T : Lil τ} (hZ : Z.SafeAt m n)
    (hC : C.SafeAt m n) (hT : T.SafeAt m n) (ri ci : Idx) (acc : Accum γ τ ζ) :
    Returns (ewiseOrStencilOptAccum keep Z C T ri ci acc) (Lil.SafeAt m n) := by
  cases acc with
  | none c =>
    rw [ewiseOrStencilOptAccum, hZ.2.1]
    refine forN_returns _ hZ fun i Z hi hZ => ?_
    split
    · exact (hC.row hi).bind fun c hc => (hT.row hi).bind fun t ht => hZ.setRow hi (.ewiseOrStencil c t hc ht)
    · exact (hC.row hi).bind fun c hc => hZ.setRow hi hc
  | some op c1 c2 =>
    rw [ewiseOrStencilOptAccum, hZ.2.1]
    exact forN_returns _ hZ fun i Z hi hZ => (hC.row hi).bind fun c hc => (hT.row hi).bind fun t ht =>
      hZ.setRow hi (.ewiseOr c t hc ht)

/-- The mask has the shape and is safe. -/
def MMask.SafeAt (m n : Nat) (M : MMask μ) : Prop := ∀ k A, M = some (k, A) → A.SafeAt m n
def VMask.SafeAt (n : Nat) (M : VMask μ) : Prop := ∀ k v, M = some (k, v) → v.SafeAt n

theorem writeWithOptMask_returns {truthy : μ → Bool} {castZ : ζ → γ} {C : Lil γ} {Z : Lil ζ} {M : MMask μ}
    {outp : Outp} (hC : C.SafeAt m n) (hZ : Z.SafeAt m n) (hM : M.SafeAt m n) :
    Returns (writeWithOptMask truthy castZ C Z M outp) (Lil.SafeAt m n) := by
  rcases M with _ | ⟨k, M⟩
  · exact hC.sparseCopy hZ
  · have hM := hM k M rfl
    rw [writeWithOptMask, hC.2.1, hM.2.2]
    exact forN_returns _ hC fun i C hi hC => (hC.row hi).bind fun c hc => (hZ.row hi).bind fun z _ =>
      (hM.row hi).bind fun mr hm => hC.setRow hi (.applyWithMask _ hc hm.maskRow)

theorem transposeT_returns {A : Lil α} (hA : A.SafeAt m n) : Returns (transposeT A) (Lil.SafeAt n m) := by
  rw [transposeT, hA.2.1, hA.2.2]
  split
  · exact pushCols_returns (Nat.le_refl _) fun i hi => hA.row hi
  · exact Lil.SafeAt.new

theorem transposed_returns {c : α → β} {A : Lil α} (hA : A.SafeAt m n) :
    Returns (transposed c A) (Lil.SafeAt n m) := by
  rw [transposed, hA.2.1, hA.2.2]
  exact (transposeT_returns hA).bind fun T hT => (accumMat_returns .new hT _).bind fun Z hZ =>
    writeWithOptMask_returns .new hZ (fun k A h => by cases h)

/-! ### Vectors -/

namespace BVec.SafeAt
variable {v : BVec α}

theorem bit (h : v.SafeAt n) {i : Nat} (hi : i < n) : Returns (rd v.bitmap i) fun _ => True :=
  .of (rd_ok (by rw [h.1.bitmap, h.2]; exact hi)) trivial
theorem val (h : v.SafeAt n) {i : Nat} (hi : i < n) : Returns (rd v.vals i) fun _ => True :=
  .of (rd_ok (by rw [h.1.vals, h.2]; exact hi)) trivial
theorem wrBit (h : v.SafeAt n) {i : Nat} (hi : i < n) (b : Bool) :
    Returns (GBTL.wr v.bitmap i b) (fun l => l.length = n) :=
  .of (wr_ok (by rw [h.1.bitmap, h.2]; exact hi)) (by rw [List.length_set, h.1.bitmap, h.2])
theorem wrVal (h : v.SafeAt n) {i : Nat} (hi : i < n) (x : α) :
    Returns (GBTL.wr v.vals i x) (fun l => l.length = n) :=
  .of (wr_ok (by rw [h.1.vals, h.2]; exact hi)) (by rw [List.length_set, h.1.vals, h.2])

theorem clear (h : v.SafeAt n) : v.clear.SafeAt n := by
  obtain ⟨h, rfl⟩ := h
  exact ⟨⟨h.vals, by simp [BVec.clear]⟩, rfl⟩

/-- The indices of the contents, in order. -/
theorem contentsLoop (h : v.SafeAt n) (l : List Nat) (hl : ∀ i ∈ l, i < n) (hs : l.Pairwise (· < ·)) :
    Returns (v.contentsLoop l) fun r => (∀ p ∈ r, p.1 ∈ l) ∧ r.Pairwise fun p q => p.1 < q.1 := by
  induction l with
  | nil => exact ⟨(by intro p hp; cases hp), List.Pairwise.nil⟩
  | cons i l ih =>
    have hi := hl i (List.mem_cons_self ..)
    have ih := ih (fun j hj => hl j (List.mem_cons_of_mem _ hj)) hs.tail
    rw [BVec.contentsLoop]
    refine (h.bit hi).bind fun b _ => ?_
    cases b with
    | true =>
      refine (h.val hi).bind fun x _ => ih.bind fun r hr => .ok ⟨?_, ?_⟩
      · intro p hp
        rcases List.mem_cons.1 hp with rfl | hp
        · exact List.mem_cons_self ..
        · exact List.mem_cons_of_mem _ (hr.1 p hp)
      · exact List.pairwise_cons.2 ⟨fun p hp => (List.pairwise_cons.1 hs).1 _ (hr.1 p hp), hr.2⟩
    | false => exact ih.mono fun r hr => ⟨fun p hp => List.mem_cons_of_mem _ (hr.1 p hp), hr.2⟩

theorem contents' (h : v.SafeAt n) :
    Returns v.getContents fun r => Row.Below n r ∧ r.Pairwise fun p q => p.1 < q.1 := by
  obtain ⟨h', rfl⟩ := id h
  exact (h.contentsLoop (List.range v.size) (fun i hi => List.mem_range.1 hi)
    List.pairwise_lt_range).mono fun r hr => ⟨fun p hp => List.mem_range.1 (hr.1 p hp), hr.2⟩

theorem contents (h : v.SafeAt n) : Returns v.getContents (Row.Below n) := h.contents'.mono fun _ h => h.1

theorem setContents (h : v.SafeAt n) {c : β → α} {r : Row β} (hr : Row.Below n r) :
    Returns (v.setContents c r) (BVec.SafeAt n) := by
  rw [BVec.setContents]
  have : ∀ (r : Row β) (v : BVec α), v.SafeAt n → Row.Below n r →
      Returns (BVec.setContentsLoop c r v) (BVec.SafeAt n) := by
    intro r
    induction r with
    | nil => intro v h _; exact h
    | cons p r ih =>
      intro v h hr
      obtain ⟨i, x⟩ := p
      rw [BVec.setContentsLoop]
      exact (h.wrBit hr.head _).bind fun bm hb => (h.wrVal hr.head _).bind fun vs hv =>
        ih _ ⟨⟨by rw [hv, ← h.2], by rw [hb, ← h.2]⟩, h.2⟩ hr.tail
  exact this r v.clear h.clear hr

theorem setElement (h : v.SafeAt n) {i : Nat} {x : α} (hi : i < n) :
    Returns (okState (v.setElement i x)) (BVec.SafeAt n) := by
  obtain ⟨h, rfl⟩ := h
  have h1 : i < v.vals.length := by rw [h.vals]; exact hi
  have h2 : i < v.bitmap.length := by rw [h.bitmap]; exact hi
  simp only [BVec.setElement, if_neg (Nat.not_le.2 hi), wr_ok h1, rd_ok h2]
  cases v.bitmap[i] with
  | true => exact ⟨⟨by simpa using h.vals, h.bitmap⟩, rfl⟩
  | false => exact ⟨⟨by simpa using h.vals, by simpa using h.bitmap⟩, rfl⟩

end BVec.SafeAt

theorem BVec.Safe.at {v : BVec α} (h : v.Safe) : v.SafeAt v.size := ⟨h, rfl⟩

theorem accum1D_returns {w : BVec γ} {t : Row τ} (hw : w.SafeAt n) (ht : Row.Below n t) (acc : Accum γ τ ζ) :
    Returns (ewiseOrOptAccum1D w t acc) (Row.Below n) := by
  cases acc with
  | none c => exact ht.cast (c := c)
  | some op c1 c2 => exact hw.contents.bind fun c hc => .ok (.ewiseOr c t hc ht)

theorem stencil1D_returns {keep : γ → ζ} {w : BVec γ} {t : Row τ} (hw : w.SafeAt n) (ht : Row.Below n t)
    (ix : Idx) (acc : Accum γ τ ζ) : Returns (ewiseOrStencilOptAccum1D keep w t ix acc) (Row.Below n) := by
  cases acc with
  | none c => exact hw.contents.bind fun c hc => .ok (.ewiseOrStencil c t hc ht)
  | some op c1 c2 => exact hw.contents.bind fun c hc => .ok (.ewiseOr c t hc ht)

theorem write1D_returns {truthy : μ → Bool} {castZ : ζ → γ} {w : BVec γ} {z : Row ζ} {M : VMask μ}
    {outp : Outp} (hw : w.SafeAt n) (hz : Row.Below n z) (hM : M.SafeAt n) :
    Returns (writeWithOptMask1D truthy castZ w z M outp) (BVec.SafeAt n) := by
  rcases M with _ | ⟨k, M⟩
  · exact hw.setContents hz
  · have hM := hM k M rfl
    rw [writeWithOptMask1D, hM.2]
    exact hw.contents.bind fun c hc => hM.contents.bind fun mc hm =>
      hw.setContents (.applyWithMask _ hc hm.maskRow)

end GBTL
