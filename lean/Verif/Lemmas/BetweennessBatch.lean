import Verif.Lemmas.BetweennessCalls
/-
The two phases of the batch versions of betweenness centrality, for matrices with one
row per source (`t = true`) and with one column per source (`t = false`).
-/
namespace GBTL
open Spec

variable {α τ : Type}

/-- The element for source `j` and vertex `v`. -/
def vw (t : Bool) (A : Lil τ) (j v : Nat) : Option τ := if t then A.get j v else A.get v j

/-- The shape for `m` sources and `n` vertices. -/
def ShV (t : Bool) (n m : Nat) (A : Lil τ) : Prop := Sh (if t then m else n) (if t then n else m) A

theorem ShV.out {t : Bool} {n m : Nat} {A : Lil τ} (h : ShV t n m A) {j v : Nat} (hv : ¬ (j < m ∧ v < n)) :
    vw t A j v = none := by
  cases t with
  | true => exact Sh.out (r := m) (c := n) h hv
  | false => exact Sh.out (r := n) (c := m) h (fun h' => hv ⟨h'.2, h'.1⟩)

theorem nval_none {t : Bool} {n m : Nat} {A : Lil τ} (h : ShV t n m A) (hz : A.nvals = 0) (j v : Nat) :
    vw t A j v = none := by
  have : ∀ i k, A.get i k = none := by
    intro i k
    cases hg : A.get i k with
    | none => rfl
    | some x =>
      have hlt := some_lt h.wf (i := i) (j := k) (by rw [hg]; simp)
      have hc := h.wf.nvals_eq
      rw [hz, Mat.count, sumTo_eq] at hc
      have hp : 0 < sumTo A.nrows fun i => Vec.count A.ncols (A.get i) := by
        refine sumTo_pos.2 ⟨i, hlt.1, ?_⟩
        rw [Vec.count, List.length_pos_iff_exists_mem]
        exact ⟨k, List.mem_filter.2 ⟨List.mem_range.2 hlt.2, by rw [hg]; rfl⟩⟩
      omega
  unfold vw
  split <;> exact this _ _

theorem nval_some {t : Bool} {n m : Nat} {A : Lil τ} (h : ShV t n m A) (hz : 0 < A.nvals) :
    ∃ j v, j < m ∧ v < n ∧ vw t A j v ≠ none := by
  obtain ⟨i, k, x, h1, h2, h3⟩ := nonempty_of_nvalsM h.wf hz
  have e1 := h.nr
  have e2 := h.nc
  cases t with
  | true =>
    simp only [if_true] at e1 e2
    exact ⟨i, k, by omega, by omega, by unfold vw; simp [h3]⟩
  | false =>
    simp only [Bool.false_eq_true, if_false] at e1 e2
    exact ⟨k, i, by omega, by omega, by unfold vw; simp [h3]⟩

/-- Numbers of paths as `int32_t`. -/
def numI (a : Nat) : Int := (a : Int)

theorem counts32 (ov : Int → Int → Int) : Counts (ITy.i32.plusT ov) nonzero numI (2 ^ 31 - 1) := by
  refine ⟨?_, ?_⟩
  · intro a b h
    rw [numI, numI, adds_plusT .i32 ov _ _ (by omega) (by omega) (by show (a : Int) + b ≤ 2147483647; omega)]
    unfold numI; omega
  · intro a h _
    unfold numI nonzero
    simp; omega

theorem pathCount_eq (n : Nat) (E : Nat → Nat → Bool) (s : Nat) : pathCount n E s = totalPaths n E s := by
  rw [pathCount, totalPaths, ← sumTo_eq]; rfl

section
variable {t : Bool} {n m : Nat} {E : Nat → Nat → Bool} {src : Nat → Nat}

structure FrontM (t : Bool) (n m : Nat) (E : Nat → Nat → Bool) (src : Nat → Nat) (k : Nat) (F : Lil Int) : Prop where
  sh : ShV t n m F
  row : ∀ j, j < m → Front n E numI (src j) k (vw t F j)

structure NspM (t : Bool) (n m : Nat) (E : Nat → Nat → Bool) (src : Nat → Nat) (k : Nat) (P : Lil Int) : Prop where
  sh : ShV t n m P
  row : ∀ j, j < m → Nsp n E numI (src j) k (vw t P j)

/-- The Sigmas: entry `i` marks the vertices at distance `i + 1`. -/
def SigM (t : Bool) (n m : Nat) (E : Nat → Nat → Bool) (src : Nat → Nat) (S : List (Lil Bool)) : Prop :=
  ∀ i X, S[i]? = some X → ShV t n m X ∧ ∀ j, j < m → Marks n E (src j) (i + 1) (fun v => (vw t X j v).any id)

/-- `mulF F P` is one round of the search in the graph `A`. -/
def FrontStep (t : Bool) (n m : Nat) (ov : Int → Int → Int) (gI : α → Int) (A : Lil α)
    (mulF : Lil Int → Lil Int → Prog (Lil Int)) : Prop :=
  ∃ pr : Int → α → Int, (∀ a x, 0 ≤ a → a ≤ 2 ^ 31 - 1 → gI x = 1 → pr a x = a) ∧
    ∀ F P, ShV t n m F → ShV t n m P → ∃ F', mulF F P = .ok F' ∧ ShV t n m F' ∧
      ∀ j v, j < m → v < n → vw t F' j v = if (vw t P j v).any nonzero = true then none else
        osum (ITy.i32.plusT ov) ((List.range n).map fun u => both pr (vw t F j u) (A.get u v))

/-- `mulW W S` is one round backwards. -/
def BackStep (t : Bool) (n m : Nat) (gF : α → Rat) (A : Lil α)
    (mulW : Lil Rat → Lil Bool → Prog (Lil Rat)) : Prop :=
  ∃ pr : Rat → α → Rat, (∀ w x, gF x = 1 → pr w x = w) ∧
    ∀ W S, ShV t n m W → ShV t n m S → ∃ W', mulW W S = .ok W' ∧ ShV t n m W' ∧
      ∀ j v, j < m → v < n → vw t W' j v = if (vw t S j v).any id = true then
        osum (· + ·) ((List.range n).map fun w => both pr (vw t W j w) (A.get v w)) else none

theorem timesT_one {ov : Int → Int → Int} {a b : Int} (ha : 0 ≤ a) (h : a ≤ 2 ^ 31 - 1) (hb : b = 1) :
    ITy.i32.timesT ov a b = a ∧ ITy.i32.timesT ov b a = a := by
  subst hb
  have h1 : ITy.i32.Has a := ITy.has_nn ha (by show a ≤ 2147483647; omega)
  have h2 : ITy.i32.Has 1 := ITy.has_nn (by omega) (by decide)
  constructor
  · rw [ITy.timesT_eq ov h1 h2 (by rw [Int.mul_one]; exact h1), Int.mul_one]
  · rw [ITy.timesT_eq ov h2 h1 (by rw [Int.one_mul]; exact h1), Int.one_mul]

theorem frontStepFA {ov : Int → Int → Int} {gI : α → Int} {A : Lil α} (hA : Sh n n A) :
    FrontStep true n m ov gI A
      (fun F P => exec (mxm (mMasked F .comp nonzero P) (pathsFA ov gI) id (.plain F) (.plain A))) := by
  refine ⟨fun f a => ITy.i32.timesT ov f (gI a), fun a x h1 h2 h3 => (timesT_one h1 h2 h3).1, ?_⟩
  intro F P hF hP
  obtain ⟨F', e, h1, h2⟩ := frontFA_ok (ov := ov) (gI := gI) hA hF hP
  exact ⟨F', e, h1, fun j v hj hv => h2 j v hj hv⟩

theorem frontStepAF {ov : Int → Int → Int} {gI : α → Int} {A : Lil α} (hA : Sh n n A) :
    FrontStep false n m ov gI A
      (fun F P => exec (mxm (mMasked F .comp nonzero P) (pathsAF ov gI) id (.tr A) (.plain F))) := by
  refine ⟨fun f a => ITy.i32.timesT ov (gI a) f, fun a x h1 h2 h3 => (timesT_one h1 h2 h3).2, ?_⟩
  intro F P hF hP
  obtain ⟨F', e, h1, h2⟩ := frontAF_ok (ov := ov) (gI := gI) hA hF hP
  refine ⟨F', e, h1, fun j v hj hv => ?_⟩
  rw [show vw false F' j v = F'.get v j from rfl, h2 v j hv hj]
  congr 2
  refine List.map_congr_left ?_
  intro u _
  exact both_swap _ _ _

theorem backStepWA {gF : α → Rat} {A : Lil α} (hA : Sh n n A) :
    BackStep true n m gF A (fun W S => exec (mxm (mMasked W .plain id S) (flowWA gF) id (.plain W) (.tr A))) := by
  refine ⟨fun w a => w * gF a, fun w x h => by show w * gF x = w; rw [h, Rat.mul_one], ?_⟩
  intro W S hW hS
  obtain ⟨W', e, h1, h2⟩ := backWA_ok (gF := gF) hA hW hS
  exact ⟨W', e, h1, fun j v hj hv => h2 j v hj hv⟩

theorem backStepAW {gF : α → Rat} {A : Lil α} (hA : Sh n n A) :
    BackStep false n m gF A (fun W S => exec (mxm (mMasked W .plain id S) (flowAW gF) id (.plain A) (.plain W))) := by
  refine ⟨fun w a => gF a * w, fun w x h => by show gF x * w = w; rw [h, Rat.one_mul], ?_⟩
  intro W S hW hS
  obtain ⟨W', e, h1, h2⟩ := backAW_ok (gF := gF) hA hW hS
  refine ⟨W', e, h1, fun j v hj hv => ?_⟩
  rw [show vw false W' j v = W'.get v j from rfl, h2 v j hv hj]
  congr 2
  refine List.map_congr_left ?_
  intro u _
  exact both_swap _ _ _

/-! ### the breadth-first phase -/

theorem front_round {ov : Int → Int → Int} {gI : α → Int} {A : Lil α} {mulF : Lil Int → Lil Int → Prog (Lil Int)}
    (hA : Sh n n A) (h1 : ∀ u v a, A.get u v = some a → gI a = 1)
    (hsrc : ∀ j, j < m → src j < n) (hp : ∀ j, j < m → totalPaths n (edges A) (src j) ≤ 2 ^ 31 - 1)
    (hm : FrontStep t n m ov gI A mulF) {k : Nat} {F P : Lil Int} (hF : FrontM t n m (edges A) src k F)
    (hP : NspM t n m (edges A) src k P) :
    ∃ F', mulF F P = .ok F' ∧ FrontM t n m (edges A) src (k + 1) F' := by
  obtain ⟨pr, hpr, hm⟩ := hm
  obtain ⟨F', e, hs, h⟩ := hm F P hF.sh hP.sh
  refine ⟨F', e, hs, ?_⟩
  intro j hj
  refine Front.next (edges_in hA) (hsrc j hj) (counts32 ov) (hp j hj) (by decide) (hP.row j hj) (hF.row j hj)
    (pr := fun u v => both pr (vw t F j u) (A.get u v)) ?_ ?_ ?_
  · intro u v a hu ha
    rw [hu]
    cases hg : A.get u v with
    | none => simp [edges, hg, both]
    | some x =>
      simp only [edges, hg, Option.isSome_some, if_true, both]
      rw [hpr _ _ (by unfold numI; omega) (by unfold numI; omega) (h1 u v x hg)]
  · intro u v hu
    rw [hu]; rfl
  · intro v
    by_cases hv : v < n
    · exact h j v hj hv
    · rw [hs.out (fun h => hv h.2)]
      split
      · rfl
      · symm
        rw [osum_range_none]
        intro u _
        rw [hA.out (fun h => hv h.2)]
        cases vw t F j u <;> rfl

theorem nsp_round {ov : Int → Int → Int} {k : Nat} {F P : Lil Int} (hF : FrontM t n m E src (k + 1) F)
    (hP : NspM t n m E src k P) : ∃ P', bcCount ov P F = .ok P' ∧ NspM t n m E src (k + 1) P' := by
  obtain ⟨P', e, hs, h⟩ := bcCount_ok (ov := ov) hP.sh hF.sh
  refine ⟨P', e, hs, ?_⟩
  intro j hj
  refine Nsp.next (counts32 ov) (by decide) (hP.row j hj) (hF.row j hj) ?_
  intro v
  cases t <;> exact h _ _

theorem sigma_round {ov : Int → Int → Int} (hE : EdgesIn n E) (hsrc : ∀ j, j < m → src j < n)
    (hp : ∀ j, j < m → totalPaths n E (src j) ≤ 2 ^ 31 - 1) {k : Nat} {F : Lil Int} (hF : FrontM t n m E src k F) :
    ∃ S, bcSigma (if t then m else n) (if t then n else m) F = .ok S ∧ ShV t n m S ∧
      ∀ j, j < m → Marks n E (src j) k (fun v => (vw t S j v).any id) := by
  obtain ⟨S, e, hs, h⟩ := bcSigma_ok hF.sh
  refine ⟨S, e, hs, ?_⟩
  intro j hj
  refine Front.marks hE (hsrc j hj) (counts32 ov) (hp j hj) (hF.row j hj) ?_
  intro v
  have : vw t S j v = (vw t F j v).map nonzero := by cases t <;> exact h _ _
  rw [this]
  cases vw t F j v <;> rfl

theorem SigM.push {S : List (Lil Bool)} {X : Lil Bool} (hS : SigM t n m E src S) (hX : ShV t n m X)
    (h : ∀ j, j < m → Marks n E (src j) (S.length + 1) (fun v => (vw t X j v).any id)) :
    SigM t n m E src (S ++ [X]) := by
  intro i Y hY
  rcases Nat.lt_trichotomy i S.length with hi | hi | hi
  · rw [List.getElem?_append_left hi] at hY
    exact hS i Y hY
  · subst hi
    rw [List.getElem?_append_right (Nat.le_refl _)] at hY
    simp at hY
    subst hY
    exact ⟨hX, h⟩
  · rw [List.getElem?_append_right (by omega), List.getElem?_eq_none (by simp; omega)] at hY
    cases hY

/-- What the breadth-first phase leaves. -/
structure BfsEnd (t : Bool) (n m : Nat) (E : Nat → Nat → Bool) (src : Nat → Nat) (q : BcSt) : Prop where
  sig : SigM t n m E src q.S
  nsp : NspM t n m E src q.S.length q.P
  last : ∀ j v, j < m → hops n E (src j) v ≠ some (q.S.length + 1)

/-- The state before round `k` of the versions that start from the neighbours. -/
structure AltOK (t : Bool) (n m : Nat) (E : Nat → Nat → Bool) (src : Nat → Nat) (k : Nat) (q : BcSt) : Prop where
  front : FrontM t n m E src (k + 1) q.F
  nsp : NspM t n m E src k q.P
  sig : SigM t n m E src q.S
  len : q.S.length = k

theorem FrontM.le (hF : FrontM t n m E src k F) (hsrc : ∀ j, j < m → src j < n) (h : 0 < F.nvals) : k ≤ n := by
  obtain ⟨j, v, hj, -, hne⟩ := nval_some hF.sh h
  exact (hF.row j hj).le (hsrc j hj) hne

theorem FrontM.empty (hE : EdgesIn n E) (hF : FrontM t n m E src k F) (hsrc : ∀ j, j < m → src j < n)
    (h : ¬ 0 < F.nvals) {j v : Nat} (hj : j < m) : hops n E (src j) v ≠ some k := by
  have hn := nval_none hF.sh (by omega) j
  intro hv
  by_cases hvs : v = src j
  · subst hvs
    rw [hops_self hE (hsrc j hj)] at hv
    cases hv
    have := (hF.row j hj).zero rfl
    rw [hn] at this; cases this
  · have := (hF.row j hj).at_ v hvs hv
    rw [hn] at this; cases this

/-- Both starting points. -/
theorem bcBuild_ok {r c m : Nat} {is js : List Nat} (h1 : is.length = m) (h2 : js.length = m)
    (hi : ∀ k, k < m → is.getD k 0 < r ∧ js.getD k 0 < c)
    (hd : ∀ k l, k < m → l < m → is.getD k 0 = is.getD l 0 → js.getD k 0 = js.getD l 0 → k = l) :
    ∃ B, bcBuild r c is js = .ok B ∧ Sh r c B ∧
      ∀ i j x, B.get i j = some x ↔ ∃ k, k < m ∧ is.getD k 0 = i ∧ js.getD k 0 = j ∧ x = 1 := by
  have hz : is.zip (js.zip (List.replicate is.length (1 : Int))) =
      (List.range m).map (fun k => (is.getD k 0, js.getD k 0, (1 : Int))) := by
    refine List.ext_getElem (by simp [h1, h2]) ?_
    intro i g1 g2
    simp at g2
    simp [List.getElem?_eq_getElem (show i < is.length by omega), List.getElem?_eq_getElem (show i < js.length by omega)]
  obtain ⟨B, e, hB, b1, b2, b3⟩ := build_distinct (A := (Lil.new r c : Lil Int)) (Lil.new_wf r c)
    (fun i j => by simp [Lil.get]) (fun _ y => y)
    (ts := (List.range m).map (fun k => (is.getD k 0, js.getD k 0, (1 : Int))))
    (by
      intro x hx
      obtain ⟨k, hk, rfl⟩ := List.mem_map.1 hx
      exact hi k (List.mem_range.1 hk))
    (by
      rw [List.map_map, List.Nodup, List.pairwise_map]
      refine List.Pairwise.imp_of_mem ?_ List.pairwise_lt_range
      intro a b ha hb hab heq
      simp only [Function.comp, Prod.mk.injEq] at heq
      have := hd a b (List.mem_range.1 ha) (List.mem_range.1 hb) heq.1 heq.2
      omega)
  refine ⟨B, ?_, ⟨hB, b1, b2⟩, ?_⟩
  · unfold bcBuild Lil.buildArrays
    rw [if_neg (by simp [h1, h2]), hz, e]; rfl
  · intro i j x
    rw [b3]
    simp only [List.mem_map, List.mem_range, Prod.mk.injEq]
    constructor
    · rintro ⟨k, hk, e1, e2, e3⟩; exact ⟨k, hk, e1, e2, e3.symm⟩
    · rintro ⟨k, hk, e1, e2, e3⟩; exact ⟨k, hk, e1, e2, e3.symm⟩

theorem build_start (hE : EdgesIn n E) (hsrc : ∀ j, j < m → src j < n) {B : Lil Int} (hs : ShV t n m B)
    (h : ∀ j v x, vw t B j v = some x ↔ j < m ∧ v = src j ∧ x = 1) :
    FrontM t n m E src 0 B ∧ NspM t n m E src 0 B := by
  have h1 : ∀ j, j < m → vw t B j (src j) = some (numI 1) := fun j hj => (h j _ _).2 ⟨hj, rfl, rfl⟩
  have h2 : ∀ j v, v ≠ src j → vw t B j v = none := by
    intro j v hv
    cases hg : vw t B j v with
    | none => rfl
    | some x => exact absurd ((h j v x).1 hg).2.1 hv
  exact ⟨⟨hs, fun j hj => Front.init hE (hsrc j hj) (h1 j hj) (h2 j)⟩,
    ⟨hs, fun j hj => Nsp.init hE (hsrc j hj) (h1 j hj) (h2 j)⟩⟩

/-! ### the backward phase -/

/-- The body of the backward loop, for any way to compute the weights. -/
def backBodyG (scale : Lil Rat → Lil Bool → Lil Rat → Prog (Lil Rat)) (mul : Lil Rat → Lil Bool → Prog (Lil Rat))
    (S : List (Lil Bool)) (P : Lil Int) (i : Nat) (q : Lil Rat × Lil Rat) : Prog (Lil Rat × Lil Rat) := do
  let S1 ← sigmaAt S i
  let W ← scale q.2 S1 q.1
  let S0 ← sigmaAt S (i - 1)
  let W ← mul W S0
  let U ← bcAdd q.1 W P
  .ok (U, W)

theorem backG_ok {gF : α → Rat} {A : Lil α} {mulW : Lil Rat → Lil Bool → Prog (Lil Rat)}
    {scale : Lil Rat → Lil Bool → Lil Rat → Prog (Lil Rat)} {q : BcSt}
    (hA : Sh n n A) (h1 : ∀ u v a, A.get u v = some a → gF a = 1)
    (hsrc : ∀ j, j < m → src j < n) (hm : BackStep t n m gF A mulW) (hq : BfsEnd t n m (edges A) src q)
    {I U W : Lil Rat} (hIg : ∀ i j, I.get i j = (q.P.get i j).map fun x : Int => 1 / (x : Rat))
    (hsc : ∀ W S U, ShV t n m W → ShV t n m S → ShV t n m U → ∃ W', scale W S U = .ok W' ∧ ShV t n m W' ∧
      ∀ j v, j < m → v < n → vw t W' j v =
        if (vw t S j v).any id = true then both (· * ·) (vw t I j v) (vw t U j v) else none)
    (hU : ShV t n m U) (hUg : ∀ j v, j < m → v < n → vw t U j v = some 1) (hW : ShV t n m W) :
    ∃ r, forP (q.S.length - 1) (U, W) (fun j p => backBodyG scale mulW q.S q.P (q.S.length - 1 - j) p) = .ok r ∧
      ShV t n m r.1 ∧
      ∀ j v, j < m → v < n → vw t r.1 j v = some (1 + dependency n (edges A) (src j) v) := by
  have hE := edges_in hA
  obtain ⟨pr, hpr, hm⟩ := hm
  have hnum : ∀ j v d, j < m → v ≠ src j → d ≤ q.S.length → hops n (edges A) (src j) v = some d →
      vw t q.P j v = some (numI (spc n (edges A) (src j) v)) :=
    fun j v d hj hv hd h => (hq.nsp.row j hj).at_ v d hv h hd
  obtain ⟨⟨U', W'⟩, e, hI', -, hB⟩ := forP_inv
    (b := fun j p => backBodyG scale mulW q.S q.P (q.S.length - 1 - j) p)
    (fun i p => ShV t n m p.1 ∧ ShV t n m p.2 ∧
      ∀ j, j < m → BackAt n (edges A) (src j) (q.S.length - i) (vw t p.1 j))
    (q.S.length - 1) (U, W)
    ⟨hU, hW, fun j hj => BackAt.start hE (hsrc j hj) (fun v => hq.last j v hj) (fun v hv => hUg j v hj hv)⟩
    (by
      rintro i ⟨U, W⟩ hi ⟨hU, hW, hB⟩
      have hU : ShV t n m U := hU
      have hW : ShV t n m W := hW
      have g1 : q.S[q.S.length - 1 - i]? = some (q.S[q.S.length - 1 - i]'(by omega)) := List.getElem?_eq_getElem _
      have g0 : q.S[q.S.length - 1 - i - 1]? = some (q.S[q.S.length - 1 - i - 1]'(by omega)) := List.getElem?_eq_getElem _
      obtain ⟨s1, k1⟩ := hq.sig _ _ g1
      obtain ⟨s0, k0⟩ := hq.sig _ _ g0
      revert s1 k1 s0 k0 g1 g0
      generalize q.S[q.S.length - 1 - i]'(by omega) = S1
      generalize q.S[q.S.length - 1 - i - 1]'(by omega) = S0
      intro g1 g0 s1 k1 s0 k0
      obtain ⟨W1, e1, w1, w2⟩ := hsc W S1 U hW s1 hU
      obtain ⟨W2, e2, w3, w4⟩ := hm W1 S0 w1 s0
      obtain ⟨U2, e3, u1, u2⟩ := bcAdd_ok w3 hq.nsp.sh hU
      refine ⟨(U2, W2), ?_, u1, w3, ?_⟩
      · unfold backBodyG sigmaAt
        rw [g1, g0]
        simp only [prog_bind_ok]
        rw [e1]
        simp only [prog_bind_ok]
        rw [e2]
        simp only [prog_bind_ok]
        rw [e3]
        rfl
      · intro j hj
        show BackAt n (edges A) (src j) (q.S.length - (i + 1)) (vw t U2 j)
        have hpos : ∀ v (S : Lil Bool) (k : Nat), k ≤ q.S.length →
            Marks n (edges A) (src j) k (fun v => (vw t S j v).any id) → (vw t S j v).any id = true →
            ∃ x, vw t q.P j v = some x := by
          intro v S k hk hM hS
          by_cases hv : v = src j
          · subst hv
            rcases (hq.nsp.row j hj).src with e | ⟨-, e⟩
            · exact ⟨_, e⟩
            · exact ⟨_, e⟩
          · exact ⟨_, hnum j v k hj hv hk ((hM.iff v hv).1 hS)⟩
        have k0 := k0 j hj
        have k1 := k1 j hj
        rw [show q.S.length - 1 - i - 1 + 1 = q.S.length - (i + 1) by omega] at k0
        have hii : q.S.length - 1 - i + 1 = q.S.length - (i + 1) + 1 := by omega
        rw [hii] at k1
        have hb := hB j hj
        rw [show q.S.length - i = q.S.length - (i + 1) + 1 by omega] at hb
        refine BackAt.next hE (hsrc j hj) (by omega) k1 k0 (U := vw t U j) (W1 := vw t W1 j) (W2 := vw t W2 j)
          (σ := fun v => (((vw t q.P j v).getD 0 : Int) : Rat)) ?_ hb ?_ ?_ ?_
        · intro v d hv hd hh
          rw [hnum j v d hj hv (by omega) hh]
          simp [numI, Rat.intCast_natCast]
        · intro v hv
          rw [w2 j v hj hv]
          split
          · rename_i hS
            obtain ⟨x, hx⟩ := hpos v S1 _ (by omega) k1 hS
            have hi' : vw t I j v = some (1 / (x : Rat)) := by
              have : vw t I j v = (vw t q.P j v).map fun x : Int => 1 / (x : Rat) := by cases t <;> exact hIg _ _
              rw [this, hx]; rfl
            rw [hi', hx]
            cases vw t U j v <;> rfl
          · rfl
        · intro v hv
          rw [w4 j v hj hv]
          split
          · congr 1
            refine List.map_congr_left ?_
            intro w _
            cases hg : A.get v w with
            | none =>
              simp only [edges, hg, Option.isSome_none, Bool.false_eq_true, if_false]
              cases vw t W1 j w <;> rfl
            | some x =>
              simp only [edges, hg, Option.isSome_some, if_true]
              cases vw t W1 j w with
              | none => rfl
              | some y => show some (pr y x) = some y; rw [hpr y x (h1 v w x hg)]
          · rfl
        · intro v hv
          have hu : vw t U2 j v = match vw t U j v, both (fun w (p : Int) => w * (p : Rat)) (vw t W2 j v) (vw t q.P j v) with
              | some u, some w => some (u + w)
              | u, none => u
              | none, some w => some w := by
            cases t
            · exact u2 v j hv hj
            · exact u2 j v hj hv
          rw [hu]
          cases hw2 : vw t W2 j v with
          | none => cases vw t U j v <;> rfl
          | some w =>
            have hS : (vw t S0 j v).any id = true := by
              have := w4 j v hj hv
              rw [hw2] at this
              by_cases h : (vw t S0 j v).any id = true
              · exact h
              · rw [if_neg h] at this; cases this
            obtain ⟨x, hx⟩ := hpos v S0 _ (by omega) k0 hS
            rw [hx]
            cases vw t U j v <;> rfl)
  refine ⟨(U', W'), e, hI', ?_⟩
  intro j v hj hv
  exact (hB j hj).final hE (hsrc j hj) (by omega) hv

theorem bcBack_ok {gF : α → Rat} {A : Lil α} {mulW : Lil Rat → Lil Bool → Prog (Lil Rat)} {q : BcSt}
    (hA : Sh n n A) (h1 : ∀ u v a, A.get u v = some a → gF a = 1)
    (hsrc : ∀ j, j < m → src j < n) (hm : BackStep t n m gF A mulW) (hq : BfsEnd t n m (edges A) src q)
    {I U W : Lil Rat} (hI : ShV t n m I) (hIg : ∀ i j, I.get i j = (q.P.get i j).map fun x : Int => 1 / (x : Rat))
    (hU : ShV t n m U) (hUg : ∀ j v, j < m → v < n → vw t U j v = some 1) (hW : ShV t n m W) :
    ∃ U', bcBack mulW q.S I q.P U W = .ok U' ∧ ShV t n m U' ∧
      ∀ j v, j < m → v < n → vw t U' j v = some (1 + dependency n (edges A) (src j) v) := by
  obtain ⟨r, e, h2, h3⟩ := backG_ok (scale := fun W S U => bcScale W S I U) hA h1 hsrc hm hq hIg
    (by
      intro W S U hW hS hU
      obtain ⟨W1, e1, w1, w2⟩ := bcScale_ok hW hS hI hU
      refine ⟨W1, e1, w1, ?_⟩
      intro j v hj hv
      cases t
      · exact w2 v j hv hj
      · exact w2 j v hj hv) hU hUg hW
  refine ⟨r.1, ?_, h2, h3⟩
  show (do let q ← forP (q.S.length - 1) (U, W) _; .ok q.1) = _
  rw [show (fun j q_1 => bcBackBody mulW q.S I q.P (q.S.length - 1 - j) q_1) =
    fun j p => backBodyG (fun W S U => bcScale W S I U) mulW q.S q.P (q.S.length - 1 - j) p from rfl, e]
  rfl

end

end GBTL
