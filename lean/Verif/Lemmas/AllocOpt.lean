import Verif.Lemmas.AllocWrite
import Verif.Spec.AllocOpt
import Verif.Lemmas.SafetyOpt
/-
The products of the optimized backend on a machine that runs out of memory: every store
of a row, every loop of stores, and every function.
-/
namespace GBTL
open Spec (Outp MaskKind)
open Act (lib output store)
open Lil (Step Chain Within)

variable {α β γ τ ζ μ ρ : Type}

/-- What is left of `C` if storing row `i` stopped early: `C`, or `C` with some of the new
elements. -/
def Stopped (C C' : Lil γ) (i : Nat) (r : Row γ) (c : Lil γ) : Prop :=
  c = C ∨ ∃ l, l < r.length ∧ c = C.put i (r.take l) C'.nvals

/-- The code `x` changes row `i` of `C` the way `e` does, if it does not run out of memory. -/
def Writes (i : Nat) (C : Lil γ) (e : Except Err (Lil γ)) (x : Act Nat (Lil γ) BadAlloc Unit) : Prop :=
  ∀ C', i < C.rows.length → e = .ok C' → ∃ r, Step C C' i r ∧ Runs x C (.ok ()) C' (Stopped C C' i r)

namespace Writes
variable {i : Nat} {C : Lil γ} {e : Except Err (Lil γ)} {x : Act Nat (Lil γ) BadAlloc Unit}

theorem out {x : Lil γ → Act Nat (Lil γ) BadAlloc Unit} (h : Writes i C e (x C)) :
    Writes i C e (output >>= x) := fun C' hi he =>
  let ⟨r, h1, h2⟩ := h C' hi he
  ⟨r, h1, (Runs.output _).bind h2⟩

theorem lib {g : Except Err ρ} {f : ρ → Except Err (Lil γ)} {x : ρ → Act Nat (Lil γ) BadAlloc Unit}
    (h : ∀ a, Writes i C (f a) (x a)) : Writes i C (g >>= f) (Act.lib g >>= x) := by
  intro C' hi he
  cases hg : g with
  | error er => rw [hg] at he; cases he
  | ok a =>
    rw [hg] at he
    obtain ⟨r, h1, h2⟩ := h a C' hi he
    exact ⟨r, h1, (Runs.lib_of rfl _).bind h2⟩

theorem req (k : Nat) (h : Writes i C e x) : Writes i C e (requests k >>= fun _ => x) := fun C' hi he =>
  let ⟨r, h1, h2⟩ := h C' hi he
  ⟨r, h1, (Runs.requests (.inl rfl) _).bind h2⟩

theorem ite {p : Prop} [Decidable p] {e' : Except Err (Lil γ)} {x' : Act Nat (Lil γ) BadAlloc Unit}
    (h : Writes i C e x) (h' : Writes i C e' x') :
    Writes i C (if p then e else e') (if p then x else x') := by
  by_cases hp : p
  · rw [if_pos hp, if_pos hp]; exact h
  · rw [if_neg hp, if_neg hp]; exact h'

theorem keep : Writes i C (.ok C) (pure ()) := by
  intro C' hi he
  cases he
  refine ⟨C.rowD i, ⟨hi, rfl, rfl, ?_, fun _ => id⟩, Runs.pure _ _⟩
  rw [Lil.rowD_of_lt hi, List.set_getElem_self]

theorem setRow {cast : ρ → γ} {t : Row ρ} : Writes i C (C.setRow i cast t) (Lil.setRowL i cast t) := by
  intro C' hi he
  obtain ⟨hlt, e2⟩ := Lil.setRow_put he
  have hlen : (t.cast cast).length = t.length := by simp [Row.cast]
  refine ⟨t.cast cast, ?_, ?_⟩
  · have := Step.ofPut hlt (t.cast cast)
    rw [hlen] at this; rw [e2]; exact this
  · have := Lil.setRowL_runs (F := Stopped C C' i (t.cast cast)) hlt cast t (by
      intro l hl
      refine .inr ⟨l, by rw [hlen]; exact hl, ?_⟩
      rw [e2]; rfl)
    rw [← e2] at this; exact this

theorem mergeRow {op : γ → ρ → γ} {cast : ρ → γ} {t : Row ρ} :
    Writes i C (C.mergeRow i op cast t) (Lil.mergeRowL i op cast t) :=
  ite keep (out (lib fun _ => ite setRow setRow))

theorem storeT {sf compl : Bool} {truthy : μ → Bool} {cast : ρ → γ} {direct : Bool} {m : Row μ} {t : Row ρ} :
    Writes i C (storeT sf compl truthy cast direct i m t C) (storeTL sf compl truthy cast direct i m t) :=
  ite setRow (out (lib fun _ => setRow))

theorem storeZ {sf compl : Bool} {truthy : μ → Bool} {castZ : ζ → γ} {acc : AccOp γ τ ζ} {direct : Bool}
    {m : Row μ} {t : Row τ} :
    Writes i C (storeZ sf compl truthy castZ acc direct i m t C) (storeZL sf compl truthy castZ acc direct i m t) :=
  out (lib fun _ => storeT)

/-- A loop of such stores. -/
theorem loop {n : Nat} {C C' : Lil γ} {f : Nat → Lil γ → Except Err (Lil γ)}
    {x : Nat → Unit → Act Nat (Lil γ) BadAlloc Unit} (h : ∀ i C, Writes i C (f i C) (x i ()))
    (hn : n ≤ C.rows.length) (hc : C.nvals = C.stored) (e : forN n C f = .ok C') :
    Runs (forA n () x) C (.ok ()) C' (fun left => ∃ i, i < n ∧ Torn C C' left i) ∧ C'.nvals = C'.stored := by
  obtain ⟨S, h0, h1, h2⟩ := forN_states e
  have len : ∀ i, i ≤ n → (S i).rows.length = C.rows.length := by
    intro i
    induction i with
    | zero => intro _; rw [h0]
    | succ i ih =>
      intro hi
      have hl := ih (by omega)
      obtain ⟨r, hs, -⟩ := h i (S i) _ (by omega) (h2 i (by omega))
      rw [hs.rows, List.length_set, hl]
  have step : ∀ i, ∃ r, i < n → Step (S i) (S (i + 1)) i r ∧
      Runs (x i ()) (S i) (.ok ()) (S (i + 1)) (Stopped (S i) (S (i + 1)) i r) := by
    intro i
    by_cases hi : i < n
    · obtain ⟨r, hr⟩ := h i (S i) _ (by rw [len i (by omega)]; omega) (h2 i hi)
      exact ⟨r, fun _ => hr⟩
    · exact ⟨[], fun h => absurd h hi⟩
  obtain ⟨new, hnew⟩ := Classical.axiomOfChoice step
  have chain : Chain S new 0 n := fun i _ hi => (hnew i (by omega)).1
  subst h0; subst h1
  refine ⟨?_, ?_⟩
  · refine (Runs.forA (F := Within S new n) fun i hi => ((hnew i hi).2).mono ?_).mono fun c hw =>
      chain.torn hc hw
    intro c hs
    exact ⟨i, hi, hs⟩
  · have := chain.count hc
    rwa [Nat.zero_add] at this

end Writes

/-- The code `x` ends like `e`, or runs out of memory and leaves `C`, or `C` with some rows
written. -/
def EndsLike (C : Lil γ) (e : Except Err (Lil γ)) (x : Act Nat (Lil γ) BadAlloc Unit) : Prop :=
  ∀ C', e = .ok C' → Runs x C (.ok ()) C' fun left => left = C ∨ ∃ i, i < C.nrows ∧ Torn C C' left i

namespace EndsLike
variable {C : Lil γ} {e : Except Err (Lil γ)} {x : Act Nat (Lil γ) BadAlloc Unit}

theorem out {x : Lil γ → Act Nat (Lil γ) BadAlloc Unit} (h : EndsLike C e (x C)) :
    EndsLike C e (output >>= x) := fun C' he => (Runs.output _).bind (h C' he)

theorem ite {p : Prop} [Decidable p] {e' : Except Err (Lil γ)} {x' : Act Nat (Lil γ) BadAlloc Unit}
    (h : EndsLike C e x) (h' : EndsLike C e' x') :
    EndsLike C (if p then e else e') (if p then x else x') := by
  by_cases hp : p
  · rw [if_pos hp, if_pos hp]; exact h
  · rw [if_neg hp, if_neg hp]; exact h'

theorem clear : EndsLike C (.ok C.clear) (store C.clear) := by
  intro C' he; cases he; exact Runs.store _ _

theorem keep : EndsLike C (.ok C) (pure ()) := by
  intro C' he; cases he; exact Runs.pure _ _

/-- A temporary matrix. -/
theorem tmp {g : Except Err ρ} {f : ρ → Except Err (Lil γ)} {x : ρ → Act Nat (Lil γ) BadAlloc Unit} (k : Nat)
    (h : ∀ a, EndsLike C (f a) (x a)) :
    EndsLike C (g >>= f) (requests k >>= fun _ => lib g >>= x) := by
  intro C' he
  cases hg : g with
  | error er => rw [hg] at he; cases he
  | ok a =>
    rw [hg] at he
    exact (Runs.requests (.inl rfl) _).bind ((Runs.lib_of rfl _).bind (h a C' he))

theorem swap {D : Lil γ} : EndsLike C (C.swapFrom D) (Lil.swapL D) := by
  intro C' he
  exact (Runs.output _).bind ((Runs.lib_of he _).bind (Runs.store _ _))

theorem loop {n : Nat} {f : Nat → Lil γ → Except Err (Lil γ)}
    {x : Nat → Unit → Act Nat (Lil γ) BadAlloc Unit} (hl : C.rows.length = C.nrows)
    (hc : C.nvals = C.stored) (hn : n = C.nrows) (h : ∀ i C, Writes i C (f i C) (x i ())) :
    EndsLike C (forN n C f) (forA n () x) := by
  intro C' he
  refine (Writes.loop h (by omega) hc he).1.mono fun left ⟨i, hi, ht⟩ => .inr ⟨i, by omega, ht⟩

end EndsLike

theorem Runs.store_of {c c' : Lil γ} (h : c = c') (s : Lil γ) {F : Lil γ → Prop} :
    Runs (Act.store c : Act Nat (Lil γ) BadAlloc Unit) s (.ok ()) c' F := h ▸ Runs.store c s

/-! ### The functions -/
section
variable {x : OptOps α β γ τ ζ μ} {acc : AccOp γ τ ζ} {sf compl : Bool} {outp : Outp} {C : Lil γ} {m : Arg γ μ}
variable {a : Arg γ α} {b : Arg γ β} {add : τ → τ → τ} {mult : α → β → τ} {truthy : μ → Bool} {cast : τ → γ}
variable (prep : Nat) (work : Nat → Nat) (hl : C.rows.length = C.nrows) (hc : C.nvals = C.stored)
include hl hc

theorem fromTmpL_ends {tmp : Lil γ} :
    EndsLike C (fromTmp sf compl truthy outp m tmp C) (fromTmpL work sf compl truthy outp m tmp) := by
  cases outp with
  | replace => exact .swap
  | merge => exact .out (.loop hl hc rfl fun i C => .out (.lib fun _ => .lib fun _ => .req _ .storeT))

theorem fromTmpAccumL_ends {castZ : ζ → γ} {tmp : Lil τ} :
    EndsLike C (fromTmpAccum sf compl truthy castZ acc outp m tmp C)
      (fromTmpAccumL work sf compl truthy castZ acc outp m tmp) :=
  .out (.loop hl hc rfl fun _ _ => .out (.lib fun _ => .lib fun _ => .req _ .storeZ))

theorem mergeTmpL_ends {op : γ → ρ → γ} {cast : ρ → γ} {tmp : Lil ρ} :
    EndsLike C (mergeTmp op cast tmp C) (mergeTmpL work op cast tmp) :=
  .out (.loop hl hc rfl fun _ _ => .lib fun _ => .req _ .mergeRow)

section
variable (ha : (a.at C).nrows = C.nrows)
include ha

theorem abNoMaskNoAccumL_ends :
    EndsLike C (abNoMaskNoAccumK add mult cast C a b) (abNoMaskNoAccumL work add mult cast a b) :=
  .out (.loop hl hc ha fun _ _ => .out (.lib fun _ => .lib fun _ => .req _ .setRow))

theorem abNoMaskAccumL_ends : EndsLike C (abNoMaskAccumK x acc C a b) (abNoMaskAccumL work x acc a b) :=
  .out (.loop hl hc ha fun _ _ => .out (.lib fun _ => .lib fun _ => .req _ (.ite .mergeRow .keep)))

theorem abMaskNoAccumL_ends : EndsLike C (abMaskNoAccumK add mult truthy cast sf outp C m a b)
    (abMaskNoAccumL work add mult truthy cast sf outp m a b) :=
  .out (.loop hl hc ha fun _ _ => .out (.lib fun _ => .lib fun _ => .lib fun _ => .req _ .storeT))

theorem abMaskAccumL_ends : EndsLike C (abMaskAccumK x acc sf outp C m a b) (abMaskAccumL work x acc sf outp m a b) :=
  .out (.loop hl hc ha fun _ _ => .out (.lib fun _ => .lib fun _ => .lib fun _ => .req _ .storeZ))

theorem abCompNoAccumL_ends : EndsLike C (abCompNoAccumK add mult truthy cast sf outp C m a b)
    (abCompNoAccumL work add mult truthy cast sf outp m a b) :=
  .out (.loop hl hc ha fun _ _ => .out (.lib fun _ => .lib fun _ => .lib fun _ => .req _ .storeT))

theorem abCompAccumL_ends : EndsLike C (abCompAccumK x acc sf outp C m a b) (abCompAccumL work x acc sf outp m a b) :=
  .out (.loop hl hc ha fun _ _ => .out (.lib fun _ => .lib fun _ => .lib fun _ => .req _ .storeZ))

theorem abtNoMaskNoAccumL_ends :
    EndsLike C (abtNoMaskNoAccumK add mult cast C a b) (abtNoMaskNoAccumL work add mult cast a b) :=
  .out (.loop hl hc ha fun _ _ => .out (.lib fun _ => .ite .keep (.lib fun _ => .req _ .setRow)))

theorem abtNoMaskAccumL_ends : EndsLike C (abtNoMaskAccumK x acc C a b) (abtNoMaskAccumL work x acc a b) :=
  .out (.loop hl hc ha fun _ _ => .out (.lib fun _ => .ite .keep (.lib fun _ => .req _ (.ite .mergeRow .keep))))

theorem abtMaskNoAccumL_ends : EndsLike C (abtMaskNoAccumK add mult truthy cast sf outp C m a b)
    (abtMaskNoAccumL work add mult truthy cast sf outp m a b) :=
  .out (.loop hl hc ha fun _ _ => .out (.lib fun _ => .lib fun _ => .lib fun _ => .req _ .storeT))

theorem abtMaskAccumL_ends : EndsLike C (abtMaskAccumK x acc sf outp C m a b) (abtMaskAccumL work x acc sf outp m a b) :=
  .out (.loop hl hc ha fun _ _ => .out (.lib fun _ => .lib fun _ => .lib fun _ => .req _ .storeZ))

theorem abtCompNoAccumL_ends : EndsLike C (abtCompNoAccumK add mult truthy cast sf outp C m a b)
    (abtCompNoAccumL work add mult truthy cast sf outp m a b) :=
  .out (.loop hl hc ha fun _ _ => .out (.lib fun _ => .lib fun _ => .lib fun _ => .req _ .storeT))

theorem abtCompAccumL_ends : EndsLike C (abtCompAccumK x acc sf outp C m a b) (abtCompAccumL work x acc sf outp m a b) :=
  .out (.loop hl hc ha fun _ _ => .out (.lib fun _ => .lib fun _ => .lib fun _ => .req _ .storeZ))

theorem optNoMaskNoAccumABL_ends : EndsLike C (optNoMaskNoAccumAB x C a b) (optNoMaskNoAccumABL prep work x a b) :=
  .out (.ite .clear (.ite (.tmp _ fun _ => .swap) (abNoMaskNoAccumL_ends work hl hc ha)))

theorem optNoMaskAccumABL_ends : EndsLike C (optNoMaskAccumAB x acc C a b) (optNoMaskAccumABL prep work x acc a b) :=
  .out (.ite .keep (.ite (.tmp _ fun _ => mergeTmpL_ends work hl hc) (abNoMaskAccumL_ends work hl hc ha)))

theorem optMaskNoAccumABL_ends : EndsLike C (optMaskNoAccumAB x sf outp C m a b) (optMaskNoAccumABL prep work x sf outp m a b) :=
  .out (.ite .clear (.ite .keep (.ite (.tmp _ fun _ => fromTmpL_ends work hl hc) (abMaskNoAccumL_ends work hl hc ha))))

theorem optMaskAccumABL_ends : EndsLike C (optMaskAccumAB x acc sf outp C m a b) (optMaskAccumABL prep work x acc sf outp m a b) :=
  .out (.ite .clear (.ite .keep (.ite (.tmp _ fun _ => fromTmpAccumL_ends work hl hc) (abMaskAccumL_ends work hl hc ha))))

theorem optCompNoAccumABL_ends : EndsLike C (optCompNoAccumAB x sf outp C m a b) (optCompNoAccumABL prep work x sf outp m a b) :=
  .out (.ite .clear (.ite (.tmp _ fun _ => fromTmpL_ends work hl hc) (abCompNoAccumL_ends work hl hc ha)))

theorem optCompAccumABL_ends : EndsLike C (optCompAccumAB x acc sf outp C m a b) (optCompAccumABL prep work x acc sf outp m a b) :=
  .out (.ite .keep (.ite (.tmp _ fun _ => fromTmpAccumL_ends work hl hc) (abCompAccumL_ends work hl hc ha)))

theorem optNoMaskNoAccumABTL_ends : EndsLike C (optNoMaskNoAccumABT x C a b) (optNoMaskNoAccumABTL prep work x a b) :=
  .out (.ite .clear (.ite (.tmp _ fun _ => .swap) (abtNoMaskNoAccumL_ends work hl hc ha)))

theorem optNoMaskAccumABTL_ends : EndsLike C (optNoMaskAccumABT x acc C a b) (optNoMaskAccumABTL prep work x acc a b) :=
  .out (.ite .keep (.ite (.tmp _ fun _ => mergeTmpL_ends work hl hc) (abtNoMaskAccumL_ends work hl hc ha)))

theorem optMaskNoAccumABTL_ends : EndsLike C (optMaskNoAccumABT x sf outp C m a b) (optMaskNoAccumABTL prep work x sf outp m a b) :=
  .out (.ite .clear (.ite .keep (.ite (.tmp _ fun _ => fromTmpL_ends work hl hc) (abtMaskNoAccumL_ends work hl hc ha))))

theorem optMaskAccumABTL_ends : EndsLike C (optMaskAccumABT x acc sf outp C m a b) (optMaskAccumABTL prep work x acc sf outp m a b) :=
  .out (.ite .clear (.ite .keep (.ite (.tmp _ fun _ => fromTmpAccumL_ends work hl hc) (abtMaskAccumL_ends work hl hc ha))))

theorem optCompNoAccumABTL_ends : EndsLike C (optCompNoAccumABT x sf outp C m a b) (optCompNoAccumABTL prep work x sf outp m a b) :=
  .out (.ite .clear (.ite (.tmp _ fun _ => fromTmpL_ends work hl hc) (abtCompNoAccumL_ends work hl hc ha)))

theorem optCompAccumABTL_ends : EndsLike C (optCompAccumABT x acc sf outp C m a b) (optCompAccumABTL prep work x acc sf outp m a b) :=
  .out (.ite (.tmp _ fun _ => fromTmpAccumL_ends work hl hc) (abtCompAccumL_ends work hl hc ha))

end

theorem optNoMaskNoAccumATBL_ends : EndsLike C (optNoMaskNoAccumATB x C a b) (optNoMaskNoAccumATBL prep work x a b) :=
  .out (.ite .clear (.tmp _ fun _ => .loop hl hc rfl fun _ _ => .lib fun _ => .req _ .setRow))

theorem optNoMaskAccumATBL_ends : EndsLike C (optNoMaskAccumATB x acc C a b) (optNoMaskAccumATBL prep work x acc a b) :=
  .out (.ite .keep (.tmp _ fun _ => .loop hl hc rfl fun _ _ => .lib fun _ => .req _ (.ite .mergeRow .keep)))

theorem optMaskNoAccumATBL_ends : EndsLike C (optMaskNoAccumATB x sf outp C m a b) (optMaskNoAccumATBL prep work x sf outp m a b) :=
  .out (.ite .clear (.ite .keep (.tmp _ fun _ => .loop hl hc rfl fun _ _ => .out (.lib fun _ => .lib fun _ => .req _ .storeT))))

theorem optMaskAccumATBL_ends : EndsLike C (optMaskAccumATB x acc sf outp C m a b) (optMaskAccumATBL prep work x acc sf outp m a b) :=
  .out (.ite .clear (.ite .keep (.tmp _ fun _ => .loop hl hc rfl fun _ _ => .out (.lib fun _ => .lib fun _ => .req _ .storeZ))))

theorem optCompNoAccumATBL_ends : EndsLike C (optCompNoAccumATB x sf outp C m a b) (optCompNoAccumATBL prep work x sf outp m a b) :=
  .out (.ite .clear (.tmp _ fun _ => .loop hl hc rfl fun _ _ => .out (.lib fun _ => .lib fun _ => .req _ .storeT)))

theorem optCompAccumATBL_ends : EndsLike C (optCompAccumATB x acc sf outp C m a b) (optCompAccumATBL prep work x acc sf outp m a b) :=
  .out (.ite .keep (.tmp _ fun _ => .loop hl hc rfl fun _ _ => .out (.lib fun _ => .lib fun _ => .req _ .storeZ)))

theorem optNoMaskAccumATBTL_ends : EndsLike C (optNoMaskAccumATBT x acc C a b) (optNoMaskAccumATBTL prep work x acc a b) :=
  .out (.ite .keep (.tmp _ fun _ => mergeTmpL_ends work hl hc))

theorem optMaskNoAccumATBTL_ends : EndsLike C (optMaskNoAccumATBT x sf outp C m a b) (optMaskNoAccumATBTL prep work x sf outp m a b) :=
  .out (.ite .clear (.ite .keep (.tmp _ fun _ => .loop hl hc rfl fun _ _ => .out (.lib fun _ => .lib fun _ => .req _ .storeT))))

theorem optMaskAccumATBTL_ends : EndsLike C (optMaskAccumATBT x acc sf outp C m a b) (optMaskAccumATBTL prep work x acc sf outp m a b) :=
  .out (.ite .clear (.ite .keep (.tmp _ fun _ => .loop hl hc rfl fun _ _ => .out (.lib fun _ => .lib fun _ => .req _ .storeZ))))

theorem optCompNoAccumATBTL_ends : EndsLike C (optCompNoAccumATBT x sf outp C m a b) (optCompNoAccumATBTL prep work x sf outp m a b) :=
  .out (.ite .clear (.tmp _ fun _ => .loop hl hc rfl fun _ _ => .out (.lib fun _ => .lib fun _ => .req _ .storeT)))

theorem optCompAccumATBTL_ends : EndsLike C (optCompAccumATBT x acc sf outp C m a b) (optCompAccumATBTL prep work x acc sf outp m a b) :=
  .out (.ite .keep (.tmp _ fun _ => .loop hl hc rfl fun _ _ => .out (.lib fun _ => .lib fun _ => .req _ .storeZ)))

/-- The product of two transposed matrices one of which is the output. -/
theorem optNoMaskNoAccumATBTL_ends (hab : (a.isC || b.isC) = true) :
    EndsLike C (optNoMaskNoAccumATBT x C a b) (optNoMaskNoAccumATBTL prep work x a b) := by
  refine .out (.ite .clear ?_)
  rw [if_pos hab, if_pos hab]
  refine .tmp _ fun tmp C' he => ?_
  cases e : forN C.nrows C fun i C => tmp.row i >>= fun t => C.setRow i id t with
  | error er => rw [e] at he; cases he
  | ok D =>
    rw [e] at he
    obtain ⟨h1, h2⟩ := Writes.loop (x := fun i _ => lib (tmp.row i) >>= fun t => requests (work i) >>= fun _ =>
      Lil.setRowL i id t) (fun _ _ => .lib fun _ => .req _ .setRow) (Nat.le_of_eq hl.symm) hc e
    have hD : D.recomputeNvals = D := by
      show { D with nvals := D.stored } = D
      rw [← h2]
    have : C' = D := by cases he; exact hD
    subst this
    exact Runs.bind (h1.mono fun left ⟨i, hi, ht⟩ => .inr ⟨i, hi, ht⟩) ((Runs.output _).bind (Runs.store_of hD _))

end

/-! ### Writing column by column -/

/-- `B` has everything `A` has, and perhaps more at the ends of the rows. -/
structure Grows (A B : Lil γ) : Prop where
  nrows : A.nrows = B.nrows
  ncols : A.ncols = B.ncols
  nvals : A.nvals = B.nvals
  len : A.rows.length = B.rows.length
  rows : ∀ k, A.rowD k <+: B.rowD k

theorem Grows.refl (A : Lil γ) : Grows A A := ⟨rfl, rfl, rfl, rfl, fun _ => List.prefix_refl _⟩

theorem Grows.trans {A B C : Lil γ} (h : Grows A B) (h' : Grows B C) : Grows A C :=
  ⟨h.nrows.trans h'.nrows, h.ncols.trans h'.ncols, h.nvals.trans h'.nvals, h.len.trans h'.len,
    fun k => (h.rows k).trans (h'.rows k)⟩

theorem Grows.push {A : Lil γ} {i : Nat} (h : i < A.rows.length) (p : Nat × γ) :
    Grows A { A with rows := A.rows.set i (A.rowD i ++ [p]) } := by
  refine ⟨rfl, rfl, rfl, by simp, fun k => ?_⟩
  show A.rowD k <+: ((A.rows.set i (A.rowD i ++ [p]))[k]?).getD []
  rw [Lil.rowD_set h rfl]
  split
  · next e => subst e; exact List.prefix_append _ _
  · exact List.prefix_refl _

theorem pushColL_runs (i : Nat) : ∀ (r : Row γ) (T T' : Lil γ), pushCol i r T = .ok T' →
    Runs (pushColL i r) T (.ok ()) T' (fun c => Grows T c ∧ Grows c T') ∧ Grows T T'
  | [], T, T', e => by
    cases e
    exact ⟨Runs.pure _ _, .refl _⟩
  | (j, t) :: r, T, T', e => by
    rw [pushCol, List.foldlM_cons] at e
    by_cases h : j < T.rows.length
    · rw [Lil.row_ok h] at e
      simp only [Except.bind_ok', Lil.pokeRow, wr_ok h] at e
      obtain ⟨h1, h2⟩ := pushColL_runs i r { T with rows := T.rows.set j (T.rowD j ++ [(i, t)]) } T' e
      have g := Grows.push h (i, t)
      refine ⟨?_, g.trans h2⟩
      refine Runs.bind (s1 := { T with rows := T.rows.set j (T.rowD j ++ [(i, t)]) }) (a := ()) ?_
        (h1.mono fun c hc => ⟨g.trans hc.1, hc.2⟩)
      exact (Runs.request ⟨.refl _, g.trans h2⟩).bind ((Runs.output _).bind
        ((Runs.lib_of (Lil.row_ok h) _).bind (Runs.store _ _)))
    · rw [Lil.row, rd, List.getElem?_eq_none (by omega)] at e
      cases e

section
variable {x : OptOps α β γ τ ζ μ} {C C' : Lil γ} {a : Arg γ α} {b : Arg γ β}

theorem atbtL_runs {add : τ → τ → τ} {multA : α → α → τ} {castBA : β → α} {cast : τ → γ} {A : Lil α} {B : Lil β}
    (work : Nat → Nat) (e : atbtK add multA castBA cast C A B = .ok C') :
    Runs (atbtL work add multA castBA cast A B) C (.ok ()) C' (Begun C') := by
  unfold atbtK at e
  cases eD : forN B.nrows C.clear fun i C => do
      let b ← B.row i
      let t ← atbtRow add multA castBA A b
      pushCol i (Row.cast cast t) C with
  | error er => rw [eD] at e; cases e
  | ok D =>
    rw [eD] at e
    obtain rfl : D.recomputeNvals = C' := by cases e; rfl
    obtain ⟨S, h0, h1, h2⟩ := forN_states eD
    have step : ∀ i, i < B.nrows → ∃ b t, B.row i = .ok b ∧ atbtRow add multA castBA A b = .ok t ∧
        pushCol i (Row.cast cast t) (S i) = .ok (S (i + 1)) := by
      intro i hi
      have hb := h2 i hi
      cases e1 : B.row i with
      | error er => rw [e1] at hb; cases hb
      | ok b =>
        cases e2 : atbtRow add multA castBA A b with
        | error er => rw [e1, Except.bind_ok', e2] at hb; cases hb
        | ok t =>
          rw [e1, Except.bind_ok', e2, Except.bind_ok'] at hb
          exact ⟨b, t, rfl, e2, hb⟩
    have one : ∀ i, i < B.nrows → Grows (S i) (S (i + 1)) := fun i hi =>
      let ⟨_, _, _, _, e⟩ := step i hi
      (pushColL_runs i _ _ _ e).2
    have up : ∀ i, i ≤ B.nrows → Grows (S 0) (S i) := by
      intro i
      induction i with
      | zero => intro _; exact .refl _
      | succ i ih => intro hi; exact (ih (by omega)).trans (one i hi)
    have down : ∀ d i, i + d = B.nrows → Grows (S i) (S B.nrows) := by
      intro d
      induction d with
      | zero => intro i hi; rw [← hi]; exact .refl _
      | succ d ih => intro i hi; exact (one i (by omega)).trans (ih (i + 1) (by omega))
    have begun : ∀ c, Grows (S 0) c → Grows c (S B.nrows) → Begun D.recomputeNvals c := by
      intro c g1 g2
      rw [h1] at g2
      refine ⟨g2.nrows, g2.ncols, g2.len, ?_, fun k => ?_⟩
      · rw [← g1.nvals, h0]; rfl
      · obtain ⟨l, hl⟩ := g2.rows k
        exact ⟨(c.rowD k).length, by
          show _ = (D.rowD k).take _
          rw [← hl, List.take_left']; rfl⟩
    refine (Runs.output _).bind ((Runs.store _ _).bind (Runs.bind (a := ()) (s1 := D) ?_
      ((Runs.output _).bind (Runs.store _ _))))
    rw [← h0, ← h1]
    refine Runs.forA fun i hi => ?_
    obtain ⟨b, t, e1, e2, e3⟩ := step i hi
    have gi := up i (Nat.le_of_lt hi)
    have gd := down (B.nrows - i) i (by omega)
    refine (Runs.lib_of e1 _).bind ((Runs.lib_of e2 _).bind ((Runs.requests ?_ _).bind
      ((pushColL_runs i _ _ _ e3).1.mono fun c hc => ?_)))
    · rw [h1] at begun ⊢; exact begun _ gi (h1 ▸ gd)
    · have := begun c (gi.trans hc.1) (hc.2.trans (down (B.nrows - (i + 1)) (i + 1) (by omega)))
      rw [h1]; exact this

/-- The product of two transposed matrices neither of which is the output. -/
theorem optNoMaskNoAccumATBTL_runs (prep : Nat) (work : Nat → Nat) (hab : (a.isC || b.isC) = false)
    (e : optNoMaskNoAccumATBT x C a b = .ok C') :
    Runs (optNoMaskNoAccumATBTL prep work x a b) C (.ok ()) C' (Begun C') := by
  unfold optNoMaskNoAccumATBT at e
  refine (Runs.output _).bind ?_
  rw [hab] at e ⊢
  split at e
  · next h =>
    rw [if_pos h]; cases e; exact Runs.store _ _
  · next h =>
    rw [if_neg h]
    simp only [Bool.false_eq_true, if_false] at e ⊢
    cases eD : atbtK x.add x.multA x.castBA x.castT C (a.at C) (b.at C) with
    | error er => rw [eD] at e; cases e
    | ok D =>
      rw [eD] at e
      have hD : D.recomputeNvals = D := by
        unfold atbtK at eD
        cases h : forN (b.at C).nrows C.clear fun i D => do
            let r ← (b.at C).row i
            let t ← atbtRow x.add x.multA x.castBA (a.at C) r
            pushCol i (Row.cast x.castT t) D with
        | error er => rw [h] at eD; cases eD
        | ok E => rw [h] at eD; cases eD; rfl
      obtain rfl : D = C' := by cases e; exact hD.symm
      exact (atbtL_runs work eD).bind ((Runs.output _).bind (Runs.store_of hD _))
end

/-! ### The call -/

theorem EndsLike.dispatch {C : Lil γ} {k : MaskKind} {f g : Bool → Except Err (Lil γ)}
    {x y : Bool → Act Nat (Lil γ) BadAlloc Unit} (hf : ∀ sf, EndsLike C (f sf) (x sf)) (hg : ∀ sf, EndsLike C (g sf) (y sf)) :
    EndsLike C (optDispatch k f g) (optDispatchL k x y) := by
  cases k with
  | plain => exact hf false
  | struct => exact hf true
  | comp => exact hg false
  | structComp => exact hg true

theorem optMxmBackendL_ends {x : OptOps α β γ τ ζ μ} {acc : Option (AccOp γ τ ζ)} {outp : Outp} {C : Lil γ}
    {M : ArgMask γ μ} {A : ArgOperand γ α} {B : ArgOperand γ β} (prep : Nat) (work : Nat → Nat)
    (hl : C.rows.length = C.nrows) (hc : C.nvals = C.stored) (hA : C.nrows = (A.at C).nrows)
    (hu : ¬ Uncounted acc M A B) :
    EndsLike C (optMxmBackend x acc outp C M A B) (optMxmBackendL prep work x acc outp M A B) := by
  cases A with
  | plain a =>
    have ha : (a.at C).nrows = C.nrows := hA.symm
    cases B with
    | plain b =>
      rcases M with _ | ⟨kd, m⟩ <;> rcases acc with _ | acc
      · exact optNoMaskNoAccumABL_ends prep work hl hc ha
      · exact optNoMaskAccumABL_ends prep work hl hc ha
      · rw [optMxmBackend, optMxmBackendL]
        exact .dispatch (fun sf => optMaskNoAccumABL_ends prep work hl hc ha)
          fun sf => optCompNoAccumABL_ends prep work hl hc ha
      · rw [optMxmBackend, optMxmBackendL]
        exact .dispatch (fun sf => optMaskAccumABL_ends prep work hl hc ha)
          fun sf => optCompAccumABL_ends prep work hl hc ha
    | tr b =>
      rcases M with _ | ⟨kd, m⟩ <;> rcases acc with _ | acc
      · exact optNoMaskNoAccumABTL_ends prep work hl hc ha
      · exact optNoMaskAccumABTL_ends prep work hl hc ha
      · rw [optMxmBackend, optMxmBackendL]
        exact .dispatch (fun sf => optMaskNoAccumABTL_ends prep work hl hc ha)
          fun sf => optCompNoAccumABTL_ends prep work hl hc ha
      · rw [optMxmBackend, optMxmBackendL]
        exact .dispatch (fun sf => optMaskAccumABTL_ends prep work hl hc ha)
          fun sf => optCompAccumABTL_ends prep work hl hc ha
  | tr a =>
    cases B with
    | plain b =>
      rcases M with _ | ⟨kd, m⟩ <;> rcases acc with _ | acc
      · exact optNoMaskNoAccumATBL_ends prep work hl hc
      · exact optNoMaskAccumATBL_ends prep work hl hc
      · rw [optMxmBackend, optMxmBackendL]
        exact .dispatch (fun sf => optMaskNoAccumATBL_ends prep work hl hc)
          fun sf => optCompNoAccumATBL_ends prep work hl hc
      · rw [optMxmBackend, optMxmBackendL]
        exact .dispatch (fun sf => optMaskAccumATBL_ends prep work hl hc)
          fun sf => optCompAccumATBL_ends prep work hl hc
    | tr b =>
      rcases M with _ | ⟨kd, m⟩ <;> rcases acc with _ | acc
      · refine optNoMaskNoAccumATBTL_ends prep work hl hc ?_
        cases h1 : a.isC <;> cases h2 : b.isC <;> try rfl
        exact absurd ⟨rfl, rfl, a, b, rfl, rfl, h1, h2⟩ hu
      · exact optNoMaskAccumATBTL_ends prep work hl hc
      · rw [optMxmBackend, optMxmBackendL]
        exact .dispatch (fun sf => optMaskNoAccumATBTL_ends prep work hl hc)
          fun sf => optCompNoAccumATBTL_ends prep work hl hc
      · rw [optMxmBackend, optMxmBackendL]
        exact .dispatch (fun sf => optMaskAccumATBTL_ends prep work hl hc)
          fun sf => optCompAccumATBTL_ends prep work hl hc

theorem optMxmL_done {x : OptOps α β γ τ ζ μ} {acc : Option (AccOp γ τ ζ)} {outp : Outp} {C C' : Lil γ}
    {M : ArgMask γ μ} {A : ArgOperand γ α} {B : ArgOperand γ β} (prep : Nat) (work : Nat → Nat) (hC : C.WF)
    (hu : ¬ Uncounted acc M A B) (e : optMxm x acc outp C M A B = .done C') :
    Runs (optMxmL prep work x acc outp M A B) C (.ok ()) C'
      fun left => left = C ∨ ∃ i, i < C.nrows ∧ Torn C C' left i := by
  obtain ⟨u, e1, e2⟩ := run_ret e
  have hA : C.nrows = (A.at C).nrows := by
    have hs : Sound (mxmChecks (M.at C) C (A.at C) (B.at C)) fun _ => C.nrows = (A.at C).nrows :=
      (rowCheck_sound ..).bind fun _ _ => (colCheck_sound ..).bind fun _ _ => (eqCheck_sound ..).bind fun _ h =>
        (eqCheck_sound ..).bind fun _ _ => (eqCheck_sound ..).mono fun _ _ => h
    rw [e1] at hs; exact hs
  exact (Runs.output _).bind ((Runs.lib_of e1 _).bind
    (optMxmBackendL_ends prep work hC.len hC.count hA hu C' e2))

theorem optMxmL_begun {x : OptOps α β γ τ ζ μ} {acc : Option (AccOp γ τ ζ)} {outp : Outp} {C C' : Lil γ}
    {M : ArgMask γ μ} {A : ArgOperand γ α} {B : ArgOperand γ β} (prep : Nat) (work : Nat → Nat)
    (hu : Uncounted acc M A B) (e : optMxm x acc outp C M A B = .done C') :
    Runs (optMxmL prep work x acc outp M A B) C (.ok ()) C' (Begun C') := by
  obtain ⟨u, e1, e2⟩ := run_ret e
  refine (Runs.output _).bind ((Runs.lib_of e1 _).bind ?_)
  obtain ⟨rfl, rfl, a, b, rfl, rfl, h1, h2⟩ := hu
  exact optNoMaskNoAccumATBTL_runs prep work (by rw [h1, h2]; rfl) e2

theorem optMxmL_threw {x : OptOps α β γ τ ζ μ} {acc : Option (AccOp γ τ ζ)} {outp : Outp} {C C' : Lil γ}
    {M : ArgMask γ μ} {A : ArgOperand γ α} {B : ArgOperand γ β} {er : Err} (prep : Nat) (work : Nat → Nat)
    (e : optMxm x acc outp C M A B = .threw er C') :
    Runs (optMxmL prep work x acc outp M A B) C (.error er) C fun _ => False := by
  obtain ⟨e1, -⟩ := run_fail e
  exact (Runs.output _).bind (Runs.bind_err (Runs.lib_of e1 _))

end GBTL
