import Verif.Spec.Alloc
import Verif.Lemmas.Mask
import Verif.Lemmas.Program
/-
How calls end when memory runs out: rules for the pieces of `Verif.Model.Alloc`.
-/
namespace GBTL
open Spec (Outp MaskKind Op)
open Act (call lib output store)

variable {α β γ ζ τ μ χ σ : Type}

/-- The library's exceptions among all. -/
def libRes (r : Except Err τ) : Except (Halt BadAlloc) τ :=
  match r with
  | .ok a => .ok a
  | .error e => .error (.lib e)

/-- From `s` the code ends with `res` and the container `s'`, or runs out of memory and
leaves a container with `F`; there is an amount of memory that is enough. -/
structure Runs (x : Act Nat χ BadAlloc τ) (s : χ) (res : Except Err τ) (s' : χ) (F : χ → Prop) : Prop where
  all : ∀ mem, (∃ m, x (mem, s) = (libRes res, (m, s'))) ∨
    ∃ m c, x (mem, s) = (.error (.op .badAlloc), (m, c)) ∧ F c
  enough : ∃ k, ∀ extra, x (k + extra, s) = (libRes res, (extra, s'))

namespace Runs

theorem mono {x : Act Nat χ BadAlloc τ} {s s' : χ} {res : Except Err τ} {F G : χ → Prop}
    (h : Runs x s res s' F) (hFG : ∀ c, F c → G c) : Runs x s res s' G :=
  ⟨fun mem => (h.all mem).imp id fun ⟨m, c, e, hc⟩ => ⟨m, c, e, hFG c hc⟩, h.enough⟩

theorem pure (a : τ) (s : χ) {F : χ → Prop} :
    Runs (Pure.pure a : Act Nat χ BadAlloc τ) s (.ok a) s F :=
  ⟨fun mem => .inl ⟨mem, rfl⟩, 0, fun extra => by rw [Nat.zero_add]; rfl⟩

theorem output (s : χ) {F : χ → Prop} : Runs (Act.output : Act Nat χ BadAlloc χ) s (.ok s) s F :=
  ⟨fun mem => .inl ⟨mem, rfl⟩, 0, fun extra => by rw [Nat.zero_add]; rfl⟩

theorem store (c s : χ) {F : χ → Prop} : Runs (Act.store c : Act Nat χ BadAlloc Unit) s (.ok ()) c F :=
  ⟨fun mem => .inl ⟨mem, rfl⟩, 0, fun extra => by rw [Nat.zero_add]; rfl⟩

theorem lib (r : Except Err τ) (s : χ) {F : χ → Prop} : Runs (Act.lib r : Act Nat χ BadAlloc τ) s r s F := by
  cases r <;> exact ⟨fun mem => .inl ⟨mem, rfl⟩, 0, fun extra => by rw [Nat.zero_add]; rfl⟩

theorem lib_of {r res : Except Err τ} (e : r = res) (s : χ) {F : χ → Prop} :
    Runs (Act.lib r : Act Nat χ BadAlloc τ) s res s F := e ▸ lib r s

theorem request {s : χ} {F : χ → Prop} (hF : F s) : Runs GBTL.request s (.ok ()) s F :=
  ⟨fun mem => match mem with
    | 0 => .inr ⟨0, s, rfl, hF⟩
    | m + 1 => .inl ⟨m, rfl⟩, 1, fun extra => by rw [Nat.add_comm]; rfl⟩

theorem bind {x : Act Nat χ BadAlloc σ} {f : σ → Act Nat χ BadAlloc τ} {s s1 s2 : χ} {a : σ}
    {res : Except Err τ} {F : χ → Prop} (hx : Runs x s (.ok a) s1 F) (hf : Runs (f a) s1 res s2 F) :
    Runs (x >>= f) s res s2 F := by
  obtain ⟨k1, h1⟩ := hx.enough
  obtain ⟨k2, h2⟩ := hf.enough
  refine ⟨fun mem => ?_, k1 + k2, fun extra => ?_⟩
  · rcases hx.all mem with ⟨m, e⟩ | ⟨m, c, e, hc⟩
    · have : (x >>= f) (mem, s) = f a (m, s1) := by
        show Act.andThen x f (mem, s) = _
        unfold Act.andThen; rw [e]; rfl
      rw [this]; exact hf.all m
    · refine .inr ⟨m, c, ?_, hc⟩
      show Act.andThen x f (mem, s) = _
      unfold Act.andThen; rw [e]
  · show Act.andThen x f (k1 + k2 + extra, s) = _
    unfold Act.andThen
    rw [Nat.add_assoc, h1]
    exact h2 extra

theorem bind_err {x : Act Nat χ BadAlloc σ} {f : σ → Act Nat χ BadAlloc τ} {s s1 : χ} {e : Err}
    {F : χ → Prop} (hx : Runs x s (.error e) s1 F) : Runs (x >>= f) s (.error e) s1 F := by
  obtain ⟨k1, h1⟩ := hx.enough
  refine ⟨fun mem => ?_, k1, fun extra => ?_⟩
  · rcases hx.all mem with ⟨m, e⟩ | ⟨m, c, e, hc⟩
    · refine .inl ⟨m, ?_⟩
      show Act.andThen x f (mem, s) = _
      unfold Act.andThen; rw [e]; rfl
    · refine .inr ⟨m, c, ?_, hc⟩
      show Act.andThen x f (mem, s) = _
      unfold Act.andThen; rw [e]
  · show Act.andThen x f (k1 + extra, s) = _
    unfold Act.andThen
    rw [h1]; rfl

theorem requests {s : χ} {F : χ → Prop} (hF : F s) : ∀ k, Runs (GBTL.requests k) s (.ok ()) s F
  | 0 => .pure () s
  | k + 1 => (request hF).bind (requests hF k)

theorem when {s : χ} {F : χ → Prop} (hF : F s) (p : Prop) [Decidable p] :
    Runs (requestIf p) s (.ok ()) s F := by
  unfold requestIf
  split
  · exact request hF
  · exact .pure () s

/-- A test that is false asks for no memory. -/
theorem noRequest {s : χ} {F : χ → Prop} {p : Prop} [Decidable p] (h : ¬ p) :
    Runs (requestIf p) s (.ok ()) s F := by
  rw [requestIf, if_neg h]; exact .pure () s

theorem fold {b : Nat → Unit → Act Nat χ BadAlloc Unit} {S : Nat → χ} {F : χ → Prop} :
    ∀ (n k : Nat), (∀ i, k ≤ i → i < k + n → Runs (b i ()) (S i) (.ok ()) (S (i + 1)) F) →
      Runs ((List.range' k n).foldlM (fun s i => b i s) ()) (S k) (.ok ()) (S (k + n)) F
  | 0, k, _ => by simpa using Runs.pure () (S k)
  | n + 1, k, h => by
    rw [List.range'_succ, List.foldlM_cons]
    refine (h k (Nat.le_refl _) (by omega)).bind ?_
    have := fold (b := b) (S := S) (F := F) n (k + 1) fun i h1 h2 => h i (by omega) (by omega)
    rw [show k + (n + 1) = k + 1 + n by omega]
    exact this

/-- A loop through known containers. -/
theorem forA {b : Nat → Unit → Act Nat χ BadAlloc Unit} {S : Nat → χ} {F : χ → Prop} {n : Nat}
    (h : ∀ i, i < n → Runs (b i ()) (S i) (.ok ()) (S (i + 1)) F) :
    Runs (GBTL.forA n () b) (S 0) (.ok ()) (S n) F := by
  have := fold (b := b) (S := S) (F := F) n 0 fun i _ h2 => h i (by omega)
  rw [Nat.zero_add] at this
  rw [GBTL.forA, List.range_eq_range']
  exact this

/-! ### What the user sees -/

theorem asUsual {x : Act Nat χ BadAlloc Unit} {s s' : χ} {res : Except Err Unit} {F : χ → Prop}
    (h : Runs x s res s' F) (mem : Nat) :
    Ended.AsUsual (x (mem, s)) (res, s') ∨ ∃ c, Ended.RanOut (x (mem, s)) c ∧ F c := by
  rcases h.all mem with ⟨m, e⟩ | ⟨m, c, e, hc⟩
  · left; rw [e]; cases res <;> exact ⟨rfl, rfl⟩
  · exact .inr ⟨c, by rw [e]; exact ⟨rfl, rfl⟩, hc⟩

theorem suffices' {x : Act Nat χ BadAlloc Unit} {s s' : χ} {res : Except Err Unit} {F : χ → Prop}
    (h : Runs x s res s' F) : Suffices x s (res, s') := by
  obtain ⟨k, hk⟩ := h.enough
  refine ⟨k, fun mem hm => ?_⟩
  obtain ⟨d, rfl⟩ := Nat.exists_eq_add_of_le hm
  rw [hk]; cases res <;> exact ⟨rfl, rfl⟩

theorem wholeOrNone {x : Act Nat χ BadAlloc Unit} {s s' : χ} {res : Except Err Unit}
    (h : Runs x s res s' (· = s)) : WholeOrNone x s (res, s') :=
  ⟨fun mem => (h.asUsual mem).imp id fun ⟨_, hr, e⟩ => e ▸ hr, h.suffices'⟩

/-- Code that cannot run out of memory. -/
theorem always {x : Act Nat χ BadAlloc Unit} {s s' : χ} {res : Except Err Unit}
    (h : Runs x s res s' fun _ => False) (mem : Nat) : Ended.AsUsual (x (mem, s)) (res, s') :=
  (h.asUsual mem).elim id fun ⟨_, _, hf⟩ => hf.elim

end Runs

end GBTL
