import Verif.Spec.Graph
import Verif.Lemmas.Algo
/-
Spanning trees: the exchange argument behind Prim's algorithm.
-/
namespace GBTL
open Spec

theorem _root_.Spec.Linked.mono {F F' : List (Nat × Nat)} (h : ∀ e ∈ F, e ∈ F') {a b : Nat}
    (hl : Linked F a b) : Linked F' a b := by
  induction hl with
  | refl => exact .refl
  | step _ e ih => exact ih.step (e.imp (h _) (h _))

theorem _root_.Spec.Linked.trans {F : List (Nat × Nat)} {a b c : Nat} (h1 : Linked F a b)
    (h2 : Linked F b c) : Linked F a c := by
  induction h2 with
  | refl => exact h1
  | step _ e ih => exact ih.step e

theorem _root_.Spec.Linked.symm {F : List (Nat × Nat)} {a b : Nat} (h : Linked F a b) : Linked F b a := by
  induction h with
  | refl => exact .refl
  | step _ e ih => exact (Linked.refl.step e.symm).trans ih

/-- The last edge that leaves `S` on the way to a vertex outside of `S`. -/
theorem last_crossing {S : Nat → Prop} {P Q : List (Nat × Nat)} {a : Nat} (ha : S a)
    (hP : ∀ e ∈ P, S e.1 ∧ S e.2) {b : Nat} (h : Linked (P ++ Q) a b) (hb : ¬ S b) :
    ∃ x y, S x ∧ ¬ S y ∧ ((x, y) ∈ Q ∨ (y, x) ∈ Q) ∧
      ∀ f, (S f.1 ∧ ¬ S f.2 ∨ ¬ S f.1 ∧ S f.2) → Linked (Q.erase f) y b := by
  induction h with
  | refl => exact absurd ha hb
  | @step b c h e ih =>
    have hq : (b, c) ∈ Q ∨ (c, b) ∈ Q := by
      rcases e with e | e <;> rw [List.mem_append] at e <;> rcases e with e | e
      · exact absurd (hP _ e).2 hb
      · exact .inl e
      · exact absurd (hP _ e).1 hb
      · exact .inr e
    by_cases hs : S b
    · exact ⟨b, c, hs, hb, hq, fun _ _ => .refl⟩
    · obtain ⟨x, y, h1, h2, h3, h4⟩ := ih hs
      refine ⟨x, y, h1, h2, h3, fun f hf => (h4 f hf).step ?_⟩
      rcases hq with e | e
      · refine .inl ((List.mem_erase_of_ne ?_).2 e)
        rintro rfl
        rcases hf with hf | hf
        · exact hs hf.1
        · exact hb hf.2
      · refine .inr ((List.mem_erase_of_ne ?_).2 e)
        rintro rfl
        rcases hf with hf | hf
        · exact hb hf.1
        · exact hs hf.2

/-- An edge `(p, u)` that leaves `S` can take the place of an edge of `Q` that crosses
the boundary of `S`. -/
theorem exchange {S : Nat → Prop} {P Q : List (Nat × Nat)} {n p u : Nat} (h0 : S 0)
    (hP : ∀ e ∈ P, S e.1 ∧ S e.2) (hS : ∀ v, S v → Linked P 0 v)
    (hc : ∀ v, v < n → Linked (P ++ Q) 0 v) (hp : S p) (hu : ¬ S u) (hun : u < n) :
    ∃ f ∈ Q, (S f.1 ∧ ¬ S f.2 ∨ ¬ S f.1 ∧ S f.2) ∧
      ∀ v, v < n → Linked (((p, u) :: P) ++ Q.erase f) 0 v := by
  obtain ⟨x, y, hx, hy, hq, hl⟩ := last_crossing h0 hP (hc u hun) hu
  obtain ⟨f, hf, hfe⟩ : ∃ f ∈ Q, f = (x, y) ∨ f = (y, x) := by
    rcases hq with h | h
    · exact ⟨_, h, .inl rfl⟩
    · exact ⟨_, h, .inr rfl⟩
  have hcr : S f.1 ∧ ¬ S f.2 ∨ ¬ S f.1 ∧ S f.2 := by
    rcases hfe with rfl | rfl
    · exact .inl ⟨hx, hy⟩
    · exact .inr ⟨hy, hx⟩
  refine ⟨f, hf, hcr, ?_⟩
  have hPl : ∀ v, S v → Linked (((p, u) :: P) ++ Q.erase f) 0 v := fun v hv =>
    (hS v hv).mono (fun e he => by simp [he])
  have hyl : Linked (((p, u) :: P) ++ Q.erase f) 0 y := by
    refine ((hPl p hp).step (c := u) (.inl (by simp))).trans ?_
    exact ((hl f hcr).mono (fun e he => by simp [he])).symm
  intro v hv
  have := hc v hv
  clear hv
  induction this with
  | refl => exact .refl
  | @step b c _ e ih =>
    by_cases hbc : (b, c) = f ∨ (c, b) = f
    · have : c = x ∨ c = y := by
        rcases hfe with rfl | rfl <;> rcases hbc with h | h <;> cases h <;> simp
      rcases this with rfl | rfl
      · exact hPl _ hx
      · exact hyl
    · rw [not_or] at hbc
      have key : ∀ e : Nat × Nat, e ≠ f → e ∈ P ++ Q → e ∈ ((p, u) :: P) ++ Q.erase f := by
        intro e hne he
        rcases List.mem_append.1 he with h | h
        · simp [h]
        · exact List.mem_append_right _ ((List.mem_erase_of_ne hne).2 h)
      exact ih.step (e.imp (key _ hbc.1) (key _ hbc.2))

theorem weight_cons (W : Mat Int) (e : Nat × Nat) (F : List (Nat × Nat)) :
    weight W (e :: F) = (W e.1 e.2).getD 0 + weight W F := by simp [weight]

theorem weight_erase (W : Mat Int) {f : Nat × Nat} {Q : List (Nat × Nat)} (h : f ∈ Q) :
    weight W Q = (W f.1 f.2).getD 0 + weight W (Q.erase f) := by
  induction Q with
  | nil => cases h
  | cons e Q ih =>
    rw [List.erase_cons]
    by_cases he : e = f
    · subst he; simp [weight_cons]
    · have hf : f ∈ Q := by
        rcases List.mem_cons.1 h with rfl | h
        · exact absurd rfl he
        · exact h
      have := ih hf
      simp only [beq_iff_eq, he, if_false, weight_cons]
      omega

/-- A walk along the edges of a graph leaves a set that holds its beginning but not its
end. -/
theorem leaves {E : Nat → Nat → Prop} {S : Nat → Prop} {a : Nat} (ha : S a) {k v : Nat}
    (h : Walk E (· = a) k v) (hv : ¬ S v) : ∃ x y, S x ∧ ¬ S y ∧ E x y := by
  induction k generalizing v with
  | zero =>
    obtain rfl : v = a := h
    exact absurd ha hv
  | succ k ih =>
    obtain ⟨u, hu, e⟩ := h
    by_cases hs : S u
    · exact ⟨u, v, hs, hv, e⟩
    · exact ih hu hs

theorem count_set {n k : Nat} {α β : Type} {f : Nat → Option α} {g : Nat → Option β} (hk : k < n)
    (hf : f k = none) (hg : (g k).isSome) (h : ∀ i, i ≠ k → (g i).isSome = (f i).isSome) :
    Vec.count n g = Vec.count n f + 1 := by
  induction n with
  | zero => omega
  | succ n ih =>
    rw [count_succ, count_succ]
    by_cases hkn : k = n
    · subst hkn
      have h1 := count_mono (n := k) (f := f) (g := g) (fun i hi hs => by rw [h i (by omega)]; exact hs)
      have h2 := count_mono (n := k) (f := g) (g := f) (fun i hi hs => by rw [← h i (by omega)]; exact hs)
      rw [hf, hg]
      simp
      omega
    · rw [ih (by omega), h n (by omega)]
      omega

end GBTL
