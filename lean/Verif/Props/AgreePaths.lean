import Verif.Props.Agree
import Verif.Props.FilteredActual
/-
C80: which of the answers of the shortest path functions agree, on all graphs.
-/
namespace GBTL
open Spec

variable {t t' : ITy} {ov : Int → Int → Int}

/-- **C80**, row `u` of `apsp` is `sssp` from `u` on every graph without negative cycles, except that
at a vertex with a loop `apsp` has the least weight of a way back instead of zero. -/
theorem C80_apsp_sssp_actual {G : Lil Int} {dist : BVec Int} {u : Nat} (h : ApspInput t G) (hp : PathInput t' G dist)
    (hu : u < G.nrows) (hsrc : ∀ v, dist.get v = source u v) (hc : ¬ HasNegCycle G.get) :
    ∃ D d, apsp t ov G = .ok D ∧ sssp t' ov G dist = .ok (true, d) ∧
      (∀ v, v ≠ u ∨ G.get u u = none → D.get u v = d.get v) ∧
      (G.get u u ≠ none → ∀ x, D.get u u = some x ↔ IsReturn G.get u x) := by
  obtain ⟨D, e, _, _, _, hD, hR⟩ := C37_apsp_exact (ov := ov) h hc
  obtain ⟨d, e', _, _, hd⟩ := C34_sssp (ov := ov) hp (by rw [← hp.rows]; omega) (by
    rintro ⟨v, _, k, c, hk⟩; exact hc ⟨v, k, c, hk⟩)
  rw [show dist.get = source u from funext hsrc] at hd
  exact ⟨D, d, e, e', fun v hv => opt_ext fun x => by rw [(hD u v hu (hv.imp Ne.symm id)).2 x, (hd v).2 x], hR u⟩

/-- **C80**, `sssp_delta_step` agrees with `sssp` if no weight is negative and no edge of weight zero
leads from the source to another vertex. -/
theorem C80_delta_step_nonneg {G : Lil Int} {delta : Int} {s B : Nat} {paths dist : BVec Int}
    (h : DeltaInput0 t G delta s paths B) (h0 : ∀ v, v ≠ s → G.get s v ≠ some 0) (hp : PathInput t' G dist)
    (hsrc : ∀ v, dist.get v = source s v) {fuel : Nat} (hf : G.nrows * (G.nrows * B + 1) + 1 ≤ fuel) :
    ∃ p d, deltaStep fuel t ov G delta s paths = .ok p ∧ sssp t' ov G dist = .ok (true, d) ∧
      ∀ v, p.get v = d.get v := by
  have hc : ¬ NegCycle G.get dist.get := no_negCycle fun u v w hw => (h.weights u v w hw).1
  obtain ⟨p, e, _, _, hpd⟩ := C54_delta_step_nonneg_partial (t := t) ov h hf h0
  obtain ⟨d, e', _, _, hd⟩ := C34_sssp (ov := ov) hp (by have := h.source; rw [← hp.rows]; omega) hc
  rw [show dist.get = source s from funext hsrc] at hd
  exact ⟨p, d, e, e', fun v => opt_ext fun x => by rw [hpd v x, (hd v).2 x]⟩

theorem walk_deadEnds {W : Mat Int} {S : Vec Int} {s : Nat} : ∀ {k v : Nat} {x : Int},
    WWalk (deadEnds W s) S k v x → WWalk W S k v x := by
  intro k
  induction k with
  | zero => intro v x h; exact h
  | succ k ih =>
    rintro v x ⟨u, y, w, h1, h2, rfl⟩
    exact ⟨u, y, w, ih h1, (deadEnds_some.1 h2).1, rfl⟩

/-- **C80**, what is left if there are such edges: `sssp_delta_step` never reports a vertex that
`sssp` does not, or a smaller distance, and it agrees on the vertices that these edges lead to. -/
theorem C80_delta_step_actual {G : Lil Int} {delta : Int} {s B : Nat} {paths dist : BVec Int}
    (h : DeltaInput0 t G delta s paths B) (hp : PathInput t' G dist)
    (hsrc : ∀ v, dist.get v = source s v) {fuel : Nat} (hf : G.nrows * (G.nrows * B + 1) + 1 ≤ fuel) :
    ∃ p d, deltaStep fuel t ov G delta s paths = .ok p ∧ sssp t' ov G dist = .ok (true, d) ∧
      (∀ v x, p.get v = some x → ∃ y, d.get v = some y ∧ y ≤ x) ∧
      ∀ v, G.get s v = some 0 → p.get v = some 0 ∧ d.get v = some 0 := by
  have hc : ¬ NegCycle G.get dist.get := no_negCycle fun u v w hw => (h.weights u v w hw).1
  obtain ⟨p, e, _, _, hpd⟩ := C54_delta_step_actual (t := t) ov h hf
  obtain ⟨d, e', _, _, hd⟩ := C34_sssp (ov := ov) hp (by have := h.source; rw [← hp.rows]; omega) hc
  rw [show dist.get = source s from funext hsrc] at hd
  have hnn : ∀ k v x, WWalk G.get (source s) k v x → 0 ≤ x := by
    intro k
    induction k with
    | zero => intro x c hk; simp only [WWalk, source] at hk; split at hk <;> cases hk; exact Int.le_refl _
    | succ k ih => rintro x c ⟨u, y, w, hu, he, rfl⟩; have := ih _ _ hu; have := (h.weights _ _ _ he).1; omega
  refine ⟨p, d, e, e', fun v x hx => ?_, fun v hv => ?_⟩
  · obtain ⟨⟨k, hk⟩, -⟩ := (hpd v x).1 hx
    cases hdv : d.get v with
    | none => exact absurd ⟨k, x, walk_deadEnds hk⟩ ((hd v).1.1 hdv)
    | some y => exact ⟨y, rfl, (((hd v).2 y).1 hdv).2 k x (walk_deadEnds hk)⟩
  · have hw : WWalk (deadEnds G.get s) (source s) 1 v 0 :=
      ⟨s, 0, 0, if_pos rfl, deadEnds_some.2 ⟨hv, fun h => h.1 rfl⟩, rfl⟩
    exact ⟨(hpd v 0).2 ⟨⟨1, hw⟩, fun k x hk => hnn k v x (walk_deadEnds hk)⟩,
      ((hd v).2 0).2 ⟨⟨1, walk_deadEnds hw⟩, fun k x hk => hnn k v x hk⟩⟩

/-- **C80**, `filtered_sssp` agrees with `sssp`, also on whether there is a negative cycle, if walks of
weight zero lead to start vertices only. -/
theorem C80_filtered_sssp {G : Lil Int} {dist : BVec Int} (h : PathInput t G dist) (h' : PathInput t' G dist)
    (h0 : 0 < dist.size) (hz : NoZeroWalk G.get dist.get) :
    ∃ b d d', filteredSssp t ov G dist = .ok (b, d) ∧ sssp t' ov G dist = .ok (b, d') ∧
      (b = true → ∀ v, d.get v = d'.get v) := by
  obtain ⟨b, d, e, _, _, hb, hd⟩ := C36_filtered_sssp_partial (ov := ov) h h0 hz
  obtain ⟨b', d', e', hb'⟩ := C35_sssp_negative (ov := ov) h' h0
  have hbb : b' = b := by
    cases b <;> cases b'
    · rfl
    · exact absurd (hb'.2 (hb.1 rfl)) (by simp)
    · exact absurd (hb.2 (hb'.1 rfl)) (by simp)
    · rfl
  subst hbb
  refine ⟨b', d, d', e, e', fun ht v => ?_⟩
  subst ht
  have hc : ¬ NegCycle G.get dist.get := fun hc => Bool.noConfusion (hb.2 hc)
  obtain ⟨d'', e'', _, _, hd''⟩ := C34_sssp (ov := ov) h' h0 hc
  rw [e'] at e''
  cases e''
  exact opt_ext fun x => by rw [(hd rfl v).2 x, (hd'' v).2 x]

/-- The example of C36 has the walk 0 →(0) 1, where `filtered_sssp` and `sssp_delta_step` go different
wrong ways: the first loses vertex 1, the second its edge to vertex 2. -/
example : filteredSssp .i32 (fun _ _ => 0) exFG exFD = .ok (true, ⟨3, 2, [0, 0, 7], [true, false, true]⟩) ∧
    deltaStep 64 .i32 (fun _ _ => 0) exFG 3 0 exFD = .ok ⟨3, 3, [0, 0, 7], [true, true, true]⟩ ∧
    sssp .i32 (fun _ _ => 0) exFG exFD = .ok (true, ⟨3, 3, [0, 0, 3], [true, true, true]⟩) := by decide +kernel

/-- It meets the hypotheses of `C80_delta_step_actual`. -/
example : DeltaInput0 .i32 exFG 3 0 exFD 7 ∧ PathInput .i32 exFG exFD ∧ (∀ v, exFD.get v = source 0 v) := by
  refine ⟨⟨Lil.wf_chk (by decide), rfl, by decide, ⟨rfl, rfl, rfl⟩, rfl, ?_, by decide, by decide⟩, exF_input.1, ?_⟩
  · intro u v w hw
    exact Ex.get_chk (Lil.wf_chk (by decide)) (P := fun w => 0 ≤ w ∧ w ≤ (7 : Nat)) (by decide) hw
  · intro v
    match v with
    | 0 => rfl
    | 1 => rfl
    | 2 => rfl
    | v + 3 => simp [BVec.get, exFD, source]

/-- The graph with weights one, a loop at the start: the diagonal differs, the rest does not. -/
example : ∃ D, apsp .i32 (fun _ _ => 0) ⟨2, 2, 2, [[(0, 1), (1, 1)], []]⟩ = .ok D ∧ D.get 0 0 = some 1 ∧
    D.get 0 1 = some 1 := ⟨⟨2, 2, 3, [[(0, 1), (1, 1)], [(1, 0)]]⟩, by decide +kernel, rfl, rfl⟩

/-- `C80_filtered_sssp` applies to the graph of C54. -/
example : ∃ b d d', filteredSssp .i32 (fun _ _ => 0) Ex.dsGraph Ex.from0of5 = .ok (b, d) ∧
    sssp .i32 (fun _ _ => 0) Ex.dsGraph Ex.from0of5 = .ok (b, d') ∧ (b = true → ∀ v, d.get v = d'.get v) :=
  C80_filtered_sssp Ex.ds_path Ex.ds_path (by decide) (noZeroWalk_of_pos (fun v x h => by
      rw [Ex.from0of5_eq] at h
      unfold source at h
      split at h
      · cases h; rfl
      · cases h) fun u v w h =>
    (Ex.ds_input (delta := 3) (by decide) (by decide)).weights u v w h |>.1)

end GBTL
