import Verif.Lemmas.Assign
/-
C19: `assign` sorts pairs with `std::sort`, which leaves the order of equal elements open.
-/
namespace GBTL

/-- **C19** For an index list without repetitions the pairs of an output and an input index that
`assign` works through do not depend on how `std::sort` sorts: every rearrangement of them that is
sorted by the output index is the one of the model. -/
theorem C19_any_sort {ix : List Nat} (hd : ix.Nodup) {l : List (Nat × Nat)} (hp : l.Perm (ix.zip (List.range ix.length)))
    (hs : l.Pairwise fun p q => ¬ q.1 < p.1) : l = outinMapping ix := by
  have hfst : (ix.zip (List.range ix.length)).map (·.1) = ix := by
    rw [List.map_fst_zip]; simp
  have hnd : ∀ {l : List (Nat × Nat)}, l.Perm (ix.zip (List.range ix.length)) → (l.map (·.1)).Nodup := by
    intro l h
    have := h.map (·.1)
    rw [hfst] at this
    exact this.nodup_iff.2 hd
  have hlt : ∀ {l : List (Nat × Nat)}, (l.map (·.1)).Nodup → (l.Pairwise fun p q => ¬ q.1 < p.1) → l.Pairwise fun p q => p.1 < q.1 := by
    intro l h1 h2
    have h1 := List.pairwise_map.1 h1
    exact (List.Pairwise.and h1 h2).imp fun {a b} h => Nat.lt_of_le_of_ne (Nat.le_of_not_lt h.2) h.1
  have h1 := hlt (hnd hp) hs
  have h2 := hlt (hnd (outinMapping_perm ix)) ((sortPairs_sorted _).imp fun {a b} h => Nat.not_lt.2 h)
  exact List.Perm.eq_of_pairwise (fun a b _ _ hab hba => absurd (Nat.lt_trans hab hba) (Nat.lt_irrefl _)) h1 h2
    (hp.trans (outinMapping_perm ix).symm)

example : outinMapping [4, 1, 3] = [(1, 1), (3, 2), (4, 0)] := by decide
example : [(1, 1), (3, 2), (4, 0)] = outinMapping [4, 1, 3] := C19_any_sort (by decide) (by decide) (by decide)

end GBTL
