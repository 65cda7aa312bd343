import Verif.Lemmas.Candidates
/-! # C63: candidates and their order -/

set_option linter.unusedSectionVars false

namespace CoMMA

variable {W : Type} [Num W]

/-- **C63** After any sequence of additions, both neighbourhoods return exactly the candidates
of the description, in its order. -/
theorem C63_candidates (hW : LawfulLt W) {g : Graph W} (h : ValidCRS g.nbC g.rowPtr g.colInd) {prio : List W}
    (hw : prio.length = g.nbC) (hd : 1 ≤ g.dim) (kind : NbhKind) (allowed : NSet) {cells : List Nat}
    (hc : ∀ x ∈ cells, x < g.nbC) :
    ∃ nb, nbhAfter g kind prio allowed cells = .ok nb ∧ Candidates g kind prio allowed cells nb.cands := by
  have : Ok (nbhAfter g kind prio allowed cells) (fun nb => NInv g.rowPtr g.colInd prio kind g.dim allowed cells nb ∧
      QueuesSorted nb ∧ Candidates g kind prio allowed cells nb.cands) := by
    unfold nbhAfter
    obtain ⟨h1, h2⟩ := candidates_new g kind prio allowed
    refine Ok.foldlM_prefix (I := fun pre nb => NInv g.rowPtr g.colInd prio kind g.dim allowed pre nb ∧
      QueuesSorted nb ∧ Candidates g kind prio allowed pre nb.cands) ⟨NInv_new _ _ _ _ _ _, h1, h2⟩ ?_
    rintro pre x post nb hl ⟨hI, hs, hcd⟩
    have hxl : x < g.nbC := hc x (by simp [hl])
    rw [neighs_eq h hxl, ok_bind]
    exact (hI.update h hw (Or.inr hW) hd hxl).and (candidates_update hW hI hs hcd h hw hd hxl)
  obtain ⟨nb, h1, h2⟩ := this.eq
  exact ⟨nb, h1, h2.2.2⟩

theorem FirstNextTo.unique {rp ci xs : List Nat} {x i j : Nat} (h : FirstNextTo rp ci xs x i)
    (h' : FirstNextTo rp ci xs x j) : i = j := by
  obtain ⟨⟨y, h1, h2⟩, h3⟩ := h
  obtain ⟨⟨z, h4, h5⟩, h6⟩ := h'
  rcases Nat.lt_trichotomy i j with hlt | h | hlt
  · exact absurd h2 (h6 i y hlt h1)
  · exact h
  · exact absurd h5 (h3 j z hlt h4)

theorem frontRank_inj {m i j : Nat} (hi : i < m) (hj : j < m) (h : frontRank m i = frontRank m j) : i = j := by
  unfold frontRank at h
  omega

/-- **C63** The description leaves no freedom: it determines the list of candidates. -/
theorem C63_unique (hW : LawfulLt W) {g : Graph W} {kind : NbhKind} {prio : List W} {allowed : NSet} {xs l l' : List Nat}
    (h : Candidates g kind prio allowed xs l) (h' : Candidates g kind prio allowed xs l') : l = l' := by
  cases kind with
  | extended =>
    refine ordered_unique ?_ h.2 h'.2 (fun x => (h.1 x).trans (h'.1 x).symm)
    rintro a b ⟨i, j, h1, h2, h3⟩ ⟨i', j', h4, h5, h6⟩
    obtain rfl := h1.unique h5
    obtain rfl := h2.unique h4
    rcases h3 with h3 | ⟨h3, h3'⟩ <;> rcases h6 with h6 | ⟨h6, h6'⟩
    · omega
    · omega
    · omega
    · exact h3'.asymm hW h6'
  | pureFront =>
    obtain ⟨h1, h2, h3⟩ := h
    obtain ⟨h1', h2', h3'⟩ := h'
    refine ordered_unique (fun _ _ a b => Before.asymm hW a b) h1 h1' ?_
    by_cases hd : xs.length ≤ g.dim
    · exact fun x => (h2 hd x).trans (h2' hd x).symm
    · have front : ∀ {l : List Nat} {i y : Nat}, l ≠ [] → xs[i]? = some y →
          (∀ x, x ∈ l ↔ InFront g.rowPtr g.colInd allowed xs x ∧ Adj g.rowPtr g.colInd y x) →
          ∃ x, InFront g.rowPtr g.colInd allowed xs x ∧ Adj g.rowPtr g.colInd y x := by
        intro l i y hne _ hm
        obtain ⟨x, hx⟩ := List.exists_mem_of_ne_nil l hne
        exact ⟨x, (hm x).1 hx⟩
      rcases h3 (by omega) with ⟨rfl, hn⟩ | ⟨hne, i, y, hi, hm, hr⟩ <;>
        rcases h3' (by omega) with ⟨rfl, hn'⟩ | ⟨hne', i', y', hi', hm', hr'⟩
      · exact fun x => Iff.rfl
      · obtain ⟨x, hx⟩ := front hne' hi' hm'
        exact absurd hx.1 (hn x)
      · obtain ⟨x, hx⟩ := front hne hi hm
        exact absurd hx.1 (hn' x)
      · have e := frontRank_inj (List.getElem?_eq_some_iff.1 hi).1 (List.getElem?_eq_some_iff.1 hi').1
          (Nat.le_antisymm (hr i' y' hi' (front hne' hi' hm')) (hr' i y hi (front hne hi hm)))
        subst e
        rw [hi] at hi'
        cases hi'
        exact fun x => (hm x).trans (hm' x).symm

/-- the hypotheses are met: path 0-1-2-3 -/
example := C63_candidates exLawful exPath_valid (prio := [1, 2, 3, 4]) rfl (show 1 ≤ exPath.dim by decide) .pureFront
  (NSet.ofList [0, 2, 3]) (cells := [1, 2]) (by decide)

/-- the fronts are looked at from both ends: with four cells, the last, the first, the third,
the second -/
example : [3, 0, 2, 1].map (frontRank 4) = [0, 1, 2, 3] := rfl

end CoMMA
