import Verif.Props.AfterLines
import Verif.Lemmas.GridGrow
/-! # C104: how far coarse cells reach -/

namespace CoMMA

variable {W : Type} [Num W]

/-- `j` is a neighbour of `i` that is in coarse cell `k` or in one made later -/
def NotEarlier (rowPtr colInd f : List Nat) (k i j : Nat) : Prop := Adj rowPtr colInd i j ∧ ∃ l, f[j]? = some l ∧ k ≤ l

/-- fewer than `m` cells are closer to `s` than `d` -/
def FewCloser (R : Nat → Nat → Prop) (s d m : Nat) : Prop :=
  ∃ t : List Nat, t.Nodup ∧ (∀ y, y ∈ t ↔ ∃ e < d, IsDistance R (· = s) y e) ∧ t.length < m

theorem GreedySeq.known {F : Type} {E : IsoEnv W F} {d : NMap Nat} {hi : Nat} {xs : List Nat} {f : F} (h : GreedySeq E d hi xs f) :
    ∀ x ∈ xs, xs.head? = some x ∨ x ∈ d.keySet := by
  induction h with
  | @seed s f h => intro x hx; rw [List.mem_singleton] at hx; subst hx; exact Or.inl rfl
  | @next xs l f f' c m hg hn hb ih =>
    intro x hx
    rcases List.mem_append.1 hx with hx | hx
    · rcases ih x hx with h1 | h1
      · left
        cases xs with
        | nil => cases h1
        | cons a l => simpa using h1
      · exact Or.inr h1
    · rw [List.mem_singleton] at hx
      subst hx
      exact Or.inr (cands_inFront hn hb.spec.1).1

/-- the cells of a coarse cell are the seed and cells found around it -/
theorem GrownCell.known {E : IsoEnv W (Feats W)} {agg : List Bool} {seed order : Nat} {s : NSet} (hg1 : 1 ≤ E.minCard)
    (h : GrownCell E (GrownGreedily E) agg seed order s) :
    seed ∈ s ∧ (order ≤ max (if E.g.dim = 2 then 2 else 3) (E.maxCard / E.g.dim) + 1 ∨
        FewBefore (FreeAdj E.g.rowPtr E.g.colInd agg) (· = seed) order E.maxCard) ∧
      ∀ x ∈ s, x = seed ∨ ∃ k, IsDistance (FreeAdj E.g.rowPtr E.g.colInd agg) (· = seed) x k ∧ 0 < k ∧ k < order := by
  obtain ⟨d, hd, _, hfew, hsmall, hlarge⟩ := h
  have hkey : ∀ x ∈ d.keySet, ∃ k, IsDistance (FreeAdj E.g.rowPtr E.g.colInd agg) (· = seed) x k ∧ 0 < k ∧ k < order := by
    intro x hx
    obtain ⟨k, hk⟩ := NMap.mem_keys.1 (NMap.mem_keySet.1 hx)
    exact ⟨k, (hd x k).1 hk⟩
  by_cases hc : d.size + 1 < E.goalCard
  · have := hsmall hc
    exact ⟨(this seed).2 (Or.inl rfl), hfew, fun x hx => ((this x).1 hx).imp id (hkey x)⟩
  · obtain ⟨xs, κ, m, ⟨f, hgr⟩, hhead, hlen, hn, _, hbest, rfl⟩ := hlarge (by omega)
    refine ⟨?_, hfew, fun x hx => ?_⟩
    · have h1 : 1 ≤ m := Nat.le_trans hg1 hbest.1
      cases xs with
      | nil => cases hhead
      | cons a l =>
        cases hhead
        obtain ⟨q, rfl⟩ : ∃ q, m = q + 1 := ⟨m - 1, by omega⟩
        rw [List.take_succ_cons]
        exact NSet.mem_ofList.2 (by simp)
    · rcases hgr.known x (List.mem_of_mem_take (NSet.mem_ofList.1 hx)) with h1 | h1
      · rw [hhead] at h1
        exact Or.inl (Option.some.inj h1).symm
      · exact Or.inr (hkey x h1)

/-- **C104** In a call without correction, each coarse cell that is not made from a line holds a cell (the seed) from which all its
cells are reached, through cells that are not in earlier coarse cells, in at most 2 steps in 2D, 3 steps in 3D, or
`max_card / dimension` if that is more; a cell is farther away only if fewer than `max_card` cells are closer. -/
theorem C104_reach {P : Platform} {a : Args W} {o : Outs} {n : Nat} (hm : ValidMesh a n) (hp : ValidParams P a)
    (hW : LawfulLt W) (hu : UniqueRows a.rowPtr a.colInd) (hl : NoSelfLoop a.rowPtr a.colInd)
    (hcor : a.correction = false) (hmode : ValidMode (graphOf a) a o n) :
    ∃ out m, agglomerateOneLevel P a o = (out, .ok ()) ∧ LineCells a o out m ∧
      ∀ k ∈ out.fcToCc, m ≤ k → ∃ seed, out.fcToCc[seed]? = some k ∧ ∀ x : Nat, out.fcToCc[x]? = some k →
        ∃ d, IsDistance (NotEarlier a.rowPtr a.colInd out.fcToCc k) (· = seed) x d ∧
          ((d : Int) ≤ max (if a.dim = 2 then 2 else 3) (a.maxCard / a.dim) ∨
            FewCloser (NotEarlier a.rowPtr a.colInd out.fcToCc k) seed d a.maxCard.toNat) := by
  classical
  obtain ⟨out, m, h1, h2, h3⟩ := C41_any_mode_partial (o := o) hm hp hW hu hl hcor hmode
  refine ⟨out, m, h1, h2, fun k hk hmk => ?_⟩
  obtain ⟨E, agg, seed, order, s, hE, hagg, hgr, hs⟩ := h3 k hk hmk
  have i1 := hE.dim
  have i3 := hE.maxCard
  have i4 := hE.minCard
  have i7 := hp.minCard
  have hR : FreeAdj E.g.rowPtr E.g.colInd agg = NotEarlier a.rowPtr a.colInd out.fcToCc k := by
    funext i j
    rw [hE.rowPtr, hE.colInd]
    refine propext ⟨fun h => ⟨h.1, ?_⟩, fun h => ⟨h.1, ?_⟩⟩
    · obtain ⟨l, e1, e2⟩ := hagg j (rowOf_lt hm.crs (adj_iff_rowOf.1 h.1))
      rw [h.2] at e2
      refine ⟨l, e1, ?_⟩
      have := of_decide_eq_false (Option.some.inj e2).symm
      omega
    · obtain ⟨l, e1, e2⟩ := hagg j (rowOf_lt hm.crs (adj_iff_rowOf.1 h.1))
      obtain ⟨l', e3, e4⟩ := h.2
      rw [e1] at e3
      cases e3
      rw [e2, decide_eq_false (by omega)]
  obtain ⟨g1, g2, g3⟩ := GrownCell.known (by omega) hgr
  rw [hR] at g2 g3
  refine ⟨seed, (hs seed).2 g1, fun x hx => ?_⟩
  have hr : ((max (if E.g.dim = 2 then 2 else 3) (E.maxCard / E.g.dim) : Nat) : Int) =
      max (if a.dim = 2 then 2 else 3) (a.maxCard / a.dim) := by
    rw [← i1, ← i3]
    split <;> split <;> omega
  rcases g3 x ((hs x).1 hx) with rfl | ⟨d, hd, h0, hlt⟩
  · refine ⟨0, IsDistance.zero.2 rfl, Or.inl ?_⟩
    rw [← hr]
    exact Int.natCast_nonneg _
  · refine ⟨d, hd, ?_⟩
    rcases g2 with g2 | ⟨t, t1, t2, t3⟩
    · left
      rw [← hr]
      omega
    · right
      refine ⟨t.filter (fun y => decide (∃ e < d, IsDistance (NotEarlier a.rowPtr a.colInd out.fcToCc k) (· = seed) y e)),
        t1.filter _, fun y => ?_, ?_⟩
      · rw [List.mem_filter, decide_eq_true_iff]
        refine ⟨fun h => h.2, fun h => ⟨?_, h⟩⟩
        obtain ⟨e, he, hy⟩ := h
        exact (t2 y).2 ⟨e, hy, by omega⟩
      · have := List.length_filter_le (fun y => decide (∃ e < d, IsDistance (NotEarlier a.rowPtr a.colInd out.fcToCc k) (· = seed) y e)) t
        omega

example := C104_reach (P := exPlatform) (o := exRow5Outs) exRow5_valid exRow5_params exLawful
  (checkUniq_sound exRow5_crs (by decide)) (checkNoLoop_sound exRow5_crs (by decide)) rfl exRow5_mode

end CoMMA
