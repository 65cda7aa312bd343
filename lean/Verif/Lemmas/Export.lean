import Verif.Lemmas.Lines
import Verif.Spec.Lines
import Verif.Spec.TopLevel
/-! # Exported lines and direction of a line -/

set_option linter.unusedSectionVars false

namespace CoMMA

variable {W : Type} [Num W]

theorem offsets_length (k : Nat) (ls : List (List Nat)) : (offsets k ls).length = ls.length + 1 := by
  induction ls generalizing k with
  | nil => rfl
  | cons l r ih => simp [offsets, ih]

theorem offsets_getElem (ls : List (List Nat)) : ∀ (k j : Nat), j ≤ ls.length →
    (offsets k ls)[j]? = some (k + (ls.take j).flatten.length) := by
  induction ls with
  | nil => intro k j hj; have : j = 0 := by simpa using hj
           subst this; simp [offsets]
  | cons l r ih =>
    intro k j hj
    cases j with
    | zero => simp [offsets]
    | succ j =>
      rw [offsets, List.getElem?_cons_succ, ih _ _ (by simpa using hj)]
      simp only [List.take_succ_cons, List.flatten_cons, List.length_append]
      congr 1; omega

theorem export_fold (ls : List (List Nat)) : ∀ (idx data : List Nat) (k : Nat),
    ls.foldl (fun (s : List Nat × List Nat × Nat) l =>
      (s.1 ++ [l.length + s.2.2], s.2.1 ++ l, s.2.2 + l.length)) (idx ++ [k], data, k) =
    (idx ++ offsets k ls, data ++ ls.flatten, k + ls.flatten.length) := by
  induction ls with
  | nil => intro idx data k; simp [offsets]
  | cons l r ih =>
    intro idx data k
    rw [List.foldl_cons]
    simp only
    rw [Nat.add_comm l.length k, ih]
    simp only [offsets, List.flatten_cons, List.length_append, List.append_assoc, List.singleton_append]
    refine Prod.ext rfl (Prod.ext rfl ?_)
    exact Nat.add_assoc _ _ _

theorem exportLines_eq {ls : List (List Nat)} (h : ls ≠ []) : exportLines ls = (offsets 0 ls, ls.flatten) := by
  unfold exportLines
  rw [if_neg h]
  have := export_fold ls [] [] 0
  simp only [List.nil_append] at this
  simp only
  rw [this]

theorem slice_flatten {pre : List Nat} {l rest : List Nat} :
    slice (pre ++ (l ++ rest)) pre.length (pre.length + l.length) = .ok l := by
  unfold slice
  have h1 : pre.length ≤ pre.length + l.length ∧ pre.length + l.length ≤ (pre ++ (l ++ rest)).length := by
    simp
  simp [h1]

theorem readLines_offsets (ls : List (List Nat)) : ∀ (pre : List Nat),
    readLines (pre ++ ls.flatten) (offsets pre.length ls) = .ok (ls.filter (fun l => decide (1 < l.length))) := by
  induction ls with
  | nil => intro pre; rfl
  | cons l r ih =>
    intro pre
    have h := ih (pre ++ l)
    rw [List.length_append] at h
    have hne : ∃ t, offsets (pre.length + l.length) r = (pre.length + l.length) :: t := by
      cases r <;> exact ⟨_, rfl⟩
    obtain ⟨t, ht⟩ := hne
    rw [offsets, ht]
    rw [ht, List.append_assoc] at h
    unfold readLines
    rw [List.flatten_cons, h, ok_bind, if_neg (by omega)]
    by_cases hl : 1 < l.length
    · rw [if_pos (by omega), slice_flatten, ok_bind, List.filter_cons_of_pos (by simpa using hl)]
      rfl
    · rw [if_neg (by omega), List.filter_cons_of_neg (by simpa using hl)]
      rfl

theorem givenLines_export {ls : List (List Nat)} (h : ls ≠ []) :
    givenLines (exportLines ls).1 (exportLines ls).2 = .ok (ls.filter (fun l => decide (1 < l.length))) := by
  rw [exportLines_eq h]
  have h1 := readLines_offsets ls []
  unfold givenLines
  cases ls with
  | nil => exact absurd rfl h
  | cons l r => exact h1

theorem isForward_oriented {g : Graph W} {prio : List W} {line : List Nat} {fwd : Bool}
    (h : isForward g prio line = .ok fwd) : Oriented g.nBnd prio line (if fwd then line else line.reverse) := by
  unfold isForward at h
  simp only [bind_ok_iff] at h
  obtain ⟨fr, h1, bk, h2, bf, h3, bb, h4, wf, h5, wb, h6, h⟩ := h
  rw [rd_ok] at h1 h2 h3 h4 h5 h6
  refine ⟨fr, bk, by rw [List.head?_eq_getElem?, h1], by rw [List.getLast?_eq_getElem?, h2], ?_⟩
  have hff : FrontFirst g.nBnd prio fr bk ↔ fwd = true := by
    have : (decide (bb < bf) || (decide (bf = bb) && (Num.lt wb wf || (Num.eq wf wb && decide (fr < bk))))) = fwd := by
      cases h; rfl
    rw [← this]
    simp only [Bool.or_eq_true, Bool.and_eq_true, decide_eq_true_eq]
    constructor
    · rintro ⟨bf', bb', wf', wb', e1, e2, e3, e4, hc⟩
      rw [h3] at e1; rw [h4] at e2; rw [h5] at e3; rw [h6] at e4
      cases e1; cases e2; cases e3; cases e4
      exact hc
    · exact fun hc => ⟨bf, bb, wf, wb, h3, h4, h5, h6, hc⟩
  cases fwd with
  | true => exact Or.inl ⟨hff.2 rfl, rfl⟩
  | false => exact Or.inr ⟨fun hc => (Bool.false_ne_true (hff.1 hc)).elim, rfl⟩

theorem Cut.pairing {L : LineCfg} {line : List Nat} {groups : List (List Nat)} (h : Cut L line 0 groups) :
    Pairing L.odd L.maxCells line groups := by
  have hf := h.flat
  rw [List.drop_zero] at hf
  have hle := hf.length_le
  have hst := h.stop
  rw [Nat.sub_zero] at hst
  refine ⟨hf, h.size, h.two, ?_, ?_, ?_, by simpa using h.exact⟩
  · intro hn ho
    refine hf.eq_of_length ?_
    rcases hst with hst | ⟨h1, _⟩ | ⟨M, h1, _⟩
    · exact hst
    · rw [ho] at h1; cases h1
    · rw [hn] at h1; cases h1
  · intro hn ho
    have hev : groups.flatten.length % 2 = 0 := by
      have : ∀ (gs : List (List Nat)), (∀ grp ∈ gs, grp.length = 2) → gs.flatten.length % 2 = 0 := by
        intro gs
        induction gs with
        | nil => simp
        | cons a r ih =>
          intro hh
          rw [List.flatten_cons, List.length_append, hh a (by simp)]
          have := ih (fun x hx => hh x (by simp [hx]))
          omega
      refine this groups (fun grp hg => ?_)
      rcases h.size grp hg with h2 | ⟨_, h3⟩
      · exact h2
      · rw [ho] at h3; cases h3
    have : groups.flatten.length = line.length / 2 * 2 := by
      rcases hst with hst | ⟨_, h1⟩ | ⟨M, h1, _⟩
      · omega
      · omega
      · rw [hn] at h1; cases h1
    rw [← this]
    exact (List.prefix_iff_eq_take.1 hf)
  · intro m hm
    rcases hst with hst | ⟨_, h1⟩ | ⟨M, h1, h2⟩
    · exact Or.inl (by omega)
    · exact Or.inl (by omega)
    · rw [hm] at h1; cases h1
      exact Or.inr (by omega)

theorem CutLine.paired {g : Graph W} {prio : List W} {L : LineCfg} {line : List Nat} {groups : List (List Nat)}
    (h : CutLine g prio L line groups) : ∃ l, Oriented g.nBnd prio line l ∧ Pairing L.odd L.maxCells l groups := by
  obtain ⟨fwd, h1, h2⟩ := h
  exact ⟨_, isForward_oriented h1, h2.pairing⟩

/-- the coarse line of the groups denotes them -/
theorem Listed.denotes {c : Cont} {n : Nat} (hc : CInv n c) {groups : List (List Nat)} {ks : List Nat}
    (h : Listed c groups ks) : List.Forall₂ (Denotes c.fc2cc) groups ks := by
  induction h with
  | nil => exact .nil
  | cons hk _ ih =>
    refine .cons (fun i => ?_) ih
    rw [← hc.part _ _ hk i]
    simp [CC.new]

end CoMMA
