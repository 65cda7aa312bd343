import Verif.Model.SeedsPool
import Verif.Lemmas.Pairs
/-! # Lemmas on the seeds pools -/

set_option linter.unusedSectionVars false

namespace CoMMA

variable {W : Type} [Num W]

theorem rd_getD {α : Type} {v : List α} {i : Nat} (d : α) (h : i < v.length) :
    rd v i = .ok (v[i]?.getD d) := by
  rw [rd_ok]; simp [h]

/-- boundary-face count of a cell -/
def PoolCfg.nb (c : PoolCfg W) (i : Nat) : Nat := (c.nBnd[i]?).getD 0
/-- priority of a cell -/
def PoolCfg.w (c : PoolCfg W) (i : Nat) : W := (c.prio[i]?).getD Num.lmin
/-- status of a cell -/
def isAgg (agg : List Bool) (i : Nat) : Bool := (agg[i]?).getD true

theorem isAgg_false_iff {agg : List Bool} {i : Nat} : isAgg agg i = false ↔ agg[i]? = some false := by
  unfold isAgg; cases agg[i]? <;> simp

/-- sizes of the vectors handed to the pool -/
structure PoolCfg.Sized (c : PoolCfg W) (n : Nat) : Prop where
  bnd : c.nBnd.length = n
  prio : c.prio.length = n
  le3 : ∀ i < n, c.nb i ≤ 3

theorem PoolCfg.Sized.rdB {c : PoolCfg W} {n i : Nat} (h : c.Sized n) (hi : i < n) :
    rd c.nBnd i = .ok (c.nb i) := rd_getD 0 (by rw [h.bnd]; exact hi)
theorem PoolCfg.Sized.rdW {c : PoolCfg W} {n i : Nat} (h : c.Sized n) (hi : i < n) :
    rd c.prio i = .ok (c.w i) := rd_getD _ (by rw [h.prio]; exact hi)
theorem rdAgg {agg : List Bool} {n i : Nat} (h : agg.length = n) (hi : i < n) :
    rd agg i = .ok (isAgg agg i) := rd_getD _ (by rw [h]; exact hi)

theorem fullInit_eq {c : PoolCfg W} {n : Nat} (h : c.Sized n) (t : Nat) (q : List Nat) :
    fullInit c t q = .ok (q ++ firsts (psetOf c.w ((List.range n).filter (fun i => decide (t ≤ c.nb i))))) := by
  have key : ∀ (l : List Nat) (s : List (Nat × W)), (∀ i ∈ l, i < n) →
      l.foldlM (fun s i => do
        let b ← rd c.nBnd i
        if t ≤ b then do
          let w ← rd c.prio i
          pure (pinsert (i, w) s)
        else pure s) s
      = (.ok ((l.filter (fun i => decide (t ≤ c.nb i))).foldl (fun s i => pinsert (i, c.w i) s) s) : M _) := by
    intro l
    induction l with
    | nil => intro s _; rfl
    | cons i l ih =>
      intro s hl
      have hi := hl i (by simp)
      rw [List.foldlM_cons, h.rdB hi]
      simp only [ok_bind]
      by_cases hb : t ≤ c.nb i
      · rw [if_pos hb, h.rdW hi]
        simp only [ok_bind]
        rw [List.filter_cons_of_pos (by simpa using hb)]
        exact ih _ (fun j hj => hl j (by simp [hj]))
      · rw [if_neg hb, List.filter_cons_of_neg (by simpa using hb)]
        exact ih _ (fun j hj => hl j (by simp [hj]))
  unfold fullInit
  rw [h.bnd, key _ _ (by simp)]
  rfl

theorem buildQueue_eq {c : PoolCfg W} {n : Nat} (h : c.Sized n) {agg : List Bool} (ha : agg.length = n)
    (t : Nat) (p : Pool) {q : List Nat} (hq : p.queues[t]? = some q) :
    buildQueue c agg t p = .ok { p with queues := p.queues.set t (q ++
      firsts (psetOf c.w ((List.range n).filter (fun i => !isAgg agg i && decide (c.nb i = t))))) } := by
  have key : ∀ (l : List Nat) (s : List (Nat × W)), (∀ i ∈ l, i < n) →
      l.foldlM (fun s i => do
        let a ← rd agg i
        if a then pure s else do
          let b ← rd c.nBnd i
          if b = t then do
            let w ← rd c.prio i
            pure (pinsert (i, w) s)
          else pure s) s
      = (.ok ((l.filter (fun i => !isAgg agg i && decide (c.nb i = t))).foldl
          (fun s i => pinsert (i, c.w i) s) s) : M _) := by
    intro l
    induction l with
    | nil => intro s _; rfl
    | cons i l ih =>
      intro s hl
      have hi := hl i (by simp)
      have ih' := fun s => ih s (fun j hj => hl j (by simp [hj]))
      rw [List.foldlM_cons, rdAgg ha hi]
      simp only [ok_bind]
      by_cases hg : isAgg agg i = true
      · rw [if_pos hg, List.filter_cons_of_neg (by simp [hg])]
        exact ih' _
      · rw [if_neg hg, h.rdB hi]
        simp only [ok_bind]
        simp only [Bool.not_eq_true] at hg
        by_cases hb : c.nb i = t
        · rw [if_pos hb, h.rdW hi, List.filter_cons_of_pos (by simp [hg, hb])]
          exact ih' _
        · rw [if_neg hb, List.filter_cons_of_neg (by simp [hb])]
          exact ih' _
  have hlt : t < p.queues.length := by
    by_contra hc
    rw [List.getElem?_eq_none (by omega)] at hq; cases hq
  unfold buildQueue
  rw [h.bnd, key _ _ (by simp)]
  simp only [ok_bind]
  rw [rd_ok.2 hq]
  simp only [ok_bind]
  rw [wr_of_lt hlt]
  rfl

/-- `spoil_queue` skips agglomerated cells and takes the first free one -/
theorem spoil_spec {agg : List Bool} {n : Nat} (ha : agg.length = n) {q : List Nat} (hq : ∀ i ∈ q, i < n) :
    (spoil agg q = .ok (none, []) ∧ ∀ i ∈ q, isAgg agg i = true) ∨
    (∃ pre s post, q = pre ++ s :: post ∧ (∀ i ∈ pre, isAgg agg i = true) ∧ isAgg agg s = false ∧
      spoil agg q = .ok (some s, post)) := by
  induction q with
  | nil => exact Or.inl ⟨rfl, by simp⟩
  | cons x r ih =>
    have hx := hq x (by simp)
    unfold spoil
    rw [rdAgg ha hx]
    simp only [ok_bind]
    by_cases hg : isAgg agg x = true
    · rw [if_pos hg]
      rcases ih (fun i hi => hq i (by simp [hi])) with ⟨h1, h2⟩ | ⟨pre, s, post, h1, h2, h3, h4⟩
      · exact Or.inl ⟨h1, by simpa [hg] using h2⟩
      · exact Or.inr ⟨x :: pre, s, post, by simp [h1], by simpa [hg] using h2, h3, h4⟩
    · rw [if_neg hg]
      exact Or.inr ⟨[], x, r, rfl, by simp, by simpa using hg, rfl⟩

/-- what `get_highest_n_bnd_yet_to_agglomerate` returns -/
theorem highestAux_spec {c : PoolCfg W} {n : Nat} (h : c.Sized n) {agg : List Bool} (ha : agg.length = n)
    (e : Nat) (l : List Nat) (hl : ∀ i ∈ l, i < n) (m : Option Nat) :
    Ok (highestAux c.nBnd agg e l m) (fun r =>
      (r = none ↔ m = none ∧ ∀ i ∈ l, isAgg agg i = true) ∧
      (∀ b, r = some b → (m = some b ∨ ∃ i ∈ l, isAgg agg i = false ∧ c.nb i = b) ∧
        (e ≤ b ∨ ((∀ b', m = some b' → b' ≤ b) ∧ ∀ i ∈ l, isAgg agg i = false → c.nb i ≤ b)))) := by
  induction l generalizing m with
  | nil =>
    simp only [highestAux]
    constructor
    · simp
    · intro b hb
      refine ⟨Or.inl hb, Or.inr ⟨fun b' hb' => ?_, by simp⟩⟩
      rw [hb] at hb'; cases hb'; exact Nat.le_refl _
  | cons i l ih =>
    have hi := hl i (by simp)
    have ih' := fun m => ih (fun j hj => hl j (by simp [hj])) m
    unfold highestAux
    rw [rdAgg ha hi]
    simp only [ok_bind]
    by_cases hg : isAgg agg i = true
    · rw [if_pos hg]
      refine (ih' m).mono (fun r ⟨h1, h2⟩ => ⟨?_, fun b hb => ?_⟩)
      · rw [h1]; simp [hg]
      · obtain ⟨h3, h4⟩ := h2 b hb
        refine ⟨?_, ?_⟩
        · rcases h3 with h3 | ⟨j, hj, hj'⟩
          · exact Or.inl h3
          · exact Or.inr ⟨j, by simp [hj], hj'⟩
        · rcases h4 with h4 | ⟨h4, h5⟩
          · exact Or.inl h4
          · refine Or.inr ⟨h4, fun j hj hja => ?_⟩
            rcases List.mem_cons.1 hj with rfl | hj
            · rw [hg] at hja; cases hja
            · exact h5 j hj hja
    · rw [if_neg hg, h.rdB hi]
      simp only [Bool.not_eq_true] at hg
      simp only [ok_bind]
      by_cases hb : e ≤ c.nb i
      · rw [if_pos hb]
        simp only [Ok_pure]
        refine ⟨by simp [hg], fun b hb' => ?_⟩
        cases hb'
        exact ⟨Or.inr ⟨i, by simp, hg, rfl⟩, Or.inl hb⟩
      · rw [if_neg hb]
        -- value of the running maximum after cell i
        obtain ⟨m', hm', hle, hor, hm0⟩ : ∃ m', (if optLt (if m.isNone then some (c.nb i) else m) (c.nb i) then some (c.nb i)
              else (if m.isNone then some (c.nb i) else m)) = some m' ∧ c.nb i ≤ m' ∧
              (m' = c.nb i ∨ m = some m') ∧ (∀ b', m = some b' → b' ≤ m') := by
          cases m with
          | none => exact ⟨c.nb i, by simp [optLt], Nat.le_refl _, Or.inl rfl, by simp⟩
          | some x =>
            by_cases hx : x < c.nb i
            · exact ⟨c.nb i, by simp [optLt, hx], Nat.le_refl _, Or.inl rfl, by
                intro b' hb'; cases hb'; omega⟩
            · exact ⟨x, by simp [optLt, hx], by omega, Or.inr rfl, by
                intro b' hb'; cases hb'; omega⟩
        rw [hm']
        refine (ih' (some m')).mono (fun r ⟨h1, h2⟩ => ⟨?_, fun b hb' => ?_⟩)
        · rw [h1]; simp [hg]
        · obtain ⟨h3, h4⟩ := h2 b hb'
          refine ⟨?_, ?_⟩
          · rcases h3 with h3 | ⟨j, hj, hj'⟩
            · cases h3
              rcases hor with hor | hor
              · exact Or.inr ⟨i, by simp, hg, hor.symm⟩
              · exact Or.inl hor
            · exact Or.inr ⟨j, by simp [hj], hj'⟩
          · rcases h4 with h4 | ⟨h4, h5⟩
            · exact Or.inl h4
            · have hmb := h4 m' rfl
              refine Or.inr ⟨fun b' hb'' => Nat.le_trans (hm0 b' hb'') hmb, fun j hj hja => ?_⟩
              rcases List.mem_cons.1 hj with rfl | hj
              · exact Nat.le_trans hle hmb
              · exact h5 j hj hja

theorem highest_spec {c : PoolCfg W} {n : Nat} (h : c.Sized n) {agg : List Bool} (ha : agg.length = n)
    (e : Nat) : Ok (highest c.nBnd agg e) (fun r =>
      (r = none ↔ ∀ i < n, isAgg agg i = true) ∧
      (∀ b, r = some b → (∃ i < n, isAgg agg i = false ∧ c.nb i = b) ∧
        (e ≤ b ∨ ∀ i < n, isAgg agg i = false → c.nb i ≤ b))) := by
  unfold highest
  rw [h.bnd]
  refine (highestAux_spec h ha e (List.range n) (by simp) none).mono (fun r ⟨h1, h2⟩ => ⟨?_, ?_⟩)
  · rw [h1]; simp
  · intro b hb
    obtain ⟨h3, h4⟩ := h2 b hb
    refine ⟨?_, ?_⟩
    · simpa using h3
    · simpa using h4

end CoMMA
