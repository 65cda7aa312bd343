import Verif.Spec.Pool
import Verif.Spec.Examples
import Verif.Lemmas.PoolRun
/-! # C06, C07: seeds pools -/

set_option linter.unusedSectionVars false

namespace CoMMA

variable {W : Type} [Num W]

/-- **C06** After any history of calls on an initialised pool of either kind,
`choose_new_seed` returns normally; it gives a cell that is not agglomerated whenever
there is one, and nothing exactly when every cell is agglomerated. -/
theorem C06_choose_new_seed {c : PoolCfg W} {n : Nat} (hc : PoolInput c n) (hp : PrioritiesOk c)
    {p : Pool} {agg : List Bool} (h : PoolRun c n p agg true) :
    ∃ o p', p.choose c agg = .ok (o, p') ∧
      (o = none ↔ ∀ i < n, agg[i]? = some true) ∧
      (∀ s, o = some s → agg[s]? = some false) := by
  obtain ⟨h1, h2, h3⟩ := h.inv hc hp
  have hall : (∀ i < n, isAgg agg i = true) ↔ ∀ i < n, agg[i]? = some true := by
    constructor
    · intro h i hi; exact (isAgg_true_iff h1 hi).1 (h i hi)
    · intro h i hi; exact (isAgg_true_iff h1 hi).2 (h i hi)
  cases hpt : p.top with
  | none =>
    refine ⟨none, p, ?_, ?_, by simp⟩
    · unfold Pool.choose; rw [hpt]; rfl
    · have := h3 rfl hpt
      rw [← hall]; simp; exact this
  | some t =>
    obtain ⟨⟨o, p'⟩, h4, h5, h6, h7⟩ :=
      (choose_spec hc.sized h1 (fun _ i hi => hi) (fun i hi _ => hi) h2 hpt).eq
    refine ⟨o, p', h4, ?_, ?_⟩
    · rw [← hall]; exact h6
    · intro s hs
      exact isAgg_false_iff.1 (h7 s hs).2.1

/-- **C06** (continued) No call of a history fails: initialisation, both kinds of update
and the initialisation test always return normally. -/
theorem C06_no_failure {c : PoolCfg W} {n : Nat} (hc : PoolInput c n) (hp : PrioritiesOk c)
    {p : Pool} {agg : List Bool} {b : Bool} (h : PoolRun c n p agg b) :
    (∃ p', p.initialize c = .ok p') ∧
    (∀ seeds : List Nat, (∀ s ∈ seeds, s < n) → ∃ p', p.update c seeds = .ok p') ∧
    (∀ (hh : Hash) (seeds : NSet), (∀ s ∈ seeds, s < n) → ∃ p', p.orderUpdate c hh seeds = .ok p') ∧
    (∃ r, p.needInit c agg = .ok r) := by
  obtain ⟨h1, h2, h3⟩ := h.inv hc hp
  refine ⟨?_, ?_, ?_, ?_⟩
  · obtain ⟨a, ha, _⟩ := (initialize_spec hc.sized hc.pos (hp.initOk hc) h2 (fun _ _ i hi _ => hi)).eq
    exact ⟨a, ha⟩
  · intro seeds hse
    obtain ⟨a, ha, _⟩ := (update_spec hc.sized h2 (fun s hs' => ⟨hse s hs', fun _ _ _ => hse s hs'⟩)).eq
    exact ⟨a, ha⟩
  · intro hh seeds hse
    obtain ⟨a, ha, _⟩ := (orderUpdate_spec hc.sized hh h2 (fun s hs' => ⟨hse s hs', fun _ _ _ => hse s hs'⟩)).eq
    exact ⟨a, ha⟩
  · obtain ⟨a, ha, _⟩ := (needInit_spec hc.sized h1 h2).eq
    exact ⟨a, ha⟩

/-- **C07** In an isotropic run with boundary priority, the seed chosen always has the
largest number of boundary faces among the cells not yet agglomerated. -/
theorem C07_boundary_priority {c : PoolCfg W} {n : Nat} (hc : PoolInput c n) (hp : PrioritiesOk c)
    (hk : c.kind = .boundary) {p : Pool} {agg : List Bool} (h : IsoRun c n p agg)
    {s : Nat} {p' : Pool} (hch : p.choose c agg = .ok (some s, p')) :
    ∃ bs, c.nBnd[s]? = some bs ∧
      ∀ (i : Nat) b, c.nBnd[i]? = some b → agg[i]? = some false → b ≤ bs := by
  obtain ⟨h1, h2, h3, h0⟩ := h.inv hc hp hk
  cases hpt : p.top with
  | none =>
    unfold Pool.choose at hch
    rw [hpt] at hch
    cases hch
  | some t =>
    obtain ⟨h4, h5, h6⟩ := (choose_spec hc.sized h1 (fun _ i hi => hi.1)
      (fun i hi _ => ⟨hi, Or.inl rfl⟩) h2 hpt).elim hch
    obtain ⟨hsn, hsa, k, hkt, hP, hd⟩ := h6 s rfl
    have hlt : s < c.nBnd.length := by rw [hc.bnd]; exact hsn
    refine ⟨c.nBnd[s], by simp [hlt], fun i b hb hia => ?_⟩
    have hin : i < n := by
      by_contra hcc
      rw [List.getElem?_eq_none (by rw [hc.bnd]; omega)] at hb; cases hb
    have := hd hk (h3 t hpt) i hin (isAgg_false_iff.2 hia)
    rcases hP.2 with hP | hP
    · have e1 : c.nb s = c.nBnd[s] := by simp [PoolCfg.nb, hlt]
      have e2 : c.nb i = b := by simp [PoolCfg.nb, hb]
      omega
    · rw [hsa] at hP; cases hP

/-! ### Non-vacuity -/

/-- a 4-cell configuration: cell 2 is a corner, cell 0 a ridge -/
def exPool (k : PoolKind) (one : Bool) : PoolCfg Int :=
  ⟨k, one, [5, 7, 2, 7], [2, 0, 3, 0], 1000⟩

theorem exPool_input (k : PoolKind) (one : Bool) : PoolInput (exPool k one) 4 :=
  ⟨by decide, rfl, rfl, by simp [exPool]⟩

theorem exPool_prio (k : PoolKind) (one : Bool) : PrioritiesOk (exPool k one) := by
  intro _; exact ⟨by simp [exPool], by simp [exPool, Num.lt, Num.lmin]⟩

/-- a history: initialise, choose 2, mark it, add seed 1, choose again -/
example : ∃ p agg, PoolRun (exPool .boundary false) 4 p agg true ∧ agg = [false, false, true, false] ∧
    ∃ p', p.choose (exPool .boundary false) agg = .ok (some 0, p') :=
  ⟨⟨[[1], [], [], []], some 3⟩, [false, false, true, false],
    .mark (agg := List.replicate 4 false)
      (.update (seeds := [1]) (.choose (o := some 2) (.init .start rfl) rfl) (by decide) rfl)
      rfl (by intro i hi; have := List.mem_of_getElem? hi; simp at this), rfl,
    ⟨[[1], [], [], []], some 2⟩, by decide +kernel⟩

example : ∃ p agg, IsoRun (exPool .boundary false) 4 p agg ∧
    ∃ p', p.choose (exPool .boundary false) agg = .ok (some 0, p') :=
  ⟨⟨[[1], [], [], []], some 3⟩, [false, false, true, false],
    .mark (agg := List.replicate 4 false)
      (.update (seeds := [1]) (.choose (o := some 2) (.start rfl) rfl) (by decide) rfl)
      rfl (by intro i hi; have := List.mem_of_getElem? hi; simp at this),
    ⟨[[1], [], [], []], some 2⟩, by decide +kernel⟩

end CoMMA
