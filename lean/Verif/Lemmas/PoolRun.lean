import Verif.Spec.Pool
import Verif.Lemmas.SeedsPoolInv
/-! # Invariants of the histories of the seeds pools -/

set_option linter.unusedSectionVars false

namespace CoMMA

variable {W : Type} [Num W]

theorem PoolInput.sized {c : PoolCfg W} {n : Nat} (h : PoolInput c n) : c.Sized n where
  bnd := h.bnd
  prio := h.prio
  le3 i hi := by
    refine h.le3 _ ?_
    rw [List.mem_iff_getElem?]
    have : i < c.nBnd.length := by rw [h.bnd]; exact hi
    exact ⟨i, by simp [PoolCfg.nb, this]⟩

theorem PrioritiesOk.initOk {c : PoolCfg W} {n : Nat} (h : PoolInput c n) (hp : PrioritiesOk c) : InitOk c n := by
  intro ho
  obtain ⟨h1, h2⟩ := hp ho
  refine ⟨by rw [h.bnd] at h1; exact h1, fun i hi => h2 _ ?_⟩
  rw [List.mem_iff_getElem?]
  have : i < c.prio.length := by rw [h.prio]; exact hi
  exact ⟨i, by simp [PoolCfg.w, this]⟩

theorem isAgg_true_iff {agg : List Bool} {n i : Nat} (ha : agg.length = n) (hi : i < n) :
    isAgg agg i = true ↔ agg[i]? = some true := by
  have : i < agg.length := by omega
  simp [isAgg, this]

theorem mark_isAgg {agg agg' : List Bool} (hl : agg'.length = agg.length)
    (hm : ∀ i : Nat, agg[i]? = some true → agg'[i]? = some true) {i : Nat} (h : isAgg agg i = true) :
    isAgg agg' i = true := by
  by_cases hi : i < agg.length
  · rw [isAgg_true_iff rfl hi] at h
    rw [isAgg_true_iff rfl (by omega)]
    exact hm i h
  · have : agg'[i]? = none := List.getElem?_eq_none (by omega)
    simp [isAgg, this]

/-- invariant of a history -/
theorem PoolRun.inv {c : PoolCfg W} {n : Nat} (hc : PoolInput c n) (hp : PrioritiesOk c) {p : Pool}
    {agg : List Bool} {b : Bool} (h : PoolRun c n p agg b) :
    agg.length = n ∧ PInv c n (fun _ i => i < n) p ∧
      (b = true → p.top = none → ∀ i < n, isAgg agg i = true) := by
  have hs := hc.sized
  have hio := hp.initOk hc
  induction h with
  | start => exact ⟨by simp, ⟨QAll_new _, by intro t ht; cases ht⟩, by simp⟩
  | init hr he ih =>
    obtain ⟨h1, h2, h3⟩ := ih
    obtain ⟨h4, t, h5, _⟩ := (initialize_spec hs hc.pos hio h2 (fun _ _ i hi _ => hi)).elim he
    exact ⟨h1, h4, fun _ h6 => by rw [h5] at h6; cases h6⟩
  | update hr hse he ih =>
    obtain ⟨h1, h2, h3⟩ := ih
    obtain ⟨h4, h5⟩ := (update_spec hs h2 (fun s hs' => ⟨hse s hs', fun _ _ _ => hse s hs'⟩)).elim he
    refine ⟨h1, h4, fun hb hn => h3 hb ?_⟩
    by_contra hne
    obtain ⟨t, ht⟩ := Option.ne_none_iff_exists'.1 hne
    obtain ⟨t', ht', _⟩ := h5 t ht
    rw [ht'] at hn; cases hn
  | orderUpdate hr hse he ih =>
    obtain ⟨h1, h2, h3⟩ := ih
    obtain ⟨h4, h5⟩ := (orderUpdate_spec hs _ h2 (fun s hs' => ⟨hse s hs', fun _ _ _ => hse s hs'⟩)).elim he
    refine ⟨h1, h4, fun hb hn => h3 hb ?_⟩
    by_contra hne
    obtain ⟨t, ht⟩ := Option.ne_none_iff_exists'.1 hne
    obtain ⟨t', ht', _⟩ := h5 t ht
    rw [ht'] at hn; cases hn
  | needInit hr he ih =>
    obtain ⟨h1, h2, h3⟩ := ih
    obtain ⟨h4, _, _, h5, _⟩ := (needInit_spec hs h1 h2).elim he
    refine ⟨h1, h4, fun hb hn => h3 hb ?_⟩
    by_contra hne
    obtain ⟨t, ht⟩ := Option.ne_none_iff_exists'.1 hne
    obtain ⟨t', ht', _⟩ := h5 t ht
    rw [ht'] at hn; cases hn
  | @choose p p' agg b o hr he ih =>
    obtain ⟨h1, h2, h3⟩ := ih
    cases hpt : p.top with
    | none =>
      unfold Pool.choose at he
      rw [hpt] at he
      cases he
      exact ⟨h1, h2, h3⟩
    | some t =>
      obtain ⟨h4, h5, h6⟩ := (choose_spec hs h1 (fun _ i hi => hi) (fun i hi _ => hi) h2 hpt).elim he
      refine ⟨h1, h4, fun hb hn => ?_⟩
      cases o with
      | none => exact h5.1 rfl
      | some s =>
        obtain ⟨_, _, k, hk, _⟩ := h6 s rfl
        rw [hk] at hn; cases hn
  | setTop hr hl ih =>
    obtain ⟨h1, h2, h3⟩ := ih
    refine ⟨h1, ⟨h2.q, ?_⟩, fun _ hn => by cases hn⟩
    intro t ht; cases ht
    obtain ⟨x, hx, hxl⟩ := hl
    obtain ⟨i, hi, rfl⟩ := (mem_nBnd_iff hs).1 hx
    exact ⟨i, hi, hxl⟩
  | mark hr hl hm ih =>
    obtain ⟨h1, h2, h3⟩ := ih
    exact ⟨by omega, h2, fun hb hn i hi => mark_isAgg hl hm (h3 hb hn i hi)⟩

/-- contents of the queues of a boundary-priority pool -/
def BP (c : PoolCfg W) (n : Nat) (agg : List Bool) (k i : Nat) : Prop :=
  i < n ∧ (c.nb i = k ∨ isAgg agg i = true)

theorem IsoRun.inv {c : PoolCfg W} {n : Nat} (hc : PoolInput c n) (hp : PrioritiesOk c)
    (hk : c.kind = .boundary) {p : Pool} {agg : List Bool} (h : IsoRun c n p agg) :
    agg.length = n ∧ PInv c n (BP c n agg) p ∧ (∀ t, p.top = some t → Dominates c n agg t) ∧
      (p.top = none → ∀ i < n, isAgg agg i = true) := by
  have hs := hc.sized
  have hio := hp.initOk hc
  have hvac : ∀ {agg : List Bool}, (∀ i < n, isAgg agg i = true) → ∀ t, Dominates c n agg t := by
    intro agg h t i hi hia; rw [h i hi] at hia; cases hia
  induction h with
  | start he =>
    have h2 : PInv c n (BP c n (List.replicate n false)) Pool.new := ⟨QAll_new _, by intro t ht; cases ht⟩
    obtain ⟨h4, t, h5, h6⟩ := (initialize_spec hs hc.pos hio h2 (by
      rintro t (ht | ⟨_, ht⟩) i hi hti
      · cases ht
      · exact ⟨hi, Or.inl (by have := ht i hi; omega)⟩)).elim he
    refine ⟨by simp, h4, fun t' ht' => ?_, fun hn => by rw [h5] at hn; cases hn⟩
    rw [h5] at ht'; cases ht'
    rcases h6 with h6 | ⟨_, _, h6⟩
    · cases h6
    · exact fun i hi _ => h6 i hi
  | @init p p' agg hr he ih =>
    obtain ⟨h1, h2, h3, h0⟩ := ih
    obtain ⟨h4, t, h5, h6⟩ := (initialize_spec hs hc.pos hio h2 (by
      rintro t (ht | ⟨_, ht⟩) i hi hti
      · refine ⟨hi, ?_⟩
        by_cases hg : isAgg agg i = true
        · exact Or.inr hg
        · have := h3 t ht i hi (by simpa using hg)
          exact Or.inl (by omega)
      · exact ⟨hi, Or.inl (by have := ht i hi; omega)⟩)).elim he
    refine ⟨h1, h4, fun t' ht' => ?_, fun hn => by rw [h5] at hn; cases hn⟩
    rw [h5] at ht'; cases ht'
    rcases h6 with h6 | ⟨_, _, h6⟩
    · exact h3 _ h6
    · exact fun i hi _ => h6 i hi
  | @update p p' agg seeds hr hse he ih =>
    obtain ⟨h1, h2, h3, h0⟩ := ih
    have hu := update_spec hs h2 (seeds := seeds) (fun s hs' => ⟨hse s hs', fun k hkk _ =>
      ⟨hse s hs', Or.inl (hkk hk).symm⟩⟩)
    obtain ⟨h4, h5⟩ := hu.elim he
    cases hpt : p.top with
    | some t =>
      obtain ⟨t'', h6, h7⟩ := h5 t hpt
      refine ⟨h1, h4, fun t' ht' => ?_, fun hn => by rw [h6] at hn; cases hn⟩
      rw [ht'] at h6; cases h6
      exact fun i hi hia => Nat.le_trans (h3 t hpt i hi hia) h7
    | none => exact ⟨h1, h4, fun t _ => hvac (h0 hpt) t, fun _ => h0 hpt⟩
  | @orderUpdate p p' agg hh seeds hr hse he ih =>
    obtain ⟨h1, h2, h3, h0⟩ := ih
    have hu := orderUpdate_spec hs hh h2 (seeds := seeds) (fun s hs' => ⟨hse s hs', fun k hkk _ =>
      ⟨hse s hs', Or.inl (hkk hk).symm⟩⟩)
    obtain ⟨h4, h5⟩ := hu.elim he
    cases hpt : p.top with
    | some t =>
      obtain ⟨t'', h6, h7⟩ := h5 t hpt
      refine ⟨h1, h4, fun t' ht' => ?_, fun hn => by rw [h6] at hn; cases hn⟩
      rw [ht'] at h6; cases h6
      exact fun i hi hia => Nat.le_trans (h3 t hpt i hi hia) h7
    | none => exact ⟨h1, h4, fun t _ => hvac (h0 hpt) t, fun _ => h0 hpt⟩
  | @needInit p p' agg r hr he ih =>
    obtain ⟨h1, h2, h3, h0⟩ := ih
    obtain ⟨h4, _, _, h5, h6, _⟩ := (needInit_spec hs h1 h2).elim he
    cases hpt : p.top with
    | some t =>
      obtain ⟨t'', h7, h8⟩ := h5 t hpt
      refine ⟨h1, h4, fun t' ht' => ?_, fun hn => by rw [h7] at hn; cases hn⟩
      rw [h7] at ht'; cases ht'
      exact fun i hi hia => Nat.le_trans (h3 t hpt i hi hia) h8
    | none => exact ⟨h1, h4, fun t _ => hvac (h0 hpt) t, fun _ => h0 hpt⟩
  | @choose p p' agg o hr he ih =>
    obtain ⟨h1, h2, h3, h0⟩ := ih
    cases hpt : p.top with
    | none =>
      unfold Pool.choose at he
      rw [hpt] at he
      cases he
      exact ⟨h1, h2, h3, h0⟩
    | some t =>
      obtain ⟨h4, h5, h6⟩ := (choose_spec hs h1 (fun _ i hi => hi.1) (fun i hi _ => ⟨hi, Or.inl rfl⟩) h2 hpt).elim he
      cases o with
      | none =>
        have hall := h5.1 rfl
        exact ⟨h1, h4, fun t _ => hvac hall t, fun _ => hall⟩
      | some s =>
        obtain ⟨_, _, k, hkt, _, hd⟩ := h6 s rfl
        refine ⟨h1, h4, fun t' ht' => ?_, fun hn => by rw [hkt] at hn; cases hn⟩
        rw [hkt] at ht'; cases ht'
        exact hd hk (h3 t hpt)
  | @mark p agg agg' hr hl hm ih =>
    obtain ⟨h1, h2, h3, h0⟩ := ih
    refine ⟨by omega, ⟨h2.q.mono ?_, h2.top⟩, ?_, ?_⟩
    · rintro k i ⟨hi, h | h⟩
      · exact ⟨hi, Or.inl h⟩
      · exact ⟨hi, Or.inr (mark_isAgg hl hm h)⟩
    · intro t ht i hi hia
      refine h3 t ht i hi ?_
      by_contra hc'
      rw [mark_isAgg hl hm (by simpa using hc')] at hia; cases hia
    · exact fun hn i hi => mark_isAgg hl hm (h0 hn i hi)

end CoMMA
