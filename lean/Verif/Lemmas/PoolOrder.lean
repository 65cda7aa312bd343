import Verif.Lemmas.PoolRun
/-! # Order in which the queues are filled -/

set_option linter.unusedSectionVars false

namespace CoMMA

variable {W : Type} [Num W]

theorem foldlM_pushTo (f : Nat → Nat) (E : List (Nat × List (Nat × W))) (qs : List (List Nat))
    (hlen : qs.length = 4) (hf : ∀ e ∈ E, f e.1 < 4) :
    ∃ qs', E.foldlM (fun qs e => pushTo qs (f e.1) (firsts e.2)) qs = .ok qs' ∧ qs'.length = 4 ∧
      ∀ k q, qs[k]? = some q →
        qs'[k]? = some (q ++ (E.filter (fun e => decide (f e.1 = k))).flatMap (fun e => firsts e.2)) := by
  induction E generalizing qs with
  | nil => exact ⟨qs, rfl, hlen, by simp⟩
  | cons e E ih =>
    have he := hf e (by simp)
    have hlt : f e.1 < qs.length := by omega
    obtain ⟨qs', h1, h2, h3⟩ := ih (qs.set (f e.1) (qs[f e.1] ++ firsts e.2)) (by simpa using hlen)
      (fun e' he' => hf e' (by simp [he']))
    refine ⟨qs', ?_, h2, fun k q hq => ?_⟩
    · rw [List.foldlM_cons]
      unfold pushTo
      rw [rd_of_lt hlt]
      simp only [ok_bind]
      rw [wr_of_lt hlt]
      exact h1
    · by_cases hk : f e.1 = k
      · subst hk
        have hq' : qs[f e.1] = q := by simpa [hlt] using hq
        rw [h3 (f e.1) (q ++ firsts e.2) (by simp [hlt, hq'])]
        simp
      · rw [h3 k q (by rw [List.getElem?_set]; simp [hk, hq])]
        simp [hk]

theorem NMap.entries_sorted_keys {V : Type} (m : NMap V) :
    m.entries.Pairwise (fun a b => a.1 < b.1) := by
  have := m.sorted
  simpa [List.pairwise_map] using this

/-- what an ordered update appends to queue `k` -/
theorem orderUpdate_queues (hW : LawfulLt W) {c : PoolCfg W} {n : Nat} (h : c.Sized n) (hh : Hash) {p : Pool}
    (hp : p.queues.length = 4) {seeds : NSet} (hs : ∀ s ∈ seeds, s < n) (f : Nat → Nat)
    (hf : f = match c.kind with
      | .boundary => id
      | .neighbourhood => pushLevel p.top) :
    ∃ p', p.orderUpdate c hh seeds = .ok p' ∧ (∀ k q, p.queues[k]? = some q →
      ∃ l, p'.queues[k]? = some (q ++ l) ∧ (∀ s, s ∈ l ↔ s ∈ seeds ∧ f (c.nb s) = k) ∧
        l.Pairwise (fun a b => c.nb b < c.nb a ∨ (c.nb a = c.nb b ∧
          (Num.lt (c.w b) (c.w a) = true ∨ (c.w a = c.w b ∧ a < b))))) ∧
      p'.queues.length = 4 ∧ (c.kind = .neighbourhood ∨ (∀ s, s ∉ seeds) → p'.top = p.top) ∧
      (c.kind = .boundary → (∃ s, s ∈ seeds) → ∃ mx, p'.top = raiseTop p.top mx ∧ (∃ s ∈ seeds, c.nb s = mx) ∧
        ∀ s ∈ seeds, c.nb s ≤ mx) := by
  obtain ⟨m, hm, hfind⟩ := (groupSeeds_spec h hh hs).eq
  have hfle : ∀ b, f b ≤ b := by
    intro b; rw [hf]
    cases c.kind with
    | boundary => exact Nat.le_refl _
    | neighbourhood => exact pushLevel_le _ _
  have hent : ∀ b l, (b, l) ∈ m.entries → l ≠ [] ∧ (∀ s, s ∈ firsts l ↔ s ∈ seeds ∧ c.nb s = b) ∧
      (firsts l).Pairwise (fun a b => Num.lt (c.w b) (c.w a) = true ∨ (c.w a = c.w b ∧ a < b)) ∧ ∃ s ∈ seeds, c.nb s = b := by
    intro b l hbl
    have := hfind b
    rw [NMap.find?_eq_some.2 hbl] at this
    simp only at this
    split at this
    · cases this
    · rename_i hne
      cases this
      obtain ⟨x, hx⟩ := List.exists_mem_of_ne_nil _ hne
      have hxs : ∀ s, s ∈ (hh.ord 2 seeds.elems).filter (fun s => decide (c.nb s = b)) ↔ s ∈ seeds ∧ c.nb s = b := by
        intro s
        rw [List.mem_filter, (hh.perm 2 _).mem_iff]
        simp only [decide_eq_true_eq]; exact Iff.rfl
      refine ⟨?_, ?_, firsts_psetOf_sorted hW, x, (hxs x).1 hx⟩
      · intro h0
        have := mem_firsts_psetOf (w := c.w).2 hx
        rw [h0] at this; simp [firsts] at this
      · intro s; rw [mem_firsts_psetOf, hxs]
  have hmem : ∀ s ∈ seeds, ∃ l, (c.nb s, l) ∈ m.entries := by
    intro s hs'
    have := hfind (c.nb s)
    simp only at this
    split at this
    · rename_i h0
      rw [List.filter_eq_nil_iff] at h0
      exact absurd (by simp) (h0 s ((hh.perm 2 _).mem_iff.2 hs'))
    · exact ⟨_, NMap.find?_eq_some.1 this⟩
  obtain ⟨qs', h1, h2, h3⟩ := foldlM_pushTo f m.entries.reverse p.queues hp (by
    intro e he
    obtain ⟨_, _, _, s, hs', hb⟩ := hent e.1 e.2 (by simpa using he)
    have := h.le3 s (hs s hs')
    have := hfle e.1
    omega)
  have hfin : ∀ k q, p.queues[k]? = some q →
      ∃ l, qs'[k]? = some (q ++ l) ∧ (∀ s, s ∈ l ↔ s ∈ seeds ∧ f (c.nb s) = k) ∧
        l.Pairwise (fun a b => c.nb b < c.nb a ∨ (c.nb a = c.nb b ∧
          (Num.lt (c.w b) (c.w a) = true ∨ (c.w a = c.w b ∧ a < b)))) := by
    intro k q hq
    refine ⟨_, h3 k q hq, ?_, ?_⟩
    · intro s
      rw [List.mem_flatMap]
      constructor
      · rintro ⟨⟨b, l⟩, he, hse⟩
        rw [List.mem_filter] at he
        obtain ⟨_, h4, _⟩ := hent b l (by simpa using he.1)
        obtain ⟨h5, h6⟩ := (h4 s).1 hse
        refine ⟨h5, ?_⟩
        rw [h6]; simpa using he.2
      · rintro ⟨h5, h6⟩
        obtain ⟨l, hl⟩ := hmem s h5
        obtain ⟨_, h4, _⟩ := hent _ l hl
        exact ⟨(c.nb s, l), by rw [List.mem_filter]; exact ⟨by simpa using hl, by simpa using h6⟩, (h4 s).2 ⟨h5, rfl⟩⟩
    · rw [List.pairwise_flatMap]
      constructor
      · rintro ⟨b, l⟩ he
        rw [List.mem_filter] at he
        obtain ⟨_, h4, h5, _⟩ := hent b l (by simpa using he.1)
        refine h5.imp_of_mem (fun {x y} hx hy hxy => Or.inr ⟨?_, hxy⟩)
        rw [((h4 x).1 hx).2, ((h4 y).1 hy).2]
      · apply List.Pairwise.filter
        have hrev : m.entries.reverse.Pairwise (fun a b => b.1 < a.1) := by
          rw [List.pairwise_reverse]; exact m.entries_sorted_keys
        refine hrev.imp_of_mem (fun {x y} hx hy hxy => ?_)
        intro a ha b hb
        obtain ⟨_, h4, _⟩ := hent x.1 x.2 (by simpa using hx)
        obtain ⟨_, h5, _⟩ := hent y.1 y.2 (by simpa using hy)
        refine Or.inl ?_
        rw [((h4 a).1 ha).2, ((h5 b).1 hb).2]; exact hxy
  unfold Pool.orderUpdate
  cases hk : c.kind with
  | boundary =>
    rw [hk] at hf
    simp only at hf
    subst hf
    simp only
    by_cases he : seeds.elems.isEmpty = true
    · rw [if_pos he]
      have he' : seeds.elems = [] := by simpa using he
      refine ⟨p, rfl, fun k q hq => ⟨[], by simpa using hq, ?_, by simp⟩, hp, fun _ => rfl, ?_⟩
      · intro s
        simp only [List.not_mem_nil, false_iff, not_and]
        intro hs'
        have : s ∈ seeds.elems := hs'
        rw [he'] at this; cases this
      · rintro _ ⟨s, hs'⟩
        have : s ∈ seeds.elems := hs'
        rw [he'] at this; cases this
    · rw [if_neg he, hm]
      simp only [ok_bind]
      cases hL : m.entries.reverse with
      | nil =>
        exfalso
        obtain ⟨x, hx⟩ : ∃ x, x ∈ seeds.elems := by
          apply List.exists_mem_of_ne_nil
          intro h0; rw [h0] at he; simp at he
        obtain ⟨l, hl⟩ := hmem x hx
        have : m.entries = [] := by simpa using hL
        rw [this] at hl; cases hl
      | cons e0 rest =>
        obtain ⟨mx, l⟩ := e0
        simp only
        rw [hL] at h1
        simp only [id_eq] at h1
        rw [h1]
        have hrev : m.entries.reverse.Pairwise (fun a b => b.1 < a.1) := by
          rw [List.pairwise_reverse]; exact m.entries_sorted_keys
        rw [hL, List.pairwise_cons] at hrev
        obtain ⟨_, _, _, s0, hs0, hb0⟩ := hent mx l (by rw [← List.mem_reverse, hL]; simp)
        refine ⟨_, rfl, hfin, h2, ?_, fun _ _ => ⟨mx, rfl, ⟨s0, hs0, hb0⟩, fun s hs' => ?_⟩⟩
        · rintro (h0 | h0)
          · cases h0
          · exact absurd hs0 (h0 s0)
        · obtain ⟨l', hl'⟩ := hmem s hs'
          rw [← List.mem_reverse, hL] at hl'
          rcases List.mem_cons.1 hl' with h4 | h4
          · have := congrArg Prod.fst h4
            simp only at this
            omega
          · have := hrev.1 _ h4
            simp only at this
            omega
  | neighbourhood =>
    rw [hk] at hf
    simp only at hf
    subst hf
    simp only
    rw [hm]
    simp only [ok_bind]
    rw [h1]
    exact ⟨_, rfl, hfin, h2, fun _ => rfl, (fun h => by cases h)⟩

theorem nb_of_some {c : PoolCfg W} {n i : Nat} (h : PoolInput c n) (hi : i < n) :
    c.nBnd[i]? = some (c.nb i) := by
  have : i < c.nBnd.length := by rw [h.bnd]; exact hi
  simp [PoolCfg.nb, this]

theorem w_of_some {c : PoolCfg W} {n i : Nat} (h : PoolInput c n) (hi : i < n) :
    c.prio[i]? = some (c.w i) := by
  have : i < c.prio.length := by rw [h.prio]; exact hi
  simp [PoolCfg.w, this]

theorem lt_of_bnd {c : PoolCfg W} {n i b : Nat} (h : PoolInput c n) (hb : c.nBnd[i]? = some b) :
    i < n ∧ c.nb i = b := by
  refine ⟨?_, by simp [PoolCfg.nb, hb]⟩
  by_contra hc
  rw [List.getElem?_eq_none (by rw [h.bnd]; omega)] at hb; cases hb

theorem priorityOrdered_psetOf (hW : LawfulLt W) {c : PoolCfg W} {n : Nat} (h : PoolInput c n)
    {l : List Nat} (hl : ∀ i ∈ l, i < n) : PriorityOrdered c.prio (firsts (psetOf c.w l)) := by
  refine (firsts_psetOf_sorted hW).imp_of_mem (fun {a b} ha hb hab => ?_)
  exact ⟨c.w a, c.w b, w_of_some h (hl a (mem_firsts_psetOf.1 ha)),
    w_of_some h (hl b (mem_firsts_psetOf.1 hb)), hab⟩

/-- the loop of the one-point initializator keeps the best eligible cell -/
theorem onePointInit_best (hW : LawfulLt W) {c : PoolCfg W} {n : Nat} (hc : PoolInput c n)
    (ho : c.onePoint = true) (hp : PrioritiesOk c) {t : Nat} (hwit : ∃ i < n, t ≤ c.nb i) :
    ∃ s, onePointInit c t [] = .ok [s] ∧ s < n ∧ t ≤ c.nb s ∧
      ∀ i < n, t ≤ c.nb i → i ≠ s → greaterPair (s, c.w s) (i, c.w i) = true := by
  have hs := hc.sized
  obtain ⟨hidx, hwt⟩ := hp.initOk hc ho
  have : Ok (onePointInit c t []) (fun r => ∃ s, r = [s] ∧ s < n ∧ t ≤ c.nb s ∧
    ∀ i < n, t ≤ c.nb i → i ≠ s → greaterPair (s, c.w s) (i, c.w i) = true) := by
    unfold onePointInit
    rw [hs.bnd]
    refine Ok.bind (Ok.foldlM_prefix (I := fun pre m =>
        (m = (c.idxMax, Num.lmin) ∧ ∀ i ∈ pre, ¬ t ≤ c.nb i) ∨
        (m.2 = c.w m.1 ∧ m.1 < n ∧ t ≤ c.nb m.1 ∧
          ∀ i ∈ pre, t ≤ c.nb i → i ≠ m.1 → greaterPair m (i, c.w i) = true)) ?_ ?_) ?_
    · exact Or.inl ⟨rfl, by simp⟩
    · intro pre i post m hl hI
      have hin : i < n := by
        have : i ∈ List.range n := by rw [hl]; simp
        simpa using this
      rw [hs.rdW hin, hs.rdB hin]
      simp only [ok_bind, Ok_pure]
      by_cases hb : t ≤ c.nb i
      · rcases hI with ⟨rfl, hno⟩ | ⟨h1, h2, h3, h4⟩
        · have hgt : greaterPair (i, c.w i) (c.idxMax, (Num.lmin : W)) = true := by
            rw [greaterPair_iff hW]
            by_cases h : Num.lt Num.lmin (c.w i) = true
            · exact Or.inl h
            · refine Or.inr ⟨?_, by simp only; omega⟩
              exact hW.total _ _ (hwt i hin) (by simpa using h)
          rw [if_pos (by simp [hb, hgt])]
          refine Or.inr ⟨rfl, hin, hb, fun j hj hjb hji => ?_⟩
          rcases List.mem_append.1 hj with hj | hj
          · exact absurd hjb (hno j hj)
          · simp only [List.mem_singleton] at hj; exact absurd hj hji
        · by_cases hgt : greaterPair (i, c.w i) m = true
          · rw [if_pos (by simp [hb, hgt])]
            refine Or.inr ⟨rfl, hin, hb, fun j hj hjb hji => ?_⟩
            rcases List.mem_append.1 hj with hj | hj
            · by_cases hjm : j = m.1
              · have : (j, c.w j) = m := by rw [hjm, ← h1]
                rw [this]; exact hgt
              · exact greaterPair_trans hW hgt (h4 j hj hjb hjm)
            · simp only [List.mem_singleton] at hj; exact absurd hj hji
          · rw [if_neg (by simp [hgt])]
            refine Or.inr ⟨h1, h2, h3, fun j hj hjb hji => ?_⟩
            rcases List.mem_append.1 hj with hj | hj
            · exact h4 j hj hjb hji
            · simp only [List.mem_singleton] at hj
              subst hj
              by_contra hcon
              have := greaterPair_total hW (by simpa using hgt) (by simpa using hcon)
              apply hji; rw [← this]
      · rw [if_neg (by simp [hb])]
        rcases hI with ⟨h1, hno⟩ | ⟨h1, h2, h3, h4⟩
        · refine Or.inl ⟨h1, fun j hj => ?_⟩
          rcases List.mem_append.1 hj with hj | hj
          · exact hno j hj
          · simp only [List.mem_singleton] at hj; subst hj; exact hb
        · refine Or.inr ⟨h1, h2, h3, fun j hj hjb hji => ?_⟩
          rcases List.mem_append.1 hj with hj | hj
          · exact h4 j hj hjb hji
          · simp only [List.mem_singleton] at hj; subst hj; exact absurd hjb hb
    · rintro m (⟨_, hno⟩ | ⟨h1, h2, h3, h4⟩)
      · exfalso
        obtain ⟨i, hi, hib⟩ := hwit
        exact hno i (by simpa using hi) hib
      · simp only [Ok_pure, List.nil_append]
        refine ⟨m.1, rfl, h2, h3, fun i hi hib hne => ?_⟩
        rw [show (m.1, c.w m.1) = m by rw [← h1]]
        exact h4 i (by simpa using hi) hib hne
  obtain ⟨r, hr, s, rfl, hh⟩ := this.eq
  exact ⟨s, hr, hh⟩

end CoMMA
