import Verif.Props.Pool
import Verif.Lemmas.PoolOrder
/-! # C08, C25, C33: order of the seeds -/

set_option linter.unusedSectionVars false

namespace CoMMA

variable {W : Type} [Num W]

/-- **C08** (initialisation) A fresh pool with full initialisation holds exactly the
cells with the largest number of boundary faces, by decreasing priority, then
increasing index, and nothing else. -/
theorem C08_full_initialisation (hW : LawfulLt W) {c : PoolCfg W} {n : Nat} (hc : PoolInput c n)
    (hf : c.onePoint = false) :
    ∃ p t l, Pool.new.initialize c = .ok p ∧ p.top = some t ∧ t ∈ c.nBnd ∧ (∀ b ∈ c.nBnd, b ≤ t) ∧
      p.queues = ([[], [], [], []] : List (List Nat)).set t l ∧
      PriorityOrdered c.prio l ∧ (∀ i, i ∈ l ↔ c.nBnd[i]? = some t) := by
  have hs := hc.sized
  have hne : c.nBnd ≠ [] := by
    intro h0; have := hc.bnd; rw [h0] at this; have := hc.pos; simp at *; omega
  obtain ⟨t, ht, htm, htx⟩ := (maxElem_spec hne).eq
  have ht3 := hc.le3 t htm
  have htl : t < Pool.new.queues.length := by simp [Pool.new]; omega
  have hq : Pool.new.queues[t]? = some [] := by
    have : t = 0 ∨ t = 1 ∨ t = 2 ∨ t = 3 := by omega
    rcases this with rfl | rfl | rfl | rfl <;> rfl
  refine ⟨⟨Pool.new.queues.set t (firsts (psetOf c.w ((List.range n).filter (fun i => decide (t ≤ c.nb i))))), some t⟩,
    t, _, ?_, rfl, htm, htx, rfl,
    priorityOrdered_psetOf hW hc (by intro i hi; rw [List.mem_filter] at hi; simpa using hi.1), ?_⟩
  · unfold Pool.initialize
    simp only [Pool.new, ht, ok_bind]
    show Pool.initAt c Pool.new t = _
    unfold Pool.initAt
    rw [rd_ok.2 hq]
    simp only [ok_bind, runInit, hf]
    rw [show (if false = true then onePointInit c t [] else fullInit c t []) = fullInit c t [] from rfl, fullInit_eq hs]
    simp only [ok_bind, List.nil_append]
    rw [wr_of_lt htl]
    rfl
  · intro i
    rw [mem_firsts_psetOf, List.mem_filter]
    simp only [List.mem_range, decide_eq_true_eq]
    constructor
    · rintro ⟨hi, h2⟩
      have := htx _ (List.mem_of_getElem? (nb_of_some hc hi))
      rw [nb_of_some hc hi, show c.nb i = t by omega]
    · intro h
      obtain ⟨h1, h2⟩ := lt_of_bnd hc h
      exact ⟨h1, by omega⟩

/-- **C08** (rebuild) Rebuilding a level appends exactly the free cells with that number of
boundary faces, by decreasing priority, then increasing index. -/
theorem C08_rebuild (hW : LawfulLt W) {c : PoolCfg W} {n : Nat} (hc : PoolInput c n) {agg : List Bool}
    (ha : agg.length = n) {p : Pool} {t : Nat} {q : List Nat} (hq : p.queues[t]? = some q) :
    ∃ l, buildQueue c agg t p = .ok { p with queues := p.queues.set t (q ++ l) } ∧
      PriorityOrdered c.prio l ∧
      (∀ i : Nat, i ∈ l ↔ c.nBnd[i]? = some t ∧ agg[i]? = some false) := by
  refine ⟨_, buildQueue_eq hc.sized ha t p hq, priorityOrdered_psetOf hW hc ?_, ?_⟩
  · intro i hi; rw [List.mem_filter] at hi; simpa using hi.1
  · intro i
    rw [mem_firsts_psetOf, List.mem_filter]
    simp only [List.mem_range, Bool.and_eq_true, Bool.not_eq_true', decide_eq_true_eq]
    rw [isAgg_false_iff]
    constructor
    · rintro ⟨hi, h2, h3⟩
      exact ⟨by rw [nb_of_some hc hi, h3], h2⟩
    · rintro ⟨h1, h2⟩
      obtain ⟨h3, h4⟩ := lt_of_bnd hc h1
      exact ⟨h3, h2, h4⟩

/-- **C08** (ordered update) Whatever the iteration order `hh` of the unordered set of new
seeds, an ordered update appends to each queue exactly the new seeds that belong to
that level, those with more boundary faces first, then by decreasing priority, then by
increasing index. -/
theorem C08_ordered_update (hW : LawfulLt W) {c : PoolCfg W} {n : Nat} (hc : PoolInput c n) (hh : Hash)
    {p : Pool} (hp : p.queues.length = 4) {seeds : NSet} (hs : ∀ s ∈ seeds, s < n) :
    ∃ p', p.orderUpdate c hh seeds = .ok p' ∧ ∀ k q, p.queues[k]? = some q →
      ∃ l, p'.queues[k]? = some (q ++ l) ∧
        (∀ s, s ∈ l ↔ s ∈ seeds ∧ ∃ b, c.nBnd[s]? = some b ∧ seedLevel c.kind p.top b = k) ∧
        l.Pairwise (fun x y => ∃ bx bny, c.nBnd[x]? = some bx ∧ c.nBnd[y]? = some bny ∧
          (bny < bx ∨ (bx = bny ∧ Before c.prio x y))) := by
  obtain ⟨p', h1, h2, _⟩ := orderUpdate_queues hW hc.sized hh hp hs (seedLevel c.kind p.top) (by
    funext b
    unfold seedLevel pushLevel
    cases c.kind <;> cases p.top <;> rfl)
  refine ⟨p', h1, fun k q hq => ?_⟩
  obtain ⟨l, h3, h4, h5⟩ := h2 k q hq
  refine ⟨l, h3, fun s => ?_, ?_⟩
  · rw [h4 s]
    constructor
    · rintro ⟨h6, h7⟩
      exact ⟨h6, c.nb s, nb_of_some hc (hs s h6), h7⟩
    · rintro ⟨h6, b, h7, h8⟩
      refine ⟨h6, ?_⟩
      rw [(lt_of_bnd hc h7).2]; exact h8
  · refine h5.imp_of_mem (fun {x y} hx hy hxy => ?_)
    have hxn := hs x ((h4 x).1 hx).1
    have hyn := hs y ((h4 y).1 hy).1
    refine ⟨c.nb x, c.nb y, nb_of_some hc hxn, nb_of_some hc hyn, ?_⟩
    rcases hxy with h | ⟨h, h'⟩
    · exact Or.inl h
    · exact Or.inr ⟨h, c.w x, c.w y, w_of_some hc hxn, w_of_some hc hyn, h'⟩

/-- the hypotheses of C08 hold for a pool with ties -/
example : PoolInput (exPool .neighbourhood false) 4 ∧
    ((⟨[[], [], [], []], some 1⟩ : Pool).orderUpdate (exPool .neighbourhood false) Hash.rev (NSet.ofList [3, 1, 2, 0])
      = .ok ⟨[[1, 3], [2, 0], [], []], some 1⟩) :=
  ⟨exPool_input _ _, by decide +kernel⟩

example : Pool.new.initialize (exPool .boundary false) = .ok ⟨[[], [], [], [2]], some 3⟩ := by decide +kernel

/-- **C25** With totally ordered weights both comparators are strict total orders that
compare the weight first and then the index, the "less" one being the converse. -/
theorem C25_comparators (hW : LawfulLt W) :
    (∀ l r : Nat × W, greaterPair l r = true ↔ Num.lt r.2 l.2 = true ∨ (l.2 = r.2 ∧ l.1 < r.1)) ∧
    (∀ l r : Nat × W, lessPair l r = true ↔ Num.lt l.2 r.2 = true ∨ (l.2 = r.2 ∧ r.1 < l.1)) ∧
    (∀ a : Nat × W, greaterPair a a = false ∧ lessPair a a = false) ∧
    (∀ a b c : Nat × W, greaterPair a b = true → greaterPair b c = true → greaterPair a c = true) ∧
    (∀ a b c : Nat × W, lessPair a b = true → lessPair b c = true → lessPair a c = true) ∧
    (∀ a b : Nat × W, a ≠ b → (greaterPair a b = true ∨ greaterPair b a = true) ∧
      (lessPair a b = true ∨ lessPair b a = true)) := by
  refine ⟨fun l r => greaterPair_iff hW, fun l r => lessPair_iff hW,
    fun a => ⟨greaterPair_irrefl hW a, greaterPair_irrefl hW a⟩,
    fun a b c => greaterPair_trans hW, fun a b c h1 h2 => greaterPair_trans hW (a := c) h2 h1, fun a b hab => ?_⟩
  have : greaterPair a b = true ∨ greaterPair b a = true := by
    by_contra hc
    simp only [not_or, Bool.not_eq_true] at hc
    exact hab (greaterPair_total hW hc.1 hc.2)
  exact ⟨this, this.symm⟩

/-- **C25** The third comparator looks at the weights only, and is a strict weak order. -/
theorem C25_second (hW : LawfulLt W) :
    (∀ l r : Nat × W, secondLess l r = true ↔ Num.lt l.2 r.2 = true) ∧ (∀ a : Nat × W, secondLess a a = false) ∧
    (∀ a b c : Nat × W, secondLess a b = true → secondLess b c = true → secondLess a c = true) ∧
    (∀ a b : Nat × W, secondLess a b = false ∧ secondLess b a = false ↔ a.2 = b.2) := by
  refine ⟨fun _ _ => Iff.rfl, fun a => hW.irrefl _, fun a b c h1 h2 => hW.trans _ _ _ h1 h2, fun a b => ⟨fun h => hW.total _ _ h.1 h.2, ?_⟩⟩
  intro h
  unfold secondLess
  rw [h]
  exact ⟨hW.irrefl _, hW.irrefl _⟩

/-- **C25** (sets) Inserting pairs one after the other in a set ordered by the "greater"
comparator gives each pair once, in the order of the comparator. -/
theorem C25_sets (hW : LawfulLt W) (l : List (Nat × W)) :
    (∀ p, p ∈ l.foldl (fun s x => pinsert x s) [] ↔ p ∈ l) ∧
    (l.foldl (fun s x => pinsert x s) []).Nodup ∧
    (l.foldl (fun s x => pinsert x s) []).Pairwise (fun a b => greaterPair a b = true) := by
  have hsort : (l.foldl (fun s x => pinsert x s) []).Pairwise (fun a b => greaterPair a b = true) := by
    induction l using List.reverseRecOn with
    | nil => simp
    | append_singleton l x ih => rw [List.foldl_append]; exact pinsert_sorted hW ih
  refine ⟨fun p => ?_, hsort.imp (fun {a b} h he => ?_), hsort⟩
  · clear hsort
    induction l using List.reverseRecOn with
    | nil => simp
    | append_singleton l x ih =>
      rw [List.foldl_append]
      simp only [List.foldl_cons, List.foldl_nil]
      rw [mem_pinsert hW, ih]
      simp only [List.mem_append, List.mem_singleton]
      tauto
  · subst he; rw [greaterPair_irrefl hW] at h; cases h

/-- the ordering hypothesis of C08 and C25 is met by the integers -/
example : LawfulLt Int ∧ greaterPair ((3, 5) : Nat × Int) (4, 5) = true := ⟨exLawful, by decide⟩

/-- **C33** (partial: priorities must not be below the smallest positive number)
One-point initialisation of a fresh pool queues one cell: it has the largest number of
boundary faces and comes first (priority, then index) among the cells that do. -/
theorem C33_one_point_partial (hW : LawfulLt W) {c : PoolCfg W} {n : Nat} (hc : PoolInput c n)
    (ho : c.onePoint = true) (hp : PrioritiesOk c) :
    ∃ p t s, Pool.new.initialize c = .ok p ∧ p.top = some t ∧ (∀ b ∈ c.nBnd, b ≤ t) ∧
      p.queues = ([[], [], [], []] : List (List Nat)).set t [s] ∧ c.nBnd[s]? = some t ∧
      ∀ i : Nat, c.nBnd[i]? = some t → i ≠ s → Before c.prio s i := by
  have hs := hc.sized
  have hne : c.nBnd ≠ [] := by
    intro h0; have := hc.bnd; rw [h0] at this; have := hc.pos; simp at *; omega
  obtain ⟨t, ht, htm, htx⟩ := (maxElem_spec hne).eq
  have ht3 := hc.le3 t htm
  have htl : t < Pool.new.queues.length := by simp [Pool.new]; omega
  have hq : Pool.new.queues[t]? = some [] := by
    have : t = 0 ∨ t = 1 ∨ t = 2 ∨ t = 3 := by omega
    rcases this with rfl | rfl | rfl | rfl <;> rfl
  have hloop := onePointInit_best hW hc ho hp (t := t) (by
    obtain ⟨i, hi, hib⟩ := (mem_nBnd_iff hs).1 htm
    exact ⟨i, hi, by omega⟩)
  obtain ⟨s, h1, h2, h3, h4⟩ := hloop
  refine ⟨⟨Pool.new.queues.set t [s], some t⟩, t, s, ?_, rfl, htx, rfl, ?_, ?_⟩
  · unfold Pool.initialize
    simp only [Pool.new, ht, ok_bind]
    show Pool.initAt c Pool.new t = _
    unfold Pool.initAt
    rw [rd_ok.2 hq]
    simp only [ok_bind, runInit, ho, if_true]
    rw [h1]
    simp only [ok_bind]
    rw [wr_of_lt htl]
    rfl
  · rw [nb_of_some hc h2]
    have := htx _ (List.mem_of_getElem? (nb_of_some hc h2))
    rw [show c.nb s = t by omega]
  · intro i hi hne
    obtain ⟨h5, h6⟩ := lt_of_bnd hc hi
    have := h4 i h5 (by omega) hne
    rw [greaterPair_iff hW] at this
    exact ⟨_, _, w_of_some hc h2, w_of_some hc h5, this⟩

/-- the hypotheses of C33 are met -/
example : PoolInput (exPool .boundary true) 4 ∧ PrioritiesOk (exPool .boundary true) :=
  ⟨exPool_input _ _, exPool_prio _ _⟩

/-- **C33 fails without the restriction**: with a priority of 0 the initialisation queues
an index that is no cell and the first choice of a seed reads out of bounds. -/
theorem C33_counterexample : ∃ c : PoolCfg Int, PoolInput c 1 ∧ c.onePoint = true ∧ c.prio = [0] ∧
    ∃ p, Pool.new.initialize c = .ok p ∧ p.choose c [false] = .error .ub :=
  ⟨⟨.boundary, true, [0], [0], 1000⟩, ⟨by decide, rfl, rfl, by simp⟩, rfl, rfl,
    ⟨[[1000], [], [], []], some 0⟩, rfl, rfl⟩

end CoMMA
