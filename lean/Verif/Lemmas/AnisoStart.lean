import Verif.Lemmas.PoolSteps
/-! # The exact state of the seeds pool after the anisotropic phase -/

set_option linter.unusedSectionVars false

namespace CoMMA

variable {W : Type} [Num W]

theorem exists_atLeast (hW : LawfulLt W) {c : PoolCfg W} {n : Nat} (hc : PoolInput c n) (t : Nat) :
    AtLeast c t (firsts (psetOf c.w ((List.range n).filter (fun i => decide (t ≤ c.nb i))))) := by
  refine ⟨priorityOrdered_psetOf hW hc (by intro i hi; rw [List.mem_filter] at hi; simpa using hi.1), ?_⟩
  intro i
  rw [mem_firsts_psetOf, List.mem_filter]
  simp only [List.mem_range, decide_eq_true_eq]
  constructor
  · rintro ⟨hi, h2⟩
    exact ⟨_, nb_of_some hc hi, h2⟩
  · rintro ⟨b, h, hb⟩
    obtain ⟨h1, h2⟩ := lt_of_bnd hc h
    exact ⟨h1, by omega⟩

/-- what the initializator leaves in an empty queue -/
theorem runInit_exact (hW : LawfulLt W) {c : PoolCfg W} {n : Nat} (hc : PoolInput c n) (hp : PrioritiesOk c)
    {t : Nat} (hwit : ∃ (i : Nat) (b : Nat), c.nBnd[i]? = some b ∧ t ≤ b) :
    ∃ l, AtLeast c t l ∧ runInit c t [] = .ok (if c.onePoint then l.take 1 else l) := by
  have hs := hc.sized
  refine ⟨_, exists_atLeast hW hc t, ?_⟩
  cases ho : c.onePoint with
  | false =>
    simp only [runInit, ho, Bool.false_eq_true, if_false]
    rw [fullInit_eq hs]
    rfl
  | true =>
    obtain ⟨i, b, hib, htb⟩ := hwit
    obtain ⟨hi, hnb⟩ := lt_of_bnd hc hib
    obtain ⟨s, h1, h2, h3, h4⟩ := onePointInit_best hW hc ho hp (t := t) ⟨i, hi, by omega⟩
    simp only [runInit, ho, if_true]
    rw [h1]
    have hl := exists_atLeast hW hc t
    have hsl : s ∈ firsts (psetOf c.w ((List.range n).filter (fun i => decide (t ≤ c.nb i)))) :=
      (hl.2 s).2 ⟨_, nb_of_some hc h2, h3⟩
    revert hl hsl
    generalize firsts (psetOf c.w ((List.range n).filter (fun i => decide (t ≤ c.nb i)))) = l
    intro hl hsl
    cases l with
    | nil => cases hsl
    | cons x r =>
      by_cases hx : x = s
      · subst hx; rfl
      · exfalso
        have hsr : s ∈ r := by
          rcases List.mem_cons.1 hsl with h | h
          · exact absurd h.symm hx
          · exact h
        have hxs : Before c.prio x s := (List.pairwise_cons.1 hl.1).1 s hsr
        obtain ⟨b', hb', htb'⟩ := (hl.2 x).1 (by simp)
        obtain ⟨hxn, hxb⟩ := lt_of_bnd hc hb'
        have h5 := h4 x hxn (by omega) hx
        rw [greaterPair_iff hW] at h5
        exact hxs.asymm hW ⟨_, _, w_of_some hc h2, w_of_some hc hxn, h5⟩

theorem AtLeast.unique (hW : LawfulLt W) {c : PoolCfg W} {m : Nat} {l l' : List Nat} (h : AtLeast c m l)
    (h' : AtLeast c m l') : l = l' :=
  ordered_unique (fun _ _ h1 h2 => h1.asymm hW h2) h.1 h'.1 (fun x => by rw [h.2, h'.2])

/-- queues after cells were pushed one by one into empty queues -/
def queuesOf (c : PoolCfg W) (f : Nat → Nat) (w : List Nat) : List (List Nat) :=
  (List.range 4).map (fun k => w.filter (fun x => decide ((c.nBnd[x]?).map f = some k)))

theorem queuesOf_get {c : PoolCfg W} {f : Nat → Nat} {w : List Nat} {k : Nat} (hk : k < 4) :
    (queuesOf c f w)[k]? = some (w.filter (fun x => decide ((c.nBnd[x]?).map f = some k))) := by
  unfold queuesOf
  rw [List.getElem?_map, List.getElem?_range hk]; rfl

theorem pushOne {c : PoolCfg W} {f : Nat → Nat} {pre : List Nat} {x b : Nat} (hb : c.nBnd[x]? = some b) (hf : f b < 4) :
    pushTo (queuesOf c f pre) (f b) [x] = .ok (queuesOf c f (pre ++ [x])) := by
  unfold pushTo
  rw [rd_ok.2 (queuesOf_get hf), ok_bind, wr_of_lt (by simp [queuesOf]; exact hf)]
  congr 1
  refine List.ext_getElem? (fun k => ?_)
  by_cases hk : k < 4
  · rw [List.getElem?_set, queuesOf_get hk, queuesOf_get hk]
    have hlen : (queuesOf c f pre).length = 4 := by simp [queuesOf]
    by_cases hkf : f b = k
    · subst hkf
      rw [if_pos rfl, if_pos (by rw [hlen]; exact hf), List.filter_append]
      simp [hb]
    · rw [if_neg hkf, List.filter_append]
      simp [hb, hkf]
  · rw [List.getElem?_eq_none (by simp [queuesOf]; omega), List.getElem?_eq_none (by simp [queuesOf]; omega)]

theorem queuesOf_nil (c : PoolCfg W) (f : Nat → Nat) : Pool.new.queues = queuesOf c f [] := rfl

theorem update_near {c : PoolCfg W} {n : Nat} (hc : PoolInput c n) (hk : c.kind = .neighbourhood) {t : Nat}
    {w : List Nat} (hw : ∀ x ∈ w, x < n) :
    Ok ((Pool.new.setTop t).update c w) (fun p => p.top = some t ∧ p.queues = (List.range 4).map (waitOn c t w)) := by
  unfold Pool.update
  simp only [hk, Pool.setTop]
  refine Ok.bind (Ok.foldlM_prefix (I := fun pre qs => qs = queuesOf c (pushLevel (some t)) pre) (queuesOf_nil _ _) ?_) ?_
  · rintro pre x post qs hsplit rfl
    have hx : x < n := hw x (by rw [hsplit]; simp)
    have hb := nb_of_some hc hx
    rw [rd_ok.2 hb, ok_bind]
    have : c.nb x ≤ 3 := hc.le3 _ (List.mem_of_getElem? hb)
    rw [pushOne hb (by simp only [pushLevel]; omega)]
    rfl
  · rintro qs rfl
    refine ⟨rfl, ?_⟩
    simp only [queuesOf]
    refine List.map_congr_left (fun k _ => ?_)
    unfold waitOn
    rw [hk]
    rfl

theorem update_bnd {c : PoolCfg W} {n : Nat} (hc : PoolInput c n) (hk : c.kind = .boundary) {t0 x0 : Nat}
    {w : List Nat} (hw : ∀ x ∈ w, x < n) (hx0 : w.head? = some x0) (ht0 : c.nBnd[x0]? = some t0) :
    Ok ((Pool.new.setTop t0).update c w) (fun p => ∃ t, p.top = some t ∧ (∃ x ∈ w, c.nBnd[x]? = some t) ∧
      (∀ x ∈ w, ∀ b, c.nBnd[x]? = some b → b ≤ t) ∧ ∀ k, p.queues = (List.range 4).map (waitOn c k w)) := by
  unfold Pool.update
  have hne : w ≠ [] := by rintro rfl; cases hx0
  have hx0w : x0 ∈ w := List.mem_of_mem_head? hx0
  simp only [hk, Pool.setTop]
  rw [if_neg (by simpa using hne)]
  refine Ok.bind (Ok.foldlM_prefix (I := fun pre (s : Nat × List (List Nat)) => s.2 = queuesOf c id pre ∧
      (∀ x ∈ pre, ∀ b, c.nBnd[x]? = some b → b ≤ s.1) ∧ (s.1 = 0 ∨ ∃ x ∈ pre, c.nBnd[x]? = some s.1))
      ⟨queuesOf_nil _ _, by simp, Or.inl rfl⟩ ?_) ?_
  · rintro pre x post ⟨mx, qs⟩ hsplit ⟨rfl, h2, h3⟩
    have hx : x < n := hw x (by rw [hsplit]; simp)
    have hb := nb_of_some hc hx
    simp only
    rw [rd_ok.2 hb, ok_bind]
    have : c.nb x ≤ 3 := hc.le3 _ (List.mem_of_getElem? hb)
    have hpush := pushOne (f := id) (pre := pre) hb (by simp only [id]; omega)
    simp only [id] at hpush
    rw [hpush, ok_bind]
    refine ⟨rfl, ?_, ?_⟩
    · intro y hy b' hb'
      rcases List.mem_append.1 hy with hy | hy
      · have := h2 y hy b' hb'
        simp only at this ⊢
        split <;> omega
      · simp only [List.mem_singleton] at hy
        subst hy
        rw [hb] at hb'; cases hb'
        simp only
        split <;> omega
    · simp only
      split
      · exact Or.inr ⟨x, by simp, hb⟩
      · rcases h3 with h3 | ⟨y, hy, hyb⟩
        · exact Or.inl h3
        · exact Or.inr ⟨y, by simp [hy], hyb⟩
  · rintro ⟨mx, qs⟩ ⟨rfl, h2, h3⟩
    simp only at h2 h3
    have ht : raiseTop (some t0) mx = some mx := by
      have := h2 x0 hx0w t0 ht0
      unfold raiseTop
      simp only
      split
      · rfl
      · congr 1; omega
    refine ⟨mx, ht, ?_, h2, fun k => ?_⟩
    · rcases h3 with h3 | h3
      · refine ⟨x0, hx0w, ?_⟩
        have := h2 x0 hx0w t0 ht0
        rw [ht0]; congr 1; omega
      · exact h3
    · simp only [queuesOf]
      refine List.map_congr_left (fun k _ => ?_)
      unfold waitOn
      rw [hk]
      rfl

theorem isEmpty_queues {p : Pool} {c : PoolCfg W} {f : Nat → Nat} {w : List Nat} (hq : p.queues = queuesOf c f w)
    {x b : Nat} (hx : x ∈ w) (hb : c.nBnd[x]? = some b) (hf : f b < 4) : p.isEmpty = .ok false := by
  unfold Pool.isEmpty
  rw [hq]
  rw [rd_ok.2 (queuesOf_get (by omega)), rd_ok.2 (queuesOf_get (by omega)), rd_ok.2 (queuesOf_get (by omega)),
    rd_ok.2 (queuesOf_get (by omega))]
  simp only [ok_bind]
  have hmem : ∀ k, k = f b → x ∈ w.filter (fun x => decide ((c.nBnd[x]?).map f = some k)) := by
    rintro k rfl
    rw [List.mem_filter]; simp [hx, hb]
  have hne : ∀ k, k = f b → (w.filter (fun x => decide ((c.nBnd[x]?).map f = some k))).isEmpty = false := by
    intro k hk
    have := hmem k hk
    cases hfl : w.filter (fun x => decide ((c.nBnd[x]?).map f = some k)) with
    | nil => rw [hfl] at this; cases this
    | cons a r => rfl
  have hcase : f b = 0 ∨ f b = 1 ∨ f b = 2 ∨ f b = 3 := by omega
  rcases hcase with h | h | h | h
  · rw [hne 0 h.symm]; rfl
  · rw [hne 1 h.symm]; simp; rfl
  · rw [hne 2 h.symm]; simp; rfl
  · rw [hne 3 h.symm]; simp; rfl

theorem isEmpty_new : Pool.new.isEmpty = .ok true := rfl

/-- the highest level of the free cells -/
theorem highest_three {c : PoolCfg W} {n : Nat} (hc : PoolInput c n) {agg : List Bool} (ha : agg.length = n)
    {x : Nat} (hx : x < n) (hxa : agg[x]? = some false) :
    ∃ (m i : Nat), highest c.nBnd agg 3 = .ok (some m) ∧ c.nBnd[i]? = some m ∧ agg[i]? = some false ∧
      ∀ (j : Nat) b, c.nBnd[j]? = some b → agg[j]? = some false → b ≤ m := by
  obtain ⟨r, hr, h1, h2⟩ := (highest_exact hc ha 3).eq
  cases r with
  | none =>
    have := h1 rfl x _ (nb_of_some hc hx)
    rw [hxa] at this; cases this
  | some m =>
    rcases h2 m rfl with ⟨i, hi, hia, h3, _⟩ | ⟨⟨i, hi, hia⟩, _, hall⟩
    · refine ⟨m, i, hr, hi, hia, fun j b hb _ => ?_⟩
      have := hc.le3 b (List.mem_of_getElem? hb)
      omega
    · exact ⟨m, i, hr, hi, hia, hall⟩

/-- end of `update_seeds_pool`: initialisation, if it is needed -/
def finishAniso (c : PoolCfg W) (agg : List Bool) (p : Pool) : M Pool := do
  let r ← p.needInit c agg
  if r.1 then r.2.initialize c else pure r.2

theorem finishAniso_near {c : PoolCfg W} {n : Nat} (hc : PoolInput c n) (hk : c.kind = .neighbourhood) {agg : List Bool}
    {w : List Nat} {p : Pool} {t x : Nat} (hx : x ∈ w) (hxn : x < n) (ht : p.top = some t)
    (hq : p.queues = (List.range 4).map (waitOn c t w)) : finishAniso c agg p = .ok p := by
  have hb := nb_of_some hc hxn
  have h3 : c.nb x ≤ 3 := hc.le3 _ (List.mem_of_getElem? hb)
  have he : p.isEmpty = .ok false := isEmpty_queues (f := seedLevel c.kind (some t)) (w := w) hq hx hb (by
    rw [hk]; simp only [seedLevel]; omega)
  unfold finishAniso Pool.needInit
  rw [he, ok_bind, hk]
  simp only [ht]
  rfl

theorem finishAniso_bnd (hW : LawfulLt W) {c : PoolCfg W} {n : Nat} (hc : PoolInput c n) (hp : PrioritiesOk c)
    (hk : c.kind = .boundary) {agg : List Bool} (ha : agg.length = n)
    {w : List Nat} {p : Pool} {t x : Nat} (hx : x ∈ w) (hw : ∀ y ∈ w, y < n ∧ agg[y]? = some false)
    (ht : p.top = some t) (hxt : c.nBnd[x]? = some t) (hmax : ∀ y ∈ w, ∀ b, c.nBnd[y]? = some b → b ≤ t)
    (hq : ∀ k, p.queues = (List.range 4).map (waitOn c k w)) :
    Ok (finishAniso c agg p) (PoolAfterLines c agg w) := by
  have hb := nb_of_some hc (hw x hx).1
  have h3 : c.nb x ≤ 3 := hc.le3 _ (List.mem_of_getElem? hb)
  have he : p.isEmpty = .ok false := isEmpty_queues (f := seedLevel c.kind (some t)) (w := w) (hq t) hx hb (by
    rw [hk]; simp only [seedLevel]; omega)
  obtain ⟨m, i, hm, him, hia, hall⟩ := highest_three hc ha (hw x hx).1 (hw x hx).2
  have hm3 : m ≤ 3 := hc.le3 _ (List.mem_of_getElem? him)
  unfold finishAniso Pool.needInit
  rw [he, ok_bind, hk]
  simp only [ht, Bool.false_eq_true, if_false, hm, ok_bind]
  by_cases htm : t < m
  · simp only [if_pos htm, pure_bind, if_true]
    unfold Pool.initialize
    simp only
    unfold Pool.initAt
    have hqm : p.queues[m]? = some [] := by
      rw [hq m, List.getElem?_map, List.getElem?_range (by omega)]
      simp only [Option.map_some, Option.some.injEq]
      unfold waitOn
      rw [List.filter_eq_nil_iff]
      intro y hy hcon
      have hby := nb_of_some hc (hw y hy).1
      rw [hby, hk] at hcon
      simp only [Option.map_some, seedLevel, decide_eq_true_eq, Option.some.injEq] at hcon
      have := hmax y hy _ hby
      omega
    obtain ⟨l, hl, hrun⟩ := runInit_exact hW hc hp (t := m) ⟨i, m, him, Nat.le_refl _⟩
    rw [rd_ok.2 hqm, ok_bind, hrun, ok_bind, wr_of_lt (by rw [hq m]; simp; omega), ok_bind]
    refine .higher hk (by rintro rfl; cases hx) him hia hall (fun y hy b hyb => ?_) hl rfl ?_
    · have := hmax y hy b hyb
      omega
    · simp only
      rw [hq m]
  · simp only [if_neg htm, pure_bind, Bool.false_eq_true, if_false]
    refine .level hk hx hxt (fun j b hj hja => ?_) ht (hq t)
    have := hall j b hj hja
    omega

theorem PoolAfterLines.unique (hW : LawfulLt W) {c : PoolCfg W} {agg : List Bool} {w : List Nat} {p p' : Pool}
    (hw : ∀ x ∈ w, agg[x]? = some false) (hst : ∀ {p p' : Pool}, PoolStarted c p → PoolStarted c p' → p = p')
    (h : PoolAfterLines c agg w p) (h' : PoolAfterLines c agg w p') : p = p' := by
  have hpool : ∀ {p p' : Pool}, p.top = p'.top → p.queues = p'.queues → p = p' := by
    rintro ⟨q, t⟩ ⟨q', t'⟩ h1 h2
    cases h1; cases h2; rfl
  cases h with
  | fresh h1 h2 =>
    subst h1
    cases h' with
    | fresh _ h2' => exact hst h2 h2'
    | near _ h2' => cases h2'
    | level _ h2' => cases h2'
    | higher _ h2' => exact absurd rfl h2'
  | near h1 h2 h3 h4 h5 =>
    cases h' with
    | fresh h1' _ => rw [h1'] at h2; cases h2
    | near _ h2' h3' h4' h5' =>
      rw [h2] at h2'; cases h2'
      rw [h3] at h3'; cases h3'
      exact hpool (h4.trans h4'.symm) (h5.trans h5'.symm)
    | level h1' => rw [h1] at h1'; cases h1'
    | higher h1' => rw [h1] at h1'; cases h1'
  | level h1 h2 h3 h4 h5 h6 =>
    cases h' with
    | fresh h1' _ => rw [h1'] at h2; cases h2
    | near h1' => rw [h1] at h1'; cases h1'
    | level _ h2' h3' h4' h5' h6' =>
      have e1 := h4 _ _ h3' (hw _ h2')
      have e2 := h4' _ _ h3 (hw _ h2)
      have := Nat.le_antisymm e1 e2
      subst this
      exact hpool (h5.trans h5'.symm) (h6.trans h6'.symm)
    | higher _ _ h3' h4' _ h6' =>
      have e1 := h4 _ _ h3' h4'
      have e2 := h6' _ h2 _ h3
      omega
  | higher h1 h2 h3 h4 h5 h6 h7 h8 h9 =>
    cases h' with
    | fresh h1' _ => exact absurd h1' h2
    | near h1' => rw [h1] at h1'; cases h1'
    | level _ h2' h3' h4' =>
      have e1 := h4' _ _ h3 h4
      have e2 := h6 _ h2' _ h3'
      omega
    | higher _ _ h3' h4' h5' _ h7' h8' h9' =>
      have := Nat.le_antisymm (h5' _ _ h3 h4) (h5 _ _ h3' h4')
      subst this
      have := h7.unique hW h7'
      subst this
      exact hpool (h8.trans h8'.symm) (h9.trans h9'.symm)

end CoMMA
