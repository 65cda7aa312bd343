import Verif.Props.RowLevels
/-! # C108: rows of cells of which one is left, with correction -/

namespace CoMMA

variable {W : Type} [Num W]
variable {ext : Nat → Nat} {n : Nat} {pos : Nat → Nat → Nat}

/-- `m` consecutive cells of a row with the same coarse index -/
theorem run_count {R : Nat → Nat → Prop} (G : IsGrid 1 ext n pos R) {f : List Nat} {k a m : Nat} (hf : f.length = n) (ha : a + m ≤ ext 0)
    (h : ∀ x < n, a ≤ pos x 0 → pos x 0 < a + m → f[x]? = some k) : m ≤ f.count k := by
  have hget : ∀ i, i < m → ∃ c, c < n ∧ pos c 0 = a + i := fun i hi => Row.get G (by omega)
  choose! cell hcell using hget
  rw [count_eq_filter]
  have := Finset.card_le_card_of_injOn (s := Finset.range m)
    (t := ((List.range f.length).filter (fun i => decide (f[i]? = some k))).toFinset) cell (by
    intro i hi
    simp only [Finset.coe_range, Set.mem_Iio] at hi
    have := hcell i hi
    rw [Finset.mem_coe, List.mem_toFinset, List.mem_filter, List.mem_range, decide_eq_true_eq]
    exact ⟨by omega, h _ this.1 (by omega) (by omega)⟩) (by
    intro i hi j hj he
    simp only [Finset.coe_range, Set.mem_Iio] at hi hj
    have h1 := (hcell i hi).2
    have h2 := (hcell j hj).2
    rw [he] at h1
    omega)
  rw [Finset.card_range] at this
  exact Nat.le_trans this (List.toFinset_card_le _)

/-- the group of a place other than the one left has `m` places -/
theorem rowGroup_run {m t L p : Nat} (hm : 0 < m) (hL : L % m = 1 % m) (hm1 : 1 < m) (ht : t * m + 1 ≤ L) (hp : p < L) (hne : p ≠ t * m) :
    ∃ a, a + m ≤ L ∧ ∀ q, a ≤ q → q < a + m → rowGroup m 1 t q = rowGroup m 1 t p := by
  by_cases h : p < t * m
  · refine ⟨p / m * m, ?_, ?_⟩
    · have h1 : p / m < t := (Nat.div_lt_iff_lt_mul hm).2 h
      have h2 : (p / m + 1) * m ≤ t * m := Nat.mul_le_mul_right _ h1
      rw [Nat.add_mul] at h2
      omega
    · intro q h1 h2
      have h3 : q / m = p / m := by
        obtain ⟨d, rfl⟩ := Nat.exists_eq_add_of_le h1
        rw [Nat.add_comm, Nat.add_mul_div_right _ _ hm, Nat.div_eq_of_lt (by omega)]
        omega
      have h4 : q < t * m := by
        rw [← Nat.div_lt_iff_lt_mul hm, h3, Nat.div_lt_iff_lt_mul hm]
        exact h
      unfold rowGroup
      rw [if_pos h4, if_pos h, h3]
  · obtain ⟨d, rfl⟩ : ∃ d, p = t * m + 1 + d := ⟨p - (t * m + 1), by omega⟩
    obtain ⟨e, rfl⟩ := Nat.exists_eq_add_of_le ht
    have he : e % m = 0 := by
      have h5 : (t * m + 1 + e) % m = (1 + e) % m := by
        rw [show t * m + 1 + e = (1 + e) + t * m by omega, Nat.add_mul_mod_self_right]
      rw [h5] at hL
      rw [Nat.mod_eq_of_lt hm1] at hL
      have h6 := Nat.div_add_mod (1 + e) m
      rw [hL] at h6
      rw [show e = m * ((1 + e) / m) by omega]
      exact Nat.mul_mod_right _ _
    refine ⟨t * m + 1 + d / m * m, ?_, ?_⟩
    · have h1 : d / m < e / m := by
        rw [Nat.div_lt_iff_lt_mul hm, Nat.div_mul_cancel (Nat.dvd_of_mod_eq_zero he)]
        omega
      have h2 : (d / m + 1) * m ≤ e / m * m := Nat.mul_le_mul_right _ h1
      rw [Nat.div_mul_cancel (Nat.dvd_of_mod_eq_zero he), Nat.add_mul] at h2
      omega
    · intro q h1 h2
      obtain ⟨c, rfl⟩ : ∃ c, q = t * m + 1 + c := ⟨q - (t * m + 1), by omega⟩
      have h3 : c / m = d / m := by
        obtain ⟨d', hd'⟩ := Nat.exists_eq_add_of_le (show d / m * m ≤ c by omega)
        rw [hd', Nat.add_comm, Nat.add_mul_div_right _ _ hm, Nat.div_eq_of_lt (by omega)]
        omega
      unfold rowGroup
      rw [if_neg (by omega), if_neg (by omega), if_neg (by omega), if_neg (by omega),
        show t * m + 1 + c - (t * m + 1) = c by omega, show t * m + 1 + d - (t * m + 1) = d by omega, h3]

/-- only the place left has group `t` -/
theorem rowGroup_left {m t p : Nat} (hm : 0 < m) : rowGroup m 1 t p = t ↔ p = t * m := by
  unfold rowGroup
  by_cases h : p < t * m
  · have h1 : p / m < t := (Nat.div_lt_iff_lt_mul hm).2 h
    rw [if_pos h]
    omega
  · rw [if_neg h]
    generalize (p - (t * m + 1)) / m = w
    split_ifs <;> omega

/-- the place left joined to the group before it -/
theorem rowGroup_before {m t p : Nat} (hm : 0 < m) (ht : 0 < t) :
    rowGroup m (m + 1) (t - 1) p = if rowGroup m 1 t p < t then rowGroup m 1 t p else rowGroup m 1 t p - 1 := by
  obtain ⟨s, rfl⟩ : ∃ s, t = s + 1 := ⟨t - 1, by omega⟩
  have hs : (s + 1) * m = s * m + m := by rw [Nat.add_mul, Nat.one_mul]
  unfold rowGroup
  rw [show s + 1 - 1 = s by omega, hs, show s * m + (m + 1) = s * m + m + 1 by omega]
  by_cases h1 : p < s * m
  · have h2 : p / m < s := (Nat.div_lt_iff_lt_mul hm).2 h1
    rw [if_pos h1, if_pos (show p < s * m + m by omega), if_pos (by omega)]
  · rw [if_neg h1]
    by_cases h2 : p < s * m + m
    · have h3 : p / m = s := by
        obtain ⟨d, rfl⟩ := Nat.exists_eq_add_of_le (Nat.not_lt.1 h1)
        rw [Nat.add_comm, Nat.add_mul_div_right _ _ hm, Nat.div_eq_of_lt (by omega)]
        omega
      rw [if_pos (by omega), if_pos h2, if_pos (by omega), h3]
    · rw [if_neg h2]
      generalize (p - (s * m + m + 1)) / m = w
      split_ifs <;> omega

/-- the place left joined to the group after it -/
theorem rowGroup_after {m t p : Nat} (hm : 0 < m) :
    rowGroup m (m + 1) t p = if rowGroup m 1 t p ≤ t then rowGroup m 1 t p else rowGroup m 1 t p - 1 := by
  unfold rowGroup
  by_cases h1 : p < t * m
  · have h2 : p / m < t := (Nat.div_lt_iff_lt_mul hm).2 h1
    rw [if_pos h1, if_pos h1, if_pos (by omega)]
  · rw [if_neg h1, if_neg h1]
    by_cases h2 : p < t * m + 1
    · rw [if_pos h2, if_pos (show p < t * m + (m + 1) by omega), if_pos (by omega)]
    · rw [if_neg h2]
      by_cases h3 : p < t * m + (m + 1)
      · have h4 : (p - (t * m + 1)) / m = 0 := Nat.div_eq_of_lt (by omega)
        rw [if_pos h3, h4, if_neg (by omega)]
        omega
      · rw [if_neg h3, show p - (t * m + 1) = (p - (t * m + (m + 1))) + m by omega, Nat.add_div_right _ hm]
        generalize (p - (t * m + (m + 1))) / m = w
        rw [if_neg (by omega)]
        omega

/-- indices below `k` other than `k0` -/
theorem range_but (k k0 : Nat) : ((List.range k).filter (fun j => decide (j ∉ [k0]))).length = if k ≤ k0 then k else k - 1 := by
  induction k with
  | zero => simp
  | succ k ih =>
    rw [List.range_succ, List.filter_append, List.length_append, ih]
    by_cases h : k = k0
    · subst h
      simp
    · rw [List.filter_singleton]
      simp only [List.mem_singleton, h, not_false_eq_true, decide_true, cond_true, List.length_singleton]
      split_ifs <;> omega

/-- **C108** A mesh whose connectivity is that of a row of cells, the number of cells being one more than a multiple of `max_card`
(and not one), is coarsened with correction into groups of `max_card` consecutive cells counted from both ends, except for one group
with one more cell: whatever the dimension given, the numbering of the cells, weights, volumes, centers, priorities, order of the
seeds, neighbourhood, number of iterations, aspect ratio, `goal_card`, `min_card` and threshold. -/
theorem C108_rows {P : Platform} {a : Args W} {o : Outs} {m : Nat} (hm : ValidMesh a n) (hp : ValidParams P a) (hW : LawfulLt W)
    (hu : UniqueRows a.rowPtr a.colInd) (hoff : WithoutLines a o) (hmax : a.maxCard = m) (hcor : a.correction = true)
    (hone : n % m = 1) (hn : 1 < n)
    (hg : IsGrid 1 ext n pos (Adj a.rowPtr a.colInd))
    (hb : ∀ c < n, a.nBnd[c]? = some (sidesOut 1 ext (pos c))) :
    ∃ f : List Nat, agglomerateOneLevel P a o = (⟨f, o.linesIdx, o.lines⟩, .ok ()) ∧ f.length = n ∧ Contiguous f ∧
      ∃ t, t * m + (m + 1) ≤ n ∧
        ∀ i < n, ∀ j < n, (f[i]? = f[j]? ↔ rowGroup m (m + 1) t (pos i 0) = rowGroup m (m + 1) t (pos j 0)) := by
  have hl : NoSelfLoop a.rowPtr a.colInd := fun i h => hg.noTriangle h h h
  have hL := row_length hg
  have i5 := hp.goalCard
  have i7 := hp.minCard
  have i8 := hp.maxCard
  have i9 := hp.thresh
  have hm1 : 1 < m := by omega
  have hm0 : 0 < m := by omega
  obtain ⟨f0, h1, h2, ⟨N, hN⟩, ⟨t, ht, hgr⟩, _⟩ := row_groups (P := P) (a := { a with correction := false }) (o := o) { hm with }
    { hp with } hW hu hoff hmax rfl hg hb
  rw [hone] at ht hgr
  obtain ⟨f, f0', h3, h4, N', f1, D, hN', htr, hren⟩ := C56_isotropic (P := P) (o := o) hm hp hcor hoff hu hl
  rw [h1] at h4
  cases h4
  obtain rfl : N = N' := by
    apply Nat.le_antisymm
    · exact Nat.le_of_not_lt fun h => by
        have h5 := (hN N').2 h
        have h6 := (hN' N').1 h5
        omega
    · exact Nat.le_of_not_lt fun h => by
        have h5 := (hN' N).2 h
        have h6 := (hN N).1 h5
        omega
  -- the cell left
  obtain ⟨x0, hx0, hpx⟩ := Row.get hg (v := t * m) (by omega)
  have hsome : ∀ i < n, ∃ k, f0[i]? = some k := fun i hi => ⟨_, List.getElem?_eq_getElem (by omega : i < f0.length)⟩
  obtain ⟨k0, hk0⟩ := hsome x0 hx0
  have honly : ∀ x : Nat, f0[x]? = some k0 ↔ x = x0 := by
    intro x
    constructor
    · intro hx
      have hxn : x < n := by rw [← h2]; exact (List.getElem?_eq_some_iff.1 hx).1
      have h5 := (hgr x hxn x0 hx0).1 (by rw [hx, hk0])
      rw [hpx, (rowGroup_left hm0).2 rfl] at h5
      exact Row.inj hg hxn hx0 (by rw [hpx]; exact (rowGroup_left hm0).1 h5)
    · rintro rfl
      exact hk0
  have hcount0 : f0.count k0 = 1 := by
    rw [count_eq_filter]
    have : (List.range f0.length).filter (fun i => decide (f0[i]? = some k0)) = [x0] := by
      have hnd : ((List.range f0.length).filter (fun i => decide (f0[i]? = some k0))).Nodup := List.nodup_range.filter _
      have hmem : ∀ x, x ∈ (List.range f0.length).filter (fun i => decide (f0[i]? = some k0)) ↔ x ∈ [x0] := by
        intro x
        rw [List.mem_filter, List.mem_range, decide_eq_true_eq, honly, List.mem_singleton]
        constructor
        · exact fun h => h.2
        · rintro rfl
          exact ⟨by omega, rfl⟩
      exact List.perm_singleton.1 ((List.perm_ext_iff_of_nodup hnd (List.nodup_singleton _)).2 hmem)
    rw [this]
    rfl
  have hcount : ∀ k < N, k ≠ k0 → m ≤ f0.count k := by
    intro k hk hne
    obtain ⟨i, hi⟩ := List.mem_iff_getElem?.1 ((hN k).2 hk)
    have hin : i < n := by rw [← h2]; exact (List.getElem?_eq_some_iff.1 hi).1
    have hpi := hg.range i hin 0 (by omega)
    obtain ⟨b, hb1, hb2⟩ := rowGroup_run (m := m) (t := t) (L := n) (p := pos i 0) hm0 (by rw [hone, Nat.mod_eq_of_lt hm1]) hm1 ht
      (by omega) (by
        intro e
        have := Row.inj hg hin hx0 (by rw [e, hpx])
        rw [this, hk0] at hi
        exact hne (Option.some.inj hi).symm)
    refine run_count hg h2 (a := b) (by omega) (fun x hx h5 h6 => ?_)
    rw [(hgr x hx i hin).2 (hb2 _ h5 h6), hi]
  have hk0N : k0 < N := (hN k0).1 (List.mem_of_getElem? hk0)
  have hsmall : smallsOf f0 0 (sizeLimit a) N = [k0] := by
    have hnd : (smallsOf f0 0 (sizeLimit a) N).Nodup := List.nodup_range.filter _
    have hmem : ∀ x, x ∈ smallsOf f0 0 (sizeLimit a) N ↔ x ∈ [k0] := by
      intro k
      unfold smallsOf
      rw [List.mem_filter, List.mem_range, List.mem_singleton]
      simp only [Nat.zero_le, decide_true, Bool.true_and, decide_eq_true_eq]
      unfold sizeLimit
      constructor
      · rintro ⟨h5, h6⟩
        by_contra hne
        have := hcount k h5 hne
        omega
      · rintro rfl
        exact ⟨hk0N, by omega⟩
    exact List.perm_singleton.1 ((List.perm_ext_iff_of_nodup hnd (List.nodup_singleton _)).2 hmem)
  rw [hsmall] at htr
  -- a neighbour
  obtain ⟨y0, hy0, hadj0⟩ : ∃ y, y < n ∧ Adj a.rowPtr a.colInd x0 y := by
    by_cases h5 : t * m = 0
    · obtain ⟨y, hy, e⟩ := Row.get hg (v := 1) (by omega)
      exact ⟨y, hy, (Row.adj_iff hg).2 ⟨hx0, hy, by omega⟩⟩
    · obtain ⟨y, hy, e⟩ := Row.get hg (v := t * m - 1) (by omega)
      exact ⟨y, hy, (Row.adj_iff hg).2 ⟨hx0, hy, by omega⟩⟩
  have hrec : ∀ y r : Nat, Adj a.rowPtr a.colInd x0 y → f0[y]? = some r → Receiver a.rowPtr a.colInd f0 0 x0 r := by
    intro y r hy hr
    refine ⟨fun h => ?_, Nat.zero_le _, y, hy, hr⟩
    rw [hk0] at h
    cases h
    rw [(honly y).1 hr] at hy
    exact hl _ hy
  obtain ⟨r, y, hy, hr, hrk, rfl, rfl⟩ : ∃ r y, Adj a.rowPtr a.colInd x0 y ∧ f0[y]? = some r ∧ r ≠ k0 ∧ f1 = f0.set x0 r ∧ D = [k0] := by
    cases htr with
    | whole h5 _ _ => omega
    | cells _ hnd hxs _ hcb hrest =>
      cases hrest
      have hxs' :=
        List.perm_singleton.1 ((List.perm_ext_iff_of_nodup hnd (List.nodup_singleton x0)).2 (fun x => by rw [hxs, honly, List.mem_singleton]))
      subst hxs'
      cases hcb with
      | stays h5 _ =>
        obtain ⟨r, hr⟩ := hsome y0 hy0
        exact absurd (hrec y0 r hadj0 hr) (h5 r)
      | given h5 h6 =>
        cases h6
        obtain ⟨⟨h7, _, y, hy, hr⟩, _⟩ := h5
        exact ⟨_, y, hy, hr, fun e => h7 (by rw [hk0, e]), rfl, rfl⟩
    | alone h5 _ =>
      obtain ⟨r, hr⟩ := hsome y0 hy0
      exact absurd (hrec y0 r hadj0 hr) (h5 x0 hk0 r)
  obtain ⟨_, hyn, hstep⟩ := (Row.adj_iff hg).1 hy
  rw [hpx] at hstep
  have hlen1 : (f0.set x0 r).length = n := by rw [List.length_set]; exact h2
  have hlenf : f.length = n := by rw [hren]; unfold renumberedBut; rw [List.length_map]; exact hlen1
  -- the cell whose old group is the new one
  let rep : Nat → Nat := fun i => if i = x0 then y else i
  have hrepn : ∀ i < n, rep i < n := by
    intro i hi
    show (if i = x0 then y else i) < n
    split_ifs
    · exact hyn
    · exact hi
  have hrep1 : ∀ i < n, (f0.set x0 r)[i]? = f0[rep i]? := by
    intro i hi
    show _ = f0[if i = x0 then y else i]?
    by_cases h5 : i = x0
    · rw [if_pos h5, h5, List.getElem?_set_self (by omega), hr]
    · rw [if_neg h5, List.getElem?_set_ne (fun e => h5 e.symm)]
  have hrepk : ∀ i < n, f0[rep i]? ≠ some k0 := by
    intro i hi h5
    have h6 := (honly _).1 h5
    have hyx : y ≠ x0 := fun e => hl x0 (by rw [e] at hy; exact hy)
    have h7 : (if i = x0 then y else i) = x0 := h6
    split_ifs at h7 with h8
    · exact hyx h7
    · exact h8 h7
  let num : Nat → Nat := fun k => if k < k0 then k else k - 1
  have hnum : ∀ k, k ≠ k0 → (if k ∈ [k0] then k else ((List.range k).filter (fun j => decide (j ∉ [k0]))).length) = num k := by
    intro k hk
    rw [if_neg (by rw [List.mem_singleton]; exact hk), range_but]
    show (if k ≤ k0 then k else k - 1) = (if k < k0 then k else k - 1)
    split_ifs <;> omega
  have hnuminj : ∀ k l, k ≠ k0 → l ≠ k0 → (num k = num l ↔ k = l) := by
    intro k l hk hl
    show (if k < k0 then k else k - 1) = (if l < k0 then l else l - 1) ↔ k = l
    split_ifs <;> omega
  have hfi : ∀ i < n, ∃ k, f0[rep i]? = some k ∧ k ≠ k0 ∧ f[i]? = some (num k) := by
    intro i hi
    obtain ⟨k, hk⟩ := hsome _ (hrepn i hi)
    have hkk : k ≠ k0 := fun e => hrepk i hi (by rw [hk, e])
    refine ⟨k, hk, hkk, ?_⟩
    rw [hren]
    unfold renumberedBut
    rw [List.getElem?_map, hrep1 i hi, hk, Option.map_some, hnum k hkk]
  have hsame : ∀ i < n, ∀ j < n, (f[i]? = f[j]? ↔
      rowGroup m 1 t (pos (rep i) 0) = rowGroup m 1 t (pos (rep j) 0)) := by
    intro i hi j hj
    obtain ⟨k, e1, e2, e3⟩ := hfi i hi
    obtain ⟨l, e1', e2', e3'⟩ := hfi j hj
    rw [← hgr _ (hrepn i hi) _ (hrepn j hj), e1, e1', e3, e3', Option.some.injEq, Option.some.injEq, hnuminj k l e2 e2']
  refine ⟨f, h3, hlenf, ⟨N - 1, fun k => ?_⟩, ?_⟩
  · constructor
    · intro hk
      obtain ⟨i, hi⟩ := List.mem_iff_getElem?.1 hk
      have hin : i < n := by rw [← hlenf]; exact (List.getElem?_eq_some_iff.1 hi).1
      obtain ⟨l, e1, e2, e3⟩ := hfi i hin
      rw [hi] at e3
      have h5 : k = (if l < k0 then l else l - 1) := Option.some.inj e3
      have h6 := (hN l).1 (List.mem_of_getElem? e1)
      split_ifs at h5 <;> omega
    · intro hk
      obtain ⟨l, hl1, hl2, hl3⟩ : ∃ l, l < N ∧ l ≠ k0 ∧ num l = k := by
        by_cases h5 : k < k0
        · exact ⟨k, by omega, by omega, if_pos h5⟩
        · exact ⟨k + 1, by omega, by omega, (if_neg (by omega)).trans (by omega)⟩
      obtain ⟨i, hi⟩ := List.mem_iff_getElem?.1 ((hN l).2 hl1)
      have hin : i < n := by rw [← h2]; exact (List.getElem?_eq_some_iff.1 hi).1
      have hix : i ≠ x0 := by
        rintro rfl
        rw [hk0] at hi
        exact hl2 (Option.some.inj hi).symm
      obtain ⟨l', e1, e2, e3⟩ := hfi i hin
      have h6 : rep i = i := if_neg hix
      rw [h6, hi] at e1
      cases e1
      rw [hl3] at e3
      exact List.mem_of_getElem? e3
  · have hne : ∀ i < n, rowGroup m 1 t (pos (rep i) 0) ≠ t := by
      intro i hi h5
      have h6 := Row.inj hg (hrepn i hi) hx0 (by rw [hpx]; exact (rowGroup_left hm0).1 h5)
      exact hrepk i hi (by rw [h6]; exact hk0)
    rcases hstep with hstep | hstep
    · have hgy : rowGroup m 1 t (pos y 0) = t + 1 := by
        unfold rowGroup
        rw [if_neg (by omega), if_neg (by omega), show pos y 0 - (t * m + 1) = 0 by omega, Nat.zero_div]
        omega
      have hnew : ∀ i < n, rowGroup m (m + 1) t (pos i 0) =
          if rowGroup m 1 t (pos (rep i) 0) ≤ t then rowGroup m 1 t (pos (rep i) 0) else rowGroup m 1 t (pos (rep i) 0) - 1 := by
        intro i hi
        rw [rowGroup_after hm0]
        by_cases h5 : i = x0
        · have h6 : rep i = y := if_pos h5
          rw [h6, hgy, h5, hpx, (rowGroup_left hm0).2 rfl, if_pos (Nat.le_refl _), if_neg (by omega)]
          omega
        · have h6 : rep i = i := if_neg h5
          rw [h6]
      refine ⟨t, ?_, fun i hi j hj => ?_⟩
      · have hyr := hg.range y hyn 0 (by omega)
        obtain ⟨b, hb1, hb2⟩ := rowGroup_run (m := m) (t := t) (L := n) (p := pos y 0) hm0 (by rw [hone, Nat.mod_eq_of_lt hm1]) hm1 ht
          (by omega) (by omega)
        have h5 := hb2 b (Nat.le_refl _) (by omega)
        rw [hgy] at h5
        have h6 : t * m + 1 ≤ b := by
          by_contra h7
          have h8 : b ≤ t * m := by omega
          unfold rowGroup at h5
          by_cases h9 : b < t * m
          · have h10 : b / m < t := (Nat.div_lt_iff_lt_mul hm0).2 h9
            rw [if_pos h9] at h5
            omega
          · rw [if_neg h9, if_pos (by omega)] at h5
            omega
        omega
      · rw [hsame i hi j hj, hnew i hi, hnew j hj]
        have h5 := hne i hi
        have h6 := hne j hj
        split_ifs <;> omega
    · have ht0 : 0 < t := by
        rcases Nat.eq_zero_or_pos t with h5 | h5
        · rw [h5] at hstep; omega
        · exact h5
      obtain ⟨s, rfl⟩ : ∃ s, t = s + 1 := ⟨t - 1, by omega⟩
      have hs : (s + 1) * m = s * m + m := by rw [Nat.add_mul, Nat.one_mul]
      have hgy : rowGroup m 1 (s + 1) (pos y 0) = s := by
        unfold rowGroup
        rw [if_pos (by omega), show pos y 0 = (m - 1) + s * m by omega, Nat.add_mul_div_right _ _ hm0, Nat.div_eq_of_lt (by omega)]
        omega
      have hnew : ∀ i < n, rowGroup m (m + 1) s (pos i 0) =
          if rowGroup m 1 (s + 1) (pos (rep i) 0) < s + 1 then rowGroup m 1 (s + 1) (pos (rep i) 0)
          else rowGroup m 1 (s + 1) (pos (rep i) 0) - 1 := by
        intro i hi
        have h4 := rowGroup_before (p := pos i 0) hm0 ht0
        rw [show s + 1 - 1 = s by omega] at h4
        rw [h4]
        by_cases h5 : i = x0
        · have h6 : rep i = y := if_pos h5
          rw [h6, hgy, h5, hpx, (rowGroup_left hm0).2 rfl, if_neg (Nat.lt_irrefl _), if_pos (by omega)]
          omega
        · have h6 : rep i = i := if_neg h5
          rw [h6]
      refine ⟨s, by omega, fun i hi j hj => ?_⟩
      rw [hsame i hi j hj, hnew i hi, hnew j hj]
      have h5 := hne i hi
      have h6 := hne j hj
      split_ifs <;> omega

/-- seven cells in groups of three: one of them gets the cell left -/
example := C108_rows (P := exPlatform) (a := exRow6.onMesh exRow7) (o := ⟨[], [], []⟩) (exRow7_good.validMesh _)
  { exRow6_params with onePoint := fun h => by rcases h with h | h <;> cases h } exLawful
  (checkUniq_sound exRow7_crs (by decide)) (Or.inl rfl) (m := 3) rfl rfl (by decide) (by decide) exRow7_grid (by unfold sidesOut; decide +kernel)

/-- **C108** When two cells are left, fewer than `min_card` and not more than the threshold, correction may separate them: with `max_card` = 5, `min_card` = 4
and threshold 3, one of them joins the group of five cells and the other becomes a coarse cell of its own. -/
theorem C108_two_counterexample :
    ValidParams exPlatform ({ exRow6 with goalCard := 5, minCard := 4, maxCard := 5, singThresh := 3 }.onMesh exRow7) ∧
    agglomerateOneLevel exPlatform ({ exRow6 with goalCard := 5, minCard := 4, maxCard := 5, singThresh := 3 }.onMesh exRow7) ⟨[], [], []⟩ =
      (⟨[0, 0, 0, 0, 0, 1, 0], [], []⟩, .ok ()) :=
  ⟨{ exRow6_params with minCard := by decide, goalCard := by decide, maxCard := by decide, thresh := by decide
                        onePoint := fun h => by rcases h with h | h <;> cases h }, by decide +kernel⟩

end CoMMA
