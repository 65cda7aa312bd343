import Verif.Lemmas.GridRun
import Verif.Lemmas.GridGrow
/-! # Blocks of a grid -/

set_option linter.unusedSectionVars false

namespace CoMMA

variable {W F : Type} [Num W]
variable {D : Nat} {ext : Nat → Nat} {n : Nat} {pos : Nat → Nat → Nat} {R : Nat → Nat → Prop}

/-- the other number of a pair `2 k`, `2 k + 1` -/
def flip2 (v : Nat) : Nat := if v % 2 = 0 then v + 1 else v - 1

theorem flip2_spec (v : Nat) : (v + 1 = flip2 v ∨ flip2 v + 1 = v) ∧ flip2 v / 2 = v / 2 ∧ flip2 v ≠ v := by
  unfold flip2
  split <;> omega

theorem eq_or_flip2 {v w : Nat} (h : w / 2 = v / 2) : w = v ∨ w = flip2 v := by
  unfold flip2
  split <;> omega

/-- `x` is the cell of the block of `s` that differs along the axes given by `β` -/
def IsBit (D n : Nat) (pos : Nat → Nat → Nat) (s : Nat) (β : Nat → Bool) (x : Nat) : Prop :=
  x < n ∧ ∀ ax < D, pos x ax = if β ax then flip2 (pos s ax) else pos s ax

theorem EvenGrid.exists_bit (G : EvenGrid D ext n pos R) {s : Nat} (hs : s < n) (β : Nat → Bool) :
    ∃ x, IsBit D n pos s β x := by
  obtain ⟨x, hx, h⟩ := G.grid.surj (fun ax => if β ax then flip2 (pos s ax) else pos s ax) (by
    intro ax hax
    have h1 := G.grid.range s hs ax hax
    have h2 := G.even ax hax
    split
    · unfold flip2
      split <;> omega
    · exact h1)
  exact ⟨x, hx, h⟩

theorem IsBit.inj (G : IsGrid D ext n pos R) {s x y : Nat} {β γ : Nat → Bool} (hx : IsBit D n pos s β x)
    (hy : IsBit D n pos s γ y) (h : ∀ ax < D, β ax = γ ax) : x = y :=
  G.inj x hx.1 y hy.1 (fun ax hax => by rw [hx.2 ax hax, hy.2 ax hax, h ax hax])

theorem IsBit.zero {s : Nat} (hs : s < n) : IsBit D n pos s (fun _ => false) s := ⟨hs, fun _ _ => rfl⟩

theorem IsBit.block {s x : Nat} {β : Nat → Bool} (h : IsBit D n pos s β x) : SameBlock D (pos x) (pos s) := by
  intro ax hax
  rw [h.2 ax hax]
  split
  · exact (flip2_spec _).2.1
  · rfl

theorem bit_of_block {s x : Nat} (hx : x < n) (h : SameBlock D (pos x) (pos s)) :
    IsBit D n pos s (fun ax => decide (pos x ax ≠ pos s ax)) x := by
  refine ⟨hx, fun ax hax => ?_⟩
  rcases eq_or_flip2 (h ax hax) with h1 | h1
  · simp [h1]
  · have := (flip2_spec (pos s ax)).2.2
    simp only [h1, ne_eq, decide_eq_true_eq]
    rw [if_pos this]

/-- neighbours in a block -/
theorem IsBit.adj (G : IsGrid D ext n pos R) {s x y : Nat} {β γ : Nat → Bool} (hx : IsBit D n pos s β x)
    (hy : IsBit D n pos s γ y) : R x y ↔ ∃ a < D, β a ≠ γ a ∧ ∀ b < D, b ≠ a → β b = γ b := by
  rw [G.adj]
  constructor
  · rintro ⟨_, _, a, ha, h1, h2⟩
    refine ⟨a, ha, ?_, ?_⟩
    · intro e
      rw [hx.2 a ha, hy.2 a ha, e] at h1
      omega
    · intro b hb hne
      have := h2 b hb hne
      rw [hx.2 b hb, hy.2 b hb] at this
      have h3 := (flip2_spec (pos s b)).2.2
      cases hβ : β b <;> cases hγ : γ b <;> simp [hβ, hγ] at this ⊢ <;> omega
  · rintro ⟨a, ha, h1, h2⟩
    refine ⟨hx.1, hy.1, a, ha, ?_, ?_⟩
    · rw [hx.2 a ha, hy.2 a ha]
      have h3 := (flip2_spec (pos s a)).1
      cases hβ : β a <;> cases hγ : γ a <;> simp [hβ, hγ] at h1 ⊢ <;> omega
    · intro b hb hne
      rw [hx.2 b hb, hy.2 b hb, h2 b hb hne]

/-- distance in a block -/
theorem IsBit.l1 {s x : Nat} {β : Nat → Bool} (hx : IsBit D n pos s β x) :
    l1 D (pos s) (pos x) = ∑ ax ∈ Finset.range D, (if β ax then 1 else 0) := by
  unfold CoMMA.l1
  apply Finset.sum_congr rfl
  intro ax hax
  rw [hx.2 ax (Finset.mem_range.1 hax)]
  have := (flip2_spec (pos s ax)).1
  split <;> omega

/-- common neighbours of two cells of a block that differ along two axes -/
theorem IsBit.common (G : IsGrid D ext n pos R) {s x y z i j : Nat} {β γ : Nat → Bool} (hx : IsBit D n pos s β x)
    (hy : IsBit D n pos s γ y) (hi : i < D) (hj : j < D) (hij : i ≠ j) (hbi : β i ≠ γ i) (hbj : β j ≠ γ j)
    (h1 : R z x) (h2 : R z y) :
    IsBit D n pos s (fun ax => if ax = i then γ i else β ax) z ∨ IsBit D n pos s (fun ax => if ax = j then γ j else β ax) z := by
  obtain ⟨hz, _, a, ha, h3, h4⟩ := (G.adj z x).1 h1
  obtain ⟨_, _, b, hb, h5, h6⟩ := (G.adj z y).1 h2
  have hne : ∀ c < D, β c ≠ γ c → pos x c ≠ pos y c := by
    intro c hc hbc
    rw [hx.2 c hc, hy.2 c hc]
    have := (flip2_spec (pos s c)).2.2
    cases hβ : β c <;> cases hγ : γ c <;> simp [hβ, hγ] at hbc ⊢ <;> omega
  have hxi := hne i hi hbi
  have hxj := hne j hj hbj
  have hia : i = a ∨ i = b := by
    by_contra hno
    push Not at hno
    exact hxi (by rw [← h4 i hi hno.1, h6 i hi hno.2])
  have hja : j = a ∨ j = b := by
    by_contra hno
    push Not at hno
    exact hxj (by rw [← h4 j hj hno.1, h6 j hj hno.2])
  rcases hia with rfl | rfl
  · rcases hja with rfl | rfl
    · exact absurd rfl hij
    · left
      refine ⟨hz, fun ax hax => ?_⟩
      by_cases hai : ax = i
      · subst hai
        rw [h6 ax hax hij, hy.2 ax hax]; simp
      · rw [h4 ax hax hai, hx.2 ax hax]; simp [hai]
  · rcases hja with rfl | rfl
    · right
      refine ⟨hz, fun ax hax => ?_⟩
      by_cases haj : ax = j
      · subst haj
        rw [h6 ax hax (Ne.symm hij), hy.2 ax hax]; simp
      · rw [h4 ax hax haj, hx.2 ax hax]; simp [haj]
    · exact absurd rfl hij

/-- the sum of the coordinates changes its parity from a cell to its neighbours -/
theorem IsGrid.parity (G : IsGrid D ext n pos R) {x y : Nat} (h : R x y) :
    (∑ ax ∈ Finset.range D, pos x ax) % 2 ≠ (∑ ax ∈ Finset.range D, pos y ax) % 2 := by
  obtain ⟨_, _, a, ha, h1, h2⟩ := (G.adj x y).1 h
  have := sum_change (f := pos x) (g := pos y) ha h2
  omega

theorem IsGrid.noTriangle (G : IsGrid D ext n pos R) {x y z : Nat} (h1 : R x y) (h2 : R x z) : ¬ R y z := by
  intro h3
  have := G.parity h1
  have := G.parity h2
  have := G.parity h3
  omega

/-- cells found around a corner -/
theorem EvenGrid.around {rp ci : List Nat} (G : EvenGrid D ext n pos (Adj rp ci)) {agg : List Bool} {s order : Nat}
    {d : NMap Nat} (hl : agg.length = n) (hb : BlockSet D n pos (fun x => agg[x]? = some true)) (hs : agg[s]? = some false)
    (hc : Corner D pos (Adj rp ci) (fun x => agg[x]? = some true) s)
    (hd : ∀ x k, d.find? x = some k ↔ IsDistance (FreeAdj rp ci agg) (· = s) x k ∧ 0 < k ∧ k < order)
    (ho : (∀ x, ReachableFrom (FreeAdj rp ci agg) (· = s) x → x = s ∨ x ∈ d.keySet) ∨ D < order) :
    (∀ y < n, SameBlock D (pos y) (pos s) → y ≠ s → d.find? y = some (l1 D (pos s) (pos y))) ∧
    (∀ x, d.find? x = some 1 → Adj rp ci s x) ∧
    (∀ x ∈ d.keySet, Adj rp ci s x → x < n ∧ SameBlock D (pos x) (pos s)) ∧ s ∉ d.keySet ∧
    (∀ x k, d.find? x = some k → 0 < k) := by
  have hsn := lt_of_agg hs hl
  have hfr : ∀ y < n, SameBlock D (pos y) (pos s) → agg[y]? = some false := by
    intro y hy hys
    refine free_of_not hl hy (fun hyt => ?_)
    have := hb y hy s hsn hys hyt
    simp only [hs] at this
    cases this
  refine ⟨?_, ?_, ?_, ?_, fun x k h => ((hd x k).1 h).2.1⟩
  · intro y hy hys hne
    have hdist : IsDistance (FreeAdj rp ci agg) (· = s) y (l1 D (pos s) (pos y)) :=
      ⟨⟨s, rfl, G.walk (free := fun b => agg[b]? = some false) hsn hfr _ y hy hys rfl⟩,
        fun k w hw hwk => by subst hw; exact G.grid.l1_walk (fun a b h => h.1) hwk⟩
    have hpos : 0 < l1 D (pos s) (pos y) := by
      by_contra h0
      have h0 : l1 D (pos s) (pos y) = 0 := by omega
      apply hne
      rw [h0] at hdist
      exact (IsDistance.zero (S := (· = s))).1 hdist
    rcases ho with ho | ho
    · rcases ho y ⟨_, hdist.1⟩ with h1 | h1
      · exact absurd h1 hne
      · rw [NMap.mem_keySet, NMap.mem_keys] at h1
        obtain ⟨k, hk⟩ := h1
        rw [hdist.unique ((hd y k).1 hk).1]
        exact hk
    · refine (hd y _).2 ⟨hdist, hpos, ?_⟩
      have hb := (bit_of_block hy hys).l1
      have : ∑ ax ∈ Finset.range D, (if decide (pos y ax ≠ pos s ax) = true then 1 else 0) ≤ ∑ _ax ∈ Finset.range D, 1 :=
        Finset.sum_le_sum (fun ax _ => by split <;> omega)
      rw [sum_ones] at this
      omega
  · intro x hx
    obtain ⟨y, hy, hyx⟩ := (((hd x 1).1 hx).1).pred
    rw [IsDistance.zero] at hy
    subst hy
    exact hyx.1
  · intro x hx hsx
    rw [NMap.mem_keySet, NMap.mem_keys] at hx
    obtain ⟨k, hk⟩ := hx
    obtain ⟨⟨⟨w, rfl, hw⟩, _⟩, h1, _⟩ := (hd x k).1 hk
    have hxf : agg[x]? = some false := by
      cases hw with
      | nil => omega
      | step _ h => exact h.2
    refine ⟨lt_of_agg hxf hl, ?_⟩
    by_contra hno
    have := hc x hsx (fun h => hno h.symm)
    simp only [hxf] at this
    cases this
  · intro h
    rw [NMap.mem_keySet, NMap.mem_keys] at h
    obtain ⟨k, hk⟩ := h
    obtain ⟨h1, h2, _⟩ := (hd s k).1 hk
    have := h1.unique (IsDistance.zero.2 rfl)
    omega

/-- bits of a cell of a block, as a function of the axis -/
def bits (a b c : Bool) (ax : Nat) : Bool := if ax = 0 then a else if ax = 1 then b else c

theorem IsBit.of_eq {s x : Nat} {β γ : Nat → Bool} (h : IsBit D n pos s β x) (he : ∀ ax < D, β ax = γ ax) :
    IsBit D n pos s γ x := ⟨h.1, fun ax hax => by rw [← he ax hax]; exact h.2 ax hax⟩

theorem bits_eq2 {β : Nat → Bool} {a b c : Bool} (h0 : β 0 = a) (h1 : β 1 = b) : ∀ ax < 2, β ax = bits a b c ax := by
  intro ax hax
  have : ax = 0 ∨ ax = 1 := by omega
  rcases this with rfl | rfl
  · exact h0
  · exact h1

theorem bits_eq3 {β : Nat → Bool} {a b c : Bool} (h0 : β 0 = a) (h1 : β 1 = b) (h2 : β 2 = c) :
    ∀ ax < 3, β ax = bits a b c ax := by
  intro ax hax
  have : ax = 0 ∨ ax = 1 ∨ ax = 2 := by omega
  rcases this with rfl | rfl | rfl
  · exact h0
  · exact h1
  · exact h2

/-- 2D: the block of a corner -/
theorem square_of_corner {g : Graph W} (G : EvenGrid 2 ext n pos (Adj g.rowPtr g.colInd)) {agg : List Bool} {s order : Nat}
    {d : NMap Nat} (hl : agg.length = n) (hb : BlockSet 2 n pos (fun x => agg[x]? = some true)) (hs : agg[s]? = some false)
    (hc : Corner 2 pos (Adj g.rowPtr g.colInd) (fun x => agg[x]? = some true) s)
    (hd : ∀ x k, d.find? x = some k ↔ IsDistance (FreeAdj g.rowPtr g.colInd agg) (· = s) x k ∧ 0 < k ∧ k < order)
    (ho : (∀ x, ReachableFrom (FreeAdj g.rowPtr g.colInd agg) (· = s) x → x = s ∨ x ∈ d.keySet) ∨ 2 < order) :
    ∃ u v t, Square g d s u v t ∧ ∀ x, x < n ∧ SameBlock 2 (pos x) (pos s) ↔ x = s ∨ x = u ∨ x = v ∨ x = t := by
  have hsn := lt_of_agg hs hl
  obtain ⟨hdist, hone, hnear, hsk, hpos⟩ := G.around hl hb hs hc hd ho
  have b0 : IsBit 2 n pos s (bits false false false) s := (IsBit.zero hsn).of_eq (bits_eq2 rfl rfl)
  obtain ⟨u, bu⟩ := G.exists_bit hsn (bits true false false)
  obtain ⟨v, bv⟩ := G.exists_bit hsn (bits false true false)
  obtain ⟨t, bt⟩ := G.exists_bit hsn (bits true true false)
  have hadj : ∀ x y, y ∈ rowOf g.rowPtr g.colInd x ↔ Adj g.rowPtr g.colInd x y := fun x y => adj_iff_rowOf.symm
  have hcases : ∀ x, x < n → SameBlock 2 (pos x) (pos s) → x = s ∨ x = u ∨ x = v ∨ x = t := by
    intro x hx hxs
    have h1 := bit_of_block hx hxs
    generalize (fun ax => decide (pos x ax ≠ pos s ax)) = β at h1
    have h2 := h1.of_eq (bits_eq2 (c := false) (β := β) rfl rfl)
    cases h3 : β 0 <;> cases h4 : β 1 <;> rw [h3, h4] at h2
    · exact Or.inl (h2.inj G.grid b0 (fun _ _ => rfl))
    · exact Or.inr (Or.inr (Or.inl (h2.inj G.grid bv (fun _ _ => rfl))))
    · exact Or.inr (Or.inl (h2.inj G.grid bu (fun _ _ => rfl)))
    · exact Or.inr (Or.inr (Or.inr (h2.inj G.grid bt (fun _ _ => rfl))))
  have hsu : Adj g.rowPtr g.colInd s u := (b0.adj G.grid bu).2 ⟨0, by omega, by decide, fun b h1 h2 => by
    have : b = 1 := by omega
    subst this; rfl⟩
  have hsv : Adj g.rowPtr g.colInd s v := (b0.adj G.grid bv).2 ⟨1, by omega, by decide, fun b h1 h2 => by
    have : b = 0 := by omega
    subst this; rfl⟩
  have hut : Adj g.rowPtr g.colInd u t := (bu.adj G.grid bt).2 ⟨1, by omega, by decide, fun b h1 h2 => by
    have : b = 0 := by omega
    subst this; rfl⟩
  have hvt : Adj g.rowPtr g.colInd v t := (bv.adj G.grid bt).2 ⟨0, by omega, by decide, fun b h1 h2 => by
    have : b = 1 := by omega
    subst this; rfl⟩
  have hst : ¬ Adj g.rowPtr g.colInd s t := fun h => G.grid.noTriangle hsu h hut
  have nsu : u ≠ s := by rintro rfl; exact G.grid.noTriangle hsu hsu hsu
  have nsv : v ≠ s := by rintro rfl; exact G.grid.noTriangle hsv hsv hsv
  have nst : t ≠ s := by
    rintro rfl
    have h0 := bt.2 0 (by omega)
    have := (flip2_spec (pos t 0)).2.2
    simp [bits] at h0
    omega
  have nuv : u ≠ v := by
    rintro rfl
    have h0 := bu.2 0 (by omega)
    rw [bv.2 0 (by omega)] at h0
    have := (flip2_spec (pos s 0)).2.2
    simp [bits] at h0
    omega
  have hnb : ∀ x, x < n → SameBlock 2 (pos x) (pos s) → Adj g.rowPtr g.colInd s x → x = u ∨ x = v := by
    intro x hx hxs h
    rcases hcases x hx hxs with rfl | h1 | h1 | rfl
    · exact absurd h (fun h => G.grid.noTriangle h h h)
    · exact Or.inl h1
    · exact Or.inr h1
    · exact absurd h hst
  have hfirst : ∀ x ∈ d.keySet, Adj g.rowPtr g.colInd s x → x = u ∨ x = v := by
    intro x hx h
    obtain ⟨h1, h2⟩ := hnear x hx h
    exact hnb x h1 h2 h
  refine ⟨u, v, t, ⟨?_, ?_, hpos, ?_, ?_, ?_, ?_, ?_, ?_, ?_, ?_, ?_, ?_, hsk, nuv⟩, fun x => ⟨fun h => hcases x h.1 h.2, ?_⟩⟩
  · intro x y h
    rw [hadj] at h ⊢
    exact G.grid.adj_symm h
  · intro x y z h1 h2
    rw [hadj] at h1 h2 ⊢
    exact G.grid.noTriangle h1 h2
  · rw [hdist u bu.1 bu.block nsu, bu.l1]; rfl
  · rw [hdist v bv.1 bv.block nsv, bv.l1]; rfl
  · rw [hdist t bt.1 bt.block nst, bt.l1]; rfl
  · intro x hx
    exact hfirst x (mem_keySet_of hx) (hone x hx)
  · intro x hx h
    exact hfirst x hx ((hadj _ _).1 h)
  · exact (hadj _ _).2 hsu
  · exact (hadj _ _).2 hsv
  · exact (hadj _ _).2 hut
  · exact (hadj _ _).2 hvt
  · intro x h1 h2
    rw [hadj] at h1 h2
    rcases bu.common G.grid bv (i := 0) (j := 1) (by omega) (by omega) (by omega) (by decide) (by decide) h1 h2 with h | h
    · exact Or.inl (h.inj G.grid b0 (bits_eq2 rfl rfl))
    · exact Or.inr (h.inj G.grid bt (bits_eq2 rfl rfl))
  · rintro (rfl | rfl | rfl | rfl)
    · exact ⟨hsn, SameBlock.rfl'⟩
    · exact ⟨bu.1, bu.block⟩
    · exact ⟨bv.1, bv.block⟩
    · exact ⟨bt.1, bt.block⟩

/-- 2D: the coarse cell grown from a corner is its block -/
theorem grown_square {E : IsoEnv W F} (G : EvenGrid 2 ext n pos (Adj E.g.rowPtr E.g.colInd)) (hdim : 2 ≤ E.g.dim)
    (hgoal : E.goalCard = 4) (hmax : E.maxCard = 4) (hmin : E.minCard ≤ 4) {agg : List Bool} {s order : Nat} {S : NSet}
    (hl : agg.length = n) (hb : BlockSet 2 n pos (fun x => agg[x]? = some true)) (hs : agg[s]? = some false)
    (hc : Corner 2 pos (Adj E.g.rowPtr E.g.colInd) (fun x => agg[x]? = some true) s)
    (h : GrownCell E (GrownGreedily E) agg s order S) :
    ∀ x, x ∈ S ↔ x < n ∧ SameBlock 2 (pos x) (pos s) := by
  obtain ⟨d, hd, ho, -, -, hbig⟩ := h
  obtain ⟨u, v, t, hsq, hmem⟩ := square_of_corner G hl hb hs hc hd (by
    rcases ho with ho | ⟨ho, _⟩
    · exact Or.inl ho
    · right
      split at ho <;> omega)
  have hnd := hsq.nodup
  have hsize : 3 ≤ d.size := by
    have h1 := (List.nodup_cons.1 hnd).2
    have := List.Subperm.length_le (List.subperm_of_subset h1 (l₂ := d.keys) (by
      intro x hx
      simp only [List.mem_cons, List.not_mem_nil, or_false] at hx
      rcases hx with rfl | rfl | rfl
      · exact mem_keySet_of hsq.du
      · exact mem_keySet_of hsq.dv
      · exact mem_keySet_of hsq.dt))
    rw [NMap.size_eq_keys]
    exact this
  have h4 : min E.maxCard (d.size + 1) = 4 := by omega
  obtain ⟨xs, κ, m, ⟨f, hgr⟩, hh, hlen, _, hκ, hbs, rfl⟩ := hbig (by omega)
  rw [h4] at hgr hlen
  rw [hlen, hgoal] at hbs
  intro x
  rw [hmem x]
  rcases hsq.grown hdim (Or.inl rfl) hgr hh hlen with rfl | rfl
  · have := hsq.size (fun j h1 h2 => hκ j h1 h2) hmin hbs
    subst this
    simp
  · have := hsq.swap.size (fun j h1 h2 => hκ j h1 h2) hmin hbs
    subst this
    simp
    tauto

/-- 1D: the coarse cell grown from a corner is its pair -/
theorem grown_pair {E : IsoEnv W F} (G : EvenGrid 1 ext n pos (Adj E.g.rowPtr E.g.colInd))
    (hgoal : E.goalCard = 2) (hmax : E.maxCard = 2) (hmin : E.minCard = 2) {agg : List Bool} {s order : Nat} {S : NSet}
    (hl : agg.length = n) (hb : BlockSet 1 n pos (fun x => agg[x]? = some true)) (hs : agg[s]? = some false)
    (hc : Corner 1 pos (Adj E.g.rowPtr E.g.colInd) (fun x => agg[x]? = some true) s)
    (h : GrownCell E (GrownGreedily E) agg s order S) :
    ∀ x, x ∈ S ↔ x < n ∧ SameBlock 1 (pos x) (pos s) := by
  have hsn := lt_of_agg hs hl
  obtain ⟨d, hd, ho, -, -, hbig⟩ := h
  obtain ⟨hdist, -, hnear, hsk, -⟩ := G.around hl hb hs hc hd (by
    rcases ho with ho | ⟨ho, _⟩
    · exact Or.inl ho
    · right
      split at ho <;> omega)
  have hflip := flip2_spec (pos s 0)
  obtain ⟨u, bu⟩ := G.exists_bit hsn (bits true false false)
  have hu0 : pos u 0 = flip2 (pos s 0) := by simpa [bits] using bu.2 0 (by omega)
  have hus : u ≠ s := by
    rintro rfl
    exact hflip.2.2 hu0.symm
  have hcases : ∀ x, x < n → SameBlock 1 (pos x) (pos s) → x = s ∨ x = u := by
    intro x hx hxs
    rcases eq_or_flip2 (hxs 0 (by omega)) with h | h
    · left
      refine G.grid.inj x hx s hsn (fun ax hax => ?_)
      have : ax = 0 := by omega
      subst this
      exact h
    · right
      refine G.grid.inj x hx u bu.1 (fun ax hax => ?_)
      have : ax = 0 := by omega
      subst this
      rw [h, hu0]
  have huk : u ∈ d.keySet := mem_keySet_of (hdist u bu.1 bu.block hus)
  have hsize : 1 ≤ d.size := by
    rw [NMap.size_eq_keys]
    exact List.length_pos_of_mem huk
  have h2 : min E.maxCard (d.size + 1) = 2 := by omega
  obtain ⟨xs, κ, m, ⟨f, hgr⟩, hh, hlen, _, _, ⟨hm1, hm2, _⟩, rfl⟩ := hbig (by omega)
  rw [h2] at hgr hlen
  obtain ⟨ys, c, f1, l1, m1, rfl, hy, hl1, hb1⟩ := hgr.last (by omega)
  have hyl : ys.length = 1 := by simpa using hlen
  have hyh := head_of_snoc hh hy.not_nil
  obtain ⟨a, rfl⟩ := List.length_eq_one_iff.1 hyl
  cases hyh
  have hcu : c = u := by
    obtain ⟨h1, hne, y, hy, h3⟩ := cands_inFront hl1 hb1.spec.1
    rw [List.mem_singleton] at hy hne
    subst hy
    obtain ⟨h4, h5⟩ := hnear c h1 h3
    exact (hcases c h4 h5).resolve_left hne
  subst hcu
  have hm : m = 2 := by omega
  subst hm
  intro x
  simp only [List.cons_append, List.nil_append, List.take_succ_cons, List.take_zero, NSet.mem_ofList, List.mem_cons, List.not_mem_nil,
    or_false]
  constructor
  · rintro (rfl | rfl)
    · exact ⟨hsn, SameBlock.rfl'⟩
    · exact ⟨bu.1, bu.block⟩
  · rintro ⟨h1, h2⟩
    exact hcases x h1 h2

end CoMMA
