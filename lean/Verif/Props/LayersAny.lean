import Verif.Props.LineLevels
import Verif.Lemmas.LayersStraight
/-! # C97: columns of any length -/

set_option linter.unusedSectionVars false

namespace CoMMA

variable {W : Type} [Num W] {D n ax : Nat} {ext : Nat → Nat} {pos : Nat → Nat → Nat}

/-- groups of two, except for the last one: the places of the cells of a group -/
theorem groups_at : ∀ {groups : List (List Nat)}, (∀ grp ∈ groups.dropLast, grp.length = 2) → ∀ (t : Nat) {grp : List Nat},
    groups[t]? = some grp → ∀ x, x ∈ grp ↔ ∃ p, groups.flatten[p]? = some x ∧ min (p / 2) (groups.length - 1) = t
  | [], _, t, grp, h, _ => by simp at h
  | [g0], _, t, grp, h, x => by
    have ht : t = 0 := by
      have := (List.getElem?_eq_some_iff.1 h).1
      simp at this
      exact this
    subst ht
    simp at h
    subst h
    simp [List.mem_iff_getElem?]
  | g0 :: g1 :: r, h2, t, grp, h, x => by
    have h0 : g0.length = 2 := h2 g0 (by simp)
    match g0, h0 with
    | [a, b], _ =>
    have ih := groups_at (groups := g1 :: r) (fun grp hg => h2 grp (by
      rw [List.dropLast_cons_of_ne_nil (by simp)]
      exact List.mem_cons_of_mem _ hg))
    cases t with
    | zero =>
      simp only [List.getElem?_cons_zero, Option.some.injEq] at h
      subst h
      constructor
      · intro hx
        simp only [List.mem_cons, List.not_mem_nil, or_false] at hx
        rcases hx with rfl | rfl
        · exact ⟨0, by simp, by simp⟩
        · exact ⟨1, by simp, by simp⟩
      · rintro ⟨p, hp, hm⟩
        have : p = 0 ∨ p = 1 := by simp only [List.length_cons] at hm; omega
        rcases this with rfl | rfl
        · simp at hp; simp [hp]
        · simp at hp; simp [hp]
    | succ t =>
      rw [List.getElem?_cons_succ] at h
      rw [ih t h x]
      constructor
      · rintro ⟨p, hp, hm⟩
        refine ⟨p + 2, ?_, ?_⟩
        · rw [List.flatten_cons, List.getElem?_append_right (by simp)]
          simpa using hp
        · simp only [List.length_cons] at hm ⊢
          omega
      · rintro ⟨p, hp, hm⟩
        have h2p : 2 ≤ p := by simp only [List.length_cons] at hm; omega
        refine ⟨p - 2, ?_, ?_⟩
        · rw [List.flatten_cons, List.getElem?_append_right (by simpa using h2p)] at hp
          simpa using hp
        · simp only [List.length_cons] at hm ⊢
          omega

/-- the number of groups of a line -/
theorem Pairing.count {odd : Bool} {l : List Nat} {groups : List (List Nat)} (h : Pairing odd none l groups) :
    groups.length = l.length / 2 ∧ (odd = true → groups.flatten = l) ∧
      (odd = false → groups.flatten = l.take (l.length / 2 * 2) ∧ ∀ grp ∈ groups, grp.length = 2) := by
  have hlen : ∀ gs : List (List Nat), (∀ grp ∈ gs, grp.length = 2) → gs.flatten.length = 2 * gs.length := by
    intro gs
    induction gs with
    | nil => simp
    | cons g r ih =>
      intro hh
      rw [List.flatten_cons, List.length_append, hh g (by simp), ih (fun g hg => hh g (List.mem_cons_of_mem _ hg))]
      simp
      omega
  cases odd with
  | false =>
    have h2 : ∀ grp ∈ groups, grp.length = 2 := fun grp hg => by
      rcases h.size grp hg with h | ⟨_, h⟩
      · exact h
      · cases h
    have h3 := h.even rfl rfl
    have h4 := hlen groups h2
    rw [h3, List.length_take] at h4
    exact ⟨by omega, fun h => (nomatch h), fun _ => ⟨h3, h2⟩⟩
  | true =>
    have h3 := h.all rfl rfl
    refine ⟨?_, fun _ => h3, fun h => (nomatch h)⟩
    rw [← h3]
    rcases List.eq_nil_or_concat groups with rfl | ⟨init, last, rfl⟩
    · simp
    · have h5 := h.two
      rw [List.concat_eq_append, List.dropLast_concat] at h5
      have h6 := hlen init h5
      have h7 : last.length = 2 ∨ (last.length = 3 ∧ true = true) := h.size last (by simp)
      simp only [List.concat_eq_append, List.flatten_append, List.flatten_cons, List.flatten_nil, List.append_nil, List.length_append,
        List.length_cons, List.length_nil, h6]
      omega

/-- **C97** A structured mesh whose strong couplings are those along one axis, all cells being anisotropic and compliant, with
any number of cells along that axis (two at least).  Every column has an end (`up` tells which) from which it is
paired: the coarse cells are the pairs of cells of a column at the places `2 k` and `2 k + 1` from that end.  If the number of cells is odd,
the last cell joins the last pair, if odd lengths are allowed, and otherwise it is in no coarse cell of the line. -/
theorem C97_columns (hW : LawfulLt W) {P : Platform} {a : Args W} {o : Outs} (hm : ValidMesh a n)
    (hp : ValidParams P a) (hb : BuildsLines a n) (hlim : lineLimit a = none)
    (hpos : NonnegCouplings (graphOf a) (meantCoupling a))
    (hforce : a.forceDir = false ∨ StraightChains (graphOf a) (meantCoupling a) (· < n))
    (hg : IsGrid D ext n pos (Adj a.rowPtr a.colInd)) (hax : ax < D) (he : 2 ≤ ext ax)
    (hall : ∀ i < n, i ∈ a.compliant ∧ IsAnisotropic (graphOf a) (meantThreshold a.thr) i)
    (hs : ∀ u < n, ∀ v < n, (StrongTo (graphOf a) (meantCoupling a) u v ↔ NextAlong D ax (pos u) (pos v))) :
    ∃ f idx lines, agglomerateOneLevel P a o = (⟨f, idx, lines⟩, .ok ()) ∧ f.length = n ∧
      ∀ i < n, ∃ up : Bool, ∀ x < n, SameColumn D ax (pos i) (pos x) →
        a.oddLine = true ∨ fromEnd (ext ax) up (pos x ax) / 2 < ext ax / 2 → ∀ y < n,
        (f[x]? = f[y]? ↔ SameColumn D ax (pos x) (pos y) ∧
          pairAt (ext ax) a.oddLine (fromEnd (ext ax) up (pos x ax)) = pairAt (ext ax) a.oddLine (fromEnd (ext ax) up (pos y ax))) := by
  have hfit : ∀ fls : List (List Nat), FitsLimit a fls := fun fls l _ m h => by rw [hlim] at h; cases h
  obtain ⟨fls, out, h1, h2, h3, h4, hline, hlt, hcolumn, hcons⟩ := grid_columns (P := P) (o := o) hW hm hp hb hlim hpos hforce hg hax he hall hs
  obtain ⟨cls, gss, hexp, hpair, hden⟩ := h3.lines
  -- the group of a cell
  have hgroup : ∀ i < n, ∃ up : Bool, ∀ x < n, SameColumn D ax (pos i) (pos x) →
      a.oddLine = true ∨ fromEnd (ext ax) up (pos x ax) / 2 < ext ax / 2 → ∃ k ∈ cls.flatten, ∀ j, out.fcToCc[j]? = some k ↔
      j < n ∧ SameColumn D ax (pos x) (pos j) ∧
        pairAt (ext ax) a.oddLine (fromEnd (ext ax) up (pos x ax)) = pairAt (ext ax) a.oddLine (fromEnd (ext ax) up (pos j ax)) := by
    intro i hi
    obtain ⟨l, hl, hil⟩ := hline i hi
    obtain ⟨q, hq⟩ := List.mem_iff_getElem?.1 hl
    obtain ⟨hql, hq⟩ := List.getElem?_eq_some_iff.1 hq
    have hgl : q < gss.length := by rw [← hpair.length_eq]; exact hql
    have hcl : q < cls.length := by rw [← hden.length_eq]; exact hgl
    obtain ⟨l', hor, hpr⟩ := (List.forall₂_iff_get.1 hpair).2 q hql hgl
    have hdq := (List.forall₂_iff_get.1 hden).2 q hgl hcl
    simp only [List.get_eq_getElem, hq] at hor hpr hdq
    have hl' : l' = l ∨ l' = l.reverse := by
      obtain ⟨_, _, _, _, h | h⟩ := hor
      · exact Or.inl h.2
      · exact Or.inr h.2
    have hmem : ∀ x, x ∈ l' ↔ x ∈ l := by
      intro x
      rcases hl' with rfl | rfl <;> simp
    have hnd : l'.Nodup := by
      have : l.Nodup := (List.nodup_flatten.1 h4).1 l hl
      rcases hl' with rfl | rfl
      · exact this
      · exact List.nodup_reverse.2 this
    have hcons' : Consecutive (fun u v => NextAlong D ax (pos u) (pos v)) l' := by
      rcases hl' with rfl | rfl
      · exact hcons _ hl
      · intro k u v hu hv
        have hk : k + 1 < l.length := by
          have := (List.getElem?_eq_some_iff.1 hv).1
          simpa using this
        rw [List.getElem?_reverse (by omega)] at hu hv
        refine (hcons l hl (l.length - 1 - (k + 1)) v u hv ?_).symm
        rw [← hu]
        congr 1
        omega
    have hcol' : ∀ x, x ∈ l' ↔ x < n ∧ SameColumn D ax (pos i) (pos x) := fun x => by rw [hmem, hcolumn l hl i hil]
    obtain ⟨hlen, hht⟩ := column_heights hg hax hnd hcons' hi hcol'
    obtain ⟨up, hup⟩ : ∃ up : Bool, ∀ q x : Nat, l'[q]? = some x → fromEnd (ext ax) up (pos x ax) = q := by
      rcases hht with h | h
      · exact ⟨true, fun q x hx => h q x hx⟩
      · refine ⟨false, fun q x hx => ?_⟩
        have := (List.getElem?_eq_some_iff.1 hx).1
        show ext ax - 1 - pos x ax = q
        rw [h q x hx]
        omega
    have hat : ∀ x ∈ l', l'[fromEnd (ext ax) up (pos x ax)]? = some x := by
      intro x hx
      obtain ⟨p, hp⟩ := List.mem_iff_getElem?.1 hx
      rw [hup p x hp]
      exact hp
    have hpr' : Pairing a.oddLine none l' gss[q] := by
      have h7 : Pairing a.oddLine (lineLimit a) l' gss[q] := hpr
      rwa [hlim] at h7
    obtain ⟨hcnt, hodd, heven⟩ := hpr'.count
    have hfl : ∀ p x : Nat, gss[q].flatten[p]? = some x ↔ l'[p]? = some x ∧ (a.oddLine = true ∨ p / 2 < ext ax / 2) := by
      intro p x
      cases ho : a.oddLine with
      | true => rw [hodd ho]; simp
      | false =>
        rw [(heven ho).1, hlen, List.getElem?_take]
        constructor
        · intro h
          split_ifs at h with h8
          exact ⟨h, Or.inr (by omega)⟩
        · rintro ⟨h8, h9 | h9⟩
          · cases h9
          · rw [if_pos (by omega)]; exact h8
    refine ⟨up, fun x hx hcx hxo => ?_⟩
    have hxl : x ∈ l' := (hcol' x).2 ⟨hx, hcx⟩
    have hxf := (hfl _ x).2 ⟨hat x hxl, hxo⟩
    obtain ⟨grp, hgrp, hxg⟩ := List.mem_flatten.1 (List.mem_of_getElem? hxf)
    obtain ⟨r, hr⟩ := List.mem_iff_getElem?.1 hgrp
    have hga := groups_at hpr'.two r hr
    obtain ⟨hrl, hr'⟩ := List.getElem?_eq_some_iff.1 hr
    have hrc : r < cls[q].length := by rw [← hdq.length_eq]; exact hrl
    have hk := (List.forall₂_iff_get.1 hdq).2 r hrl hrc
    simp only [List.get_eq_getElem, hr'] at hk
    refine ⟨cls[q][r], List.mem_flatten.2 ⟨cls[q], List.getElem_mem hcl, List.getElem_mem hrc⟩, ?_⟩
    rw [hcnt, hlen] at hga
    -- the group is told by the place
    have hplace : ∀ j, j ∈ grp ↔ j ∈ l' ∧ (a.oddLine = true ∨ fromEnd (ext ax) up (pos j ax) / 2 < ext ax / 2) ∧
        min (fromEnd (ext ax) up (pos j ax) / 2) (ext ax / 2 - 1) = r := by
      intro j
      rw [hga j]
      constructor
      · rintro ⟨p, hp, hmin⟩
        obtain ⟨h8, h9⟩ := (hfl p j).1 hp
        rw [hup p j h8]
        exact ⟨List.mem_of_getElem? h8, h9, hmin⟩
      · rintro ⟨h8, h9, h10⟩
        exact ⟨_, (hfl _ j).2 ⟨hat j h8, h9⟩, h10⟩
    have hxr := ((hplace x).1 hxg).2.2
    have hlj : ∀ j, j ∈ l' ↔ j < n ∧ SameColumn D ax (pos x) (pos j) := by
      intro j
      rw [hcol' j]
      exact and_congr_right fun _ => ⟨fun h b hb hne => by rw [← hcx b hb hne, h b hb hne], fun h b hb hne => by rw [hcx b hb hne, h b hb hne]⟩
    intro j
    rw [hk j, hplace j, hlj j, and_assoc]
    refine and_congr_right fun hj => and_congr_right fun _ => ?_
    unfold pairAt
    cases ho : a.oddLine with
    | true =>
      simp only [true_or, true_and, if_true]
      rw [hxr, eq_comm]
    | false =>
      rw [ho] at hxo
      have hxo : fromEnd (ext ax) up (pos x ax) / 2 < ext ax / 2 := by simpa using hxo
      simp only [Bool.false_eq_true, false_or, if_false]
      omega
  have hself : ∀ i < n, ∀ up : Bool, ∀ x < n, SameColumn D ax (pos i) (pos x) → x < n ∧ SameColumn D ax (pos x) (pos x) ∧
        pairAt (ext ax) a.oddLine (fromEnd (ext ax) up (pos x ax)) = pairAt (ext ax) a.oddLine (fromEnd (ext ax) up (pos x ax)) :=
    fun i _ up x hx _ => ⟨hx, fun _ _ _ => rfl, rfl⟩
  cases hcor : a.correction with
  | false =>
    have : { a with correction := false } = a := by rw [← hcor]
    rw [this] at h2
    refine ⟨out.fcToCc, out.linesIdx, out.lines, h2, h3.len, fun i hi => ?_⟩
    obtain ⟨up, hu⟩ := hgroup i hi
    refine ⟨up, fun x hx hcx hxo y hy => ?_⟩
    obtain ⟨k, _, hk⟩ := hu x hx hcx hxo
    rw [(hk x).2 (hself i hi up x hx hcx), eq_comm, hk y]
    exact ⟨fun h => h.2, fun h => ⟨hy, h⟩⟩
  | true =>
    obtain ⟨f, f0, idx, lines, g1, g2, g3, g4, g5, _⟩ := any_anisotropic (P := P) (o := o) (ls := []) hm hp hcor
      (Or.inl ⟨hb, fun fls _ => hfit fls⟩)
    rw [h2] at g2
    cases g2
    refine ⟨f, idx, lines, g1, by rw [g5.length, g4], fun i hi => ?_⟩
    have hlines : ∀ k ∈ cls.flatten, k < lines.length := by
      intro k hk
      have : k ∈ lines := by
        rcases hexp with ⟨h, _⟩ | ⟨_, h⟩
        · subst h; simp at hk
        · have h8 := h.2
          simp only at h8
          rw [h8]
          exact hk
      rw [g3] at this
      exact List.mem_range.1 this
    obtain ⟨up, hu⟩ := hgroup i hi
    refine ⟨up, fun x hx hcx hxo y hy => ?_⟩
    obtain ⟨k, hkc, hk⟩ := hu x hx hcx hxo
    have hfk : ∀ j, f[j]? = some k ↔ f0[j]? = some k := fun j => g5.lines j k (hlines k hkc)
    rw [(hfk x).2 ((hk x).2 (hself i hi up x hx hcx)), eq_comm, hfk y, hk y]
    exact ⟨fun h => h.2, fun h => ⟨hy, h⟩⟩

/-- **C97** The same in doubles, told by the data: a Cartesian mesh with centers in doubles, the faces of a cell across the axis having one
weight and every other face at most 0.9 times that.  The lines may have to keep their direction (the default) or not. -/
theorem C97_doubles {P : Platform} {a : Args Dbl} {o : Outs} (hm : ValidMesh a n)
    (hp : ValidParams P a) (hb : BuildsLines a n) (hlim : lineLimit a = none) (hcpl : meantCoupling a = .maxWeight)
    (hpos : ∀ w ∈ a.values, Num.lt w (Num.ofNat 0) = false)
    (hg : IsGrid D ext n pos (Adj a.rowPtr a.colInd)) (hD : D ≤ 16) (hax : ax < D) (he : 2 ≤ ext ax)
    {X : Nat → Nat → Dbl} (hX : SteadySteps D ext X) (hc : PlacedAt D n pos X a.centers)
    (hall : ∀ i < n, i ∈ a.compliant ∧ IsAnisotropic (graphOf a) (meantThreshold a.thr) i)
    {A : Nat → Dbl}
    (hA : ∀ i < n, Num.lt (Num.mul Num.c090 (A i)) (A i) = true ∧ Num.lt (A i) (Num.ofNat 0) = false)
    (hw : ∀ i k j w, FaceAt (graphOf a) i k j → a.values[k]? = some w →
      (pos i ax ≠ pos j ax → w = A i) ∧
      (pos i ax = pos j ax → Num.lt (Num.mul Num.c090 (A i)) w = false ∧ Num.lt (A i) w = false)) :
    ∃ f idx lines, agglomerateOneLevel P a o = (⟨f, idx, lines⟩, .ok ()) ∧ f.length = n ∧
      ∀ i < n, ∃ up : Bool, ∀ x < n, SameColumn D ax (pos i) (pos x) →
        a.oddLine = true ∨ fromEnd (ext ax) up (pos x ax) / 2 < ext ax / 2 → ∀ y < n,
        (f[x]? = f[y]? ↔ SameColumn D ax (pos x) (pos y) ∧
          pairAt (ext ax) a.oddLine (fromEnd (ext ax) up (pos x ax)) = pairAt (ext ax) a.oddLine (fromEnd (ext ax) up (pos y ax))) := by
  have hs := hg.strong_along dbl_lawful hm hcpl hax he hA hw
  refine C97_columns dbl_lawful hm hp hb hlim ?_ (Or.inr (IsGrid.straight_dbl (g := graphOf a) hg hD hax hX hc hs)) hg hax he hall hs
  intro i j w h
  rw [hcpl] at h
  obtain ⟨k, _, hk⟩ := h
  exact hpos w (List.mem_of_getElem? hk)

/-! ### Example: three by two cells -/

def exPlanes : Args Int where
  rowPtr := [0, 2, 5, 7, 9, 12, 14]
  colInd := [1, 3, 0, 2, 4, 1, 5, 0, 4, 1, 3, 5, 2, 4]
  values := [10, 1, 10, 10, 1, 10, 1, 1, 10, 1, 10, 10, 1, 10]
  volumes := [1, 1, 1, 1, 1, 1]
  centers := [[0, 0], [1, 0], [3, 0], [0, 10], [1, 10], [3, 10]]
  prio := [3, 1, 4, 1, 5, 9]
  compliant := [0, 1, 2, 3, 4, 5]
  nBnd := [2, 1, 2, 2, 1, 2]
  buildLines := true
  isAniso := true
  oddLine := true
  thr := -1
  order := .boundary
  correction := true
  dim := 2
  goalCard := 4
  minCard := 4
  maxCard := 4
  aspect := .diamOverRadius
  singThresh := 1
  maxCells := none
  coupling := .maxWeight
  forceDir := true
  fcIter := 1
  nbh := .extended

def exPlanesD : Args Dbl := exPlanes.convert dblOf

theorem exPlanes_crs : ValidCRS 6 exPlanesD.rowPtr exPlanesD.colInd := checkCRS_sound (by decide)

theorem exPlanes_valid : ValidMesh exPlanesD 6 where
  pos := by decide
  crs := exPlanes_crs
  sym := checkSym_sound exPlanes_crs (by decide)
  uniq := Or.inl (checkUniq_sound exPlanes_crs (by decide))
  values := rfl
  volumes := rfl
  centers := rfl
  prio := rfl
  bnd := rfl
  coords := ⟨2, by
    intro c hc
    obtain ⟨d, hd, rfl⟩ := List.mem_map.1 hc
    rw [List.length_map]
    revert d
    decide⟩

theorem exPlanes_params : ValidParams exPlatform exPlanesD :=
  ⟨by decide, by decide, by decide, by decide, by decide, by decide, by decide, by decide,
    fun h => by rcases h with h | h <;> cases h⟩

theorem exPlanes_lines : BuildsLines exPlanesD 6 where
  on := rfl
  build := rfl
  compliant := by decide
  isolated _ _ := by
    intro i hi
    have : ∀ i < 6, rowOf exPlanesD.rowPtr exPlanesD.colInd i ≠ [] := by decide
    obtain ⟨j, hj⟩ := List.exists_mem_of_ne_nil _ (this i (by revert i; decide))
    exact ⟨j, adj_iff_rowOf.2 hj⟩

def exPlanesPos : List (List Nat) := [[0, 0], [1, 0], [2, 0], [0, 1], [1, 1], [2, 1]]

theorem exPlanes_grid : IsGrid 2 (fun ax => if ax = 0 then 3 else 2) 6 (posOf exPlanesPos) (Adj exPlanesD.rowPtr exPlanesD.colInd) := by
  refine isGrid_of exPlanes_crs (by decide) (by decide) ?_ ?_
  · intro v hv
    have key : ∀ x < 3, ∀ y < 2, ∃ c < 6, posOf exPlanesPos c 0 = x ∧ posOf exPlanesPos c 1 = y := by decide
    obtain ⟨c, hc, h0, h1⟩ := key (v 0) (hv 0 (by omega)) (v 1) (hv 1 (by omega))
    refine ⟨c, hc, fun ax hax => ?_⟩
    have : ax = 0 ∨ ax = 1 := by omega
    rcases this with rfl | rfl
    · exact h0
    · exact h1
  · have key : ∀ c < 6, ∀ c' < 6, (c' ∈ rowOf exPlanesD.rowPtr exPlanesD.colInd c ↔
        nextTo 2 (posOf exPlanesPos c) (posOf exPlanesPos c') = true) := by decide +kernel
    intro c hc c' hc'
    rw [key c hc c' hc', nextTo_iff]

def exPlanesX (b p : Nat) : Dbl := dblOf (if b = 0 then [0, 1, 3].getD p 0 else [0, 10].getD p 0)

theorem exPlanes_steps : SteadySteps 2 (fun ax => if ax = 0 then 3 else 2) exPlanesX := by
  have ex : ∀ b p : Nat, b < 2 → p < 3 → (if b = 0 then [0, 1, 3].getD p 0 else [0, 10].getD p 0 : Int).natAbs ≤ 2 ^ 53 := by
    have : ∀ b < 2, ∀ p < 3, (if b = 0 then [0, 1, 3].getD p 0 else [0, 10].getD p 0 : Int).natAbs ≤ 2 ^ 53 := by decide
    exact fun b p hb hp => this b hb p hp
  have three : ∀ b p : Nat, (p < if b = 0 then 3 else 2) → p < 3 := by intro b p h; split_ifs at h <;> omega
  have val : ∀ b p : Nat, b < 2 → p < 3 → (exPlanesX b p).Finite ∧ (exPlanesX b p).value = (if b = 0 then [0, 1, 3].getD p 0 else [0, 10].getD p 0 : Int) := by
    intro b p hb hp
    obtain ⟨h1, h2⟩ := Dbl.whole_exact (absLe (ex b p hb hp) le_rfl)
    exact ⟨h1, h2⟩
  refine ⟨fun b hb p hp => (val b p hb (three b p hp)).1, fun b hb p hp => ?_⟩
  rw [(val b (p + 1) hb (three b _ hp)).2, (val b p hb (three b p (Nat.lt_of_succ_lt hp))).2]
  have key : ∀ b < 2, ∀ p < 3, (p + 1 < if b = 0 then 3 else 2) →
      (1 : Int) ≤ (if b = 0 then [0, 1, 3].getD (p + 1) 0 else [0, 10].getD (p + 1) 0) - (if b = 0 then [0, 1, 3].getD p 0 else [0, 10].getD p 0) ∧
      (if b = 0 then [0, 1, 3].getD (p + 1) 0 else [0, 10].getD (p + 1) 0) - (if b = 0 then [0, 1, 3].getD p 0 else [0, 10].getD p 0) ≤ (10 : Int) := by
    decide
  obtain ⟨h1, h2⟩ := key b hb p (three b p (Nat.lt_of_succ_lt hp)) hp
  generalize (if b = 0 then [0, 1, 3].getD (p + 1) 0 else [0, 10].getD (p + 1) 0 : Int) = s at *
  generalize (if b = 0 then [0, 1, 3].getD p 0 else [0, 10].getD p 0 : Int) = t at *
  have h1' : (1 : ℚ) ≤ (s : ℚ) - t := by exact_mod_cast h1
  have h2' : (s : ℚ) - t ≤ 10 := by exact_mod_cast h2
  refine ⟨le_trans (zpow_le_one_of_nonpos₀ (by norm_num) (by norm_num)) h1', h2'.trans ?_⟩
  exact (show (10 : ℚ) ≤ (2 : ℚ) ^ (4 : Int) by norm_num).trans (zpow_le_zpow_right₀ (by norm_num) (by norm_num))

theorem exPlanes_placed : PlacedAt 2 6 (posOf exPlanesPos) exPlanesX exPlanesD.centers := by
  unfold PlacedAt
  decide +kernel

theorem exPlanes_weights (i k j : Nat) (w : Dbl) (hf : FaceAt (graphOf exPlanesD) i k j) (hw : exPlanesD.values[k]? = some w) :
    (posOf exPlanesPos i 0 ≠ posOf exPlanesPos j 0 → w = dblOf 10) ∧
      (posOf exPlanesPos i 0 = posOf exPlanesPos j 0 → Num.lt (Num.mul Num.c090 (dblOf 10)) w = false ∧ Num.lt (dblOf 10) w = false) := by
  have key : ∀ i < 6, ∀ k < 14, exPlanes.rowPtr.getD i 0 ≤ k ∧ k < exPlanes.rowPtr.getD (i + 1) 0 →
      exPlanesD.values.getD k (dblOf 0) = if posOf exPlanesPos i 0 = posOf exPlanesPos (exPlanes.colInd.getD k 0) 0 then dblOf 1 else dblOf 10 := by
    decide +kernel
  obtain ⟨b, e, hb, he, h1, h2, h3⟩ := hf
  have hb' : exPlanes.rowPtr[i]? = some b := hb
  have he' : exPlanes.rowPtr[i + 1]? = some e := he
  have h3' : exPlanes.colInd[k]? = some j := h3
  have hi : i < 6 := by
    have : i + 1 < 7 := (List.getElem?_eq_some_iff.1 he').1
    omega
  have hk : k < 14 := (List.getElem?_eq_some_iff.1 h3').1
  have ka := key i hi k hk ⟨by rw [List.getD_eq_getElem?_getD, hb']; exact h1, by rw [List.getD_eq_getElem?_getD, he']; exact h2⟩
  rw [List.getD_eq_getElem?_getD, List.getD_eq_getElem?_getD, hw, h3'] at ka
  simp only [Option.getD_some] at ka
  subst ka
  refine ⟨fun h => if_neg h, fun h => ?_⟩
  rw [if_pos h]
  decide +kernel

example := C97_doubles (P := exPlatform) (o := ⟨[], [], []⟩) (ax := 0) (A := fun _ => dblOf 10) exPlanes_valid exPlanes_params
  exPlanes_lines rfl rfl (by decide +kernel) exPlanes_grid (by decide) (by decide) (by decide) exPlanes_steps exPlanes_placed
  (fun i hi => ⟨by revert i; decide, Or.inl (by decide +kernel)⟩) (fun _ _ => by decide +kernel) exPlanes_weights

end CoMMA
