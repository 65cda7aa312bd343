import Verif.Lemmas.TakenCells
import Verif.Props.Columns
import Verif.Props.Direction
/-! # C99: boundary layers are paired from the wall, as far as the limit allows -/

set_option linter.unusedSectionVars false

namespace CoMMA

variable {W : Type} [Num W] {n : Nat} {col height len : Nat → Nat}

/-- of two cells exactly one is the end to start from -/
theorem frontFirst_swap (hW : LawfulLt W) (hE : EqExact W) {nBnd : List Nat} {prio : List W} {b t : Nat} (hb : b < nBnd.length)
    (ht : t < nBnd.length) (hb' : b < prio.length) (ht' : t < prio.length) (hne : b ≠ t) :
    FrontFirst nBnd prio t b ↔ ¬ FrontFirst nBnd prio b t := by
  have key : ∀ x y : Nat, (hx : x < nBnd.length) → (hy : y < nBnd.length) → (hx' : x < prio.length) → (hy' : y < prio.length) →
      (FrontFirst nBnd prio x y ↔ nBnd[y] < nBnd[x] ∨ (nBnd[x] = nBnd[y] ∧ (Num.lt prio[y] prio[x] = true ∨ (Num.eq prio[x] prio[y] = true ∧ x < y)))) := by
    intro x y hx hy hx' hy'
    constructor
    · rintro ⟨_, _, _, _, e1, e2, e3, e4, h⟩
      rw [List.getElem?_eq_getElem hx] at e1
      rw [List.getElem?_eq_getElem hy] at e2
      rw [List.getElem?_eq_getElem hx'] at e3
      rw [List.getElem?_eq_getElem hy'] at e4
      cases e1; cases e2; cases e3; cases e4
      exact h
    · intro h
      exact ⟨_, _, _, _, List.getElem?_eq_getElem hx, List.getElem?_eq_getElem hy, List.getElem?_eq_getElem hx', List.getElem?_eq_getElem hy', h⟩
  rw [key b t hb ht hb' ht', key t b ht hb ht' hb']
  generalize nBnd[b] = nb
  generalize nBnd[t] = nt
  generalize prio[b] = wb
  generalize prio[t] = wt
  have h0 : ∀ x y : W, Num.lt x y = true → Num.lt y x = false := by
    intro x y h
    cases hh : Num.lt y x with
    | false => rfl
    | true => have := hW.trans _ _ _ h hh; rw [hW.irrefl] at this; cases this
  rw [hE, hE]
  by_cases h1 : Num.lt wt wb = true
  · have h2 := h0 _ _ h1
    have h3 : wb ≠ wt := fun h => by rw [h, hW.irrefl] at h1; cases h1
    have h4 : wt ≠ wb := fun h => h3 h.symm
    simp only [h1, h2, h3, h4, Bool.false_eq_true, false_and, or_false, and_false, true_or, and_true]
    omega
  · by_cases h2 : Num.lt wb wt = true
    · have h3 : wb ≠ wt := fun h => by rw [h, hW.irrefl] at h2; cases h2
      have h4 : wt ≠ wb := fun h => h3 h.symm
      have h1 : Num.lt wt wb = false := by simpa using h1
      simp only [h1, h2, h3, h4, Bool.false_eq_true, false_and, false_or, or_false, and_false, true_or, and_true]
      omega
    · have h3 : wb = wt := hW.total _ _ (by simpa using h2) (by simpa using h1)
      subst h3
      simp only [h1, false_or, eq_self_iff_true, true_and, Bool.false_eq_true]
      omega

/-- **C99** Boundary layers as in C98, with any limit of the number of cells of a line.  Let `b` and `t` be the first and the last cell of a column of
two cells or more.  The column is paired from `b` if `b` has more boundary faces than `t` (counted up to the dimension), or as many and a
larger priority, or as many, the same priority and a smaller number; otherwise from `t`.  The cells at the places `2 k` and `2 k + 1` from there are
a coarse cell, as long as they are among the cells to be taken; no other cell is in it, except for the last single cell, if it is to be taken. -/
theorem C99_from_the_wall (hW : LawfulLt W) (hE : EqExact W) {P : Platform} {a : Args W} {o : Outs} (hm : ValidMesh a n)
    (hp : ValidParams P a) (hb : BuildsLines a n) (hns : NoSelfLoop a.rowPtr a.colInd)
    (hpos : NonnegCouplings (graphOf a) (meantCoupling a))
    (hforce : a.forceDir = false ∨ StraightChains (graphOf a) (meantCoupling a) (InLayers a))
    (hg : Stacked (InLayers a) col height len) (hs : StrongColumns (graphOf a) (meantCoupling a) (InLayers a) col height)
    (hfit : ∀ i, InLayers a i → ∀ m, lineLimit a = some m → ¬ (m % 2 = 1 ∧ 3 ≤ m ∧ (len (col i) : Int) + 1 = m)) :
    ∃ f idx lines, agglomerateOneLevel P a o = (⟨f, idx, lines⟩, .ok ()) ∧ f.length = n ∧
      ∀ b t, InLayers a b → InLayers a t → col b = col t → height b = 0 → height t + 1 = len (col b) → b ≠ t →
        ∃ up : Bool, (up = true ↔ FrontFirst (a.nBnd.map (fun k => min k a.dim.toNat)) a.prio b t) ∧
          ∀ x, InLayers a x → col x = col b →
            fromEnd (len (col b)) up (height x) < takenCells a.oddLine (lineLimit a) (len (col b)) → ∀ y < n,
            (f[x]? = f[y]? ↔ InLayers a y ∧ col y = col b ∧
              fromEnd (len (col b)) up (height y) < takenCells a.oddLine (lineLimit a) (len (col b)) ∧
              groupAt (takenCells a.oddLine (lineLimit a) (len (col b))) (fromEnd (len (col b)) up (height x)) =
                groupAt (takenCells a.oddLine (lineLimit a) (len (col b))) (fromEnd (len (col b)) up (height y))) := by
  obtain ⟨fls, h1, h4, htwo, hline, hlt, hcolumn, hcons⟩ := columns_fine (P := P) (o := o) hW hm hb hns hpos hforce hg hs
  have hlisted : ∀ l ∈ fls, ∀ i ∈ l, l.length = len (col i) := fun l hl i hi =>
    (hg.listed ((List.nodup_flatten.1 h4).1 l hl) (hcons l hl) (hlt l hl i hi) (hcolumn l hl i hi)).1
  have hfits : ∀ fls', fineLines P a o = .ok fls' → FitsLimit a fls' := by
    intro fls' h l hl m hm'
    rw [h1] at h
    cases h
    obtain ⟨i, hi⟩ := List.exists_mem_of_ne_nil l (fun h => by have := htwo l hl; rw [h] at this; simp at this)
    rw [hlisted l hl i hi]
    exact hfit i (hlt l hl i hi) m hm'
  have hm0 : ValidMesh { a with correction := false } n := { hm with }
  have hp0 : ValidParams P { a with correction := false } := { hp with }
  have hb0 : BuildsLines { a with correction := false } n := { hb with }
  obtain ⟨fls', out, h1', h2, h3, _, _, _⟩ := C40_built (P := P) (o := o) hW hm0 hp0 (fun h => nomatch h) hb0 (fun fls h => hfits fls h)
  have h1' : fineLines P a o = .ok fls' := h1'
  rw [h1] at h1'
  cases h1'
  obtain ⟨cls, gss, hexp, hpair, hden⟩ := h3.lines
  -- the group of a cell
  have hgroup : ∀ b t, InLayers a b → InLayers a t → col b = col t → height b = 0 → height t + 1 = len (col b) → b ≠ t →
        ∃ up : Bool, (up = true ↔ FrontFirst (a.nBnd.map (fun k => min k a.dim.toNat)) a.prio b t) ∧
          ∀ x, InLayers a x → col x = col b →
            fromEnd (len (col b)) up (height x) < takenCells a.oddLine (lineLimit a) (len (col b)) → ∃ k ∈ cls.flatten, ∀ j, out.fcToCc[j]? = some k ↔
            InLayers a j ∧ col j = col b ∧
              fromEnd (len (col b)) up (height j) < takenCells a.oddLine (lineLimit a) (len (col b)) ∧
              groupAt (takenCells a.oddLine (lineLimit a) (len (col b))) (fromEnd (len (col b)) up (height x)) =
                groupAt (takenCells a.oddLine (lineLimit a) (len (col b))) (fromEnd (len (col b)) up (height j)) := by
    intro b t hbT htT hbt hb0' ht0 hne
    generalize hc : col b = c at *
    have hc2 : 2 ≤ len c := by
      by_contra hlt2
      exact hne (hg.inj b t hbT htT (by rw [hc, hbt]) (by omega))
    obtain ⟨l, hl, hil⟩ := hline b hbT (by rw [hc]; exact hc2)
    obtain ⟨q, hq⟩ := List.mem_iff_getElem?.1 hl
    obtain ⟨hql, hq⟩ := List.getElem?_eq_some_iff.1 hq
    have hgl : q < gss.length := by rw [← hpair.length_eq]; exact hql
    have hcl : q < cls.length := by rw [← hden.length_eq]; exact hgl
    obtain ⟨l', hor, hpr⟩ := (List.forall₂_iff_get.1 hpair).2 q hql hgl
    have hdq := (List.forall₂_iff_get.1 hden).2 q hgl hcl
    simp only [List.get_eq_getElem, hq] at hor hpr hdq
    have hl' : l' = l ∨ l' = l.reverse := by
      obtain ⟨_, _, _, _, h | h⟩ := hor
      · exact Or.inl h.2
      · exact Or.inr h.2
    have hmem : ∀ x, x ∈ l' ↔ x ∈ l := by
      intro x
      rcases hl' with rfl | rfl <;> simp
    have hnd : l'.Nodup := by
      have : l.Nodup := (List.nodup_flatten.1 h4).1 l hl
      rcases hl' with rfl | rfl
      · exact this
      · exact List.nodup_reverse.2 this
    have hcons' : Consecutive (OnTop col height) l' := by
      rcases hl' with rfl | rfl
      · exact hcons _ hl
      · intro k u v hu hv
        have hk : k + 1 < l.length := by
          have := (List.getElem?_eq_some_iff.1 hv).1
          simpa using this
        rw [List.getElem?_reverse (by omega)] at hu hv
        refine (hcons l hl (l.length - 1 - (k + 1)) v u hv ?_).symm
        rw [← hu]
        congr 1
        omega
    have hcol' : ∀ x, x ∈ l' ↔ InLayers a x ∧ col x = col b := fun x => by rw [hmem, hcolumn l hl b hil]
    obtain ⟨hlen, hht⟩ := hg.listed hnd hcons' hbT hcol'
    rw [hc] at hlen hht hcol'
    have hnb : b < n := hb.compliant b hbT.1
    have hnt : t < n := hb.compliant t htT.1
    have hff := frontFirst_swap hW hE (nBnd := a.nBnd.map (fun k => min k a.dim.toNat)) (prio := a.prio) (b := b) (t := t)
      (by rw [List.length_map, hm.bnd]; exact hnb) (by rw [List.length_map, hm.bnd]; exact hnt) (by rw [hm.prio]; exact hnb)
      (by rw [hm.prio]; exact hnt) hne
    have hbl : b ∈ l' := (hcol' b).2 ⟨hbT, hc⟩
    have htl : t ∈ l' := (hcol' t).2 ⟨htT, hbt.symm⟩
    obtain ⟨up, hfront, hup⟩ : ∃ up : Bool, (up = true ↔ FrontFirst (a.nBnd.map (fun k => min k a.dim.toNat)) a.prio b t) ∧
        ∀ q x : Nat, l'[q]? = some x → fromEnd (len c) up (height x) = q := by
      -- the first and the last cell of the line as it is read
      obtain ⟨x0, hx0⟩ : ∃ x0, l'[0]? = some x0 := ⟨_, List.getElem?_eq_getElem (by omega)⟩
      obtain ⟨x1, hx1⟩ : ∃ x1, l'[l'.length - 1]? = some x1 := ⟨_, List.getElem?_eq_getElem (by omega)⟩
      have hstart : FrontFirst (a.nBnd.map (fun k => min k a.dim.toNat)) a.prio x0 x1 := by
        obtain ⟨fr, bk, e1, e2, h | h⟩ := hor
        · obtain ⟨h5, rfl⟩ := h
          rw [List.head?_eq_getElem?, hx0] at e1
          rw [List.getLast?_eq_getElem?, hx1] at e2
          cases e1; cases e2
          exact h5
        · obtain ⟨h5, rfl⟩ := h
          rw [List.length_reverse] at hx1
          have hll : 0 < l.length := by have := htwo l hl; omega
          rw [List.getElem?_reverse (by omega), Nat.sub_zero] at hx0
          rw [List.getElem?_reverse (by omega)] at hx1
          rw [List.head?_eq_getElem?] at e1
          rw [List.getLast?_eq_getElem?, hx0] at e2
          rw [show l.length - 1 - (l.length - 1) = 0 by omega, e1] at hx1
          cases e2
          have hx1 : fr = x1 := Option.some.inj hx1
          subst hx1
          have hx0n := hb.compliant x0 (hlt l hl x0 (List.mem_of_getElem? hx0)).1
          have hx1n := hb.compliant fr (hlt l hl fr (List.mem_of_getElem? e1)).1
          refine (frontFirst_swap hW hE (by rw [List.length_map, hm.bnd]; exact hx1n) (by rw [List.length_map, hm.bnd]; exact hx0n)
            (by rw [hm.prio]; exact hx1n) (by rw [hm.prio]; exact hx0n) ?_).2 h5
          rintro rfl
          have h6 := (List.getElem?_eq_some_iff.1 e1).2
          have h7 := (List.getElem?_eq_some_iff.1 hx0).2
          have := (List.Nodup.getElem_inj_iff ((List.nodup_flatten.1 h4).1 l hl)).1 (h6.trans h7.symm)
          have := htwo l hl
          omega
      have hx0l := (hcol' x0).1 (List.mem_of_getElem? hx0)
      have hx1l := (hcol' x1).1 (List.mem_of_getElem? hx1)
      rcases hht with h | h
      · refine ⟨true, ⟨fun _ => ?_, fun _ => rfl⟩, fun q x hx => h q x hx⟩
        have e1 : x0 = b := hg.inj x0 b hx0l.1 hbT (by rw [hx0l.2, hc]) (by rw [h 0 x0 hx0, hb0'])
        have e2 : x1 = t := hg.inj x1 t hx1l.1 htT (by rw [hx1l.2, hbt]) (by rw [h _ x1 hx1]; omega)
        rw [e1, e2] at hstart
        exact hstart
      · refine ⟨false, ⟨fun h => (nomatch h), fun h5 => ?_⟩, fun q x hx => ?_⟩
        · have e1 : x0 = t := hg.inj x0 t hx0l.1 htT (by rw [hx0l.2, hbt]) (by rw [h 0 x0 hx0]; omega)
          have e2 : x1 = b := hg.inj x1 b hx1l.1 hbT (by rw [hx1l.2, hc]) (by rw [h _ x1 hx1]; omega)
          rw [e1, e2] at hstart
          exact absurd h5 (hff.1 hstart)
        · have := (List.getElem?_eq_some_iff.1 hx).1
          show len c - 1 - height x = q
          rw [h q x hx]
          omega
    have hat : ∀ x ∈ l', l'[fromEnd (len c) up (height x)]? = some x := by
      intro x hx
      obtain ⟨p, hp⟩ := List.mem_iff_getElem?.1 hx
      rw [hup p x hp]
      exact hp
    have hpr' : Pairing a.oddLine (lineLimit a) l' gss[q] := hpr
    obtain ⟨htot, hcnt⟩ := hpr'.exact.total rfl (by omega) (fun _ _ => Or.inl rfl)
    simp only [Nat.zero_add, Nat.add_zero, hlen] at htot hcnt
    generalize htk : takenCells a.oddLine (lineLimit a) (len c) = tk at *
    have hfl : ∀ p x : Nat, gss[q].flatten[p]? = some x ↔ l'[p]? = some x ∧ p < tk := by
      intro p x
      obtain ⟨r, hr⟩ := hpr'.front
      constructor
      · intro h
        have hpl := (List.getElem?_eq_some_iff.1 h).1
        rw [← hr, List.getElem?_append_left hpl]
        exact ⟨h, by omega⟩
      · rintro ⟨h, hpt⟩
        rw [← hr, List.getElem?_append_left (by omega)] at h
        exact h
    refine ⟨up, hfront, fun x hx hcx hxo => ?_⟩
    have hxl : x ∈ l' := (hcol' x).2 ⟨hx, hcx⟩
    have hxf := (hfl _ x).2 ⟨hat x hxl, hxo⟩
    obtain ⟨grp, hgrp, hxg⟩ := List.mem_flatten.1 (List.mem_of_getElem? hxf)
    obtain ⟨r, hr⟩ := List.mem_iff_getElem?.1 hgrp
    have hga := groups_at hpr'.two r hr
    obtain ⟨hrl, hr'⟩ := List.getElem?_eq_some_iff.1 hr
    have hrc : r < cls[q].length := by rw [← hdq.length_eq]; exact hrl
    have hk := (List.forall₂_iff_get.1 hdq).2 r hrl hrc
    simp only [List.get_eq_getElem, hr'] at hk
    refine ⟨cls[q][r], List.mem_flatten.2 ⟨cls[q], List.getElem_mem hcl, List.getElem_mem hrc⟩, ?_⟩
    have hcnt' : gss[q].length = tk / 2 := by omega
    rw [hcnt'] at hga
    have hplace : ∀ j, j ∈ grp ↔ j ∈ l' ∧ fromEnd (len c) up (height j) < tk ∧ groupAt tk (fromEnd (len c) up (height j)) = r := by
      intro j
      rw [hga j]
      constructor
      · rintro ⟨p, hp, hmin⟩
        obtain ⟨h8, h9⟩ := (hfl p j).1 hp
        rw [hup p j h8]
        exact ⟨List.mem_of_getElem? h8, h9, hmin⟩
      · rintro ⟨h8, h9, h10⟩
        exact ⟨_, (hfl _ j).2 ⟨hat j h8, h9⟩, h10⟩
    have hxr := ((hplace x).1 hxg).2.2
    intro j
    rw [hk j, hplace j, hcol' j, and_assoc, hxr]
    exact and_congr_right fun _ => and_congr_right fun _ => and_congr_right fun _ => eq_comm
  cases hcor : a.correction with
  | false =>
    have : { a with correction := false } = a := by rw [← hcor]
    rw [this] at h2
    refine ⟨out.fcToCc, out.linesIdx, out.lines, h2, h3.len, fun b t g1 g2 g3 g4 g5 g6 => ?_⟩
    obtain ⟨up, hup, hu⟩ := hgroup b t g1 g2 g3 g4 g5 g6
    refine ⟨up, hup, fun x hx hcx hxo y hy => ?_⟩
    obtain ⟨k, _, hk⟩ := hu x hx hcx hxo
    rw [(hk x).2 ⟨hx, hcx, hxo, rfl⟩, eq_comm, hk y]
  | true =>
    obtain ⟨f, f0, idx, lines, g1, g2, g3, g4, g5, _⟩ := any_anisotropic (P := P) (o := o) (ls := []) hm hp hcor
      (Or.inl ⟨hb, hfits⟩)
    rw [h2] at g2
    cases g2
    refine ⟨f, idx, lines, g1, by rw [g5.length, g4], fun b t e1 e2 e3 e4 e5 e6 => ?_⟩
    have hlines : ∀ k ∈ cls.flatten, k < lines.length := by
      intro k hk
      have : k ∈ lines := by
        rcases hexp with ⟨h, _⟩ | ⟨_, h⟩
        · subst h; simp at hk
        · have h8 := h.2
          simp only at h8
          rw [h8]
          exact hk
      rw [g3] at this
      exact List.mem_range.1 this
    obtain ⟨up, hup, hu⟩ := hgroup b t e1 e2 e3 e4 e5 e6
    refine ⟨up, hup, fun x hx hcx hxo y hy => ?_⟩
    obtain ⟨k, hkc, hk⟩ := hu x hx hcx hxo
    have hfk : ∀ j, f[j]? = some k ↔ f0[j]? = some k := fun j => g5.lines j k (hlines k hkc)
    rw [(hfk x).2 ((hk x).2 ⟨hx, hcx, hxo, rfl⟩), eq_comm, hfk y, hk y]

/-! ## Concrete cases -/

theorem rat_eqExact : EqExact ℚ := fun _ _ => ⟨of_decide_eq_true, decide_eq_true⟩

/-- the two columns of four cells, two cells of each being allowed -/
def exTowerTwo : Args ℚ := { exTowerCall.onMesh exTower with maxCells := some 2 }

example := C99_from_the_wall rat_lawful rat_eqExact (P := exPlatform) (a := exTowerTwo) (o := ⟨[], [], []⟩) (n := 9)
  (col := (· / 4)) (height := (· % 4)) (len := fun _ => 4) { exTower_good.validMesh exTowerCall with }
  ⟨exWall_params.dim, exWall_params.minCard, exWall_params.goalCard, exWall_params.maxCard, exWall_params.iter,
    exWall_params.thresh, exWall_params.order, exWall_params.aspect, by rintro (h | h) <;> cases h⟩
  { on := rfl, build := rfl, compliant := by decide, isolated := fun _ _ i hi => by
      have : ∀ i < 9, rowOf exTower.adjIdx exTower.adj i ≠ [] := by decide
      obtain ⟨j, hj⟩ := List.exists_mem_of_ne_nil _ (this i (by revert i; decide))
      exact ⟨j, adj_iff_rowOf.2 hj⟩ }
  (checkNoLoop_sound exTower_crs (by decide)) (by
    rintro i j w ⟨k, _, hk⟩
    have : ∀ w ∈ exTower.weights, Num.lt w (Num.ofNat 0) = false := by decide +kernel
    exact this w (List.mem_of_getElem? hk)) (Or.inl rfl) exTower_stacked exTower_strong
  (fun i _ m hm h => by cases hm; omega)

/-- the first cells of the columns, with more boundary faces, are the ends to start from, and only the first two cells are taken -/
example : FrontFirst (exTowerTwo.nBnd.map (fun k => min k exTowerTwo.dim.toNat)) exTowerTwo.prio 0 3 ∧
    takenCells exTowerTwo.oddLine (lineLimit exTowerTwo) 4 = 2 :=
  ⟨⟨2, 1, 1, 4, rfl, rfl, rfl, rfl, Or.inl (by decide)⟩, by decide⟩

end CoMMA
