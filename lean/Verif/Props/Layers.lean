import Verif.Lemmas.Layers
import Verif.Props.Chains
import Verif.Props.AnyThreshold
import Verif.Props.Structured
import Verif.Lemmas.RoundedFeatures
/-! # C95: layers of a structured mesh -/

set_option linter.unusedSectionVars false

namespace CoMMA

variable {W : Type} [Num W] {D n ax : Nat} {ext : Nat → Nat} {pos : Nat → Nat → Nat}

/-- a list of the cells of a column, each one once, has as many cells as there are along the axis -/
theorem column_length {R : Nat → Nat → Prop} (hg : IsGrid D ext n pos R) (hax : ax < D) {l : List Nat} (hnd : l.Nodup) {i : Nat}
    (hi : i < n) (hl : ∀ x, x ∈ l ↔ x < n ∧ SameColumn D ax (pos i) (pos x)) : l.length = ext ax := by
  have hcol : ∀ x ∈ l, ∀ y ∈ l, SameColumn D ax (pos x) (pos y) := fun x hx y hy b hb hne => by
    rw [← ((hl x).1 hx).2 b hb hne, ((hl y).1 hy).2 b hb hne]
  have hheight : (l.map (fun x => pos x ax)).Nodup := by
    refine List.Nodup.map_on ?_ hnd
    intro x hx y hy h
    exact hg.eq_of ((hl x).1 hx).1 ((hl y).1 hy).1 (hcol x hx y hy) h
  have h1 : (l.map (fun x => pos x ax)).Perm (List.range (ext ax)) := by
    rw [List.perm_ext_iff_of_nodup hheight List.nodup_range]
    intro q
    rw [List.mem_map, List.mem_range]
    constructor
    · rintro ⟨x, hx, rfl⟩
      exact hg.range x ((hl x).1 hx).1 ax hax
    · intro hq
      obtain ⟨m, hm, hp⟩ := hg.surj (fun b => if b = ax then q else pos i b) (fun b hb => by
        have := hg.range i hi b hb
        by_cases h : b = ax
        · subst h; simp only [if_true]; omega
        · simp only [if_neg h]; omega)
      refine ⟨m, (hl m).2 ⟨hm, fun b hb hne => ?_⟩, ?_⟩
      · rw [hp b hb]; simp [hne]
      · rw [hp ax hax]; simp
  have := h1.length_eq
  simpa using this

/-- pairs of cells of a column, taken from an end of it -/
theorem column_pairs {R : Nat → Nat → Prop} (hg : IsGrid D ext n pos R) (hax : ax < D) (he : ext ax % 2 = 0) {l : List Nat} (hnd : l.Nodup)
    (hcons : Consecutive (fun u v => NextAlong D ax (pos u) (pos v)) l) {i : Nat} (hi : i < n)
    (hl : ∀ x, x ∈ l ↔ x < n ∧ SameColumn D ax (pos i) (pos x)) :
    l.length = ext ax ∧ ∀ t x y, l[2 * t]? = some x → l[2 * t + 1]? = some y →
      ∀ j, (j = x ∨ j = y) ↔ j < n ∧ SameColumn D ax (pos x) (pos j) ∧ pos x ax / 2 = pos j ax / 2 := by
  have hcol : ∀ x ∈ l, ∀ y ∈ l, SameColumn D ax (pos x) (pos y) := fun x hx y hy b hb hne => by
    rw [← ((hl x).1 hx).2 b hb hne, ((hl y).1 hy).2 b hb hne]
  have hlen := column_length hg hax hnd hi hl
  refine ⟨hlen, ?_⟩
  have hdir := steady (h := fun k => pos (l.getD k 0) ax) (m := l.length) (by
    intro a ha b hb hab
    simp only [List.getD_eq_getElem?_getD, List.getElem?_eq_getElem ha, List.getElem?_eq_getElem hb, Option.getD_some] at hab
    have := hg.eq_of ((hl _).1 (List.getElem_mem ha)).1 ((hl _).1 (List.getElem_mem hb)).1
      (hcol _ (List.getElem_mem ha) _ (List.getElem_mem hb)) hab
    exact (List.Nodup.getElem_inj_iff hnd).1 this) (by
    intro k hk
    have hk0 : k < l.length := by omega
    have := (hcons k _ _ (List.getElem?_eq_getElem hk0) (List.getElem?_eq_getElem hk)).1
    simp only [List.getD_eq_getElem?_getD, List.getElem?_eq_getElem hk0, List.getElem?_eq_getElem hk, Option.getD_some]
    exact this)
  intro t x y hx hy j
  have hxl := List.mem_of_getElem? hx
  have hyl := List.mem_of_getElem? hy
  have hxt : 2 * t < l.length := (List.getElem?_eq_some_iff.1 hx).1
  have hyt : 2 * t + 1 < l.length := (List.getElem?_eq_some_iff.1 hy).1
  have h0 : 0 < l.length := by omega
  have hx0 := hg.range _ ((hl _).1 (List.getElem_mem h0)).1 ax hax
  have hxr := hg.range x ((hl x).1 hxl).1 ax hax
  have hzl := List.getElem_mem (l := l) (n := l.length - 1) (by omega)
  have hzr := hg.range _ ((hl _).1 hzl).1 ax hax
  have hheights : pos x ax / 2 = pos y ax / 2 ∧ (pos x ax + 1 = pos y ax ∨ pos y ax + 1 = pos x ax) := by
    rcases hdir with h | h
    · have e1 := h (2 * t) hxt
      have e2 := h (2 * t + 1) hyt
      have e3 := h (l.length - 1) (by omega)
      simp only [List.getD_eq_getElem?_getD, hx, hy, List.getElem?_eq_getElem h0, Option.getD_some,
        List.getElem?_eq_getElem (show l.length - 1 < l.length by omega)] at e1 e2 e3
      omega
    · have e1 := h (2 * t) hxt
      have e2 := h (2 * t + 1) hyt
      have e3 := h (l.length - 1) (by omega)
      simp only [List.getD_eq_getElem?_getD, hx, hy, List.getElem?_eq_getElem h0, Option.getD_some,
        List.getElem?_eq_getElem (show l.length - 1 < l.length by omega)] at e1 e2 e3
      omega
  constructor
  · rintro (rfl | rfl)
    · exact ⟨((hl _).1 hxl).1, fun _ _ _ => rfl, rfl⟩
    · exact ⟨((hl _).1 hyl).1, hcol x hxl _ hyl, hheights.1⟩
  · rintro ⟨hj, hc, hh⟩
    have : pos j ax = pos x ax ∨ pos j ax = pos y ax := by omega
    rcases this with h | h
    · exact Or.inl (hg.eq_of hj ((hl x).1 hxl).1 (fun b hb hne => (hc b hb hne).symm) h)
    · refine Or.inr (hg.eq_of hj ((hl y).1 hyl).1 (fun b hb hne => ?_) h)
      rw [← hc b hb hne, hcol x hxl y hyl b hb hne]

/-- the lines of a structured mesh whose strong couplings are those along an axis are its columns -/
theorem grid_columns (hW : LawfulLt W) {P : Platform} {a : Args W} {o : Outs} (hm : ValidMesh a n)
    (hp : ValidParams P a) (hb : BuildsLines a n) (hlim : lineLimit a = none)
    (hpos : NonnegCouplings (graphOf a) (meantCoupling a)) (hforce : a.forceDir = false ∨ StraightChains (graphOf a) (meantCoupling a) (· < n))
    (hg : IsGrid D ext n pos (Adj a.rowPtr a.colInd)) (hax : ax < D) (he : 2 ≤ ext ax)
    (hall : ∀ i < n, i ∈ a.compliant ∧ IsAnisotropic (graphOf a) (meantThreshold a.thr) i)
    (hs : ∀ u < n, ∀ v < n, (StrongTo (graphOf a) (meantCoupling a) u v ↔ NextAlong D ax (pos u) (pos v))) :
    ∃ fls out, fineLines P a o = .ok fls ∧ agglomerateOneLevel P { a with correction := false } o = (out, .ok ()) ∧
      AnisoResult { a with correction := false } n fls out ∧ fls.flatten.Nodup ∧ (∀ i < n, ∃ l ∈ fls, i ∈ l) ∧
      (∀ l ∈ fls, ∀ i ∈ l, i < n) ∧
      (∀ l ∈ fls, ∀ i ∈ l, ∀ x, x ∈ l ↔ x < n ∧ SameColumn D ax (pos i) (pos x)) ∧
      ∀ l ∈ fls, Consecutive (fun u v => NextAlong D ax (pos u) (pos v)) l := by
  have hns : NoSelfLoop a.rowPtr a.colInd := by
    intro i h
    obtain ⟨_, _, b, _, h1, _⟩ := (hg.adj i i).1 h
    omega
  have hT : ∀ i, (i ∈ a.compliant ∧ IsAnisotropic (graphOf a) (meantThreshold a.thr) i) ↔ i < n :=
    fun i => ⟨fun h => hb.compliant i h.1, hall i⟩
  have hfit : ∀ fls : List (List Nat), FitsLimit a fls := fun fls l _ m h => by rw [hlim] at h; cases h
  have hm0 : ValidMesh { a with correction := false } n := { hm with }
  have hp0 : ValidParams P { a with correction := false } := { hp with }
  have hb0 : BuildsLines { a with correction := false } n := { hb with }
  obtain ⟨fls, out, h1, h2, h3, h4, h5, h6⟩ := C40_built (P := P) (o := o) hW hm0 hp0 (fun h => nomatch h) hb0 (fun fls _ => hfit fls)
  obtain ⟨fls', seeds, e1, e2, _, _, e5⟩ := C48_call (P := P) (o := o) hW hm0 hb0 hns hpos
  rw [h1] at e1
  cases e1
  have e5 : LinesFrom (graphOf a) (meantCoupling a) a.forceDir (· ∈ seeds) seeds fls := e5
  have hc := hg.chains hT hs
  have hf : a.forceDir = false ∨ StraightChains (graphOf a) (meantCoupling a)
      (fun i => i ∈ a.compliant ∧ IsAnisotropic (graphOf a) (meantThreshold a.thr) i) := by
    rw [show (fun i => i ∈ a.compliant ∧ IsAnisotropic (graphOf a) (meantThreshold a.thr) i) = (· < n) from
      funext fun i => propext (hT i)]
    exact hforce
  -- columns
  have hsame : ∀ i j, i ≠ j → i < n → j < n → ((∃ l ∈ fls, i ∈ l ∧ j ∈ l) ↔ SameColumn D ax (pos i) (pos j)) := by
    intro i j hne hi hj
    rw [e5.chains hc hf e2 hne (hall i hi) h4, hg.chained hax hT hs hi hj]
  have hlt : ∀ l ∈ fls, ∀ x ∈ l, x < n := fun l hl x hx => (hT x).1 (h6 x (List.mem_flatten.2 ⟨l, hl, hx⟩))
  have hline : ∀ i < n, ∃ l ∈ fls, i ∈ l := by
    intro i hi
    have hr := hg.range i hi ax hax
    obtain ⟨m, hmn, hpm⟩ := hg.surj (fun b => if b = ax then (if pos i ax = 0 then 1 else pos i ax - 1) else pos i b) (fun b hb => by
      have := hg.range i hi b hb
      by_cases h : b = ax
      · subst h; simp only [if_true]; split_ifs <;> omega
      · simp only [if_neg h]; omega)
    have hne : i ≠ m := by
      rintro rfl
      have := hpm ax hax
      simp only [if_true] at this
      split_ifs at this <;> omega
    obtain ⟨l, hl, h7, _⟩ := (hsame i m hne hi hmn).2 (fun b hb hbx => by rw [hpm b hb]; simp [hbx])
    exact ⟨l, hl, h7⟩
  have hcolumn : ∀ l ∈ fls, ∀ i ∈ l, ∀ x, x ∈ l ↔ x < n ∧ SameColumn D ax (pos i) (pos x) := by
    intro l hl i hi x
    have hin := hlt l hl i hi
    by_cases hne : i = x
    · subst hne
      exact ⟨fun _ => ⟨hin, fun _ _ _ => rfl⟩, fun _ => hi⟩
    · constructor
      · intro hx
        have hxn := hlt l hl x hx
        exact ⟨hxn, (hsame i x hne hin hxn).1 ⟨l, hl, hi, hx⟩⟩
      · rintro ⟨hxn, hcx⟩
        obtain ⟨l', hl', h7, h8⟩ := (hsame i x hne hin hxn).2 hcx
        have : l' = l := by
          by_contra hll
          obtain ⟨p, hp1⟩ := List.mem_iff_getElem?.1 hl
          obtain ⟨q, hq1⟩ := List.mem_iff_getElem?.1 hl'
          have hpw := (List.nodup_flatten.1 h4).2
          have hd : ∀ p q : Nat, p < q → ∀ r s, fls[p]? = some r → fls[q]? = some s → i ∈ r → i ∈ s → False := by
            intro p q hpq r s hr hs h1 h2
            obtain ⟨hp1, rfl⟩ := List.getElem?_eq_some_iff.1 hr
            obtain ⟨hq1, rfl⟩ := List.getElem?_eq_some_iff.1 hs
            exact (List.pairwise_iff_getElem.1 hpw p q hp1 hq1 hpq) h1 h2
          rcases Nat.lt_trichotomy p q with h | h | h
          · exact hd p q h l l' hp1 hq1 hi h7
          · subst h
            rw [hp1] at hq1
            exact hll (Option.some.inj hq1).symm
          · exact hd q p h l' l hq1 hp1 h7 hi
        rw [← this]
        exact h8
  have hcons : ∀ l ∈ fls, Consecutive (fun u v => NextAlong D ax (pos u) (pos v)) l := by
    intro l hl k u v hu hv
    have hun := hlt l hl u (List.mem_of_getElem? hu)
    have hvn := hlt l hl v (List.mem_of_getElem? hv)
    rcases e5.linkedChains hc hf (fun x hx => (e2 x).1 hx) l hl k u v hu hv with h | h
    · exact (hs u hun v hvn).1 h
    · exact ((hs v hvn u hun).1 h).symm
  exact ⟨fls, out, h1, h2, h3, h4, hline, hlt, hcolumn, hcons⟩

/-- **C95** A structured mesh whose strong couplings are those along one axis, all cells being anisotropic and compliant,
with an even number of cells along that axis: the lines are the columns, and the coarse cells are the pairs of cells of a
column, `2 k` and `2 k + 1` from its end, whatever the numbering, the other data and the isotropic settings. -/
theorem C95_layers (hW : LawfulLt W) {P : Platform} {a : Args W} {o : Outs} (hm : ValidMesh a n)
    (hp : ValidParams P a) (hb : BuildsLines a n) (hlim : lineLimit a = none)
    (hpos : NonnegCouplings (graphOf a) (meantCoupling a)) (hforce : a.forceDir = false ∨ StraightChains (graphOf a) (meantCoupling a) (· < n))
    (hg : IsGrid D ext n pos (Adj a.rowPtr a.colInd)) (hax : ax < D) (he : ext ax % 2 = 0)
    (hall : ∀ i < n, i ∈ a.compliant ∧ IsAnisotropic (graphOf a) (meantThreshold a.thr) i)
    (hs : ∀ u < n, ∀ v < n, (StrongTo (graphOf a) (meantCoupling a) u v ↔ NextAlong D ax (pos u) (pos v))) :
    ∃ f idx lines, agglomerateOneLevel P a o = (⟨f, idx, lines⟩, .ok ()) ∧ f.length = n ∧
      ∀ i < n, ∀ j < n, (f[i]? = f[j]? ↔ SameColumn D ax (pos i) (pos j) ∧ pos i ax / 2 = pos j ax / 2) := by
  have hfit : ∀ fls : List (List Nat), FitsLimit a fls := fun fls l _ m h => by rw [hlim] at h; cases h
  obtain ⟨fls, out, h1, h2, h3, h4, hline, hlt, hcolumn, hcons⟩ := grid_columns (P := P) (o := o) hW hm hp hb hlim hpos hforce hg hax
    (by have := hg.range 0 hm.pos ax hax; omega) hall hs
  obtain ⟨cls, gss, hexp, hpair, hden⟩ := h3.lines
  -- the group of a cell
  have hgroup : ∀ i < n, ∃ k ∈ cls.flatten, ∀ j, out.fcToCc[j]? = some k ↔
      j < n ∧ SameColumn D ax (pos i) (pos j) ∧ pos i ax / 2 = pos j ax / 2 := by
    intro i hi
    obtain ⟨l, hl, hil⟩ := hline i hi
    obtain ⟨q, hq⟩ := List.mem_iff_getElem?.1 hl
    obtain ⟨hql, hq⟩ := List.getElem?_eq_some_iff.1 hq
    have hgl : q < gss.length := by rw [← hpair.length_eq]; exact hql
    have hcl : q < cls.length := by rw [← hden.length_eq]; exact hgl
    obtain ⟨l', hor, hpr⟩ := (List.forall₂_iff_get.1 hpair).2 q hql hgl
    have hdq := (List.forall₂_iff_get.1 hden).2 q hgl hcl
    simp only [List.get_eq_getElem, hq] at hor hpr hdq
    have hl' : l' = l ∨ l' = l.reverse := by
      obtain ⟨_, _, _, _, h | h⟩ := hor
      · exact Or.inl h.2
      · exact Or.inr h.2
    have hmem : ∀ x, x ∈ l' ↔ x ∈ l := by
      intro x
      rcases hl' with rfl | rfl <;> simp
    have hnd : l'.Nodup := by
      have : l.Nodup := (List.nodup_flatten.1 h4).1 l hl
      rcases hl' with rfl | rfl
      · exact this
      · exact List.nodup_reverse.2 this
    have hcons' : Consecutive (fun u v => NextAlong D ax (pos u) (pos v)) l' := by
      rcases hl' with rfl | rfl
      · exact hcons _ hl
      · intro k u v hu hv
        have hk : k + 1 < l.length := by
          have := (List.getElem?_eq_some_iff.1 hv).1
          simpa using this
        rw [List.getElem?_reverse (by omega)] at hu hv
        refine (hcons l hl (l.length - 1 - (k + 1)) v u hv ?_).symm
        rw [← hu]
        congr 1
        omega
    obtain ⟨hlen, hprs⟩ := column_pairs hg hax he hnd hcons' hi (fun x => by rw [hmem, hcolumn l hl i hil])
    have hpr' : Pairing a.oddLine none l' gss[q] := by
      have h7 : Pairing a.oddLine (lineLimit a) l' gss[q] := hpr
      rwa [hlim] at h7
    obtain ⟨hflat, htwo⟩ := hpr'.pairs (by rw [hlen]; exact he)
    have hig : i ∈ gss[q].flatten := by rw [hflat, hmem]; exact hil
    obtain ⟨grp, hgrp, higrp⟩ := List.mem_flatten.1 hig
    obtain ⟨t, x, y, hxy, hx, hy⟩ := pairs_at htwo hgrp
    rw [hflat] at hx hy
    have hchar := hprs t x y hx hy
    obtain ⟨r, hr⟩ := List.mem_iff_getElem?.1 hgrp
    obtain ⟨hrl, hr⟩ := List.getElem?_eq_some_iff.1 hr
    have hrc : r < cls[q].length := by rw [← hdq.length_eq]; exact hrl
    have hk := (List.forall₂_iff_get.1 hdq).2 r hrl hrc
    simp only [List.get_eq_getElem, hr, hxy] at hk
    refine ⟨cls[q][r], List.mem_flatten.2 ⟨cls[q], List.getElem_mem hcl, List.getElem_mem hrc⟩, ?_⟩
    intro j
    have hxyi : i = x ∨ i = y := by rw [hxy] at higrp; simpa using higrp
    obtain ⟨_, hci, hhi⟩ := (hchar i).1 hxyi
    rw [hk j]
    simp only [List.mem_cons, List.not_mem_nil, or_false]
    rw [hchar j]
    constructor
    · rintro ⟨ha, hb, hc⟩
      exact ⟨ha, fun b hb' hne => by rw [← hci b hb' hne, hb b hb' hne], by omega⟩
    · rintro ⟨ha, hb, hc⟩
      exact ⟨ha, fun b hb' hne => by rw [hci b hb' hne, hb b hb' hne], by omega⟩
  have hf0 : ∀ i < n, ∀ j < n, (out.fcToCc[i]? = out.fcToCc[j]? ↔ SameColumn D ax (pos i) (pos j) ∧ pos i ax / 2 = pos j ax / 2) := by
    intro i hi j hj
    obtain ⟨k, _, hk⟩ := hgroup i hi
    rw [(hk i).2 ⟨hi, fun _ _ _ => rfl, rfl⟩, eq_comm, hk j]
    exact ⟨fun h => h.2, fun h => ⟨hj, h⟩⟩
  cases hcor : a.correction with
  | false =>
    have : { a with correction := false } = a := by rw [← hcor]
    rw [this] at h2
    exact ⟨out.fcToCc, out.linesIdx, out.lines, h2, h3.len, hf0⟩
  | true =>
    obtain ⟨f, f0, idx, lines, g1, g2, g3, g4, g5, _⟩ := any_anisotropic (P := P) (o := o) (ls := []) hm hp hcor
      (Or.inl ⟨hb, fun fls _ => hfit fls⟩)
    rw [h2] at g2
    cases g2
    refine ⟨f, idx, lines, g1, by rw [g5.length, g4], ?_⟩
    intro i hi j hj
    have hlines : ∀ k ∈ cls.flatten, k < lines.length := by
      intro k hk
      have : k ∈ lines := by
        rcases hexp with ⟨h, _⟩ | ⟨_, h⟩
        · subst h; simp at hk
        · have h8 := h.2
          simp only at h8
          rw [h8]
          exact hk
      rw [g3] at this
      exact List.mem_range.1 this
    have hff : ∀ i < n, f[i]? = f0[i]? := by
      intro i hi
      obtain ⟨k, hkc, hk⟩ := hgroup i hi
      have h7 : f0[i]? = some k := (hk i).2 ⟨hi, fun _ _ _ => rfl, rfl⟩
      rw [h7, (g5.lines i k (hlines k hkc)).2 h7]
    rw [hff i hi, hff j hj]
    exact hf0 i hi j hj

/-- the strong couplings of a structured mesh with equal weights along an axis and weaker ones across it -/
theorem IsGrid.strong_along (hW : LawfulLt W) {a : Args W} (hm : ValidMesh a n) (hcpl : meantCoupling a = .maxWeight)
    (hg : IsGrid D ext n pos (Adj a.rowPtr a.colInd)) (hax : ax < D) (h2 : 2 ≤ ext ax) {A : Nat → W}
    (hA : ∀ i < n, Num.lt (Num.mul Num.c090 (A i)) (A i) = true ∧ Num.lt (A i) (Num.ofNat 0) = false)
    (hw : ∀ i k j w, FaceAt (graphOf a) i k j → a.values[k]? = some w →
      (pos i ax ≠ pos j ax → w = A i) ∧
      (pos i ax = pos j ax → Num.lt (Num.mul Num.c090 (A i)) w = false ∧ Num.lt (A i) w = false)) :
    ∀ u < n, ∀ v < n, (StrongTo (graphOf a) (meantCoupling a) u v ↔ NextAlong D ax (pos u) (pos v)) := by
  have hval : ∀ i k j, FaceAt (graphOf a) i k j → ∃ w, a.values[k]? = some w := by
    rintro i k j ⟨_, _, _, _, _, _, h⟩
    have h' : a.colInd[k]? = some j := h
    have hk := (List.getElem?_eq_some_iff.1 h').1
    rw [← hm.values] at hk
    exact ⟨_, List.getElem?_eq_getElem hk⟩
  have hcoup : ∀ u v, NextAlong D ax (pos u) (pos v) → u < n → v < n → CouplingOf (graphOf a) (meantCoupling a) u v (A u) := by
    intro u v h hu hv
    have hadj : Adj a.rowPtr a.colInd u v := (hg.adj u v).2 ⟨hu, hv, ax, hax, h.1, h.2⟩
    obtain ⟨k, hk⟩ := faceAt_of_adj (g := graphOf a) hadj
    obtain ⟨w, hwk⟩ := hval u k v hk
    have := (hw u k v w hk hwk).1 (by rcases h.1 with h | h <;> omega)
    subst this
    rw [hcpl]
    exact ⟨k, hk, hwk⟩
  have hmax : ∀ u < n, ∀ m, StrongestOf (graphOf a) (meantCoupling a) u m → m = A u := by
    intro u hu m ⟨h3, h4⟩
    have h5 : Num.lt m (A u) = false := by
      have hr := hg.range u hu
      obtain ⟨v, hv, hp⟩ := hg.surj (fun b => if b = ax then (if pos u ax = 0 then 1 else pos u ax - 1) else pos u b) (fun b hb => by
        have := hr b hb
        have := hr ax hax
        by_cases hb : b = ax
        · subst hb; split_ifs <;> omega
        · rw [if_neg hb]; omega)
      refine h3 v (A u) (hcoup u v ⟨?_, fun b hb hne => ?_⟩ hu hv)
      · have := hp ax hax
        simp only [if_true] at this
        rw [this]
        split_ifs <;> omega
      · rw [hp b hb]; simp [hne]
    rcases h4 with ⟨v, h6⟩ | h6
    · rw [hcpl] at h6
      obtain ⟨k, hk, hkm⟩ := h6
      by_cases he : pos u ax = pos v ax
      · exact hW.total _ _ h5 ((hw u k v m hk hkm).2 he).2
      · exact (hw u k v m hk hkm).1 he
    · subst h6
      exact hW.total _ _ h5 (hA u hu).2
  have hstrongest : ∀ u < n, ∀ v < n, NextAlong D ax (pos u) (pos v) → StrongestOf (graphOf a) (meantCoupling a) u (A u) := by
    intro u hu v hv h
    refine ⟨?_, Or.inl ⟨v, hcoup u v h hu hv⟩⟩
    intro x w hxw
    rw [hcpl] at hxw
    obtain ⟨k, hk, hkw⟩ := hxw
    by_cases he : pos u ax = pos x ax
    · exact ((hw u k x w hk hkw).2 he).2
    · rw [(hw u k x w hk hkw).1 he]
      exact hW.irrefl _
  intro u hu v hv
  constructor
  · rintro ⟨w, hc, m, hs, hlt⟩
    rw [hmax u hu m hs] at hlt
    rw [hcpl] at hc
    obtain ⟨k, hk, hkw⟩ := hc
    obtain ⟨_, _, b, hb, h6, h7⟩ := (hg.adj u v).1 (FaceAt.adj hk)
    by_cases hba : b = ax
    · subst hba
      exact ⟨h6, h7⟩
    · have := ((hw u k v w hk hkw).2 (h7 ax hax (Ne.symm hba))).1
      rw [this] at hlt
      cases hlt
  · intro h
    exact ⟨A u, hcoup u v h hu hv, A u, hstrongest u hu v hv h, (hA u hu).1⟩

/-- **C95** The same, told by the weights: the faces of a cell across the axis have one weight, and every other face of the
cell has a weight of at most 0.9 times that (`A i`). -/
theorem C95_weights (hW : LawfulLt W) {P : Platform} {a : Args W} {o : Outs} (hm : ValidMesh a n)
    (hp : ValidParams P a) (hb : BuildsLines a n) (hlim : lineLimit a = none) (hcpl : meantCoupling a = .maxWeight)
    (hpos : ∀ w ∈ a.values, Num.lt w (Num.ofNat 0) = false) (hforce : a.forceDir = false ∨ StraightChains (graphOf a) (meantCoupling a) (· < n))
    (hg : IsGrid D ext n pos (Adj a.rowPtr a.colInd)) (hax : ax < D) (he : ext ax % 2 = 0)
    (hall : ∀ i < n, i ∈ a.compliant ∧ IsAnisotropic (graphOf a) (meantThreshold a.thr) i)
    {A : Nat → W}
    (hA : ∀ i < n, Num.lt (Num.mul Num.c090 (A i)) (A i) = true ∧ Num.lt (A i) (Num.ofNat 0) = false)
    (hw : ∀ i k j w, FaceAt (graphOf a) i k j → a.values[k]? = some w →
      (pos i ax ≠ pos j ax → w = A i) ∧
      (pos i ax = pos j ax → Num.lt (Num.mul Num.c090 (A i)) w = false ∧ Num.lt (A i) w = false)) :
    ∃ f idx lines, agglomerateOneLevel P a o = (⟨f, idx, lines⟩, .ok ()) ∧ f.length = n ∧
      ∀ i < n, ∀ j < n, (f[i]? = f[j]? ↔ SameColumn D ax (pos i) (pos j) ∧ pos i ax / 2 = pos j ax / 2) := by
  have h2 : 2 ≤ ext ax := by
    have := hg.range 0 hm.pos ax hax
    omega
  refine C95_layers hW hm hp hb hlim ?_ hforce hg hax he hall (hg.strong_along hW hm hcpl hax h2 hA hw)
  intro i j w h
  rw [hcpl] at h
  obtain ⟨k, _, hk⟩ := h
  exact hpos w (List.mem_of_getElem? hk)

/-! ### Example: four by two cells, faces across the first axis ten times larger -/

def exLayers : Args ℚ where
  rowPtr := exGrid.rowPtr
  colInd := exGrid.colInd
  values := [10, 10, 1, 1, 10, 1, 10, 10, 10, 1, 1, 10, 10, 1, 10, 1, 10, 1, 10, 10]
  volumes := [1, 1, 1, 1, 1, 1, 1, 1]
  centers := [[2, 10], [0, 0], [3, 0], [1, 10], [0, 10], [3, 10], [1, 0], [2, 0]]
  prio := [3, 1, 4, 1, 5, 9, 2, 6]
  compliant := [0, 1, 2, 3, 4, 5, 6, 7]
  nBnd := [1, 2, 2, 1, 2, 2, 1, 1]
  buildLines := true
  isAniso := true
  oddLine := true
  thr := -1
  order := .boundary
  correction := true
  dim := 2
  goalCard := 4
  minCard := 4
  maxCard := 4
  aspect := .diamOverRadius
  singThresh := 1
  maxCells := none
  coupling := .maxWeight
  forceDir := false
  fcIter := 1
  nbh := .extended

theorem exLayers_valid : ValidMesh exLayers 8 where
  pos := by decide
  crs := exGrid_crs
  sym := checkSym_sound exGrid_crs (by decide)
  uniq := Or.inl (checkUniq_sound exGrid_crs (by decide))
  values := rfl
  volumes := rfl
  centers := rfl
  prio := rfl
  bnd := rfl
  coords := ⟨2, by decide⟩

theorem exLayers_params : ValidParams exPlatform exLayers :=
  ⟨by decide, by decide, by decide, by decide, by decide, by decide, by decide, by decide,
    fun h => by rcases h with h | h <;> cases h⟩

theorem exLayers_thr : Num.lt (meantThreshold exLayers.thr) (Num.ofNat 0) = true := by decide +kernel

theorem exLayers_lines : BuildsLines exLayers 8 where
  on := rfl
  build := rfl
  compliant := by decide
  isolated _ _ := by
    intro i hi
    have : ∀ i < 8, ∃ j, j ∈ rowOf exGrid.rowPtr exGrid.colInd i := by
      intro i hi
      have : rowOf exGrid.rowPtr exGrid.colInd i ≠ [] := by revert i; decide +kernel
      exact List.exists_mem_of_ne_nil _ this
    obtain ⟨j, hj⟩ := this i (by revert i; decide)
    exact ⟨j, adj_iff_rowOf.2 hj⟩

theorem exLayers_weights (i k j : Nat) (w : ℚ) (hf : FaceAt (graphOf exLayers) i k j) (hw : exLayers.values[k]? = some w) :
    (posOf exGridPos i 0 ≠ posOf exGridPos j 0 → w = 10) ∧
      (posOf exGridPos i 0 = posOf exGridPos j 0 → Num.lt (Num.mul Num.c090 (10 : ℚ)) w = false ∧ Num.lt (10 : ℚ) w = false) := by
  have key : ∀ i < 8, ∀ k < 20, exGrid.rowPtr.getD i 0 ≤ k ∧ k < exGrid.rowPtr.getD (i + 1) 0 →
      exLayers.values.getD k 0 = if posOf exGridPos i 0 = posOf exGridPos (exGrid.colInd.getD k 0) 0 then 1 else 10 := by
    decide +kernel
  obtain ⟨b, e, hb, he, h1, h2, h3⟩ := hf
  have hb' : exGrid.rowPtr[i]? = some b := hb
  have he' : exGrid.rowPtr[i + 1]? = some e := he
  have h3' : exGrid.colInd[k]? = some j := h3
  have hi : i < 8 := by
    have : i + 1 < 9 := (List.getElem?_eq_some_iff.1 he').1
    omega
  have hk : k < 20 := (List.getElem?_eq_some_iff.1 h3').1
  have ka := key i hi k hk ⟨by rw [List.getD_eq_getElem?_getD, hb']; exact h1, by rw [List.getD_eq_getElem?_getD, he']; exact h2⟩
  rw [List.getD_eq_getElem?_getD, List.getD_eq_getElem?_getD, hw, h3'] at ka
  simp only [Option.getD_some] at ka
  subst ka
  refine ⟨fun h => if_neg h, fun h => ?_⟩
  rw [if_pos h]
  decide +kernel

theorem exLayers_all (i : Nat) (hi : i < 8) :
    i ∈ exLayers.compliant ∧ IsAnisotropic (graphOf exLayers) (meantThreshold exLayers.thr) i :=
  ⟨by revert i; decide, Or.inl exLayers_thr⟩

example := C95_weights rat_lawful (P := exPlatform) (o := ⟨[], [], []⟩) (ax := 0) (A := fun _ => 10) exLayers_valid exLayers_params
  exLayers_lines rfl rfl (by decide +kernel) (Or.inl rfl) exGrid_grid (by decide) (by decide) exLayers_all
  (fun _ _ => by decide +kernel) exLayers_weights

theorem exLayers_strong : ∀ u < 8, ∀ v < 8, (StrongTo (graphOf exLayers) (meantCoupling exLayers) u v ↔
    NextAlong 2 0 (posOf exGridPos u) (posOf exGridPos v)) :=
  exGrid_grid.strong_along rat_lawful exLayers_valid rfl (by decide) (by decide) (A := fun _ => 10)
    (fun _ _ => by decide +kernel) exLayers_weights

theorem exLayers_nonneg : NonnegCouplings (graphOf exLayers) (meantCoupling exLayers) := by
  rintro i j w ⟨k, _, hk⟩
  have : ∀ w ∈ exLayers.values, Num.lt w (Num.ofNat 0) = false := by decide +kernel
  exact this w (List.mem_of_getElem? hk)

example := C95_layers rat_lawful (P := exPlatform) (o := ⟨[], [], []⟩) (ax := 0) exLayers_valid exLayers_params exLayers_lines rfl
  exLayers_nonneg (Or.inl rfl) exGrid_grid (by decide) (by decide) exLayers_all exLayers_strong

example := C94_chains rat_lawful (P := exPlatform) (o := ⟨[], [], []⟩) exLayers_valid exLayers_params (fun _ => Or.inl rfl) exLayers_lines
  (by intro _ _ l _ m h; cases h) (checkNoLoop_sound exGrid_crs (by decide)) exLayers_nonneg
  (exGrid_grid.chains (ax := 0) (fun i => ⟨fun h => exLayers_lines.compliant i h.1, exLayers_all i⟩) exLayers_strong) (Or.inl rfl)

end CoMMA
