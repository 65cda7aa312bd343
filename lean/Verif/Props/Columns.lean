import Verif.Lemmas.Columns
import Verif.Props.LayersAny
/-! # C98: boundary layers on any mesh -/

set_option linter.unusedSectionVars false

namespace CoMMA

variable {W : Type} [Num W] {n : Nat} {col height len : Nat → Nat}

/-- the lines of boundary layers are the columns of two cells or more -/
theorem columns_fine (hW : LawfulLt W) {P : Platform} {a : Args W} {o : Outs} (hm : ValidMesh a n)
    (hb : BuildsLines a n) (hns : NoSelfLoop a.rowPtr a.colInd)
    (hpos : NonnegCouplings (graphOf a) (meantCoupling a))
    (hforce : a.forceDir = false ∨ StraightChains (graphOf a) (meantCoupling a) (InLayers a))
    (hg : Stacked (InLayers a) col height len) (hs : StrongColumns (graphOf a) (meantCoupling a) (InLayers a) col height) :
    ∃ fls, fineLines P a o = .ok fls ∧ fls.flatten.Nodup ∧ (∀ l ∈ fls, 2 ≤ l.length) ∧
      (∀ i, InLayers a i → 2 ≤ len (col i) → ∃ l ∈ fls, i ∈ l) ∧
      (∀ l ∈ fls, ∀ i ∈ l, InLayers a i) ∧
      (∀ l ∈ fls, ∀ i ∈ l, ∀ x, x ∈ l ↔ InLayers a x ∧ col x = col i) ∧
      ∀ l ∈ fls, Consecutive (OnTop col height) l := by
  obtain ⟨fls, h1, h4, h5, _, h6'⟩ := fineLines_build (P := P) (o := o) hm hb
  have h6 : ∀ x ∈ fls.flatten, InLayers a x := by
    intro x hx
    obtain ⟨u, v⟩ := h6' x hx
    have hg := linesInput_of hm hb
    exact ⟨u, (isTagged_iff hW hg.crs hg.sizes.values (by rw [graphOf_nbC hm]; exact hb.compliant x u)).1 v⟩
  obtain ⟨fls', seeds, e1, e2, _, _, e5⟩ := C48_call (P := P) (o := o) hW hm hb hns hpos
  rw [h1] at e1
  cases e1
  have e5 : LinesFrom (graphOf a) (meantCoupling a) a.forceDir (· ∈ seeds) seeds fls := e5
  have e2 : ∀ i, i ∈ seeds ↔ InLayers a i := e2
  have hc := hg.chains hs
  have hsame : ∀ i j, i ≠ j → InLayers a i → InLayers a j → ((∃ l ∈ fls, i ∈ l ∧ j ∈ l) ↔ col i = col j) := by
    intro i j hne hi hj
    rw [e5.chains hc hforce e2 hne hi h4, hg.chained hs hi hj]
  have hlt : ∀ l ∈ fls, ∀ x ∈ l, InLayers a x := fun l hl x hx => h6 x (List.mem_flatten.2 ⟨l, hl, hx⟩)
  have hline : ∀ i, InLayers a i → 2 ≤ len (col i) → ∃ l ∈ fls, i ∈ l := by
    intro i hi h2
    obtain ⟨m, hmn, hcm, hhm⟩ := hg.full i hi (if height i = 0 then 1 else 0) (by split_ifs <;> omega)
    have hne : i ≠ m := by
      rintro rfl
      split_ifs at hhm <;> omega
    obtain ⟨l, hl, h7, _⟩ := (hsame i m hne hi hmn).2 hcm.symm
    exact ⟨l, hl, h7⟩
  have hcolumn : ∀ l ∈ fls, ∀ i ∈ l, ∀ x, x ∈ l ↔ InLayers a x ∧ col x = col i := by
    intro l hl i hi x
    have hin := hlt l hl i hi
    by_cases hne : i = x
    · subst hne
      exact ⟨fun _ => ⟨hin, rfl⟩, fun _ => hi⟩
    · constructor
      · intro hx
        have hxn := hlt l hl x hx
        exact ⟨hxn, ((hsame i x hne hin hxn).1 ⟨l, hl, hi, hx⟩).symm⟩
      · rintro ⟨hxn, hcx⟩
        obtain ⟨l', hl', h7, h8⟩ := (hsame i x hne hin hxn).2 hcx.symm
        have : l' = l := by
          by_contra hll
          obtain ⟨p, hp1⟩ := List.mem_iff_getElem?.1 hl
          obtain ⟨q, hq1⟩ := List.mem_iff_getElem?.1 hl'
          have hpw := (List.nodup_flatten.1 h4).2
          have hd : ∀ p q : Nat, p < q → ∀ r s, fls[p]? = some r → fls[q]? = some s → i ∈ r → i ∈ s → False := by
            intro p q hpq r s hr hs h1 h2
            obtain ⟨hp1, rfl⟩ := List.getElem?_eq_some_iff.1 hr
            obtain ⟨hq1, rfl⟩ := List.getElem?_eq_some_iff.1 hs
            exact (List.pairwise_iff_getElem.1 hpw p q hp1 hq1 hpq) h1 h2
          rcases Nat.lt_trichotomy p q with h | h | h
          · exact hd p q h l l' hp1 hq1 hi h7
          · subst h
            rw [hp1] at hq1
            exact hll (Option.some.inj hq1).symm
          · exact hd q p h l' l hq1 hp1 h7 hi
        rw [← this]
        exact h8
  have hcons : ∀ l ∈ fls, Consecutive (OnTop col height) l := by
    intro l hl k u v hu hv
    have hun := hlt l hl u (List.mem_of_getElem? hu)
    have hvn := hlt l hl v (List.mem_of_getElem? hv)
    rcases e5.linkedChains hc hforce (fun x hx => (e2 x).1 hx) l hl k u v hu hv with h | h
    · exact (hs u v hun hvn).1 h
    · exact ((hs v u hvn hun).1 h).symm
  exact ⟨fls, h1, h4, h5, hline, hlt, hcolumn, hcons⟩

/-- … and the call succeeds -/
theorem columns_lines (hW : LawfulLt W) {P : Platform} {a : Args W} {o : Outs} (hm : ValidMesh a n)
    (hp : ValidParams P a) (hb : BuildsLines a n) (hlim : lineLimit a = none) (hns : NoSelfLoop a.rowPtr a.colInd)
    (hpos : NonnegCouplings (graphOf a) (meantCoupling a))
    (hforce : a.forceDir = false ∨ StraightChains (graphOf a) (meantCoupling a) (InLayers a))
    (hg : Stacked (InLayers a) col height len) (hs : StrongColumns (graphOf a) (meantCoupling a) (InLayers a) col height) :
    ∃ fls out, fineLines P a o = .ok fls ∧ agglomerateOneLevel P { a with correction := false } o = (out, .ok ()) ∧
      AnisoResult { a with correction := false } n fls out ∧ fls.flatten.Nodup ∧
      (∀ i, InLayers a i → 2 ≤ len (col i) → ∃ l ∈ fls, i ∈ l) ∧
      (∀ l ∈ fls, ∀ i ∈ l, InLayers a i) ∧
      (∀ l ∈ fls, ∀ i ∈ l, ∀ x, x ∈ l ↔ InLayers a x ∧ col x = col i) ∧
      ∀ l ∈ fls, Consecutive (OnTop col height) l := by
  have hfit : ∀ fls : List (List Nat), FitsLimit a fls := fun fls l _ m h => by rw [hlim] at h; cases h
  have hm0 : ValidMesh { a with correction := false } n := { hm with }
  have hp0 : ValidParams P { a with correction := false } := { hp with }
  have hb0 : BuildsLines { a with correction := false } n := { hb with }
  obtain ⟨fls, out, h1, h2, h3, _, _, _⟩ := C40_built (P := P) (o := o) hW hm0 hp0 (fun h => nomatch h) hb0 (fun fls _ => hfit fls)
  obtain ⟨fls', e1, h4, _, hline, hlt, hcolumn, hcons⟩ := columns_fine (P := P) (o := o) hW hm hb hns hpos hforce hg hs
  have h1 : fineLines P a o = .ok fls := h1
  rw [h1] at e1
  cases e1
  exact ⟨fls, out, h1, h2, h3, h4, hline, hlt, hcolumn, hcons⟩

/-- **C98** Boundary layers on any mesh, also an unstructured one: the anisotropic compliant cells are stacked in columns, which need not have the
same number of cells, and among them the strong couplings are those of cells on top of each other.  Every
column has an end (`up` tells which) from which it is paired, whatever the rest of the mesh is: the coarse cells are the pairs of
cells at the places `2 k` and `2 k + 1` from that end.  If the number of cells is odd, the last cell joins the last pair, if odd lengths
are allowed, and otherwise nothing is said of it. -/
theorem C98_columns (hW : LawfulLt W) {P : Platform} {a : Args W} {o : Outs} (hm : ValidMesh a n)
    (hp : ValidParams P a) (hb : BuildsLines a n) (hlim : lineLimit a = none) (hns : NoSelfLoop a.rowPtr a.colInd)
    (hpos : NonnegCouplings (graphOf a) (meantCoupling a))
    (hforce : a.forceDir = false ∨ StraightChains (graphOf a) (meantCoupling a) (InLayers a))
    (hg : Stacked (InLayers a) col height len) (hs : StrongColumns (graphOf a) (meantCoupling a) (InLayers a) col height) :
    ∃ f idx lines, agglomerateOneLevel P a o = (⟨f, idx, lines⟩, .ok ()) ∧ f.length = n ∧
      ∀ c, 2 ≤ len c → ∃ up : Bool, ∀ x, InLayers a x → col x = c →
        a.oddLine = true ∨ fromEnd (len c) up (height x) / 2 < len c / 2 → ∀ y < n,
        (f[x]? = f[y]? ↔ InLayers a y ∧ col y = c ∧
          pairAt (len c) a.oddLine (fromEnd (len c) up (height x)) = pairAt (len c) a.oddLine (fromEnd (len c) up (height y))) := by
  have hfit : ∀ fls : List (List Nat), FitsLimit a fls := fun fls l _ m h => by rw [hlim] at h; cases h
  obtain ⟨fls, out, h1, h2, h3, h4, hline, hlt, hcolumn, hcons⟩ := columns_lines (P := P) (o := o) hW hm hp hb hlim hns hpos hforce hg hs
  obtain ⟨cls, gss, hexp, hpair, hden⟩ := h3.lines
  -- the group of a cell
  have hgroup : ∀ c, 2 ≤ len c → ∃ up : Bool, ∀ x, InLayers a x → col x = c →
      a.oddLine = true ∨ fromEnd (len c) up (height x) / 2 < len c / 2 → ∃ k ∈ cls.flatten, ∀ j, out.fcToCc[j]? = some k ↔
      InLayers a j ∧ col j = c ∧
        pairAt (len c) a.oddLine (fromEnd (len c) up (height x)) = pairAt (len c) a.oddLine (fromEnd (len c) up (height j)) := by
    intro c hc2
    by_cases hex : ∃ i, InLayers a i ∧ col i = c
    swap
    · exact ⟨true, fun x hx hcx => absurd ⟨x, hx, hcx⟩ hex⟩
    obtain ⟨i, hi, hic⟩ := hex
    obtain ⟨l, hl, hil⟩ := hline i hi (by rw [hic]; exact hc2)
    obtain ⟨q, hq⟩ := List.mem_iff_getElem?.1 hl
    obtain ⟨hql, hq⟩ := List.getElem?_eq_some_iff.1 hq
    have hgl : q < gss.length := by rw [← hpair.length_eq]; exact hql
    have hcl : q < cls.length := by rw [← hden.length_eq]; exact hgl
    obtain ⟨l', hor, hpr⟩ := (List.forall₂_iff_get.1 hpair).2 q hql hgl
    have hdq := (List.forall₂_iff_get.1 hden).2 q hgl hcl
    simp only [List.get_eq_getElem, hq] at hor hpr hdq
    have hl' : l' = l ∨ l' = l.reverse := by
      obtain ⟨_, _, _, _, h | h⟩ := hor
      · exact Or.inl h.2
      · exact Or.inr h.2
    have hmem : ∀ x, x ∈ l' ↔ x ∈ l := by
      intro x
      rcases hl' with rfl | rfl <;> simp
    have hnd : l'.Nodup := by
      have : l.Nodup := (List.nodup_flatten.1 h4).1 l hl
      rcases hl' with rfl | rfl
      · exact this
      · exact List.nodup_reverse.2 this
    have hcons' : Consecutive (OnTop col height) l' := by
      rcases hl' with rfl | rfl
      · exact hcons _ hl
      · intro k u v hu hv
        have hk : k + 1 < l.length := by
          have := (List.getElem?_eq_some_iff.1 hv).1
          simpa using this
        rw [List.getElem?_reverse (by omega)] at hu hv
        refine (hcons l hl (l.length - 1 - (k + 1)) v u hv ?_).symm
        rw [← hu]
        congr 1
        omega
    have hcol' : ∀ x, x ∈ l' ↔ InLayers a x ∧ col x = col i := fun x => by rw [hmem, hcolumn l hl i hil]
    obtain ⟨hlen, hht⟩ := hg.listed hnd hcons' hi hcol'
    rw [hic] at hlen hht hcol'
    obtain ⟨up, hup⟩ : ∃ up : Bool, ∀ q x : Nat, l'[q]? = some x → fromEnd (len c) up (height x) = q := by
      rcases hht with h | h
      · exact ⟨true, fun q x hx => h q x hx⟩
      · refine ⟨false, fun q x hx => ?_⟩
        have := (List.getElem?_eq_some_iff.1 hx).1
        show len c - 1 - height x = q
        rw [h q x hx]
        omega
    have hat : ∀ x ∈ l', l'[fromEnd (len c) up (height x)]? = some x := by
      intro x hx
      obtain ⟨p, hp⟩ := List.mem_iff_getElem?.1 hx
      rw [hup p x hp]
      exact hp
    have hpr' : Pairing a.oddLine none l' gss[q] := by
      have h7 : Pairing a.oddLine (lineLimit a) l' gss[q] := hpr
      rwa [hlim] at h7
    obtain ⟨hcnt, hodd, heven⟩ := hpr'.count
    have hfl : ∀ p x : Nat, gss[q].flatten[p]? = some x ↔ l'[p]? = some x ∧ (a.oddLine = true ∨ p / 2 < len c / 2) := by
      intro p x
      cases ho : a.oddLine with
      | true => rw [hodd ho]; simp
      | false =>
        rw [(heven ho).1, hlen, List.getElem?_take]
        constructor
        · intro h
          split_ifs at h with h8
          exact ⟨h, Or.inr (by omega)⟩
        · rintro ⟨h8, h9 | h9⟩
          · cases h9
          · rw [if_pos (by omega)]; exact h8
    refine ⟨up, fun x hx hcx hxo => ?_⟩
    have hxl : x ∈ l' := (hcol' x).2 ⟨hx, hcx⟩
    have hxf := (hfl _ x).2 ⟨hat x hxl, hxo⟩
    obtain ⟨grp, hgrp, hxg⟩ := List.mem_flatten.1 (List.mem_of_getElem? hxf)
    obtain ⟨r, hr⟩ := List.mem_iff_getElem?.1 hgrp
    have hga := groups_at hpr'.two r hr
    obtain ⟨hrl, hr'⟩ := List.getElem?_eq_some_iff.1 hr
    have hrc : r < cls[q].length := by rw [← hdq.length_eq]; exact hrl
    have hk := (List.forall₂_iff_get.1 hdq).2 r hrl hrc
    simp only [List.get_eq_getElem, hr'] at hk
    refine ⟨cls[q][r], List.mem_flatten.2 ⟨cls[q], List.getElem_mem hcl, List.getElem_mem hrc⟩, ?_⟩
    rw [hcnt, hlen] at hga
    have hplace : ∀ j, j ∈ grp ↔ j ∈ l' ∧ (a.oddLine = true ∨ fromEnd (len c) up (height j) / 2 < len c / 2) ∧
        min (fromEnd (len c) up (height j) / 2) (len c / 2 - 1) = r := by
      intro j
      rw [hga j]
      constructor
      · rintro ⟨p, hp, hmin⟩
        obtain ⟨h8, h9⟩ := (hfl p j).1 hp
        rw [hup p j h8]
        exact ⟨List.mem_of_getElem? h8, h9, hmin⟩
      · rintro ⟨h8, h9, h10⟩
        exact ⟨_, (hfl _ j).2 ⟨hat j h8, h9⟩, h10⟩
    have hxr := ((hplace x).1 hxg).2.2
    intro j
    rw [hk j, hplace j, hcol' j, and_assoc]
    refine and_congr_right fun hj => and_congr_right fun _ => ?_
    unfold pairAt
    cases ho : a.oddLine with
    | true =>
      simp only [true_or, true_and, if_true]
      rw [hxr, eq_comm]
    | false =>
      rw [ho] at hxo
      have hxo : fromEnd (len c) up (height x) / 2 < len c / 2 := by simpa using hxo
      simp only [Bool.false_eq_true, false_or, if_false]
      omega
  cases hcor : a.correction with
  | false =>
    have : { a with correction := false } = a := by rw [← hcor]
    rw [this] at h2
    refine ⟨out.fcToCc, out.linesIdx, out.lines, h2, h3.len, fun c hc2 => ?_⟩
    obtain ⟨up, hu⟩ := hgroup c hc2
    refine ⟨up, fun x hx hcx hxo y hy => ?_⟩
    obtain ⟨k, _, hk⟩ := hu x hx hcx hxo
    rw [(hk x).2 ⟨hx, hcx, rfl⟩, eq_comm, hk y]
  | true =>
    obtain ⟨f, f0, idx, lines, g1, g2, g3, g4, g5, _⟩ := any_anisotropic (P := P) (o := o) (ls := []) hm hp hcor
      (Or.inl ⟨hb, fun fls _ => hfit fls⟩)
    rw [h2] at g2
    cases g2
    refine ⟨f, idx, lines, g1, by rw [g5.length, g4], fun c hc2 => ?_⟩
    have hlines : ∀ k ∈ cls.flatten, k < lines.length := by
      intro k hk
      have : k ∈ lines := by
        rcases hexp with ⟨h, _⟩ | ⟨_, h⟩
        · subst h; simp at hk
        · have h8 := h.2
          simp only at h8
          rw [h8]
          exact hk
      rw [g3] at this
      exact List.mem_range.1 this
    obtain ⟨up, hu⟩ := hgroup c hc2
    refine ⟨up, fun x hx hcx hxo y hy => ?_⟩
    obtain ⟨k, hkc, hk⟩ := hu x hx hcx hxo
    have hfk : ∀ j, f[j]? = some k ↔ f0[j]? = some k := fun j => g5.lines j k (hlines k hkc)
    rw [(hfk x).2 ((hk x).2 ⟨hx, hcx, rfl⟩), eq_comm, hfk y, hk y]

/-- **C98** Boundary layers through several levels: a first call builds the lines, the others follow them.  If the columns have
numbers of cells that are multiples of `2 ^ k`, `k` the number of levels, the cells that end up in the same coarsest cell as a cell
of a column are the cells of that column whose height divided by `2 ^ k` is the same. -/
theorem C98_levels (hW : LawfulLt W) {P : Platform} {z : Int} (hz : z ≤ 0) {above : Prop}
    (a : Args W) (levels : List (MeshData W → Outs → Args W)) {g : MeshData W} (hg : GoodMesh g n)
    (hab : above → PrioritiesAbove g) (o : Outs) (hp : ValidParams P (a.onMesh g)) (hcor : CorrectsSingletons (a.onMesh g))
    (hb : BuildsLines (a.onMesh g) n) (hlim : lineLimit (a.onMesh g) = none) (hns : NoSelfLoop g.adjIdx g.adj)
    (hpos : NonnegCouplings (graphOf (a.onMesh g)) (meantCoupling (a.onMesh g)))
    (hforce : a.forceDir = false ∨ StraightChains (graphOf (a.onMesh g)) (meantCoupling (a.onMesh g)) (InLayers (a.onMesh g)))
    (hst : Stacked (InLayers (a.onMesh g)) col height len)
    (hs : StrongColumns (graphOf (a.onMesh g)) (meantCoupling (a.onMesh g)) (InLayers (a.onMesh g)) col height)
    (hsome : ∃ i, InLayers (a.onMesh g) i)
    (he : ∀ i, InLayers (a.onMesh g) i → len (col i) % 2 ^ (levels.length + 1) = 0)
    (hl : ∀ s ∈ levels, ∀ g' o' n', GoodMesh g' n' → n' ≤ n → (above → PrioritiesAbove g') →
      UsesLines P ((s g' o').onMesh g')) :
    ∃ maps gN, runLevels P z ((fun _ _ => a) :: levels) g o = .ok (maps, gN) ∧
      ∀ i < n, ∀ j, InLayers (a.onMesh g) j → (composeMaps maps i = composeMaps maps j ↔ InLayers (a.onMesh g) i ∧ col i = col j ∧
        height i / 2 ^ (levels.length + 1) = height j / 2 ^ (levels.length + 1)) := by
  have hm := hg.validMesh a
  have hfit : ∀ fls : List (List Nat), FitsLimit (a.onMesh g) fls := fun fls l _ m h => by rw [hlim] at h; cases h
  obtain ⟨fls, _, h1, _, _, h4, hline, hlt, hcolumn, hcons⟩ := columns_lines (P := P) (o := o) hW hm hp hb hlim hns hpos hforce hst hs
  have hext : ∀ i, InLayers (a.onMesh g) i → ∃ c, len (col i) = 2 * (2 ^ levels.length * c) ∧ 2 ≤ len (col i) := by
    intro i hi
    obtain ⟨c, hc⟩ := Nat.dvd_of_mod_eq_zero (he i hi)
    have h0 : len (col i) = 2 * (2 ^ levels.length * c) := by
      rw [hc, pow_succ, Nat.mul_comm (2 ^ levels.length) 2, Nat.mul_assoc]
    have := hst.range i hi
    exact ⟨c, h0, by omega⟩
  obtain ⟨fls', out, g1, hcall, hres, _, htwo, _⟩ := C40_built (P := P) (o := o) hW hm hp hcor hb (fun fls _ => hfit fls)
  rw [h1] at g1
  cases g1
  have hnonempty : ∀ l ∈ fls, l ≠ [] := fun l hl' h => by
    have := (htwo l hl').1
    rw [h, List.length_nil] at this
    omega
  have hcl : ∀ l ∈ fls, ∀ i ∈ l, l.length = len (col i) ∧
      ((∀ q x : Nat, l[q]? = some x → height x = q) ∨ ∀ q x : Nat, l[q]? = some x → height x = len (col i) - 1 - q) := by
    intro l hl' i hi
    exact hst.listed ((List.nodup_flatten.1 h4).1 l hl') (hcons l hl') (hlt l hl' i hi) (hcolumn l hl' i hi)
  obtain ⟨cls, hexp, hhalf⟩ := hres.lines.halved hlim (fun l hl' => by
    obtain ⟨i, hi⟩ := List.exists_mem_of_ne_nil _ (hnonempty l hl')
    obtain ⟨c, hc, _⟩ := hext i (hlt l hl' i hi)
    rw [(hcl l hl' i hi).1, hc]; omega)
  obtain ⟨g', N, hmade, hon⟩ := level_exports hz hg ⟨hp, hcor, Or.inr (Or.inl ⟨hb, fun fls _ => hfit fls⟩)⟩
    (withLines_iff.2 (by
      unfold anisoOn
      rw [hb.on, hb.build]; rfl)) (fun h => by
        have : (a.onMesh g).buildLines = true := hb.build
        have h' : (a.onMesh g).buildLines = false := h
        rw [this] at h'
        cases h') hcall hexp
  have hlen' : ∀ l ∈ fls, ∀ l', Halved out.fcToCc l l' → l' ≠ [] ∧ l'.length % 2 ^ levels.length = 0 := by
    intro l hl' l' hh
    obtain ⟨i, hi⟩ := List.exists_mem_of_ne_nil _ (hnonempty l hl')
    obtain ⟨c, hc, hc2⟩ := hext i (hlt l hl' i hi)
    have h5 := (hcl l hl' i hi).1
    have h6 := hh.1
    have : l'.length = 2 ^ levels.length * c := by omega
    refine ⟨fun h => by rw [h, List.length_nil] at h6; omega, ?_⟩
    rw [this]
    exact Nat.mul_mod_right _ _
  have hback : ∀ l' ∈ cls, ∃ l ∈ fls, Halved out.fcToCc l l' := by
    intro l' hl'
    obtain ⟨q, hq⟩ := List.mem_iff_getElem?.1 hl'
    obtain ⟨hq1, hq2⟩ := List.getElem?_eq_some_iff.1 hq
    have hq3 : q < fls.length := by rw [hhalf.length_eq]; exact hq1
    refine ⟨fls[q], List.getElem_mem hq3, ?_⟩
    have := (List.forall₂_iff_get.1 hhalf).2 q hq3 hq1
    simpa [hq2] using this
  have hforward : ∀ l ∈ fls, ∃ l' ∈ cls, Halved out.fcToCc l l' := by
    intro l hl'
    obtain ⟨q, hq⟩ := List.mem_iff_getElem?.1 hl'
    obtain ⟨hq1, hq2⟩ := List.getElem?_eq_some_iff.1 hq
    have hq3 : q < cls.length := by rw [← hhalf.length_eq]; exact hq1
    refine ⟨cls[q], List.getElem_mem hq3, ?_⟩
    have := (List.forall₂_iff_get.1 hhalf).2 q hq1 hq3
    simpa [hq2] using this
  have hle := hmade.le
  obtain ⟨i0, hi0⟩ := hsome
  obtain ⟨l0, hl0, _⟩ := hline i0 hi0 (hext i0 hi0).choose_spec.2
  obtain ⟨maps, gN, hrun, hstr⟩ := C96_followed (P := P) hz (hW.irrefl _) (above := above) levels hmade.good
    (fun hh => hmade.above (hW.irrefl _) (hab hh)) hon (by
      rintro rfl
      obtain ⟨l', hl', _⟩ := hforward l0 hl0
      simp at hl') (fun l' hl' => by
        obtain ⟨l, hl1, hh⟩ := hback l' hl'
        exact hlen' l hl1 l' hh)
    (fun s hs g' o' n' h1 h2 h3 => hl s hs g' o' n' h1 (by omega) h3)
  refine ⟨out.fcToCc :: maps, gN, ?_, ?_⟩
  · unfold runLevels
    rw [hmade.call]
    simp only [hmade.build, hrun]
  · intro i hi j hj
    obtain ⟨l, hl', hjl⟩ := hline j hj (hext j hj).choose_spec.2
    obtain ⟨l', hl1, hh⟩ := hforward l hl'
    have hS := hh.stretches (g := composeMaps maps) (Nat.pow_pos (by omega)) hmade.len (fun k hk => (hmade.all k).1 hk)
      (hlen' l hl' _ hh).2 (hstr l' hl1)
    obtain ⟨p, hp1⟩ := List.mem_iff_getElem?.1 hjl
    have h7 := hS p j hp1 i hi
    have hpow : 2 ^ (levels.length + 1) = 2 * 2 ^ levels.length := by rw [pow_succ, Nat.mul_comm]
    have hej := he j hj
    rw [hpow]
    rw [hpow] at hej
    show (out.fcToCc[i]?).bind (composeMaps maps) = (out.fcToCc[j]?).bind (composeMaps maps) ↔ _
    rw [h7]
    obtain ⟨hL, hht⟩ := hcl l hl' j hjl
    have hpl := (List.getElem?_eq_some_iff.1 hp1).1
    have hpp : 0 < 2 * 2 ^ levels.length := Nat.mul_pos (by omega) (Nat.pow_pos (by omega))
    have hheight : ∀ q : Nat, l[q]? = some i → (q / (2 * 2 ^ levels.length) = p / (2 * 2 ^ levels.length) ↔
        height i / (2 * 2 ^ levels.length) = height j / (2 * 2 ^ levels.length)) := by
      intro q hq
      have hql := (List.getElem?_eq_some_iff.1 hq).1
      rcases hht with h | h
      · rw [h q i hq, h p j hp1]
      · rw [h q i hq, h p j hp1]
        exact (stretch_reverse hpp hej (by omega) (by omega)).symm
    constructor
    · rintro ⟨q, hq, hqp⟩
      have hil := List.mem_of_getElem? hq
      obtain ⟨h8, h9⟩ := (hcolumn l hl' j hjl i).1 hil
      exact ⟨h8, h9, (hheight q hq).1 hqp⟩
    · rintro ⟨hil, hcolij, hdiv⟩
      obtain ⟨q, hq⟩ := List.mem_iff_getElem?.1 ((hcolumn l hl' j hjl i).2 ⟨hil, hcolij⟩)
      exact ⟨q, hq, (hheight q hq).2 hdiv⟩

/-- the strong couplings of the cells of columns, told by the weights of the faces: those of the faces between cells on top of each
other are the largest ones of the cell, and the faces shared with other cells of the layers have at most 0.9 times that -/
theorem strongColumns_of_weights (hW : LawfulLt W) {a : Args W} (hm : ValidMesh a n) (hcpl : meantCoupling a = .maxWeight)
    (hg : Stacked (InLayers a) col height len) (h2 : ∀ i, InLayers a i → 2 ≤ len (col i))
    (hadj : ∀ u v, InLayers a u → InLayers a v → OnTop col height u v → Adj a.rowPtr a.colInd u v) {A : Nat → W}
    (hA : ∀ i, InLayers a i → Num.lt (Num.mul Num.c090 (A i)) (A i) = true ∧ Num.lt (A i) (Num.ofNat 0) = false)
    (hw : ∀ i k j w, InLayers a i → FaceAt (graphOf a) i k j → a.values[k]? = some w →
      Num.lt (A i) w = false ∧ (InLayers a j → OnTop col height i j → w = A i) ∧
      (InLayers a j → ¬ OnTop col height i j → Num.lt (Num.mul Num.c090 (A i)) w = false)) :
    StrongColumns (graphOf a) (meantCoupling a) (InLayers a) col height := by
  have hcoup : ∀ u v, InLayers a u → InLayers a v → OnTop col height u v → CouplingOf (graphOf a) (meantCoupling a) u v (A u) := by
    intro u v hu hv h
    obtain ⟨k, hk⟩ := faceAt_of_adj (g := graphOf a) (hadj u v hu hv h)
    obtain ⟨w, hwk⟩ : ∃ w, a.values[k]? = some w := by
      obtain ⟨_, _, _, _, _, _, h⟩ := hk
      have h' : a.colInd[k]? = some v := h
      have hk := (List.getElem?_eq_some_iff.1 h').1
      rw [← hm.values] at hk
      exact ⟨_, List.getElem?_eq_getElem hk⟩
    have := (hw u k v w hu hk hwk).2.1 hv h
    subst this
    rw [hcpl]
    exact ⟨k, hk, hwk⟩
  have hbound : ∀ u x w, InLayers a u → CouplingOf (graphOf a) (meantCoupling a) u x w → Num.lt (A u) w = false := by
    intro u x w hu hxw
    rw [hcpl] at hxw
    obtain ⟨k, hk, hkw⟩ := hxw
    exact (hw u k x w hu hk hkw).1
  have hmax : ∀ u, InLayers a u → ∀ m, StrongestOf (graphOf a) (meantCoupling a) u m → m = A u := by
    intro u hu m ⟨h3, h4⟩
    have hr := hg.range u hu
    have := h2 u hu
    obtain ⟨v, hv, hcv, hhv⟩ := hg.full u hu (if height u = 0 then 1 else height u - 1) (by split_ifs <;> omega)
    have h5 := h3 v (A u) (hcoup u v hu hv ⟨hcv.symm, by rw [hhv]; split_ifs <;> omega⟩)
    rcases h4 with ⟨v, h6⟩ | h6
    · exact hW.total _ _ h5 (hbound u v m hu h6)
    · subst h6
      exact hW.total _ _ h5 (hA u hu).2
  intro u v hu hv
  constructor
  · rintro ⟨w, hc, m, hs, hlt⟩
    rw [hmax u hu m hs] at hlt
    rw [hcpl] at hc
    obtain ⟨k, hk, hkw⟩ := hc
    by_contra hno
    rw [(hw u k v w hu hk hkw).2.2 hv hno] at hlt
    cases hlt
  · intro h
    exact ⟨A u, hcoup u v hu hv h, A u, ⟨fun x w hxw => hbound u x w hu hxw, Or.inl ⟨v, hcoup u v hu hv h⟩⟩, (hA u hu).1⟩

/-- **C98** Boundary layers told by the weights of the faces, lines not having to keep their direction. -/
theorem C98_weights (hW : LawfulLt W) {P : Platform} {a : Args W} {o : Outs} (hm : ValidMesh a n)
    (hp : ValidParams P a) (hb : BuildsLines a n) (hlim : lineLimit a = none) (hns : NoSelfLoop a.rowPtr a.colInd)
    (hcpl : meantCoupling a = .maxWeight) (hpos : ∀ w ∈ a.values, Num.lt w (Num.ofNat 0) = false) (hforce : a.forceDir = false)
    (hg : Stacked (InLayers a) col height len) (h2 : ∀ i, InLayers a i → 2 ≤ len (col i))
    (hadj : ∀ u v, InLayers a u → InLayers a v → OnTop col height u v → Adj a.rowPtr a.colInd u v) {A : Nat → W}
    (hA : ∀ i, InLayers a i → Num.lt (Num.mul Num.c090 (A i)) (A i) = true ∧ Num.lt (A i) (Num.ofNat 0) = false)
    (hw : ∀ i k j w, InLayers a i → FaceAt (graphOf a) i k j → a.values[k]? = some w →
      Num.lt (A i) w = false ∧ (InLayers a j → OnTop col height i j → w = A i) ∧
      (InLayers a j → ¬ OnTop col height i j → Num.lt (Num.mul Num.c090 (A i)) w = false)) :
    ∃ f idx lines, agglomerateOneLevel P a o = (⟨f, idx, lines⟩, .ok ()) ∧ f.length = n ∧
      ∀ c, 2 ≤ len c → ∃ up : Bool, ∀ x, InLayers a x → col x = c →
        a.oddLine = true ∨ fromEnd (len c) up (height x) / 2 < len c / 2 → ∀ y < n,
        (f[x]? = f[y]? ↔ InLayers a y ∧ col y = c ∧
          pairAt (len c) a.oddLine (fromEnd (len c) up (height x)) = pairAt (len c) a.oddLine (fromEnd (len c) up (height y))) := by
  refine C98_columns hW hm hp hb hlim hns ?_ (Or.inl hforce) hg (strongColumns_of_weights hW hm hcpl hg h2 hadj hA hw)
  intro i j w h
  rw [hcpl] at h
  obtain ⟨k, _, hk⟩ := h
  exact hpos w (List.mem_of_getElem? hk)

/-! ## Concrete cases -/

/-- the cells 0, 1 and the cells 2, 3, 4 are columns on a wall, the cells 5 and 6 are isotropic -/
def exWall : Args ℚ where
  rowPtr := [0, 2, 6, 8, 11, 14, 17, 18]
  colInd := [1, 2, 0, 3, 4, 5, 0, 3, 1, 2, 4, 1, 3, 5, 1, 4, 6, 5]
  values := [10, 1, 10, 1, 1, 5, 1, 10, 1, 10, 10, 1, 10, 5, 5, 5, 5, 5]
  volumes := [1, 1, 1, 1, 1, 3, 4]
  centers := [[0, 0], [0, 1], [9, 0], [9, 1], [8, 2], [4, 4], [4, 9]]
  prio := [3, 1, 4, 1, 5, 9, 2]
  compliant := [0, 1, 2, 3, 4, 5, 6]
  nBnd := [2, 1, 2, 1, 1, 0, 3]
  buildLines := true
  isAniso := true
  oddLine := true
  thr := 4
  order := .boundary
  correction := true
  dim := 2
  goalCard := 4
  minCard := 4
  maxCard := 4
  aspect := .diamOverRadius
  singThresh := 1
  maxCells := none
  coupling := .maxWeight
  forceDir := false
  fcIter := 1
  nbh := .extended

theorem exWall_crs : ValidCRS 7 exWall.rowPtr exWall.colInd := checkCRS_sound (by decide)

theorem exWall_valid : ValidMesh exWall 7 where
  pos := by decide
  crs := exWall_crs
  sym := checkSym_sound exWall_crs (by decide)
  uniq := Or.inl (checkUniq_sound exWall_crs (by decide))
  values := rfl
  volumes := rfl
  centers := rfl
  prio := rfl
  bnd := rfl
  coords := ⟨2, by decide⟩

theorem exWall_params : ValidParams exPlatform exWall :=
  ⟨by decide, by decide, by decide, by decide, by decide, by decide, by decide, by decide,
    fun h => by rcases h with h | h <;> cases h⟩

theorem exWall_lines : BuildsLines exWall 7 where
  on := rfl
  build := rfl
  compliant := by decide
  isolated _ _ := by
    intro i hi
    have : ∀ i < 7, rowOf exWall.rowPtr exWall.colInd i ≠ [] := by decide
    obtain ⟨j, hj⟩ := List.exists_mem_of_ne_nil _ (this i (by revert i; decide))
    exact ⟨j, adj_iff_rowOf.2 hj⟩

/-- the layers are the cells 0 to 4 -/
theorem exWall_layers (i : Nat) : InLayers exWall i ↔ i < 5 := by
  have key : ∀ i < 7, (isTagged (graphOf exWall) (meantThreshold exWall.thr) i = true ↔ i < 5) := by decide +kernel
  have hin : ∀ i, i ∈ exWall.compliant ↔ i < 7 := by
    intro i
    show i ∈ [0, 1, 2, 3, 4, 5, 6] ↔ _
    simp
    omega
  unfold InLayers
  rw [hin]
  constructor
  · rintro ⟨h1, h2⟩
    exact (key i h1).1 ((isTagged_iff rat_lawful exWall_crs rfl h1).2 h2)
  · intro h
    have h1 : i < 7 := by omega
    exact ⟨h1, (isTagged_iff rat_lawful exWall_crs rfl h1).1 ((key i h1).2 h)⟩

def exWallCol (i : Nat) : Nat := [0, 0, 1, 1, 1].getD i 0
def exWallHeight (i : Nat) : Nat := [0, 1, 0, 1, 2].getD i 0
def exWallLen (c : Nat) : Nat := [2, 3].getD c 0

theorem exWall_stacked : Stacked (InLayers exWall) exWallCol exWallHeight exWallLen where
  inj := by
    simp only [exWall_layers]
    have : ∀ u < 5, ∀ v < 5, exWallCol u = exWallCol v → exWallHeight u = exWallHeight v → u = v := by decide
    exact fun u v hu hv => this u hu v hv
  range := by
    simp only [exWall_layers]
    decide
  full := by
    simp only [exWall_layers]
    have : ∀ u < 5, ∀ q < exWallLen (exWallCol u), ∃ v < 5, exWallCol v = exWallCol u ∧ exWallHeight v = q := by decide
    exact this

instance {col height : Nat → Nat} (u v : Nat) : Decidable (OnTop col height u v) := by unfold OnTop; infer_instance

theorem exWall_weights (i k j : Nat) (w : ℚ) (hi : InLayers exWall i) (hf : FaceAt (graphOf exWall) i k j) (hw : exWall.values[k]? = some w) :
    Num.lt (10 : ℚ) w = false ∧ (InLayers exWall j → OnTop exWallCol exWallHeight i j → w = 10) ∧
      (InLayers exWall j → ¬ OnTop exWallCol exWallHeight i j → Num.lt (Num.mul Num.c090 (10 : ℚ)) w = false) := by
  rw [exWall_layers] at hi
  rw [exWall_layers]
  have k1 : ∀ k < 18, Num.lt (10 : ℚ) (exWall.values.getD k 0) = false := by decide +kernel
  have k2 : ∀ i < 5, ∀ k < 18, exWall.rowPtr.getD i 0 ≤ k ∧ k < exWall.rowPtr.getD (i + 1) 0 →
      exWall.colInd.getD k 0 < 5 → if OnTop exWallCol exWallHeight i (exWall.colInd.getD k 0) then exWall.values.getD k 0 = 10
        else Num.lt (Num.mul Num.c090 (10 : ℚ)) (exWall.values.getD k 0) = false := by decide +kernel
  obtain ⟨b, e, hb, he, h1, h2, h3⟩ := hf
  have hb' : exWall.rowPtr[i]? = some b := hb
  have he' : exWall.rowPtr[i + 1]? = some e := he
  have h3' : exWall.colInd[k]? = some j := h3
  have hk : k < 18 := (List.getElem?_eq_some_iff.1 h3').1
  have ka := k2 i hi k hk ⟨by rw [List.getD_eq_getElem?_getD, hb']; exact h1, by rw [List.getD_eq_getElem?_getD, he']; exact h2⟩
  have kb := k1 k hk
  rw [List.getD_eq_getElem?_getD, hw] at kb
  rw [List.getD_eq_getElem?_getD, List.getD_eq_getElem?_getD, hw, h3'] at ka
  exact ⟨kb, fun h4 h5 => (if_pos h5).mp (ka h4), fun h4 h5 => (if_neg h5).mp (ka h4)⟩

theorem exWall_adj (u v : Nat) (hu : InLayers exWall u) (hv : InLayers exWall v) (h : OnTop exWallCol exWallHeight u v) :
    Adj exWall.rowPtr exWall.colInd u v := by
  rw [exWall_layers] at hu hv
  have : ∀ u < 5, ∀ v < 5, OnTop exWallCol exWallHeight u v → v ∈ rowOf exWall.rowPtr exWall.colInd u := by decide +kernel
  exact adj_iff_rowOf.2 (this u hu v hv h)

example := C98_weights rat_lawful (P := exPlatform) (o := ⟨[], [], []⟩) (A := fun _ => 10) exWall_valid exWall_params exWall_lines rfl
  (checkNoLoop_sound exWall_crs (by decide)) rfl (by decide +kernel) rfl exWall_stacked
  (by simp only [exWall_layers]; decide) exWall_adj (fun _ _ => by decide +kernel) exWall_weights

example := C98_columns rat_lawful (P := exPlatform) (o := ⟨[], [], []⟩) exWall_valid exWall_params exWall_lines rfl
  (checkNoLoop_sound exWall_crs (by decide)) (by
    rintro i j w ⟨k, _, hk⟩
    have : ∀ w ∈ exWall.values, Num.lt w (Num.ofNat 0) = false := by decide +kernel
    exact this w (List.mem_of_getElem? hk)) (Or.inl rfl) exWall_stacked
  (strongColumns_of_weights rat_lawful exWall_valid rfl exWall_stacked (by simp only [exWall_layers]; decide) exWall_adj
    (A := fun _ => 10) (fun _ _ => by decide +kernel) exWall_weights)

/-- two columns of four cells on a wall, the cell 8 is isotropic -/
def exTower : MeshData ℚ where
  adjIdx := [0, 2, 5, 8, 11, 13, 16, 19, 22, 24]
  adj := [1, 4, 0, 2, 5, 1, 3, 6, 2, 7, 8, 0, 5, 1, 4, 6, 2, 5, 7, 3, 6, 8, 3, 7]
  weights := [10, 1, 10, 10, 1, 10, 10, 1, 10, 1, 5, 1, 10, 1, 10, 10, 1, 10, 10, 1, 10, 5, 5, 5]
  volumes := [1, 1, 1, 1, 1, 1, 1, 1, 5]
  centers := [[0, 0], [0, 1], [0, 2], [0, 3], [9, 0], [9, 1], [9, 2], [9, 3], [4, 8]]
  priority := [1, 2, 3, 4, 5, 6, 7, 8, 9]
  nBnd := [2, 1, 1, 1, 2, 1, 1, 1, 3]

theorem exTower_crs : ValidCRS 9 exTower.adjIdx exTower.adj := checkCRS_sound (by decide)

theorem exTower_good : GoodMesh exTower 9 where
  pos := by decide
  crs := exTower_crs
  sym := checkSym_sound exTower_crs (by decide)
  uniq := Or.inl (checkUniq_sound exTower_crs (by decide))
  connected := connected_of_smaller (checkSym_sound exTower_crs (by decide)) (by
    have key : ∀ i < 9, 0 < i → ∃ j < i, j ∈ rowOf exTower.adjIdx exTower.adj i := by decide
    intro i h0 h3
    obtain ⟨j, hj, h⟩ := key i h3 h0
    exact ⟨j, hj, adj_iff_rowOf.2 h⟩)
  weights := rfl
  volumes := rfl
  centers := rfl
  priority := rfl
  nBnd := rfl
  bndPos := by decide
  coords := ⟨2, by decide⟩

/-- the settings of the first call: the compliant cells are all the cells -/
def exTowerCall : Args ℚ := { exWall with compliant := [0, 1, 2, 3, 4, 5, 6, 7, 8] }

theorem exTower_layers (i : Nat) : InLayers (exTowerCall.onMesh exTower) i ↔ i < 8 := by
  have key : ∀ i < 9, (isTagged (graphOf (exTowerCall.onMesh exTower)) (meantThreshold exTowerCall.thr) i = true ↔ i < 8) := by decide +kernel
  have hin : ∀ i, i ∈ (exTowerCall.onMesh exTower).compliant ↔ i < 9 := by
    intro i
    show i ∈ [0, 1, 2, 3, 4, 5, 6, 7, 8] ↔ _
    simp
    omega
  unfold InLayers
  rw [hin]
  constructor
  · rintro ⟨h1, h2⟩
    exact (key i h1).1 ((isTagged_iff rat_lawful exTower_crs rfl h1).2 h2)
  · intro h
    have h1 : i < 9 := by omega
    exact ⟨h1, (isTagged_iff rat_lawful exTower_crs rfl h1).1 ((key i h1).2 h)⟩

theorem exTower_stacked : Stacked (InLayers (exTowerCall.onMesh exTower)) (· / 4) (· % 4) (fun _ => 4) where
  inj := by
    simp only [exTower_layers]
    intro u v _ _ h1 h2
    omega
  range := by
    simp only [exTower_layers]
    intro u _
    omega
  full := by
    simp only [exTower_layers]
    intro u hu q hq
    exact ⟨4 * (u / 4) + q, by omega, by omega, by omega⟩

theorem exTower_strong : StrongColumns (graphOf (exTowerCall.onMesh exTower)) (meantCoupling (exTowerCall.onMesh exTower))
    (InLayers (exTowerCall.onMesh exTower)) (· / 4) (· % 4) := by
  refine strongColumns_of_weights rat_lawful (exTower_good.validMesh _) rfl exTower_stacked (by simp only [exTower_layers]; decide) ?_
    (A := fun _ => 10) (fun _ _ => by decide +kernel) ?_
  · intro u v hu hv h
    rw [exTower_layers] at hu hv
    have : ∀ u < 8, ∀ v < 8, OnTop (· / 4) (· % 4) u v → v ∈ rowOf exTower.adjIdx exTower.adj u := by decide +kernel
    exact adj_iff_rowOf.2 (this u hu v hv h)
  · intro i k j w hi hf hw
    rw [exTower_layers] at hi
    rw [exTower_layers]
    have k1 : ∀ k < 24, Num.lt (10 : ℚ) (exTower.weights.getD k 0) = false := by decide +kernel
    have k2 : ∀ i < 8, ∀ k < 24, exTower.adjIdx.getD i 0 ≤ k ∧ k < exTower.adjIdx.getD (i + 1) 0 →
        exTower.adj.getD k 0 < 8 → if OnTop (· / 4) (· % 4) i (exTower.adj.getD k 0) then exTower.weights.getD k 0 = 10
          else Num.lt (Num.mul Num.c090 (10 : ℚ)) (exTower.weights.getD k 0) = false := by decide +kernel
    obtain ⟨b, e, hb, he, h1, h2, h3⟩ := hf
    have hb' : exTower.adjIdx[i]? = some b := hb
    have he' : exTower.adjIdx[i + 1]? = some e := he
    have h3' : exTower.adj[k]? = some j := h3
    have hw' : exTower.weights[k]? = some w := hw
    have hk : k < 24 := (List.getElem?_eq_some_iff.1 h3').1
    have ka := k2 i hi k hk ⟨by rw [List.getD_eq_getElem?_getD, hb']; exact h1, by rw [List.getD_eq_getElem?_getD, he']; exact h2⟩
    have kb := k1 k hk
    rw [List.getD_eq_getElem?_getD, hw'] at kb
    rw [List.getD_eq_getElem?_getD, List.getD_eq_getElem?_getD, hw', h3'] at ka
    exact ⟨kb, fun h4 h5 => (if_pos h5).mp (ka h4), fun h4 h5 => (if_neg h5).mp (ka h4)⟩

/-- two levels: the first one builds the lines, the second one follows them -/
example := C98_levels rat_lawful (P := exPlatform) (z := -100) (by decide) (above := False) exTowerCall
  [fun _ _ => { exWall with buildLines := false }] exTower_good (fun h => h.elim) ⟨[], [], []⟩
  ⟨exWall_params.dim, exWall_params.minCard, exWall_params.goalCard, exWall_params.maxCard, exWall_params.iter,
    exWall_params.thresh, exWall_params.order, exWall_params.aspect, by rintro (h | h) <;> cases h⟩
  (fun _ => Or.inl rfl)
  { on := rfl, build := rfl, compliant := by decide, isolated := fun _ _ i hi => by
      have : ∀ i < 9, rowOf exTower.adjIdx exTower.adj i ≠ [] := by decide
      obtain ⟨j, hj⟩ := List.exists_mem_of_ne_nil _ (this i (by revert i; decide))
      exact ⟨j, adj_iff_rowOf.2 hj⟩ }
  rfl (checkNoLoop_sound exTower_crs (by decide)) (by
    rintro i j w ⟨k, _, hk⟩
    have : ∀ w ∈ exTower.weights, Num.lt w (Num.ofNat 0) = false := by decide +kernel
    exact this w (List.mem_of_getElem? hk)) (Or.inl rfl) exTower_stacked exTower_strong ⟨0, (exTower_layers 0).2 (by decide)⟩
  (fun _ _ => rfl)
  (by
    intro s hs g' o' n' _ _ _
    simp only [List.mem_singleton] at hs
    subst hs
    exact ⟨⟨exWall_params.dim, exWall_params.minCard, exWall_params.goalCard, exWall_params.maxCard, exWall_params.iter,
      exWall_params.thresh, exWall_params.order, exWall_params.aspect, by rintro (h | h) <;> cases h⟩, fun _ => Or.inl rfl, rfl, rfl, rfl⟩)

end CoMMA
