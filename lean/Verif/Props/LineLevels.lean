import Verif.Lemmas.LineLevels
import Verif.Props.Layers
/-! # C96: lines cut in two, level after level -/

set_option linter.unusedSectionVars false

namespace CoMMA

variable {W : Type} [Num W]

/-- one level with lines: what is exported are lines of the coarse mesh -/
theorem level_exports {P : Platform} {z : Int} (hz : z ≤ 0) {a : Args W} {g : MeshData W} {o : Outs} {n : Nat}
    (hg : GoodMesh g n) (hk : KnownCall P (a.onMesh g) o n) (hon : ¬ WithoutLines (a.onMesh g) o)
    (hpath : a.buildLines = false → ∀ ls, Encodes o.linesIdx o.lines ls → ∀ l ∈ ls, IsPath g.adjIdx g.adj l) {out : Outs}
    (hcall : agglomerateOneLevel P (a.onMesh g) o = (out, .ok ())) {cls : List (List Nat)} (hexp : Exports out cls) :
    ∃ g' N, LevelMade P z a g o n out g' N ∧ LinesOn g' N out cls := by
  obtain ⟨out1, g', N, hl⟩ := level_made hz hg hk
  have e := hl.call
  rw [hcall] at e
  cases e
  obtain ⟨out', g'', cls', N', h1, h2, h3, h4, _, h6, h7⟩ := C46_lines_next hg hk hon hpath hz
  rw [hl.call] at h1; cases h1
  rw [hl.build] at h2; cases h2
  have hN : N' = N := by
    have key : ∀ k, k < N' ↔ k < N := fun k => (h3 k).symm.trans (hl.all k)
    have a1 := (key N').not
    have a2 := (key N).not
    omega
  subst hN
  have hcls : cls' = cls := by
    rcases hexp with ⟨e1, e2, _⟩ | ⟨_, e1⟩ <;> rcases h4 with ⟨d1, d2, _⟩ | ⟨_, d1⟩
    · rw [e1, d1]
    · have := d1.1
      rw [e2] at this
      cases cls' <;> simp [offsets] at this
    · have := e1.1
      rw [d2] at this
      cases cls <;> simp [offsets] at this
    · exact encodes_unique d1 e1
  subst hcls
  refine ⟨g', N', hl, ?_⟩
  have henc : Encodes out.linesIdx out.lines cls' ∨ (out.linesIdx = [] ∧ out.lines = [] ∧ cls' = []) := by
    rcases h4 with ⟨e1, e2, e3⟩ | ⟨_, he⟩
    · exact Or.inr ⟨e2, e3, e1⟩
    · exact Or.inl he
  by_cases hemp : out.lines = []
  · have hfl : cls'.flatten = [] := by
      rcases henc with he | ⟨_, _, he⟩
      · rw [← he.2]; exact hemp
      · rw [he]; rfl
    exact ⟨henc, by rw [hfl]; simp, by rw [hfl]; simp, h6⟩
  · have := h7 { a with isAniso := true, buildLines := false } rfl rfl hemp
    exact ⟨henc, this.disjoint, this.range, h6⟩

/-- one level of a call that uses the lines at hand -/
theorem UsesLines.level {P : Platform} {z : Int} (hz : z ≤ 0) {a : Args W} {g : MeshData W} {o : Outs} {n : Nat}
    {ls : List (List Nat)} (hg : GoodMesh g n) (hls : LinesOn g n o ls) (hu : UsesLines P (a.onMesh g)) (hne : ls ≠ [])
    (hl : ∀ l ∈ ls, l ≠ [] ∧ l.length % 2 = 0) :
    ∃ out g' N ls', LevelMade P z a g o n out g' N ∧ LinesOn g' N out ls' ∧ List.Forall₂ (Halved out.fcToCc) ls ls' := by
  have henc : Encodes o.linesIdx o.lines ls := by
    rcases hls.enc with h | ⟨_, _, h⟩
    · exact h
    · exact absurd h hne
  have hflat : ls.flatten ≠ [] := by
    intro h
    cases ls with
    | nil => exact hne rfl
    | cons l r => exact (hl l (by simp)).1 (List.flatten_eq_nil_iff.1 h l (by simp))
  have hfil : ls.filter (fun l => decide (1 < l.length)) = ls := by
    rw [List.filter_eq_self]
    intro l hl'
    obtain ⟨h1, h2⟩ := hl l hl'
    have := List.length_pos_iff.2 h1
    simp only [decide_eq_true_eq]
    omega
  have hgl : GivesLines (a.onMesh g) o n ls := ⟨hu.on, hu.given, henc, hflat, hls.disjoint, hls.range⟩
  have hfit : ∀ fls : List (List Nat), FitsLimit (a.onMesh g) fls := fun fls l _ m h => by rw [hu.whole] at h; cases h
  obtain ⟨out, hcall, hres⟩ := C40_given (P := P) (hg.validMesh a) hu.params hu.corr hgl (hfit _)
  have hco := hres.lines
  rw [hfil] at hco
  obtain ⟨cls, hexp, hhalf⟩ := hco.halved hu.whole (fun l h => (hl l h).2)
  have hk : KnownCall P (a.onMesh g) o n := ⟨hu.params, hu.corr, Or.inr (Or.inr ⟨ls, hgl, hfit _⟩)⟩
  obtain ⟨g', N, h1, h2⟩ := level_exports hz hg hk (withLines_iff.2 (by
    unfold anisoOn
    rw [hu.on, hu.given, henc.1, henc.2, offsets_length]
    have := List.length_pos_iff.2 hne
    have h2 : ls.flatten.isEmpty = false := by simpa using hflat
    rw [h2]
    simp; omega)) (fun _ ls' hls' l hl' => by
      rw [encodes_unique hls' henc] at hl'
      exact hls.paths l hl') hcall hexp
  exact ⟨out, g', N, cls, h1, h2, hhalf⟩

/-- **C96** Lines followed through several levels: the vectors exported by each call are given to the next one, with the
coarse mesh.  If the numbers of cells of the lines are multiples of `2 ^ k`, `k` the number of levels, the cells that end
up in the same coarsest cell as a cell of a line are those of the same stretch of `2 ^ k` cells of the line. -/
theorem C96_followed {P : Platform} {z : Int} (hz : z ≤ 0) (hirr : Num.lt (Num.lmin : W) Num.lmin = false) {above : Prop}
    (levels : List (MeshData W → Outs → Args W)) {n : Nat} {g : MeshData W} (hg : GoodMesh g n)
    (hab : above → PrioritiesAbove g) {o : Outs} {ls : List (List Nat)} (hls : LinesOn g n o ls) (hne : ls ≠ [])
    (hlen : ∀ l ∈ ls, l ≠ [] ∧ l.length % 2 ^ levels.length = 0)
    (hl : ∀ s ∈ levels, ∀ g' o' n', GoodMesh g' n' → n' ≤ n → (above → PrioritiesAbove g') →
      UsesLines P ((s g' o').onMesh g')) :
    ∃ maps gN, runLevels P z levels g o = .ok (maps, gN) ∧
      ∀ l ∈ ls, ∀ p c : Nat, l[p]? = some c → ∀ i < n, (composeMaps maps i = composeMaps maps c ↔
        ∃ q : Nat, l[q]? = some i ∧ q / 2 ^ levels.length = p / 2 ^ levels.length) := by
  have main : ∀ (levels : List (MeshData W → Outs → Args W)) (m : Nat) (g : MeshData W) (o : Outs) (ls : List (List Nat)),
      GoodMesh g m → m ≤ n → (above → PrioritiesAbove g) → LinesOn g m o ls → ls ≠ [] →
      (∀ l ∈ ls, l ≠ [] ∧ l.length % 2 ^ levels.length = 0) →
      (∀ s ∈ levels, ∀ g' o' n', GoodMesh g' n' → n' ≤ n → (above → PrioritiesAbove g') → UsesLines P ((s g' o').onMesh g')) →
      ∃ maps gN, runLevels P z levels g o = .ok (maps, gN) ∧
        ∀ l ∈ ls, InStretches (composeMaps maps) m (2 ^ levels.length) l := by
    intro levels
    induction levels with
    | nil =>
      intro m g o ls hg hm _ hls _ _ _
      refine ⟨[], g, rfl, fun l _ p c hp i _ => ?_⟩
      simp only [composeMaps, Option.some.injEq, List.length_nil, pow_zero, Nat.div_one]
      constructor
      · rintro rfl
        exact ⟨p, hp, rfl⟩
      · rintro ⟨q, hq, rfl⟩
        rw [hp] at hq
        exact (Option.some.inj hq).symm
    | cons s r ih =>
      intro m g o ls hg hm hab hls hne hlen hl
      have hdvd : ∀ l ∈ ls, 2 * 2 ^ r.length ∣ l.length := by
        intro l hl'
        have := Nat.dvd_of_mod_eq_zero (hlen l hl').2
        rwa [List.length_cons, pow_succ, Nat.mul_comm] at this
      obtain ⟨out, g', N, ls', h1, h2, h3⟩ := UsesLines.level hz hg hls (hl s (by simp) g o m hg hm hab) hne
        (fun l hl' => ⟨(hlen l hl').1, Nat.mod_eq_zero_of_dvd (Dvd.dvd.trans (Dvd.intro _ rfl) (hdvd l hl'))⟩)
      have hle := h1.le
      have hlen' : ∀ l ∈ ls, ∀ l', Halved out.fcToCc l l' → l' ≠ [] ∧ l'.length % 2 ^ r.length = 0 := by
        intro l hl' l' hh
        obtain ⟨c, hc⟩ := hdvd l hl'
        have h4 := hh.1
        have h5 := List.length_pos_iff.2 (hlen l hl').1
        refine ⟨fun h => by rw [h, List.length_nil] at h4; omega, ?_⟩
        have : l'.length = 2 ^ r.length * c := by
          rw [hc, Nat.mul_assoc] at h4
          omega
        rw [this]
        exact Nat.mul_mod_right _ _
      have hback : ∀ l' ∈ ls', ∃ l ∈ ls, Halved out.fcToCc l l' := by
        intro l' hl'
        obtain ⟨q, hq⟩ := List.mem_iff_getElem?.1 hl'
        obtain ⟨hq1, hq2⟩ := List.getElem?_eq_some_iff.1 hq
        have hq3 : q < ls.length := by rw [h3.length_eq]; exact hq1
        refine ⟨ls[q], List.getElem_mem hq3, ?_⟩
        have := (List.forall₂_iff_get.1 h3).2 q hq3 hq1
        simpa [hq2] using this
      obtain ⟨maps, gN, h5, h6⟩ := ih N g' out ls' h1.good (by omega) (fun hh => h1.above hirr (hab hh)) h2
        (by
          rintro rfl
          have := h3.length_eq
          exact hne (List.length_eq_zero_iff.1 this))
        (fun l' hl' => by
          obtain ⟨l, hl1, hh⟩ := hback l' hl'
          exact hlen' l hl1 l' hh)
        (fun s hs => hl s (List.mem_cons_of_mem _ hs))
      refine ⟨out.fcToCc :: maps, gN, ?_, ?_⟩
      · unfold runLevels
        rw [h1.call]
        simp only [h1.build, h5]
      · intro l hl'
        obtain ⟨q, hq⟩ := List.mem_iff_getElem?.1 hl'
        obtain ⟨hq1, hq2⟩ := List.getElem?_eq_some_iff.1 hq
        have hq3 : q < ls'.length := by rw [← h3.length_eq]; exact hq1
        have hh := (List.forall₂_iff_get.1 h3).2 q hq1 hq3
        simp only [List.get_eq_getElem, hq2] at hh
        have := hh.stretches (Nat.pow_pos (by omega)) h1.len (fun k hk => (h1.all k).1 hk) (hlen' l hl' _ hh).2
          (h6 _ (List.getElem_mem hq3))
        rw [List.length_cons, pow_succ, Nat.mul_comm]
        exact this
  exact main levels n g o ls hg (Nat.le_refl n) hab hls hne hlen hl

/-- the heights of the cells of a column, listed one after the other -/
theorem column_heights {D n ax : Nat} {ext : Nat → Nat} {pos : Nat → Nat → Nat} {R : Nat → Nat → Prop} (hg : IsGrid D ext n pos R)
    (hax : ax < D) {l : List Nat} (hnd : l.Nodup)
    (hcons : Consecutive (fun u v => NextAlong D ax (pos u) (pos v)) l) {i : Nat} (hi : i < n)
    (hl : ∀ x, x ∈ l ↔ x < n ∧ SameColumn D ax (pos i) (pos x)) :
    l.length = ext ax ∧ ((∀ q x : Nat, l[q]? = some x → pos x ax = q) ∨ ∀ q x : Nat, l[q]? = some x → pos x ax = ext ax - 1 - q) := by
  have hcol : ∀ x ∈ l, ∀ y ∈ l, SameColumn D ax (pos x) (pos y) := fun x hx y hy b hb hne => by
    rw [← ((hl x).1 hx).2 b hb hne, ((hl y).1 hy).2 b hb hne]
  have hlen := column_length hg hax hnd hi hl
  refine ⟨hlen, ?_⟩
  have hdir := steady (h := fun k => pos (l.getD k 0) ax) (m := l.length) (by
    intro a ha b hb hab
    simp only [List.getD_eq_getElem?_getD, List.getElem?_eq_getElem ha, List.getElem?_eq_getElem hb, Option.getD_some] at hab
    have := hg.eq_of ((hl _).1 (List.getElem_mem ha)).1 ((hl _).1 (List.getElem_mem hb)).1
      (hcol _ (List.getElem_mem ha) _ (List.getElem_mem hb)) hab
    exact (List.Nodup.getElem_inj_iff hnd).1 this) (by
    intro k hk
    have hk0 : k < l.length := by omega
    have := (hcons k _ _ (List.getElem?_eq_getElem hk0) (List.getElem?_eq_getElem hk)).1
    simp only [List.getD_eq_getElem?_getD, List.getElem?_eq_getElem hk0, List.getElem?_eq_getElem hk, Option.getD_some]
    exact this)
  have hrange : ∀ k, k < l.length → pos (l.getD k 0) ax < l.length := by
    intro k hk
    rw [List.getD_eq_getElem?_getD, List.getElem?_eq_getElem hk, Option.getD_some, hlen]
    exact hg.range _ ((hl _).1 (List.getElem_mem hk)).1 ax hax
  have hpos : 0 < l.length := List.length_pos_of_mem ((hl i).2 ⟨hi, fun _ _ _ => rfl⟩)
  have e0 := hrange 0 hpos
  have e1 := hrange (l.length - 1) (by omega)
  rcases hdir with h | h
  · left
    intro q x hx
    have hq := (List.getElem?_eq_some_iff.1 hx).1
    have e2 := h (l.length - 1) (by omega)
    have e3 := h q hq
    rw [List.getD_eq_getElem?_getD (i := q), hx, Option.getD_some] at e3
    omega
  · right
    intro q x hx
    have hq := (List.getElem?_eq_some_iff.1 hx).1
    have e2 := h (l.length - 1) (by omega)
    have e3 := h q hq
    rw [List.getD_eq_getElem?_getD (i := q), hx, Option.getD_some] at e3
    omega

/-- **C96** The layers of a structured mesh: a first call builds the lines (as in C95), the others follow them.  If the number of
cells along the axis is a multiple of `2 ^ k`, `k` the number of levels, two finest cells end up in the same
coarsest cell if and only if they are in the same column and their places in it divided by `2 ^ k` are the same. -/
theorem C96_layers (hW : LawfulLt W) {P : Platform} {z : Int} (hz : z ≤ 0) {above : Prop} {D n ax : Nat} {ext : Nat → Nat}
    {pos : Nat → Nat → Nat} (a : Args W) (levels : List (MeshData W → Outs → Args W)) {g : MeshData W} (hg : GoodMesh g n)
    (hab : above → PrioritiesAbove g) (o : Outs) (hp : ValidParams P (a.onMesh g)) (hcor : CorrectsSingletons (a.onMesh g))
    (hb : BuildsLines (a.onMesh g) n) (hlim : lineLimit (a.onMesh g) = none)
    (hpos : NonnegCouplings (graphOf (a.onMesh g)) (meantCoupling (a.onMesh g)))
    (hforce : a.forceDir = false ∨ StraightChains (graphOf (a.onMesh g)) (meantCoupling (a.onMesh g)) (· < n))
    (hgrid : IsGrid D ext n pos (Adj g.adjIdx g.adj)) (hax : ax < D) (he : ext ax % 2 ^ (levels.length + 1) = 0)
    (hall : ∀ i < n, i ∈ a.compliant ∧ IsAnisotropic (graphOf (a.onMesh g)) (meantThreshold a.thr) i)
    (hs : ∀ u < n, ∀ v < n, (StrongTo (graphOf (a.onMesh g)) (meantCoupling (a.onMesh g)) u v ↔ NextAlong D ax (pos u) (pos v)))
    (hl : ∀ s ∈ levels, ∀ g' o' n', GoodMesh g' n' → n' ≤ n → (above → PrioritiesAbove g') →
      UsesLines P ((s g' o').onMesh g')) :
    ∃ maps gN, runLevels P z ((fun _ _ => a) :: levels) g o = .ok (maps, gN) ∧
      ∀ i < n, ∀ j < n, (composeMaps maps i = composeMaps maps j ↔ SameColumn D ax (pos i) (pos j) ∧
        pos i ax / 2 ^ (levels.length + 1) = pos j ax / 2 ^ (levels.length + 1)) := by
  have hm := hg.validMesh a
  have hr0 := hgrid.range 0 hg.pos ax hax
  obtain ⟨c, hc⟩ := Nat.dvd_of_mod_eq_zero he
  have hext : ext ax = 2 * (2 ^ levels.length * c) := by rw [hc, pow_succ]; rw [Nat.mul_comm (2 ^ levels.length) 2, Nat.mul_assoc]
  have hfit : ∀ fls : List (List Nat), FitsLimit (a.onMesh g) fls := fun fls l _ m h => by rw [hlim] at h; cases h
  obtain ⟨fls, _, h1, _, _, h4, hline, hlt, hcolumn, hcons⟩ := grid_columns (P := P) (o := o) hW hm hp hb hlim hpos hforce hgrid hax
    (by omega) hall hs
  obtain ⟨fls', out, g1, hcall, hres, _, htwo, _⟩ := C40_built (P := P) (o := o) hW hm hp hcor hb (fun fls _ => hfit fls)
  rw [h1] at g1
  cases g1
  have hnonempty : ∀ l ∈ fls, l ≠ [] := fun l hl' h => by
    have := (htwo l hl').1
    rw [h, List.length_nil] at this
    omega
  have hcl : ∀ l ∈ fls, l ≠ [] → l.length = ext ax ∧
      ((∀ q x : Nat, l[q]? = some x → pos x ax = q) ∨ ∀ q x : Nat, l[q]? = some x → pos x ax = ext ax - 1 - q) := by
    intro l hl' hne
    obtain ⟨i, hi⟩ := List.exists_mem_of_ne_nil _ hne
    exact column_heights hgrid hax ((List.nodup_flatten.1 h4).1 l hl') (hcons l hl') (hlt l hl' i hi) (hcolumn l hl' i hi)
  obtain ⟨cls, hexp, hhalf⟩ := hres.lines.halved hlim (fun l hl' => by
    by_cases hne : l = []
    · subst hne; rfl
    · rw [(hcl l hl' hne).1, hext]; omega)
  obtain ⟨g', N, hmade, hon⟩ := level_exports hz hg ⟨hp, hcor, Or.inr (Or.inl ⟨hb, fun fls _ => hfit fls⟩)⟩
    (withLines_iff.2 (by
      unfold anisoOn
      rw [hb.on, hb.build]; rfl)) (fun h => by
        have : (a.onMesh g).buildLines = true := hb.build
        have h' : (a.onMesh g).buildLines = false := h
        rw [this] at h'
        cases h') hcall hexp
  have hlen' : ∀ l ∈ fls, ∀ l', Halved out.fcToCc l l' → l' ≠ [] ∧ l'.length % 2 ^ levels.length = 0 := by
    intro l hl' l' hh
    have h5 := (hcl l hl' (hnonempty l hl')).1
    have h6 := hh.1
    have : l'.length = 2 ^ levels.length * c := by omega
    refine ⟨fun h => by rw [h, List.length_nil] at h6; omega, ?_⟩
    rw [this]
    exact Nat.mul_mod_right _ _
  have hback : ∀ l' ∈ cls, ∃ l ∈ fls, Halved out.fcToCc l l' := by
    intro l' hl'
    obtain ⟨q, hq⟩ := List.mem_iff_getElem?.1 hl'
    obtain ⟨hq1, hq2⟩ := List.getElem?_eq_some_iff.1 hq
    have hq3 : q < fls.length := by rw [hhalf.length_eq]; exact hq1
    refine ⟨fls[q], List.getElem_mem hq3, ?_⟩
    have := (List.forall₂_iff_get.1 hhalf).2 q hq3 hq1
    simpa [hq2] using this
  have hforward : ∀ l ∈ fls, ∃ l' ∈ cls, Halved out.fcToCc l l' := by
    intro l hl'
    obtain ⟨q, hq⟩ := List.mem_iff_getElem?.1 hl'
    obtain ⟨hq1, hq2⟩ := List.getElem?_eq_some_iff.1 hq
    have hq3 : q < cls.length := by rw [← hhalf.length_eq]; exact hq1
    refine ⟨cls[q], List.getElem_mem hq3, ?_⟩
    have := (List.forall₂_iff_get.1 hhalf).2 q hq1 hq3
    simpa [hq2] using this
  have hle := hmade.le
  obtain ⟨l0, hl0, _⟩ := hline 0 hg.pos
  obtain ⟨maps, gN, hrun, hst⟩ := C96_followed (P := P) hz (hW.irrefl _) (above := above) levels hmade.good
    (fun hh => hmade.above (hW.irrefl _) (hab hh)) hon (by
      rintro rfl
      obtain ⟨l', hl', _⟩ := hforward l0 hl0
      simp at hl') (fun l' hl' => by
        obtain ⟨l, hl1, hh⟩ := hback l' hl'
        exact hlen' l hl1 l' hh)
    (fun s hs g' o' n' h1 h2 h3 => hl s hs g' o' n' h1 (by omega) h3)
  refine ⟨out.fcToCc :: maps, gN, ?_, ?_⟩
  · unfold runLevels
    rw [hmade.call]
    simp only [hmade.build, hrun]
  · intro i hi j hj
    obtain ⟨l, hl', hjl⟩ := hline j hj
    obtain ⟨l', hl1, hh⟩ := hforward l hl'
    have hS := hh.stretches (g := composeMaps maps) (Nat.pow_pos (by omega)) hmade.len (fun k hk => (hmade.all k).1 hk)
      (hlen' l hl' _ hh).2 (hst l' hl1)
    obtain ⟨p, hp1⟩ := List.mem_iff_getElem?.1 hjl
    have h7 := hS p j hp1 i hi
    have hpow : 2 ^ (levels.length + 1) = 2 * 2 ^ levels.length := by rw [pow_succ, Nat.mul_comm]
    rw [hpow]
    rw [hpow] at he
    show (out.fcToCc[i]?).bind (composeMaps maps) = (out.fcToCc[j]?).bind (composeMaps maps) ↔ _
    rw [h7]
    obtain ⟨hL, hht⟩ := hcl l hl' (hnonempty l hl')
    have hpl := (List.getElem?_eq_some_iff.1 hp1).1
    have hpp : 0 < 2 * 2 ^ levels.length := Nat.mul_pos (by omega) (Nat.pow_pos (by omega))
    have hheight : ∀ q : Nat, l[q]? = some i → (q / (2 * 2 ^ levels.length) = p / (2 * 2 ^ levels.length) ↔
        pos i ax / (2 * 2 ^ levels.length) = pos j ax / (2 * 2 ^ levels.length)) := by
      intro q hq
      have hql := (List.getElem?_eq_some_iff.1 hq).1
      rcases hht with h | h
      · rw [h q i hq, h p j hp1]
      · rw [h q i hq, h p j hp1]
        exact (stretch_reverse hpp he (by omega) (by omega)).symm
    constructor
    · rintro ⟨q, hq, hqp⟩
      have hil := List.mem_of_getElem? hq
      exact ⟨((hcolumn l hl' i hil j).1 hjl).2, (hheight q hq).1 hqp⟩
    · rintro ⟨hcolij, hdiv⟩
      have hil : i ∈ l := (hcolumn l hl' j hjl i).2 ⟨hi, fun b hb hne => (hcolij b hb hne).symm⟩
      obtain ⟨q, hq⟩ := List.mem_iff_getElem?.1 hil
      exact ⟨q, hq, (hheight q hq).2 hdiv⟩

/-! ## Concrete cases -/

/-- two levels with the line of four cells -/
example := C96_followed (P := exPlatform) (z := -100) (by decide) (by decide) (above := False) exFollow exRow4_good
  (fun h => h.elim) (o := exRow4Outs) (ls := [[0, 1, 2, 3]]) ⟨Or.inl ⟨rfl, rfl⟩, by decide, by decide, by
    intro l hl
    simp only [List.mem_singleton] at hl
    subst hl
    intro k x y hx hy
    have hk : k + 1 < 4 := (List.getElem?_eq_some_iff.1 hy).1
    have : k = 0 ∨ k = 1 ∨ k = 2 := by omega
    rcases this with rfl | rfl | rfl <;> (cases hx; cases hy; exact adj_iff_rowOf.2 (by decide))⟩ (by decide) (by decide) (by
    intro s hs g' o' n' _ _ _
    have : s = fun _ _ => exGiven := by simpa [exFollow] using hs
    subst this
    exact ⟨⟨exGiven_params.dim, exGiven_params.minCard, exGiven_params.goalCard, exGiven_params.maxCard,
      exGiven_params.iter, exGiven_params.thresh, exGiven_params.order, exGiven_params.aspect, by
        rintro (h | h) <;> cases h⟩, fun _ => Or.inl rfl, rfl, rfl, rfl⟩)

/-- four by two cells, numbered to and fro -/
def exSnakePos : List (List Nat) := [[0, 0], [1, 0], [2, 0], [3, 0], [3, 1], [2, 1], [1, 1], [0, 1]]

def exSnake : MeshData ℚ where
  adjIdx := [0, 2, 5, 8, 10, 12, 15, 18, 20]
  adj := [1, 7, 0, 2, 6, 1, 3, 5, 2, 4, 3, 5, 2, 4, 6, 1, 5, 7, 0, 6]
  weights := [10, 1, 10, 10, 1, 10, 10, 1, 10, 1, 1, 10, 1, 10, 10, 1, 10, 10, 1, 10]
  volumes := [1, 1, 1, 1, 1, 1, 1, 1]
  centers := [[0, 0], [1, 0], [2, 0], [3, 0], [3, 10], [2, 10], [1, 10], [0, 10]]
  priority := [1, 2, 3, 4, 5, 6, 7, 8]
  nBnd := [2, 1, 1, 2, 2, 1, 1, 2]

theorem exSnake_crs : ValidCRS 8 exSnake.adjIdx exSnake.adj := checkCRS_sound (by decide)

theorem exSnake_good : GoodMesh exSnake 8 where
  pos := by decide
  crs := exSnake_crs
  sym := checkSym_sound exSnake_crs (by decide)
  uniq := Or.inl (checkUniq_sound exSnake_crs (by decide))
  connected := connected_of_smaller (checkSym_sound exSnake_crs (by decide)) (by
    have key : ∀ i < 8, 0 < i → ∃ j < i, j ∈ rowOf exSnake.adjIdx exSnake.adj i := by decide
    intro i h0 h3
    obtain ⟨j, hj, h⟩ := key i h3 h0
    exact ⟨j, hj, adj_iff_rowOf.2 h⟩)
  weights := rfl
  volumes := rfl
  centers := rfl
  priority := rfl
  nBnd := rfl
  bndPos := by decide
  coords := ⟨2, by decide⟩

theorem exSnake_grid : IsGrid 2 (fun ax => if ax = 0 then 4 else 2) 8 (posOf exSnakePos) (Adj exSnake.adjIdx exSnake.adj) := by
  refine isGrid_of exSnake_crs (by decide) (by decide) ?_ ?_
  · intro v hv
    have key : ∀ x < 4, ∀ y < 2, ∃ c < 8, posOf exSnakePos c 0 = x ∧ posOf exSnakePos c 1 = y := by decide
    obtain ⟨c, hc, h0, h1⟩ := key (v 0) (hv 0 (by omega)) (v 1) (hv 1 (by omega))
    refine ⟨c, hc, fun ax hax => ?_⟩
    have : ax = 0 ∨ ax = 1 := by omega
    rcases this with rfl | rfl
    · exact h0
    · exact h1
  · have key : ∀ c < 8, ∀ c' < 8, (c' ∈ rowOf exSnake.adjIdx exSnake.adj c ↔
        nextTo 2 (posOf exSnakePos c) (posOf exSnakePos c') = true) := by decide +kernel
    intro c hc c' hc'
    rw [key c hc c' hc', nextTo_iff]

theorem exSnake_weights (i k j : Nat) (w : ℚ) (hf : FaceAt (graphOf (exLayers.onMesh exSnake)) i k j)
    (hw : (exLayers.onMesh exSnake).values[k]? = some w) :
    (posOf exSnakePos i 0 ≠ posOf exSnakePos j 0 → w = 10) ∧
      (posOf exSnakePos i 0 = posOf exSnakePos j 0 → Num.lt (Num.mul Num.c090 (10 : ℚ)) w = false ∧ Num.lt (10 : ℚ) w = false) := by
  have key : ∀ i < 8, ∀ k < 20, exSnake.adjIdx.getD i 0 ≤ k ∧ k < exSnake.adjIdx.getD (i + 1) 0 →
      exSnake.weights.getD k 0 = if posOf exSnakePos i 0 = posOf exSnakePos (exSnake.adj.getD k 0) 0 then 1 else 10 := by
    decide +kernel
  obtain ⟨b, e, hb, he, h1, h2, h3⟩ := hf
  have hb' : exSnake.adjIdx[i]? = some b := hb
  have he' : exSnake.adjIdx[i + 1]? = some e := he
  have h3' : exSnake.adj[k]? = some j := h3
  have hw' : exSnake.weights[k]? = some w := hw
  have hi : i < 8 := by
    have : i + 1 < 9 := (List.getElem?_eq_some_iff.1 he').1
    omega
  have hk : k < 20 := (List.getElem?_eq_some_iff.1 h3').1
  have ka := key i hi k hk ⟨by rw [List.getD_eq_getElem?_getD, hb']; exact h1, by rw [List.getD_eq_getElem?_getD, he']; exact h2⟩
  rw [List.getD_eq_getElem?_getD, List.getD_eq_getElem?_getD, hw', h3'] at ka
  simp only [Option.getD_some] at ka
  subst ka
  refine ⟨fun h => if_neg h, fun h => ?_⟩
  rw [if_pos h]
  decide +kernel

/-- two levels: the first one builds the lines, the second one follows them -/
example := C96_layers rat_lawful (P := exPlatform) (z := -100) (by decide) (above := False) (ax := 0) exLayers
  [fun _ _ => { exLayers with buildLines := false }] exSnake_good (fun h => h.elim) ⟨[], [], []⟩
  ⟨exLayers_params.dim, exLayers_params.minCard, exLayers_params.goalCard, exLayers_params.maxCard, exLayers_params.iter,
    exLayers_params.thresh, exLayers_params.order, exLayers_params.aspect, by rintro (h | h) <;> cases h⟩
  (fun _ => Or.inl rfl)
  { on := rfl, build := rfl, compliant := by decide, isolated := fun _ _ i hi => by
      have : ∀ i < 8, rowOf exSnake.adjIdx exSnake.adj i ≠ [] := by decide
      obtain ⟨j, hj⟩ := List.exists_mem_of_ne_nil _ (this i (by revert i; decide))
      exact ⟨j, adj_iff_rowOf.2 hj⟩ }
  rfl (by
    rintro i j w ⟨k, _, hk⟩
    have : ∀ w ∈ exSnake.weights, Num.lt w (Num.ofNat 0) = false := by decide +kernel
    exact this w (List.mem_of_getElem? hk)) (Or.inl rfl) exSnake_grid (by decide) (by decide)
  (fun i hi => ⟨by revert i; decide, Or.inl exLayers_thr⟩)
  (exSnake_grid.strong_along rat_lawful (exSnake_good.validMesh _) rfl (by decide) (by decide) (A := fun _ => 10)
    (fun _ _ => by decide +kernel) exSnake_weights)
  (by
    intro s hs g' o' n' _ _ _
    simp only [List.mem_singleton] at hs
    subst hs
    exact ⟨⟨exLayers_params.dim, exLayers_params.minCard, exLayers_params.goalCard, exLayers_params.maxCard, exLayers_params.iter,
      exLayers_params.thresh, exLayers_params.order, exLayers_params.aspect, by rintro (h | h) <;> cases h⟩,
      fun _ => Or.inl rfl, rfl, rfl, rfl⟩)

end CoMMA
