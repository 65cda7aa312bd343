import Verif.Lemmas.LineCuts
import Verif.Props.Columns
/-! # C100: lines of any length, level after level -/

set_option linter.unusedSectionVars false

namespace CoMMA

variable {W : Type} [Num W]

/-- lines of which all cells are taken are cut into pairs, a last single cell being in the last one -/
theorem CoarsensLines.pairedUp {a : Args W} {fls : List (List Nat)} {out : Outs} (h : CoarsensLines a fls out)
    (hlim : lineLimit a = none) (hodd : a.oddLine = true) :
    ∃ cls, Exports out cls ∧ List.Forall₂ (PairedUp out.fcToCc) fls cls := by
  obtain ⟨cls, gss, hexp, hpair, hden⟩ := h
  refine ⟨cls, hexp, ?_⟩
  rw [List.forall₂_iff_get]
  refine ⟨by rw [hpair.length_eq, hden.length_eq], fun q hql hcl => ?_⟩
  have hgl : q < gss.length := by rw [← hpair.length_eq]; exact hql
  obtain ⟨l', hor, hpr⟩ := (List.forall₂_iff_get.1 hpair).2 q hql hgl
  have hdq := (List.forall₂_iff_get.1 hden).2 q hgl hcl
  simp only [List.get_eq_getElem] at hor hpr hdq ⊢
  have hl' : l' = fls[q] ∨ l' = fls[q].reverse := by
    obtain ⟨_, _, _, _, h | h⟩ := hor
    · exact Or.inl h.2
    · exact Or.inr h.2
  have hlen : l'.length = fls[q].length := by rcases hl' with h | h <;> simp [h]
  rw [hlim] at hpr
  obtain ⟨hcnt, hfl, _⟩ := hpr.count
  refine ⟨by rw [← hdq.length_eq, hcnt, hlen], l', hl', fun p k hk i => ?_⟩
  obtain ⟨hp1, hp2⟩ := List.getElem?_eq_some_iff.1 hk
  have hpg : p < gss[q].length := by rw [hdq.length_eq]; exact hp1
  have := (List.forall₂_iff_get.1 hdq).2 p hpg hp1
  simp only [List.get_eq_getElem, hp2] at this
  rw [this i, groups_at hpr.two p (List.getElem?_eq_getElem hpg) i, hfl hodd, hcnt, hlen]

/-- … or a last single cell is left out -/
theorem CoarsensLines.pairedEvenly {a : Args W} {fls : List (List Nat)} {out : Outs} (h : CoarsensLines a fls out)
    (hlim : lineLimit a = none) (hodd : a.oddLine = false) :
    ∃ cls, Exports out cls ∧ List.Forall₂ (PairedEvenly out.fcToCc) fls cls := by
  obtain ⟨cls, gss, hexp, hpair, hden⟩ := h
  refine ⟨cls, hexp, ?_⟩
  rw [List.forall₂_iff_get]
  refine ⟨by rw [hpair.length_eq, hden.length_eq], fun q hql hcl => ?_⟩
  have hgl : q < gss.length := by rw [← hpair.length_eq]; exact hql
  obtain ⟨l', hor, hpr⟩ := (List.forall₂_iff_get.1 hpair).2 q hql hgl
  have hdq := (List.forall₂_iff_get.1 hden).2 q hgl hcl
  simp only [List.get_eq_getElem] at hor hpr hdq ⊢
  have hl' : l' = fls[q] ∨ l' = fls[q].reverse := by
    obtain ⟨_, _, _, _, h | h⟩ := hor
    · exact Or.inl h.2
    · exact Or.inr h.2
  have hlen : l'.length = fls[q].length := by rcases hl' with h | h <;> simp [h]
  rw [hlim] at hpr
  obtain ⟨hcnt, _, hfl⟩ := hpr.count
  refine ⟨by rw [← hdq.length_eq, hcnt, hlen], l', hl', fun p k hk i => ?_⟩
  obtain ⟨hp1, hp2⟩ := List.getElem?_eq_some_iff.1 hk
  have hpg : p < gss[q].length := by rw [hdq.length_eq]; exact hp1
  have := (List.forall₂_iff_get.1 hdq).2 p hpg hp1
  simp only [List.get_eq_getElem, hp2] at this
  rw [this i, groups_at hpr.two p (List.getElem?_eq_getElem hpg) i, (hfl hodd).1, hcnt]
  constructor
  · rintro ⟨r, hr, hrm⟩
    rw [List.getElem?_take] at hr
    split_ifs at hr with h8
    exact ⟨r, hr, by omega⟩
  · rintro ⟨r, hr, hrm⟩
    refine ⟨r, ?_, by omega⟩
    rw [List.getElem?_take, if_pos (by omega)]
    exact hr

/-- the coarse line of a line -/
theorem forall₂_mem {α β : Type} {R : α → β → Prop} {l : List α} {l' : List β} (h : List.Forall₂ R l l') :
    ∀ x ∈ l, ∃ y ∈ l', R x y := by
  induction h with
  | nil => simp
  | cons hr _ ih =>
    intro x hx
    rcases List.mem_cons.1 hx with rfl | hx
    · exact ⟨_, by simp, hr⟩
    · obtain ⟨y, hy, hxy⟩ := ih x hx
      exact ⟨y, List.mem_cons_of_mem _ hy, hxy⟩

/-- one level of a call that uses the lines at hand, of any length -/
theorem UsesLines.level_any {P : Platform} {z : Int} (hz : z ≤ 0) {a : Args W} {g : MeshData W} {o : Outs} {n : Nat}
    {ls : List (List Nat)} (hg : GoodMesh g n) (hls : LinesOn g n o ls) (hu : UsesLines P (a.onMesh g))
    {R : List Nat → List Nat → List Nat → Prop} (hR : ∀ fls out, CoarsensLines (a.onMesh g) fls out →
      ∃ cls, Exports out cls ∧ List.Forall₂ (R out.fcToCc) fls cls)
    (hex : ∃ l ∈ ls, 2 ≤ l.length) :
    ∃ out g' N ls', LevelMade P z a g o n out g' N ∧ LinesOn g' N out ls' ∧
      ∀ l ∈ ls, 2 ≤ l.length → ∃ l' ∈ ls', R out.fcToCc l l' := by
  obtain ⟨l0, hl0, h20⟩ := hex
  have hne : ls ≠ [] := List.ne_nil_of_mem hl0
  have henc : Encodes o.linesIdx o.lines ls := by
    rcases hls.enc with h | ⟨_, _, h⟩
    · exact h
    · exact absurd h hne
  have hflat : ls.flatten ≠ [] := by
    intro h
    rw [List.flatten_eq_nil_iff.1 h l0 hl0, List.length_nil] at h20
    omega
  have hgl : GivesLines (a.onMesh g) o n ls := ⟨hu.on, hu.given, henc, hflat, hls.disjoint, hls.range⟩
  have hfit : ∀ fls : List (List Nat), FitsLimit (a.onMesh g) fls := fun fls l _ m h => by rw [hu.whole] at h; cases h
  obtain ⟨out, hcall, hres⟩ := C40_given (P := P) (hg.validMesh a) hu.params hu.corr hgl (hfit _)
  obtain ⟨cls, hexp, hpaired⟩ := hR _ _ hres.lines
  have hk : KnownCall P (a.onMesh g) o n := ⟨hu.params, hu.corr, Or.inr (Or.inr ⟨ls, hgl, hfit _⟩)⟩
  obtain ⟨g', N, h1, h2⟩ := level_exports hz hg hk (withLines_iff.2 (by
    unfold anisoOn
    rw [hu.on, hu.given, henc.1, henc.2, offsets_length]
    have := List.length_pos_iff.2 hne
    have h2 : ls.flatten.isEmpty = false := by simpa using hflat
    rw [h2]
    simp; omega)) (fun _ ls' hls' l hl' => by
      rw [encodes_unique hls' henc] at hl'
      exact hls.paths l hl') hcall hexp
  refine ⟨out, g', N, cls, h1, h2, fun l hl h2l => forall₂_mem hpaired l ?_⟩
  rw [List.mem_filter]
  exact ⟨hl, by simp only [decide_eq_true_eq]; omega⟩

/-- **C100** Lines of any length followed through several levels: the vectors exported by each call are given to the next one, with
the coarse mesh.  After `k` levels, a line of `L ≥ 2 ^ k` cells is cut into `L / 2 ^ k` stretches of consecutive cells (the quotient
rounded down), each of at least `2 ^ k` and fewer than `2 ^ (k + 1)` cells; the finest cells that are in the same coarsest cell as a
cell of the line are those of its stretch. -/
theorem C100_followed {P : Platform} {z : Int} (hz : z ≤ 0) (hirr : Num.lt (Num.lmin : W) Num.lmin = false) {above : Prop}
    (levels : List (MeshData W → Outs → Args W)) {n : Nat} {g : MeshData W} (hg : GoodMesh g n)
    (hab : above → PrioritiesAbove g) {o : Outs} {ls : List (List Nat)} (hls : LinesOn g n o ls)
    (hex : ∃ l ∈ ls, 2 ^ levels.length ≤ l.length)
    (hl : ∀ s ∈ levels, ∀ g' o' n', GoodMesh g' n' → n' ≤ n → (above → PrioritiesAbove g') →
      UsesLines P ((s g' o').onMesh g') ∧ (s g' o').oddLine = true) :
    ∃ maps gN, runLevels P z levels g o = .ok (maps, gN) ∧
      ∀ l ∈ ls, 2 ^ levels.length ≤ l.length → ∃ b, CutInto (composeMaps maps) n (2 ^ levels.length) l b := by
  have main : ∀ (levels : List (MeshData W → Outs → Args W)) (m : Nat) (g : MeshData W) (o : Outs) (ls : List (List Nat)),
      GoodMesh g m → m ≤ n → (above → PrioritiesAbove g) → LinesOn g m o ls → (∃ l ∈ ls, 2 ^ levels.length ≤ l.length) →
      (∀ s ∈ levels, ∀ g' o' n', GoodMesh g' n' → n' ≤ n → (above → PrioritiesAbove g') →
        UsesLines P ((s g' o').onMesh g') ∧ (s g' o').oddLine = true) →
      ∃ maps gN, runLevels P z levels g o = .ok (maps, gN) ∧
        ∀ l ∈ ls, 2 ^ levels.length ≤ l.length → ∃ b, CutInto (composeMaps maps) m (2 ^ levels.length) l b := by
    intro levels
    induction levels with
    | nil =>
      intro m g o ls _ _ _ _ _ _
      exact ⟨[], g, rfl, fun l _ _ => ⟨_, CutInto.ones⟩⟩
    | cons s r ih =>
      intro m g o ls hg hm hab hls hex hl
      have hpow : 2 ^ (s :: r).length = 2 * 2 ^ r.length := by rw [List.length_cons, pow_succ, Nat.mul_comm]
      have hpp : 0 < 2 ^ r.length := Nat.pow_pos (by omega)
      obtain ⟨hu, ho⟩ := hl s (by simp) g o m hg hm hab
      obtain ⟨l0, hl0, h20⟩ := hex
      obtain ⟨out, g', N, ls', h1, h2, h3⟩ := UsesLines.level_any hz hg hls hu
        (fun _ _ h => h.pairedUp hu.whole ho) ⟨l0, hl0, by omega⟩
      have hle := h1.le
      obtain ⟨l0', hl0', hpu0⟩ := h3 l0 hl0 (by omega)
      obtain ⟨maps, gN, h5, h6⟩ := ih N g' out ls' h1.good (by omega) (fun hh => h1.above hirr (hab hh)) h2
        ⟨l0', hl0', by rw [hpu0.1]; omega⟩ (fun s hs => hl s (List.mem_cons_of_mem _ hs))
      refine ⟨out.fcToCc :: maps, gN, ?_, ?_⟩
      · unfold runLevels
        rw [h1.call]
        simp only [h1.build, h5]
      · intro l hl' h2l
        obtain ⟨l', hl1, hpu⟩ := h3 l hl' (by omega)
        have hl2 : 2 ^ r.length ≤ l'.length := by rw [hpu.1]; omega
        obtain ⟨b, hb⟩ := h6 l' hl1 hl2
        rw [hpow]
        exact hpu.cut hpp h1.len (fun k hk => (h1.all k).1 hk) (by omega) hb (Nat.div_pos hl2 hpp)
  exact main levels n g o ls hg (Nat.le_refl n) hab hls hex hl

/-- **C100** … and if lines with odd numbers of cells are not allowed: a line of `L ≥ 2 ^ k` cells has `L / 2 ^ k` stretches (the quotient
rounded down) of exactly `2 ^ k` consecutive cells, one right after the other; the finest cells that are in the same coarsest cell as
a cell of a stretch are those of the stretch.  The other cells of the line, fewer than `2 ^ k`, are at its ends. -/
theorem C100_even {P : Platform} {z : Int} (hz : z ≤ 0) (hirr : Num.lt (Num.lmin : W) Num.lmin = false) {above : Prop}
    (levels : List (MeshData W → Outs → Args W)) {n : Nat} {g : MeshData W} (hg : GoodMesh g n)
    (hab : above → PrioritiesAbove g) {o : Outs} {ls : List (List Nat)} (hls : LinesOn g n o ls)
    (hex : ∃ l ∈ ls, 2 ^ levels.length ≤ l.length)
    (hl : ∀ s ∈ levels, ∀ g' o' n', GoodMesh g' n' → n' ≤ n → (above → PrioritiesAbove g') →
      UsesLines P ((s g' o').onMesh g') ∧ (s g' o').oddLine = false) :
    ∃ maps gN, runLevels P z levels g o = .ok (maps, gN) ∧
      ∀ l ∈ ls, 2 ^ levels.length ≤ l.length → ∃ d, CutEvenly (composeMaps maps) n (2 ^ levels.length) l d := by
  have main : ∀ (levels : List (MeshData W → Outs → Args W)) (m : Nat) (g : MeshData W) (o : Outs) (ls : List (List Nat)),
      GoodMesh g m → m ≤ n → (above → PrioritiesAbove g) → LinesOn g m o ls → (∃ l ∈ ls, 2 ^ levels.length ≤ l.length) →
      (∀ s ∈ levels, ∀ g' o' n', GoodMesh g' n' → n' ≤ n → (above → PrioritiesAbove g') →
        UsesLines P ((s g' o').onMesh g') ∧ (s g' o').oddLine = false) →
      ∃ maps gN, runLevels P z levels g o = .ok (maps, gN) ∧
        ∀ l ∈ ls, 2 ^ levels.length ≤ l.length → ∃ d, CutEvenly (composeMaps maps) m (2 ^ levels.length) l d := by
    intro levels
    induction levels with
    | nil =>
      intro m g o ls _ _ _ _ _ _
      exact ⟨[], g, rfl, fun l _ _ => ⟨_, CutEvenly.ones⟩⟩
    | cons s r ih =>
      intro m g o ls hg hm hab hls hex hl
      have hpow : 2 ^ (s :: r).length = 2 * 2 ^ r.length := by rw [List.length_cons, pow_succ, Nat.mul_comm]
      have hpp : 0 < 2 ^ r.length := Nat.pow_pos (by omega)
      obtain ⟨hu, ho⟩ := hl s (by simp) g o m hg hm hab
      obtain ⟨l0, hl0, h20⟩ := hex
      obtain ⟨out, g', N, ls', h1, h2, h3⟩ := UsesLines.level_any hz hg hls hu
        (fun _ _ h => h.pairedEvenly hu.whole ho) ⟨l0, hl0, by omega⟩
      have hle := h1.le
      obtain ⟨l0', hl0', hpu0⟩ := h3 l0 hl0 (by omega)
      obtain ⟨maps, gN, h5, h6⟩ := ih N g' out ls' h1.good (by omega) (fun hh => h1.above hirr (hab hh)) h2
        ⟨l0', hl0', by rw [hpu0.1]; omega⟩ (fun s hs => hl s (List.mem_cons_of_mem _ hs))
      refine ⟨out.fcToCc :: maps, gN, ?_, ?_⟩
      · unfold runLevels
        rw [h1.call]
        simp only [h1.build, h5]
      · intro l hl' h2l
        obtain ⟨l', hl1, hpu⟩ := h3 l hl' (by omega)
        have hl2 : 2 ^ r.length ≤ l'.length := by rw [hpu.1]; omega
        obtain ⟨b, hb⟩ := h6 l' hl1 hl2
        rw [hpow]
        exact hpu.cut hpp h1.len (fun k hk => (h1.all k).1 hk) hb
  exact main levels n g o ls hg (Nat.le_refl n) hab hls hex hl

/-- **C100** Columns of any number of cells through several levels: a first call builds the lines, the others follow them.  After `k`
levels, a column of `L ≥ 2 ^ k` cells is cut by height into `L / 2 ^ k` stretches, `b t` being the lowest height of the stretch `t`, each
of at least `2 ^ k` and fewer than `2 ^ (k + 1)` cells; the finest cells that are in the same coarsest cell as a cell of the column
are the cells of the column in its stretch.  There may be shorter columns beside. -/
theorem C100_columns {n : Nat} {col height len : Nat → Nat} (hW : LawfulLt W) {P : Platform} {z : Int} (hz : z ≤ 0) {above : Prop}
    (a : Args W) (levels : List (MeshData W → Outs → Args W)) {g : MeshData W} (hg : GoodMesh g n)
    (hab : above → PrioritiesAbove g) (o : Outs) (hp : ValidParams P (a.onMesh g)) (hcor : CorrectsSingletons (a.onMesh g))
    (hb : BuildsLines (a.onMesh g) n) (hlim : lineLimit (a.onMesh g) = none) (hodd : a.oddLine = true)
    (hns : NoSelfLoop g.adjIdx g.adj)
    (hpos : NonnegCouplings (graphOf (a.onMesh g)) (meantCoupling (a.onMesh g)))
    (hforce : a.forceDir = false ∨ StraightChains (graphOf (a.onMesh g)) (meantCoupling (a.onMesh g)) (InLayers (a.onMesh g)))
    (hst : Stacked (InLayers (a.onMesh g)) col height len)
    (hs : StrongColumns (graphOf (a.onMesh g)) (meantCoupling (a.onMesh g)) (InLayers (a.onMesh g)) col height)
    (hsome : ∃ i, InLayers (a.onMesh g) i ∧ 2 ^ (levels.length + 1) ≤ len (col i))
    (hl : ∀ s ∈ levels, ∀ g' o' n', GoodMesh g' n' → n' ≤ n → (above → PrioritiesAbove g') →
      UsesLines P ((s g' o').onMesh g') ∧ (s g' o').oddLine = true) :
    ∃ maps gN, runLevels P z ((fun _ _ => a) :: levels) g o = .ok (maps, gN) ∧
      ∀ i, InLayers (a.onMesh g) i → 2 ^ (levels.length + 1) ≤ len (col i) →
        ∃ b : Nat → Nat, b 0 = 0 ∧ b (len (col i) / 2 ^ (levels.length + 1)) = len (col i) ∧
          (∀ t < len (col i) / 2 ^ (levels.length + 1), b t + 2 ^ (levels.length + 1) ≤ b (t + 1) ∧
            b (t + 1) < b t + 2 ^ (levels.length + 2)) ∧
          ∀ j, InLayers (a.onMesh g) j → col j = col i → ∀ x < n, (composeMaps maps x = composeMaps maps j ↔
            InLayers (a.onMesh g) x ∧ col x = col j ∧
              ∀ t ≤ len (col i) / 2 ^ (levels.length + 1), (b t ≤ height j ↔ b t ≤ height x)) := by
  have hm := hg.validMesh a
  have hfit : ∀ fls : List (List Nat), FitsLimit (a.onMesh g) fls := fun fls l _ m h => by rw [hlim] at h; cases h
  have hpow : 2 ^ (levels.length + 1) = 2 * 2 ^ levels.length := by rw [pow_succ, Nat.mul_comm]
  have hpow2 : 2 ^ (levels.length + 2) = 2 * (2 * 2 ^ levels.length) := by rw [pow_succ, hpow, Nat.mul_comm]
  have hpp : 0 < 2 ^ levels.length := Nat.pow_pos (by omega)
  rw [hpow, hpow2]
  rw [hpow] at hsome
  obtain ⟨fls, _, h1, _, _, h4, hline, hlt, hcolumn, hcons⟩ := columns_lines (P := P) (o := o) hW hm hp hb hlim hns hpos hforce hst hs
  obtain ⟨fls', out, g1, hcall, hres, _, _, _⟩ := C40_built (P := P) (o := o) hW hm hp hcor hb (fun fls _ => hfit fls)
  rw [h1] at g1
  cases g1
  have hcl : ∀ l ∈ fls, ∀ i ∈ l, l.length = len (col i) ∧
      ((∀ q x : Nat, l[q]? = some x → height x = q) ∨ ∀ q x : Nat, l[q]? = some x → height x = len (col i) - 1 - q) := by
    intro l hl' i hi
    exact hst.listed ((List.nodup_flatten.1 h4).1 l hl') (hcons l hl') (hlt l hl' i hi) (hcolumn l hl' i hi)
  obtain ⟨cls, hexp, hpaired⟩ := hres.lines.pairedUp hlim hodd
  obtain ⟨g', N, hmade, hon⟩ := level_exports hz hg ⟨hp, hcor, Or.inr (Or.inl ⟨hb, fun fls _ => hfit fls⟩)⟩
    (withLines_iff.2 (by
      unfold anisoOn
      rw [hb.on, hb.build]; rfl)) (fun h => by
        have : (a.onMesh g).buildLines = true := hb.build
        have h' : (a.onMesh g).buildLines = false := h
        rw [this] at h'
        cases h') hcall hexp
  have hle := hmade.le
  obtain ⟨i0, hi0, h20⟩ := hsome
  obtain ⟨l0, hl0, hil0⟩ := hline i0 hi0 (by omega)
  obtain ⟨l0', hl0', hpu0⟩ := forall₂_mem hpaired l0 hl0
  obtain ⟨maps, gN, hrun, hcut⟩ := C100_followed (P := P) hz (hW.irrefl _) (above := above) levels hmade.good
    (fun hh => hmade.above (hW.irrefl _) (hab hh)) hon ⟨l0', hl0', by rw [hpu0.1, (hcl l0 hl0 i0 hil0).1]; omega⟩
    (fun s hs g' o' n' h1 h2 h3 => hl s hs g' o' n' h1 (by omega) h3)
  refine ⟨out.fcToCc :: maps, gN, ?_, ?_⟩
  · unfold runLevels
    rw [hmade.call]
    simp only [hmade.build, hrun]
  · intro i hi h2i
    obtain ⟨l, hl', hil⟩ := hline i hi (by omega)
    obtain ⟨hL, hht⟩ := hcl l hl' i hil
    obtain ⟨l', hl1, hpu⟩ := forall₂_mem hpaired l hl'
    have hl2 : 2 ^ levels.length ≤ l'.length := by rw [hpu.1]; omega
    obtain ⟨b', hb'⟩ := hcut l' hl1 hl2
    obtain ⟨b1, hb1⟩ := hpu.cut hpp hmade.len (fun k hk => (hmade.all k).1 hk) (by omega) hb' (Nat.div_pos hl2 hpp)
    -- the column from its lowest cell
    obtain ⟨m, b, hmem, hmL, hmh, hbm⟩ : ∃ (m : List Nat) (b : Nat → Nat), (∀ x, x ∈ m ↔ x ∈ l) ∧ m.length = len (col i) ∧
        (∀ q x : Nat, m[q]? = some x → height x = q) ∧
        CutInto (fun i => (out.fcToCc[i]?).bind (composeMaps maps)) n (2 * 2 ^ levels.length) m b := by
      rcases hht with h | h
      · exact ⟨l, b1, fun _ => Iff.rfl, hL, h, hb1⟩
      · refine ⟨l.reverse, _, fun x => List.mem_reverse, by rw [List.length_reverse, hL], fun q x hq => ?_, hb1.reverse (by omega)⟩
        have hql := (List.getElem?_eq_some_iff.1 hq).1
        rw [List.length_reverse] at hql
        rw [List.getElem?_reverse hql] at hq
        rw [h _ x hq]
        omega
    have e1 := hbm.last
    have e2 := hbm.least
    have e3 := hbm.most
    have e4 := hbm.same
    rw [hmL] at e1 e2 e3 e4
    refine ⟨b, hbm.first, e1, fun t ht => ⟨e2 t ht, e3 t ht⟩, fun j hj hji x hx => ?_⟩
    have hjm : j ∈ m := (hmem j).2 ((hcolumn l hl' i hil j).2 ⟨hj, hji⟩)
    obtain ⟨p, hp1⟩ := List.mem_iff_getElem?.1 hjm
    show (out.fcToCc[x]?).bind (composeMaps maps) = (out.fcToCc[j]?).bind (composeMaps maps) ↔ _
    rw [e4 p j hp1 x hx, hmh p j hp1]
    constructor
    · rintro ⟨q, hq, hqs⟩
      obtain ⟨h8, h9⟩ := (hcolumn l hl' i hil x).1 ((hmem x).1 (List.mem_of_getElem? hq))
      rw [hmh q x hq]
      exact ⟨h8, by rw [h9, hji], hqs⟩
    · rintro ⟨hxl, hxc, hxs⟩
      obtain ⟨q, hq⟩ := List.mem_iff_getElem?.1 ((hmem x).2 ((hcolumn l hl' i hil x).2 ⟨hxl, by rw [hxc, hji]⟩))
      rw [hmh q x hq] at hxs
      exact ⟨q, hq, hxs⟩

/-- **C100** … and if lines with odd numbers of cells are not allowed: from the height `d` on, a column of `L ≥ 2 ^ k` cells is cut into
`L / 2 ^ k` stretches of exactly `2 ^ k` cells. -/
theorem C100_columns_even {n : Nat} {col height len : Nat → Nat} (hW : LawfulLt W) {P : Platform} {z : Int} (hz : z ≤ 0) {above : Prop}
    (a : Args W) (levels : List (MeshData W → Outs → Args W)) {g : MeshData W} (hg : GoodMesh g n)
    (hab : above → PrioritiesAbove g) (o : Outs) (hp : ValidParams P (a.onMesh g)) (hcor : CorrectsSingletons (a.onMesh g))
    (hb : BuildsLines (a.onMesh g) n) (hlim : lineLimit (a.onMesh g) = none) (hodd : a.oddLine = false)
    (hns : NoSelfLoop g.adjIdx g.adj)
    (hpos : NonnegCouplings (graphOf (a.onMesh g)) (meantCoupling (a.onMesh g)))
    (hforce : a.forceDir = false ∨ StraightChains (graphOf (a.onMesh g)) (meantCoupling (a.onMesh g)) (InLayers (a.onMesh g)))
    (hst : Stacked (InLayers (a.onMesh g)) col height len)
    (hs : StrongColumns (graphOf (a.onMesh g)) (meantCoupling (a.onMesh g)) (InLayers (a.onMesh g)) col height)
    (hsome : ∃ i, InLayers (a.onMesh g) i ∧ 2 ^ (levels.length + 1) ≤ len (col i))
    (hl : ∀ s ∈ levels, ∀ g' o' n', GoodMesh g' n' → n' ≤ n → (above → PrioritiesAbove g') →
      UsesLines P ((s g' o').onMesh g') ∧ (s g' o').oddLine = false) :
    ∃ maps gN, runLevels P z ((fun _ _ => a) :: levels) g o = .ok (maps, gN) ∧
      ∀ i, InLayers (a.onMesh g) i → 2 ^ (levels.length + 1) ≤ len (col i) →
        ∃ d : Nat, d + 2 ^ (levels.length + 1) * (len (col i) / 2 ^ (levels.length + 1)) ≤ len (col i) ∧
          ∀ j, InLayers (a.onMesh g) j → col j = col i → d ≤ height j →
            height j < d + 2 ^ (levels.length + 1) * (len (col i) / 2 ^ (levels.length + 1)) →
            ∀ x < n, (composeMaps maps x = composeMaps maps j ↔ InLayers (a.onMesh g) x ∧ col x = col j ∧
              d ≤ height x ∧ (height x - d) / 2 ^ (levels.length + 1) = (height j - d) / 2 ^ (levels.length + 1)) := by
  have hm := hg.validMesh a
  have hfit : ∀ fls : List (List Nat), FitsLimit (a.onMesh g) fls := fun fls l _ m h => by rw [hlim] at h; cases h
  have hpow : 2 ^ (levels.length + 1) = 2 * 2 ^ levels.length := by rw [pow_succ, Nat.mul_comm]
  have hpp : 0 < 2 ^ levels.length := Nat.pow_pos (by omega)
  rw [hpow]
  rw [hpow] at hsome
  obtain ⟨fls, _, h1, _, _, h4, hline, hlt, hcolumn, hcons⟩ := columns_lines (P := P) (o := o) hW hm hp hb hlim hns hpos hforce hst hs
  obtain ⟨fls', out, g1, hcall, hres, _, _, _⟩ := C40_built (P := P) (o := o) hW hm hp hcor hb (fun fls _ => hfit fls)
  rw [h1] at g1
  cases g1
  have hcl : ∀ l ∈ fls, ∀ i ∈ l, l.length = len (col i) ∧
      ((∀ q x : Nat, l[q]? = some x → height x = q) ∨ ∀ q x : Nat, l[q]? = some x → height x = len (col i) - 1 - q) := by
    intro l hl' i hi
    exact hst.listed ((List.nodup_flatten.1 h4).1 l hl') (hcons l hl') (hlt l hl' i hi) (hcolumn l hl' i hi)
  obtain ⟨cls, hexp, hpaired⟩ := hres.lines.pairedEvenly hlim hodd
  obtain ⟨g', N, hmade, hon⟩ := level_exports hz hg ⟨hp, hcor, Or.inr (Or.inl ⟨hb, fun fls _ => hfit fls⟩)⟩
    (withLines_iff.2 (by
      unfold anisoOn
      rw [hb.on, hb.build]; rfl)) (fun h => by
        have : (a.onMesh g).buildLines = true := hb.build
        have h' : (a.onMesh g).buildLines = false := h
        rw [this] at h'
        cases h') hcall hexp
  have hle := hmade.le
  obtain ⟨i0, hi0, h20⟩ := hsome
  obtain ⟨l0, hl0, hil0⟩ := hline i0 hi0 (by omega)
  obtain ⟨l0', hl0', hpu0⟩ := forall₂_mem hpaired l0 hl0
  obtain ⟨maps, gN, hrun, hcut⟩ := C100_even (P := P) hz (hW.irrefl _) (above := above) levels hmade.good
    (fun hh => hmade.above (hW.irrefl _) (hab hh)) hon ⟨l0', hl0', by rw [hpu0.1, (hcl l0 hl0 i0 hil0).1]; omega⟩
    (fun s hs g' o' n' h1 h2 h3 => hl s hs g' o' n' h1 (by omega) h3)
  refine ⟨out.fcToCc :: maps, gN, ?_, ?_⟩
  · unfold runLevels
    rw [hmade.call]
    simp only [hmade.build, hrun]
  · intro i hi h2i
    obtain ⟨l, hl', hil⟩ := hline i hi (by omega)
    obtain ⟨hL, hht⟩ := hcl l hl' i hil
    obtain ⟨l', hl1, hpu⟩ := forall₂_mem hpaired l hl'
    have hl2 : 2 ^ levels.length ≤ l'.length := by rw [hpu.1]; omega
    obtain ⟨b', hb'⟩ := hcut l' hl1 hl2
    obtain ⟨b1, hb1⟩ := hpu.cut hpp hmade.len (fun k hk => (hmade.all k).1 hk) hb'
    -- the column from its lowest cell
    obtain ⟨m, b, hmem, hmL, hmh, hbm⟩ : ∃ (m : List Nat) (b : Nat), (∀ x, x ∈ m ↔ x ∈ l) ∧ m.length = len (col i) ∧
        (∀ q x : Nat, m[q]? = some x → height x = q) ∧
        CutEvenly (fun i => (out.fcToCc[i]?).bind (composeMaps maps)) n (2 * 2 ^ levels.length) m b := by
      rcases hht with h | h
      · exact ⟨l, b1, fun _ => Iff.rfl, hL, h, hb1⟩
      · refine ⟨l.reverse, _, fun x => List.mem_reverse, by rw [List.length_reverse, hL], fun q x hq => ?_, hb1.reverse (by omega)⟩
        have hql := (List.getElem?_eq_some_iff.1 hq).1
        rw [List.length_reverse] at hql
        rw [List.getElem?_reverse hql] at hq
        rw [h _ x hq]
        omega
    have e1 := hbm.fits
    have e4 := hbm.same
    rw [hmL] at e1 e4
    refine ⟨b, e1, fun j hj hji hj1 hj2 x hx => ?_⟩
    have hjm : j ∈ m := (hmem j).2 ((hcolumn l hl' i hil j).2 ⟨hj, hji⟩)
    obtain ⟨p, hp1⟩ := List.mem_iff_getElem?.1 hjm
    show (out.fcToCc[x]?).bind (composeMaps maps) = (out.fcToCc[j]?).bind (composeMaps maps) ↔ _
    rw [hmh p j hp1] at hj1 hj2
    rw [e4 p j hp1 hj1 hj2 x hx, hmh p j hp1]
    constructor
    · rintro ⟨q, hq, hqs⟩
      obtain ⟨h8, h9⟩ := (hcolumn l hl' i hil x).1 ((hmem x).1 (List.mem_of_getElem? hq))
      rw [hmh q x hq]
      exact ⟨h8, by rw [h9, hji], hqs⟩
    · rintro ⟨hxl, hxc, hxs⟩
      obtain ⟨q, hq⟩ := List.mem_iff_getElem?.1 ((hmem x).2 ((hcolumn l hl' i hil x).2 ⟨hxl, by rw [hxc, hji]⟩))
      rw [hmh q x hq] at hxs
      exact ⟨q, hq, hxs⟩

/-! ## Concrete cases -/

/-- eleven cells in a row -/
def exRow11 : MeshData Int where
  adjIdx := [0, 1, 3, 5, 7, 9, 11, 13, 15, 17, 19, 20]
  adj := [1, 0, 2, 1, 3, 2, 4, 3, 5, 4, 6, 5, 7, 6, 8, 7, 9, 8, 10, 9]
  weights := [1, 1, 1, 1, 1, 1, 1, 1, 1, 1, 1, 1, 1, 1, 1, 1, 1, 1, 1, 1]
  volumes := [1, 1, 1, 1, 1, 1, 1, 1, 1, 1, 1]
  centers := [[0, 0], [1, 0], [2, 0], [3, 0], [4, 0], [5, 0], [6, 0], [7, 0], [8, 0], [9, 0], [10, 0]]
  priority := [10, 9, 8, 7, 6, 5, 4, 3, 2, 1, 0]
  nBnd := [3, 2, 2, 2, 2, 2, 2, 2, 2, 2, 3]

theorem exRow11_crs : ValidCRS 11 exRow11.adjIdx exRow11.adj := checkCRS_sound (by decide)

theorem exRow11_good : GoodMesh exRow11 11 where
  pos := by decide
  crs := exRow11_crs
  sym := checkSym_sound exRow11_crs (by decide)
  uniq := Or.inl (checkUniq_sound exRow11_crs (by decide))
  connected := connected_of_smaller (checkSym_sound exRow11_crs (by decide)) (by
    have key : ∀ i < 11, 0 < i → ∃ j < i, j ∈ rowOf exRow11.adjIdx exRow11.adj i := by decide
    intro i h0 h3
    obtain ⟨j, hj, h⟩ := key i h3 h0
    exact ⟨j, hj, adj_iff_rowOf.2 h⟩)
  weights := rfl
  volumes := rfl
  centers := rfl
  priority := rfl
  nBnd := rfl
  bndPos := by decide
  coords := ⟨2, by decide⟩

/-- the eleven cells, as a line provided by the caller -/
def exRow11Outs : Outs := ⟨[], [0, 11], [0, 1, 2, 3, 4, 5, 6, 7, 8, 9, 10]⟩

/-- two levels with a line of eleven cells: it becomes two coarsest cells -/
example := C100_followed (P := exPlatform) (z := -100) (by decide) (by decide) (above := False) exFollow exRow11_good
  (fun h => h.elim) (o := exRow11Outs) (ls := [[0, 1, 2, 3, 4, 5, 6, 7, 8, 9, 10]]) ⟨Or.inl ⟨rfl, rfl⟩, by decide, by decide, by
    intro l hl
    simp only [List.mem_singleton] at hl
    subst hl
    intro k x y hx hy
    have hk : k + 1 < 11 := (List.getElem?_eq_some_iff.1 hy).1
    have key : ∀ k < 10, k + 1 ∈ rowOf exRow11.adjIdx exRow11.adj k := by decide
    have hx' : (List.range 11)[k]? = some x := hx
    have hy' : (List.range 11)[k + 1]? = some y := hy
    rw [List.getElem?_range (by omega)] at hx' hy'
    cases hx'
    cases hy'
    exact adj_iff_rowOf.2 (key k (by omega))⟩ ⟨_, List.mem_singleton.2 rfl, by decide⟩ (by
    intro s hs g' o' n' _ _ _
    have : s = fun _ _ => exGiven := by simpa [exFollow] using hs
    subst this
    exact ⟨⟨⟨exGiven_params.dim, exGiven_params.minCard, exGiven_params.goalCard, exGiven_params.maxCard,
      exGiven_params.iter, exGiven_params.thresh, exGiven_params.order, exGiven_params.aspect, by
        rintro (h | h) <;> cases h⟩, fun _ => Or.inl rfl, rfl, rfl, rfl⟩, rfl⟩)

/-- … of four and of seven cells -/
example : (runLevels exPlatform (-100) exFollow exRow11 exRow11Outs).map Prod.fst =
    .ok [[0, 0, 1, 1, 2, 2, 3, 3, 4, 4, 4], [0, 0, 1, 1, 1]] := by
  decide +kernel

/-- two levels without odd lines -/
def exFollowEven : List (MeshData Int → Outs → Args Int) :=
  [fun _ _ => { exGiven with oddLine := false }, fun _ _ => { exGiven with oddLine := false }]

/-- the same without odd lines -/
example := C100_even (P := exPlatform) (z := -100) (by decide) (by decide) (above := False) exFollowEven exRow11_good
  (fun h => h.elim) (o := exRow11Outs) (ls := [[0, 1, 2, 3, 4, 5, 6, 7, 8, 9, 10]]) ⟨Or.inl ⟨rfl, rfl⟩, by decide, by decide, by
    intro l hl
    simp only [List.mem_singleton] at hl
    subst hl
    intro k x y hx hy
    have hk : k + 1 < 11 := (List.getElem?_eq_some_iff.1 hy).1
    have key : ∀ k < 10, k + 1 ∈ rowOf exRow11.adjIdx exRow11.adj k := by decide
    have hx' : (List.range 11)[k]? = some x := hx
    have hy' : (List.range 11)[k + 1]? = some y := hy
    rw [List.getElem?_range (by omega)] at hx' hy'
    cases hx'
    cases hy'
    exact adj_iff_rowOf.2 (key k (by omega))⟩ ⟨_, List.mem_singleton.2 rfl, by decide⟩ (by
    intro s hs g' o' n' _ _ _
    have : s = fun _ _ => { exGiven with oddLine := false } := by simpa [exFollowEven] using hs
    subst this
    exact ⟨⟨⟨exGiven_params.dim, exGiven_params.minCard, exGiven_params.goalCard, exGiven_params.maxCard,
      exGiven_params.iter, exGiven_params.thresh, exGiven_params.order, exGiven_params.aspect, by
        rintro (h | h) <;> cases h⟩, fun _ => Or.inl rfl, rfl, rfl, rfl⟩, rfl⟩)

/-- two coarsest cells of four cells each; the last three cells of the line are in another one -/
example : (runLevels exPlatform (-100) exFollowEven exRow11 exRow11Outs).map Prod.fst =
    .ok [[0, 0, 1, 1, 2, 2, 3, 3, 4, 4, 5], [0, 0, 1, 1, 2, 2]] := by
  decide +kernel

/-- two levels with towers: the first one builds the lines, the second one follows them -/
example := C100_columns rat_lawful (P := exPlatform) (z := -100) (by decide) (above := False) exTowerCall
  [fun _ _ => { exWall with buildLines := false }] exTower_good (fun h => h.elim) ⟨[], [], []⟩
  ⟨exWall_params.dim, exWall_params.minCard, exWall_params.goalCard, exWall_params.maxCard, exWall_params.iter,
    exWall_params.thresh, exWall_params.order, exWall_params.aspect, by rintro (h | h) <;> cases h⟩
  (fun _ => Or.inl rfl)
  { on := rfl, build := rfl, compliant := by decide, isolated := fun _ _ i hi => by
      have : ∀ i < 9, rowOf exTower.adjIdx exTower.adj i ≠ [] := by decide
      obtain ⟨j, hj⟩ := List.exists_mem_of_ne_nil _ (this i (by revert i; decide))
      exact ⟨j, adj_iff_rowOf.2 hj⟩ }
  rfl rfl (checkNoLoop_sound exTower_crs (by decide)) (by
    rintro i j w ⟨k, _, hk⟩
    have : ∀ w ∈ exTower.weights, Num.lt w (Num.ofNat 0) = false := by decide +kernel
    exact this w (List.mem_of_getElem? hk)) (Or.inl rfl) exTower_stacked exTower_strong
  ⟨0, (exTower_layers 0).2 (by decide), by decide⟩
  (by
    intro s hs g' o' n' _ _ _
    simp only [List.mem_singleton] at hs
    subst hs
    exact ⟨⟨⟨exWall_params.dim, exWall_params.minCard, exWall_params.goalCard, exWall_params.maxCard, exWall_params.iter,
      exWall_params.thresh, exWall_params.order, exWall_params.aspect, by rintro (h | h) <;> cases h⟩, fun _ => Or.inl rfl, rfl, rfl, rfl⟩, rfl⟩)

/-- the same without odd lines -/
example := C100_columns_even rat_lawful (P := exPlatform) (z := -100) (by decide) (above := False) { exTowerCall with oddLine := false }
  [fun _ _ => { exWall with buildLines := false, oddLine := false }] exTower_good (fun h => h.elim) ⟨[], [], []⟩
  ⟨exWall_params.dim, exWall_params.minCard, exWall_params.goalCard, exWall_params.maxCard, exWall_params.iter,
    exWall_params.thresh, exWall_params.order, exWall_params.aspect, by rintro (h | h) <;> cases h⟩
  (fun _ => Or.inl rfl)
  { on := rfl, build := rfl, compliant := by decide, isolated := fun _ _ i hi => by
      have : ∀ i < 9, rowOf exTower.adjIdx exTower.adj i ≠ [] := by decide
      obtain ⟨j, hj⟩ := List.exists_mem_of_ne_nil _ (this i (by revert i; decide))
      exact ⟨j, adj_iff_rowOf.2 hj⟩ }
  rfl rfl (checkNoLoop_sound exTower_crs (by decide)) (by
    rintro i j w ⟨k, _, hk⟩
    have : ∀ w ∈ exTower.weights, Num.lt w (Num.ofNat 0) = false := by decide +kernel
    exact this w (List.mem_of_getElem? hk)) (Or.inl rfl) exTower_stacked exTower_strong
  ⟨0, (exTower_layers 0).2 (by decide), by decide⟩
  (by
    intro s hs g' o' n' _ _ _
    simp only [List.mem_singleton] at hs
    subst hs
    exact ⟨⟨⟨exWall_params.dim, exWall_params.minCard, exWall_params.goalCard, exWall_params.maxCard, exWall_params.iter,
      exWall_params.thresh, exWall_params.order, exWall_params.aspect, by rintro (h | h) <;> cases h⟩, fun _ => Or.inl rfl, rfl, rfl, rfl⟩, rfl⟩)

end CoMMA
