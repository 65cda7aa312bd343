import Verif.Spec.CorrectedSize
import Verif.Props.AnyMode
import Verif.Props.NumberingLines
import Verif.Lemmas.PartsFix
import Verif.Lemmas.ExampleTools
import Mathlib.Data.List.Perm.Subperm
/-! # C87: how large coarse cells get when single cells are corrected -/

set_option linter.unusedSectionVars false

namespace CoMMA

section
variable {rp ci : List Nat} {m : Nat} {f0 : List Nat}

/-- no single cell has another one as neighbour -/
def SinglesApart (rp ci f0 : List Nat) (m : Nat) : Prop :=
  ∀ x y kx ky : Nat, f0[x]? = some kx → f0[y]? = some ky → m ≤ kx → m ≤ ky → f0.count kx = 1 → f0.count ky = 1 → ¬ Adj rp ci x y

/-- what is known of the indices during the correction: a cell keeps its index or is a single cell that got the index of
a neighbour which is not -/
def MovedOnce (rp ci f0 f : List Nat) (m : Nat) : Prop :=
  f.length = f0.length ∧ ∀ i k : Nat, f[i]? = some k → f0[i]? = some k ∨
    (m ≤ k ∧ (∃ k0, f0[i]? = some k0 ∧ m ≤ k0 ∧ f0.count k0 = 1) ∧ f0.count k ≠ 1 ∧ ∃ y, Adj rp ci i y ∧ f0[y]? = some k)

theorem MovedOnce.step (hap : SinglesApart rp ci f0 m) {f : List Nat} (h : MovedOnce rp ci f0 f m) {k x r : Nat} (hk1 : f0.count k = 1)
    (hkm : m ≤ k) (hx : f[x]? = some k) (hr : Receiver rp ci f m x r) : MovedOnce rp ci f0 (f.set x r) m := by
  obtain ⟨_, hmr, y, hxy, hy⟩ := hr
  -- the cell has not moved before
  have hx0 : f0[x]? = some k := by
    rcases h.2 x k hx with h1 | ⟨_, _, h1, _⟩
    · exact h1
    · exact absurd hk1 h1
  -- neither has its neighbour
  have hy0 : f0[y]? = some r ∧ f0.count r ≠ 1 := by
    rcases h.2 y r hy with h1 | ⟨_, ⟨k0, h2, h3, h4⟩, _⟩
    · exact ⟨h1, fun h2 => hap x y k r hx0 h1 hkm hmr hk1 h2 hxy⟩
    · exact absurd hxy (hap x y k k0 hx0 h2 hkm h3 hk1 h4)
  refine ⟨by rw [List.length_set]; exact h.1, ?_⟩
  intro i l hi
  by_cases hix : x = i
  · subst hix
    rw [List.getElem?_set_self (List.getElem?_eq_some_iff.1 hx).1] at hi
    cases hi
    exact Or.inr ⟨hmr, ⟨k, hx0, hkm, hk1⟩, hy0.2, y, hxy, hy0.1⟩
  · rw [List.getElem?_set_ne hix] at hi
    exact h.2 i l hi

theorem MovedOnce.merges (hap : SinglesApart rp ci f0 m) {ks f f' : List Nat} (h : Merges rp ci m ks f f')
    (hks : ∀ k ∈ ks, f0.count k = 1 ∧ m ≤ k) (hf : MovedOnce rp ci f0 f m) : MovedOnce rp ci f0 f' m := by
  induction h with
  | done => exact hf
  | large _ _ ih => exact ih (fun k hk => hks k (List.mem_cons_of_mem _ hk)) hf
  | alone _ _ _ _ ih => exact ih (fun k hk => hks k (List.mem_cons_of_mem _ hk)) hf
  | merged _ hx hb _ ih =>
    have := hks _ List.mem_cons_self
    exact ih (fun k hk => hks k (List.mem_cons_of_mem _ hk)) (hf.step hap this.1 this.2 hx hb.1)

theorem MovedOnce.corrected (hap : SinglesApart rp ci f0 m) {f : List Nat} (h : CorrectionOf rp ci m f0 f) :
    ∃ f1, MovedOnce rp ci f0 f1 m ∧ f.length = f1.length ∧ ∀ i j : Nat, f[i]? = f[j]? ↔ f1[i]? = f1[j]? := by
  obtain ⟨N, f1, _, hm, rfl⟩ := h
  refine ⟨f1, MovedOnce.merges hap hm ?_ ⟨rfl, fun i k h => Or.inl h⟩, by simp [renumbered], fun i j => renumbered_eq_iff f1 i j⟩
  intro k hk
  obtain ⟨_, h2⟩ := List.mem_filter.1 hk
  simp only [Bool.and_eq_true, decide_eq_true_iff] at h2
  exact ⟨h2.2, h2.1⟩

theorem length_cellsOf (f0 : List Nat) (r : Nat) : (cellsOf f0 r).length = f0.count r := by
  unfold cellsOf
  rw [← List.countP_eq_length_filter]
  induction f0 with
  | nil => rfl
  | cons a l ih =>
    rw [List.length_cons, List.range_succ_eq_map, List.countP_cons, List.countP_map, List.count_cons, ← ih]
    congr 1
    simp only [List.getElem?_cons_zero, Option.some.injEq, decide_eq_true_eq, beq_iff_eq]

theorem nodup_cellsOf (f0 : List Nat) (r : Nat) : (cellsOf f0 r).Nodup := List.nodup_range.filter _

/-- a cell of a coarse cell that has a single cell -/
theorem eq_of_count_one {f0 : List Nat} {r i j : Nat} (h : f0.count r = 1) (hi : f0[i]? = some r) (hj : f0[j]? = some r) : i = j := by
  rw [← length_cellsOf, List.length_eq_one_iff] at h
  obtain ⟨c, hc⟩ := h
  have h1 := mem_cellsOf.2 hi
  have h2 := mem_cellsOf.2 hj
  rw [hc, List.mem_singleton] at h1 h2
  rw [h1, h2]

/-- the core of a corrected coarse cell is a coarse cell that was there before, of two cells or more unless it is alone -/
theorem core_exists (hap : SinglesApart rp ci f0 m) {f : List Nat} (h : CorrectionOf rp ci m f0 f) {i k : Nat} (hi : f[i]? = some k) :
    ∃ r : Nat, (∃ j : Nat, f0[j]? = some r) ∧ (∀ j : Nat, f0[j]? = some r → f[j]? = some k) ∧
      (∀ j : Nat, f[j]? = some k → f0[j]? ≠ some r → f0.count r ≠ 1 ∧ ∃ y : Nat, Adj rp ci j y ∧ f0[y]? = some r) := by
  obtain ⟨f1, hmv, hlen, heq⟩ := MovedOnce.corrected hap h
  have hil := (List.getElem?_eq_some_iff.1 hi).1
  obtain ⟨r, hr⟩ : ∃ r, f1[i]? = some r := ⟨_, List.getElem?_eq_getElem (by omega)⟩
  have hcls : ∀ j : Nat, f[j]? = some k ↔ f1[j]? = some r := by
    intro j
    rw [← hi, ← hr]
    exact heq j i
  have hex : ∃ j : Nat, f0[j]? = some r := by
    rcases hmv.2 i r hr with h1 | ⟨_, _, _, y, _, h1⟩
    · exact ⟨i, h1⟩
    · exact ⟨y, h1⟩
  refine ⟨r, hex, ?_, ?_⟩
  · intro j hj
    rw [hcls]
    have hjl : j < f1.length := by rw [hmv.1]; exact (List.getElem?_eq_some_iff.1 hj).1
    obtain ⟨l, hl⟩ : ∃ l, f1[j]? = some l := ⟨_, List.getElem?_eq_getElem hjl⟩
    rcases hmv.2 j l hl with h1 | ⟨_, ⟨k0, h1, h2, h3⟩, _, _⟩
    · rw [hj] at h1; cases h1; exact hl
    · rw [hj] at h1
      cases h1
      rcases hmv.2 i r hr with h4 | ⟨_, _, h4, _⟩
      · have := eq_of_count_one h3 h4 hj
        subst this
        exact hr
      · exact absurd h3 h4
  · intro j hj hne
    rcases hmv.2 j r ((hcls j).1 hj) with h1 | ⟨_, _, h1, y, h2, h3⟩
    · exact absurd h1 hne
    · exact ⟨h1, y, h2, h3⟩

/-- the cells of a connected coarse cell, as a list -/
theorem connected_cellsOf {r : Nat} (h : ConnectedSet rp ci (fun i => f0[i]? = some r)) : ConnectedSet rp ci (fun i => i ∈ cellsOf f0 r) := by
  simpa only [mem_cellsOf] using h

theorem core_of {f : List Nat} (hap : SinglesApart rp ci f0 m) (h : CorrectionOf rp ci m f0 f) {i k : Nat} (hi : f[i]? = some k) {mx : Int}
    (hsize : ∀ r, (∀ j : Nat, f0[j]? = some r → f[j]? = some k) → (∃ j : Nat, f0[j]? = some r) → (f0.count r : Int) ≤ mx ∧ ConnectedSet rp ci (fun i => f0[i]? = some r)) :
    ∃ core, CoreOf rp ci f k mx core ∧ (core.length = 1 → f.count k = 1) := by
  obtain ⟨r, ⟨j, hj⟩, h1, h2⟩ := core_exists hap h hi
  obtain ⟨h3, h4⟩ := hsize r h1 ⟨j, hj⟩
  refine ⟨cellsOf f0 r, ⟨List.ne_nil_of_mem (mem_cellsOf.2 hj), nodup_cellsOf _ _, by rw [length_cellsOf]; exact h3, connected_cellsOf h4,
    fun c hc => h1 c (mem_cellsOf.1 hc), ?_⟩, ?_⟩
  · intro c hc hn
    obtain ⟨_, y, hy1, hy2⟩ := h2 c hc (fun h => hn (mem_cellsOf.2 h))
    exact ⟨y, mem_cellsOf.2 hy2, hy1⟩
  · rw [length_cellsOf]
    intro hone
    have : cellsOf f k = cellsOf f0 r := by
      have hl : f.length = f0.length := by
        obtain ⟨f1, hmv, hlen, _⟩ := MovedOnce.corrected hap h
        rw [hlen, hmv.1]
      unfold cellsOf
      rw [hl]
      apply List.filter_congr
      intro c _
      rw [decide_eq_decide]
      refine ⟨fun hc => ?_, h1 c⟩
      by_contra hn
      exact (h2 c hc hn).1 hone
    rw [← length_cellsOf, this, length_cellsOf, hone]

end

/-! ### The bound -/

/-- a walk that leaves its starting point makes a first step -/
theorem walk_first {R : Nat → Nat → Prop} {n x y : Nat} (h : Walk R n x y) (hne : x ≠ y) : ∃ z, R x z := by
  induction h with
  | nil => exact absurd rfl hne
  | @step k x y' z' w r ih =>
    by_cases he : x = y'
    · subst he; exact ⟨_, r⟩
    · exact ih he

/-- at most `d` neighbours for each cell of the core, one of which at least is in the core -/
theorem CoreOf.count_le {rp ci f core : List Nat} {k d : Nat} {mx : Int} (h : CoreOf rp ci f k mx core)
    (hsym : SymmetricCRS rp ci) (hd : ∀ i, (rowOf rp ci i).length ≤ d) (h1 : core.length = 1 → f.count k = 1) :
    f.count k ≤ core.length * max 1 d := by
  by_cases hone : core.length = 1
  · rw [h1 hone, hone]
    omega
  have hpos : 0 < core.length := List.length_pos_iff.2 h.some
  -- neighbours of a cell of the core that are not in the core
  have hout : ∀ c ∈ core, ((rowOf rp ci c).filter (fun y => decide (y ∉ core))).length + 1 ≤ d := by
    intro c hc
    obtain ⟨c', hc', hne⟩ : ∃ c' ∈ core, c ≠ c' := by
      by_contra hall
      push Not at hall
      have : core.length ≤ [c].length := (List.subperm_of_subset h.nodup (fun x hx => by rw [List.mem_singleton]; exact (hall x hx).symm)).length_le
      simp at this
      omega
    obtain ⟨n, hw⟩ := h.connected c c' hc hc'
    obtain ⟨z, hz, _, hzc⟩ := walk_first hw hne
    have hzr := adj_iff_rowOf.1 hz
    have h2 := List.length_eq_length_filter_add (l := rowOf rp ci c) (fun y => decide (y ∉ core))
    have h3 : 0 < ((rowOf rp ci c).filter (fun y => !decide (y ∉ core))).length := by
      apply List.length_pos_of_mem (a := z)
      rw [List.mem_filter]
      exact ⟨hzr, by simpa using hzc⟩
    have := hd c
    omega
  have hsub : ∀ i ∈ cellsOf f k, i ∈ core ++ core.flatMap (fun c => (rowOf rp ci c).filter (fun y => decide (y ∉ core))) := by
    intro i hi
    rw [mem_cellsOf] at hi
    rw [List.mem_append]
    by_cases hc : i ∈ core
    · exact Or.inl hc
    · obtain ⟨c, hcc, hadj⟩ := h.near i hi hc
      refine Or.inr (List.mem_flatMap.2 ⟨c, hcc, List.mem_filter.2 ⟨adj_iff_rowOf.1 (hsym _ _ hadj), by simpa using hc⟩⟩)
  have hle := (List.subperm_of_subset (nodup_cellsOf f k) hsub).length_le
  rw [length_cellsOf, List.length_append, List.length_flatMap] at hle
  have hsum : ∀ l : List Nat, (∀ c ∈ l, c ∈ core) →
      (l.map (fun c => ((rowOf rp ci c).filter (fun y => decide (y ∉ core))).length)).sum + l.length ≤ l.length * d := by
    intro l
    induction l with
    | nil => intro _; simp
    | cons c l ih =>
      intro hl
      have e1 := ih (fun x hx => hl x (List.mem_cons_of_mem _ hx))
      have e2 := hout c (hl c List.mem_cons_self)
      rw [List.map_cons, List.sum_cons, List.length_cons, Nat.succ_mul]
      omega
  have := hsum core (fun _ h => h)
  have hm : core.length * d ≤ core.length * max 1 d := Nat.mul_le_mul_left _ (by omega)
  omega

section
variable {W : Type} [Num W]

/-- single cells have no single neighbours -/
theorem singlesApart {rp ci f0 : List Nat} {m : Nat} (hsym : SymmetricCRS rp ci) (hns : NoSelfLoop rp ci)
    (hmin : ∀ x y kx ky : Nat, f0[x]? = some kx → f0[y]? = some ky → m ≤ kx → f0.count kx = 1 → Adj rp ci x y → ky ≤ kx) :
    SinglesApart rp ci f0 m := by
  intro x y kx ky hx hy h1 h2 h3 h4 hadj
  have e1 := hmin x y kx ky hx hy h1 h3 hadj
  have e2 := hmin y x ky kx hy hx h2 h4 (hsym _ _ hadj)
  obtain rfl : kx = ky := by omega
  obtain rfl := eq_of_count_one h3 hx hy
  exact hns _ hadj

/-- **C87** (without lines) With correction of single cells every coarse cell consists of a
connected core of at most `max_card` cells and of neighbours of the core; so it has at most
`max_card · d` cells if no cell has more than `d ≥ 1` neighbours. -/
theorem C87_isotropic {P : Platform} {a : Args W} {o : Outs} {n : Nat} (hm : ValidMesh a n) (hp : ValidParams P a)
    (hcor : a.correction = true) (hs : CorrectsSingletons a) (hu : UniqueRows a.rowPtr a.colInd)
    (hl : NoSelfLoop a.rowPtr a.colInd) (hoff : WithoutLines a o) :
    ∃ f, agglomerateOneLevel P a o = (⟨f, o.linesIdx, o.lines⟩, .ok ()) ∧
      (∀ k ∈ f, ∃ core, CoreOf a.rowPtr a.colInd f k a.maxCard core) ∧
      ∀ d : Nat, (∀ i, (rowOf a.rowPtr a.colInd i).length ≤ d) → ∀ k, (f.count k : Int) ≤ a.maxCard * max 1 d := by
  obtain ⟨f, f0, e1, e2, hc⟩ := C39_isotropic hm hp hcor hs hu hl hoff
  have hm0 : ValidMesh { a with correction := false } n := { hm with }
  have hp0 : ValidParams P { a with correction := false } := { hp with }
  have hs0 : CorrectsSingletons { a with correction := false } := fun h => by cases h
  have hmin := @C04_min_card _ _ _ _ _ _ hm0 hp0 rfl hoff
  have hmax := C03_max_card hm0 hp0 rfl (o := o) hoff
  have hcon := C05_connected hm0 hp0 hs0 (o := o) hoff
  rw [e2] at hmin hmax hcon
  have hmc := hp.minCard
  have hap : SinglesApart a.rowPtr a.colInd f0 0 := singlesApart hm.sym hl (fun x y kx ky hx hy _ h1 hadj =>
    hmin hx hy (by show (f0.count kx : Int) < a.minCard; omega) hadj)
  have hcore : ∀ k ∈ f, ∃ core, CoreOf a.rowPtr a.colInd f k a.maxCard core ∧ (core.length = 1 → f.count k = 1) := by
    intro k hk
    obtain ⟨i, hi⟩ := List.mem_iff_getElem?.1 hk
    exact core_of hap hc hi (fun r _ _ => ⟨hmax r, hcon r⟩)
  refine ⟨f, e1, fun k hk => ?_, fun d hd k => ?_⟩
  · obtain ⟨core, h, _⟩ := hcore k hk
    exact ⟨core, h⟩
  · by_cases hk : k ∈ f
    · obtain ⟨core, h, h1⟩ := hcore k hk
      have h2 := h.count_le hm.sym hd h1
      have h3 := h.size
      have h4 : (core.length : Int) * (max 1 d : Nat) ≤ a.maxCard * (max 1 d : Nat) := Int.mul_le_mul_of_nonneg_right h3 (by omega)
      have h5 : (f.count k : Int) ≤ ((core.length * max 1 d : Nat) : Int) := by exact_mod_cast h2
      push_cast at h4 h5
      omega
    · rw [List.count_eq_zero_of_not_mem hk]
      have h1 := hp.goalCard
      have h2 := hp.maxCard
      exact Int.mul_nonneg (by omega) (by omega)

/-- **C87** (with lines) The same for the coarse cells that are not made from a line. -/
theorem C87_call (hW : LawfulLt W) {P : Platform} {a : Args W} {o : Outs} {n : Nat} (hm : ValidMesh a n) (hp : ValidParams P a)
    (hcor : a.correction = true) (hs : CorrectsSingletons a) (hu : UniqueRows a.rowPtr a.colInd)
    (hl : NoSelfLoop a.rowPtr a.colInd) (hmode : ValidMode (graphOf a) a o n) (ho : ¬ WithoutLines a o) :
    ∃ f idx lines, agglomerateOneLevel P a o = (⟨f, idx, lines⟩, .ok ()) ∧
      (∀ k ∈ f, k ∉ lines → ∃ core, CoreOf a.rowPtr a.colInd f k a.maxCard core) ∧
      ∀ d : Nat, (∀ i, (rowOf a.rowPtr a.colInd i).length ≤ d) → ∀ k, k ∉ lines → (f.count k : Int) ≤ a.maxCard * max 1 d := by
  obtain ⟨f, f0, idx, lines, e1, e2, hlines, hc⟩ := C39_call hW hm hp hcor hs hu hl hmode ho
  obtain ⟨f', f0', idx', lines', e1', e2', hkept⟩ := C11_call hW hm hp hcor hs hl hmode ho
  rw [e1] at e1'
  rw [e2] at e2'
  cases e1'
  cases e2'
  have hm0 : ValidMesh { a with correction := false } n := { hm with }
  have hp0 : ValidParams P { a with correction := false } := { hp with }
  have hs0 : CorrectsSingletons { a with correction := false } := fun h => by cases h
  obtain ⟨fls, hres⟩ : ∃ fls, AnisoResult { a with correction := false } n fls ⟨f0, idx, lines⟩ := by
    obtain ⟨ls, ⟨hb, hf⟩ | ⟨hg, hf⟩⟩ := hmode.withLines hW P hm hl ho
    · obtain ⟨fls, out, _, h2, h3, _⟩ := C40_built hW hm0 hp0 hs0 (o := o) { hb with } hf
      rw [e2] at h2
      cases h2
      exact ⟨fls, h3⟩
    · obtain ⟨out, h2, h3⟩ := C40_given hm0 hp0 hs0 (o := o) { hg with } hf
      rw [e2] at h2
      cases h2
      exact ⟨_, h3⟩
  have hmc := hp.minCard
  have hmem : ∀ k, lines.length ≤ k → k ∉ lines := by
    intro k hk hin
    rw [hlines, List.mem_range] at hin
    omega
  have hap : SinglesApart a.rowPtr a.colInd f0 lines.length := singlesApart hm.sym hl (fun x y kx ky hx hy hk h1 hadj =>
    hres.min rfl x y kx ky hx hy (hmem kx hk) (by show (f0.count kx : Int) < a.minCard; omega) hadj)
  have hcore : ∀ k ∈ f, k ∉ lines → ∃ core, CoreOf a.rowPtr a.colInd f k a.maxCard core ∧ (core.length = 1 → f.count k = 1) := by
    intro k hk hkl
    obtain ⟨i, hi⟩ := List.mem_iff_getElem?.1 hk
    refine core_of hap hc hi (fun r hr ⟨j, hj⟩ => ?_)
    have hrl : r ∉ lines := by
      intro h
      have h1 := (hkept r h j).2 hj
      rw [hr j hj] at h1
      cases h1
      exact hkl h
    exact ⟨hres.max rfl r hrl, hres.connected r hrl⟩
  refine ⟨f, idx, lines, e1, fun k hk hkl => ?_, fun d hd k hkl => ?_⟩
  · obtain ⟨core, h, _⟩ := hcore k hk hkl
    exact ⟨core, h⟩
  · by_cases hk : k ∈ f
    · obtain ⟨core, h, h1⟩ := hcore k hk hkl
      have h2 := h.count_le hm.sym hd h1
      have h3 := h.size
      have h4 : (core.length : Int) * (max 1 d : Nat) ≤ a.maxCard * (max 1 d : Nat) := Int.mul_le_mul_of_nonneg_right h3 (by omega)
      have h5 : (f.count k : Int) ≤ ((core.length * max 1 d : Nat) : Int) := by exact_mod_cast h2
      push_cast at h4 h5
      omega
    · rw [List.count_eq_zero_of_not_mem hk]
      have h1 := hp.goalCard
      have h2 := hp.maxCard
      exact Int.mul_nonneg (by omega) (by omega)

end

/-! ### Concrete cases -/

/-- two cells with two more neighbours each -/
def exTwin : Args Int :=
  { exArgs3 with
    rowPtr := [0, 3, 6, 7, 8, 9, 10], colInd := [1, 2, 3, 0, 4, 5, 0, 0, 1, 1], values := List.replicate 10 1, volumes := List.replicate 6 1,
    centers := [[0, 0], [1, 0], [-3, 0], [0, 3], [4, 0], [1, 3]], prio := [6, 5, 4, 3, 2, 1], nBnd := [2, 0, 0, 0, 0, 0],
    correction := true, minCard := 2, goalCard := 2, maxCard := 2, aspect := .diameter }

theorem exTwin_crs : ValidCRS 6 exTwin.rowPtr exTwin.colInd := checkCRS_sound (by decide)

theorem exTwin_valid : ValidMesh exTwin 6 :=
  ⟨by decide, exTwin_crs, checkSym_sound exTwin_crs (by decide), Or.inr exLawful, rfl, rfl, rfl, rfl, rfl, 2, by decide⟩

theorem exTwin_params : ValidParams exPlatform exTwin :=
  ⟨by decide, by decide, by decide, by decide, by decide, by decide, by decide, by decide, by decide⟩

example := C87_isotropic (o := ⟨[], [], []⟩) exTwin_valid exTwin_params rfl (fun _ => Or.inr rfl) (checkUniq_sound exTwin_crs (by decide))
  (checkNoLoop_sound exTwin_crs (by decide)) (Or.inl rfl)

example := C87_call (P := exPlatform) exLawful exGiven_valid exGiven_params rfl (fun _ => Or.inl rfl)
  (checkUniq_sound exGiven_crs (by decide)) (checkNoLoop_sound exGiven_crs (by decide)) exGiven_mode exGiven_withLines

/-- the bound is reached: at most three neighbours, `max_card = 2` and a coarse cell of six cells -/
theorem C87_tight : (∀ i, (rowOf exTwin.rowPtr exTwin.colInd i).length ≤ 3) ∧ exTwin.maxCard = 2 ∧
    agglomerateOneLevel exPlatform { exTwin with correction := false } ⟨[], [], []⟩ = (⟨[0, 0, 1, 2, 3, 4], [], []⟩, .ok ()) ∧
    agglomerateOneLevel exPlatform exTwin ⟨[], [], []⟩ = (⟨[0, 0, 0, 0, 0, 0], [], []⟩, .ok ()) := by
  refine ⟨fun i => ?_, rfl, by decide +kernel, by decide +kernel⟩
  by_cases hi : i < 6
  · have : ∀ i < 6, (rowOf exTwin.rowPtr exTwin.colInd i).length ≤ 3 := by decide
    exact this i hi
  · unfold rowOf
    rw [List.getElem?_eq_none (l := exTwin.rowPtr) (i := i + 1) (by show 7 ≤ i + 1; omega)]
    cases exTwin.rowPtr[i]? <;> simp

end CoMMA
