import Verif.Props.Halving
import Verif.Props.Rounding
/-! # C90: how many finest cells a cell of a coarse level holds -/

set_option linter.unusedSectionVars false

namespace CoMMA

variable {W : Type} [Num W]

/-- Settings of a level without correction whose coarse cells have at most `b` cells: `max_card` is at most `b` and,
if there are lines, `b` is at least 3. -/
structure BoundedCall (P : Platform) (a : Args W) (o : Outs) (n b : Nat) : Prop where
  known : KnownCall P a o n
  off : a.correction = false
  max : a.maxCard ≤ b
  lines : WithoutLines a o ∨ 3 ≤ b

theorem length_finestOf_cons {maps : List (List Nat)} {f : List Nat} {N : Nat} (hN : ∀ k ∈ f, k < N) (k : Nat) :
    (finestOf (f :: maps) f.length k).length = ((finestOf maps N k).map (fun j => f.count j)).sum := by
  have h := cells_sum (maps := maps) hN k (fun _ => (1 : ℚ))
  have e : ∀ j, ((cellsOf f j).map (fun _ => (1 : ℚ))).sum = ((f.count j : Nat) : ℚ) := by
    intro j
    rw [count_eq_filter]
    simp [cellsOf]
  simp only [e] at h
  have e2 : ((finestOf (f :: maps) f.length k).map (fun _ => (1 : ℚ))).sum =
      (((finestOf (f :: maps) f.length k).length : Nat) : ℚ) := by simp
  rw [e2] at h
  have e3 : ((finestOf maps N k).map (fun j => ((f.count j : Nat) : ℚ))).sum =
      ((((finestOf maps N k).map (fun j => f.count j)).sum : Nat) : ℚ) := by
    generalize finestOf maps N k = l
    induction l with
    | nil => simp
    | cons a l ih => simp [ih]
  rw [e3] at h
  exact_mod_cast h.symm

theorem sum_map_le_mul {l : List Nat} {φ : Nat → Nat} {b : Nat} (h : ∀ j ∈ l, φ j ≤ b) : (l.map φ).sum ≤ l.length * b := by
  induction l with
  | nil => simp
  | cons a l ih =>
    have h1 := h a (by simp)
    have h2 := ih (fun j hj => h j (List.mem_cons_of_mem _ hj))
    rw [List.map_cons, List.sum_cons, List.length_cons, Nat.add_mul]
    omega

theorem le_sum_map {l : List Nat} {φ : Nat → Nat} {b : Nat} (h : ∀ j ∈ l, b ≤ φ j) : l.length * b ≤ (l.map φ).sum := by
  induction l with
  | nil => simp
  | cons a l ih =>
    have h1 := h a (by simp)
    have h2 := ih (fun j hj => h j (List.mem_cons_of_mem _ hj))
    rw [List.map_cons, List.sum_cons, List.length_cons, Nat.add_mul]
    omega

theorem BoundedCall.sizes {P : Platform} {a : Args W} {o : Outs} {n b : Nat} (hm : ValidMesh a n)
    (h : BoundedCall P a o n b) {out : Outs} (hc : agglomerateOneLevel P a o = (out, .ok ())) (k : Nat) :
    out.fcToCc.count k ≤ b := by
  have h1 := h.max
  rcases h.lines with hoff | h3
  · have h4 := C03_max_card hm h.known.params h.off hoff k
    rw [hc] at h4
    simp only at h4
    omega
  · obtain ⟨out', e, _, _, h4⟩ := known_sizes hm h.known.params h.off h.known
    rw [hc] at e
    cases e
    have := h4 k
    omega

/-- **C90** (upper bound) Without correction a coarsest cell holds at most as many finest cells as the product, over
the levels, of the largest number of cells of a coarse cell; hence the coarsest mesh has at least the number of
finest cells over that product. -/
theorem C90_at_most {P : Platform} {z : Int} (hz : z ≤ 0) (hirr : Num.lt (Num.lmin : W) Num.lmin = false)
    {above : Prop} (levels : List (MeshData W → Outs → Args W)) (bounds : List Nat) {n : Nat} {g : MeshData W}
    (hg : GoodMesh g n) (hab : above → PrioritiesAbove g)
    (hl : List.Forall₂ (fun s b => ∀ g' o' n', GoodMesh g' n' → n' ≤ n → (above → PrioritiesAbove g') →
      BoundedCall P ((s g' o').onMesh g') o' n' b) levels bounds) (o : Outs) :
    ∃ maps gN N, runLevels P z levels g o = .ok (maps, gN) ∧ GoodMesh gN N ∧
      (∀ k, (finestOf maps n k).length ≤ bounds.prod) ∧ n ≤ N * bounds.prod := by
  induction levels generalizing n g o bounds with
  | nil =>
    cases hl
    refine ⟨[], g, n, rfl, hg, fun k => ?_, by simp⟩
    by_cases hk : k < n
    · rw [finestOf_nil hk]; simp
    · have : finestOf [] n k = [] := by
        rw [finestOf, List.filter_eq_nil_iff]
        intro i hi
        have := List.mem_range.1 hi
        simp [composeMaps]; omega
      rw [this]; simp
  | cons s r ih =>
    cases hl with
    | @cons _ b _ bs hs hr =>
    have hk := hs g o n hg (Nat.le_refl n) hab
    obtain ⟨out, g', N, h⟩ := level_made hz hg hk.known
    have hle := h.le
    have hsz := hk.sizes (hg.validMesh (s g o)) h.call
    obtain ⟨maps, gN, M, h8, h9, h10, h11⟩ := ih bs h.good (fun hh => h.above hirr (hab hh))
      (hr.imp (fun s b hs g' o' n' hg' hn' => hs g' o' n' hg' (by omega))) out
    refine ⟨out.fcToCc :: maps, gN, M, ?_, h9, ?_, ?_⟩
    · unfold runLevels
      rw [h.call]
      simp only [h.build, h8]
    · intro k
      rw [← h.len, length_finestOf_cons (N := N) (fun k hk => (h.all k).1 hk), List.prod_cons, Nat.mul_comm]
      exact Nat.le_trans (sum_map_le_mul (fun j _ => hsz j)) (Nat.mul_le_mul_right b (h10 k))
    · have h12 := length_le_counts (fun k hk => (h.all k).1 hk) hsz
      rw [h.len] at h12
      rw [List.prod_cons, Nat.mul_comm b, ← Nat.mul_assoc]
      exact Nat.le_trans h12 (Nat.mul_le_mul_right b h11)

/-- **C90** (how soon a hierarchy can end) Without correction a mesh of more cells than the product of the bounds is not
reduced to one cell. -/
theorem C90_not_sooner {P : Platform} {z : Int} (hz : z ≤ 0) (hirr : Num.lt (Num.lmin : W) Num.lmin = false)
    {above : Prop} (levels : List (MeshData W → Outs → Args W)) (m : Nat) {n : Nat} {g : MeshData W}
    (hg : GoodMesh g n) (hab : above → PrioritiesAbove g)
    (hl : ∀ s ∈ levels, ∀ g' o' n', GoodMesh g' n' → n' ≤ n → (above → PrioritiesAbove g') →
      BoundedCall P ((s g' o').onMesh g') o' n' m) (hn : m ^ levels.length < n) (o : Outs) :
    ∃ maps gN N, runLevels P z levels g o = .ok (maps, gN) ∧ GoodMesh gN N ∧ 1 < N := by
  have h2 : List.Forall₂ (fun s b => ∀ g' o' n', GoodMesh g' n' → n' ≤ n → (above → PrioritiesAbove g') →
      BoundedCall P ((s g' o').onMesh g') o' n' b) levels (List.replicate levels.length m) := by
    clear hn
    induction levels with
    | nil => exact .nil
    | cons s r ih => exact .cons (hl s (by simp)) (ih (fun s hs => hl s (List.mem_cons_of_mem _ hs)))
  obtain ⟨maps, gN, N, h3, h4, _, h5⟩ := C90_at_most hz hirr levels _ hg hab h2 o
  refine ⟨maps, gN, N, h3, h4, ?_⟩
  rw [List.prod_replicate] at h5
  by_contra hN
  have : N * m ^ levels.length ≤ 1 * m ^ levels.length := Nat.mul_le_mul_right _ (by omega)
  omega

/-- **C90** (lower bound) Without lines and with correction of single cells, after `k` levels each coarsest cell holds at
least `2 ^ k` finest cells, or there is only one coarsest cell, which holds them all. -/
theorem C90_at_least {P : Platform} {z : Int} (hz : z ≤ 0) (hirr : Num.lt (Num.lmin : W) Num.lmin = false)
    {above : Prop} (levels : List (MeshData W → Outs → Args W)) {n : Nat} {g : MeshData W} (hg : GoodMesh g n)
    (hab : above → PrioritiesAbove g)
    (hl : ∀ s ∈ levels, ∀ g' o' n', GoodMesh g' n' → n' ≤ n → (above → PrioritiesAbove g') →
      HalvingCall P ((s g' o').onMesh g') o') (o : Outs) :
    ∃ maps gN N, runLevels P z levels g o = .ok (maps, gN) ∧ GoodMesh gN N ∧
      ((N = 1 ∧ (finestOf maps n 0).length = n) ∨ ∀ k, k < N → 2 ^ levels.length ≤ (finestOf maps n k).length) := by
  have key : ∃ maps gN N, runLevels P z levels g o = .ok (maps, gN) ∧ GoodMesh gN N ∧
      (∀ i, i < n → ∃ k, k < N ∧ composeMaps maps i = some k) ∧
      (N = 1 ∨ ∀ k, k < N → 2 ^ levels.length ≤ (finestOf maps n k).length) := by
    induction levels generalizing n g o with
    | nil =>
      refine ⟨[], g, n, rfl, hg, fun i hi => ⟨i, hi, rfl⟩, Or.inr fun k hk => ?_⟩
      rw [finestOf_nil hk]; simp
    | cons s r ih =>
      have hk := hl s (by simp) g o n hg (Nat.le_refl n) hab
      obtain ⟨out, g', N, h⟩ := level_made hz hg ⟨hk.params, hk.corr, Or.inl hk.off⟩
      have hle := h.le
      obtain ⟨maps, gN, M, h8, h9, h10, h11⟩ := ih h.good (fun hh => h.above hirr (hab hh))
        (fun s hs g' o' n' hg' hn' => hl s (List.mem_cons_of_mem _ hs) g' o' n' hg' (by omega)) out
      refine ⟨out.fcToCc :: maps, gN, M, ?_, h9, ?_, ?_⟩
      · unfold runLevels
        rw [h.call]
        simp only [h.build, h8]
      · intro i hi
        have hi' : i < out.fcToCc.length := by rw [h.len]; exact hi
        obtain ⟨k, hk, hc⟩ := h10 out.fcToCc[i] ((h.all _).1 (List.getElem_mem hi'))
        exact ⟨k, hk, by simp [composeMaps, List.getElem?_eq_getElem hi', hc]⟩
      · by_cases hM : M = 1
        · exact Or.inl hM
        right
        have h11 := h11.resolve_left hM
        -- two cells at least are left, so there were two before
        have hMN : 1 < n := by
          by_contra hn
          have hN1 : N ≤ 1 := by omega
          have hpos := h9.pos
          have h0 : 1 ≤ 2 ^ r.length := Nat.one_le_two_pow
          have a0 := h11 0 (by omega)
          have a1 := h11 1 (by omega)
          obtain ⟨x, hx⟩ := List.exists_mem_of_length_pos (l := finestOf maps N 0) (by omega)
          obtain ⟨y, hy⟩ := List.exists_mem_of_length_pos (l := finestOf maps N 1) (by omega)
          simp only [finestOf, List.mem_filter, List.mem_range, decide_eq_true_eq] at hx hy
          have : x = y := by omega
          subst this
          rw [hx.2] at hy
          cases hy.2
        obtain ⟨f, N', e1, e2, e3, _⟩ := C78_halves (hg.validMesh (s g o)) hk.params hk.on hk.corr hk.off hg.connected hMN
        rw [h.call] at e1
        cases e1
        have hN : N = N' := by
          have k1 := (h.all N).symm.trans (e2 N)
          have k2 := (h.all N').symm.trans (e2 N')
          omega
        subst hN
        intro k hkM
        simp only at h e3 ⊢
        rw [← h.len, length_finestOf_cons (N := N) (fun k hk => (h.all k).1 hk), List.length_cons, Nat.pow_succ]
        refine Nat.le_trans (Nat.mul_le_mul_right 2 (h11 k hkM)) (le_sum_map fun j hj => e3 j ?_)
        exact List.mem_range.1 (List.mem_filter.1 hj).1
  obtain ⟨maps, gN, N, h1, h2, h3, h4⟩ := key
  refine ⟨maps, gN, N, h1, h2, h4.imp (fun hN => ⟨hN, ?_⟩) id⟩
  subst hN
  have : finestOf maps n 0 = List.range n := by
    rw [finestOf, List.filter_eq_self]
    intro i hi
    obtain ⟨k, hk, hc⟩ := h3 i (List.mem_range.1 hi)
    rw [hc]
    simp; omega
  rw [this, List.length_range]

/-! ## Concrete cases -/

/-- two levels without correction -/
def exPlain : List (MeshData Int → Outs → Args Int) :=
  [fun _ _ => { exArgs3 with correction := false }, fun _ _ => { exArgs3 with correction := false }]

theorem exPlain_bounded (s : MeshData Int → Outs → Args Int) (hs : s ∈ exPlain) (g' : MeshData Int) (o' : Outs) (n' : Nat) :
    BoundedCall exPlatform ((s g' o').onMesh g') o' n' 2 := by
  have : s = fun _ _ => { exArgs3 with correction := false } := by simpa [exPlain] using hs
  subst this
  obtain ⟨h1, _, h3⟩ := exLevels_ok (fun _ _ => exArgs3) (by simp [exLevels]) g' o'
  exact ⟨⟨{ h1 with }, (fun h => by cases h), Or.inl h3⟩, rfl, show (2 : Int) ≤ ((2 : Nat) : Int) by decide, Or.inl h3⟩

example := C90_at_most (P := exPlatform) (z := -100) (by decide) (by decide) (above := False) exPlain [2, 2] exLine3_good
  (fun h => h.elim) (.cons (fun g' o' n' _ _ _ => exPlain_bounded _ List.mem_cons_self g' o' n')
    (.cons (fun g' o' n' _ _ _ => exPlain_bounded _ List.mem_cons_self g' o' n') .nil)) ⟨[], [], []⟩

/-- three cells are not reduced to one by one level with coarse cells of two cells -/
example := C90_not_sooner (P := exPlatform) (z := -100) (by decide) (by decide) (above := False)
  [fun _ _ => { exArgs3 with correction := false }] 2 exLine3_good (fun h => h.elim)
  (fun s hs g' o' n' _ _ _ => exPlain_bounded s (by simp only [List.mem_singleton] at hs; simp [exPlain, hs]) g' o' n')
  (by decide) ⟨[], [], []⟩

example := C90_at_least (P := exPlatform) (z := -100) (by decide) (by decide) (above := False) exLevels exLine3_good
  (fun h => h.elim) (fun s hs g' o' _ _ _ _ => exLevels_halving s hs g' o') ⟨[], [], []⟩

end CoMMA
