import Verif.Lemmas.TileRow
import Verif.Props.Tiles
import Verif.Props.Structured
/-! # C105: rows of cells are coarsened into groups of `max_card` cells -/

namespace CoMMA

variable {W : Type} [Num W]
variable {B : Nat} {ext : Nat → Nat} {n : Nat} {pos : Nat → Nat → Nat}

open Tile

/-- **C105** A mesh whose connectivity is that of a row of cells, the number of cells being a multiple of `max_card`, is coarsened
into groups of `max_card` consecutive cells: whatever the dimension given, the numbering of the cells, weights, volumes, centers,
priorities, order of the seeds, neighbourhood, number of iterations, aspect ratio, `goal_card`, `min_card`, correction and
threshold. -/
theorem C105_rows {P : Platform} {a : Args W} {o : Outs} (hm : ValidMesh a n) (hp : ValidParams P a) (hW : LawfulLt W)
    (hu : UniqueRows a.rowPtr a.colInd) (hoff : WithoutLines a o) (hmax : a.maxCard = B)
    (hg : IsGrid 1 ext n pos (Adj a.rowPtr a.colInd)) (he : ext 0 % B = 0)
    (hb : ∀ c < n, a.nBnd[c]? = some (sidesOut 1 ext (pos c))) :
    ∃ f : List Nat, agglomerateOneLevel P a o = (⟨f, o.linesIdx, o.lines⟩, .ok ()) ∧ f.length = n ∧ Contiguous f ∧
      ∀ i < n, ∀ j < n, (f[i]? = f[j]? ↔ pos i 0 / B = pos j 0 / B) := by
  classical
  have i5 := hp.goalCard
  have i7 := hp.minCard
  have i8 := hp.maxCard
  have i9 := hp.dim
  have G : TileGrid B 1 ext n pos (Adj a.rowPtr a.colInd) := ⟨hg, fun ax hax => by
    have : ax = 0 := by omega
    subst this
    exact he, by omega⟩
  have := tiles_of_growth (D := 1) hm hp hW hu hoff (by omega) (by omega) G hb ?_ ?_
  · obtain ⟨f, h1, h2, h3, h4⟩ := this
    exact ⟨f, h1, h2, h3, fun i hi j hj => (h4 i hi j hj).trans same_one⟩
  · intro s hs S hS
    have := row_card G hs (T := S.elems.toFinset) (fun x => by
      rw [List.mem_toFinset, ← NSet.mem_def]
      exact hS x)
    have h2 : S.elems.toFinset.card ≤ S.card := List.toFinset_card_le _
    unfold sizeLimit
    simp only
    omega
  · intro E hE hbnd
    have i2 := hE.goalCard
    have i3 := hE.maxCard
    have i4 := hE.minCard
    simp only at i2 i3 i4
    have hG : TileGrid B 1 ext n pos (Adj E.g.rowPtr E.g.colInd) := by rw [hE.rowPtr, hE.colInd]; exact G
    refine ⟨Or.inl rfl, ?_⟩
    intro agg s order S hlen hbs hs hc hgr
    exact grown_row (by rw [hE.rowPtr, hE.colInd]; exact hm.crs) (by rw [hE.rowPtr, hE.colInd]; exact hu) hG hbnd
      (by omega) (by omega) (by omega) (by omega) hlen hbs hs hc hgr

/-- six cells in a row, numbered in some order, in dimension 2 -/
def exRow6 : Args Int :=
  { exArgs with
    rowPtr := [0, 2, 3, 4, 6, 8, 10], colInd := [3, 4, 5, 4, 0, 5, 0, 2, 1, 3], values := [5, 1, 7, 2, 1, 7, 3, 5, 2, 3], volumes := [1, 2, 3, 1, 2, 1]
    centers := [[5, 0], [1, 1], [2, 7], [3, 3], [0, 2], [4, 4]], prio := [3, 1, 4, 1, 5, 2], nBnd := [0, 1, 1, 0, 0, 0]
    dim := 2, goalCard := 2, minCard := 2, maxCard := 3, singThresh := 2, fcIter := 2, nbh := .pureFront }

def exRow6Pos : List (List Nat) := [[2], [5], [0], [3], [1], [4]]

theorem exRow6_crs : ValidCRS 6 exRow6.rowPtr exRow6.colInd := checkCRS_sound (by decide)

theorem exRow6_valid : ValidMesh exRow6 6 :=
  { pos := by decide, crs := exRow6_crs, sym := checkSym_sound exRow6_crs (by decide)
    uniq := Or.inl (checkUniq_sound exRow6_crs (by decide)), values := rfl, volumes := rfl, centers := rfl, prio := rfl
    bnd := rfl, coords := ⟨2, by decide⟩ }

theorem exRow6_params : ValidParams exPlatform exRow6 :=
  ⟨by decide, by decide, by decide, by decide, by decide, by decide, by decide, by decide,
    fun h => by rcases h with h | h <;> cases h⟩

theorem exRow6_grid : IsGrid 1 (fun _ => 6) 6 (posOf exRow6Pos) (Adj exRow6.rowPtr exRow6.colInd) :=
  isGrid_of exRow6_crs (by decide) (by decide) (by
    intro v hv
    have key : ∀ x < 6, ∃ c < 6, posOf exRow6Pos c 0 = x := by decide
    obtain ⟨c, hc, h0⟩ := key (v 0) (hv 0 (by omega))
    refine ⟨c, hc, fun ax hax => ?_⟩
    have : ax = 0 := by omega
    subst this
    exact h0) (by
    have key : ∀ c < 6, ∀ c' < 6, (c' ∈ rowOf exRow6.rowPtr exRow6.colInd c ↔
        nextTo 1 (posOf exRow6Pos c) (posOf exRow6Pos c') = true) := by decide +kernel
    intro c hc c' hc'
    rw [key c hc c' hc', nextTo_iff])

example := C105_rows (P := exPlatform) (o := ⟨[], [], []⟩) exRow6_valid exRow6_params exLawful
  (checkUniq_sound exRow6_crs (by decide)) (Or.inl rfl) (B := 3) rfl exRow6_grid (by decide) (by unfold sidesOut; decide +kernel)

/-- **C105** The boundary faces have to be those of a row: when the six cells are cells in the plane, each with all its sides
outside the mesh as boundary faces, all the other hypotheses being met, the coarse cells are pairs although three cells are
allowed. -/
theorem C105_sides_counterexample :
    ValidMesh { exRow6 with nBnd := [2, 3, 3, 2, 2, 2] } 6 ∧ ValidParams exPlatform { exRow6 with nBnd := [2, 3, 3, 2, 2, 2] } ∧
    exRow6.maxCard = 3 ∧ IsGrid 1 (fun _ => 6) 6 (posOf exRow6Pos) (Adj exRow6.rowPtr exRow6.colInd) ∧
    ∃ f, agglomerateOneLevel exPlatform { exRow6 with nBnd := [2, 3, 3, 2, 2, 2] } ⟨[], [], []⟩ = (⟨f, [], []⟩, .ok ()) ∧
      (∀ i < 6, ∀ j < 6, (f[i]? = f[j]? ↔ posOf exRow6Pos i 0 / 2 = posOf exRow6Pos j 0 / 2)) :=
  ⟨{ exRow6_valid with bnd := rfl }, { exRow6_params with onePoint := fun h => by rcases h with h | h <;> cases h }, rfl, exRow6_grid,
    [1, 2, 0, 1, 0, 2], by decide +kernel, by decide +kernel⟩

end CoMMA
