import Verif.Lemmas.GridLarger
import Verif.Props.Structured
/-! # C91, C92: structured meshes are coarsened into blocks also if larger coarse cells are allowed -/

namespace CoMMA

variable {W : Type} [Num W]
variable {D : Nat} {ext : Nat → Nat} {n : Nat} {pos : Nat → Nat → Nat}

/-- boundary faces in the environment of a call -/
theorem CallEnv.sides {P : Platform} {a : Args W} {E : IsoEnv W (Feats W)} (hE : CallEnv P a E) (hm : ValidMesh a n) (hD : D ≤ a.dim)
    (G : EvenGrid D ext n pos (Adj a.rowPtr a.colInd)) (hb : ∀ c < n, a.nBnd[c]? = some (sidesOut D ext (pos c))) :
    ∀ c < n, E.g.nBnd[c]? = some (sidesOut D ext (pos c)) := by
  intro c hc
  have h1 := hE.dim
  have h2 := sidesOut_le (G.two_le hm.pos) (pos c)
  rw [hE.nBnd, List.getElem?_map, hb c hc]
  simp only [Option.map_some]
  rw [Nat.min_eq_left (by omega)]

/-- **C91** (2D) Larger coarse cells may be allowed: with one iteration (the default), the coarse cells are the blocks of two
by two cells whenever `goal_card` is 4 and `max_card` is between 4 and 8, whatever the rest. -/
theorem C91_larger {P : Platform} {a : Args W} {o : Outs} (hm : ValidMesh a n) (hp : ValidParams P a) (hW : LawfulLt W)
    (hu : UniqueRows a.rowPtr a.colInd) (hoff : WithoutLines a o) (hgoal : a.goalCard = 4)
    (hmax : a.maxCard ≤ 8) (hfc : a.fcIter = 1) (hg : IsGrid 2 ext n pos (Adj a.rowPtr a.colInd)) (he : ∀ ax < 2, ext ax % 2 = 0)
    (hb : ∀ c < n, a.nBnd[c]? = some (sidesOut 2 ext (pos c))) :
    ∃ f : List Nat, agglomerateOneLevel P a o = (⟨f, o.linesIdx, o.lines⟩, .ok ()) ∧ f.length = n ∧ Contiguous f ∧
      ∀ i < n, ∀ j < n, (f[i]? = f[j]? ↔ SameBlock 2 (pos i) (pos j)) := by
  have hdim := hp.dim
  refine structured hm hp hW hu hoff (by omega) (by omega) hgoal hg he hb ?_
  intro E hE _ agg s order S hlen hbs hs hc hgr
  have h1 := hE.dim
  have h2 := hE.goalCard
  have h3 := hE.maxCard
  have h4 := hE.minCard
  have h5 := hp.goalCard
  have h6 := hE.fcIter
  have h8 := hp.maxCard
  have h7 := hE.sides (n := n) { hm with } (by show ((2 : Nat) : Int) ≤ a.dim; omega) ⟨hg, he⟩ hb
  simp only at h1 h2 h3 h4 h6
  refine grown_square_larger (ext := ext) (by rw [hE.rowPtr, hE.colInd]; exact hm.crs) (by rw [hE.rowPtr, hE.colInd]; exact hu)
    ?_ h7 (by omega) (by omega) (by omega) (by omega) (by omega) (by omega) hlen hbs hs hc hgr
  rw [hE.rowPtr, hE.colInd]
  exact ⟨hg, he⟩

/-- **C92** (3D) Larger coarse cells may be allowed: the coarse cells are the blocks of two by two by two cells whenever
`goal_card` is 8 and `max_card` is between 8 and 166, with the extended neighbourhood and one iteration (the default). -/
theorem C92_larger {P : Platform} {a : Args W} {o : Outs} (hm : ValidMesh a n) (hp : ValidParams P a) (hW : LawfulLt W)
    (hu : UniqueRows a.rowPtr a.colInd) (hoff : WithoutLines a o) (hdim : a.dim = 3) (hgoal : a.goalCard = 8)
    (hmax : a.maxCard ≤ 166) (hnb : a.nbh = .extended) (hfc : a.fcIter = 1)
    (hg : IsGrid 3 ext n pos (Adj a.rowPtr a.colInd)) (he : ∀ ax < 3, ext ax % 2 = 0)
    (hb : ∀ c < n, a.nBnd[c]? = some (sidesOut 3 ext (pos c))) :
    ∃ f : List Nat, agglomerateOneLevel P a o = (⟨f, o.linesIdx, o.lines⟩, .ok ()) ∧ f.length = n ∧ Contiguous f ∧
      ∀ i < n, ∀ j < n, (f[i]? = f[j]? ↔ SameBlock 3 (pos i) (pos j)) := by
  refine structured hm hp hW hu hoff (by omega) (by omega) hgoal hg he hb ?_
  intro E hE _ agg s order S hlen hbs hs hc hgr
  have h1 := hE.dim
  have h2 := hE.goalCard
  have h3 := hE.maxCard
  have h4 := hE.minCard
  have h5 := hp.goalCard
  have h6 := hE.fcIter
  have h8 := hp.maxCard
  have h7 := hE.sides (n := n) { hm with } (by show ((3 : Nat) : Int) ≤ a.dim; omega) ⟨hg, he⟩ hb
  simp only at h1 h2 h3 h4 h6
  refine grown_cube_larger (ext := ext) (by rw [hE.rowPtr, hE.colInd]; exact hm.crs) (by rw [hE.rowPtr, hE.colInd]; exact hu)
    ?_ h7 (by omega) (by rw [hE.nbh]; exact hnb) (by omega) (by omega) (by omega) (by omega) (by omega) hlen hbs hs hc hgr
  rw [hE.rowPtr, hE.colInd]
  exact ⟨hg, he⟩

/-! ## Examples -/

example := C91_larger (P := exPlatform) (a := { exGrid with maxCard := 8, fcIter := 1 }) (o := ⟨[], [], []⟩) { exGrid_valid with }
  { exGrid_params with goalCard := by decide, iter := by decide, maxCard := by decide, onePoint := fun h => by rcases h with h | h <;> cases h }
  exLawful (checkUniq_sound exGrid_crs (by decide)) (Or.inl rfl) rfl (by decide) rfl exGrid_grid (by decide)
  (by unfold sidesOut; decide +kernel)

example := C92_larger (P := exPlatform) (a := { exGrid3 with maxCard := 16, minCard := 5 }) (o := ⟨[], [], []⟩) { exGrid3_valid with }
  { exGrid3_params with goalCard := by decide, minCard := by decide, maxCard := by decide, onePoint := fun h => by rcases h with h | h <;> cases h }
  exLawful (checkUniq_sound exGrid3_crs (by decide +kernel)) (Or.inl rfl) rfl rfl (by decide) rfl rfl exGrid3_grid (by decide)
  exGrid3_bnd

/-- four by four cells -/
def exGrid4Pos : List (List Nat) := (List.range 16).map (fun i => [i % 4, i / 4])

def exGrid4 : Args Int :=
  { exArgs with
    rowPtr := [0, 2, 5, 8, 10, 13, 17, 21, 24, 27, 31, 35, 38, 40, 43, 46, 48]
    colInd := [1, 4, 0, 2, 5, 1, 3, 6, 2, 7, 0, 5, 8, 1, 4, 6, 9, 2, 5, 7, 10, 3, 6, 11, 4, 9, 12, 5, 8, 10, 13, 6, 9, 11, 14, 7, 10, 15, 8, 13, 9, 12, 14, 10, 13, 15, 11, 14]
    values := List.replicate 48 1, volumes := List.replicate 16 1, centers := (List.range 16).map (fun i => [(i % 4 : Nat), (i / 4 : Nat)])
    prio := List.replicate 16 1, nBnd := [2, 1, 1, 2, 1, 0, 0, 1, 1, 0, 0, 1, 2, 1, 1, 2]
    goalCard := 4, minCard := 3, maxCard := 9, aspect := .external, fcIter := 1, nbh := .extended, correction := false }

theorem exGrid4_crs : ValidCRS 16 exGrid4.rowPtr exGrid4.colInd := checkCRS_sound (by decide)

theorem exGrid4_valid : ValidMesh exGrid4 16 where
  pos := by decide
  crs := exGrid4_crs
  sym := checkSym_sound exGrid4_crs (by decide +kernel)
  uniq := Or.inl (checkUniq_sound exGrid4_crs (by decide +kernel))
  values := rfl
  volumes := rfl
  centers := rfl
  prio := rfl
  bnd := rfl
  coords := ⟨2, by decide⟩

theorem exGrid4_params : ValidParams exPlatform exGrid4 :=
  ⟨by decide, by decide, by decide, by decide, by decide, by decide, by decide, by decide,
    fun h => by rcases h with h | h <;> cases h⟩

theorem exGrid4_grid : IsGrid 2 (fun _ => 4) 16 (posOf exGrid4Pos) (Adj exGrid4.rowPtr exGrid4.colInd) := by
  refine isGrid_of exGrid4_crs (by decide +kernel) (by decide +kernel) ?_ ?_
  · intro v hv
    have key : ∀ x < 4, ∀ y < 4, ∃ c < 16, posOf exGrid4Pos c 0 = x ∧ posOf exGrid4Pos c 1 = y := by decide +kernel
    obtain ⟨c, hc, h0, h1⟩ := key (v 0) (hv 0 (by omega)) (v 1) (hv 1 (by omega))
    refine ⟨c, hc, fun ax hax => ?_⟩
    have : ax = 0 ∨ ax = 1 := by omega
    rcases this with rfl | rfl
    · exact h0
    · exact h1
  · have key : ∀ c < 16, ∀ c' < 16, (c' ∈ rowOf exGrid4.rowPtr exGrid4.colInd c ↔
        nextTo 2 (posOf exGrid4Pos c) (posOf exGrid4Pos c') = true) := by decide +kernel
    intro c hc c' hc'
    rw [key c hc c' hc', nextTo_iff]

theorem exGrid4_bnd : ∀ c < 16, exGrid4.nBnd[c]? = some (sidesOut 2 (fun _ => 4) (posOf exGrid4Pos c)) := by
  unfold sidesOut
  decide +kernel

/-- **C91** The bound on `max_card` is needed: when nine cells are allowed, all the other hypotheses being met, a coarse cell of
three by three cells is made. -/
theorem C91_nine_counterexample :
    ValidMesh exGrid4 16 ∧ ValidParams exPlatform exGrid4 ∧ exGrid4.goalCard = 4 ∧ exGrid4.maxCard = 9 ∧ exGrid4.fcIter = 1 ∧
    IsGrid 2 (fun _ => 4) 16 (posOf exGrid4Pos) (Adj exGrid4.rowPtr exGrid4.colInd) ∧
    (∀ c < 16, exGrid4.nBnd[c]? = some (sidesOut 2 (fun _ => 4) (posOf exGrid4Pos c))) ∧
    ∃ f, agglomerateOneLevel exPlatform exGrid4 ⟨[], [], []⟩ = (⟨f, [], []⟩, .ok ()) ∧
      ¬ ∀ i < 16, ∀ j < 16, (f[i]? = f[j]? ↔ SameBlock 2 (posOf exGrid4Pos i) (posOf exGrid4Pos j)) :=
  ⟨exGrid4_valid, exGrid4_params, rfl, rfl, rfl, exGrid4_grid, exGrid4_bnd,
    [0, 0, 0, 1, 0, 0, 0, 1, 0, 0, 0, 1, 2, 2, 2, 3], by decide +kernel,
    not_blocks (i := 0) (j := 2) (by decide) (by decide) rfl ⟨0, by decide, by decide⟩⟩

/-- the same mesh with other weights, five cells allowed and two iterations -/
def exGrid4Two : Args Int :=
  { exGrid4 with
    maxCard := 5, fcIter := 2
    values := [11, 8, 11, 6, 3, 6, 1, 9, 1, 4, 8, 2, 10, 3, 2, 8, 5, 9, 8, 3, 11, 4, 3, 6, 10, 4, 1, 5, 4, 10, 7, 11, 10, 5, 2, 6, 5,
      8, 1, 6, 7, 6, 1, 2, 1, 7, 8, 7] }

/-- **C91** One iteration is needed when more than four cells are allowed: with two, all the other hypotheses being met, the coarse
cells are not the blocks. -/
theorem C91_two_counterexample :
    ValidMesh exGrid4Two 16 ∧ ValidParams exPlatform exGrid4Two ∧ exGrid4Two.goalCard = 4 ∧ exGrid4Two.maxCard = 5 ∧
    exGrid4Two.fcIter = 2 ∧ IsGrid 2 (fun _ => 4) 16 (posOf exGrid4Pos) (Adj exGrid4Two.rowPtr exGrid4Two.colInd) ∧
    (∀ c < 16, exGrid4Two.nBnd[c]? = some (sidesOut 2 (fun _ => 4) (posOf exGrid4Pos c))) ∧
    ∃ f, agglomerateOneLevel exPlatform exGrid4Two ⟨[], [], []⟩ = (⟨f, [], []⟩, .ok ()) ∧
      ¬ ∀ i < 16, ∀ j < 16, (f[i]? = f[j]? ↔ SameBlock 2 (posOf exGrid4Pos i) (posOf exGrid4Pos j)) :=
  ⟨{ exGrid4_valid with values := rfl }, ⟨by decide, by decide, by decide, by decide, by decide, by decide, by decide, by decide,
    fun h => by rcases h with h | h <;> cases h⟩, rfl, rfl, rfl, exGrid4_grid, exGrid4_bnd,
    [0, 0, 1, 1, 0, 0, 1, 1, 0, 2, 2, 3, 2, 2, 2, 3], by decide +kernel,
    not_blocks (i := 0) (j := 8) (by decide) (by decide) rfl ⟨1, by decide, by decide⟩⟩

end CoMMA
