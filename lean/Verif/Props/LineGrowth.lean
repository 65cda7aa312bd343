import Verif.Lemmas.LineGrowth
import Verif.Lemmas.LineSpec
import Verif.Props.Anisotropic
/-! # C48-C50: how the lines are built

The lines are exactly those of the specification `LinesFrom`: tagged cells are taken by
priority, every line grows cell by cell on both sides as long as there is a candidate. -/

set_option linter.unusedSectionVars false

namespace CoMMA

variable {W : Type} [Num W]

/-- **C48** The lines are those grown from the tagged cells (compliant and anisotropic), taken
by decreasing priority and then increasing index, as specified by `LinesFrom`: the next cell
of a line is the free tagged neighbour with the strongest coupling above 0.9 times the
strongest coupling of the last cell or, if the direction is to be kept, the one most straight
ahead; lines are continued on the other side and those with at least two cells are kept. -/
theorem C48_lines_exact (hW : LawfulLt W) {g : Graph W} (hh : Hash) {prio : List W} {coupling : Coupling} {thr : W}
    (hI : LinesInput g prio coupling thr) (hsym : SymmetricCRS g.rowPtr g.colInd) (hns : NoSelfLoop g.rowPtr g.colInd)
    (hp : NonnegCouplings g coupling) (force : Bool) :
    ∃ ls seeds, buildLines g hh prio coupling force thr = .ok ls ∧
      (∀ i, i ∈ seeds ↔ i ∈ g.compliant ∧ IsAnisotropic g thr i) ∧ seeds.Nodup ∧ PriorityOrdered prio seeds ∧
      LinesFrom g coupling force (· ∈ seeds) seeds ls := by
  obtain ⟨alt, maxW, flags, seeds, htag, hmem', hnd, hord, hfl, hflag⟩ :=
    C34_tagging hW hh 0 hI (maxW := List.replicate g.nbC (Num.ofNat 0)) (by simp)
  have hmem : ∀ i, i ∈ seeds ↔ i ∈ g.compliant ∧ IsAnisotropic g thr i := by
    intro i; rw [hmem']; simp
  clear hmem'
  obtain ⟨hmax, href⟩ := (tagCells_data hW hh hI hns (maxW := List.replicate g.nbC (Num.ofNat 0)) (by simp)).elim htag
  obtain ⟨h1, h2, _, _, _⟩ := (tagCells_ok hh hI (maxW := List.replicate g.nbC (Num.ofNat 0)) (by simp)).elim htag
  simp only at hmax href h1 h2
  have hfree : (· ∈ seeds) = freeIn flags := by
    funext n; exact propext (hflag n).symm
  have hb : Ok (buildLines g hh prio coupling force thr) (fun ls => LinesFrom g coupling force (· ∈ seeds) seeds ls) := by
    unfold buildLines
    rw [htag, ok_bind]
    match hse : seeds, hmem with
    | [], _ => exact .done
    | x :: r, hmem =>
      simp only
      have hx0 := hI.compliant x ((hmem x).1 (by simp)).1
      have hpos : 0 < g.centers.length := by rw [hI.sizes.centers]; omega
      rw [rd_of_lt hpos, ok_bind]
      obtain ⟨D, hD⟩ := hI.sizes.coords
      have hL : LineOk (⟨g, refWeights g coupling alt, maxW, force, (g.centers[0]).length⟩ : LineEnv W) := by
        refine ⟨hI.crs, hsym, hI.sizes.centers, ?_, ?_, h2⟩
        · intro c hc
          simp only
          rw [hD c hc, hD _ (List.getElem_mem _)]
        · simp only
          unfold refWeights
          cases coupling with
          | unknown => exact absurd rfl hI.known
          | maxWeight => exact hI.sizes.values
          | minDistance => simp only; rw [h1]; simp [altInit, hI.sizes.values]
      refine Ok.bind (buildFrom_exact hW hL hp (S := (· ∈ g.compliant)) ⟨hmax, href⟩ hfl ?_ ?_) ?_
      · intro n hn
        exact ((hmem n).1 ((hflag n).1 hn)).1
      · intro y hy
        exact hI.compliant y ((hmem y).1 hy).1
      · rintro ⟨ls, t⟩ h
        rw [Ok_pure]
        rw [hfree]
        exact h
  obtain ⟨ls, h3, h4⟩ := hb.eq
  exact ⟨ls, seeds, h3, hmem, hnd, hord, h4⟩

/-- **C48** for a call that builds its lines: `fls` are the lines of `C40_built`. -/
theorem C48_call (hW : LawfulLt W) {P : Platform} {a : Args W} {o : Outs} {n : Nat} (hm : ValidMesh a n)
    (hb : BuildsLines a n) (hns : NoSelfLoop a.rowPtr a.colInd) (hp : NonnegCouplings (graphOf a) (meantCoupling a)) :
    ∃ fls seeds, fineLines P a o = .ok fls ∧
      (∀ i, i ∈ seeds ↔ i ∈ a.compliant ∧ IsAnisotropic (graphOf a) (meantThreshold a.thr) i) ∧ seeds.Nodup ∧
      PriorityOrdered a.prio seeds ∧ LinesFrom (graphOf a) (meantCoupling a) a.forceDir (· ∈ seeds) seeds fls := by
  obtain ⟨ls, seeds, h1, h2, h3, h4, h5⟩ :=
    C48_lines_exact hW P.hash (linesInput_of hm hb) hm.sym hns hp a.forceDir
  refine ⟨ls, seeds, ?_, ?_, h3, h4, h5⟩
  · unfold fineLines; rw [hb.build, effCoupling_eq, effThreshold_eq]; exact h1
  · intro i
    rw [h2]
    show i ∈ NSet.ofList a.compliant ∧ _ ↔ _
    rw [NSet.mem_ofList]

/-- **C49** Without the direction option, two consecutive cells of a line are strongly coupled:
the coupling exceeds 0.9 times the strongest coupling of one of the two. -/
theorem C49_links (hW : LawfulLt W) {g : Graph W} (hh : Hash) {prio : List W} {coupling : Coupling} {thr : W}
    (hI : LinesInput g prio coupling thr) (hsym : SymmetricCRS g.rowPtr g.colInd) (hns : NoSelfLoop g.rowPtr g.colInd)
    (hp : NonnegCouplings g coupling) :
    ∃ ls, buildLines g hh prio coupling false thr = .ok ls ∧
      ∀ l ∈ ls, ∀ (k u v : Nat), l[k]? = some u → l[k + 1]? = some v →
        (∃ w, StrongCoupling g coupling u v w) ∨ ∃ w, StrongCoupling g coupling v u w := by
  obtain ⟨ls, seeds, h1, _, _, _, h5⟩ := C48_lines_exact hW hh hI hsym hns hp false
  exact ⟨ls, h1, h5.linked rfl⟩

/-- **C50** No strongly coupled pair is left out: of two tagged cells that are strongly
coupled seen from both of them, at least one is on a line. -/
theorem C50_no_pair_left (hW : LawfulLt W) {g : Graph W} (hh : Hash) {prio : List W} {coupling : Coupling} {thr : W}
    (hI : LinesInput g prio coupling thr) (hsym : SymmetricCRS g.rowPtr g.colInd) (hns : NoSelfLoop g.rowPtr g.colInd)
    (hp : NonnegCouplings g coupling) (force : Bool) :
    ∃ ls, buildLines g hh prio coupling force thr = .ok ls ∧
      ∀ i j, i ∈ g.compliant → j ∈ g.compliant → IsAnisotropic g thr i → IsAnisotropic g thr j →
        (∃ w, StrongCoupling g coupling i j w) → (∃ w, StrongCoupling g coupling j i w) →
        (∃ l ∈ ls, i ∈ l) ∨ ∃ l ∈ ls, j ∈ l := by
  obtain ⟨ls, seeds, h1, h2, _, _, h5⟩ := C48_lines_exact hW hh hI hsym hns hp force
  refine ⟨ls, h1, ?_⟩
  intro i j ci cj ai aj s1 s2
  have hne : i ≠ j := by
    rintro rfl
    obtain ⟨w, ⟨⟨k, hf, _⟩, _⟩⟩ := s1
    exact hns i hf.adj
  have e1 := (h2 i).2 ⟨ci, ai⟩
  have e2 := (h2 j).2 ⟨cj, aj⟩
  have := h5.pair hne e1 e2 e1 e2 s1 s2
  simpa [List.mem_flatten] using this

/-- **C51** The lines do not depend on the iteration order of unordered containers. -/
theorem C51_lines_unique (hW : LawfulLt W) {g : Graph W} (hh hh' : Hash) {prio : List W} {coupling : Coupling} {thr : W}
    (hI : LinesInput g prio coupling thr) (hsym : SymmetricCRS g.rowPtr g.colInd) (hns : NoSelfLoop g.rowPtr g.colInd)
    (hp : NonnegCouplings g coupling) (force : Bool) :
    ∃ ls, buildLines g hh prio coupling force thr = .ok ls ∧ buildLines g hh' prio coupling force thr = .ok ls := by
  obtain ⟨ls, seeds, h1, h2, h3, h4, h5⟩ := C48_lines_exact hW hh hI hsym hns hp force
  obtain ⟨ls', seeds', h1', h2', h3', h4', h5'⟩ := C48_lines_exact hW hh' hI hsym hns hp force
  have : seeds = seeds' := h4.unique hW h4' (fun x => (h2 x).trans (h2' x).symm) h3 h3'
  subst this
  rw [h5.unique hW h5'] at h1
  exact ⟨ls', h1, h1'⟩

/-! ## Examples: the two columns of `exCols` -/

theorem exCols_sym : SymmetricCRS exCols.rowPtr exCols.colInd := checkSym_sound exCols_crs (by decide)

theorem exCols_noLoop : NoSelfLoop exCols.rowPtr exCols.colInd := checkNoLoop_sound exCols_crs (by decide)

theorem exCols_nonneg : NonnegCouplings exCols .maxWeight := by
  rintro i n w ⟨k, _, hw⟩
  have h : ∀ w ∈ exCols.values, Num.lt w (Num.ofNat 0) = false := by decide
  exact h w (List.mem_of_getElem? hw)

example := C48_lines_exact exLawful Hash.rev exCols_input exCols_sym exCols_noLoop exCols_nonneg true
example := C49_links exLawful Hash.rev exCols_input exCols_sym exCols_noLoop exCols_nonneg
example := C50_no_pair_left exLawful Hash.rev exCols_input exCols_sym exCols_noLoop exCols_nonneg false
example := C51_lines_unique exLawful Hash.rev Hash.id exCols_input exCols_sym exCols_noLoop exCols_nonneg true
example (P : Platform) (o : Outs) := C48_call exLawful (P := P) (o := o) exBuild_valid exBuild_lines exCols_noLoop exCols_nonneg

/-- cells 0 and 1 of `exCols` are strongly coupled, so one of them is on a line -/
theorem exCols_strong : StrongCoupling exCols .maxWeight 0 1 10 := by
  refine ⟨⟨0, ⟨0, 2, rfl, rfl, by decide, by decide, rfl⟩, rfl⟩, 10, ⟨?_, Or.inl ⟨1, 0, ⟨0, 2, rfl, rfl, by decide, by decide, rfl⟩, rfl⟩⟩, by decide⟩
  rintro n w ⟨k, _, hw⟩
  have h : ∀ w ∈ exCols.values, Num.lt (10 : Int) w = false := by decide
  exact h w (List.mem_of_getElem? hw)

end CoMMA
