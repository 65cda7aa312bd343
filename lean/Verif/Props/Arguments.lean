import Verif.Props.Anisotropic
/-! # C23, C24, C32: arguments of `agglomerate_one_level` -/

set_option linter.unusedSectionVars false

namespace CoMMA

variable {W : Type} [Num W]

/-- arguments refused by the call -/
def BadArgs (a : Args W) (o : Outs) : Prop :=
  (a.dim ≠ 2 ∧ a.dim ≠ 3) ∨ (a.minCard ≤ 1 ∨ a.goalCard ≤ 1 ∨ a.maxCard ≤ 1) ∨
  (a.goalCard < a.minCard ∨ a.maxCard < a.goalCard) ∨ (a.fcIter < 1 ∨ 4 < a.fcIter) ∨
  -- the offsets of the graph do not end at the number of neighbours or of weights
  (a.rowPtr = [] ∨ a.rowPtr.getLast? ≠ some a.colInd.length ∨ a.rowPtr.getLast? ≠ some a.values.length) ∨
  -- the offsets of provided lines do not end at the number of cells
  (a.isAniso = true ∧ a.buildLines = false ∧ 2 ≤ o.linesIdx.length ∧ o.lines ≠ [] ∧
    o.linesIdx.getLast? ≠ some o.lines.length) ∨
  a.singThresh ≤ 0 ∨ a.order = .unknown

theorem checkArg_bind {b : Bool} {α : Type} {f : Unit → M α} :
    ((checkArg b : M Unit) >>= f) = if b then f () else .error .invalidArgument := by
  cases b <;> rfl

theorem checkBasic_cases (a : Args W) :
    (checkBasic a = .ok () ∧ (a.dim = 2 ∨ a.dim = 3) ∧ (1 < a.minCard ∧ 1 < a.goalCard ∧ 1 < a.maxCard) ∧
      (a.minCard ≤ a.goalCard ∧ a.goalCard ≤ a.maxCard) ∧ (1 ≤ a.fcIter ∧ a.fcIter ≤ 4) ∧
      (a.rowPtr ≠ [] ∧ a.rowPtr.getLast? = some a.colInd.length ∧ a.rowPtr.getLast? = some a.values.length)) ∨
    (checkBasic a = .error .invalidArgument ∧ ((a.dim ≠ 2 ∧ a.dim ≠ 3) ∨ (a.minCard ≤ 1 ∨ a.goalCard ≤ 1 ∨ a.maxCard ≤ 1) ∨
      (a.goalCard < a.minCard ∨ a.maxCard < a.goalCard) ∨ (a.fcIter < 1 ∨ 4 < a.fcIter) ∨
      (a.rowPtr = [] ∨ a.rowPtr.getLast? ≠ some a.colInd.length ∨ a.rowPtr.getLast? ≠ some a.values.length))) := by
  unfold checkBasic
  simp only [checkArg_bind]
  split
  · rename_i h1
    simp only [Bool.or_eq_true, decide_eq_true_eq] at h1
    split
    · rename_i h2
      simp at h2
      split
      · rename_i h3
        simp at h3
        split
        · rename_i h4
          simp at h4
          split
          · rename_i h5
            simp at h5
            unfold checkArg
            split
            · rename_i h6
              simp at h6
              exact Or.inl ⟨rfl, h1, ⟨by omega, by omega, by omega⟩, h3, ⟨by omega, by omega⟩, h6.1.1, h6.1.2, h6.2⟩
            · rename_i h6
              refine Or.inr ⟨rfl, Or.inr (Or.inr (Or.inr (Or.inr ?_)))⟩
              simp only [Bool.not_eq_true, Bool.not_eq_false', Bool.or_eq_true, List.isEmpty_iff, decide_eq_true_eq] at h6
              rcases h6 with (h6 | h6) | h6
              · exact Or.inl h6
              · exact Or.inr (Or.inl h6)
              · exact Or.inr (Or.inr h6)
          · rename_i h5
            simp at h5
            exact Or.inr ⟨rfl, Or.inr (Or.inr (Or.inr (Or.inl (Or.inr (by omega)))))⟩
        · rename_i h4
          simp at h4
          exact Or.inr ⟨rfl, Or.inr (Or.inr (Or.inr (Or.inl (Or.inl (by omega)))))⟩
      · rename_i h3
        simp at h3
        exact Or.inr ⟨rfl, Or.inr (Or.inr (Or.inl (by omega)))⟩
    · rename_i h2
      simp only [Bool.not_eq_true, Bool.not_eq_false', Bool.or_eq_true, decide_eq_true_eq] at h2
      exact Or.inr ⟨rfl, Or.inr (Or.inl (by omega))⟩
  · rename_i h1
    simp only [Bool.or_eq_true, decide_eq_true_eq] at h1
    exact Or.inr ⟨rfl, Or.inl (by omega)⟩

theorem checkLines_cases (a : Args W) (o : Outs) :
    (checkLines a o = .ok () ∧ ¬ (a.isAniso = true ∧ a.buildLines = false ∧ 2 ≤ o.linesIdx.length ∧ o.lines ≠ [] ∧
      o.linesIdx.getLast? ≠ some o.lines.length)) ∨
    (checkLines a o = .error .invalidArgument ∧ (a.isAniso = true ∧ a.buildLines = false ∧ 2 ≤ o.linesIdx.length ∧
      o.lines ≠ [] ∧ o.linesIdx.getLast? ≠ some o.lines.length)) := by
  unfold checkLines anisoOn
  split
  · rename_i h1
    simp at h1
    obtain ⟨⟨h1, h2⟩, h3⟩ := h1
    rw [h3] at h2
    simp at h2
    unfold checkArg
    split
    · rename_i h4
      simp at h4
      exact Or.inl ⟨rfl, fun hc => hc.2.2.2.2 h4⟩
    · rename_i h4
      simp at h4
      exact Or.inr ⟨rfl, h1, h3, h2.1, h2.2, h4⟩
  · rename_i h1
    refine Or.inl ⟨rfl, ?_⟩
    rintro ⟨h2, h3, h4, h5, _⟩
    apply h1
    rw [h2, h3]
    simp only [Bool.true_and, Bool.false_or, Bool.not_false, Bool.and_true, Bool.not_eq_true', Bool.or_eq_false_iff,
      decide_eq_false_iff_not, List.isEmpty_eq_false_iff]
    exact ⟨by omega, h5⟩

theorem checkAll_rejects {P : Platform} {a : Args W} {o : Outs} (h : BadArgs a o) :
    checkAll P a o = .error .invalidArgument := by
  unfold checkAll
  rcases checkBasic_cases a with ⟨h1, h2⟩ | ⟨h1, _⟩
  · rw [h1, ok_bind]
    rcases checkLines_cases a o with ⟨h3, h4⟩ | ⟨h3, _⟩
    · rw [h3, ok_bind, checkArg_bind]
      split
      · rename_i h5
        simp at h5
        have ho : a.order = .unknown := by
          obtain ⟨e1, e2, e3, e4, e5, e6, e7⟩ := h2
          rcases h with h | h | h | h | h | h | h | h
          · omega
          · omega
          · omega
          · omega
          · rcases h with h | h | h
            · exact absurd h e5
            · exact absurd e6 h
            · exact absurd e7 h
          · exact absurd h h4
          · omega
          · exact h
        unfold poolOf; rw [ho]
      · rfl
    · rw [h3]; rfl
  · rw [h1]; rfl

theorem checkAll_accepts {P : Platform} {a : Args W} {o : Outs} (h : ¬ BadArgs a o) :
    ∃ c, checkAll P a o = .ok c := by
  simp only [BadArgs, not_or] at h
  obtain ⟨e1, e2, e3, e4, e5, e6, e7, e8⟩ := h
  unfold checkAll
  rcases checkBasic_cases a with ⟨h1, _⟩ | ⟨_, h1⟩
  · rw [h1, ok_bind]
    rcases checkLines_cases a o with ⟨h3, _⟩ | ⟨_, h3⟩
    · rw [h3, ok_bind, checkArg_bind, if_pos (by simpa using e7)]
      unfold poolOf
      cases ho : a.order with
      | unknown => exact absurd ho e8
      | _ => exact ⟨_, rfl⟩
    · exact absurd h3 e6
  · exfalso
    rcases h1 with h1 | h1 | h1 | h1 | h1
    · exact e1 h1
    · omega
    · omega
    · omega
    · rcases h1 with h1 | h1 | h1
      · exact e5.1 h1
      · exact e5.2.1 h1
      · exact e5.2.2 h1

/-- **C23** Refused arguments: `invalid_argument` is thrown and the output arguments keep
their values; no property of the mesh is needed. -/
theorem C23_rejects {P : Platform} {a : Args W} {o : Outs} (h : BadArgs a o) :
    agglomerateOneLevel P a o = (o, .error .invalidArgument) := by
  unfold agglomerateOneLevel
  rw [checkAll_rejects h]

/-- **C23** Conversely, on a valid mesh a call with accepted arguments returns normally: the
only other source of `invalid_argument` is an unknown aspect ratio.  (Isotropic calls; one-point
initialisation as in C01.) -/
theorem C23_accepts {P : Platform} {a : Args W} {o : Outs} {n : Nat} (hm : ValidMesh a n) (h : ¬ BadArgs a o)
    (hasp : a.aspect ≠ .unknown) (hs : CorrectsSingletons a) (hoff : WithoutLines a o)
    (hone : a.order = .boundaryOnePoint ∨ a.order = .neighbourhoodOnePoint →
      a.nBnd.length ≤ P.idxMax ∧ ∀ w ∈ a.prio, Num.lt w Num.lmin = false) :
    (agglomerateOneLevel P a o).2 = .ok () := by
  simp only [BadArgs, not_or] at h
  obtain ⟨e1, e2, e3, e4, e5, e6, e7, e8⟩ := h
  have hp : ValidParams P a := ⟨by omega, by omega, by omega, by omega, by omega, by omega, e8, hasp, hone⟩
  obtain ⟨f, hf, _⟩ := C01_total hm hp hs hoff
  rw [hf]

theorem fillFcToCc_error {k : Cont} {e : Err} (h : fillFcToCc k = .error e) : e = .badOptional := by
  unfold fillFcToCc at h
  have : ∀ l : List (Option Nat), l.mapM valueM = .error e → e = .badOptional := by
    intro l
    induction l with
    | nil => intro h; cases h
    | cons x r ih =>
      intro h
      rw [List.mapM_cons] at h
      cases x with
      | none => cases h; rfl
      | some v =>
        cases hr : r.mapM valueM with
        | error e' =>
          rw [hr] at h ih
          have h' : e' = e := by
            have : (Except.error e' : M (List Nat)) = .error e := h
            cases this; rfl
          exact ih (by rw [h'])
        | ok y => rw [hr] at h; cases h
  exact this _ h

/-- `fc_to_cc` is never changed by a call that throws, except by the `bad_optional_access`
of a cell without coarse cell (which does not happen on valid meshes, C01). -/
theorem C23_fc_to_cc_kept {P : Platform} {a : Args W} {o : Outs} {e : Err}
    (h : (agglomerateOneLevel P a o).2 = .error e) (he : e ≠ .badOptional) :
    (agglomerateOneLevel P a o).1.fcToCc = o.fcToCc := by
  revert h
  unfold agglomerateOneLevel runPhases
  split
  · intro _; rfl
  · split
    · intro _; rfl
    · split
      · intro _; rfl
      · split
        · rename_i hf
          intro h
          cases h
          exact absurd (fillFcToCc_error hf) he
        · intro h; cases h

/-- Observation: an unknown aspect ratio is refused too, but only after the anisotropic
phase: the provided lines `[0,2,3] [0,1,2]` have been replaced by the coarse ones. -/
theorem C23_unknown_aspect_late :
    agglomerateOneLevel exPlatform { exGiven with aspect := .unknown } exGivenOuts =
      (⟨[], [0, 1], [0]⟩, .error .invalidArgument) := by decide +kernel

/-- **C24** Two vectors of boundary-face counts that agree once every count above the
dimension is lowered to the dimension give the same call, whatever the other arguments. -/
theorem C24_clamped {P : Platform} {a : Args W} {o : Outs} {b : List Nat}
    (h : b.map (fun x => Nat.min x a.dim.toNat) = a.nBnd.map (fun x => Nat.min x a.dim.toNat)) :
    agglomerateOneLevel P { a with nBnd := b } o = agglomerateOneLevel P a o := by
  have hc : clampBnd a.dim.toNat b = clampBnd a.dim.toNat a.nBnd := by
    have : (fun x : Nat => if a.dim.toNat < x then a.dim.toNat else x) = fun x => Nat.min x a.dim.toNat := by
      funext x
      have : Nat.min x a.dim.toNat = min x a.dim.toNat := rfl
      rw [this]
      split <;> omega
    unfold clampBnd
    rw [this, h]
  have hg : graphOf { a with nBnd := b } = graphOf a := by
    unfold graphOf
    simp only [hc]
  have hp : poolOf P { a with nBnd := b } = poolOf P a := by
    unfold poolOf
    simp only [hc]
  have hca : checkAll P { a with nBnd := b } o = checkAll P a o := by
    unfold checkAll
    rw [hp]; rfl
  unfold agglomerateOneLevel
  rw [hca]
  have hfl : fineLines P { a with nBnd := b } o = fineLines P a o := by
    unfold fineLines
    rw [hg]; rfl
  have hr : ∀ c, runPhases P { a with nBnd := b } o c = runPhases P a o c := by
    intro c
    have h1 : anisoPhase P { a with nBnd := b } o c = anisoPhase P a o c := by
      unfold anisoPhase
      rw [hg, hfl]; rfl
    have he : isoEnvOf P { a with nBnd := b } c = isoEnvOf P a c := by
      unfold isoEnvOf
      rw [hg]
    have h2 : ∀ k p, isoPhase P { a with nBnd := b } c k p = isoPhase P a c k p := by
      intro k p
      have h3 : ∀ k, correctIf P { a with nBnd := b } k = correctIf P a k := by
        intro k
        unfold correctIf
        rw [hg]
      unfold isoPhase
      rw [he]
      simp only [h3]
    unfold runPhases
    rw [h1]
    simp only [h2]
  simp only [hr]

/-- **C32** The overload taking structures is the call in which every parameter has the
value of the field of the same name. -/
theorem C32_structured (P : Platform) (graph : GraphArgs W) (agglo : AgglomerationArgs) (aniso : AnisotropicArgs W)
    (outs : Outs) :
    agglomerateStructured P graph agglo aniso outs = agglomerateOneLevel P
      { rowPtr := graph.connectivityIndices, colInd := graph.connectivity, values := graph.connectivityWeights,
        volumes := graph.volumes, centers := graph.centers, prio := graph.priorityWeights,
        nBnd := graph.nBndFaces, dim := graph.dimension,
        goalCard := agglo.goalCard, minCard := agglo.minCard, maxCard := agglo.maxCard,
        correction := agglo.correction, order := agglo.seedOrderingType, aspect := agglo.aspectRatio,
        singThresh := agglo.singularCardThresh, fcIter := agglo.fcChoiceIter, nbh := agglo.neighbourhoodType,
        isAniso := aniso.isAnisotropic, compliant := aniso.anisotropicCompliantCells, buildLines := aniso.buildLines,
        oddLine := aniso.oddLineLength, thr := aniso.thresholdAnisotropy, maxCells := aniso.maxCellsInLine,
        coupling := aniso.cellCoupling, forceDir := aniso.lineDirection } outs := rfl

/-- **C32** Fields left out in the structures, and parameters left out in the positional call,
have the documented default values. -/
theorem C32_defaults (P : Platform) (g : GraphArgs W) (goal min max : Int) (correction : Bool) (order : SeedOrder)
    (isAniso : Bool) (compliant : List Nat) (o : Outs) :
    agglomerateStructured P g ⟨goal, min, max, correction, order, .diamOverRadius, 1, 1, .extended⟩
        ⟨isAniso, compliant, true, true, Num.ofNat 4, none, .maxWeight, true⟩ o =
      agglomerateStructured P g { goalCard := goal, minCard := min, maxCard := max, correction := correction, seedOrderingType := order }
        { isAnisotropic := isAniso, anisotropicCompliantCells := compliant } o ∧
    ∀ (buildLines oddLine : Bool) (thr : W),
      agglomeratePositional P g.connectivityIndices g.connectivity g.connectivityWeights g.volumes g.centers g.priorityWeights
        compliant g.nBndFaces buildLines isAniso oddLine thr order o correction g.dimension goal min max =
      agglomerateOneLevel P
        { rowPtr := g.connectivityIndices, colInd := g.connectivity, values := g.connectivityWeights, volumes := g.volumes,
          centers := g.centers, prio := g.priorityWeights, compliant := compliant, nBnd := g.nBndFaces, buildLines := buildLines,
          isAniso := isAniso, oddLine := oddLine, thr := thr, order := order, correction := correction, dim := g.dimension,
          goalCard := goal, minCard := min, maxCard := max, aspect := .diamOverRadius, singThresh := 1, maxCells := none,
          coupling := .maxWeight, forceDir := true, fcIter := 1, nbh := .extended } o :=
  ⟨rfl, fun _ _ _ => rfl⟩

/-! ## Concrete cases -/

example : agglomerateOneLevel exPlatform { exArgs with minCard := 4 } ⟨[7], [], []⟩ = (⟨[7], [], []⟩, .error .invalidArgument) :=
  C23_rejects (Or.inr (Or.inr (Or.inl (Or.inl (by decide)))))

example : (agglomerateOneLevel exPlatform exArgs ⟨[], [], []⟩).2 = .ok () :=
  C23_accepts exArgs_valid (by unfold BadArgs; decide) (by decide) exArgs_sing (Or.inl rfl) (by decide)

example : agglomerateOneLevel exPlatform { exArgs with nBnd := [2, 1, 9, 4, 1, 1, 3] } ⟨[], [], []⟩ =
    agglomerateOneLevel exPlatform exArgs ⟨[], [], []⟩ := C24_clamped (by decide)

end CoMMA
