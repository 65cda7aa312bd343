import Verif.Props.Arguments
import Verif.Props.Anisotropic
/-! # C60: arguments that do not matter -/

set_option linter.unusedSectionVars false

namespace CoMMA

variable {W : Type} [Num W]

/-- the anisotropy-related arguments replaced by others -/
def Args.withLineArgs (a : Args W) (compliant : List Nat) (buildLines oddLine : Bool) (thr : W) (maxCells : Option Int)
    (coupling : Coupling) (forceDir : Bool) : Args W :=
  { a with compliant := compliant, buildLines := buildLines, oddLine := oddLine, thr := thr, maxCells := maxCells,
           coupling := coupling, forceDir := forceDir }

set_option smartUnfolding false in
theorem isoPhase_lineArgs (P : Platform) (a : Args W) (c : PoolCfg W) (k : Cont) (p : Pool) (compliant : List Nat)
    (buildLines oddLine : Bool) (thr : W) (maxCells : Option Int) (coupling : Coupling) (forceDir : Bool) :
    isoPhase P (a.withLineArgs compliant buildLines oddLine thr maxCells coupling forceDir) c k p = isoPhase P a c k p := by
  with_unfolding_all rfl

set_option smartUnfolding false in
theorem agglomLines_lineArgs (a : Args W) (c : PoolCfg W) (q : LineCfg) (l : List (List Nat)) (k : Cont) (p : Pool)
    (compliant : List Nat) (buildLines oddLine : Bool) (thr : W) (maxCells : Option Int) (coupling : Coupling)
    (forceDir : Bool) :
    agglomLines (graphOf (a.withLineArgs compliant buildLines oddLine thr maxCells coupling forceDir)) c q l k p =
      agglomLines (graphOf a) c q l k p := by
  with_unfolding_all rfl

theorem agglomerate_off {P : Platform} {a : Args W} {o : Outs} (h : a.isAniso = false) :
    agglomerateOneLevel P a o =
      match checkBasic a with
      | .error e => (o, .error e)
      | .ok () =>
        match (do checkArg (!decide (a.singThresh ≤ 0)); poolOf P a) with
        | .error e => (o, .error e)
        | .ok c =>
          match Pool.new.initialize c with
          | .error e => (o, .error e)
          | .ok p =>
            match isoPhase P a c (Cont.new (a.rowPtr.length - 1) (effThresh a).toNat) p with
            | .error e => (o, .error e)
            | .ok k =>
              match fillFcToCc k with
              | .error e => (⟨filledBefore k, o.linesIdx, o.lines⟩, .error e)
              | .ok f => (⟨f, o.linesIdx, o.lines⟩, .ok ()) := by
  have hoff : anisoOn a o = false := by unfold anisoOn; rw [h]; rfl
  have hcl : checkLines a o = .ok () := by unfold checkLines; rw [hoff]; rfl
  unfold agglomerateOneLevel checkAll
  cases h1 : checkBasic a with
  | error e => rfl
  | ok u =>
    simp only [ok_bind, hcl]
    cases h2 : (do checkArg (!decide (a.singThresh ≤ 0)); poolOf P a) with
    | error e => rfl
    | ok c =>
      simp only
      unfold runPhases anisoPhase
      simp only [hoff]
      cases h3 : Pool.new.initialize c with
      | error e => rfl
      | ok p => rfl

/-- **C60** With anisotropy off the arguments about lines do not matter: the call ends in the
same way, gives the same indices and leaves the vectors of lines as they are, whatever they hold. -/
theorem C60_isotropic {P : Platform} {a : Args W} {o o' : Outs} (h : a.isAniso = false) (compliant : List Nat)
    (buildLines oddLine : Bool) (thr : W) (maxCells : Option Int) (coupling : Coupling) (forceDir : Bool) :
    (agglomerateOneLevel P (a.withLineArgs compliant buildLines oddLine thr maxCells coupling forceDir) o').2 =
      (agglomerateOneLevel P a o).2 ∧
    ((agglomerateOneLevel P a o).2 = .ok () →
      (agglomerateOneLevel P (a.withLineArgs compliant buildLines oddLine thr maxCells coupling forceDir) o').1.fcToCc =
        (agglomerateOneLevel P a o).1.fcToCc) ∧
    (agglomerateOneLevel P (a.withLineArgs compliant buildLines oddLine thr maxCells coupling forceDir) o').1.linesIdx =
      o'.linesIdx ∧
    (agglomerateOneLevel P (a.withLineArgs compliant buildLines oddLine thr maxCells coupling forceDir) o').1.lines =
      o'.lines := by
  have h' : (a.withLineArgs compliant buildLines oddLine thr maxCells coupling forceDir).isAniso = false := h
  rw [agglomerate_off h, agglomerate_off h']
  have e1 : checkBasic (a.withLineArgs compliant buildLines oddLine thr maxCells coupling forceDir) = checkBasic a := rfl
  have e2 : poolOf P (a.withLineArgs compliant buildLines oddLine thr maxCells coupling forceDir) = poolOf P a := rfl
  have e3 : (a.withLineArgs compliant buildLines oddLine thr maxCells coupling forceDir).singThresh = a.singThresh := rfl
  have e4 : (a.withLineArgs compliant buildLines oddLine thr maxCells coupling forceDir).rowPtr = a.rowPtr := rfl
  have e5 : effThresh (a.withLineArgs compliant buildLines oddLine thr maxCells coupling forceDir) = effThresh a := rfl
  rw [e1, e2, e3]
  cases checkBasic a with
  | error e => exact ⟨rfl, (fun h => by cases h), rfl, rfl⟩
  | ok u =>
    cases (do checkArg (!decide (a.singThresh ≤ 0)); poolOf P a) with
    | error e => exact ⟨rfl, (fun h => by cases h), rfl, rfl⟩
    | ok c =>
      simp only
      cases Pool.new.initialize c with
      | error e => exact ⟨rfl, (fun h => by cases h), rfl, rfl⟩
      | ok p =>
        simp only [e4, e5, isoPhase_lineArgs]
        cases isoPhase P a c (Cont.new (a.rowPtr.length - 1) (effThresh a).toNat) p with
        | error e => exact ⟨rfl, (fun h => by cases h), rfl, rfl⟩
        | ok k =>
          simp only
          cases fillFcToCc k with
          | error e => exact ⟨rfl, (fun h => by cases h), rfl, rfl⟩
          | ok f => exact ⟨rfl, fun _ => rfl, rfl, rfl⟩

/-- **C60** With provided lines the arguments used to build lines do not matter: compliant
cells, threshold, coupling and direction. -/
theorem C60_given {P : Platform} {a : Args W} {o : Outs} (h : a.buildLines = false) (compliant : List Nat) (thr : W)
    (coupling : Coupling) (forceDir : Bool) :
    agglomerateOneLevel P (a.withLineArgs compliant false a.oddLine thr a.maxCells coupling forceDir) o =
      agglomerateOneLevel P a o := by
  have hb : (a.withLineArgs compliant false a.oddLine thr a.maxCells coupling forceDir).buildLines = a.buildLines := h.symm
  generalize ha' : a.withLineArgs compliant false a.oddLine thr a.maxCells coupling forceDir = a' at hb
  have e1 : checkBasic a' = checkBasic a := by subst ha'; rfl
  have e2 : poolOf P a' = poolOf P a := by subst ha'; rfl
  have e3 : a'.singThresh = a.singThresh := by subst ha'; rfl
  have e4 : anisoOn a' o = anisoOn a o := by unfold anisoOn; rw [hb]; subst ha'; rfl
  have e5 : checkLines a' o = checkLines a o := by unfold checkLines; rw [e4, hb]
  have e6 : checkAll P a' o = checkAll P a o := by unfold checkAll; rw [e1, e2, e3, e5]
  have e7 : fineLines P a' o = fineLines P a o := by
    unfold fineLines
    rw [if_neg (by rw [hb, h]; decide), if_neg (by rw [h]; decide)]
  have e8 : effMaxCells a' = effMaxCells a := by
    unfold effMaxCells
    rw [hb]
    subst ha'
    rfl
  have e9 : a'.oddLine = a.oddLine := by subst ha'; rfl
  have e10 : ∀ c l k p, agglomLines (graphOf a') c ⟨a'.oddLine, effMaxCells a'⟩ l k p =
      agglomLines (graphOf a) c ⟨a.oddLine, effMaxCells a⟩ l k p := by
    intro c l k p
    rw [e8, e9]
    subst ha'
    exact agglomLines_lineArgs a c ⟨a.oddLine, effMaxCells a⟩ l k p compliant false a.oddLine thr a.maxCells coupling
      forceDir
  have e11 : (graphOf a').nbC = (graphOf a).nbC := by subst ha'; rfl
  have e12 : effThresh a' = effThresh a := by subst ha'; rfl
  have e13 : ∀ c, anisoPhase P a' o c = anisoPhase P a o c := by
    intro c
    unfold anisoPhase
    rw [e4, e7, e11, e12]
    simp only [e10]
  have e14 : ∀ c k p, isoPhase P a' c k p = isoPhase P a c k p := by
    intro c k p
    subst ha'
    exact isoPhase_lineArgs P a c k p compliant false a.oddLine thr a.maxCells coupling forceDir
  unfold agglomerateOneLevel
  rw [e6]
  cases checkAll P a o with
  | error e => rfl
  | ok c =>
    simp only
    unfold runPhases
    rw [e13]
    cases anisoPhase P a o c with
    | error e => rfl
    | ok r =>
      obtain ⟨k, p, idx, lines⟩ := r
      simp only [e14]

/-- **C60** The previous contents of `fc_to_cc` do not matter. -/
theorem C60_result {P : Platform} {a : Args W} {o : Outs} (f : List Nat) :
    (agglomerateOneLevel P a { o with fcToCc := f }).2 = (agglomerateOneLevel P a o).2 ∧
    ((agglomerateOneLevel P a o).2 = .ok () →
      (agglomerateOneLevel P a { o with fcToCc := f }).1 = (agglomerateOneLevel P a o).1) := by
  have e1 : checkAll P a { o with fcToCc := f } = checkAll P a o := rfl
  have e2 : ∀ c, anisoPhase P a { o with fcToCc := f } c = anisoPhase P a o c := fun _ => rfl
  unfold agglomerateOneLevel
  rw [e1]
  cases checkAll P a o with
  | error e => exact ⟨rfl, (fun h => by cases h)⟩
  | ok c =>
    simp only
    unfold runPhases
    rw [e2]
    cases anisoPhase P a o c with
    | error e => exact ⟨rfl, (fun h => by cases h)⟩
    | ok r =>
      obtain ⟨k, p, idx, lines⟩ := r
      simp only
      cases isoPhase P a c k p with
      | error e => exact ⟨rfl, (fun h => by cases h)⟩
      | ok k' =>
        exact ⟨rfl, fun _ => rfl⟩

/-- **C60** When lines are built, the previous contents of the vectors of lines do not
matter. -/
theorem C60_built {P : Platform} {a : Args W} {o o' : Outs} (ha : a.isAniso = true) (h : a.buildLines = true) :
    (agglomerateOneLevel P a o').2 = (agglomerateOneLevel P a o).2 ∧
    ((agglomerateOneLevel P a o).2 = .ok () → (agglomerateOneLevel P a o').1 = (agglomerateOneLevel P a o).1) := by
  have on : ∀ o, anisoOn a o = true := by intro o; unfold anisoOn; rw [ha, h]; rfl
  have cl : ∀ o, checkLines a o = .ok () := by intro o; unfold checkLines; rw [on, h]; rfl
  have e1 : checkAll P a o' = checkAll P a o := by unfold checkAll; rw [cl, cl]
  have e2 : ∀ c, anisoPhase P a o' c = anisoPhase P a o c := by
    intro c
    unfold anisoPhase fineLines
    rw [on, on, h]
    rfl
  unfold agglomerateOneLevel
  rw [e1]
  cases checkAll P a o with
  | error e => exact ⟨rfl, (fun h => by cases h)⟩
  | ok c =>
    simp only
    unfold runPhases
    rw [e2]
    cases anisoPhase P a o c with
    | error e => exact ⟨rfl, (fun h => by cases h)⟩
    | ok r =>
      obtain ⟨k, p, idx, lines⟩ := r
      simp only
      cases isoPhase P a c k p with
      | error e => exact ⟨rfl, (fun h => by cases h)⟩
      | ok k' =>
        exact ⟨rfl, fun _ => rfl⟩

/-- **C60** The compliant cells are a set: their order and repetitions do not matter. -/
theorem C60_compliant {P : Platform} {a : Args W} {o : Outs} {compliant : List Nat}
    (h : ∀ x, x ∈ compliant ↔ x ∈ a.compliant) :
    agglomerateOneLevel P { a with compliant := compliant } o = agglomerateOneLevel P a o := by
  have hs : NSet.ofList compliant = NSet.ofList a.compliant :=
    NSet.ext (fun x => by rw [NSet.mem_ofList, NSet.mem_ofList]; exact h x)
  generalize ha' : ({ a with compliant := compliant } : Args W) = a'
  have hg : graphOf a' = graphOf a := by
    subst ha'
    unfold graphOf
    simp only [hs]
  have e6 : checkAll P a' o = checkAll P a o := by subst ha'; rfl
  have e4 : anisoOn a' o = anisoOn a o := by subst ha'; rfl
  have e7 : fineLines P a' o = fineLines P a o := by
    unfold fineLines
    rw [hg]
    subst ha'
    rfl
  have e13 : ∀ c, anisoPhase P a' o c = anisoPhase P a o c := by
    intro c
    unfold anisoPhase
    rw [e4, e7, hg]
    subst ha'
    rfl
  have e14 : ∀ c k p, isoPhase P a' c k p = isoPhase P a c k p := by
    intro c k p
    have h1 : isoEnvOf P a' c = isoEnvOf P a c := by
      unfold isoEnvOf
      rw [hg]
      subst ha'
      rfl
    have h2 : ∀ k, correctIf P a' k = correctIf P a k := by
      intro k
      unfold correctIf
      rw [hg]
      subst ha'
      rfl
    have h3 : a'.aspect = a.aspect := by subst ha'; rfl
    unfold isoPhase
    rw [h1, h3]
    simp only [h2]
  unfold agglomerateOneLevel
  rw [e6]
  cases checkAll P a o with
  | error e => rfl
  | ok c =>
    simp only
    unfold runPhases
    rw [e13]
    cases anisoPhase P a o c with
    | error e => rfl
    | ok r =>
      obtain ⟨k, p, idx, lines⟩ := r
      simp only [e14]

/-! ## The hypotheses can be met -/

/-- an isotropic call that returns: lines full of out-of-range indices are not even looked at -/
example : ∃ f, (agglomerateOneLevel exPlatform (exArgs.withLineArgs [99] true true 7 (some (-3)) .unknown true)
    ⟨[5], [9, 8], [77]⟩) = (⟨f, [9, 8], [77]⟩, .ok ()) ∧ f.length = 7 := by
  obtain ⟨f, h, hl⟩ := C01_total (o := ⟨[], [], []⟩) exArgs_valid exArgs_params exArgs_sing (Or.inl rfl)
  have hc := C60_isotropic (P := exPlatform) (a := exArgs) (o := ⟨[], [], []⟩) (o' := ⟨[5], [9, 8], [77]⟩) rfl [99] true
    true 7 (some (-3)) .unknown true
  rw [h] at hc
  refine ⟨f, ?_, hl⟩
  obtain ⟨h1, h2, h3, h4⟩ := hc
  generalize agglomerateOneLevel exPlatform (exArgs.withLineArgs [99] true true 7 (some (-3)) .unknown true)
    ⟨[5], [9, 8], [77]⟩ = r at h1 h2 h3 h4
  obtain ⟨⟨x, y, z⟩, m⟩ := r
  have h2' := h2 rfl
  simp only at h1 h2' h3 h4
  rw [h1, h2', h3, h4]

example : agglomerateOneLevel exPlatform (exGiven.withLineArgs [2, 0] false true 9 exGiven.maxCells .minDistance true)
    exGivenOuts = agglomerateOneLevel exPlatform exGiven exGivenOuts :=
  C60_given rfl [2, 0] 9 .minDistance true

example : exBuild.isAniso = true ∧ exBuild.buildLines = true := ⟨rfl, rfl⟩

example : agglomerateOneLevel exPlatform { exBuild with compliant := exBuild.compliant.reverse ++ exBuild.compliant }
    exGivenOuts = agglomerateOneLevel exPlatform exBuild exGivenOuts :=
  C60_compliant (fun x => by simp)

end CoMMA
