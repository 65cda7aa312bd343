import Verif.Lemmas.WholeCall
/-! # C65: complete description of the outputs of any call -/

set_option linter.unusedSectionVars false

namespace CoMMA

variable {W : Type} [Num W]

theorem Described.fixed {P : Platform} {a : Args W} {o : Outs} {n : Nat} (hm : ValidMesh a n) (hp : ValidParams P a)
    (hu : UniqueRows a.rowPtr a.colInd) (hl : NoSelfLoop a.rowPtr a.colInd) (hs : CorrectsSingletons a)
    {c : PoolCfg W} {k : Cont} {p : Pool} {idx lines : List Nat} {gss : List (List (List Nat))}
    (h : Described P a o n c k p idx lines gss) :
    ∃ f f0, agglomerateOneLevel P a o = (⟨f, idx, lines⟩, .ok ()) ∧
      MapAfterLines (isoEnvOf P a c) (GrownGreedily (isoEnvOf P a c)) n gss f0 ∧ FixedSingles a gss.flatten.length f0 f := by
  obtain ⟨f0, h1, h2⟩ := h.map
  cases hcor : a.correction with
  | false =>
    rw [uncorrected_self hcor] at h1
    refine ⟨f0, f0, h1, h2, ?_⟩
    unfold FixedSingles
    rw [hcor]; rfl
  | true =>
    obtain ⟨f, f0', g1, g2, g3⟩ := h.start.exact hm hp hcor hs hu hl
    rw [g2] at h1
    cases h1
    refine ⟨f, f0, g1, h2, ?_⟩
    unfold FixedSingles
    rw [hcor, if_pos rfl, ← h.counter]
    exact g3

/-- **C65** The description determines all the outputs. -/
theorem C65_unique (hW : LawfulLt W) {P : Platform} {a : Args W} (hk : a.aspect ≠ .unknown) {o : Outs} {n : Nat} {out out' : Outs}
    (h : DescribedBy P a o n (fun E => ShapedSeq E a.aspect) (FixedSingles a) out)
    (h' : DescribedBy P a o n (fun E => ShapedSeq E a.aspect) (FixedSingles a) out') : out = out' :=
  h.unique hW (fun E => determined_shaped hW E hk) h'

/-- **C65** A call without lines, with lines to be built or with given lines, without correction
or with correction of single cells, succeeds with the outputs `out` if and only if they fulfil
the description (aspect ratios of the enlarged coarse cells, exact arithmetic). -/
theorem C65_call {P : Platform} {a : Args W} {o : Outs} {n : Nat} (hm : ValidMesh a n) (hp : ValidParams P a)
    (hW : LawfulLt W) (hu : UniqueRows a.rowPtr a.colInd) (hl : NoSelfLoop a.rowPtr a.colInd)
    (hF : FeatInput (graphOf a) a.aspect) (hmode : ValidMode (graphOf a) a o n) (hs : CorrectsSingletons a) (out : Outs) :
    agglomerateOneLevel P a o = (out, .ok ()) ↔
      DescribedBy P a o n (fun E => ShapedSeq E a.aspect) (FixedSingles a) out := by
  obtain ⟨c, k, p, idx, lines, gss, hd⟩ := described hm hp hW hu hl hmode
  obtain ⟨f, f0, h1, h2, h3⟩ := hd.fixed hm hp hu hl hs
  have hr : DescribedBy P a o n (fun E => ShapedSeq E a.aspect) (FixedSingles a) ⟨f, idx, lines⟩ :=
    ⟨isoEnvOf P a c, gss, f0, callEnv hp hd.start.made, hd.rows f, h2.shaped hm hp hF hd.start.made, h3⟩
  rw [h1]
  constructor
  · intro h
    cases h
    exact hr
  · intro h
    rw [C65_unique hW hp.aspect hr h]

/-- **C65** The same for any number type with an order: aspect ratios updated cell after cell as
the code does it. -/
theorem C65_greedy {P : Platform} {a : Args W} {o : Outs} {n : Nat} (hm : ValidMesh a n) (hp : ValidParams P a)
    (hW : LawfulLt W) (hu : UniqueRows a.rowPtr a.colInd) (hl : NoSelfLoop a.rowPtr a.colInd)
    (hmode : ValidMode (graphOf a) a o n) (hs : CorrectsSingletons a) (out : Outs) :
    agglomerateOneLevel P a o = (out, .ok ()) ↔ DescribedBy P a o n (fun E => GrownGreedily E) (FixedSingles a) out := by
  obtain ⟨c, k, p, idx, lines, gss, hd⟩ := described hm hp hW hu hl hmode
  obtain ⟨f, f0, h1, h2, h3⟩ := hd.fixed hm hp hu hl hs
  have hr : DescribedBy P a o n (fun E => GrownGreedily E) (FixedSingles a) ⟨f, idx, lines⟩ :=
    ⟨isoEnvOf P a c, gss, f0, callEnv hp hd.start.made, hd.rows f, h2, h3⟩
  rw [h1]
  constructor
  · intro h
    cases h
    exact hr
  · intro h
    rw [hr.unique hW (fun E => determined_greedy hW E) h]

/-- **C65** With any threshold of correction the call succeeds and its outputs fulfil the
description; only the order in which the fine cells of a small coarse cell are given away is
left open (it is the order of an unordered container). -/
theorem C65_any {P : Platform} {a : Args W} {o : Outs} {n : Nat} (hm : ValidMesh a n) (hp : ValidParams P a)
    (hW : LawfulLt W) (hu : UniqueRows a.rowPtr a.colInd) (hl : NoSelfLoop a.rowPtr a.colInd)
    (hmode : ValidMode (graphOf a) a o n) :
    ∃ out, agglomerateOneLevel P a o = (out, .ok ()) ∧ DescribedBy P a o n (fun E => GrownGreedily E) (FixedSmalls a) out ∧
      (FeatInput (graphOf a) a.aspect → DescribedBy P a o n (fun E => ShapedSeq E a.aspect) (FixedSmalls a) out) := by
  obtain ⟨c, k, p, idx, lines, gss, hd⟩ := described hm hp hW hu hl hmode
  obtain ⟨f0, h1, h2⟩ := hd.map
  have key : ∃ f, agglomerateOneLevel P a o = (⟨f, idx, lines⟩, .ok ()) ∧ FixedSmalls a gss.flatten.length f0 f := by
    unfold FixedSmalls
    cases hcor : a.correction with
    | false =>
      rw [uncorrected_self hcor] at h1
      exact ⟨f0, h1, rfl⟩
    | true =>
      obtain ⟨f, f0', g1, g2, _, _, g3⟩ := hd.start.any hm hp hcor
      rw [g2] at h1
      cases h1
      refine ⟨f, g1, ?_⟩
      rw [if_pos rfl, ← hd.counter]
      exact g3 hu hl
  obtain ⟨f, g1, g2⟩ := key
  exact ⟨_, g1, ⟨isoEnvOf P a c, gss, f0, callEnv hp hd.start.made, hd.rows f, h2, g2⟩,
    fun hF => ⟨isoEnvOf P a c, gss, f0, callEnv hp hd.start.made, hd.rows f, h2.shaped hm hp hF hd.start.made, g2⟩⟩

/-! ### Concrete cases -/

theorem exGiven_mode : ValidMode (graphOf exGiven) exGiven exGivenOuts 3 :=
  ⟨Or.inr (Or.inr ⟨_, exGiven_lines⟩), fun _ _ => by intro l _ m h; cases h⟩

theorem exBuild_mode (o : Outs) : ValidMode (graphOf exBuild) exBuild o 6 :=
  ⟨Or.inr (Or.inl ⟨exBuild_lines, exCols_nonneg⟩), fun _ _ => by intro l _ m h; cases h⟩

theorem exRow_mode (o : Outs) : ValidMode (graphOf exRow) exRow o 3 :=
  ⟨Or.inl (Or.inl rfl), fun _ _ => by intro l _ m h; cases h⟩

example (out : Outs) := C65_call (o := ⟨[], [], []⟩) exRow_valid exRow_params exLawful exRow_uniq exRow_loop exRow_input
  (exRow_mode _) (fun _ => Or.inl rfl) out

/-- the outputs with a given line fulfil the description, and no others do -/
example : DescribedBy exPlatform exGiven exGivenOuts 3 (fun E => GrownGreedily E) (FixedSingles exGiven) ⟨[0, 0, 1], [0, 1], [0]⟩ ∧
    ¬ DescribedBy exPlatform exGiven exGivenOuts 3 (fun E => GrownGreedily E) (FixedSingles exGiven) ⟨[0, 0, 0], [0, 1], [0]⟩ := by
  have h : agglomerateOneLevel exPlatform exGiven exGivenOuts = (⟨[0, 0, 1], [0, 1], [0]⟩, .ok ()) := by decide +kernel
  have key := fun out => C65_greedy (o := exGivenOuts) exGiven_valid exGiven_params exLawful
    (checkUniq_sound exGiven_crs (by decide)) (checkNoLoop_sound exGiven_crs (by decide)) exGiven_mode (fun _ => Or.inl rfl) out
  refine ⟨(key _).1 h, fun h' => ?_⟩
  have := (key _).2 h'
  rw [h] at this
  cases this

example := C65_any (o := ⟨[], [], []⟩) exBuild_valid exBuild_params exLawful (checkUniq_sound exCols_crs (by decide)) exCols_noLoop
  (exBuild_mode _)

/-- two columns of three cells: the lines are built, each is one coarse cell -/
example : DescribedBy exPlatform exBuild ⟨[], [], []⟩ 6 (fun E => GrownGreedily E) (FixedSingles exBuild)
    (agglomerateOneLevel exPlatform exBuild ⟨[], [], []⟩).1 := by
  have h : (agglomerateOneLevel exPlatform exBuild ⟨[], [], []⟩).2 = .ok () := by decide +kernel
  refine (C65_greedy (o := ⟨[], [], []⟩) exBuild_valid exBuild_params exLawful (checkUniq_sound exCols_crs (by decide)) exCols_noLoop
    (exBuild_mode _) (fun _ => Or.inl rfl) _).1 ?_
  rw [← h]

end CoMMA
