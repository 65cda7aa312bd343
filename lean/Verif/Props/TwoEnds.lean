import Verif.Props.Arguments
import Verif.Props.AnyThreshold
/-! # How a call can end -/

namespace CoMMA

variable {W : Type} [Num W]

theorem Start.returns {P : Platform} {a : Args W} {o : Outs} {n : Nat} (hm : ValidMesh a n) (hp : ValidParams P a)
    {c : PoolCfg W} {k : Cont} {p : Pool} {idx lines : List Nat} (h : Start P a o c n k p idx lines) :
    (agglomerateOneLevel P a o).2 = .ok () := by
  cases hcor : a.correction with
  | true =>
    obtain ⟨f, _, h1, _⟩ := h.any hm hp hcor
    rw [h1]
  | false =>
    obtain ⟨k1, k2, N, f, ho⟩ := outcome hm hp (by intro h; rw [hcor] at h; cases h) h
    rw [ho.eq]

/-- what a call needs besides a valid mesh: no negligible priority with one-point
initialisation, and lines that can be built or are well formed -/
structure Sensible (P : Platform) (a : Args W) (o : Outs) (n : Nat) : Prop where
  onePoint : a.order = .boundaryOnePoint ∨ a.order = .neighbourhoodOnePoint →
    a.nBnd.length ≤ P.idxMax ∧ ∀ w ∈ a.prio, Num.lt w Num.lmin = false
  lines : WithoutLines a o ∨ (BuildsLines a n ∧ ∀ fls, fineLines P a o = .ok fls → FitsLimit a fls) ∨
    ∃ ls, GivesLines a o n ls ∧ FitsLimit a (ls.filter (fun l => decide (1 < l.length)))

theorem start_any {P : Platform} {a : Args W} {o : Outs} {n : Nat} (hm : ValidMesh a n) (hp : ValidParams P a)
    (hs : Sensible P a o n) : ∃ c k p idx lines, Start P a o c n k p idx lines := by
  rcases hs.lines with hoff | ⟨hb, hno⟩ | ⟨ls, hb, hno⟩
  · obtain ⟨c, k, p, h, _⟩ := start_iso hm hp hoff
    exact ⟨c, k, p, _, _, h⟩
  · obtain ⟨fls, h1, _⟩ := fineLines_build (P := P) (o := o) hm hb
    obtain ⟨c, k, p, cls, gss, h⟩ := built_start hm hp hb h1 (hno fls h1)
    exact ⟨c, k, p, _, _, h.start⟩
  · obtain ⟨c, k, p, cls, gss, h⟩ := given_start hm hp hb hno
    exact ⟨c, k, p, _, _, h.start⟩

/-- **C73** On a valid mesh, whatever the dimension, the cardinalities, the numbers of iterations, the
threshold of the correction and the enumerators, a call returns normally if its parameters are in the
documented ranges, and throws `invalid_argument` if not; nothing else can happen.
Missing: priorities that are not positive with one-point initialisation, and lines that are
not well formed (see the counterexamples). -/
theorem C73_two_ends_partial {P : Platform} {a : Args W} {o : Outs} {n : Nat} (hm : ValidMesh a n) (hs : Sensible P a o n) :
    ((agglomerateOneLevel P a o).2 = .ok () ∧ ¬ BadArgs a o ∧ a.aspect ≠ .unknown) ∨
    ((agglomerateOneLevel P a o).2 = .error .invalidArgument ∧ (BadArgs a o ∨ a.aspect = .unknown)) := by
  by_cases hbad : BadArgs a o
  · right
    rw [C23_rejects hbad]
    exact ⟨rfl, Or.inl hbad⟩
  have hb := hbad
  simp only [BadArgs, not_or] at hb
  obtain ⟨e1, e2, e3, e4, e5, e6, e7, e8⟩ := hb
  by_cases hasp : a.aspect = .unknown
  · right
    refine ⟨?_, Or.inr hasp⟩
    have hm' : ValidMesh { a with aspect := .diameter } n :=
      ⟨hm.pos, hm.crs, hm.sym, hm.uniq, hm.values, hm.volumes, hm.centers, hm.prio, hm.bnd, hm.coords⟩
    have hp' : ValidParams P { a with aspect := .diameter } :=
      ⟨by show a.dim = 2 ∨ a.dim = 3; omega, by show 1 < a.minCard; omega, by show a.minCard ≤ a.goalCard; omega,
        by show a.goalCard ≤ a.maxCard; omega, by show 1 ≤ a.fcIter ∧ a.fcIter ≤ 4; omega,
        by show 1 ≤ a.singThresh; omega, e8, by simp, hs.onePoint⟩
    have hs' : Sensible P { a with aspect := .diameter } o n := by
      refine ⟨hs.onePoint, ?_⟩
      rcases hs.lines with h | ⟨h, h'⟩ | ⟨ls, h, h'⟩
      · exact Or.inl h
      · exact Or.inr (Or.inl ⟨⟨h.on, h.build, h.compliant, h.isolated⟩, h'⟩)
      · exact Or.inr (Or.inr ⟨ls, ⟨h.on, h.build, h.enc, h.data, h.disjoint, h.range⟩, h'⟩)
    obtain ⟨c, k, p, idx, lines, h⟩ := start_any hm' hp' hs'
    have h1 : checkAll P a o = .ok c := h.check
    have h2 : anisoPhase P a o c = .ok (k, p, idx, lines) := h.eq
    unfold agglomerateOneLevel
    rw [h1]
    simp only
    unfold runPhases
    rw [h2]
    simp only
    unfold isoPhase
    rw [hasp]
    rfl
  · left
    have hp : ValidParams P a := ⟨by omega, by omega, by omega, by omega, by omega, by omega, e8, hasp, hs.onePoint⟩
    obtain ⟨c, k, p, idx, lines, h⟩ := start_any hm hp hs
    exact ⟨h.returns hm hp, hbad, hasp⟩

/-- **C73** A mesh without cells: undefined behaviour whatever the other arguments, if they are accepted. -/
theorem C73_empty_mesh {P : Platform} {a : Args W} {o : Outs} (hn : a.nBnd = []) (h : ¬ BadArgs a o)
    (hoff : WithoutLines a o) : (agglomerateOneLevel P a o).2 = .error .ub := by
  simp only [BadArgs, not_or] at h
  obtain ⟨e1, e2, e3, e4, e5, e6, e7, e8⟩ := h
  obtain ⟨c, hc⟩ := poolOf_ok P e8
  have hcheck : checkAll P a o = .ok c := by
    unfold checkAll
    rcases checkBasic_cases a with ⟨h1, _⟩ | ⟨_, h2⟩
    · rcases checkLines_cases a o with ⟨h3, _⟩ | ⟨_, h3⟩
      · rw [h1, ok_bind, h3, ok_bind, checkArg_bind, if_pos (by simp; omega), hc.eq]
      · exact absurd h3 e6
    · rcases h2 with h2 | h2 | h2 | h2 | h2
      · omega
      · omega
      · omega
      · omega
      · exact absurd h2 (by simp only [not_or]; exact e5)
  have hbnd : c.nBnd = [] := by rw [hc.bnd, hn]; rfl
  have hinit : Pool.new.initialize c = .error .ub := by
    unfold Pool.initialize
    rw [hbnd]
    rfl
  unfold agglomerateOneLevel
  rw [hcheck]
  simp only
  unfold runPhases anisoPhase
  rw [withoutLines_iff.1 hoff, hinit]
  rfl

/-- **C73 fails without these conditions**, each time with undefined behaviour or a failed assertion: priorities 0 with
one-point initialisation; a line one cell shorter than an odd limit; a line with a cell that does not exist; two lines
with a common cell; decreasing offsets of lines; a compliant cell that does not exist; an isolated compliant cell and a
negative threshold; fewer priorities or numbers of boundary faces than cells; a neighbour that does not exist; decreasing
offsets of rows. -/
theorem C73_counterexamples :
    (agglomerateOneLevel exPlatform { exArgs3 with order := .boundaryOnePoint, prio := [0, 0, 0] } ⟨[], [], []⟩).2 = .error .ub ∧
    (agglomerateOneLevel exPlatform { exGiven with maxCells := some 3 } exGivenOuts).2 = .error .ub ∧
    (agglomerateOneLevel exPlatform exGiven ⟨[], [0, 2], [0, 5]⟩).2 = .error .ub ∧
    (agglomerateOneLevel exPlatform exGiven ⟨[], [0, 2, 4], [0, 1, 1, 2]⟩).2 = .error .assertion ∧
    (agglomerateOneLevel exPlatform exGiven ⟨[], [0, 3, 2], [0, 1]⟩).2 = .error .ub ∧
    (agglomerateOneLevel exPlatform { exArgs3 with isAniso := true, buildLines := true, compliant := [7] } ⟨[], [], []⟩).2 =
      .error .ub ∧
    (agglomerateOneLevel exPlatform { exArgs3 with
      isAniso := true, buildLines := true, compliant := [3], thr := -1, rowPtr := [0, 1, 3, 4, 4], prio := [3, 2, 1, 1],
      volumes := [1, 1, 1, 1], centers := [[0, 0], [1, 0], [2, 0], [3, 0]], nBnd := [3, 2, 3, 3] } ⟨[], [], []⟩).2 = .error .ub ∧
    (agglomerateOneLevel exPlatform { exArgs3 with prio := [3, 2] } ⟨[], [], []⟩).2 = .error .ub ∧
    (agglomerateOneLevel exPlatform { exArgs3 with nBnd := [3, 2] } ⟨[], [], []⟩).2 = .error .ub ∧
    (agglomerateOneLevel exPlatform { exArgs3 with colInd := [1, 0, 7, 1] } ⟨[], [], []⟩).2 = .error .ub ∧
    (agglomerateOneLevel exPlatform { exArgs3 with rowPtr := [0, 3, 1, 4] } ⟨[], [], []⟩).2 = .error .ub := by
  refine ⟨?_, ?_, ?_, ?_, ?_, ?_, ?_, ?_, ?_, ?_, ?_⟩ <;> decide +kernel

/-! ## Concrete cases -/

example := C73_two_ends_partial exGiven_valid (P := exPlatform) (o := exGivenOuts)
  ⟨by decide, Or.inr (Or.inr ⟨_, exGiven_lines, by intro l _ m h; cases h⟩)⟩
example := C73_two_ends_partial (a := { exArgs with minCard := 7 }) (n := 7) (P := exPlatform) (o := ⟨[], [], []⟩)
  ⟨by decide, exArgs_crs, exArgs_valid.sym, exArgs_valid.uniq, rfl, rfl, rfl, rfl, rfl, ⟨2, by decide⟩⟩ ⟨by decide, Or.inl (Or.inl rfl)⟩
example := C73_empty_mesh (P := exPlatform) (o := ⟨[], [], []⟩) (a := { exArgs with
  rowPtr := [0], colInd := [], values := [], volumes := [], centers := [], prio := [], nBnd := [] }) rfl
  (by unfold BadArgs; decide) (Or.inl rfl)

end CoMMA
