import Verif.Lemmas.OverflowCall
import Verif.Props.Anisotropic
import Verif.Spec.Overflow
/-! # No overflow of signed integers -/

namespace CoMMA

variable {W : Type} [Num W]

theorem bounded_of_start {P : Platform} {a : Args W} {o : Outs} {n : Nat} (hm : ValidMesh a n) (hp : ValidParams P a)
    (hi : HoldsInts P a n) (hc : ¬ WithoutLines a o → a.buildLines = true → ∀ i ∈ a.compliant, i < n)
    {c : PoolCfg W} {k : Cont} {p : Pool} {idx lines : List Nat} (h : Start P a o c n k p idx lines) :
    agglomerateBounded P a o = agglomerateOneLevel P a o := by
  have h0 := hi.mesh
  have h1 := hp.minCard
  have h2 := hp.goalCard
  have h3 := hp.maxCard
  have h4 := hp.iter
  have h5 := hp.thresh
  have h6 := hi.maxCard
  have h7 := hi.thresh
  unfold agglomerateBounded agglomerateOneLevel
  rw [h.check]
  simp only
  rw [fits_ok]
  · exact runPhasesC_eq hm hp hi.mesh hi.maxCard hc h
  · intro x hx
    unfold argInts at hx
    rcases List.mem_append.1 hx with hx | hx
    · simp only [List.mem_cons, List.not_mem_nil, or_false] at hx
      rcases hx with rfl | rfl | rfl | rfl | rfl | rfl | rfl
      · rcases hp.dim with h | h <;> omega
      all_goals omega
    · obtain ⟨b, hb, rfl⟩ := List.mem_map.1 hx
      have := hi.bnd b hb
      omega

/-- **C72** With a signed type large enough for the mesh no computation of the call leaves its
range: the program that stops with undefined behaviour at the first value out of range does the
same as the program with unbounded integers.  Without lines, with lines built by the call or
provided; with or without correction, whatever its threshold. -/
theorem C72_no_overflow {P : Platform} {a : Args W} {o : Outs} {n : Nat} (hm : ValidMesh a n) (hp : ValidParams P a)
    (hi : HoldsInts P a n)
    (hmode : WithoutLines a o ∨ (BuildsLines a n ∧ ∀ fls, fineLines P a o = .ok fls → FitsLimit a fls) ∨
      ∃ ls, GivesLines a o n ls ∧ FitsLimit a (ls.filter (fun l => decide (1 < l.length)))) :
    agglomerateBounded P a o = agglomerateOneLevel P a o := by
  rcases hmode with hoff | ⟨hb, hno⟩ | ⟨ls, hb, hno⟩
  · obtain ⟨c, k, p, h, _⟩ := start_iso hm hp hoff
    exact bounded_of_start hm hp hi (fun hon => absurd hoff hon) h
  · obtain ⟨fls, h1, _⟩ := fineLines_build (P := P) (o := o) hm hb
    obtain ⟨c, k, p, cls, gss, h⟩ := built_start hm hp hb h1 (hno fls h1)
    exact bounded_of_start hm hp hi (fun _ _ => hb.compliant) h.start
  · obtain ⟨c, k, p, cls, gss, h⟩ := given_start hm hp hb hno
    exact bounded_of_start hm hp hi (fun _ h => by rw [hb.build] at h; cases h) h.start

/-- **C72** Hence a call returns normally although its integers are bounded. -/
theorem C72_returns {P : Platform} {a : Args W} {o : Outs} {n : Nat} (hm : ValidMesh a n) (hp : ValidParams P a)
    (hs : CorrectsSingletons a) (hi : HoldsInts P a n) (hoff : WithoutLines a o) :
    ∃ f, agglomerateBounded P a o = (⟨f, o.linesIdx, o.lines⟩, .ok ()) ∧ f.length = n := by
  rw [C72_no_overflow hm hp hi (Or.inl hoff)]
  exact C01_total hm hp hs hoff

/-! ## Concrete cases -/

theorem exArgs_ints : HoldsInts exPlatform exArgs 7 where
  mesh := by decide
  maxCard := by decide
  thresh := by decide
  bnd := by decide

example := C72_no_overflow (o := ⟨[], [], []⟩) exArgs_valid exArgs_params exArgs_ints (Or.inl (Or.inl rfl))
example := C72_returns (o := ⟨[], [], []⟩) exArgs_valid exArgs_params exArgs_sing exArgs_ints (Or.inl rfl)

theorem exBuild_ints : HoldsInts exPlatform exBuild 6 where
  mesh := by decide
  maxCard := by decide
  thresh := by decide
  bnd := by decide

example := C72_no_overflow (o := ⟨[], [], []⟩) exBuild_valid exBuild_params exBuild_ints
  (Or.inr (Or.inl ⟨exBuild_lines, by intro _ _ l _ m h; cases h⟩))

/-- **C72** The room is needed: with the largest integer 4 every argument of this call is in
range, the mesh has 7 cells, and the call overflows. -/
theorem C72_overflow_possible : (∀ x ∈ argInts exArgs, x ≤ 4) ∧
    (agglomerateBounded ⟨4, 1000, Hash.id⟩ exArgs ⟨[], [], []⟩).2 = .error .ub ∧
    (agglomerateOneLevel ⟨4, 1000, Hash.id⟩ exArgs ⟨[], [], []⟩).2 = .ok () := by
  refine ⟨by decide, by decide +kernel, by decide +kernel⟩

end CoMMA
