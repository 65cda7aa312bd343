import Verif.Lemmas.Only
import Verif.Props.Arguments
/-! # C23 and C82: how a call can end, whatever its arguments

No theorem of this file supposes anything about the mesh, the lines, the weights or the
parameters: offsets may decrease, indices may be out of range, vectors may be too short. -/

set_option linter.unusedSectionVars false

namespace CoMMA

variable {W : Type} [Num W]

theorem arOf_quiet (g : Graph W) (h : Hash) (kind : ARKind) : QuietAR (arOf g h kind) := by
  refine ⟨Feats_init_only g, fun i f s => ?_⟩
  unfold arOf
  dsimp only
  split
  · exact arBary_only _ _ _ _ _ _
  · split
    · exact arGeom_only _ _ _ _ _ _
    · exact arPlain_only _ _ _ _ _

theorem Sync_new (n t : Nat) : Sync n (Cont.new n t) := by
  refine ⟨by simp [Cont.new], fun i hi => ?_⟩
  simp [Cont.new, List.getElem?_replicate] at hi

theorem anisoPhase_only (P : Platform) (a : Args W) (o : Outs) (c : PoolCfg W) : Only (anisoPhase P a o c) := by
  unfold anisoPhase fineLines
  repeat' first | only_step | apply buildLines_only | apply givenLines_only | apply agglomLines_only | apply Pool_initialize_only

theorem anisoPhase_sync {P : Platform} {a : Args W} {o : Outs} {c : PoolCfg W} {r : Cont × Pool × List Nat × List Nat}
    (h : anisoPhase P a o c = .ok r) : Sync (graphOf a).nbC r.1 := by
  unfold anisoPhase at h
  split at h
  · simp only [bind_ok_iff] at h
    obtain ⟨l, _, r', hr, h⟩ := h
    cases h
    exact agglomLines_sync (Sync_new _ _) hr
  · simp only [bind_ok_iff] at h
    obtain ⟨_, _, h⟩ := h
    cases h
    exact Sync_new _ _

theorem isoPhase_only {P : Platform} {a : Args W} {c : PoolCfg W} {k : Cont} {p : Pool} (hk : Sync (graphOf a).nbC k)
    (hm : 1 < a.minCard) {e : Err} (h : isoPhase P a c k p = .error e) :
    Plain e ∨ e = .invalidArgument ∧ a.aspect = .unknown := by
  unfold isoPhase at h
  rw [checkArg_bind] at h
  split at h
  · refine Or.inl ?_
    revert h
    refine Only.bind ?_ (fun r => ?_) e
    · refine isoRun_only (E := isoEnvOf P a c) (arOf_quiet _ _ _) ?_ ?_ hk p
      · show 0 < cardOr 3 6 a.dim a.minCard
        unfold cardOr
        rw [if_neg (by omega)]
        omega
      · show a.rowPtr.length ≤ a.rowPtr.length - 1 + 1
        omega
    · unfold correctIf
      repeat' first | only_step | apply Cont_correct_only
  · rename_i hc
    cases h
    exact Or.inr ⟨rfl, by simpa using hc⟩

theorem fillFcToCc_only (k : Cont) : Only (fillFcToCc k) := by
  unfold fillFcToCc
  repeat' first | only_step | apply valueM_only

theorem call_outcome (P : Platform) (a : Args W) (o : Outs) {e : Err} (h : (agglomerateOneLevel P a o).2 = .error e) :
    Plain e ∨ e = .invalidArgument ∧ (BadArgs a o ∨ a.aspect = .unknown) := by
  by_cases hb : BadArgs a o
  · rw [C23_rejects hb] at h
    cases h
    exact Or.inr ⟨rfl, Or.inl hb⟩
  · obtain ⟨c, hc⟩ := checkAll_accepts (P := P) hb
    simp only [BadArgs, not_or] at hb
    unfold agglomerateOneLevel runPhases at h
    rw [hc] at h
    dsimp only at h
    split at h
    · rename_i e' h1
      cases h
      exact Or.inl (anisoPhase_only P a o c _ h1)
    · rename_i k p idx lines h1
      split at h
      · rename_i e' h2
        cases h
        rcases isoPhase_only (anisoPhase_sync h1) (by omega) h2 with h3 | h3
        · exact Or.inl h3
        · exact Or.inr ⟨h3.1, Or.inr h3.2⟩
      · split at h
        · rename_i e' h3
          cases h
          exact Or.inl (fillFcToCc_only _ _ h3)
        · cases h

/-- **C23** With a known aspect ratio, `invalid_argument` is thrown exactly for the refused
arguments, whatever the mesh. -/
theorem C23_exactly {P : Platform} {a : Args W} {o : Outs} (h : a.aspect ≠ .unknown) :
    (agglomerateOneLevel P a o).2 = .error .invalidArgument ↔ BadArgs a o := by
  constructor
  · intro he
    rcases call_outcome P a o he with h1 | ⟨_, h1 | h1⟩
    · rcases h1 with h1 | h1 | h1 | h1 <;> cases h1
    · exact h1
    · exact absurd h1 h
  · intro hb
    rw [C23_rejects hb]

/-- **C82** Whatever its arguments, a call ends: none of its loops goes on for ever. -/
theorem C82_ends (P : Platform) (a : Args W) (o : Outs) : (agglomerateOneLevel P a o).2 ≠ .error .fuel := by
  intro h
  rcases call_outcome P a o h with h1 | ⟨h1, _⟩
  · rcases h1 with h1 | h1 | h1 | h1 <;> cases h1
  · cases h1

/-- **C82** It returns, refuses its arguments, or meets undefined behaviour, a failing assertion,
an empty optional or a missing key; `range_error` is never thrown. -/
theorem C82_outcomes (P : Platform) (a : Args W) (o : Outs) :
    (agglomerateOneLevel P a o).2 = .ok () ∨ (agglomerateOneLevel P a o).2 = .error .invalidArgument ∨
    (agglomerateOneLevel P a o).2 = .error .ub ∨ (agglomerateOneLevel P a o).2 = .error .assertion ∨
    (agglomerateOneLevel P a o).2 = .error .badOptional ∨ (agglomerateOneLevel P a o).2 = .error .outOfRange := by
  cases h : (agglomerateOneLevel P a o).2 with
  | ok u => exact Or.inl rfl
  | error e =>
    rcases call_outcome P a o h with (h1 | h1 | h1 | h1) | ⟨h1, _⟩ <;> simp [h1]

end CoMMA
