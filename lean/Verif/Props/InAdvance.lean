import Verif.Props.TwoEnds
import Verif.Props.LineGrowth
/-! # Lines built in advance -/

namespace CoMMA

variable {W : Type} [Num W]

/-- the same call with the lines provided: the limit is the one taken into account when lines are built -/
def Args.giving (a : Args W) : Args W :=
  { a with
    buildLines := false
    maxCells := lineLimit a }

theorem lineLimit_giving (a : Args W) : effMaxCells a.giving = effMaxCells a := by
  unfold effMaxCells Args.giving lineLimit
  cases a.maxCells with
  | none => simp
  | some m =>
    simp only [Option.filter_some]
    cases a.buildLines <;> simp
    by_cases h : 0 < m
    · rw [if_pos h, if_neg (by omega)]
    · rw [if_neg h, if_pos (by omega)]

/-- **C74** Lines can be built in advance: if the lines that a call would build are given to it in the two vectors
(two empty vectors if there are none), it leaves the same three outputs.  With or without correction,
whatever its threshold. -/
theorem C74_in_advance {P : Platform} {a : Args W} {o : Outs} {n : Nat} (hm : ValidMesh a n) (hp : ValidParams P a)
    (hb : BuildsLines a n) : ∃ fls, fineLines P a o = .ok fls ∧ (FitsLimit a fls → ∀ o', Exports o' fls →
      agglomerateOneLevel P a.giving o' = agglomerateOneLevel P a o ∧ (agglomerateOneLevel P a o).2 = .ok ()) := by
  obtain ⟨fls, h1, h2, h3, h4, h5⟩ := fineLines_build (P := P) (o := o) hm hb
  refine ⟨fls, h1, ?_⟩
  intro hfit o' ho'
  obtain ⟨c, k, p, cls, gss, h⟩ := built_start hm hp hb h1 hfit
  have hret := h.start.returns hm hp
  refine ⟨?_, hret⟩
  have hon : anisoOn a o = true := by unfold anisoOn; rw [hb.on, hb.build]; rfl
  -- both calls pass the checks and start the isotropic phase in the same state
  have key : checkAll P a.giving o' = .ok c ∧ anisoPhase P a.giving o' c = anisoPhase P a o c := by
    have hlim := lineLimit_giving a
    have hset : ∀ h : checkLines a.giving o' = .ok (), checkAll P a.giving o' = .ok c := by
      intro hcl
      have hck := h.start.check
      unfold checkAll at hck ⊢
      obtain ⟨_, g1, hck⟩ := bind_ok_iff.1 hck
      obtain ⟨_, g2, hck⟩ := bind_ok_iff.1 hck
      rw [show checkBasic a.giving = checkBasic a from rfl, g1, ok_bind, hcl, ok_bind]
      exact hck
    rcases ho' with ⟨rfl, e1, e2⟩ | ⟨hne, e1, e2⟩
    · have hoff : anisoOn a.giving o' = false := by
        unfold anisoOn
        rw [e1, e2]
        simp [Args.giving]
      refine ⟨hset ?_, ?_⟩
      · unfold checkLines; rw [hoff]; rfl
      · unfold anisoPhase
        rw [hoff, hon, h1, e1, e2]
        simp only [Bool.false_eq_true, if_false, if_true, ok_bind]
        unfold agglomLines
        rw [if_pos rfl]
        cases Pool.new.initialize c with
        | error e => rfl
        | ok p => rfl
    · have hfne : fls.flatten ≠ [] := by
        cases fls with
        | nil => exact absurd rfl hne
        | cons l r =>
          have := h3 l (by simp)
          intro hh
          rw [List.flatten_cons, List.append_eq_nil_iff] at hh
          rw [hh.1] at this
          simp at this
      have hon' : anisoOn a.giving o' = true := by
        unfold anisoOn
        rw [show a.giving.isAniso = a.isAniso from rfl, hb.on, e1, e2]
        have : ¬ (offsets 0 fls).length < 2 := by
          rw [offsets_length]
          have := List.length_pos_iff.2 hne
          omega
        have h2 : fls.flatten.isEmpty = false := by simpa using hfne
        rw [h2]
        simp [this]
      refine ⟨hset ?_, ?_⟩
      · unfold checkLines
        rw [hon', show a.giving.buildLines = false from rfl, e1, e2, List.getLast?_eq_getElem?, offsets_length, Nat.add_sub_cancel,
          offsets_getElem fls 0 _ (Nat.le_refl _)]
        simp [checkArg_true]
      · have hfl : fineLines P a.giving o' = .ok fls := by
          unfold fineLines
          rw [show a.giving.buildLines = false from rfl, e1, e2]
          have := givenLines_export hne
          rw [exportLines_eq hne] at this
          rw [List.filter_eq_self.2 (by intro l hl; have := h3 l hl; simp; omega)] at this
          exact this
        unfold anisoPhase
        rw [hon', hon, hfl, h1, hlim]
        rfl
  have hiso : isoPhase P a.giving c k p = isoPhase P a c k p := rfl
  unfold agglomerateOneLevel runPhases at hret ⊢
  rw [key.1, h.start.check]
  rw [h.start.check] at hret
  simp only at hret ⊢
  rw [key.2, h.start.eq]
  rw [h.start.eq] at hret
  simp only at hret ⊢
  rw [hiso]
  cases hi : isoPhase P a c k p with
  | error e => rw [hi] at hret; cases hret
  | ok k' => rfl

/-- **C74** with the lines described: grown from the compliant anisotropic cells, taken by priority. -/
theorem C74_described (hW : LawfulLt W) {P : Platform} {a : Args W} {o : Outs} {n : Nat} (hm : ValidMesh a n) (hp : ValidParams P a)
    (hb : BuildsLines a n) (hns : NoSelfLoop a.rowPtr a.colInd) (hnn : NonnegCouplings (graphOf a) (meantCoupling a)) :
    ∃ fls seeds, (∀ i, i ∈ seeds ↔ i ∈ a.compliant ∧ IsAnisotropic (graphOf a) (meantThreshold a.thr) i) ∧ seeds.Nodup ∧
      PriorityOrdered a.prio seeds ∧ LinesFrom (graphOf a) (meantCoupling a) a.forceDir (· ∈ seeds) seeds fls ∧
      (FitsLimit a fls → ∀ o', Exports o' fls →
        agglomerateOneLevel P a.giving o' = agglomerateOneLevel P a o ∧ (agglomerateOneLevel P a o).2 = .ok ()) := by
  obtain ⟨fls, seeds, h1, h2, h3, h4, h5⟩ := C48_call hW (P := P) (o := o) hm hb hns hnn
  obtain ⟨fls', h1', h6⟩ := C74_in_advance (P := P) (o := o) hm hp hb
  rw [h1] at h1'
  cases h1'
  exact ⟨fls, seeds, h2, h3, h4, h5, h6⟩

/-! ## Concrete cases -/

example : ∀ o', Exports o' [[0, 1, 2], [3, 4, 5]] →
    agglomerateOneLevel exPlatform exBuild.giving o' = agglomerateOneLevel exPlatform exBuild ⟨[], [], []⟩ := by
  intro o' ho'
  obtain ⟨fls, h1, h2⟩ := C74_in_advance (o := ⟨[], [], []⟩) exBuild_valid exBuild_params exBuild_lines
  have e : fineLines exPlatform exBuild ⟨[], [], []⟩ = .ok [[0, 1, 2], [3, 4, 5]] := by decide +kernel
  rw [e] at h1
  cases h1
  exact (h2 (by intro l _ m h; cases h) o' ho').1

example : Exports ⟨[], [0, 3, 6], [0, 1, 2, 3, 4, 5]⟩ [[0, 1, 2], [3, 4, 5]] := Or.inr ⟨by decide, rfl, rfl⟩

end CoMMA
