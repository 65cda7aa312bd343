import Verif.Lemmas.Outcome
import Verif.Lemmas.Export
import Verif.Lemmas.BuildLines
/-! # The end of an anisotropic call -/

set_option linter.unusedSectionVars false

namespace CoMMA

variable {W : Type} [Num W]

/-- an anisotropic call up to the isotropic phase -/
structure AnisoStart (P : Platform) (a : Args W) (o : Outs) (n : Nat) (fls : List (List Nat)) (c : PoolCfg W) (k : Cont) (p : Pool)
    (cls : List (List Nat)) (gss : List (List (List Nat))) : Prop where
  start : Start P a o c n k p (exportLines cls).1 (exportLines cls).2
  done : AnisoDone (graphOf a) c ⟨a.oddLine, lineLimit a⟩ fls (Cont.new n (effThresh a).toNat) (k, p, cls) gss

theorem AnisoStart.counter {P : Platform} {a : Args W} {o : Outs} {n : Nat} {fls : List (List Nat)} {c : PoolCfg W} {k : Cont}
    {p : Pool} {cls : List (List Nat)} {gss : List (List (List Nat))} (h : AnisoStart P a o n fls c k p cls gss) (j : Nat) :
    j < k.counter ↔ j ∈ cls.flatten := by
  have h1 := h.done.made.counter
  have h2 := h.done.all
  simp only at h1 h2
  rw [h2, List.mem_range'_1]
  have : (Cont.new n (effThresh a).toNat).counter = 0 := rfl
  omega

theorem AnisoStart.kept {P : Platform} {a : Args W} {o : Outs} {n : Nat} {fls : List (List Nat)} {c : PoolCfg W} {k : Cont}
    {p : Pool} {cls : List (List Nat)} {gss : List (List (List Nat))} (h : AnisoStart P a o n fls c k p cls gss)
    {idx lines : List Nat} {k1 k2 : Cont} {N : Nat} {f : List Nat} (ho : Outcome P a o n k p c idx lines k1 k2 N f)
    {j : Nat} (hj : j < k.counter) : k2.ccs.find? j = k.ccs.find? j := by
  cases hcor : a.correction with
  | false =>
    obtain ⟨rfl, _⟩ := ho.plain hcor
    exact ho.inv.old j hj
  | true =>
    rw [(ho.corr hcor).aniso k.counter ?_ j hj, ho.inv.old j hj]
    intro i hi
    obtain ⟨cc, hcc⟩ := NMap.mem_keys.1 ((h.start.cinv.keys i).2 hi)
    exact ⟨cc, by rw [ho.inv.old i hi, hcc], h.start.aniso i cc hcc⟩

theorem AnisoStart.iso {P : Platform} {a : Args W} {o : Outs} {n : Nat} {fls : List (List Nat)} {c : PoolCfg W} {k : Cont}
    {p : Pool} {cls : List (List Nat)} {gss : List (List (List Nat))} (h : AnisoStart P a o n fls c k p cls gss)
    {idx lines : List Nat} {k1 k2 : Cont} {N : Nat} {f : List Nat} (ho : Outcome P a o n k p c idx lines k1 k2 N f)
    {j : Nat} {cc : CC} (hc : k2.ccs.find? j = some cc) : cc.iso = true ↔ ¬ j < k.counter := by
  constructor
  · intro hi hj
    rw [h.kept ho hj] at hc
    rw [h.start.aniso j cc hc] at hi; cases hi
  · intro hj
    cases hcor : a.correction with
    | false =>
      obtain ⟨rfl, _⟩ := ho.plain hcor
      exact (ho.inv.iso j cc (by omega) hc).1
    | true =>
      have hk := ho.corr hcor
      have := (hk.card j cc hc)
      obtain ⟨x, hx⟩ := NSet.card_pos_iff.1 (show 0 < cc.fcs.card by omega)
      have hx' := (hk.part j cc hc x).1 hx
      have hxn : x < n := by
        rw [← ho.reads.len]; exact (List.getElem?_eq_some_iff.1 ((ho.reads.get x j).2 hx')).1
      obtain ⟨j0, hj0⟩ := ho.cinv.complete ho.all hxn
      obtain ⟨cc0, hcc0⟩ := NMap.mem_keys.1 ((ho.cinv.keys j0).2 (ho.cinv.range x j0 hj0))
      rw [hk.flag x j cc j0 cc0 hx' hc hj0 hcc0]
      by_cases hlt : j0 < k.counter
      · exfalso
        have hcc2 : k2.ccs.find? j0 = some cc0 := by
          rw [h.kept ho hlt, ← ho.inv.old j0 hlt, hcc0]
        have h2 := (hk.part j0 cc0 hcc2 x).1 ((ho.cinv.part j0 cc0 hcc0 x).2 hj0)
        rw [hx'] at h2
        cases h2
        exact hj hlt
      · exact (ho.inv.iso j0 cc0 (by omega) hcc0).1

theorem exports_exportLines (f : List Nat) (cls : List (List Nat)) :
    Exports ⟨f, (exportLines cls).1, (exportLines cls).2⟩ cls := by
  by_cases h : cls = []
  · left; subst h; exact ⟨rfl, rfl, rfl⟩
  · right; rw [exportLines_eq h]; exact ⟨h, rfl, rfl⟩

theorem exportLines_mem (cls : List (List Nat)) (j : Nat) : j ∈ (exportLines cls).2 ↔ j ∈ cls.flatten := by
  by_cases h : cls = []
  · subst h; rfl
  · rw [exportLines_eq h]

theorem AnisoStart.groups {P : Platform} {a : Args W} {o : Outs} {n : Nat} {fls : List (List Nat)} {c : PoolCfg W} {k : Cont}
    {p : Pool} {cls : List (List Nat)} {gss : List (List (List Nat))} (h : AnisoStart P a o n fls c k p cls gss)
    {idx lines : List Nat} {k1 k2 : Cont} {N : Nat} {f : List Nat} (ho : Outcome P a o n k p c idx lines k1 k2 N f) :
    List.Forall₂ (List.Forall₂ (fun grp k => ∀ i : Nat, f[i]? = some k ↔ i ∈ grp)) gss cls := by
  have hcnt := h.counter
  have hl := h.done.listed
  have : ∀ {gss : List (List (List Nat))} {cls : List (List Nat)}, (∀ j ∈ cls.flatten, j < k.counter) →
      List.Forall₂ (Listed k) gss cls →
      List.Forall₂ (List.Forall₂ (fun grp k => ∀ i : Nat, f[i]? = some k ↔ i ∈ grp)) gss cls := by
    intro gss cls hlt hl
    induction hl with
    | nil => exact .nil
    | @cons gs ks _ _ hk _ ih =>
      refine .cons ?_ (ih (fun j hj => hlt j (by simp at hj ⊢; exact Or.inr hj)))
      have hlt' : ∀ j ∈ ks, j < k.counter := fun j hj => hlt j (by simp [hj])
      clear ih hlt
      unfold Listed at hk
      induction hk with
      | nil => exact .nil
      | @cons grp j _ _ hg _ ih =>
        refine .cons (fun i => ?_) (ih (fun j hj => hlt' j (by simp [hj])))
        have hc : k2.ccs.find? j = some (CC.new (NSet.ofList grp) 1 false) := by
          rw [h.kept ho (hlt' j (by simp)), hg]
        rw [← ho.reads.mem hc i]
        simp [CC.new]
  exact this (fun j hj => (hcnt j).2 hj) hl

theorem AnisoStart.coarsens {P : Platform} {a : Args W} {o : Outs} {n : Nat} {fls : List (List Nat)} {c : PoolCfg W} {k : Cont}
    {p : Pool} {cls : List (List Nat)} {gss : List (List (List Nat))} (h : AnisoStart P a o n fls c k p cls gss)
    {idx lines : List Nat} {k1 k2 : Cont} {N : Nat} {f : List Nat} (ho : Outcome P a o n k p c idx lines k1 k2 N f) :
    CoarsensLines a fls ⟨f, (exportLines cls).1, (exportLines cls).2⟩ := by
  refine ⟨cls, gss, exports_exportLines f cls, ?_, h.groups ho⟩
  have := h.done.cut
  rw [h.start.made.prio] at this
  rw [← clampBnd_eq]
  exact this.imp (fun _ _ hc => hc.paired)

theorem anisoStart_of {P : Platform} {a : Args W} {o : Outs} {n : Nat} (hm : ValidMesh a n) (hp : ValidParams P a)
    (hon : anisoOn a o = true) (hcl : checkLines a o = .ok ()) {fls : List (List Nat)} (hls : fineLines P a o = .ok fls)
    (hlen : ∀ l ∈ fls, 2 ≤ l.length) (hno : FitsLimit a fls) (hnd : fls.flatten.Nodup) (hlt : ∀ x ∈ fls.flatten, x < n) :
    ∃ c k p cls gss, AnisoStart P a o n fls c k p cls gss := by
  obtain ⟨c, k, p, cls, gss, h1, h2⟩ := start_aniso hm hp hon hcl hls hlen hno hnd hlt
  exact ⟨c, k, p, cls, gss, h1, h2⟩

theorem linesInput_of {a : Args W} {n : Nat} (hm : ValidMesh a n) (hb : BuildsLines a n) :
    LinesInput (graphOf a) a.prio (meantCoupling a) (meantThreshold a.thr) where
  crs := by rw [graphOf_nbC hm]; exact hm.crs
  sizes := meshSizes hm
  prio := by rw [graphOf_nbC hm, hm.prio]
  known := by
    unfold meantCoupling
    rw [hb.build]
    cases a.coupling <;> simp
  compliant := by
    intro i hi
    rw [graphOf_nbC hm]
    exact hb.compliant i (NSet.mem_ofList.1 hi)
  isolated := by
    intro h1 h2 i hi
    exact hb.isolated h1 h2 i (NSet.mem_ofList.1 hi)

/-- lines built by the call -/
theorem fineLines_build {P : Platform} {a : Args W} {o : Outs} {n : Nat} (hm : ValidMesh a n) (hb : BuildsLines a n) :
    ∃ fls, fineLines P a o = .ok fls ∧ fls.flatten.Nodup ∧ (∀ l ∈ fls, 2 ≤ l.length) ∧
      (∀ l ∈ fls, IsPath a.rowPtr a.colInd l) ∧ ∀ x ∈ fls.flatten, x ∈ a.compliant ∧ isTagged (graphOf a) (meantThreshold a.thr) x = true := by
  obtain ⟨fls, h1, h2, h3, h4, h5⟩ := (buildLines_ok P.hash (linesInput_of hm hb) hm.sym a.forceDir).eq
  refine ⟨fls, ?_, h2, h3, h4, ?_⟩
  · unfold fineLines; rw [hb.build, effCoupling_eq, effThreshold_eq]; exact h1
  · intro x hx
    obtain ⟨u, v⟩ := h5 x hx
    exact ⟨NSet.mem_ofList.1 u, v⟩

theorem built_start {P : Platform} {a : Args W} {o : Outs} {n : Nat} (hm : ValidMesh a n) (hp : ValidParams P a)
    (hb : BuildsLines a n) {fls : List (List Nat)} (hfl : fineLines P a o = .ok fls) (hno : FitsLimit a fls) :
    ∃ c k p cls gss, AnisoStart P a o n fls c k p cls gss := by
  obtain ⟨fls', h1, h2, h3, h4, h5⟩ := fineLines_build (P := P) (o := o) hm hb
  rw [hfl] at h1; cases h1
  refine anisoStart_of hm hp ?_ ?_ hfl h3 hno h2 ?_
  · unfold anisoOn; rw [hb.on, hb.build]; rfl
  · unfold checkLines; rw [hb.build]; simp
    rfl
  · intro x hx; exact hb.compliant x (h5 x hx).1

theorem sublist_flatten_filter {p : List Nat → Bool} (ls : List (List Nat)) : (ls.filter p).flatten.Sublist ls.flatten := by
  induction ls with
  | nil => simp
  | cons l r ih =>
    rw [List.filter_cons]
    split
    · rw [List.flatten_cons, List.flatten_cons]; exact List.Sublist.append_left ih l
    · rw [List.flatten_cons]; exact ih.trans (List.sublist_append_right _ _)

/-- lines given by the caller -/
theorem given_start {P : Platform} {a : Args W} {o : Outs} {n : Nat} (hm : ValidMesh a n) (hp : ValidParams P a)
    {ls : List (List Nat)} (hb : GivesLines a o n ls) (hno : FitsLimit a (ls.filter (fun l => decide (1 < l.length)))) :
    ∃ c k p cls gss, AnisoStart P a o n (ls.filter (fun l => decide (1 < l.length))) c k p cls gss := by
  obtain ⟨e1, e2⟩ := hb.enc
  have hne : ls ≠ [] := by rintro rfl; exact hb.data rfl
  have hon : anisoOn a o = true := by
    unfold anisoOn
    rw [hb.on, hb.build, e1, e2]
    have : ¬ (offsets 0 ls).length < 2 := by
      rw [offsets_length]
      have := List.length_pos_iff.2 hne
      omega
    have h2 : ls.flatten.isEmpty = false := by simpa using hb.data
    rw [h2]
    simp [this]
  refine anisoStart_of hm hp hon ?_ ?_ ?_ hno ?_ ?_
  · unfold checkLines
    rw [hon, hb.build, e1, e2, List.getLast?_eq_getElem?, offsets_length, Nat.add_sub_cancel,
      offsets_getElem ls 0 _ (Nat.le_refl _)]
    simp [checkArg_true]
  · unfold fineLines
    rw [hb.build, e1, e2]
    have := givenLines_export hne
    rw [exportLines_eq hne] at this
    exact this
  · intro l hl
    have := (List.mem_filter.1 hl).2
    simp at this
    omega
  · exact (sublist_flatten_filter ls).nodup hb.disjoint
  · intro x hx
    exact hb.range x ((sublist_flatten_filter ls).subset hx)

end CoMMA
