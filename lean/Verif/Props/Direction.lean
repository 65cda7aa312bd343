import Verif.Props.InAdvance
/-! # The direction of provided lines -/

namespace CoMMA

variable {W : Type} [Num W]

/-- equal numbers, and no others, compare equal -/
def EqExact (W : Type) [Num W] : Prop := ∀ x y : W, Num.eq x y = true ↔ x = y

/-- each line of `ls'` is the line of `ls` at the same place, possibly listed from its other end -/
def EitherEnd (ls ls' : List (List Nat)) : Prop := List.Forall₂ (fun l l' => l' = l ∨ l' = l.reverse) ls ls'

theorem EitherEnd.offsets {ls ls' : List (List Nat)} (h : EitherEnd ls ls') (k : Nat) : offsets k ls' = offsets k ls := by
  induction h generalizing k with
  | nil => rfl
  | cons h1 _ ih =>
    have : ∀ (l l' : List Nat), (l' = l ∨ l' = l.reverse) → l'.length = l.length := by
      rintro l l' (rfl | rfl) <;> simp
    unfold CoMMA.offsets
    rw [this _ _ h1, ih]

theorem EitherEnd.perm {ls ls' : List (List Nat)} (h : EitherEnd ls ls') : ls'.flatten.Perm ls.flatten := by
  induction h with
  | nil => exact .refl _
  | cons h1 _ ih =>
    rw [List.flatten_cons, List.flatten_cons]
    refine List.Perm.append ?_ ih
    rcases h1 with rfl | rfl
    · exact .refl _
    · exact List.reverse_perm _

theorem isForward_reverse (hW : LawfulLt W) (hE : EqExact W) {g : Graph W} {prio : List W} (hb : g.nBnd.length = g.nbC)
    (hp : prio.length = g.nbC) {line : List Nat} (hlen : 2 ≤ line.length) (hlt : ∀ x ∈ line, x < g.nbC) (hnd : line.Nodup) :
    ∃ fwd, isForward g prio line = .ok fwd ∧ isForward g prio line.reverse = .ok (!fwd) := by
  have h1 := hlt (line[0]'(by omega)) (List.getElem_mem _)
  have h2 := hlt (line[line.length - 1]'(by omega)) (List.getElem_mem _)
  have hne : line[0]'(by omega) ≠ line[line.length - 1]'(by omega) := by
    intro h
    have := (List.Nodup.getElem_inj_iff hnd).1 h
    omega
  have e0 : rd line.reverse 0 = .ok (line[line.length - 1]'(by omega)) := by
    rw [rd_of_lt (by simp; omega)]
    simp
  have e1 : rd line.reverse (line.reverse.length - 1) = .ok (line[0]'(by omega)) := by
    rw [rd_of_lt (by simp; omega)]
    simp
  unfold isForward
  rw [e0, e1, rd_of_lt (by omega), ok_bind, rd_of_lt (i := line.length - 1) (by omega), ok_bind, ok_bind, ok_bind]
  generalize line[0]'(by omega) = fr at *
  generalize line[line.length - 1]'(by omega) = bk at *
  rw [rd_of_lt (v := g.nBnd) (i := fr) (by omega), ok_bind, rd_of_lt (v := g.nBnd) (i := bk) (by omega), ok_bind,
    rd_of_lt (v := prio) (i := fr) (by omega), ok_bind, rd_of_lt (v := prio) (i := bk) (by omega), ok_bind, ok_bind, ok_bind, ok_bind,
    ok_bind]
  refine ⟨_, rfl, ?_⟩
  generalize g.nBnd[fr]'(by omega) = bf
  generalize g.nBnd[bk]'(by omega) = bb
  generalize prio[fr]'(by omega) = wf
  generalize prio[bk]'(by omega) = wb
  congr 1
  rcases Nat.lt_trichotomy bb bf with h | h | h
  · have : ¬ bf < bb := by omega
    have : bb ≠ bf := by omega
    simp [*]
  · subst h
    have hh : ¬ bb < bb := by omega
    cases hw : Num.lt wb wf with
    | true =>
      have hw' : Num.lt wf wb = false := by
        cases hh : Num.lt wf wb with
        | false => rfl
        | true => have := hW.trans _ _ _ hw hh; rw [hW.irrefl] at this; cases this
      have he : Num.eq wb wf = false := by
        cases hh : Num.eq wb wf with
        | false => rfl
        | true => rw [(hE _ _).1 hh, hW.irrefl] at hw; cases hw
      simp [hw', he]
    | false =>
      cases hw' : Num.lt wf wb with
      | true =>
        have he : Num.eq wf wb = false := by
          cases hh : Num.eq wf wb with
          | false => rfl
          | true => rw [(hE _ _).1 hh, hW.irrefl] at hw'; cases hw'
        simp [he]
      | false =>
        have := hW.total _ _ hw hw'
        subst this
        have he : Num.eq wb wb = true := (hE _ _).2 rfl
        rcases Nat.lt_trichotomy fr bk with h | h | h
        · have : ¬ bk < fr := by omega
          simp [*]
        · exact absurd h hne
        · have : ¬ fr < bk := by omega
          simp [*]
  · have : ¬ bb < bf := by omega
    have : bf ≠ bb := by omega
    simp [*]

theorem agglomLine_reverse (hW : LawfulLt W) (hE : EqExact W) {g : Graph W} {prio : List W} (hb : g.nBnd.length = g.nbC)
    (hp : prio.length = g.nbC) (L : LineCfg) (s : Cont × List Nat × List (List Nat)) {line : List Nat}
    (hlt : ∀ x ∈ line, x < g.nbC) (hnd : line.Nodup) :
    agglomLine g prio L s line.reverse = agglomLine g prio L s line := by
  unfold agglomLine
  rw [List.length_reverse]
  by_cases h : line.length ≤ 1
  · rw [if_pos h, if_pos h]
  · rw [if_neg h, if_neg h]
    obtain ⟨fwd, h1, h2⟩ := isForward_reverse hW hE hb hp (by omega) hlt hnd
    rw [h1, h2, ok_bind, ok_bind]
    cases fwd <;> simp

theorem foldl_agglomLine (hW : LawfulLt W) (hE : EqExact W) {g : Graph W} {prio : List W} (hb : g.nBnd.length = g.nbC)
    (hp : prio.length = g.nbC) (L : LineCfg) {ls ls' : List (List Nat)} (h : EitherEnd ls ls')
    (hlt : ∀ l ∈ ls, ∀ x ∈ l, x < g.nbC) (hnd : ∀ l ∈ ls, l.Nodup) (s : Cont × List Nat × List (List Nat)) :
    ls'.foldlM (agglomLine g prio L) s = ls.foldlM (agglomLine g prio L) s := by
  induction h generalizing s with
  | nil => rfl
  | @cons l l' _ _ h1 _ ih =>
    have e : agglomLine g prio L s l' = agglomLine g prio L s l := by
      rcases h1 with rfl | rfl
      · rfl
      · exact agglomLine_reverse hW hE hb hp L s (hlt l (by simp)) (hnd l (by simp))
    rw [List.foldlM_cons, List.foldlM_cons, e]
    congr 1
    funext t
    exact ih (fun l hl => hlt l (by simp [hl])) (fun l hl => hnd l (by simp [hl])) t

theorem EitherEnd.filter {ls ls' : List (List Nat)} (h : EitherEnd ls ls') :
    EitherEnd (ls.filter (fun l => decide (1 < l.length))) (ls'.filter (fun l => decide (1 < l.length))) := by
  induction h with
  | nil => exact .nil
  | @cons l l' _ _ h1 _ ih =>
    have : l'.length = l.length := by rcases h1 with rfl | rfl <;> simp
    rw [List.filter_cons, List.filter_cons, this]
    by_cases hl : 1 < l.length
    · rw [if_pos (by simpa using hl), if_pos (by simpa using hl)]
      exact .cons h1 ih
    · rw [if_neg (by simpa using hl), if_neg (by simpa using hl)]
      exact ih

theorem GivesLines.otherEnd {a : Args W} {o o' : Outs} {n : Nat} {ls ls' : List (List Nat)} (hg : GivesLines a o n ls)
    (hs : EitherEnd ls ls') (he : Encodes o'.linesIdx o'.lines ls') : GivesLines a o' n ls' where
  on := hg.on
  build := hg.build
  enc := he
  data := by
    intro h
    have := hs.perm.length_eq
    rw [h] at this
    exact hg.data (List.length_eq_zero_iff.1 this.symm)
  disjoint := hs.perm.nodup_iff.2 hg.disjoint
  range := fun x hx => hg.range x (hs.perm.mem_iff.1 hx)

theorem GivesLines.phase {a : Args W} {o : Outs} {n : Nat} {ls : List (List Nat)} (hg : GivesLines a o n ls) :
    anisoOn a o = true ∧ checkLines a o = .ok () ∧
      ∀ P, fineLines P a o = .ok (ls.filter (fun l => decide (1 < l.length))) := by
  obtain ⟨e1, e2⟩ := hg.enc
  have hne : ls ≠ [] := by rintro rfl; exact hg.data rfl
  have hon : anisoOn a o = true := by
    unfold anisoOn
    rw [hg.on, hg.build, e1, e2]
    have : ¬ (offsets 0 ls).length < 2 := by
      rw [offsets_length]
      have := List.length_pos_iff.2 hne
      omega
    have h2 : ls.flatten.isEmpty = false := by simpa using hg.data
    rw [h2]
    simp [this]
  refine ⟨hon, ?_, fun P => ?_⟩
  · unfold checkLines
    rw [hon, hg.build, e1, e2, List.getLast?_eq_getElem?, offsets_length, Nat.add_sub_cancel,
      offsets_getElem ls 0 _ (Nat.le_refl _)]
    simp [checkArg_true]
  · unfold fineLines
    rw [hg.build, e1, e2]
    have := givenLines_export hne
    rw [exportLines_eq hne] at this
    exact this

/-- **C75** It does not matter from which of its ends each provided line is listed: the three outputs are the same
(the exported coarse lines and the numbers of the coarse cells included). -/
theorem C75_either_end (hW : LawfulLt W) (hE : EqExact W) {P : Platform} {a : Args W} {o o' : Outs} {n : Nat}
    {ls ls' : List (List Nat)} (hm : ValidMesh a n) (hp : ValidParams P a) (hg : GivesLines a o n ls)
    (hfit : FitsLimit a (ls.filter (fun l => decide (1 < l.length)))) (hs : EitherEnd ls ls')
    (he : Encodes o'.linesIdx o'.lines ls') :
    agglomerateOneLevel P a o' = agglomerateOneLevel P a o ∧ (agglomerateOneLevel P a o).2 = .ok () := by
  have hg' := hg.otherEnd hs he
  obtain ⟨on1, cl1, fl1⟩ := hg.phase
  obtain ⟨on2, cl2, fl2⟩ := hg'.phase
  obtain ⟨c, k, p, cls, gss, h⟩ := given_start hm hp hg hfit
  have hret := h.start.returns hm hp
  refine ⟨?_, hret⟩
  have hchk : checkAll P a o' = .ok c := checkAll_ok hm hp h.start.made cl2
  have hmem : ∀ l ∈ ls, ∀ x ∈ l, x < n := fun l hl x hx => hg.range x (List.mem_flatten_of_mem hl hx)
  have hnd : ∀ l ∈ ls, l.Nodup := (List.nodup_flatten.1 hg.disjoint).1
  have hn := graphOf_nbC hm
  have hfold : ∀ s, (ls'.filter (fun l => decide (1 < l.length))).foldlM
        (agglomLine (graphOf a) c.prio ⟨a.oddLine, effMaxCells a⟩) s =
      (ls.filter (fun l => decide (1 < l.length))).foldlM (agglomLine (graphOf a) c.prio ⟨a.oddLine, effMaxCells a⟩) s := by
    intro s
    refine foldl_agglomLine hW hE (meshSizes hm).bnd ?_ _ hs.filter ?_ ?_ s
    · rw [h.start.made.prio, hn, hm.prio]
    · intro l hl x hx
      rw [hn]
      exact hmem l (List.mem_filter.1 hl).1 x hx
    · intro l hl
      exact hnd l (List.mem_filter.1 hl).1
  have hnil : ls'.filter (fun l => decide (1 < l.length)) = [] ↔ ls.filter (fun l => decide (1 < l.length)) = [] := by
    have := hs.filter.length_eq
    rw [← List.length_eq_zero_iff, ← this, List.length_eq_zero_iff]
  have key : anisoPhase P a o' c = anisoPhase P a o c := by
    unfold anisoPhase
    rw [on1, on2, fl1, fl2, if_pos rfl, if_pos rfl, ok_bind, ok_bind]
    congr 1
    unfold agglomLines
    by_cases hz : ls.filter (fun l => decide (1 < l.length)) = []
    · rw [if_pos hz, if_pos (hnil.2 hz)]
    · rw [if_neg hz, if_neg (fun h => hz (hnil.1 h)), hfold]
  unfold agglomerateOneLevel runPhases at hret ⊢
  rw [hchk, h.start.check]
  rw [h.start.check] at hret
  simp only at hret ⊢
  rw [key, h.start.eq]
  rw [h.start.eq] at hret
  simp only at hret ⊢
  cases hi : isoPhase P a c k p with
  | error e => rw [hi] at hret; cases hret
  | ok k' => rfl

/-! ## Concrete cases -/

theorem exEqExact : EqExact Int := fun _ _ => ⟨of_decide_eq_true, decide_eq_true⟩

/-- the line of cells 0 and 1, listed as 1, 0 -/
example : agglomerateOneLevel exPlatform exGiven ⟨[], [0, 2, 3], [1, 0, 2]⟩ =
    agglomerateOneLevel exPlatform exGiven exGivenOuts :=
  (C75_either_end exLawful exEqExact exGiven_valid exGiven_params exGiven_lines (by intro l _ m h; cases h)
    (ls' := [[1, 0], [2]]) (.cons (Or.inr rfl) (.cons (Or.inl rfl) .nil)) ⟨rfl, rfl⟩).1

end CoMMA
