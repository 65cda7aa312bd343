import Verif.Model.Anisotropic
import Verif.Lemmas.Container
import Verif.Lemmas.Best
import Verif.Spec.Lines
/-! # Agglomeration of anisotropic lines -/

set_option linter.unusedSectionVars false

namespace CoMMA

variable {W : Type} [Num W]

/-- how the part of a line after position `p` is cut into groups -/
structure Cut (L : LineCfg) (line : List Nat) (p : Nat) (groups : List (List Nat)) : Prop where
  flat : groups.flatten <+: line.drop p
  size : ∀ grp ∈ groups, grp.length = 2 ∨ (grp.length = 3 ∧ L.odd = true)
  two : ∀ grp ∈ groups.dropLast, grp.length = 2
  stop : groups.flatten.length = line.length - p ∨ (L.odd = false ∧ groups.flatten.length + 1 = line.length - p) ∨
    ∃ M, L.maxCells = some M ∧ M < (p : Int) + groups.flatten.length + 2
  bound : ∀ M, L.maxCells = some M → groups = [] ∨ (p : Int) + groups.flatten.length ≤ M ∨
    ((p : Int) + groups.flatten.length = M + 1 ∧ L.odd = true ∧ (line.length : Int) = M + 1)
  exact : Pairs L.odd L.maxCells p (line.drop p) groups

theorem LineCfg.full_iff {L : LineCfg} {n : Nat} : L.full n = true ↔ ¬ RoomForTwo L.maxCells n := by
  unfold LineCfg.full RoomForTwo
  cases L.maxCells with
  | none => simp
  | some M => simp

theorem Pairs.unique {odd : Bool} {limit : Option Int} {n : Nat} {l : List Nat} {gs gs' : List (List Nat)}
    (h : Pairs odd limit n l gs) (h' : Pairs odd limit n l gs') : gs = gs' := by
  induction h generalizing gs' with
  | done => cases h' <;> rfl
  | full hf =>
    cases h' with
    | done => rfl
    | full => rfl
    | three hr => exact absurd hr hf
    | last hr => exact absurd hr hf
    | two hr => exact absurd hr hf
  | three hr hl ho =>
    cases h' with
    | full hf => exact absurd hr hf
    | three => rfl
    | last _ _ ho' => rw [ho] at ho'; cases ho'
    | two _ hn => exact absurd hl hn
  | last hr hl ho =>
    cases h' with
    | full hf => exact absurd hr hf
    | three _ _ ho' => rw [ho] at ho'; cases ho'
    | last => rfl
    | two _ hn => exact absurd hl hn
  | two hr hn _ ih =>
    cases h' with
    | full hf => exact absurd hr hf
    | three _ hl => exact absurd hl hn
    | last _ hl => exact absurd hl hn
    | two _ _ h2 => rw [ih h2]

theorem Cut.nil_full {L : LineCfg} {line : List Nat} {p : Nat} (h : L.full p = true) : Cut L line p [] := by
  refine ⟨by simp, by simp, by simp, ?_, by simp, .full (LineCfg.full_iff.1 h)⟩
  right; right
  unfold LineCfg.full at h
  split at h
  · simp at h
  · rename_i M hM
    refine ⟨M, hM, ?_⟩
    simp at h ⊢; omega

theorem Cut.nil_end {L : LineCfg} {line : List Nat} {p : Nat} (h : p = line.length) : Cut L line p [] := by
  refine ⟨by simp, by simp, by simp, Or.inl ?_, by simp, by rw [h, List.drop_length]; exact .done⟩
  simp; omega

/-- the loop never runs past the end unless the limit is odd and the line one cell shorter -/
def NoOverrun (L : LineCfg) (n : Nat) : Prop :=
  ∀ M, L.maxCells = some M → ¬ (M % 2 = 1 ∧ 3 ≤ M ∧ (n : Int) + 1 = M)

theorem LineCfg.third_iff {L : LineCfg} {left n : Nat} : L.third left n = true ↔
    left = 3 ∨ ∃ M, L.maxCells = some M ∧ (n : Int) + 1 = M := by
  unfold LineCfg.third
  cases L.maxCells
  · simp
  · simp only [Bool.or_eq_true, decide_eq_true_eq, Option.some.injEq]
    constructor
    · rintro (h | h)
      · exact Or.inl h
      · exact Or.inr ⟨_, rfl, h⟩
    · rintro (h | ⟨M, rfl, h⟩)
      · exact Or.inl h
      · exact Or.inr h

theorem pairStep_nCells {g : Graph W} {grp : List Nat} {s s' : PairSt} (h : pairStep g grp s = .ok s') :
    s'.nCells = s.nCells + grp.length := by
  unfold pairStep at h
  rw [bind_ok_iff] at h
  obtain ⟨rows, _, h⟩ := h
  rw [bind_ok_iff] at h
  obtain ⟨r, _, h⟩ := h
  cases h; rfl

theorem drop_two {line : List Nat} {p : Nat} (h : p + 2 ≤ line.length) :
    line.drop p = line[p] :: line[p + 1] :: line.drop (p + 2) := by
  rw [List.drop_eq_getElem_cons (by omega), List.drop_eq_getElem_cons (i := p + 1) (by omega)]

theorem pairLoop_cut (g : Graph W) {L : LineCfg} {line : List Nat} (hno : NoOverrun L line.length) :
    ∀ (fuel p : Nat), p % 2 = 0 → (p + 2 ≤ line.length ∨ p = line.length) → line.length < fuel + p →
      ∃ groups, Cut L line p groups ∧ ∀ s : PairSt, s.nCells = p →
        pairLoop g L line fuel p s = groups.foldlM (fun s grp => pairStep g grp s) s := by
  intro fuel
  induction fuel with
  | zero => intro p _ h1 h2; omega
  | succ fuel ih =>
    intro p hpar hp hfuel
    by_cases hend : p = line.length
    · refine ⟨[], Cut.nil_end hend, fun s hs => ?_⟩
      unfold pairLoop
      rw [if_pos hend]; rfl
    · by_cases hfull : L.full p = true
      · refine ⟨[], Cut.nil_full hfull, fun s hs => ?_⟩
        unfold pairLoop
        rw [if_neg hend, hs, if_pos hfull]; rfl
      · have hp2 : p + 2 ≤ line.length := by omega
        have hMle : ∀ M, L.maxCells = some M → (p : Int) + 2 ≤ M := by
          intro M hM
          unfold LineCfg.full at hfull
          rw [hM] at hfull
          simp at hfull; omega
        by_cases ht : L.third (line.length - p) (p + 2) = true
        · -- last group
          have ht' := LineCfg.third_iff.1 ht
          have hp3 : p + 3 ≤ line.length := by
            rcases ht' with h3 | ⟨M, hM, h3⟩
            · omega
            · by_contra hlt
              refine hno M hM ⟨?_, ?_, ?_⟩ <;> omega
          obtain ⟨grp, hgrp, hlen, hpre, hpairs⟩ : ∃ grp, groupOf L line p true = .ok grp ∧
              (grp.length = if L.odd then 3 else 2) ∧ grp <+: line.drop p ∧
              Pairs L.odd L.maxCells p (line.drop p) [grp] := by
            have hlast : LastGroup L.maxCells p ((line.drop (p + 2 + 1)).length + 3) := by
              rcases ht' with h3 | ⟨M, hM, h3⟩
              · left; rw [List.length_drop]; omega
              · right; rw [hM]; congr 1; omega
            unfold groupOf
            rw [rd_of_lt (by omega), ok_bind, rd_of_lt (by omega), ok_bind]
            by_cases ho : L.odd = true
            · simp only [ho, Bool.and_self, if_true]
              rw [rd_of_lt (by omega), ok_bind]
              refine ⟨_, rfl, rfl, ?_, ?_⟩
              · rw [drop_two hp2, List.drop_eq_getElem_cons (by omega)]
                exact ⟨line.drop (p + 2 + 1), rfl⟩
              · rw [drop_two hp2, List.drop_eq_getElem_cons (i := p + 2) (by omega)]
                exact .three hMle hlast rfl
            · simp only [ho, Bool.and_false]
              refine ⟨_, rfl, rfl, ?_, ?_⟩
              · rw [drop_two hp2]
                exact ⟨line.drop (p + 2), rfl⟩
              · rw [drop_two hp2, List.drop_eq_getElem_cons (i := p + 2) (by omega)]
                exact .last hMle hlast rfl
          refine ⟨[grp], ⟨by simpa using hpre, ?_, by simp, ?_, ?_, hpairs⟩, fun s hs => ?_⟩
          · intro x hx
            simp only [List.mem_singleton] at hx; rw [hx, hlen]
            by_cases ho : L.odd = true <;> simp [ho]
          · simp only [List.flatten_cons, List.flatten_nil, List.append_nil, hlen]
            rcases ht' with h3 | ⟨M, hM, h3⟩
            · by_cases ho : L.odd = true
              · left; simp [ho]; omega
              · right; left; simp [ho]; omega
            · right; right
              refine ⟨M, hM, ?_⟩
              by_cases ho : L.odd = true <;> simp [ho] <;> omega
          · intro M hM
            right
            simp only [List.flatten_cons, List.flatten_nil, List.append_nil, hlen]
            have h5 := hMle M hM
            by_cases ho : L.odd = true
            · simp only [ho, if_true]
              rcases ht' with h3 | ⟨M', hM', h3⟩
              · by_cases h4 : (p : Int) + 3 ≤ M
                · left; omega
                · right; refine ⟨?_, trivial, ?_⟩ <;> omega
              · rw [hM] at hM'; cases hM'; left; omega
            · simp only [ho]; left; simp; omega
          · unfold pairLoop
            rw [if_neg hend, hs]
            simp only [hfull, ht, hgrp, if_true, ok_bind, List.foldlM_cons, List.foldlM_nil, if_pos hp3]
            rw [if_neg (by simp)]
            cases hps : pairStep g grp s with
            | error e => rfl
            | ok s' =>
              simp only [ok_bind]
              have hn := pairStep_nCells hps
              rw [hs, hlen] at hn
              by_cases hend' : p + 3 = line.length
              · cases fuel <;> (unfold pairLoop; rw [if_pos hend'])
              · have hf : L.full s'.nCells = true := by
                  rcases ht' with h3 | ⟨M, hM, h3⟩
                  · omega
                  · unfold LineCfg.full
                    rw [hM, hn]
                    by_cases ho : L.odd = true <;> simp [ho] <;> omega
                cases fuel <;> (unfold pairLoop; rw [if_neg hend', if_pos hf])
        · -- a pair, then the rest of the line
          have ht' : ¬ _ := fun h => ht (LineCfg.third_iff.2 h)
          simp only [not_or, not_exists, not_and] at ht'
          obtain ⟨groups, hcut, hrun⟩ := ih (p + 2) (by omega) (by omega) (by omega)
          have hgrp : groupOf L line p false = .ok [line[p], line[p + 1]] := by
            unfold groupOf
            rw [rd_of_lt (by omega), ok_bind, rd_of_lt (by omega), ok_bind]
            simp
            rfl
          refine ⟨[line[p], line[p + 1]] :: groups, ⟨?_, ?_, ?_, ?_, ?_, ?_⟩, fun s hs => ?_⟩
          · rw [drop_two hp2]
            obtain ⟨r, hr⟩ := hcut.flat
            exact ⟨r, by rw [← hr]; rfl⟩
          · intro x hx
            rcases List.mem_cons.1 hx with hx | hx
            · subst hx; left; rfl
            · exact hcut.size x hx
          · intro x hx
            cases groups with
            | nil => simp at hx
            | cons b r =>
              rw [List.dropLast_cons_cons] at hx
              rcases List.mem_cons.1 hx with hx | hx
              · subst hx; rfl
              · exact hcut.two x hx
          · simp only [List.flatten_cons, List.length_append, List.length_cons, List.length_nil]
            rcases hcut.stop with h3 | h3 | ⟨M, hM, h3⟩
            · left; omega
            · right; left; exact ⟨h3.1, by omega⟩
            · right; right; exact ⟨M, hM, by push_cast at h3 ⊢; omega⟩
          · intro M hM
            right
            simp only [List.flatten_cons, List.length_append, List.length_cons, List.length_nil]
            rcases hcut.bound M hM with h3 | h3 | h3
            · subst h3
              left
              have := hMle M hM
              simp; omega
            · left; push_cast at h3 ⊢; omega
            · right; push_cast at h3 ⊢; exact ⟨by omega, h3.2⟩
          · rw [drop_two hp2]
            refine .two hMle ?_ hcut.exact
            rw [List.length_drop]
            rintro (h3 | h3)
            · exact ht'.1 (by omega)
            · exact ht'.2 _ h3 (by omega)
          · have hfalse : L.third (line.length - p) (p + 2) = false := by simpa using ht
            unfold pairLoop
            rw [if_neg hend, hs, if_neg hfull]
            simp only [hfalse, hgrp, ok_bind, List.foldlM_cons, Bool.false_eq_true, if_false, if_pos hp2]
            cases hps : pairStep g [line[p], line[p + 1]] s with
            | error e => rfl
            | ok s' =>
              simp only [ok_bind]
              have hn := pairStep_nCells hps
              exact hrun s' (by rw [hn, hs]; rfl)


/-- effect of the creation of anisotropic coarse cells, one per group -/
structure AnisoMade (n : Nat) (c : Cont) (groups : List (List Nat)) (c' : Cont) : Prop where
  cinv : CInv n c'
  counter : c'.counter = c.counter + groups.length
  old : ∀ k, k < c.counter → c'.ccs.find? k = c.ccs.find? k
  new : ∀ j grp, groups[j]? = some grp → c'.ccs.find? (c.counter + j) = some (CC.new (NSet.ofList grp) 1 false)
  fc : ∀ i : Nat, i ∉ groups.flatten → c'.fc2cc[i]? = c.fc2cc[i]?
  agg : ∀ i : Nat, i ∉ groups.flatten → c'.agg[i]? = c.agg[i]?
  thresh : c'.thresh = c.thresh

theorem AnisoMade.refl {n : Nat} {c : Cont} (h : CInv n c) : AnisoMade n c [] c :=
  ⟨h, rfl, fun _ _ => rfl, by simp, fun _ _ => rfl, fun _ _ => rfl, rfl⟩

theorem AnisoMade.step {n : Nat} {c c1 c2 : Cont} {gs : List (List Nat)} (h : AnisoMade n c gs c1) {grp : List Nat}
    (hi : CInv n c2) (hc : Created c1 (NSet.ofList grp) 1 true c2) : AnisoMade n c (gs ++ [grp]) c2 := by
  have hcnt := h.counter
  refine ⟨hi, by rw [hc.counter, hcnt, List.length_append]; rfl, ?_, ?_, ?_, ?_, by rw [hc.thresh, h.thresh]⟩
  · intro k hk
    rw [hc.ccs, NMap.find?_insert, if_neg (by omega)]
    exact h.old k hk
  · intro j g hj
    rw [hc.ccs, NMap.find?_insert]
    rw [List.getElem?_append] at hj
    split at hj
    · rename_i hlt
      rw [if_neg (by omega)]
      exact h.new j g hj
    · rename_i hge
      have : j = gs.length := by
        have := List.getElem?_eq_some_iff.1 hj
        obtain ⟨h1, _⟩ := this
        simp at h1; omega
      subst this
      rw [Nat.sub_self] at hj
      cases hj
      rw [if_pos hcnt.symm]; rfl
  · intro i hn
    simp only [List.flatten_append, List.mem_append, not_or, List.flatten_cons, List.flatten_nil, List.append_nil] at hn
    rw [hc.fc2cc, if_neg (by simpa using hn.2)]
    exact h.fc i hn.1
  · intro i hn
    simp only [List.flatten_append, List.mem_append, not_or, List.flatten_cons, List.flatten_nil, List.append_nil] at hn
    rw [hc.agg, if_neg (by simpa using hn.2)]
    exact h.agg i hn.1

theorem AnisoMade.trans {n : Nat} {c c1 c2 : Cont} {gs gs' : List (List Nat)} (h : AnisoMade n c gs c1)
    (h' : AnisoMade n c1 gs' c2) : AnisoMade n c (gs ++ gs') c2 := by
  have hcnt := h.counter
  refine ⟨h'.cinv, by rw [h'.counter, hcnt, List.length_append, Nat.add_assoc], ?_, ?_, ?_, ?_,
    by rw [h'.thresh, h.thresh]⟩
  · intro k hk
    rw [h'.old k (by omega), h.old k hk]
  · intro j g hj
    rw [List.getElem?_append] at hj
    split at hj
    · rename_i hlt
      rw [h'.old _ (by omega)]
      exact h.new j g hj
    · rename_i hge
      have := h'.new _ g hj
      rw [hcnt] at this
      rw [← this]
      congr 1; omega
  · intro i hn
    simp only [List.flatten_append, List.mem_append, not_or] at hn
    rw [h'.fc i hn.2, h.fc i hn.1]
  · intro i hn
    simp only [List.flatten_append, List.mem_append, not_or] at hn
    rw [h'.agg i hn.2, h.agg i hn.1]

/-- a cell of a group belongs to the corresponding coarse cell -/
theorem AnisoMade.mem {n : Nat} {c c' : Cont} {gs : List (List Nat)} (h : AnisoMade n c gs c') {j : Nat} {grp : List Nat}
    (hj : gs[j]? = some grp) {i : Nat} (hi : i ∈ grp) : c'.fc2cc[i]? = some (some (c.counter + j)) := by
  rw [← h.cinv.part _ _ (h.new j grp hj) i]
  simpa [CC.new] using hi

theorem AnisoMade.agg_mem {n : Nat} {c c' : Cont} {gs : List (List Nat)} (h : AnisoMade n c gs c') {i : Nat}
    (hi : i ∈ gs.flatten) : c'.agg[i]? = some true := by
  rw [List.mem_flatten] at hi
  obtain ⟨grp, hg, hi⟩ := hi
  obtain ⟨j, hj⟩ := List.mem_iff_getElem?.1 hg
  exact (h.cinv.agg i).2 ⟨_, h.mem hj hi⟩

theorem forall₂_right {α β : Type} {P : α → β → Prop} {l : List α} {r : List β} (h : List.Forall₂ P l r) {y : β}
    (hy : y ∈ r) : ∃ x ∈ l, P x y := by
  induction h with
  | nil => simp at hy
  | cons hp _ ih =>
    rcases List.mem_cons.1 hy with rfl | hy
    · exact ⟨_, by simp, hp⟩
    · obtain ⟨x, hx, hxp⟩ := ih hy
      exact ⟨x, by simp [hx], hxp⟩

theorem forall₂_left {α β : Type} {P : α → β → Prop} {l : List α} {r : List β} (h : List.Forall₂ P l r) {x : α}
    (hx : x ∈ l) : ∃ y ∈ r, P x y := by
  induction h with
  | nil => simp at hx
  | cons hp _ ih =>
    rcases List.mem_cons.1 hx with rfl | hx
    · exact ⟨_, by simp, hp⟩
    · obtain ⟨y, hy, hxp⟩ := ih hx
      exact ⟨y, by simp [hy], hxp⟩

theorem pairSteps_ok {g : Graph W} (hv : ValidCRS g.nbC g.rowPtr g.colInd) {groups : List (List Nat)} {s0 : PairSt}
    (hc : CInv g.nbC s0.cont) (hnd : groups.flatten.Nodup) (hne : ∀ grp ∈ groups, grp ≠ [])
    (hfree : ∀ x ∈ groups.flatten, s0.cont.agg[x]? = some false) :
    Ok (groups.foldlM (fun s grp => pairStep g grp s) s0) (fun s => AnisoMade g.nbC s0.cont groups s.cont ∧
      s.coarse = s0.coarse ++ List.range' s0.cont.counter groups.length ∧
      s.neighs = s0.neighs ++ groups.flatten.flatMap (rowOf g.rowPtr g.colInd)) := by
  refine Ok.foldlM_prefix (I := fun pre (s : PairSt) => AnisoMade g.nbC s0.cont pre s.cont ∧
      s.coarse = s0.coarse ++ List.range' s0.cont.counter pre.length ∧
      s.neighs = s0.neighs ++ pre.flatten.flatMap (rowOf g.rowPtr g.colInd))
    ⟨AnisoMade.refl hc, by simp, by simp⟩ ?_
  rintro pre grp post s hsplit ⟨h1, h2, h3⟩
  have hmemg : ∀ x ∈ grp, x ∈ groups.flatten := by
    intro x hx
    rw [hsplit]; simp [hx]
  have hgfree : ∀ x ∈ grp, s.cont.agg[x]? = some false := by
    intro x hx
    rw [h1.agg x, hfree x (hmemg x hx)]
    intro hp
    rw [hsplit] at hnd
    simp only [List.flatten_append, List.flatten_cons] at hnd
    have := (List.nodup_append.1 hnd).2.2 x hp x (by simp [hx])
    exact this rfl
  have hlt : ∀ x ∈ grp, x < g.nbC := by
    intro x hx
    have := hgfree x hx
    rw [← h1.cinv.lenA]
    exact (List.getElem?_eq_some_iff.1 this).1
  unfold pairStep
  refine Ok.bind (Ok.mapM (P := fun x (row : List Nat) => row = rowOf g.rowPtr g.colInd x) ?_) ?_
  · intro x hx
    rw [neighs_eq hv (hlt x hx), rowOf_eq hv (hlt x hx)]
    rfl
  · intro rows hrows
    have hrows' : rows = grp.map (rowOf g.rowPtr g.colInd) := by
      clear hmemg hgfree hlt hsplit
      induction hrows with
      | nil => rfl
      | cons he _ ih => rw [he, ih]; rfl
    have hgrpne : grp ≠ [] := hne grp (by rw [hsplit]; simp)
    refine Ok.bind (create_spec h1.cinv ?_ ?_ 1 true) ?_
    · rw [NSet.card_pos_iff]
      obtain ⟨x, hx⟩ := List.exists_mem_of_ne_nil grp hgrpne
      exact ⟨x, by simpa using hx⟩
    · intro x hx
      exact hgfree x (by simpa using hx)
    · rintro ⟨k, c'⟩ ⟨hk, hci, hcr⟩
      simp only at hk hci hcr
      refine ⟨h1.step hci hcr, ?_, ?_⟩
      · simp only
        rw [h2, List.append_assoc, List.length_append, List.length_singleton, List.range'_concat, hk, h1.counter]
        simp
      · simp only
        rw [h3, hrows', List.append_assoc]
        simp [List.flatMap_def]

/-- the cells of a line in the order in which they are agglomerated, cut into groups -/
def CutLine (g : Graph W) (prio : List W) (L : LineCfg) (line : List Nat) (groups : List (List Nat)) : Prop :=
  ∃ fwd, isForward g prio line = .ok fwd ∧ Cut L (if fwd then line else line.reverse) 0 groups

theorem CutLine.mem {g : Graph W} {prio : List W} {L : LineCfg} {line : List Nat} {groups : List (List Nat)}
    (h : CutLine g prio L line groups) {x : Nat} (hx : x ∈ groups.flatten) : x ∈ line := by
  obtain ⟨fwd, _, hc⟩ := h
  have := hc.flat.subset hx
  rw [List.drop_zero] at this
  split at this
  · exact this
  · simpa using this

theorem CutLine.nodup {g : Graph W} {prio : List W} {L : LineCfg} {line : List Nat} {groups : List (List Nat)}
    (h : CutLine g prio L line groups) (hnd : line.Nodup) : groups.flatten.Nodup := by
  obtain ⟨fwd, _, hc⟩ := h
  refine hc.flat.sublist.nodup ?_
  rw [List.drop_zero]
  split
  · exact hnd
  · exact List.nodup_reverse.2 hnd

theorem isForward_ok {g : Graph W} {prio : List W} (hb : g.nBnd.length = g.nbC) (hp : prio.length = g.nbC)
    {line : List Nat} (hne : 0 < line.length) (hlt : ∀ x ∈ line, x < g.nbC) :
    ∃ fwd, isForward g prio line = .ok fwd := by
  unfold isForward
  have h1 := hlt line[0] (List.getElem_mem _)
  have h2 := hlt (line[line.length - 1]'(by omega)) (List.getElem_mem _)
  rw [rd_of_lt hne, ok_bind, rd_of_lt (i := line.length - 1) (by omega), ok_bind, rd_of_lt (by omega), ok_bind,
    rd_of_lt (by omega), ok_bind, rd_of_lt (by omega), ok_bind, rd_of_lt (by omega), ok_bind]
  exact ⟨_, rfl⟩

/-- coarse cells `ks` are those of the groups, in order -/
def Listed (c : Cont) (groups : List (List Nat)) (ks : List Nat) : Prop :=
  List.Forall₂ (fun grp k => c.ccs.find? k = some (CC.new (NSet.ofList grp) 1 false)) groups ks

theorem listed_range' {c : Cont} : ∀ (groups : List (List Nat)) (b : Nat),
    (∀ j grp, groups[j]? = some grp → c.ccs.find? (b + j) = some (CC.new (NSet.ofList grp) 1 false)) →
    Listed c groups (List.range' b groups.length)
  | [], _, _ => by simp [Listed]
  | grp :: r, b, h => by
    unfold Listed
    rw [List.length_cons, List.range'_succ]
    refine .cons (h 0 grp rfl) (listed_range' r (b + 1) ?_)
    intro j g hj
    have := h (j + 1) g (by simpa using hj)
    rw [← this]; congr 1; omega

/-- state of the loop over the lines -/
structure LinesInv (g : Graph W) (prio : List W) (L : LineCfg) (c0 : Cont) (pre : List (List Nat))
    (s : Cont × List Nat × List (List Nat)) (gss : List (List (List Nat))) : Prop where
  cut : List.Forall₂ (CutLine g prio L) pre gss
  made : AnisoMade g.nbC c0 gss.flatten s.1
  neigh : s.2.1 = gss.flatten.flatten.flatMap (rowOf g.rowPtr g.colInd)
  listed : List.Forall₂ (Listed s.1) gss s.2.2
  all : s.2.2.flatten = List.range' c0.counter gss.flatten.length

theorem LinesInv.mem {g : Graph W} {prio : List W} {L : LineCfg} {c0 : Cont} {pre : List (List Nat)}
    {s : Cont × List Nat × List (List Nat)} {gss : List (List (List Nat))} (h : LinesInv g prio L c0 pre s gss)
    {x : Nat} (hx : x ∈ gss.flatten.flatten) : x ∈ pre.flatten := by
  rw [List.mem_flatten] at hx
  obtain ⟨grp, hg, hx⟩ := hx
  rw [List.mem_flatten] at hg
  obtain ⟨gs, hgs, hg⟩ := hg
  obtain ⟨line, hl, hcut⟩ := forall₂_right h.cut hgs
  exact List.mem_flatten.2 ⟨line, hl, hcut.mem (List.mem_flatten.2 ⟨grp, hg, hx⟩)⟩

theorem agglomLine_ok {g : Graph W} (hv : ValidCRS g.nbC g.rowPtr g.colInd) {prio : List W}
    (hb : g.nBnd.length = g.nbC) (hp : prio.length = g.nbC) {L : LineCfg} {c0 : Cont} {pre : List (List Nat)}
    {s : Cont × List Nat × List (List Nat)} {gss : List (List (List Nat))} (h : LinesInv g prio L c0 pre s gss)
    {line : List Nat} (hlen : 2 ≤ line.length) (hno : NoOverrun L line.length) (hnd : line.Nodup)
    (hfree : ∀ x ∈ line, c0.agg[x]? = some false) (hdis : ∀ x ∈ line, x ∉ pre.flatten) :
    Ok (agglomLine g prio L s line) (fun s' => ∃ gss', LinesInv g prio L c0 (pre ++ [line]) s' gss') := by
  unfold agglomLine
  rw [if_neg (by omega)]
  have hfree1 : ∀ x ∈ line, s.1.agg[x]? = some false := by
    intro x hx
    rw [h.made.agg x (fun hc => hdis x hx (h.mem hc)), hfree x hx]
  have hlt : ∀ x ∈ line, x < g.nbC := by
    intro x hx
    rw [← h.made.cinv.lenA]
    exact (List.getElem?_eq_some_iff.1 (hfree1 x hx)).1
  obtain ⟨fwd, hfwd⟩ := isForward_ok hb hp (by omega) hlt
  rw [hfwd, ok_bind]
  have hdl : (if fwd then line else line.reverse).length = line.length := by split <;> simp
  obtain ⟨groups, hcut, hrun⟩ := pairLoop_cut g (L := L) (line := if fwd then line else line.reverse)
    (by rw [hdl]; exact hno) (line.length + 1) 0 rfl (by omega) (by omega)
  rw [hrun _ rfl]
  have hcl : CutLine g prio L line groups := ⟨fwd, hfwd, hcut⟩
  refine Ok.bind (pairSteps_ok hv (s0 := ⟨s.1, s.2.1, [], 0⟩) h.made.cinv (hcl.nodup hnd) ?_ ?_) ?_
  · intro grp hg
    rcases hcut.size grp hg with h2 | h2
    · intro he; subst he; simp at h2
    · intro he; subst he; simp at h2
  · intro x hx; exact hfree1 x (hcl.mem hx)
  · rintro r ⟨hmade, hcoarse, hl⟩
    simp only [List.nil_append] at hmade hcoarse hl
    refine ⟨gss ++ [groups], ?_, ?_, ?_, ?_, ?_⟩
    · exact List.rel_append h.cut (.cons hcl .nil)
    · simp only
      rw [List.flatten_append]
      simpa using h.made.trans hmade
    · simp only
      rw [hl, h.neigh]
      simp
    · refine List.rel_append ?_ (.cons ?_ .nil)
      · refine h.listed.imp ?_
        intro gs ks hgk
        refine List.Forall₂.imp ?_ hgk
        intro grp k hk
        simp only
        rw [hmade.old k ?_, hk]
        have := (h.made.cinv.keys k).1 (NMap.mem_keys.2 ⟨_, hk⟩)
        exact this
      · rw [hcoarse]
        exact listed_range' _ _ (fun j grp hj => hmade.new j grp hj)
    · simp only [List.flatten_append, List.flatten_cons, List.flatten_nil, List.append_nil]
      rw [h.all, hcoarse, h.made.counter, List.length_append]
      simp

theorem linesLoop_ok {g : Graph W} (hv : ValidCRS g.nbC g.rowPtr g.colInd) {prio : List W}
    (hb : g.nBnd.length = g.nbC) (hp : prio.length = g.nbC) {L : LineCfg} {c0 : Cont} (hc0 : CInv g.nbC c0)
    {lines : List (List Nat)} (hlen : ∀ l ∈ lines, 2 ≤ l.length) (hno : ∀ l ∈ lines, NoOverrun L l.length)
    (hnd : lines.flatten.Nodup) (hfree : ∀ x ∈ lines.flatten, c0.agg[x]? = some false) :
    Ok (lines.foldlM (agglomLine g prio L) (c0, [], [])) (fun s => ∃ gss, LinesInv g prio L c0 lines s gss) := by
  refine Ok.foldlM_prefix (I := fun pre s => ∃ gss, LinesInv g prio L c0 pre s gss)
    ⟨[], .nil, AnisoMade.refl hc0, by simp, .nil, by simp⟩ ?_
  rintro pre line post s hsplit ⟨gss, h⟩
  have hmem : line ∈ lines := by rw [hsplit]; simp
  have hnd' := hnd
  rw [hsplit] at hnd'
  simp only [List.flatten_append, List.flatten_cons] at hnd'
  refine agglomLine_ok hv hb hp h (hlen line hmem) (hno line hmem) ?_ ?_ ?_
  · exact (List.nodup_append.1 (List.nodup_append.1 hnd').2.1).1
  · intro x hx; exact hfree x (List.mem_flatten.2 ⟨line, hmem, hx⟩)
  · intro x hx hpre
    exact (List.nodup_append.1 hnd').2.2 x hpre x (by simp [hx]) rfl

end CoMMA
