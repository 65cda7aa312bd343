import Verif.Spec.Neighbourhood
import Verif.Lemmas.Graph
import Verif.Lemmas.Pairs
/-! # First-order neighbourhoods: invariants -/

set_option linter.unusedSectionVars false

namespace CoMMA

variable {W : Type} [Num W]

/-- weight of a cell -/
def wOf (weights : List W) (i : Nat) : W := (weights[i]?).getD Num.lmin

theorem pickRow_eq {weights : List W} (p : Nat → Bool) {row : List Nat} (h : ∀ x ∈ row, x < weights.length) :
    pickRow weights p row = .ok (psetOf (wOf weights) (row.filter p)) := by
  have key : ∀ (l : List Nat) (s : List (Nat × W)), (∀ x ∈ l, x < weights.length) →
      l.foldlM (fun s x =>
        if p x then do
          let w ← rd weights x
          pure (pinsert (x, w) s)
        else pure s) s
      = (.ok ((l.filter p).foldl (fun s i => pinsert (i, wOf weights i) s) s) : M _) := by
    intro l
    induction l with
    | nil => intro s _; rfl
    | cons x l ih =>
      intro s hl
      have hx := hl x (by simp)
      rw [List.foldlM_cons]
      by_cases hp : p x = true
      · rw [if_pos hp, List.filter_cons_of_pos hp]
        have : rd weights x = .ok (wOf weights x) := by
          rw [rd_ok, wOf]; simp [hx]
        rw [this]
        exact ih _ (fun y hy => hl y (by simp [hy]))
      · rw [if_neg hp, List.filter_cons_of_neg hp]
        exact ih _ (fun y hy => hl y (by simp [hy]))
  exact key row [] h

theorem pinsert_perm {x : Nat × W} {s : List (Nat × W)} (h : x.1 ∉ firsts s) : (pinsert x s).Perm (x :: s) := by
  induction s with
  | nil => simp [pinsert]
  | cons e s ih =>
    simp only [firsts, List.map_cons, List.mem_cons, not_or] at h
    unfold pinsert
    split
    · exact ((ih h.2).cons e).trans (List.Perm.swap _ _ _)
    · split
      · exact List.Perm.refl _
      · rename_i h1 h2
        exact absurd (greaterPair_equiv h1 h2).symm h.1

/-- no repetition in a set built from distinct indices, or with ordered weights -/
theorem firsts_nodup {w : Nat → W} {l : List Nat} (h : l.Nodup ∨ LawfulLt W) : (firsts (psetOf w l)).Nodup := by
  rcases h with h | h
  · induction l using List.reverseRecOn with
    | nil => simp [psetOf, firsts]
    | append_singleton l i ih =>
      rw [List.nodup_append] at h
      rw [psetOf_append]
      have hni : i ∉ firsts (psetOf w l) := by
        rw [mem_firsts_psetOf]
        exact fun hi => h.2.2 i hi i (by simp) rfl
      have hp := (pinsert_perm (x := (i, w i)) hni).map (·.1)
      refine hp.nodup_iff.2 ?_
      rw [List.map_cons, List.nodup_cons]
      exact ⟨hni, ih h.1⟩
  · exact firsts_psetOf_nodup h

theorem UniqueRows.nodup {n : Nat} {rowPtr colInd : List Nat} (h : ValidCRS n rowPtr colInd)
    (hu : UniqueRows rowPtr colInd) {i : Nat} (hi : i < n) : (rowL rowPtr colInd i).Nodup := by
  obtain ⟨b, e, hb, he, hbe, hec, h5⟩ := h.row hi colInd rfl
  unfold rowL; rw [h5]
  simp only
  rw [List.nodup_iff_injective_getElem]
  intro ⟨k, hk⟩ ⟨l, hl⟩ hkl
  simp only [List.length_take, List.length_drop] at hk hl
  simp only [List.getElem_take, List.getElem_drop] at hkl
  have := hu i b e hb he (b + k) (b + l) (colInd[b + k]) (by omega) (by omega) (by omega) (by omega)
    (by simp) (by rw [hkl]; simp)
  simp only [Fin.mk.injEq]
  omega

/-- invariant of both neighbourhoods after adding the cells `added` -/
structure NInv (rowPtr colInd : List Nat) (weights : List W) (knd : NbhKind) (dm : Nat) (al : NSet) (added : List Nat) (nb : Nbh W) : Prop where
  kind : nb.kind = knd
  dim : nb.dim = dm
  allowed : nb.allowed = al
  sFc : ∀ x, x ∈ nb.sFc ↔ x ∈ added
  sub : ∀ x ∈ nb.cands, InFront rowPtr colInd al added x
  ne : (∃ x, InFront rowPtr colInd al added x) → nb.cands ≠ []
  ext : knd = .extended → nb.cands.Nodup ∧ ∀ x, InFront rowPtr colInd al added x → x ∈ nb.cands
  pf : knd = .pureFront → List.Forall₂ (fun y q => (firsts q).Nodup ∧
    (∀ x, x ∈ firsts q ↔ Adj rowPtr colInd y x ∧ x ∈ al ∧ x ∉ added) ∧ ∀ p ∈ q, p.2 = wOf weights p.1) added.reverse nb.queues
  early : knd = .pureFront → added.length ≤ dm → ∀ x, InFront rowPtr colInd al added x → x ∈ nb.cands
  distinct : LawfulLt W → nb.cands.Nodup

theorem NInv_new (rowPtr colInd : List Nat) (weights : List W) (kind : NbhKind) (dim : Nat) (allowed : NSet) :
    NInv rowPtr colInd weights kind dim allowed [] (Nbh.new kind dim allowed : Nbh W) := by
  refine ⟨rfl, rfl, rfl, by simp [Nbh.new], by simp [Nbh.new], ?_, ?_, ?_, ?_, by simp [Nbh.new]⟩
  · rintro ⟨x, _, _, y, hy, _⟩; cases hy
  · intro _; refine ⟨by simp [Nbh.new], ?_⟩
    rintro x ⟨_, _, y, hy, _⟩; cases hy
  · intro _; exact .nil
  · rintro _ _ x ⟨_, _, y, hy, _⟩; cases hy

theorem pfSearch_spec (qs : List (List (Nat × W))) (fuel front back : Nat) (hL : 2 ≤ qs.length)
    (hsum : front + back + 1 = qs.length) (hf : back + 1 ≤ fuel + front) :
    Ok (pfSearch qs fuel front back) (fun q => (q = [] ∨ q ∈ qs) ∧
      (q = [] → ∀ i r, front ≤ i → i ≤ back → qs[i]? = some r → r = [])) := by
  induction fuel generalizing front back with
  | zero =>
    unfold pfSearch
    rw [if_neg (by omega)]
    refine ⟨Or.inl rfl, fun _ i r h1 h2 => by omega⟩
  | succ fuel ih =>
    unfold pfSearch
    by_cases hfb : front ≤ back
    · rw [if_pos hfb]
      simp only
      have h1 : front < qs.length := by omega
      have h2 : back < qs.length := by omega
      rw [rd_of_lt h1]
      simp only [ok_bind]
      by_cases hq : (!(qs[front]).isEmpty) = true
      · rw [if_pos hq]
        simp only [Ok_pure]
        refine ⟨Or.inr (List.getElem_mem h1), fun h0 => ?_⟩
        rw [h0] at hq; simp at hq
      · rw [if_neg hq, rd_of_lt h2]
        simp only [ok_bind]
        by_cases hq' : (!(qs[back]).isEmpty) = true
        · rw [if_pos hq']
          simp only [Ok_pure]
          refine ⟨Or.inr (List.getElem_mem h2), fun h0 => ?_⟩
          rw [h0] at hq'; simp at hq'
        · rw [if_neg hq', if_neg (by omega)]
          refine (ih (front + 1) (back - 1) (by omega) (by omega)).mono (fun q ⟨h3, h4⟩ => ⟨h3, ?_⟩)
          intro h0 i r hi1 hi2 hir
          by_cases hi : i = front
          · subst hi
            have : r = qs[i] := by simpa [h1] using hir.symm
            rw [this]; simpa using hq
          · by_cases hi' : i = back
            · subst hi'
              have : r = qs[i] := by simpa [h2] using hir.symm
              rw [this]; simpa using hq'
            · exact h4 h0 i r (by omega) (by omega) hir
    · rw [if_neg hfb]
      refine ⟨Or.inl rfl, fun _ i r h1 h2 => by omega⟩

theorem mem_firsts_fold_pinsert {l s : List (Nat × W)} {a : Nat} :
    a ∈ firsts (l.foldl (fun s p => pinsert p s) s) ↔ a ∈ firsts l ∨ a ∈ firsts s := by
  induction l generalizing s with
  | nil => simp [firsts]
  | cons p l ih =>
    rw [List.foldl_cons, ih, mem_firsts_pinsert]
    simp only [firsts, List.map_cons, List.mem_cons]; tauto

theorem mem_firsts_fold_fold {old : List (List (Nat × W))} {s : List (Nat × W)} {a : Nat} :
    a ∈ firsts (old.foldl (fun s q => q.foldl (fun s p => pinsert p s) s) s) ↔
      (∃ q ∈ old, a ∈ firsts q) ∨ a ∈ firsts s := by
  induction old generalizing s with
  | nil => simp
  | cons q old ih =>
    rw [List.foldl_cons, ih, mem_firsts_fold_pinsert]
    simp only [List.mem_cons, exists_eq_or_imp]
    constructor
    · rintro (h | h | h)
      exacts [Or.inl (Or.inr h), Or.inl (Or.inl h), Or.inr h]
    · rintro ((h | h) | h)
      exacts [Or.inr (Or.inl h), Or.inl h, Or.inr (Or.inr h)]

theorem mem_firsts_eraseP {q : List (Nat × W)} (hq : (firsts q).Nodup) {a b : Nat} :
    b ∈ firsts (q.eraseP (fun p => p.1 == a)) ↔ b ∈ firsts q ∧ b ≠ a := by
  induction q with
  | nil => simp [firsts]
  | cons p q ih =>
    simp only [firsts, List.map_cons, List.nodup_cons] at hq
    by_cases hp : (p.1 == a) = true
    · rw [List.eraseP_cons_of_pos (p := fun p : Nat × W => p.1 == a) hp]
      simp only [firsts, List.map_cons, List.mem_cons]
      have hpa : p.1 = a := by simpa using hp
      constructor
      · intro hb
        refine ⟨Or.inr hb, ?_⟩
        rintro rfl
        rw [hpa] at hq; exact hq.1 hb
      · rintro ⟨h1 | h1, h2⟩
        · exact absurd (h1.trans hpa) h2
        · exact h1
    · rw [List.eraseP_cons_of_neg (p := fun p : Nat × W => p.1 == a) hp]
      have := ih hq.2
      simp only [firsts, List.map_cons, List.mem_cons] at this ⊢
      rw [this]
      have hpa : p.1 ≠ a := by simpa using hp
      constructor
      · rintro (h1 | h1)
        · exact ⟨Or.inl h1, by rw [h1]; exact hpa⟩
        · exact ⟨Or.inr h1.1, h1.2⟩
      · rintro ⟨h1 | h1, h2⟩
        · exact Or.inl h1
        · exact Or.inr ⟨h1, h2⟩

theorem nodup_firsts_eraseP {q : List (Nat × W)} (hq : (firsts q).Nodup) (p : Nat × W → Bool) :
    (firsts (q.eraseP p)).Nodup := hq.sublist (List.Sublist.map _ List.eraseP_sublist)

/-- pairs carry the weight of their cell -/
theorem fold_pinsert_lawful (hW : LawfulLt W) {w : Nat → W} {l s : List (Nat × W)}
    (hl : ∀ p ∈ l, p.2 = w p.1) (hs : s.Pairwise (fun a b => greaterPair a b = true)) (hs' : ∀ p ∈ s, p.2 = w p.1) :
    (l.foldl (fun s p => pinsert p s) s).Pairwise (fun a b => greaterPair a b = true) ∧
    ∀ p ∈ l.foldl (fun s p => pinsert p s) s, p.2 = w p.1 := by
  induction l generalizing s with
  | nil => exact ⟨hs, hs'⟩
  | cons p l ih =>
    rw [List.foldl_cons]
    refine ih (fun q hq => hl q (by simp [hq])) (pinsert_sorted hW hs) ?_
    intro q hq
    rcases mem_pinsert_sub hq with rfl | hq
    · exact hl _ (by simp)
    · exact hs' q hq

theorem nodup_of_sorted (hW : LawfulLt W) {w : Nat → W} {s : List (Nat × W)}
    (hs : s.Pairwise (fun a b => greaterPair a b = true)) (hw : ∀ p ∈ s, p.2 = w p.1) : (firsts s).Nodup := by
  unfold firsts
  rw [List.Nodup, List.pairwise_map]
  refine hs.imp_of_mem ?_
  intro a b ha hb hab he
  have : a = b := by
    ext
    · exact he
    · rw [hw a ha, hw b hb, he]
  rw [this, greaterPair_irrefl hW] at hab
  exact absurd hab (by simp)

theorem fold_fold_lawful (hW : LawfulLt W) {w : Nat → W} {old : List (List (Nat × W))} {s : List (Nat × W)}
    (hl : ∀ q ∈ old, ∀ p ∈ q, p.2 = w p.1) (hs : s.Pairwise (fun a b => greaterPair a b = true))
    (hs' : ∀ p ∈ s, p.2 = w p.1) :
    (old.foldl (fun s q => q.foldl (fun s p => pinsert p s) s) s).Pairwise (fun a b => greaterPair a b = true) ∧
    ∀ p ∈ old.foldl (fun s q => q.foldl (fun s p => pinsert p s) s) s, p.2 = w p.1 := by
  induction old generalizing s with
  | nil => exact ⟨hs, hs'⟩
  | cons q old ih =>
    rw [List.foldl_cons]
    obtain ⟨h1, h2⟩ := fold_pinsert_lawful hW (hl q (by simp)) hs hs'
    exact ih (fun q' hq' => hl q' (by simp [hq'])) h1 h2

theorem Forall₂.mem_right {α β : Type} {R : α → β → Prop} {l : List α} {r : List β} (h : List.Forall₂ R l r) {b : β}
    (hb : b ∈ r) : ∃ a ∈ l, R a b := by
  induction h with
  | nil => cases hb
  | cons h1 _ ih =>
    rcases List.mem_cons.1 hb with rfl | hb
    · exact ⟨_, by simp, h1⟩
    · obtain ⟨a, ha, hr⟩ := ih hb
      exact ⟨a, by simp [ha], hr⟩

theorem Forall₂.mem_left {α β : Type} {R : α → β → Prop} {l : List α} {r : List β} (h : List.Forall₂ R l r) {a : α}
    (ha : a ∈ l) : ∃ b ∈ r, R a b := by
  induction h with
  | nil => cases ha
  | cons h1 _ ih =>
    rcases List.mem_cons.1 ha with rfl | ha
    · exact ⟨_, by simp, h1⟩
    · obtain ⟨b, hb, hr⟩ := ih ha
      exact ⟨b, by simp [hb], hr⟩

theorem Forall₂.map_right {α β γ : Type} {R : α → β → Prop} {S : α → γ → Prop} {f : β → γ} {l : List α} {r : List β}
    (h : List.Forall₂ R l r) (hf : ∀ a b, R a b → S a (f b)) : List.Forall₂ S l (r.map f) := by
  induction h with
  | nil => exact .nil
  | cons h1 _ ih => exact .cons (hf _ _ h1) ih

/-- `update_it` keeps the invariant -/
theorem NInv.update {n : Nat} {rowPtr colInd : List Nat} {weights : List W} {knd : NbhKind} {dm : Nat} {al : NSet}
    {added : List Nat} {nb : Nbh W} (h : NInv rowPtr colInd weights knd dm al added nb)
    (hg : ValidCRS n rowPtr colInd) (hw : weights.length = n) (hu : UniqueRows rowPtr colInd ∨ LawfulLt W)
    (hd : 1 ≤ dm) {x : Nat} (hx : x < n) :
    Ok (nb.update weights x (rowL rowPtr colInd x)) (NInv rowPtr colInd weights knd dm al (added ++ [x])) := by
  have hrow : ∀ y ∈ rowL rowPtr colInd x, y < weights.length := fun y hy => by rw [hw]; exact hg.rowL_lt hx hy
  have hadj : ∀ y, y ∈ rowL rowPtr colInd x ↔ Adj rowPtr colInd x y := fun y => hg.mem_rowL hx
  have hnd : ∀ p : Nat → Bool, (firsts (psetOf (wOf weights) ((rowL rowPtr colInd x).filter p))).Nodup := by
    intro p
    refine firsts_nodup ?_
    rcases hu with hu | hu
    · exact Or.inl ((hu.nodup hg hx).filter p)
    · exact Or.inr hu
  have hsFc : ∀ y, y ∈ nb.sFc.insert x ↔ y ∈ added ++ [x] := by
    intro y; rw [NSet.mem_insert, h.sFc]; simp; tauto
  have hhas : ∀ y, (nb.sFc.insert x).has y = true ↔ y ∈ added ++ [x] := by
    intro y; rw [NSet.has_iff, hsFc]
  have hall : ∀ y, nb.allowed.has y = true ↔ y ∈ al := by
    intro y; rw [NSet.has_iff, h.allowed]
  unfold Nbh.update
  cases hk : nb.kind with
  | extended =>
    have hke : knd = .extended := by rw [← h.kind, hk]
    simp only
    unfold Nbh.updateExt
    simp only
    rw [pickRow_eq _ hrow]
    simp only [ok_bind, Ok_pure]
    set P : Nat → Bool := fun y => !(nb.cands.erase x).contains y && !(nb.sFc.insert x).has y && nb.allowed.has y with hP
    have hPt : ∀ y, P y = true ↔ y ∉ nb.cands.erase x ∧ y ∉ added ++ [x] ∧ y ∈ al := by
      intro y
      rw [hP]
      simp only [Bool.and_eq_true, Bool.not_eq_true', hall]
      rw [← Bool.not_eq_true, ← Bool.not_eq_true, hhas]
      simp only [List.contains_iff_mem]; tauto
    obtain ⟨hcn, hcf⟩ := h.ext hke
    have hmem : ∀ y, y ∈ nb.cands.erase x ++ firsts (psetOf (wOf weights) ((rowL rowPtr colInd x).filter P)) ↔
        InFront rowPtr colInd al (added ++ [x]) y := by
      intro y
      rw [List.mem_append, mem_firsts_psetOf, List.mem_filter, hadj, hPt, hcn.mem_erase_iff]
      constructor
      · rintro (⟨h1, h2⟩ | ⟨h1, _, h2, h3⟩)
        · obtain ⟨h3, h4, z, hz, hzy⟩ := h.sub y h2
          exact ⟨h3, by simp [h4, h1], z, by simp [hz], hzy⟩
        · exact ⟨h3, h2, x, by simp, h1⟩
      · rintro ⟨h1, h2, z, hz, hzy⟩
        have h2' : y ∉ added ∧ y ≠ x := by simpa using h2
        by_cases hc : y ∈ nb.cands
        · exact Or.inl ⟨h2'.2, hc⟩
        · refine Or.inr ⟨?_, fun hh => hc hh.2, h2, h1⟩
          rcases List.mem_append.1 hz with hz | hz
          · exact absurd (hcf y ⟨h1, h2'.1, z, hz, hzy⟩) hc
          · rw [List.mem_singleton] at hz; exact hz ▸ hzy
    have hnod : (nb.cands.erase x ++ firsts (psetOf (wOf weights) ((rowL rowPtr colInd x).filter P))).Nodup := by
      rw [List.nodup_append]
      refine ⟨hcn.erase x, hnd P, ?_⟩
      rintro a ha b hb rfl
      rw [mem_firsts_psetOf, List.mem_filter, hPt] at hb
      exact hb.2.1 ha
    refine ⟨hk.trans hke.symm, h.dim, h.allowed, hsFc, fun y hy => (hmem y).1 hy, ?_, ?_, ?_, ?_, fun _ => hnod⟩
    · rintro ⟨y, hy⟩
      exact List.ne_nil_of_mem ((hmem y).2 hy)
    · exact fun _ => ⟨hnod, fun y hy => (hmem y).2 hy⟩
    · intro hc; rw [hke] at hc; cases hc
    · intro hc; rw [hke] at hc; cases hc
  | pureFront =>
    have hke : knd = .pureFront := by rw [← h.kind, hk]
    simp only
    unfold Nbh.updatePF
    simp only
    rw [pickRow_eq _ hrow]
    simp only [ok_bind]
    set P : Nat → Bool := fun y => !(nb.sFc.insert x).has y && nb.allowed.has y with hP
    have hPt : ∀ y, P y = true ↔ y ∉ added ++ [x] ∧ y ∈ al := by
      intro y
      rw [hP]
      simp only [Bool.and_eq_true, Bool.not_eq_true', hall]
      rw [← Bool.not_eq_true, hhas]
    set cur := psetOf (wOf weights) ((rowL rowPtr colInd x).filter P) with hcur
    have hcm : ∀ y, y ∈ firsts cur ↔ Adj rowPtr colInd x y ∧ y ∈ al ∧ y ∉ added ++ [x] := by
      intro y
      rw [hcur, mem_firsts_psetOf, List.mem_filter, hadj, hPt]; tauto
    set old := nb.queues.map (fun q => q.eraseP (fun p => p.1 == x)) with hold
    have hq : List.Forall₂ (fun y q => (firsts q).Nodup ∧
        (∀ z, z ∈ firsts q ↔ Adj rowPtr colInd y z ∧ z ∈ al ∧ z ∉ added ++ [x]) ∧ ∀ p ∈ q, p.2 = wOf weights p.1)
        (added ++ [x]).reverse (cur :: old) := by
      rw [List.reverse_append, List.reverse_singleton, List.singleton_append]
      refine .cons ⟨hnd P, hcm, fun p hp => mem_psetOf_eq hp⟩ ?_
      refine Forall₂.map_right (h.pf hke) ?_
      rintro y q ⟨h1, h2, h3⟩
      refine ⟨nodup_firsts_eraseP h1 _, ?_, fun p hp => h3 p (List.eraseP_sublist.subset hp)⟩
      intro z
      rw [mem_firsts_eraseP h1, h2]
      simp; tauto
    have hmemq : ∀ q ∈ cur :: old, ∀ z ∈ firsts q, InFront rowPtr colInd al (added ++ [x]) z := by
      intro q hqm z hz
      obtain ⟨y, hy, _, h2, _⟩ := Forall₂.mem_right hq hqm
      rw [h2] at hz
      exact ⟨hz.2.1, hz.2.2, y, by simpa [or_comm] using hy, hz.1⟩
    have hfront : ∀ z, InFront rowPtr colInd al (added ++ [x]) z → ∃ q ∈ cur :: old, z ∈ firsts q := by
      rintro z ⟨h1, h2, y, hy, hyz⟩
      obtain ⟨q, hqm, _, h3, _⟩ := Forall₂.mem_left hq (List.mem_reverse.2 hy)
      exact ⟨q, hqm, (h3 z).2 ⟨hyz, h1, h2⟩⟩
    have hlen : (cur :: old).length = (added ++ [x]).length := by
      rw [← hq.length_eq, List.length_reverse]
    by_cases hsz : (cur :: old).length ≤ nb.dim
    · rw [if_pos hsz, Ok_pure]
      set all := old.foldl (fun s q => q.foldl (fun s p => pinsert p s) s) cur with hall'
      have ham : ∀ z, z ∈ firsts all ↔ ∃ q ∈ cur :: old, z ∈ firsts q := by
        intro z
        rw [hall', mem_firsts_fold_fold]
        simp only [List.mem_cons, exists_eq_or_imp]
        exact or_comm
      refine ⟨hk.trans hke.symm, h.dim, h.allowed, hsFc, ?_, ?_, ?_, fun _ => hq, ?_, ?_⟩
      · intro z hz
        obtain ⟨q, hqm, hzq⟩ := (ham z).1 hz
        exact hmemq q hqm z hzq
      · rintro ⟨z, hz⟩
        exact List.ne_nil_of_mem ((ham z).2 (hfront z hz))
      · intro hc; rw [hke] at hc; cases hc
      · intro _ _ z hz
        exact (ham z).2 (hfront z hz)
      · intro hW
        have := fold_fold_lawful hW (w := wOf weights) (old := old) (s := cur) (fun q hqm => by
          obtain ⟨y, _, _, _, h3⟩ := Forall₂.mem_right hq (List.mem_cons_of_mem _ hqm)
          exact h3) (psetOf_sorted hW) (fun p hp => mem_psetOf_eq hp)
        exact nodup_of_sorted hW this.1 this.2
    · rw [if_neg hsz]
      have hd' : 1 ≤ nb.dim := by rw [h.dim]; exact hd
      refine Ok.bind (pfSearch_spec (cur :: old) (cur :: old).length 0 ((cur :: old).length - 1)
        (by omega) (by omega) (by omega)) ?_
      rintro q ⟨h1, h2⟩
      rw [Ok_pure]
      refine ⟨hk.trans hke.symm, h.dim, h.allowed, hsFc, ?_, ?_, ?_, fun _ => hq, ?_, ?_⟩
      · intro z hz
        rcases h1 with rfl | h1
        · simp [firsts] at hz
        · exact hmemq q h1 z hz
      · rintro ⟨z, hz⟩ h0
        obtain ⟨q', hqm, hzq⟩ := hfront z hz
        have hq0 : q = [] := by simpa [firsts] using h0
        obtain ⟨i, hi, hiq⟩ := List.getElem_of_mem hqm
        have := h2 hq0 i q' (by omega) (by omega) (by rw [List.getElem?_eq_getElem hi, hiq])
        rw [this] at hzq; simp [firsts] at hzq
      · intro hc; rw [hke] at hc; cases hc
      · intro _ hl
        rw [hlen, h.dim] at hsz
        exact absurd hl hsz
      · intro _
        rcases h1 with rfl | h1
        · simp [firsts]
        · obtain ⟨y, _, h3, _⟩ := Forall₂.mem_right hq h1
          exact h3

end CoMMA
