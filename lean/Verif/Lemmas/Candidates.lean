import Verif.Props.Neighbourhood
import Verif.Lemmas.Greedy
import Verif.Lemmas.PoolSteps
import Mathlib.Data.Nat.Find
/-! # Candidates for the growth of a coarse cell, in order -/

set_option linter.unusedSectionVars false

namespace CoMMA

variable {W : Type} [Num W]

theorem ordered_firsts (hW : LawfulLt W) {prio : List W} {s : List (Nat × W)}
    (hs : s.Pairwise (fun a b => greaterPair a b = true)) (hw : ∀ p ∈ s, p.2 = wOf prio p.1)
    (hl : ∀ x ∈ firsts s, x < prio.length) : PriorityOrdered prio (firsts s) := by
  unfold PriorityOrdered firsts
  rw [List.pairwise_map]
  refine hs.imp_of_mem ?_
  intro a b ha hb hab
  have h1 : a.1 < prio.length := hl _ (List.mem_map_of_mem ha)
  have h2 : b.1 < prio.length := hl _ (List.mem_map_of_mem hb)
  rw [greaterPair_iff hW] at hab
  refine ⟨a.2, b.2, ?_, ?_, hab⟩
  · rw [hw a ha, wOf]; simp [h1]
  · rw [hw b hb, wOf]; simp [h2]

/-- the search of a front, as a rank -/
theorem pfSearch_exact (qs : List (List (Nat × W))) (fuel front back : Nat) (hL : 2 ≤ qs.length)
    (hsum : front + back + 1 = qs.length) (hf : back + 1 ≤ fuel + front)
    (he : ∀ (i : Nat) r, qs[i]? = some r → i < front ∨ back < i → r = []) :
    Ok (pfSearch qs fuel front back) (fun q => (q = [] ∧ ∀ r ∈ qs, r = []) ∨
      (q ≠ [] ∧ ∃ k, qs[k]? = some q ∧ ∀ (j : Nat) r, qs[j]? = some r → r ≠ [] →
        frontRank qs.length (qs.length - 1 - k) ≤ frontRank qs.length (qs.length - 1 - j))) := by
  have hrank : ∀ k : Nat, k < qs.length → frontRank qs.length (qs.length - 1 - k) = min (2 * k) (2 * (qs.length - 1 - k) + 1) := by
    intro k hk
    unfold frontRank
    congr 2
    omega
  have hlt : ∀ {j : Nat} {r}, qs[j]? = some r → j < qs.length := fun h => (List.getElem?_eq_some_iff.1 h).1
  have hin : ∀ {j : Nat} {r}, qs[j]? = some r → r ≠ [] → front ≤ j ∧ j ≤ back := by
    intro j r h1 h2
    constructor
    · by_contra hc; exact h2 (he j r h1 (Or.inl (by omega)))
    · by_contra hc; exact h2 (he j r h1 (Or.inr (by omega)))
  induction fuel generalizing front back with
  | zero =>
    unfold pfSearch
    rw [if_neg (by omega)]
    refine Or.inl ⟨rfl, fun r hr => ?_⟩
    obtain ⟨i, hi⟩ := List.getElem?_of_mem hr
    exact he i r hi (by omega)
  | succ fuel ih =>
    unfold pfSearch
    by_cases hfb : front ≤ back
    · rw [if_pos hfb]
      simp only
      have h1 : front < qs.length := by omega
      have h2 : back < qs.length := by omega
      rw [rd_of_lt h1]
      simp only [ok_bind]
      by_cases hq : (!(qs[front]).isEmpty) = true
      · rw [if_pos hq]
        simp only [Ok_pure]
        refine Or.inr ⟨fun h0 => ?_, front, by simp [h1], fun j r hj hr => ?_⟩
        · rw [h0] at hq; simp at hq
        · have := hin hj hr
          have := hlt hj
          rw [hrank _ h1, hrank j (by omega)]
          omega
      · rw [if_neg hq, rd_of_lt h2]
        simp only [ok_bind]
        have hq0 : qs[front] = [] := by simpa using hq
        by_cases hq' : (!(qs[back]).isEmpty) = true
        · rw [if_pos hq']
          simp only [Ok_pure]
          refine Or.inr ⟨fun h0 => ?_, back, by simp [h2], fun j r hj hr => ?_⟩
          · rw [h0] at hq'; simp at hq'
          · have := hin hj hr
            have := hlt hj
            have hne : j ≠ front := by
              rintro rfl
              rw [List.getElem?_eq_getElem h1] at hj
              cases hj
              exact hr hq0
            rw [hrank _ h2, hrank j (by omega)]
            omega
        · rw [if_neg hq', if_neg (by omega)]
          have hq0' : qs[back] = [] := by simpa using hq'
          have he' : ∀ (i : Nat) r, qs[i]? = some r → i < front + 1 ∨ back - 1 < i → r = [] := by
            intro i r hi hh
            by_cases h3 : i = front
            · subst h3
              rw [List.getElem?_eq_getElem h1] at hi
              cases hi; exact hq0
            · by_cases h4 : i = back
              · subst h4
                rw [List.getElem?_eq_getElem h2] at hi
                cases hi; exact hq0'
              · exact he i r hi (by omega)
          refine ih (front + 1) (back - 1) (by omega) (by omega) he' ?_
          intro j r h3 h4
          constructor
          · by_contra hc; exact h4 (he' j r h3 (Or.inl (by omega)))
          · by_contra hc; exact h4 (he' j r h3 (Or.inr (by omega)))
    · rw [if_neg hfb]
      refine Or.inl ⟨rfl, fun r hr => ?_⟩
      obtain ⟨i, hi⟩ := List.getElem?_of_mem hr
      exact he i r hi (by omega)

theorem FirstNextTo.append {rp ci xs : List Nat} {x i : Nat} (h : FirstNextTo rp ci xs x i) (z : Nat) :
    FirstNextTo rp ci (xs ++ [z]) x i ∧ i < xs.length := by
  obtain ⟨⟨y, h1, h2⟩, h3⟩ := h
  have hi := (List.getElem?_eq_some_iff.1 h1).1
  refine ⟨⟨⟨y, by rw [List.getElem?_append_left hi]; exact h1, h2⟩, fun j w hj hw => ?_⟩, hi⟩
  rw [List.getElem?_append_left (by omega)] at hw
  exact h3 j w hj hw

/-- the fronts are kept in order -/
def QueuesSorted (nb : Nbh W) : Prop := ∀ q ∈ nb.queues, q.Pairwise (fun a b => greaterPair a b = true)

theorem candidates_update (hW : LawfulLt W) {g : Graph W} {weights : List W} {knd : NbhKind} {al : NSet}
    {added : List Nat} {nb : Nbh W} (h : NInv g.rowPtr g.colInd weights knd g.dim al added nb)
    (hs : QueuesSorted nb) (hc : Candidates g knd weights al added nb.cands)
    (hg : ValidCRS g.nbC g.rowPtr g.colInd) (hw : weights.length = g.nbC)
    (hd : 1 ≤ g.dim) {x : Nat} (hx : x < g.nbC) :
    Ok (nb.update weights x (rowL g.rowPtr g.colInd x)) (fun nb' =>
      QueuesSorted nb' ∧ Candidates g knd weights al (added ++ [x]) nb'.cands) := by
  have hnew := h.update hg hw (Or.inr hW) hd hx
  obtain ⟨nb', he, hI⟩ := hnew.eq
  rw [he]
  show QueuesSorted nb' ∧ Candidates g knd weights al (added ++ [x]) nb'.cands
  have hrow : ∀ y ∈ rowL g.rowPtr g.colInd x, y < weights.length := fun y hy => by rw [hw]; exact hg.rowL_lt hx hy
  have hadj : ∀ y, y ∈ rowL g.rowPtr g.colInd x ↔ Adj g.rowPtr g.colInd x y := fun y => hg.mem_rowL hx
  have hlt : ∀ {y}, InFront g.rowPtr g.colInd al (added ++ [x]) y → y < weights.length := by
    rintro y ⟨_, _, z, _, hz⟩
    rw [hw]; exact (hg.adj_lt hz).2
  unfold Nbh.update at he
  cases hk : nb.kind with
  | extended =>
    have hke : knd = .extended := by rw [← h.kind, hk]
    subst hke
    rw [hk] at he
    simp only at he
    unfold Nbh.updateExt at he
    simp only at he
    rw [pickRow_eq _ hrow] at he
    simp only [ok_bind] at he
    cases he
    refine ⟨hs, fun y => ⟨hI.sub y, (hI.ext rfl).2 y⟩, ?_⟩
    obtain ⟨hc1, hc2⟩ := hc
    show (nb.cands.erase x ++ _).Pairwise _
    rw [List.pairwise_append]
    have hold : ∀ a ∈ nb.cands, ∃ i, FirstNextTo g.rowPtr g.colInd (added ++ [x]) a i ∧ i < added.length := by
      intro a ha
      obtain ⟨_, _, y, hy, hya⟩ := (hc1 a).1 ha
      have hex : ∃ i : Nat, ∃ y, added[i]? = some y ∧ Adj g.rowPtr g.colInd y a := by
        obtain ⟨i, hi⟩ := List.getElem?_of_mem hy
        exact ⟨i, y, hi, hya⟩
      classical
      have hm := Nat.find_spec hex
      have : FirstNextTo g.rowPtr g.colInd added a (Nat.find hex) :=
        ⟨hm, fun j z hj hz hadj => Nat.find_min hex hj ⟨z, hz, hadj⟩⟩
      exact ⟨_, this.append x⟩
    have hfresh : ∀ b ∈ firsts (psetOf (wOf weights) ((rowL g.rowPtr g.colInd x).filter (fun y =>
        !(nb.cands.erase x).contains y && !(nb.sFc.insert x).has y && nb.allowed.has y))),
        FirstNextTo g.rowPtr g.colInd (added ++ [x]) b added.length ∧ b < weights.length := by
      intro b hb
      rw [mem_firsts_psetOf, List.mem_filter, hadj] at hb
      obtain ⟨hb1, hb2⟩ := hb
      simp only [Bool.and_eq_true, Bool.not_eq_true'] at hb2
      obtain ⟨⟨hb3, hb4⟩, hb5⟩ := hb2
      have hb5' : b ∈ al := by rw [← h.allowed]; exact NSet.has_iff.1 hb5
      have hb4' : b ∉ nb.sFc.insert x := by
        intro hh; rw [NSet.has_iff.2 hh] at hb4; cases hb4
      have hbx : b ≠ x := fun hh => hb4' (NSet.mem_insert.2 (Or.inl hh))
      have hba : b ∉ added := fun hh => hb4' (NSet.mem_insert.2 (Or.inr ((h.sFc b).2 hh)))
      have hbc : b ∉ nb.cands := by
        intro hh
        have : b ∈ nb.cands.erase x := (List.mem_erase_of_ne hbx).2 hh
        rw [← List.contains_iff_mem, hb3] at this; cases this
      refine ⟨⟨⟨x, by simp, hb1⟩, fun j z hj hz hadj' => hbc ((hc1 b).2 ⟨hb5', hba, z, ?_, hadj'⟩)⟩, ?_⟩
      · rw [List.getElem?_append_left hj] at hz
        exact List.mem_of_getElem? hz
      · rw [hw]; exact (hg.adj_lt hb1).2
    refine ⟨?_, ?_, ?_⟩
    · refine (hc2.sublist List.erase_sublist).imp ?_
      rintro a b ⟨i, j, h1, h2, h3⟩
      exact ⟨i, j, (h1.append x).1, (h2.append x).1, h3⟩
    · have := ordered_firsts hW (psetOf_sorted hW (w := wOf weights) (l := (rowL g.rowPtr g.colInd x).filter (fun y =>
        !(nb.cands.erase x).contains y && !(nb.sFc.insert x).has y && nb.allowed.has y)))
        (fun p hp => mem_psetOf_eq hp) (fun y hy => (hfresh y hy).2)
      refine List.Pairwise.imp_of_mem ?_ this
      intro a b ha hb hab
      exact ⟨_, _, (hfresh a ha).1, (hfresh b hb).1, Or.inr ⟨rfl, hab⟩⟩
    · intro a ha b hb
      obtain ⟨i, h1, h2⟩ := hold a (List.mem_of_mem_erase ha)
      exact ⟨i, _, h1, (hfresh b hb).1, Or.inl h2⟩
  | pureFront =>
    have hke : knd = .pureFront := by rw [← h.kind, hk]
    subst hke
    rw [hk] at he
    simp only at he
    unfold Nbh.updatePF at he
    simp only at he
    rw [pickRow_eq _ hrow] at he
    simp only [ok_bind] at he
    set cur := psetOf (wOf weights) ((rowL g.rowPtr g.colInd x).filter
      (fun y => !(nb.sFc.insert x).has y && nb.allowed.has y)) with hcur
    set old := nb.queues.map (fun q => q.eraseP (fun p => p.1 == x)) with hold
    have hsort : ∀ q ∈ cur :: old, q.Pairwise (fun a b => greaterPair a b = true) := by
      intro q hq
      rcases List.mem_cons.1 hq with rfl | hq
      · exact psetOf_sorted hW
      · rw [hold, List.mem_map] at hq
        obtain ⟨q', hq', rfl⟩ := hq
        exact (hs q' hq').sublist List.eraseP_sublist
    have hF : nb'.queues = cur :: old := by
      by_cases hsz : (cur :: old).length ≤ nb.dim
      · rw [if_pos hsz] at he; cases he; rfl
      · rw [if_neg hsz] at he
        obtain ⟨q, _, he⟩ := bind_ok_iff.1 he
        cases he; rfl
    have hq := hI.pf rfl
    rw [hF] at hq
    have hlen : (cur :: old).length = (added ++ [x]).length := by
      rw [← hq.length_eq, List.length_reverse]
    have hwt : ∀ q ∈ cur :: old, ∀ p ∈ q, p.2 = wOf weights p.1 := by
      intro q hqm
      obtain ⟨_, _, _, _, h3⟩ := Forall₂.mem_right hq hqm
      exact h3
    have hfr : ∀ q ∈ cur :: old, ∀ y ∈ firsts q, y < weights.length := by
      intro q hqm y hy
      obtain ⟨z, hz, _, h3, _⟩ := Forall₂.mem_right hq hqm
      rw [hw]; exact (hg.adj_lt ((h3 y).1 hy).1).2
    refine ⟨by intro q hqm; rw [hF] at hqm; exact hsort q hqm, ?_⟩
    by_cases hsz : (cur :: old).length ≤ nb.dim
    · have hle : (added ++ [x]).length ≤ g.dim := by rw [← hlen, ← h.dim]; exact hsz
      rw [if_pos hsz] at he
      refine ⟨?_, fun _ y => ⟨hI.sub y, hI.early rfl hle y⟩, fun hgt => absurd hle (by omega)⟩
      cases he
      show PriorityOrdered weights (firsts _)
      obtain ⟨h1, h2⟩ := fold_fold_lawful hW (w := wOf weights) (old := old) (s := cur)
        (fun q hqm => hwt q (List.mem_cons_of_mem _ hqm)) (hsort cur (by simp)) (hwt cur (by simp))
      exact ordered_firsts hW h1 h2 (fun y hy => hlt (hI.sub y hy))
    · have hgt : g.dim < (added ++ [x]).length := by rw [← hlen, ← h.dim]; omega
      rw [if_neg hsz] at he
      obtain ⟨q, hsq, he⟩ := bind_ok_iff.1 he
      have hd' : 1 ≤ nb.dim := by rw [h.dim]; exact hd
      have hex := (pfSearch_exact (cur :: old) (cur :: old).length 0 ((cur :: old).length - 1)
        (by omega) (by omega) (by omega) (by
          intro i r hi hh
          have := (List.getElem?_eq_some_iff.1 hi).1
          omega)).elim hsq
      have hcands : nb'.cands = firsts q := by cases he; rfl
      have hidx : ∀ (k : Nat) r, (cur :: old)[k]? = some r → ∃ y, (added ++ [x])[(cur :: old).length - 1 - k]? = some y ∧
          ∀ z, z ∈ firsts r ↔ InFront g.rowPtr g.colInd al (added ++ [x]) z ∧ Adj g.rowPtr g.colInd y z := by
        intro k r hr
        have hk := (List.getElem?_eq_some_iff.1 hr).1
        have hk' : k < (added ++ [x]).reverse.length := by rw [hq.length_eq]; exact hk
        have hrel := (List.forall₂_iff_get.1 hq).2 k hk' hk
        have hr' : (cur :: old)[k] = r := by
          rw [List.getElem?_eq_getElem hk] at hr; simpa using hr
        obtain ⟨_, h2, _⟩ := hrel
        simp only [List.get_eq_getElem] at h2
        rw [hr'] at h2
        refine ⟨(added ++ [x]).reverse[k], ?_, fun z => ?_⟩
        · rw [List.getElem_reverse, hlen, List.getElem?_eq_getElem]
        · rw [h2]
          constructor
          · rintro ⟨h3, h4, h5⟩
            exact ⟨⟨h4, h5, _, List.mem_reverse.1 (List.getElem_mem hk'), h3⟩, h3⟩
          · rintro ⟨⟨h3, h4, _⟩, h5⟩
            exact ⟨h5, h3, h4⟩
      have hidx' : ∀ (i y : Nat), (added ++ [x])[i]? = some y → ∃ r, (cur :: old)[(cur :: old).length - 1 - i]? = some r ∧
          (∀ z, z ∈ firsts r ↔ InFront g.rowPtr g.colInd al (added ++ [x]) z ∧ Adj g.rowPtr g.colInd y z) ∧
          i < (cur :: old).length := by
        intro i y hy
        have hi := (List.getElem?_eq_some_iff.1 hy).1
        have hk : (cur :: old).length - 1 - i < (cur :: old).length := by omega
        obtain ⟨y', h1, h2⟩ := hidx _ _ (List.getElem?_eq_getElem hk)
        rw [show (cur :: old).length - 1 - ((cur :: old).length - 1 - i) = i by omega, hy] at h1
        cases h1
        exact ⟨_, List.getElem?_eq_getElem hk, h2, by omega⟩
      refine ⟨?_, fun hle => absurd hle (by omega), fun _ => ?_⟩
      · rw [hcands]
        rcases hex with ⟨rfl, _⟩ | ⟨_, k, hk, _⟩
        · exact List.Pairwise.nil
        · have hqm := List.mem_of_getElem? hk
          exact ordered_firsts hW (hsort q hqm) (hwt q hqm) (hfr q hqm)
      · rcases hex with ⟨rfl, hno⟩ | ⟨hne, k, hk, hmin⟩
        · refine Or.inl ⟨by rw [hcands]; rfl, fun y hy => ?_⟩
          obtain ⟨h1, h2, z, hz, hzy⟩ := hy
          obtain ⟨i, hi⟩ := List.getElem?_of_mem hz
          obtain ⟨r, hr, h3, _⟩ := hidx' i z hi
          have h4 := (h3 y).2 ⟨⟨h1, h2, z, hz, hzy⟩, hzy⟩
          rw [hno r (List.mem_of_getElem? hr)] at h4
          simp [firsts] at h4
        · refine Or.inr ⟨by rw [hcands]; simpa [firsts] using hne, ?_⟩
          obtain ⟨y, hy, hm⟩ := hidx k q hk
          refine ⟨_, y, hy, fun z => by rw [hcands]; exact hm z, fun j z hz ⟨w, hw1⟩ => ?_⟩
          obtain ⟨r, hr, h3, hj⟩ := hidx' j z hz
          have := hmin _ r hr (by
            rintro rfl
            have := (h3 w).2 hw1
            simp [firsts] at this)
          rw [hlen] at this hj ⊢
          rwa [show (added ++ [x]).length - 1 - ((added ++ [x]).length - 1 - j) = j by omega] at this

theorem candidates_new (g : Graph W) (knd : NbhKind) (weights : List W) (al : NSet) :
    QueuesSorted (Nbh.new knd g.dim al : Nbh W) ∧ Candidates g knd weights al [] (Nbh.new knd g.dim al : Nbh W).cands := by
  refine ⟨by intro q hq; simp [Nbh.new] at hq, ?_⟩
  have hno : ∀ x, ¬ InFront g.rowPtr g.colInd al [] x := by rintro x ⟨_, _, y, hy, _⟩; cases hy
  cases knd with
  | extended => exact ⟨fun x => ⟨fun h => by simp [Nbh.new] at h, fun h => absurd h (hno x)⟩, List.Pairwise.nil⟩
  | pureFront =>
    exact ⟨List.Pairwise.nil, fun _ x => ⟨fun h => by simp [Nbh.new] at h, fun h => absurd h (hno x)⟩,
      fun h => by simp at h⟩

/-! ### Greedy growth in terms of candidates -/

variable {F : Type}

/-- (with the neighbourhood kept by the algorithm) A coarse cell grown one cell after the other, with its features: from the seed, always
adding the first best candidate of its neighbourhood.  `d` holds the cells that may be taken
with their distances from the seed, `hi` is the final size.  Up to `fc_choice_iter` cells are
looked ahead, not beyond the final size. -/
inductive NbSeq (E : IsoEnv W F) (d : NMap Nat) (hi : Nat) : List Nat → F → Prop where
  | seed {s : Nat} {f : F} : E.ar.init s = .ok f → NbSeq E d hi [s] f
  | next {xs : List Nat} {f f' : F} {nb : Nbh W} {c : Nat} {m : Merit W} : NbSeq E d hi xs f →
      nbhAfter E.g E.nbh E.pool.prio d.keySet xs = .ok nb →
      FirstBest (NbLook E d (min (hi - xs.length) E.fcIter - 1) nb f (NSet.ofList xs)) nb.cands c m f' →
      NbSeq E d hi (xs ++ [c]) f'

/-- a neighbourhood after the cells `xs` were added -/
structure NbAt (E : IsoEnv W F) (al : NSet) (xs : List Nat) (nb : Nbh W) : Prop where
  inv : NInv E.g.rowPtr E.g.colInd E.pool.prio E.nbh E.g.dim al xs nb
  sorted : QueuesSorted nb
  cands : Candidates E.g E.nbh E.pool.prio al xs nb.cands

theorem NbAt.update (hW : LawfulLt W) {E : IsoEnv W F} (hE : IsoInput E) {al : NSet} {xs : List Nat} {nb : Nbh W}
    (h : NbAt E al xs nb) {c : Nat} (hc : c < E.g.nbC) :
    Ok (nb.update E.pool.prio c (rowL E.g.rowPtr E.g.colInd c)) (NbAt E al (xs ++ [c])) := by
  have hdim : 1 ≤ E.g.dim := by rcases hE.dim with h | h <;> omega
  have hw : E.pool.prio.length = E.g.nbC := by rw [hE.pool.prio]
  exact ((h.inv.update hE.crs hw (Or.inr hW) hdim hc).and
    (candidates_update hW h.inv h.sorted h.cands hE.crs hw hdim hc)).mono (fun nb' ⟨h1, h2, h3⟩ => ⟨h1, h2, h3⟩)

theorem nbAt (hW : LawfulLt W) {E : IsoEnv W F} (hE : IsoInput E) (al : NSet) {xs : List Nat}
    (hx : ∀ x ∈ xs, x < E.g.nbC) : Ok (nbhAfter E.g E.nbh E.pool.prio al xs) (NbAt E al xs) := by
  unfold nbhAfter
  obtain ⟨h1, h2⟩ := candidates_new E.g E.nbh E.pool.prio al
  refine Ok.foldlM_prefix (I := fun pre nb => NbAt E al pre nb) ⟨NInv_new _ _ _ _ _ _, h1, h2⟩ ?_
  intro pre x post nb hl hI
  have hxl : x < E.g.nbC := hx x (by simp [hl])
  rw [neighs_eq hE.crs hxl, ok_bind]
  exact hI.update hW hE hxl

theorem ofList_append {xs : List Nat} {c : Nat} : NSet.ofList (xs ++ [c]) = (NSet.ofList xs).insert c := by
  apply NSet.ext
  intro a
  simp only [NSet.mem_insert, NSet.mem_ofList, List.mem_append, List.mem_singleton]
  exact or_comm

theorem FirstBest.imp {R R' : Nat → Merit W → F → Prop} {cands : List Nat}
    {c : Nat} {m : Merit W} {f : F} (h : FirstBest R cands c m f) (hR : ∀ x ∈ cands, ∀ m f, R x m f → R' x m f) :
    FirstBest R' cands c m f := by
  obtain ⟨μ, h1, h2⟩ := h
  exact ⟨μ, fun x hx => hR x hx _ _ (h1 x hx), h2⟩

theorem FirstBest.mem {R : Nat → Merit W → F → Prop} {cands : List Nat}
    {c : Nat} {m : Merit W} {f : F} (h : FirstBest R cands c m f) : c ∈ cands ∧ R c m f := by
  obtain ⟨μ, h1, h2, h3, pre, post, h4, _⟩ := h
  have : c ∈ cands := by rw [h4]; simp
  have := h1 c this
  rw [h2] at this
  exact ⟨by assumption, this⟩

theorem NbAt.lt {E : IsoEnv W F} (hE : IsoInput E) {al : NSet} {xs : List Nat} {nb : Nbh W}
    (h : NbAt E al xs nb) {c : Nat} (hc : c ∈ nb.cands) : c < E.g.nbC := by
  obtain ⟨_, _, y, _, hy⟩ := h.inv.sub c hc
  exact (hE.crs.adj_lt hy).2

theorem look_cands (hW : LawfulLt W) {E : IsoEnv W F} (hE : IsoInput E) {d : NMap Nat} {al : NSet} (k : Nat) :
    ∀ {nb : Nbh W} {f f' : F} {c : Nat} {m : Merit W} {xs : List Nat}, NbAt E al xs nb → c ∈ nb.cands →
    NbLook E d k nb f (NSet.ofList xs) c m f' → LookAhead E al d k xs f c m f' := by
  induction k with
  | zero => intro nb f f' c m xs _ _ h; exact h
  | succ k ih =>
    intro nb f f' c m xs hI hc h
    obtain ⟨m0, nb', hm, hup, hrest⟩ := h
    have hlt := hI.lt hE hc
    rw [rowOf_eq hE.crs hlt] at hup
    have hI' : NbAt E al (xs ++ [c]) nb' := (hI.update hW hE hlt).elim hup
    refine ⟨m0, nb'.cands, hm, hI'.cands, ?_⟩
    rcases hrest with hrest | ⟨c2, m2, f2, hb, hm2⟩
    · exact Or.inl hrest
    · rw [← ofList_append] at hb hm2
      exact Or.inr ⟨c2, m2, f2, hb.imp (fun x hx m f hl => ih hI' hx hl), hm2⟩

theorem NbSeq.ne_nil {E : IsoEnv W F} {d : NMap Nat} {hi : Nat} {xs : List Nat} {f : F}
    (h : NbSeq E d hi xs f) : xs ≠ [] := by
  cases h <;> simp

theorem NbSeq.greedy (hW : LawfulLt W) {E : IsoEnv W F} (hE : IsoInput E) {d : NMap Nat} {hi : Nat} {xs : List Nat} {f : F}
    (h : NbSeq E d hi xs f) : ∀ {s : Nat}, xs.head? = some s → s < E.g.nbC →
    GreedySeq E d hi xs f ∧ ∀ x ∈ xs, x < E.g.nbC := by
  induction h with
  | @seed s f h =>
    intro s' hs hlt
    simp only [List.head?_cons, Option.some.injEq] at hs
    subst hs
    exact ⟨.seed h, by simpa using hlt⟩
  | @next xs f f' nb c m hg hn hb ih =>
    intro s hs hlt
    have hs' : xs.head? = some s := by
      cases xs with
      | nil => exact absurd rfl hg.ne_nil
      | cons a xs => simpa using hs
    obtain ⟨h1, h2⟩ := ih hs' hlt
    have hI : NbAt E d.keySet xs nb := (nbAt hW hE d.keySet h2).elim hn
    refine ⟨.next h1 hI.cands (hb.imp (fun x hx m f hl => look_cands hW hE _ hI hx hl)), ?_⟩
    intro x hx
    rcases List.mem_append.1 hx with hx | hx
    · exact h2 x hx
    · rw [List.mem_singleton.1 hx]; exact hI.lt hE hb.mem.1

end CoMMA
