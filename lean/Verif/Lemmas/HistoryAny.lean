import Verif.Props.History
/-! # Correction with changing orders: there is one order that does the same

The correction iterates over the fine cells of each small coarse cell.  It never sees the same set
twice, so that the orders met during one call are those of a single function of the contents. -/

set_option linter.unusedSectionVars false

namespace CoMMA

variable {W : Type} [Num W]

/-- what a fold that ended well preserves -/
theorem foldlM_keeps {α β : Type} {f : β → α → M β} {I : β → Prop} {l : List α}
    (hs : ∀ b a b', a ∈ l → I b → f b a = .ok b' → I b') {b r : β} (h0 : I b) (h : l.foldlM f b = .ok r) : I r := by
  induction l generalizing b with
  | nil => injection h with h; exact h ▸ h0
  | cons a l ih =>
    rw [List.foldlM_cons] at h
    cases h1 : f b a with
    | error e => rw [h1] at h; cases h
    | ok b' =>
      rw [h1, ok_bind] at h
      exact ih (fun b a b' ha => hs b a b' (List.mem_cons_of_mem _ ha)) (hs b a b' (by simp) h0 h1) h

/-- every coarse cell of `c'` is one of `c` to which cells of `s` may have been added -/
def Fed (s : NSet) (c c' : Cont) : Prop :=
  ∀ k cc', c'.ccs.find? k = some cc' → ∃ cc, c.ccs.find? k = some cc ∧ (∀ x ∈ cc.fcs, x ∈ cc'.fcs) ∧
    ∀ x ∈ cc'.fcs, x ∈ cc.fcs ∨ x ∈ s

theorem Fed.refl (s : NSet) (c : Cont) : Fed s c c :=
  fun _ cc h => ⟨cc, h, fun _ h => h, fun _ h => Or.inl h⟩

theorem Fed.trans {s : NSet} {c c' c'' : Cont} (h : Fed s c c') (h' : Fed s c' c'') : Fed s c c'' := by
  intro k cc'' hk
  obtain ⟨cc', h1, h2, h3⟩ := h' k cc'' hk
  obtain ⟨cc, h4, h5, h6⟩ := h k cc' h1
  refine ⟨cc, h4, fun x hx => h2 x (h5 x hx), fun x hx => ?_⟩
  rcases h3 x hx with h | h
  · exact h6 x h
  · exact Or.inr h

theorem Fed.insert {s : NSet} {c : Cont} {r : Nat} {cc cc' : CC} (h : c.ccs.find? r = some cc) (h1 : ∀ x ∈ cc.fcs, x ∈ cc'.fcs)
    (h2 : ∀ x ∈ cc'.fcs, x ∈ cc.fcs ∨ x ∈ s) (f : List (Option Nat)) :
    Fed s c { c with
      fc2cc := f
      ccs := c.ccs.insert r cc' } := by
  intro k d hk
  simp only [NMap.find?_insert] at hk
  by_cases hr : k = r
  · rw [if_pos hr] at hk
    injection hk with hk
    subst hk hr
    exact ⟨cc, h, h1, h2⟩
  · rw [if_neg hr] at hk
    exact ⟨d, hk, fun _ h => h, fun _ h => Or.inl h⟩

theorem moveCell_fed {s : NSet} {c c' : Cont} {i : Nat} {r : Nat × Nat} (hi : i ∈ s) (h : moveCell c i r = .ok c') : Fed s c c' := by
  unfold moveCell at h
  cases h1 : wr c.fc2cc i (some r.1) with
  | error e => rw [h1] at h; cases h
  | ok f =>
    rw [h1, ok_bind] at h
    cases h2 : c.ccs.at! r.1 with
    | error e => rw [h2] at h; cases h
    | ok cc =>
      rw [h2, ok_bind] at h
      injection h with h
      subst h
      refine Fed.insert (NMap.at_eq.1 h2) ?_ ?_ f
      · intro x hx
        exact NSet.mem_insert.2 (Or.inr hx)
      · intro x hx
        rcases NSet.mem_insert.1 hx with h | h
        · exact Or.inr (h ▸ hi)
        · exact Or.inl h

theorem tryCells_fed {g : Graph W} {c : Cont} {nb : List (Nat × NSet)} {s : NSet} (hn : ∀ e ∈ nb, e.1 ∈ s) {t : Bool × Cont}
    (h : tryCells g c nb = .ok t) : Fed s c t.2 := by
  unfold tryCells at h
  refine foldlM_keeps (I := fun (t : Bool × Cont) => Fed s c t.2) ?_ (Fed.refl s c) h
  intro b e b' he hI hb
  by_cases h0 : e.2.card = 0
  · rw [if_pos h0] at hb
    injection hb with hb
    exact hb ▸ hI
  · rw [if_neg h0] at hb
    cases h1 : selectCC g b.2.ccs e.1 e.2 with
    | error e => rw [h1] at hb; cases hb
    | ok o =>
      rw [h1, ok_bind] at hb
      cases o with
      | none =>
        injection hb with hb
        exact hb ▸ hI
      | some r =>
        simp only at hb
        cases h2 : moveCell b.2 e.1 r with
        | error e => rw [h2] at hb; cases hb
        | ok c' =>
          rw [h2, ok_bind] at hb
          injection hb with hb
          subst hb
          exact hI.trans (moveCell_fed (hn e he) h2)

theorem tryWhole_fed {g : Graph W} {c c' : Cont} {cc : CC} {nb : List (Nat × NSet)} (h : tryWhole g c cc nb = .ok (some c')) :
    Fed cc.fcs c c' := by
  unfold tryWhole at h
  by_cases h0 : 1 < cc.card
  · rw [if_pos h0] at h
    simp only at h
    split at h
    · cases h
    · rename_i hg
      cases h1 : selectWhole g c.ccs cc.fcs (nb.foldl (fun (s : NSet) e => s.insertMany e.2.elems) NSet.empty) with
      | error e => rw [h1] at h; cases h
      | ok o =>
        rw [h1, ok_bind] at h
        cases o with
        | none => cases h
        | some r =>
          simp only at h
          cases h2 : cc.fcs.elems.foldlM (fun f i => wr f i (some r.1)) c.fc2cc with
          | error e => rw [h2] at h; cases h
          | ok f =>
            rw [h2, ok_bind] at h
            cases h3 : c.ccs.at! r.1 with
            | error e => rw [h3] at h; cases h
            | ok d =>
              rw [h3, ok_bind] at h
              injection h with h
              injection h with h
              subst h
              refine Fed.insert (NMap.at_eq.1 h3) ?_ ?_ f
              · intro x hx
                exact NSet.mem_insertMany.2 (Or.inr hx)
              · intro x hx
                rcases NSet.mem_insertMany.1 hx with h | h
                · exact Or.inr h
                · exact Or.inl h
  · rw [if_neg h0] at h
    cases h

theorem mapM_fst {α : Type} {f : Nat → M α} {l : List Nat} {r : List (Nat × α)}
    (h : l.mapM (fun i => do let s ← f i; pure (i, s)) = .ok r) : r.map Prod.fst = l := by
  induction l generalizing r with
  | nil => injection h with h; subst h; rfl
  | cons a l ih =>
    rw [List.mapM_cons] at h
    cases h1 : f a with
    | error e => rw [h1] at h; cases h
    | ok s =>
      simp only [h1, ok_bind] at h
      cases h2 : l.mapM (fun i => do let s ← f i; pure (i, s)) with
      | error e => rw [h2] at h; cases h
      | ok r' =>
        rw [h2] at h
        injection h with h
        subst h
        simp [ih h2]

/-- a step only feeds the coarse cells that stay -/
theorem correctStep_fed {g : Graph W} {h : Hash} {a b : Cont × NSet} {old : Nat} {cc : CC} (hc : a.1.ccs.find? old = some cc)
    (hs : correctStep g h a old = .ok b) : Fed cc.fcs a.1 b.1 := by
  have hdrop : ∀ c', Fed cc.fcs a.1 c' → Fed cc.fcs a.1 (dropCC c' a.2 old).1 := by
    intro c' hf k d hk
    simp only [dropCC, NMap.find?_erase] at hk
    by_cases hk' : k = old
    · rw [if_pos hk'] at hk; cases hk
    · rw [if_neg hk'] at hk
      exact hf k d hk
  unfold correctStep at hs
  rw [NMap.at_eq.2 hc, ok_bind] at hs
  by_cases h0 : cc.card ≤ a.1.thresh
  · rw [if_pos h0] at hs
    cases h1 : neighsByFc g h a.1 old cc.fcs with
    | error e => rw [h1] at hs; cases hs
    | ok nb =>
      rw [h1, ok_bind] at hs
      cases h2 : tryWhole g a.1 cc nb with
      | error e => rw [h2] at hs; cases hs
      | ok w =>
        rw [h2, ok_bind] at hs
        cases w with
        | some c =>
          injection hs with hs
          subst hs
          exact hdrop c (tryWhole_fed h2)
        | none =>
          simp only at hs
          cases h3 : tryCells g a.1 nb with
          | error e => rw [h3] at hs; cases hs
          | ok t =>
            rw [h3, ok_bind] at hs
            have hf : Fed cc.fcs a.1 t.2 := by
              refine tryCells_fed (fun e he => ?_) h3
              have := mapM_fst h1
              have h4 : e.1 ∈ h.ord 5 cc.fcs.elems := this ▸ List.mem_map_of_mem he
              exact NSet.mem_elems.1 ((h.perm 5 _).mem_iff.1 h4)
            injection hs with hs
            subst hs
            split
            · exact hdrop _ hf
            · exact hf
  · rw [if_neg h0] at hs
    injection hs with hs
    exact hs ▸ Fed.refl _ _

/-- the cells a coarse cell had at first are in no other coarse cell as long as its turn has not come -/
structure Waiting (O : Nat → NSet) (l : List Nat) (c : Cont) : Prop where
  ne : ∀ j ∈ l, ∃ x, x ∈ O j
  has : ∀ j ∈ l, ∀ cc, c.ccs.find? j = some cc → ∀ x ∈ O j, x ∈ cc.fcs
  only : ∀ k cc, c.ccs.find? k = some cc → ∀ j ∈ l, j ≠ k → ∀ x ∈ O j, ¬ x ∈ cc.fcs

theorem Waiting.step {O : Nat → NSet} {l : List Nat} {old : Nat} {c c' : Cont} {cc : CC} (h : Waiting O (old :: l) c)
    (hn : old ∉ l) (hc : c.ccs.find? old = some cc) (hf : Fed cc.fcs c c') : Waiting O l c' := by
  refine ⟨fun j hj => h.ne j (List.mem_cons_of_mem _ hj), ?_, ?_⟩
  · intro j hj d hd x hx
    obtain ⟨e, h1, h2, _⟩ := hf j d hd
    exact h2 x (h.has j (List.mem_cons_of_mem _ hj) e h1 x hx)
  · intro k d hd j hj hk x hx hxd
    obtain ⟨e, h1, _, h3⟩ := hf k d hd
    rcases h3 x hxd with h4 | h4
    · exact h.only k e h1 j (List.mem_cons_of_mem _ hj) hk x hx h4
    · exact h.only old cc hc j (List.mem_cons_of_mem _ hj) (fun he => hn (he ▸ hj)) x hx h4

/-- the step only looks at the order of the cells of the coarse cell -/
theorem correctStep_order {g : Graph W} {h h' : Hash} {a : Cont × NSet} {old : Nat}
    (hh : ∀ cc, a.1.ccs.find? old = some cc → h.ord 5 cc.fcs.elems = h'.ord 5 cc.fcs.elems) :
    correctStep g h a old = correctStep g h' a old := by
  unfold correctStep
  cases hcc : a.1.ccs.at! old with
  | error e => rfl
  | ok cc =>
    simp only [ok_bind, neighsByFc, hh cc (NMap.at_eq.1 hcc)]

/-- an order changed for one set -/
def Hash.override (h k : Hash) (s : List Nat) : Hash where
  ord site l := if l = s then k.ord site l else h.ord site l
  perm site l := by
    split
    · exact k.perm site l
    · exact h.perm site l

theorem correctLoop_order (g : Graph W) (Ω : Nat → Hash) (O : Nat → NSet) (h0 : Hash) (l : List Nat) (hl : l.Nodup)
    (a : Cont × NSet) (hw : Waiting O l a.1) (t : Nat) :
    ∃ h : Hash, ∀ h' : Hash, (∀ C j x, j ∈ l → x ∈ O j → x ∈ C → h'.ord 5 C = h.ord 5 C) →
      (l.foldlM (fun a old => iteration Ω (fun h => correctStep g h a old)) a t).map Prod.fst =
        l.foldlM (correctStep g h') a := by
  induction l generalizing a t with
  | nil => exact ⟨h0, fun h' _ => rfl⟩
  | cons old l ih =>
    have hn : old ∉ l := (List.nodup_cons.1 hl).1
    cases hs : correctStep g (Ω t) a old with
    | error e =>
      refine ⟨Ω t, fun h' hh => ?_⟩
      rw [List.foldlM_cons, List.foldlM_cons]
      have : correctStep g h' a old = correctStep g (Ω t) a old := by
        refine correctStep_order (fun cc hcc => ?_)
        obtain ⟨x, hx⟩ := hw.ne old (by simp)
        exact hh _ old x (by simp) hx (NSet.mem_elems.2 (hw.has old (by simp) cc hcc x hx))
      rw [this, hs]
      show (((iteration Ω (fun h => correctStep g h a old) t) >>= fun q => _ : M _)).map Prod.fst = _
      have hi : iteration Ω (fun h => correctStep g h a old) t = .error e := by
        unfold iteration; rw [show (fun h => correctStep g h a old) (Ω t) = _ from hs]; rfl
      rw [hi]; rfl
    | ok b =>
      cases hcc : a.1.ccs.find? old with
      | none =>
        exfalso
        unfold correctStep at hs
        cases h1 : a.1.ccs.at! old with
        | error e => rw [h1] at hs; cases hs
        | ok cc => rw [NMap.at_eq.1 h1] at hcc; cases hcc
      | some cc =>
        obtain ⟨x0, hx0⟩ := hw.ne old (by simp)
        obtain ⟨h1, hh1⟩ := ih (List.nodup_cons.1 hl).2 b (hw.step hn hcc (correctStep_fed hcc hs)) (t + 1)
        refine ⟨h1.override (Ω t) cc.fcs.elems, fun h' hh => ?_⟩
        rw [List.foldlM_cons, List.foldlM_cons]
        have : correctStep g h' a old = correctStep g (Ω t) a old := by
          refine correctStep_order (fun d hd => ?_)
          rw [hcc] at hd
          injection hd with hd
          subst hd
          rw [hh _ old x0 (by simp) hx0 (NSet.mem_elems.2 (hw.has old (by simp) cc hcc x0 hx0))]
          simp [Hash.override]
        rw [this, hs, ok_bind, ← hh1 h']
        · show (((iteration Ω (fun h => correctStep g h a old) t) >>= fun q => _ : M _)).map Prod.fst = _
          have hi : iteration Ω (fun h => correctStep g h a old) t = .ok (b, t + 1) := by
            unfold iteration; rw [show (fun h => correctStep g h a old) (Ω t) = _ from hs]; rfl
          rw [hi]; rfl
        · intro C j x hj hx hxC
          rw [hh C j x (List.mem_cons_of_mem _ hj) hx hxC]
          have : C ≠ cc.fcs.elems := by
            rintro rfl
            exact hw.only old cc hcc j (List.mem_cons_of_mem _ hj) (fun he => hn (he ▸ hj)) x hx (NSet.mem_elems.1 hxC)
          simp [Hash.override, this]

/-- the correction, with any threshold -/
theorem correctH_order (g : Graph W) (Ω : Nat → Hash) {n : Nat} {c : Cont} (hc : CInv n c) (t : Nat) :
    ∃ h : Hash, (correctH Ω g c t).map Prod.fst = c.correct g h := by
  have hw : Waiting (fun j => ((c.ccs.find? j).map CC.fcs).getD NSet.empty) c.singular c := by
    refine ⟨?_, ?_, ?_⟩
    · intro j hj
      obtain ⟨cc, h1, _⟩ := (hc.sing j).1 hj
      obtain ⟨h2, h3⟩ := hc.card j cc h1
      obtain ⟨x, hx⟩ := NSet.card_pos_iff.1 (h2 ▸ h3)
      exact ⟨x, by simpa [h1] using hx⟩
    · intro j _ cc h1 x hx
      simpa [h1] using hx
    · intro k cc h1 j hj hk x hx hxc
      obtain ⟨d, h2, _⟩ := (hc.sing j).1 hj
      have h3 : x ∈ d.fcs := by simpa [h2] using hx
      have h4 := (hc.part j d h2 x).1 h3
      rw [(hc.part k cc h1 x).1 hxc] at h4
      injection h4 with h4
      injection h4 with h4
      exact hk h4.symm
  have hnd : c.singular.Nodup := hc.singSorted.imp (fun h => Nat.ne_of_lt h)
  obtain ⟨h, hh⟩ := correctLoop_order g Ω _ Hash.id c.singular hnd (c, NSet.empty) hw t
  refine ⟨h, ?_⟩
  have h1 := hh h (fun _ _ _ _ _ _ => rfl)
  unfold correctH Cont.correct
  show (((c.singular.foldlM (fun a old => iteration Ω (fun h => correctStep g h a old)) (c, NSet.empty) t) >>= fun q =>
    plainly (afterCorrection q.1) q.2 : M (Cont × Nat))).map Prod.fst = _
  cases hm : c.singular.foldlM (fun a old => iteration Ω (fun h => correctStep g h a old)) (c, NSet.empty) t with
  | error e =>
    rw [hm] at h1
    rw [← h1]; rfl
  | ok r =>
    rw [hm] at h1
    rw [← h1]
    exact SameAs.plainly (afterCorrection r.1) r.2

end CoMMA
