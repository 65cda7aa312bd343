import Verif.Lemmas.OverflowGrow
import Verif.Lemmas.Threshold
/-! # Bounds of the integers of the correction -/

set_option linter.unusedSectionVars false

namespace CoMMA

variable {W : Type} [Num W]

theorem foldlM_congr_mem {α β : Type} {f f' : β → α → M β} {l : List α} (h : ∀ a ∈ l, ∀ b, f b a = f' b a) (b : β) :
    l.foldlM f b = l.foldlM f' b := by
  induction l generalizing b with
  | nil => rfl
  | cons a l ih =>
    rw [List.foldlM_cons, List.foldlM_cons, h a (by simp) b]
    exact bind_congr_ok (fun b' _ => ih (fun x hx => h x (by simp [hx])) b')

theorem foldlM_mem {α β : Type} {f : β → α → M β} {l : List α} {b r : β} (h : l.foldlM f b = .ok r) {a : α} (ha : a ∈ l) :
    ∃ b' r', f b' a = .ok r' := by
  induction l generalizing b with
  | nil => cases ha
  | cons x l ih =>
    rw [List.foldlM_cons] at h
    obtain ⟨b', h1, h2⟩ := bind_ok_iff.1 h
    rcases List.mem_cons.1 ha with rfl | ha
    · exact ⟨b, b', h1⟩
    · exact ih h2 ha

theorem sharedWith_le {g : Graph W} (hv : ValidCRS g.nbC g.rowPtr g.colInd) (fc : Nat) {s : NSet} (hs : ∀ x ∈ s, x < g.nbC)
    {t : Nat} (h : sharedWith g fc s = .ok t) : t ≤ g.colInd.length := by
  have key : ∀ (l : List Nat) (a t : Nat), (∀ x ∈ l, x < g.nbC) → l.foldlM (fun a i => do
      let row ← g.neighs i
      pure (a + row.count fc)) a = (.ok t : M Nat) → t ≤ a + (l.map (deg g)).sum := by
    intro l
    induction l with
    | nil => intro a t _ h; cases h; simp
    | cons x l ih =>
      intro a t hl h
      rw [List.foldlM_cons, neighs_eq hv (hl x (by simp)), ok_bind, pure_bind] at h
      have := ih _ _ (fun y hy => hl y (by simp [hy])) h
      have hc : (rowL g.rowPtr g.colInd x).count fc ≤ deg g x := List.count_le_length
      rw [List.map_cons, List.sum_cons]
      omega
  have := key s.elems 0 t hs h
  have := degSum_le hv hs
  unfold degSum at this
  omega

/-- all the coarse cells but `old` hold cells of the mesh, their number, and no common cell -/
structure Apart (n : Nat) (old : Nat → Prop) (m : NMap CC) : Prop where
  lt : ∀ k cc, ¬ old k → m.find? k = some cc → ∀ x ∈ cc.fcs, x < n
  card : ∀ k cc, ¬ old k → m.find? k = some cc → cc.card = cc.fcs.card
  disj : ∀ k l cc cc', ¬ old k → ¬ old l → k ≠ l → m.find? k = some cc → m.find? l = some cc' → ∀ x ∈ cc.fcs, x ∉ cc'.fcs

section
variable {g : Graph W} (hv : ValidCRS g.nbC g.rowPtr g.colInd) {mx : Int} (hR : Room g mx)
include hv hR

theorem nbRecC_eq {fc : Nat} (hfc : fc < g.nbC) (id : Nat) {cc : CC} (hcc : ∀ x ∈ cc.fcs, x < g.nbC) :
    nbRecC mx g fc id cc = nbRec g fc id cc := by
  have hroom := hR.room
  unfold nbRecC nbRec
  refine bind_congr_ok (fun sf hsf => ?_)
  have := sharedWith_le hv fc hcc hsf
  rw [fits_ok, ok_bind, minCompactnessC_eq hv _ (by omega)]
  · intro x hx
    rcases NSet.mem_insert.1 hx with rfl | hx
    · exact hfc
    · exact hcc x hx
  · intro x hx
    simp only [List.mem_cons, List.not_mem_nil, or_false] at hx
    subst hx
    omega

theorem selectCCC_eq {ccs : NMap CC} {fc : Nat} (hfc : fc < g.nbC) {neighs : NSet}
    (hn : ∀ k ∈ neighs, ∀ cc, ccs.find? k = some cc → ∀ x ∈ cc.fcs, x < g.nbC) :
    selectCCC mx g ccs fc neighs = selectCC g ccs fc neighs ∧
      ∀ r, selectCC g ccs fc neighs = .ok (some r) → r.1 ∈ neighs := by
  have hrecs : isoRecsC mx g ccs fc neighs = isoRecs g ccs fc neighs := by
    unfold isoRecsC isoRecs
    refine foldlM_congr_mem (fun id hid l => ?_) _
    refine bind_congr_ok (fun cc hcc => ?_)
    rw [nbRecC_eq hv hR hfc id (hn id hid cc (NMap.at_eq.1 hcc))]
  constructor
  · unfold selectCCC
    rw [hrecs]
    unfold selectCC
    cases isoRecs g ccs fc neighs with
    | ok r => rfl
    | error e => rfl
  · intro r hr
    have hall : ∀ k ∈ neighs, ∃ cc, ccs.find? k = some cc ∧ ∀ x ∈ cc.fcs, x < g.nbC := by
      intro k hk
      unfold selectCC at hr
      obtain ⟨l, hl, _⟩ := bind_ok_iff.1 hr
      unfold isoRecs at hl
      obtain ⟨b', r', h1⟩ := foldlM_mem hl (NSet.mem_elems.2 hk)
      obtain ⟨cc, hcc, _⟩ := bind_ok_iff.1 h1
      exact ⟨cc, NMap.at_eq.1 hcc, hn k hk cc (NMap.at_eq.1 hcc)⟩
    obtain ⟨b, hb, _, hbn, _⟩ := ((selectCC_ok hv hfc hall).elim hr).2 r.1 r.2 rfl
    rw [← hb]; exact hbn

theorem selectWholeC_eq {ccs : NMap CC} {fcs neighs : NSet} (hfc : ∀ x ∈ fcs, x < g.nbC)
    (hn : ∀ k ∈ neighs, ∀ cc, ccs.find? k = some cc → ∀ x ∈ cc.fcs, x < g.nbC) :
    selectWholeC mx g ccs fcs neighs = selectWhole g ccs fcs neighs ∧
      ∀ r, selectWhole g ccs fcs neighs = .ok (some r) → r.1 ∈ neighs := by
  have hroom := hR.room
  have hrecs : wholeRecsC mx g ccs fcs neighs = wholeRecs g ccs fcs neighs := by
    unfold wholeRecsC wholeRecs
    refine foldlM_congr_mem (fun id hid l => ?_) _
    refine bind_congr_ok (fun cc hcc => ?_)
    rw [minCompactnessC_eq hv _ (by omega)]
    intro x hx
    rcases NSet.mem_insertMany.1 hx with hx | hx
    · exact hfc x hx
    · exact hn id hid cc (NMap.at_eq.1 hcc) x hx
  constructor
  · unfold selectWholeC
    rw [hrecs]
    unfold selectWhole
    cases wholeRecs g ccs fcs neighs with
    | ok r => rfl
    | error e => rfl
  · intro r hr
    have hall : ∀ k ∈ neighs, ∃ cc, ccs.find? k = some cc ∧ ∀ x ∈ cc.fcs, x < g.nbC := by
      intro k hk
      unfold selectWhole at hr
      obtain ⟨l, hl, _⟩ := bind_ok_iff.1 hr
      unfold wholeRecs at hl
      obtain ⟨b', r', h1⟩ := foldlM_mem hl (NSet.mem_elems.2 hk)
      obtain ⟨cc, hcc, _⟩ := bind_ok_iff.1 h1
      exact ⟨cc, NMap.at_eq.1 hcc, hn k hk cc (NMap.at_eq.1 hcc)⟩
    exact (((selectWhole_ok hv hfc hall).elim hr) r.1 r.2 rfl).1

/-- the neighbours found do not include the coarse cell itself -/
theorem neighsByFc_mem {h : Hash} {c : Cont} {old : Nat} {s : NSet} {nb : List (Nat × NSet)} (he : neighsByFc g h c old s = .ok nb) :
    nb.map Prod.fst = h.ord 5 s.elems ∧ ∀ e ∈ nb, old ∉ e.2 := by
  unfold neighsByFc at he
  generalize h.ord 5 s.elems = l at he
  induction l generalizing nb with
  | nil => cases he; exact ⟨rfl, by simp⟩
  | cons i l ih =>
    rw [List.mapM_cons] at he
    obtain ⟨e, h1, he⟩ := bind_ok_iff.1 he
    obtain ⟨r, h2, he⟩ := bind_ok_iff.1 he
    cases he
    obtain ⟨t, ht, h1⟩ := bind_ok_iff.1 h1
    cases h1
    obtain ⟨g1, g2⟩ := ih h2
    refine ⟨by simp [g1], ?_⟩
    intro e he
    rcases List.mem_cons.1 he with rfl | he
    · simp only
      unfold neighsCC at ht
      obtain ⟨row, _, ht⟩ := bind_ok_iff.1 ht
      have key : ∀ (row : List Nat) (s0 t : NSet), old ∉ s0 → row.foldlM (fun (s : NSet) j => do
          let o ← rd c.fc2cc j
          let k ← valueM o
          pure (if k ≠ old then s.insert k else s)) s0 = (.ok t : M NSet) → old ∉ t := by
        intro row
        induction row with
        | nil => intro s0 t h0 h; cases h; exact h0
        | cons j row ih' =>
          intro s0 t h0 h
          rw [List.foldlM_cons] at h
          obtain ⟨s1, h3, h4⟩ := bind_ok_iff.1 h
          obtain ⟨o, _, h3⟩ := bind_ok_iff.1 h3
          obtain ⟨k, _, h3⟩ := bind_ok_iff.1 h3
          cases h3
          refine ih' _ _ ?_ h4
          split
          · rename_i hk
            intro hh
            rcases NSet.mem_insert.1 hh with hh | hh
            · exact hk hh.symm
            · exact h0 hh
          · exact h0
      exact key row _ _ (by simp) ht
    · exact g2 e he

theorem tryWholeC_eq {c : Cont} (hA : Apart g.nbC (fun _ => False) c.ccs) {old : Nat} {cc : CC} (hold : c.ccs.find? old = some cc)
    {nb : List (Nat × NSet)} (hnb : ∀ e ∈ nb, old ∉ e.2) :
    tryWholeC mx g c cc nb = tryWhole g c cc nb ∧
      ∀ c', tryWhole g c cc nb = .ok (some c') → Apart g.nbC (fun k => k = old) c'.ccs ∧ c'.thresh = c.thresh := by
  have hroom := hR.room
  have hfcs := hA.lt old cc (fun h => h) hold
  have hglob : old ∉ nb.foldl (fun (s : NSet) e => s.insertMany e.2.elems) NSet.empty := by
    have key : ∀ (l : List (Nat × NSet)) (s : NSet), (∀ e ∈ l, old ∉ e.2) → old ∉ s →
        old ∉ l.foldl (fun (s : NSet) e => s.insertMany e.2.elems) s := by
      intro l
      induction l with
      | nil => intro s _ h; exact h
      | cons e l ih =>
        intro s h1 h2
        rw [List.foldl_cons]
        refine ih _ (fun x hx => h1 x (by simp [hx])) ?_
        intro hh
        rcases NSet.mem_insertMany.1 hh with hh | hh
        · exact h1 e (by simp) hh
        · exact h2 hh
    exact key nb _ hnb (by simp)
  unfold tryWholeC tryWhole
  by_cases hc : 1 < cc.card
  swap
  · rw [if_neg hc, if_neg hc]
    exact ⟨rfl, fun c' h => by cases h⟩
  rw [if_pos hc, if_pos hc]
  simp only
  generalize nb.foldl (fun (s : NSet) e => s.insertMany e.2.elems) NSet.empty = glob at hglob
  by_cases h0 : glob.card = 0
  · rw [if_pos h0, if_pos h0]
    exact ⟨rfl, fun c' h => by cases h⟩
  rw [if_neg h0, if_neg h0]
  obtain ⟨hs1, hs2⟩ := selectWholeC_eq hv hR (ccs := c.ccs) (fcs := cc.fcs) (neighs := glob) hfcs
    (fun k _ cc' h => hA.lt k cc' (fun h => h) h)
  rw [hs1]
  have hmain : ∀ r, selectWhole g c.ccs cc.fcs glob = .ok (some r) → ∀ cc', c.ccs.find? r.1 = some cc' →
      (∀ x ∈ cc.fcs, x ∉ cc'.fcs) ∧ r.1 ≠ old := by
    intro r hr cc' hcc'
    have hne : r.1 ≠ old := fun h => hglob (h ▸ hs2 r hr)
    exact ⟨hA.disj old r.1 cc cc' (fun h => h) (fun h => h) (fun h => hne h.symm) hold hcc', hne⟩
  have hcard : ∀ cc' : CC, (∀ x ∈ cc'.fcs, x < g.nbC) → (∀ x ∈ cc.fcs, x ∉ cc'.fcs) →
      cc'.fcs.card + cc.fcs.card ≤ g.nbC := by
    intro cc' h1 h2
    rw [← card_insertMany_disjoint (s := cc'.fcs) (u := cc.fcs) h2]
    refine card_le_n ?_
    intro x hx
    rcases NSet.mem_insertMany.1 hx with hx | hx
    · exact hfcs x hx
    · exact h1 x hx
  constructor
  · refine bind_congr_ok (fun o ho => ?_)
    cases o with
    | none => rfl
    | some r =>
      simp only
      refine bind_congr_ok (fun f _ => ?_)
      refine bind_congr_ok (fun cc' hcc' => ?_)
      have hcc' := NMap.at_eq.1 hcc'
      have h1 := hcard cc' (hA.lt r.1 cc' (fun h => h) hcc') (hmain r ho cc' hcc').1
      have h2 := hA.card r.1 cc' (fun h => h) hcc'
      rw [fits_ok, ok_bind]
      intro x hx
      simp only [List.mem_cons, List.not_mem_nil, or_false] at hx
      subst hx
      omega
  · intro c' h
    obtain ⟨o, ho, h⟩ := bind_ok_iff.1 h
    cases o with
    | none => cases h
    | some r =>
      simp only at h
      obtain ⟨f, _, h⟩ := bind_ok_iff.1 h
      obtain ⟨cc', hcc', h⟩ := bind_ok_iff.1 h
      cases h
      have hcc' := NMap.at_eq.1 hcc'
      obtain ⟨hd, hne⟩ := hmain r ho cc' hcc'
      refine ⟨⟨?_, ?_, ?_⟩, rfl⟩
      · intro k d hk hkd x hx
        simp only [NMap.find?_insert] at hkd
        split at hkd
        · cases hkd
          rcases NSet.mem_insertMany.1 hx with hx | hx
          · exact hfcs x hx
          · exact hA.lt r.1 cc' (fun h => h) hcc' x hx
        · exact hA.lt k d (fun h => h) hkd x hx
      · intro k d hk hkd
        simp only [NMap.find?_insert] at hkd
        split at hkd
        · cases hkd
          show cc'.card + cc.fcs.card = (cc'.fcs.insertMany cc.fcs.elems).card
          rw [card_insertMany_disjoint hd, hA.card r.1 cc' (fun h => h) hcc']
        · exact hA.card k d (fun h => h) hkd
      · intro k l d d' hk hl hkl hkd hld x hx hx'
        simp only [NMap.find?_insert] at hkd hld
        split at hkd
        · rename_i hkr
          rw [if_neg (by rw [← hkr]; exact fun h => hkl h.symm)] at hld
          cases hkd
          rcases NSet.mem_insertMany.1 hx with hx | hx
          · exact hA.disj old l cc d' (fun h => h) (fun h => h) (fun h => hl h.symm) hold hld x hx hx'
          · exact hA.disj r.1 l cc' d' (fun h => h) (fun h => h) (by rw [← hkr]; exact hkl) hcc' hld x hx hx'
        · split at hld
          · rename_i hlr
            cases hld
            rcases NSet.mem_insertMany.1 hx' with hx' | hx'
            · exact hA.disj old k cc d (fun h => h) (fun h => h) (fun h => hk h.symm) hold hkd x hx' hx
            · exact hA.disj r.1 k cc' d (fun h => h) (fun h => h) (by rw [← hlr]; exact fun h => hkl h.symm) hcc' hkd x hx' hx
          · exact hA.disj k l d d' (fun h => h) (fun h => h) hkl hkd hld x hx hx'

/-- in the middle of the second try: cells of the divided coarse cell found elsewhere are among those treated -/
structure MidApart (n : Nat) (old : Nat) (fcs : NSet) (pre : List Nat) (m : NMap CC) : Prop where
  apart : Apart n (fun k => k = old) m
  moved : ∀ k cc, k ≠ old → m.find? k = some cc → ∀ x ∈ cc.fcs, x ∈ fcs → x ∈ pre

theorem tryCellsC_eq {c : Cont} (hA : Apart g.nbC (fun _ => False) c.ccs) {old : Nat} {cc : CC} (hold : c.ccs.find? old = some cc)
    {nb : List (Nat × NSet)} (hnb : ∀ e ∈ nb, old ∉ e.2) (hnd : (nb.map Prod.fst).Nodup) (hmem : ∀ e ∈ nb, e.1 ∈ cc.fcs) :
    tryCellsC mx g c nb = tryCells g c nb ∧
      ∀ r, tryCells g c nb = .ok r → r.2.thresh = c.thresh ∧ (r.1 = true → Apart g.nbC (fun k => k = old) r.2.ccs) ∧
        (r.1 = false → r.2 = c) := by
  have hroom := hR.room
  have hfcs := hA.lt old cc (fun h => h) hold
  unfold tryCellsC tryCells
  have key : ∀ (post pre : List (Nat × NSet)) (a : Bool × Cont), nb = pre ++ post → a.2.thresh = c.thresh →
      MidApart g.nbC old cc.fcs (pre.map Prod.fst) a.2.ccs → (a.1 = false → a.2 = c) →
      post.foldlM (fun (a : Bool × Cont) e =>
        if e.2.card = 0 then pure a
        else do
          let o ← selectCCC mx g a.2.ccs e.1 e.2
          match o with
          | none => pure a
          | some r => do
            let c ← moveCellC mx a.2 e.1 r
            pure (true, c)) a =
      (post.foldlM (fun (a : Bool × Cont) e =>
        if e.2.card = 0 then pure a
        else do
          let o ← selectCC g a.2.ccs e.1 e.2
          match o with
          | none => pure a
          | some r => do
            let c ← moveCell a.2 e.1 r
            pure (true, c)) a : M _) ∧
      ∀ r, post.foldlM (fun (a : Bool × Cont) e =>
        if e.2.card = 0 then pure a
        else do
          let o ← selectCC g a.2.ccs e.1 e.2
          match o with
          | none => pure a
          | some r => do
            let c ← moveCell a.2 e.1 r
            pure (true, c)) a = (.ok r : M _) → r.2.thresh = c.thresh ∧ (r.1 = true → Apart g.nbC (fun k => k = old) r.2.ccs) ∧
        (r.1 = false → r.2 = c) := by
    intro post
    induction post with
    | nil =>
      intro pre a _ ht hM hf
      refine ⟨rfl, ?_⟩
      intro r hr
      cases hr
      exact ⟨ht, fun _ => hM.apart, hf⟩
    | cons e post ih =>
      intro pre a hsp ht hM hf
      rw [List.foldlM_cons, List.foldlM_cons]
      have hnext : MidApart g.nbC old cc.fcs ((pre ++ [e]).map Prod.fst) a.2.ccs :=
        ⟨hM.apart, fun k d hk hkd x hx hxf => by
          rw [List.map_append]; exact List.mem_append_left _ (hM.moved k d hk hkd x hx hxf)⟩
      have hsp' : nb = (pre ++ [e]) ++ post := by simp [hsp]
      by_cases h0 : e.2.card = 0
      · rw [if_pos h0, if_pos h0, pure_bind, pure_bind]
        exact ih (pre ++ [e]) a hsp' ht hnext hf
      rw [if_neg h0, if_neg h0]
      have hee : e ∈ nb := by rw [hsp]; simp
      have he1 := hmem e hee
      have he2 := hnb e hee
      have henew : e.1 ∉ pre.map Prod.fst := by
        rw [hsp, List.map_append, List.map_cons, List.nodup_append] at hnd
        intro hh
        exact hnd.2.2 _ hh _ (by simp) rfl
      have hsel := selectCCC_eq hv hR (ccs := a.2.ccs) (hfcs _ he1) (neighs := e.2) (fun k hk d hd =>
        hM.apart.lt k d (fun h => he2 (h ▸ hk)) hd)
      rw [hsel.1]
      cases hso : selectCC g a.2.ccs e.1 e.2 with
      | error er =>
        refine ⟨rfl, ?_⟩
        intro r hr
        cases hr
      | ok o =>
        rw [ok_bind, ok_bind]
        cases o with
        | none =>
          simp only [pure_bind]
          exact ih (pre ++ [e]) a hsp' ht hnext hf
        | some q =>
          simp only
          have hq : q.1 ≠ old := fun h => he2 (h ▸ hsel.2 q hso)
          have hmove : moveCellC mx a.2 e.1 q = moveCell a.2 e.1 q := by
            unfold moveCellC moveCell
            refine bind_congr_ok (fun f _ => ?_)
            refine bind_congr_ok (fun cc' hat => ?_)
            · have hcc' := NMap.at_eq.1 hat
              have h1 := hM.apart.card q.1 cc' hq hcc'
              have h2 : (cc'.fcs.insert e.1).card ≤ g.nbC := card_le_n (fun x hx => by
                rcases NSet.mem_insert.1 hx with rfl | hx
                · exact hfcs _ he1
                · exact hM.apart.lt q.1 cc' hq hcc' x hx)
              have h3 : e.1 ∉ cc'.fcs := fun h => henew (hM.moved q.1 cc' hq hcc' _ h he1)
              rw [NSet.card_insert h3] at h2
              rw [fits_ok, ok_bind]
              intro x hx
              simp only [List.mem_cons, List.not_mem_nil, or_false] at hx
              subst hx
              omega
          rw [hmove]
          cases hmv : moveCell a.2 e.1 q with
          | error er =>
            refine ⟨rfl, ?_⟩
            intro r hr
            cases hr
          | ok c' =>
            simp only [ok_bind, pure_bind]
            unfold moveCell at hmv
            obtain ⟨f, _, hmv⟩ := bind_ok_iff.1 hmv
            obtain ⟨cc', hcc', hmv⟩ := bind_ok_iff.1 hmv
            cases hmv
            have hcc' := NMap.at_eq.1 hcc'
            have h3 : e.1 ∉ cc'.fcs := fun h => henew (hM.moved q.1 cc' hq hcc' _ h he1)
            refine ih (pre ++ [e]) _ hsp' ht ⟨⟨?_, ?_, ?_⟩, ?_⟩ (by simp)
            · intro k d hk hkd x hx
              simp only [NMap.find?_insert] at hkd
              split at hkd
              · cases hkd
                rcases NSet.mem_insert.1 hx with rfl | hx
                · exact hfcs _ he1
                · exact hM.apart.lt q.1 cc' hq hcc' x hx
              · exact hM.apart.lt k d hk hkd x hx
            · intro k d hk hkd
              simp only [NMap.find?_insert] at hkd
              split at hkd
              · cases hkd
                show cc'.card + 1 = (cc'.fcs.insert e.1).card
                rw [NSet.card_insert h3, hM.apart.card q.1 cc' hq hcc']
              · exact hM.apart.card k d hk hkd
            · intro k l d d' hk hl hkl hkd hld x hx hx'
              have hout : ∀ k d, k ≠ old → a.2.ccs.find? k = some d → e.1 ∉ d.fcs :=
                fun k d hk hkd h => henew (hM.moved k d hk hkd _ h he1)
              simp only [NMap.find?_insert] at hkd hld
              split at hkd
              · rename_i hkr
                rw [if_neg (by rw [← hkr]; exact fun h => hkl h.symm)] at hld
                cases hkd
                rcases NSet.mem_insert.1 hx with rfl | hx
                · exact hout l d' hl hld hx'
                · exact hM.apart.disj q.1 l cc' d' hq hl (by rw [← hkr]; exact hkl) hcc' hld x hx hx'
              · split at hld
                · rename_i hlr
                  cases hld
                  rcases NSet.mem_insert.1 hx' with rfl | hx'
                  · exact hout k d hk hkd hx
                  · exact hM.apart.disj q.1 k cc' d hq hk (by rw [← hlr]; exact fun h => hkl h.symm) hcc' hkd x hx' hx
                · exact hM.apart.disj k l d d' hk hl hkl hkd hld x hx hx'
            · intro k d hk hkd x hx hxf
              rw [List.map_append, List.mem_append]
              simp only [NMap.find?_insert] at hkd
              split at hkd
              · cases hkd
                rcases NSet.mem_insert.1 hx with rfl | hx
                · exact Or.inr (by simp)
                · exact Or.inl (hM.moved q.1 cc' hq hcc' x hx hxf)
              · exact Or.inl (hM.moved k d hk hkd x hx hxf)
  refine key nb [] (false, c) rfl rfl ⟨⟨fun k d _ => hA.lt k d (fun h => h), fun k d _ => hA.card k d (fun h => h),
    fun k l d d' _ _ => hA.disj k l d d' (fun h => h) (fun h => h)⟩, ?_⟩ (fun _ => rfl)
  intro k d hk hkd x hx hxf
  exact absurd hxf (hA.disj k old d cc (fun h => h) (fun h => h) hk hkd hold x hx)

theorem dropCC_apart {n : Nat} {c : Cont} {rm : NSet} {old : Nat} (h : Apart n (fun k => k = old) c.ccs) :
    Apart n (fun _ => False) (dropCC c rm old).1.ccs ∧ (dropCC c rm old).1.thresh = c.thresh := by
  unfold dropCC
  have key : ∀ k cc, (c.ccs.erase old).find? k = some cc → k ≠ old ∧ c.ccs.find? k = some cc := by
    intro k cc hk
    rw [NMap.find?_erase] at hk
    split at hk
    · cases hk
    · rename_i hne
      exact ⟨hne, hk⟩
  refine ⟨⟨?_, ?_, ?_⟩, rfl⟩
  · intro k cc _ hk
    exact h.lt k cc (key k cc hk).1 (key k cc hk).2
  · intro k cc _ hk
    exact h.card k cc (key k cc hk).1 (key k cc hk).2
  · intro k l cc cc' _ _ hkl hk hl
    exact h.disj k l cc cc' (key k cc hk).1 (key l cc' hl).1 hkl (key k cc hk).2 (key l cc' hl).2

theorem correctStepC_eq {h : Hash} {a : Cont × NSet} (hA : Apart g.nbC (fun _ => False) a.1.ccs) (old : Nat) :
    correctStepC mx g h a old = correctStep g h a old ∧
      ∀ r, correctStep g h a old = .ok r → Apart g.nbC (fun _ => False) r.1.ccs := by
  unfold correctStepC correctStep
  cases hat : a.1.ccs.at! old with
  | error e => exact ⟨rfl, fun r hr => by cases hr⟩
  | ok cc =>
    rw [ok_bind, ok_bind]
    have hold := NMap.at_eq.1 hat
    by_cases hc : cc.card ≤ a.1.thresh
    swap
    · rw [if_neg hc, if_neg hc]
      exact ⟨rfl, fun r hr => by cases hr; exact hA⟩
    rw [if_pos hc, if_pos hc]
    cases hnb : neighsByFc g h a.1 old cc.fcs with
    | error e => exact ⟨rfl, fun r hr => by cases hr⟩
    | ok nb =>
      rw [ok_bind, ok_bind]
      obtain ⟨h1, h2⟩ := neighsByFc_mem hv hR hnb
      have hperm : (nb.map Prod.fst).Perm cc.fcs.elems := by rw [h1]; exact h.perm 5 _
      obtain ⟨hw1, hw2⟩ := tryWholeC_eq hv hR hA hold h2
      obtain ⟨ht1, ht2⟩ := tryCellsC_eq hv hR hA hold h2 (hperm.nodup_iff.2 cc.fcs.nodup)
        (fun e he => NSet.mem_elems.1 (hperm.mem_iff.1 (List.mem_map_of_mem he)))
      rw [hw1]
      cases hw : tryWhole g a.1 cc nb with
      | error e => exact ⟨rfl, fun r hr => by cases hr⟩
      | ok w =>
        rw [ok_bind, ok_bind]
        cases w with
        | some c =>
          refine ⟨rfl, fun r hr => ?_⟩
          cases hr
          exact (dropCC_apart hv hR (hw2 c hw).1).1
        | none =>
          simp only
          rw [ht1]
          cases ht : tryCells g a.1 nb with
          | error e => exact ⟨rfl, fun r hr => by cases hr⟩
          | ok t =>
            refine ⟨rfl, fun r hr => ?_⟩
            rw [ok_bind] at hr
            cases hr
            obtain ⟨_, g2, g3⟩ := ht2 t ht
            cases hb : t.1 with
            | true =>
              rw [if_pos rfl]
              exact (dropCC_apart hv hR (g2 hb)).1
            | false =>
              rw [if_neg (by simp), g3 hb]
              exact hA

theorem correctC_eq {h : Hash} {c : Cont} (hA : Apart g.nbC (fun _ => False) c.ccs) : correctC mx g h c = c.correct g h := by
  unfold correctC Cont.correct
  have key : ∀ (l : List Nat) (a : Cont × NSet), Apart g.nbC (fun _ => False) a.1.ccs →
      l.foldlM (correctStepC mx g h) a = l.foldlM (correctStep g h) a := by
    intro l
    induction l with
    | nil => intro a _; rfl
    | cons k l ih =>
      intro a ha
      rw [List.foldlM_cons, List.foldlM_cons, (correctStepC_eq hv hR ha k).1]
      exact bind_congr_ok (fun r hr => ih r ((correctStepC_eq hv hR ha k).2 r hr))
  rw [key _ _ hA]
  rfl

end

theorem apart_of_cinv {n : Nat} {c : Cont} (h : CInv n c) : Apart n (fun _ => False) c.ccs := by
  refine ⟨?_, ?_, ?_⟩
  · intro k cc _ hk x hx
    have h1 := (h.part k cc hk x).1 hx
    rw [← h.lenF]
    exact (List.getElem?_eq_some_iff.1 h1).1
  · intro k cc _ hk
    exact (h.card k cc hk).1
  · intro k l cc cc' _ _ hkl hk hl x hx hx'
    have h1 := (h.part k cc hk x).1 hx
    have h2 := (h.part l cc' hl x).1 hx'
    rw [h1] at h2
    simp only [Option.some.injEq] at h2
    exact hkl h2

end CoMMA
