import Verif.Lemmas.TopLevel
/-! # Correction with any threshold, when small cells are surrounded by large ones -/

set_option linter.unusedSectionVars false

namespace CoMMA

variable {W : Type} [Num W]

/-- a property that survives the union of two coarse cells with a common face -/
def AbsorbsAll (g : Graph W) (Q : NSet → Nat → Prop) : Prop :=
  ∀ s k u l x y k', Q s k → Q u l → (∀ z ∈ s, z < g.nbC) → (∀ z ∈ u, z < g.nbC) → x ∈ u → y ∈ s →
    Adj g.rowPtr g.colInd x y → g.minCompactness (s.insertMany u.elems) = .ok k' → Q (s.insertMany u.elems) k'

def LargeCC (c0 : Cont) (k : Nat) : Prop := ∃ cc, c0.ccs.find? k = some cc ∧ cc.iso = true ∧ c0.thresh < cc.card

def NearLarge (g : Graph W) (c0 : Cont) (x : Nat) : Prop :=
  ∃ y k, Adj g.rowPtr g.colInd x y ∧ c0.fc2cc[y]? = some (some k) ∧ LargeCC c0 k

def ClosedCC (g : Graph W) (c0 : Cont) (k : Nat) : Prop :=
  ∀ x y : Nat, c0.fc2cc[x]? = some (some k) → Adj g.rowPtr g.colInd x y →
    c0.fc2cc[y]? = some (some k) ∨ ∃ k' cc', c0.fc2cc[y]? = some (some k') ∧ c0.ccs.find? k' = some cc' ∧ cc'.iso = false

def SurroundedC (g : Graph W) (c0 : Cont) : Prop :=
  ∀ k cc, c0.ccs.find? k = some cc → cc.iso = true → cc.card ≤ c0.thresh →
    (∀ x ∈ cc.fcs, NearLarge g c0 x) ∨ ClosedCC g c0 k

/-- state of the loop over the small cells -/
structure SInv (g : Graph W) (Q : NSet → Nat → Prop) (c0 : Cont) (pre : List Nat) (c : Cont) (rem : NSet) : Prop where
  len : c.fc2cc.length = g.nbC
  total : ∀ i : Nat, i < g.nbC → ∃ k, c.fc2cc[i]? = some (some k)
  keys : ∀ k, k ∈ c.ccs.keys ↔ k < c0.counter ∧ k ∉ rem
  range : ∀ (i : Nat) k, c.fc2cc[i]? = some (some k) → k ∈ c.ccs.keys
  part : ∀ k cc, c.ccs.find? k = some cc → ∀ i : Nat, i ∈ cc.fcs ↔ c.fc2cc[i]? = some (some k)
  card : ∀ k cc, c.ccs.find? k = some cc → cc.card = cc.fcs.card ∧ 0 < cc.card
  isoK : ∀ k cc, c.ccs.find? k = some cc → ∃ cc0, c0.ccs.find? k = some cc0 ∧ cc.iso = cc0.iso
  flag : ∀ (i : Nat) k cc k0 cc0, c.fc2cc[i]? = some (some k) → c.ccs.find? k = some cc →
    c0.fc2cc[i]? = some (some k0) → c0.ccs.find? k0 = some cc0 → cc.iso = cc0.iso
  aniso : ∀ k cc0, c0.ccs.find? k = some cc0 → cc0.iso = false → c.ccs.find? k = some cc0
  stay : ∀ k cc0, c0.ccs.find? k = some cc0 → c0.thresh < cc0.card → ∀ i : Nat, i ∈ cc0.fcs → c.fc2cc[i]? = some (some k)
  closed : ∀ k cc0, c0.ccs.find? k = some cc0 → cc0.iso = true → cc0.card ≤ c0.thresh → ClosedCC g c0 k →
    c.ccs.find? k = some cc0
  near : ∀ (i : Nat) k, c.fc2cc[i]? = some (some k) → c0.fc2cc[i]? = some (some k) ∨ NearLarge g c0 i
  good : ∀ k cc, c.ccs.find? k = some cc → cc.iso = true → Q cc.fcs cc.compact
  left : ∀ k ∈ pre, ∀ cc, c.ccs.find? k = some cc →
    c0.thresh < cc.card ∨ (ClosedCC g c0 k ∧ c0.ccs.find? k = some cc)
  remIn : ∀ k ∈ rem, k ∈ pre
  thresh : c.thresh = c0.thresh

theorem SInv.lt {g : Graph W} {Q : NSet → Nat → Prop} {c0 c : Cont} {pre : List Nat} {rem : NSet}
    (h : SInv g Q c0 pre c rem) {k : Nat} {cc : CC} (hk : c.ccs.find? k = some cc) : ∀ x ∈ cc.fcs, x < g.nbC := by
  intro x hx
  have := (h.part k cc hk x).1 hx
  rw [← h.len]
  exact (List.getElem?_eq_some_iff.1 this).1

theorem SInv_init {g : Graph W} {Q : NSet → Nat → Prop} {c : Cont} (h : CInv g.nbC c)
    (hQ : ∀ k cc, c.ccs.find? k = some cc → cc.iso = true → Q cc.fcs cc.compact)
    (hcomp : ∀ i : Nat, i < g.nbC → ∃ k, c.fc2cc[i]? = some (some k)) : SInv g Q c [] c NSet.empty where
  len := h.lenF
  total := hcomp
  keys k := by rw [h.keys]; simp
  range i k hk := (h.keys k).2 (h.range i k hk)
  part := h.part
  card := h.card
  isoK k cc hk := ⟨cc, hk, rfl⟩
  flag i k cc k0 cc0 h1 h2 h3 h4 := by
    rw [h1] at h3; cases h3; rw [h2] at h4; cases h4; rfl
  aniso k cc hk _ := hk
  stay k cc hk _ i hi := (h.part k cc hk i).1 hi
  closed k cc hk _ _ _ := hk
  near i k hk := Or.inl hk
  good := hQ
  left k hk := by simp at hk
  remIn k hk := by simp at hk
  thresh := rfl

/-- effect of giving the cells `pre` of the coarse cell `old` to other ones -/
structure Given (g : Graph W) (Q : NSet → Nat → Prop) (c : Cont) (old : Nat) (occ : CC) (pre : List Nat) (c' : Cont) :
    Prop where
  len : c'.fc2cc.length = c.fc2cc.length
  out : ∀ i : Nat, i ∉ pre → c'.fc2cc[i]? = c.fc2cc[i]?
  moved : ∀ i ∈ pre, ∃ r rcc, c'.fc2cc[i]? = some (some r) ∧ r ≠ old ∧ c.ccs.find? r = some rcc ∧ rcc.iso = true ∧
    ∃ x ∈ occ.fcs, ∃ y, Adj g.rowPtr g.colInd x y ∧ c.fc2cc[y]? = some (some r)
  keys : ∀ k, k ∈ c'.ccs.keys ↔ k ∈ c.ccs.keys
  same : ∀ k cc', k ≠ old → c'.ccs.find? k = some cc' → ∃ cc, c.ccs.find? k = some cc ∧ cc'.iso = cc.iso ∧
    cc.card ≤ cc'.card ∧ cc'.card = cc'.fcs.card ∧ (∀ i : Nat, i ∈ cc'.fcs ↔ c'.fc2cc[i]? = some (some k)) ∧
    ((∀ i ∈ pre, c'.fc2cc[i]? ≠ some (some k)) → cc' = cc) ∧ (cc'.iso = true → Q cc'.fcs cc'.compact)
  thresh : c'.thresh = c.thresh

theorem SInv.drop {g : Graph W} {Q : NSet → Nat → Prop} (hsym : SymmetricCRS g.rowPtr g.colInd) {c0 c c' : Cont}
    (hc0 : CInv g.nbC c0) {pre : List Nat} {rem : NSet} (h : SInv g Q c0 pre c rem) {old : Nat} {occ : CC}
    (hold : c.ccs.find? old = some occ) (hoi : occ.iso = true) (hsmall : occ.card ≤ c0.thresh)
    (hnear : ∀ x ∈ occ.fcs, NearLarge g c0 x) {mv : List Nat} (hmv : ∀ i, i ∈ mv ↔ i ∈ occ.fcs)
    (hg : Given g Q c old occ mv c') :
    SInv g Q c0 (pre ++ [old]) (dropCC c' rem old).1 (dropCC c' rem old).2 := by
  unfold dropCC
  simp only
  have hcold : ∀ i : Nat, i ∈ mv ↔ c.fc2cc[i]? = some (some old) := by
    intro i; rw [hmv, h.part old occ hold]
  have hkeys : ∀ k, k ∈ (c'.ccs.erase old).keys ↔ k ∈ c.ccs.keys ∧ k ≠ old := by
    intro k; rw [NMap.mem_keys_erase, hg.keys]
  have hfind : ∀ {k cc}, (c'.ccs.erase old).find? k = some cc → k ≠ old ∧ c'.ccs.find? k = some cc := by
    intro k cc hk
    rw [NMap.find?_erase] at hk
    by_cases hko : k = old
    · rw [if_pos hko] at hk; cases hk
    · rw [if_neg hko] at hk; exact ⟨hko, hk⟩
  have hnotclosed : ∀ cc0, c0.ccs.find? old = some cc0 → cc0.iso = true → cc0.card ≤ c0.thresh → ¬ ClosedCC g c0 old := by
    intro cc0 h1 h2 h3 hcl
    have h4 := h.closed old cc0 h1 h2 h3 hcl
    rw [hold] at h4
    cases h4
    have hpos := (hc0.card old occ h1)
    obtain ⟨x, hx⟩ := NSet.card_pos_iff.1 (show 0 < occ.fcs.card by omega)
    obtain ⟨y, k, hxy, hyk, ⟨cck, g1, g2, g3⟩⟩ := hnear x hx
    rcases hcl x y ((hc0.part old occ h1 x).1 hx) hxy with g4 | ⟨k', cc', g4, g5, g6⟩
    · rw [hyk] at g4
      cases g4
      rw [h1] at g1; cases g1; omega
    · rw [hyk] at g4
      cases g4
      rw [g1] at g5; cases g5; rw [g2] at g6; cases g6
  -- cells outside `old` that receive nothing
  have hkeep : ∀ k cc, k ≠ old → c.ccs.find? k = some cc → (∀ i ∈ mv, c'.fc2cc[i]? ≠ some (some k)) →
      (c'.ccs.erase old).find? k = some cc := by
    intro k cc hko hk hno
    obtain ⟨cc', hcc'⟩ := NMap.mem_keys.1 ((hg.keys k).2 (NMap.mem_keys.2 ⟨cc, hk⟩))
    obtain ⟨cc1, g1, _, _, _, _, g2, _⟩ := hg.same k cc' hko hcc'
    rw [hk] at g1; cases g1
    rw [NMap.find?_erase, if_neg hko, hcc', g2 hno]
  have hnoA : ∀ k cc, c.ccs.find? k = some cc → cc.iso = false → ∀ i ∈ mv, c'.fc2cc[i]? ≠ some (some k) := by
    intro k cc hk hiso i hi he
    obtain ⟨r, rcc, g1, _, g2, g3, _⟩ := hg.moved i hi
    rw [he] at g1
    cases g1
    rw [hk] at g2; cases g2; rw [hiso] at g3; cases g3
  refine ⟨by show c'.fc2cc.length = _; rw [hg.len, h.len], ?_, ?_, ?_, ?_, ?_, ?_, ?_, ?_, ?_, ?_, ?_, ?_, ?_, ?_, ?_⟩
  · intro i hi
    show ∃ k, c'.fc2cc[i]? = some (some k)
    by_cases him : i ∈ mv
    · obtain ⟨r, _, g1, _⟩ := hg.moved i him
      exact ⟨r, g1⟩
    · rw [hg.out i him]; exact h.total i hi
  · intro k
    show k ∈ (c'.ccs.erase old).keys ↔ _
    rw [hkeys, h.keys, NSet.mem_insert]
    constructor
    · rintro ⟨⟨h1, h2⟩, h3⟩; exact ⟨h1, by rintro (h4 | h4); exacts [h3 h4, h2 h4]⟩
    · rintro ⟨h1, h2⟩; exact ⟨⟨h1, fun h4 => h2 (Or.inr h4)⟩, fun h4 => h2 (Or.inl h4)⟩
  · intro i k hk
    show k ∈ (c'.ccs.erase old).keys
    replace hk : c'.fc2cc[i]? = some (some k) := hk
    rw [hkeys]
    by_cases him : i ∈ mv
    · obtain ⟨r, rcc, g1, g2, g3, _⟩ := hg.moved i him
      rw [hk] at g1
      cases g1
      exact ⟨NMap.mem_keys.2 ⟨rcc, g3⟩, g2⟩
    · rw [hg.out i him] at hk
      refine ⟨h.range i k hk, ?_⟩
      rintro rfl
      exact him ((hcold i).2 hk)
  · intro k cc hk i
    obtain ⟨h1, h2⟩ := hfind hk
    obtain ⟨_, _, _, _, _, g1, _, _⟩ := hg.same k cc h1 h2
    exact g1 i
  · intro k cc hk
    obtain ⟨h1, h2⟩ := hfind hk
    obtain ⟨cc1, g1, _, g2, g3, _, _, _⟩ := hg.same k cc h1 h2
    exact ⟨g3, by have := (h.card k cc1 g1).2; omega⟩
  · intro k cc hk
    obtain ⟨h1, h2⟩ := hfind hk
    obtain ⟨cc1, g1, g2, _, _, _, _, _⟩ := hg.same k cc h1 h2
    obtain ⟨cc0, g3, g4⟩ := h.isoK k cc1 g1
    exact ⟨cc0, g3, by rw [g2, g4]⟩
  · intro i k cc k0 cc0 h1 h2 h3 h4
    replace h1 : c'.fc2cc[i]? = some (some k) := h1
    obtain ⟨hko, h2⟩ := hfind h2
    obtain ⟨cc1, g1, g2, _, _, _, _, _⟩ := hg.same k cc hko h2
    rw [g2]
    by_cases him : i ∈ mv
    · obtain ⟨r, rcc, e1, _, e2, e3, _⟩ := hg.moved i him
      rw [h1] at e1
      cases e1
      rw [g1] at e2
      cases e2
      rw [e3, ← h.flag i old occ k0 cc0 ((hcold i).1 him) hold h3 h4, hoi]
    · rw [hg.out i him] at h1
      exact h.flag i k cc1 k0 cc0 h1 g1 h3 h4
  · intro k cc0 hk hiso
    have h1 := h.aniso k cc0 hk hiso
    refine hkeep k cc0 ?_ h1 (hnoA k cc0 h1 hiso)
    rintro rfl
    rw [hold] at h1; cases h1; rw [hoi] at hiso; cases hiso
  · intro k cc0 hk hcard i hi
    show c'.fc2cc[i]? = some (some k)
    have hs := h.stay k cc0 hk hcard i hi
    rw [hg.out i, hs]
    intro him
    rw [hcold, hs] at him
    cases him
    have hsub : ∀ a, a ∈ cc0.fcs → a ∈ occ.fcs := by
      intro a ha
      exact (h.part _ occ hold a).2 (h.stay _ cc0 hk hcard a ha)
    have h1 := NSet.card_le_of_subset hsub
    rw [← (hc0.card _ cc0 hk).1, ← (h.card _ occ hold).1] at h1
    omega
  · intro k cc0 hk hiso hcard hcl
    have h1 := h.closed k cc0 hk hiso hcard hcl
    refine hkeep k cc0 ?_ h1 ?_
    · rintro rfl
      exact hnotclosed cc0 hk hiso hcard hcl
    · intro i hi he
      obtain ⟨r, rcc, e1, e2, e3, e4, x, hx, y, hxy, hy⟩ := hg.moved i hi
      rw [he] at e1
      cases e1
      have hyk : c0.fc2cc[y]? = some (some k) := (hc0.part k cc0 hk y).1 ((h.part k cc0 h1 y).2 hy)
      have hxo := (h.part old occ hold x).1 hx
      rcases hcl y x hyk (hsym _ _ hxy) with g1 | ⟨k', cc', g1, g2, g3⟩
      · have := (h.part k cc0 h1 x).1 ((hc0.part k cc0 hk x).2 g1)
        rw [hxo] at this
        cases this
        exact e2 rfl
      · rw [← h.flag x old occ k' cc' hxo hold g1 g2, hoi] at g3
        cases g3
  · intro i k hk
    replace hk : c'.fc2cc[i]? = some (some k) := hk
    by_cases him : i ∈ mv
    · exact Or.inr (hnear i ((hmv i).1 him))
    · rw [hg.out i him] at hk
      exact h.near i k hk
  · intro k cc hk hiso
    obtain ⟨h1, h2⟩ := hfind hk
    obtain ⟨_, _, _, _, _, _, _, g1⟩ := hg.same k cc h1 h2
    exact g1 hiso
  · intro k hkp cc hk
    obtain ⟨hko, h2⟩ := hfind hk
    obtain ⟨cc1, g1, g2, g3, _, _, g5, _⟩ := hg.same k cc hko h2
    have hkp' : k ∈ pre := by
      rcases List.mem_append.1 hkp with hp | hp
      · exact hp
      · simp at hp; exact absurd hp hko
    rcases h.left k hkp' cc1 g1 with h3 | ⟨h3, h4⟩
    · left; omega
    · by_cases hc : c0.thresh < cc.card
      · exact Or.inl hc
      · right
        refine ⟨h3, ?_⟩
        rw [h4, g5]
        intro i hi he
        obtain ⟨r, rcc, e1, e2, e3, e4, x, hx, y, hxy, hy⟩ := hg.moved i hi
        rw [he] at e1
        cases e1
        have hyk : c0.fc2cc[y]? = some (some k) := (hc0.part k cc1 h4 y).1 ((h.part k cc1 g1 y).2 hy)
        have hxo := (h.part old occ hold x).1 hx
        rcases h3 y x hyk (hsym _ _ hxy) with f1 | ⟨k', cc', f1, f2, f3⟩
        · have := (h.part k cc1 g1 x).1 ((hc0.part k cc1 h4 x).2 f1)
          rw [hxo] at this
          cases this
          exact e2 rfl
        · rw [← h.flag x old occ k' cc' hxo hold f1 f2, hoi] at f3
          cases f3
  · intro k hk
    rcases NSet.mem_insert.1 hk with rfl | hk
    · simp
    · exact List.mem_append_left _ (h.remIn k hk)
  · show c'.thresh = _
    rw [hg.thresh, h.thresh]

/-- nothing happens to a cell -/
theorem SInv.skip {g : Graph W} {Q : NSet → Nat → Prop} {c0 c : Cont} {pre : List Nat} {rem : NSet}
    (h : SInv g Q c0 pre c rem) {old : Nat}
    (hl : ∀ cc, c.ccs.find? old = some cc → c0.thresh < cc.card ∨ (ClosedCC g c0 old ∧ c0.ccs.find? old = some cc)) :
    SInv g Q c0 (pre ++ [old]) c rem :=
  { h with
    left := by
      intro k hk
      rcases List.mem_append.1 hk with hk | hk
      · exact h.left k hk
      · simp at hk; subst hk; exact hl
    remIn := fun k hk => List.mem_append_left _ (h.remIn k hk) }

/-! ## The two tries -/

theorem neighsByFc_ok {g : Graph W} (hv : ValidCRS g.nbC g.rowPtr g.colInd) (hh : Hash) {c : Cont}
    (hf : ∀ j, j < g.nbC → ∃ k, c.fc2cc[j]? = some (some k)) (old : Nat) {s : NSet} (hs : ∀ x ∈ s, x < g.nbC) :
    Ok (neighsByFc g hh c old s) (fun nb => nb.map Prod.fst = hh.ord 5 s.elems ∧
      ∀ e ∈ nb, ∀ k, k ∈ e.2 ↔ k ≠ old ∧ ∃ j, Adj g.rowPtr g.colInd e.1 j ∧ c.fc2cc[j]? = some (some k)) := by
  unfold neighsByFc
  have hlt : ∀ x ∈ hh.ord 5 s.elems, x < g.nbC := fun x hx => hs x (NSet.mem_elems.1 ((hh.perm 5 _).mem_iff.1 hx))
  generalize hh.ord 5 s.elems = l at hlt
  induction l with
  | nil => exact ⟨rfl, by simp⟩
  | cons x l ih =>
    rw [List.mapM_cons]
    refine Ok.bind (P := fun (e : Nat × NSet) => e.1 = x ∧ ∀ k, k ∈ e.2 ↔ k ≠ old ∧ ∃ j, Adj g.rowPtr g.colInd x j ∧
      c.fc2cc[j]? = some (some k)) ?_ ?_
    · refine Ok.bind (neighsCC_ok hv hf (hlt x (by simp)) old) ?_
      intro s' hs'
      exact ⟨rfl, hs'⟩
    · rintro e ⟨he1, he2⟩
      refine Ok.bind (ih (fun y hy => hlt y (by simp [hy]))) ?_
      rintro r ⟨h1, h2⟩
      rw [Ok_pure]
      refine ⟨by simp [he1, h1], ?_⟩
      intro e' he'
      rcases List.mem_cons.1 he' with rfl | he'
      · rw [he1]; exact he2
      · exact h2 e' he'

theorem selectWhole_ok {g : Graph W} (hv : ValidCRS g.nbC g.rowPtr g.colInd) {ccs : NMap CC} {fcs neighs : NSet}
    (hfc : ∀ x ∈ fcs, x < g.nbC)
    (hn : ∀ k ∈ neighs, ∃ cc, ccs.find? k = some cc ∧ ∀ x ∈ cc.fcs, x < g.nbC) :
    Ok (selectWhole g ccs fcs neighs) (fun o => ∀ id m, o = some (id, m) → id ∈ neighs ∧
      ∃ cc, ccs.find? id = some cc ∧ cc.iso = true ∧ g.minCompactness (cc.fcs.insertMany fcs.elems) = .ok m) := by
  unfold selectWhole
  refine Ok.bind (P := fun (l : List (Nat × Nat × Nat)) => ∀ e ∈ l, e.1 ∈ neighs ∧
    ∃ cc, ccs.find? e.1 = some cc ∧ cc.iso = true ∧ g.minCompactness (cc.fcs.insertMany fcs.elems) = .ok e.2.2) ?_ ?_
  · unfold wholeRecs
    refine Ok.foldlM_prefix (I := fun (_ : List Nat) (l : List (Nat × Nat × Nat)) => ∀ e ∈ l, e.1 ∈ neighs ∧
      ∃ cc, ccs.find? e.1 = some cc ∧ cc.iso = true ∧ g.minCompactness (cc.fcs.insertMany fcs.elems) = .ok e.2.2) (by simp) ?_
    intro pre k post l hsp hI
    have hkn : k ∈ neighs := by rw [← NSet.mem_elems, hsp]; simp
    obtain ⟨cc, hcc, hlt⟩ := hn k hkn
    rw [NMap.at_eq.2 hcc, ok_bind]
    by_cases hiso : cc.iso = true
    · rw [if_pos hiso]
      obtain ⟨m, hm, _⟩ := (minCompactness_ok hv (s := cc.fcs.insertMany fcs.elems) (by
        intro x hx
        rcases NSet.mem_insertMany.1 hx with hx | hx
        · exact hfc x hx
        · exact hlt x hx)).eq
      rw [hm, ok_bind, Ok_pure]
      intro e he
      split at he
      · rcases List.mem_append.1 he with he | he
        · exact hI e he
        · rw [List.mem_singleton] at he
          subst he
          exact ⟨hkn, cc, hcc, hiso, hm⟩
      · exact hI e he
    · rw [if_neg hiso, Ok_pure]; exact hI
  · intro l hl
    split
    · rename_i r rest
      rw [Ok_pure]
      intro id m he
      have hfold : ∀ (l : List (Nat × Nat × Nat)) (r : Nat × Nat × Nat),
          l.foldl (fun r x => if x.2.1 < r.2.1 then x else r) r ∈ r :: l := by
        intro l
        induction l with
        | nil => intro r; simp
        | cons y l ih =>
          intro r
          rw [List.foldl_cons]
          rcases List.mem_cons.1 (ih (if y.2.1 < r.2.1 then y else r)) with h | h
          · rw [h]; split <;> simp
          · simp [h]
      have h1 := hl _ (hfold rest r)
      simp only [Option.some.injEq, Prod.mk.injEq] at he
      rw [← he.1, ← he.2]
      exact h1
    · rw [Ok_pure]; intro id m he; cases he

theorem card_insertMany_disjoint {s u : NSet} (h : ∀ x ∈ u, x ∉ s) : (s.insertMany u.elems).card = s.card + u.card := by
  have h1 := NSet.card_perm (s := s.insertMany u.elems) (l := s.elems ++ u.elems) (by
    rw [List.nodup_append]
    refine ⟨s.sorted.imp Nat.ne_of_lt, u.sorted.imp Nat.ne_of_lt, ?_⟩
    intro a ha b hb hab
    subst hab
    exact h a hb ha) (by
    intro a
    rw [NSet.mem_insertMany, List.mem_append, or_comm]; rfl)
  rw [h1, List.length_append]; rfl

theorem tryWhole_given {g : Graph W} (hv : ValidCRS g.nbC g.rowPtr g.colInd) {Q : NSet → Nat → Prop} (hA : AbsorbsAll g Q)
    {c0 c : Cont} {pre : List Nat} {rem : NSet} (h : SInv g Q c0 pre c rem) {old : Nat} {occ : CC}
    (hold : c.ccs.find? old = some occ) (hoi : occ.iso = true) {nb : List (Nat × NSet)}
    (hnb : ∀ e ∈ nb, e.1 ∈ occ.fcs ∧ ∀ k, k ∈ e.2 ↔ k ≠ old ∧ ∃ j, Adj g.rowPtr g.colInd e.1 j ∧ c.fc2cc[j]? = some (some k)) :
    Ok (tryWhole g c occ nb) (fun o => ∀ c', o = some c' → Given g Q c old occ occ.fcs.elems c' ∧
      ∃ e ∈ nb, ∃ r ∈ e.2, ∃ rcc, c.ccs.find? r = some rcc ∧ rcc.iso = true) := by
  unfold tryWhole
  have htriv : Ok (pure none : M (Option Cont)) (fun o => ∀ c', o = some c' → Given g Q c old occ occ.fcs.elems c' ∧
      ∃ e ∈ nb, ∃ r ∈ e.2, ∃ rcc, c.ccs.find? r = some rcc ∧ rcc.iso = true) := by
    rw [Ok_pure]; intro c' he; cases he
  by_cases h1 : 1 < occ.card
  · rw [if_pos h1]
    simp only
    generalize hglob : nb.foldl (fun (s : NSet) e => s.insertMany e.2.elems) NSet.empty = glob
    have hmem : ∀ k, k ∈ glob ↔ ∃ e ∈ nb, k ∈ e.2 := by
      intro k
      rw [← hglob]
      have : ∀ (l : List (Nat × NSet)) (s : NSet), k ∈ l.foldl (fun (s : NSet) e => s.insertMany e.2.elems) s ↔
          k ∈ s ∨ ∃ e ∈ l, k ∈ e.2 := by
        intro l
        induction l with
        | nil => intro s; simp
        | cons e l ih =>
          intro s
          rw [List.foldl_cons, ih, NSet.mem_insertMany]
          constructor
          · rintro ((h | h) | ⟨e', h, h'⟩)
            · exact Or.inr ⟨e, by simp, h⟩
            · exact Or.inl h
            · exact Or.inr ⟨e', by simp [h], h'⟩
          · rintro (h | ⟨e', h, h'⟩)
            · exact Or.inl (Or.inr h)
            · rcases List.mem_cons.1 h with rfl | h
              · exact Or.inl (Or.inl h')
              · exact Or.inr ⟨e', h, h'⟩
      rw [this]; simp
    split
    · exact htriv
    · refine Ok.bind (selectWhole_ok hv (h.lt hold) ?_) ?_
      · intro k hk
        obtain ⟨e, he, hke⟩ := (hmem k).1 hk
        obtain ⟨_, j, _, hj⟩ := ((hnb e he).2 k).1 hke
        obtain ⟨cc, hcc⟩ := NMap.mem_keys.1 (h.range j k hj)
        exact ⟨cc, hcc, h.lt hcc⟩
      · intro o ho
        cases o with
        | none => exact htriv
        | some r =>
          obtain ⟨hr1, rcc, hrcc, hri, hmin⟩ := ho r.1 r.2 rfl
          obtain ⟨e, he, hre⟩ := (hmem r.1).1 hr1
          obtain ⟨hro, y, hxy, hy⟩ := ((hnb e he).2 r.1).1 hre
          have hxo := (hnb e he).1
          simp only
          have hren : Ok (occ.fcs.elems.foldlM (fun f i => wr f i (some r.1)) c.fc2cc) (fun f' => f'.length = c.fc2cc.length ∧
              ∀ i : Nat, f'[i]? = if i ∈ occ.fcs then some (some r.1) else c.fc2cc[i]?) :=
            renameCells_ok (f := c.fc2cc) (s := occ.fcs) (fun x hx => by rw [h.len]; exact h.lt hold x hx) r.1
          refine Ok.bind hren ?_
          rintro f' ⟨hf1, hf2⟩
          rw [NMap.at_eq.2 hrcc, ok_bind, Ok_pure]
          intro c' hc'
          simp only [Option.some.injEq] at hc'
          subst hc'
          have hdisj : ∀ x ∈ occ.fcs, x ∉ rcc.fcs := by
            intro x hx hx'
            have e1 := (h.part old occ hold x).1 hx
            rw [(h.part r.1 rcc hrcc x).1 hx'] at e1
            cases e1
            exact hro rfl
          refine ⟨⟨hf1, ?_, ?_, ?_, ?_, rfl⟩, e, he, r.1, hre, rcc, hrcc, hri⟩
          · intro i hi
            show f'[i]? = _
            rw [hf2, if_neg (by simpa using hi)]
          · intro i hi
            refine ⟨r.1, rcc, ?_, hro, hrcc, hri, e.1, hxo, y, hxy, hy⟩
            show f'[i]? = _
            rw [hf2, if_pos (by simpa using hi)]
          · intro k
            rw [NMap.mem_keys_insert]
            constructor
            · rintro (rfl | hk)
              · exact NMap.mem_keys.2 ⟨rcc, hrcc⟩
              · exact hk
            · exact Or.inr
          · intro k cc' hko hk
            replace hk : (c.ccs.insert r.1 (rcc.insertCells occ.fcs r.2)).find? k = some cc' := hk
            rw [NMap.find?_insert] at hk
            by_cases hkr : k = r.1
            · rw [if_pos hkr] at hk
              cases hk
              subst hkr
              refine ⟨rcc, hrcc, rfl, ?_, ?_, ?_, ?_, ?_⟩
              · show rcc.card ≤ rcc.card + occ.fcs.card; omega
              · show rcc.card + occ.fcs.card = (rcc.fcs.insertMany occ.fcs.elems).card
                rw [card_insertMany_disjoint hdisj, (h.card _ rcc hrcc).1]
              · intro i
                show i ∈ rcc.fcs.insertMany occ.fcs.elems ↔ f'[i]? = _
                rw [NSet.mem_insertMany, hf2, h.part _ rcc hrcc]
                by_cases hi : i ∈ occ.fcs
                · simp [hi]
                · simp [hi]
              · intro hno
                exfalso
                have := hno e.1 hxo
                refine this ?_
                show f'[e.1]? = _
                rw [hf2, if_pos hxo]
              · intro _
                exact hA rcc.fcs rcc.compact occ.fcs occ.compact e.1 y r.2 (h.good _ rcc hrcc hri) (h.good _ occ hold hoi)
                  (h.lt hrcc) (h.lt hold) hxo ((h.part _ rcc hrcc y).2 hy) hxy hmin
            · rw [if_neg hkr] at hk
              refine ⟨cc', hk, rfl, Nat.le_refl _, (h.card k cc' hk).1, ?_, fun _ => rfl, h.good k cc' hk⟩
              intro i
              show _ ↔ f'[i]? = _
              rw [hf2, h.part k cc' hk]
              by_cases hi : i ∈ occ.fcs
              · rw [if_pos hi, (h.part old occ hold i).1 hi]
                simp [Ne.symm hkr, Ne.symm hko]
              · rw [if_neg hi]
  · rw [if_neg h1]; exact htriv

theorem Given.refl {g : Graph W} {Q : NSet → Nat → Prop} {c0 c : Cont} {pre : List Nat} {rem : NSet}
    (h : SInv g Q c0 pre c rem) (old : Nat) (occ : CC) : Given g Q c old occ [] c :=
  ⟨rfl, fun _ _ => rfl, by simp, fun _ => Iff.rfl,
    fun k cc _ hk => ⟨cc, hk, rfl, Nat.le_refl _, (h.card k cc hk).1, h.part k cc hk, fun _ => rfl, h.good k cc hk⟩, rfl⟩

theorem tryCells_given {g : Graph W} (hv : ValidCRS g.nbC g.rowPtr g.colInd) {Q : NSet → Nat → Prop} (hQ : Absorbs g Q)
    {c0 c : Cont} (hc0 : CInv g.nbC c0) {pre : List Nat} {rem : NSet} (h : SInv g Q c0 pre c rem) {old : Nat} {occ : CC}
    (hold : c.ccs.find? old = some occ) (hsmall : occ.card ≤ c0.thresh)
    (hnear : ∀ x ∈ occ.fcs, NearLarge g c0 x) {nb : List (Nat × NSet)} (hnd : (nb.map Prod.fst).Nodup)
    (hnb : ∀ e ∈ nb, e.1 ∈ occ.fcs ∧ ∀ k, k ∈ e.2 ↔ k ≠ old ∧ ∃ j, Adj g.rowPtr g.colInd e.1 j ∧ c.fc2cc[j]? = some (some k)) :
    Ok (tryCells g c nb) (fun r => Given g Q c old occ (nb.map Prod.fst) r.2 ∧ (r.1 = true ↔ nb ≠ [])) := by
  unfold tryCells
  refine Ok.foldlM_prefix (I := fun (p : List (Nat × NSet)) (r : Bool × Cont) =>
    Given g Q c old occ (p.map Prod.fst) r.2 ∧ (r.1 = true ↔ p ≠ [])) ⟨Given.refl h old occ, by simp⟩ ?_
  rintro p e post ⟨b, c1⟩ hsp ⟨hG, hb⟩
  simp only at hG hb ⊢
  have heb : e ∈ nb := by rw [hsp]; simp
  obtain ⟨hxo, hmem⟩ := hnb e heb
  have hxc := (h.part old occ hold e.1).1 hxo
  have hxp : e.1 ∉ p.map Prod.fst := by
    intro hx
    rw [hsp, List.map_append, List.nodup_append] at hnd
    exact hnd.2.2 e.1 hx e.1 (by simp) rfl
  have hpo : ∀ i ∈ p.map Prod.fst, c.fc2cc[i]? = some (some old) := by
    intro i hi
    obtain ⟨e', he', rfl⟩ := List.mem_map.1 hi
    exact (h.part old occ hold _).1 ((hnb e' (by rw [hsp]; simp [he'])).1)
  -- a large neighbour
  obtain ⟨y0, k0, hxy0, hyk0, ⟨cc0, g1, g2, g3⟩⟩ := hnear e.1 hxo
  have hy0 : c.fc2cc[y0]? = some (some k0) := h.stay k0 cc0 g1 g3 y0 ((hc0.part k0 cc0 g1 y0).2 hyk0)
  have hk0 : k0 ≠ old := by
    rintro rfl
    have hsub : ∀ a, a ∈ cc0.fcs → a ∈ occ.fcs := fun a ha =>
      (h.part _ occ hold a).2 (h.stay _ cc0 g1 g3 a ha)
    have h1 := NSet.card_le_of_subset hsub
    rw [← (hc0.card _ cc0 g1).1, ← (h.card _ occ hold).1] at h1
    omega
  have hk0e : k0 ∈ e.2 := (hmem k0).2 ⟨hk0, y0, hxy0, hy0⟩
  rw [if_neg (by have := NSet.card_pos_iff.2 ⟨k0, hk0e⟩; omega)]
  have hnn : ∀ k ∈ e.2, ∃ cc, c1.ccs.find? k = some cc ∧ ∀ x ∈ cc.fcs, x < g.nbC := by
    intro k hk
    obtain ⟨hko, j, _, hj⟩ := (hmem k).1 hk
    obtain ⟨cc, hcc⟩ := NMap.mem_keys.1 ((hG.keys k).2 (h.range j k hj))
    obtain ⟨_, _, _, _, _, e1, _, _⟩ := hG.same k cc hko hcc
    refine ⟨cc, hcc, ?_⟩
    intro x hx
    rw [← h.len, ← hG.len]
    exact (List.getElem?_eq_some_iff.1 ((e1 x).1 hx)).1
  refine Ok.bind (selectCC_ok hv (h.lt hold e.1 hxo) hnn) ?_
  rintro o ⟨ho1, ho2⟩
  cases o with
  | none =>
    exfalso
    obtain ⟨cc, hcc, _⟩ := hnn k0 hk0e
    have hfalse := ho1 rfl k0 hk0e cc hcc
    obtain ⟨cc1, f1, f2, _⟩ := hG.same k0 cc hk0 hcc
    obtain ⟨cc2, f3, f4⟩ := h.isoK k0 cc1 f1
    rw [g1] at f3; cases f3
    rw [f2, f4, g2] at hfalse
    cases hfalse
  | some r =>
    obtain ⟨b', hb1, hb2, hb3, ⟨rcc, hr1, hr2, _, _, hr3, _⟩, _⟩ := ho2 r.1 r.2 rfl
    rw [hb1] at hb3 hr1
    rw [hb2] at hr3
    obtain ⟨hro, y, hxy, hyr⟩ := (hmem r.1).1 hb3
    have hxl : e.1 < c1.fc2cc.length := by rw [hG.len, h.len]; exact h.lt hold e.1 hxo
    simp only
    unfold moveCell
    rw [wr_of_lt hxl, ok_bind, NMap.at_eq.2 hr1]
    simp only [ok_bind, pure_bind, Ok_pure]
    refine ⟨?_, by simp⟩
    obtain ⟨rcc0, e1, e2, e3, e4, e5, e6, e7⟩ := hG.same r.1 rcc hro hr1
    have hset : ∀ i : Nat, (c1.fc2cc.set e.1 (some r.1))[i]? = if i = e.1 then some (some r.1) else c1.fc2cc[i]? := by
      intro i
      rw [List.getElem?_set]
      by_cases hi : e.1 = i
      · subst hi; simp [hxl]
      · rw [if_neg hi, if_neg (fun h => hi h.symm)]
    have hxr : e.1 ∉ rcc.fcs := by
      intro hx
      have := (e5 e.1).1 hx
      rw [hG.out e.1 hxp, hxc] at this
      cases this
      exact hro rfl
    have hyin : y ∈ rcc.fcs := by
      rw [e5, hG.out y, hyr]
      intro hyp
      have := hpo y hyp
      rw [hyr] at this
      cases this
      exact hro rfl
    refine ⟨by simp [hG.len], ?_, ?_, ?_, ?_, hG.thresh⟩
    · intro i hi
      show (c1.fc2cc.set e.1 (some r.1))[i]? = _
      rw [List.map_append, List.mem_append] at hi
      rw [hset, if_neg (by rintro rfl; exact hi (Or.inr (by simp)))]
      exact hG.out i (fun h => hi (Or.inl h))
    · intro i hi
      show ∃ r' rcc', (c1.fc2cc.set e.1 (some r.1))[i]? = some (some r') ∧ _
      by_cases hie : i = e.1
      · subst hie
        exact ⟨r.1, rcc0, by rw [hset, if_pos rfl], hro, e1, by rw [← e2, hr2], e.1, hxo, y, hxy, hyr⟩
      · rw [List.map_append, List.mem_append] at hi
        rcases hi with hi | hi
        · obtain ⟨r', rcc', f1, f2⟩ := hG.moved i hi
          exact ⟨r', rcc', by rw [hset, if_neg hie, f1], f2⟩
        · simp at hi; exact absurd hi hie
    · intro k
      show k ∈ (c1.ccs.insert r.1 (rcc.insertCell e.1 r.2)).keys ↔ _
      rw [NMap.mem_keys_insert, hG.keys]
      constructor
      · rintro (rfl | hk)
        · exact NMap.mem_keys.2 ⟨rcc0, e1⟩
        · exact hk
      · exact Or.inr
    · intro k cc' hko hk
      replace hk : (c1.ccs.insert r.1 (rcc.insertCell e.1 r.2)).find? k = some cc' := hk
      show ∃ cc, _ ∧ _ ∧ _ ∧ _ ∧ (∀ i : Nat, i ∈ cc'.fcs ↔ (c1.fc2cc.set e.1 (some r.1))[i]? = some (some k)) ∧
        ((∀ i ∈ (p ++ [e]).map Prod.fst, (c1.fc2cc.set e.1 (some r.1))[i]? ≠ some (some k)) → _) ∧ _
      rw [NMap.find?_insert] at hk
      by_cases hkr : k = r.1
      · rw [if_pos hkr] at hk
        cases hk
        subst hkr
        refine ⟨rcc0, e1, e2, ?_, ?_, ?_, ?_, ?_⟩
        · show rcc0.card ≤ rcc.card + 1; omega
        · show rcc.card + 1 = (rcc.fcs.insert e.1).card
          rw [NSet.card_insert hxr, e4]
        · intro i
          show i ∈ rcc.fcs.insert e.1 ↔ _
          rw [NSet.mem_insert, hset, e5]
          by_cases hi : i = e.1
          · simp [hi]
          · simp [hi]
        · intro hno
          exact absurd (by rw [hset, if_pos rfl]) (hno e.1 (by simp))
        · intro hi
          exact hQ rcc.fcs rcc.compact e.1 y r.2 (e7 hi) (by
            intro z hz
            rw [← h.len, ← hG.len]
            exact (List.getElem?_eq_some_iff.1 ((e5 z).1 hz)).1) hxr hyin hxy hr3
      · rw [if_neg hkr] at hk
        obtain ⟨cc, f1, f2, f3, f4, f5, f6, f7⟩ := hG.same k cc' hko hk
        refine ⟨cc, f1, f2, f3, f4, ?_, ?_, f7⟩
        · intro i
          rw [f5, hset]
          by_cases hi : i = e.1
          · subst hi
            rw [if_pos rfl, hG.out _ hxp, hxc]
            simp [Ne.symm hkr, Ne.symm hko]
          · rw [if_neg hi]
        · intro hno
          refine f6 ?_
          intro i hi
          have hie : i ≠ e.1 := by rintro rfl; exact hxp hi
          have := hno i (by rw [List.map_append]; exact List.mem_append_left _ hi)
          rwa [hset, if_neg hie] at this

theorem tryCells_closed {g : Graph W} (hv : ValidCRS g.nbC g.rowPtr g.colInd) {c : Cont} {nb : List (Nat × NSet)}
    (hnb : ∀ e ∈ nb, e.1 < g.nbC ∧ ∀ k ∈ e.2, ∃ cc, c.ccs.find? k = some cc ∧ (∀ x ∈ cc.fcs, x < g.nbC) ∧ cc.iso = false) :
    Ok (tryCells g c nb) (fun r => r = (false, c)) := by
  unfold tryCells
  refine Ok.foldlM_prefix (I := fun (_ : List (Nat × NSet)) (r : Bool × Cont) => r = (false, c)) rfl ?_
  rintro p e post r hsp rfl
  obtain ⟨h1, h2⟩ := hnb e (by rw [hsp]; simp)
  simp only
  split
  · rfl
  · refine Ok.bind (selectCC_ok hv h1 (fun k hk => by obtain ⟨cc, a, b, _⟩ := h2 k hk; exact ⟨cc, a, b⟩)) ?_
    rintro o ⟨_, ho2⟩
    cases o with
    | none => rfl
    | some r =>
      exfalso
      obtain ⟨b', hb1, hb2, hb3, ⟨rcc, hr1, hr2, _⟩, _⟩ := ho2 r.1 r.2 rfl
      obtain ⟨cc, e1, _, e2⟩ := h2 _ hb3
      rw [hr1] at e1; cases e1; rw [hr2] at e2; cases e2

theorem correctStep_sinv {g : Graph W} (hv : ValidCRS g.nbC g.rowPtr g.colInd) (hsym : SymmetricCRS g.rowPtr g.colInd)
    (hh : Hash) {Q : NSet → Nat → Prop} (hQ : Absorbs g Q) (hA : AbsorbsAll g Q) {c0 : Cont} (hc0 : CInv g.nbC c0)
    (hS : SurroundedC g c0) {pre : List Nat} {c : Cont} {rem : NSet}
    (h : SInv g Q c0 pre c rem) {old : Nat} (hold : old ∈ c0.singular) (hnew : old ∉ pre) :
    Ok (correctStep g hh (c, rem) old) (fun r => SInv g Q c0 (pre ++ [old]) r.1 r.2) := by
  obtain ⟨occ0, hocc0, hoi0, hcard0⟩ := (hc0.sing old).1 hold
  have hlt : old < c0.counter := (hc0.keys old).1 (NMap.mem_keys.2 ⟨_, hocc0⟩)
  have hmem : old ∈ c.ccs.keys := (h.keys old).2 ⟨hlt, fun hr => hnew (h.remIn old hr)⟩
  obtain ⟨occ, hocc⟩ := NMap.mem_keys.1 hmem
  have hoi : occ.iso = true := by
    obtain ⟨cc0, h1, h2⟩ := h.isoK old occ hocc
    rw [hocc0] at h1; cases h1; rw [h2, hoi0]
  unfold correctStep
  simp only
  rw [NMap.at_eq.2 hocc, ok_bind, h.thresh]
  by_cases hcard : occ.card ≤ c0.thresh
  · rw [if_pos hcard]
    refine Ok.bind (neighsByFc_ok hv hh h.total old (h.lt hocc)) ?_
    rintro nb ⟨hnb1, hnb2⟩
    have hperm := hh.perm 5 occ.fcs.elems
    have hnd : (nb.map Prod.fst).Nodup := by
      rw [hnb1]
      exact hperm.symm.nodup (occ.fcs.sorted.imp Nat.ne_of_lt)
    have hin : ∀ i, i ∈ nb.map Prod.fst ↔ i ∈ occ.fcs := by
      intro i; rw [hnb1, hperm.mem_iff]; rfl
    have hnb : ∀ e ∈ nb, e.1 ∈ occ.fcs ∧ ∀ k, k ∈ e.2 ↔ k ≠ old ∧ ∃ j, Adj g.rowPtr g.colInd e.1 j ∧ c.fc2cc[j]? = some (some k) :=
      fun e he => ⟨(hin _).1 (List.mem_map_of_mem he), hnb2 e he⟩
    refine Ok.bind (tryWhole_given hv hA h hocc hoi hnb) ?_
    intro w hw
    rcases hS old occ0 hocc0 hoi0 hcard0 with hnear0 | hcl
    · -- every cell has a large neighbour
      have hnear : ∀ x ∈ occ.fcs, NearLarge g c0 x := by
        intro x hx
        rcases h.near x old ((h.part old occ hocc x).1 hx) with h1 | h1
        · exact hnear0 x ((hc0.part old occ0 hocc0 x).2 h1)
        · exact h1
      cases w with
      | some c' =>
        rw [Ok_pure]
        exact h.drop hsym hc0 hocc hoi hcard hnear (mv := occ.fcs.elems) (fun i => Iff.rfl) (hw c' rfl).1
      | none =>
        refine Ok.bind (tryCells_given hv hQ hc0 h hocc hcard hnear hnd hnb) ?_
        rintro ⟨b, c'⟩ ⟨h1, h2⟩
        simp only at h1 h2
        have hne : nb ≠ [] := by
          rintro rfl
          have hpos := h.card old occ hocc
          obtain ⟨x, hx⟩ := NSet.card_pos_iff.1 (show 0 < occ.fcs.card by omega)
          have := (hin x).2 hx
          simp at this
        simp only
        rw [Ok_pure, if_pos (h2.2 hne)]
        exact h.drop hsym hc0 hocc hoi hcard hnear hin h1
    · -- no isotropic neighbour
      have hcc := h.closed old occ0 hocc0 hoi0 hcard0 hcl
      rw [hocc] at hcc
      obtain rfl : occ = occ0 := by simpa using hcc
      have hani : ∀ e ∈ nb, e.1 < g.nbC ∧ ∀ k ∈ e.2, ∃ cc, c.ccs.find? k = some cc ∧ (∀ x ∈ cc.fcs, x < g.nbC) ∧ cc.iso = false := by
        intro e he
        obtain ⟨he1, he2⟩ := hnb e he
        refine ⟨h.lt hocc _ he1, ?_⟩
        intro k hk
        obtain ⟨hko, j, hj1, hj2⟩ := (he2 k).1 hk
        obtain ⟨cc, hcc⟩ := NMap.mem_keys.1 (h.range j k hj2)
        refine ⟨cc, hcc, h.lt hcc, ?_⟩
        rcases hcl e.1 j ((hc0.part old occ hocc0 _).1 he1) hj1 with f1 | ⟨k', cc', f1, f2, f3⟩
        · exfalso
          have := (h.part old occ hocc j).1 ((hc0.part old occ hocc0 j).2 f1)
          rw [hj2] at this
          cases this
          exact hko rfl
        · rw [h.flag j k cc k' cc' hj2 hcc f1 f2, f3]
      cases w with
      | some c' =>
        exfalso
        obtain ⟨_, e, he, r, hr, rcc, g1, g2⟩ := hw c' rfl
        obtain ⟨cc, f1, _, f2⟩ := (hani e he).2 r hr
        rw [g1] at f1; cases f1; rw [g2] at f2; cases f2
      | none =>
        refine Ok.bind (tryCells_closed hv hani) ?_
        rintro r rfl
        simp only
        rw [Ok_pure, if_neg (by simp)]
        refine h.skip ?_
        intro cc hcc
        rw [hocc] at hcc; cases hcc
        exact Or.inr ⟨hcl, hocc0⟩
  · rw [if_neg hcard, Ok_pure]
    refine h.skip ?_
    intro cc hcc
    rw [hocc] at hcc; cases hcc
    exact Or.inl (by omega)

theorem correctLoop_sinv {g : Graph W} (hv : ValidCRS g.nbC g.rowPtr g.colInd) (hsym : SymmetricCRS g.rowPtr g.colInd)
    (hh : Hash) {Q : NSet → Nat → Prop} (hQ : Absorbs g Q) (hA : AbsorbsAll g Q) {c : Cont} (hc : CInv g.nbC c)
    (hS : SurroundedC g c) (hgood : ∀ k cc, c.ccs.find? k = some cc → cc.iso = true → Q cc.fcs cc.compact)
    (hcomp : ∀ i : Nat, i < g.nbC → ∃ k, c.fc2cc[i]? = some (some k)) :
    Ok (c.singular.foldlM (correctStep g hh) (c, NSet.empty)) (fun r => SInv g Q c c.singular r.1 r.2) := by
  refine Ok.foldlM_prefix (I := fun pre (r : Cont × NSet) => SInv g Q c pre r.1 r.2) (SInv_init hc hgood hcomp) ?_
  rintro pre a post ⟨c', rem⟩ hsp hI
  refine correctStep_sinv hv hsym hh hQ hA hc hS hI (by rw [hsp]; simp) ?_
  intro hp
  have hs := hc.singSorted
  rw [hsp, List.pairwise_append] at hs
  exact absurd (hs.2.2 a hp a (by simp)) (Nat.lt_irrefl a)

/-! ## The whole correction -/

/-- container after correction (`c'`) compared with the one before (`c`) -/
structure CorrectedT (g : Graph W) (Q : NSet → Nat → Prop) (c c' : Cont) (N : Nat) : Prop where
  len : c'.fc2cc.length = g.nbC
  total : ∀ i : Nat, i < g.nbC → ∃ k, c'.fc2cc[i]? = some (some k)
  keys : ∀ k, k ∈ c'.ccs.keys ↔ k < N
  range : ∀ (i : Nat) k, c'.fc2cc[i]? = some (some k) → k < N
  part : ∀ k cc, c'.ccs.find? k = some cc → ∀ i : Nat, i ∈ cc.fcs ↔ c'.fc2cc[i]? = some (some k)
  card : ∀ k cc, c'.ccs.find? k = some cc → cc.card = cc.fcs.card ∧ 0 < cc.card
  big : ∀ (i j : Nat) k l cck ccl, c.fc2cc[i]? = some (some k) → c.fc2cc[j]? = some (some l) →
    c.ccs.find? k = some cck → c.ccs.find? l = some ccl → c.thresh < cck.card → c.thresh < ccl.card →
    (k = l ↔ c'.fc2cc[i]? = c'.fc2cc[j]?)
  aniso : ∀ m, (∀ k, k < m → ∃ cc, c.ccs.find? k = some cc ∧ cc.iso = false) →
    ∀ k, k < m → c'.ccs.find? k = c.ccs.find? k
  flag : ∀ (i : Nat) k cc k0 cc0, c'.fc2cc[i]? = some (some k) → c'.ccs.find? k = some cc →
    c.fc2cc[i]? = some (some k0) → c.ccs.find? k0 = some cc0 → cc.iso = cc0.iso
  good : ∀ k cc, c'.ccs.find? k = some cc → cc.iso = true → Q cc.fcs cc.compact
  left : ∀ k cc, c'.ccs.find? k = some cc → cc.iso = true →
    c.thresh < cc.card ∨ ∃ k0, ClosedCC g c k0 ∧ c.ccs.find? k0 = some cc
  closed : ∀ k cc, c.ccs.find? k = some cc → cc.iso = true → cc.card ≤ c.thresh → ClosedCC g c k →
    ∃ k', c'.ccs.find? k' = some cc

theorem SInv.renum {g : Graph W} {Q : NSet → Nat → Prop} {c0 c c' : Cont} (hc0 : CInv g.nbC c0)
    {rem : NSet} (h : SInv g Q c0 c0.singular c rem) {N first : Nat} {φ : Nat → Nat} (hr : Renum c c' N φ)
    (hfirst : ∀ k, k < first → φ k = k)
    (hcnt : ∀ m, (∀ k, k < m → ∃ cc, c0.ccs.find? k = some cc ∧ cc.iso = false) → m ≤ first) :
    CorrectedT g Q c0 c' N := by
  have hinj : ∀ a b, a ∈ c.ccs.keys → b ∈ c.ccs.keys → φ a = φ b → a = b := by
    intro a b ha hb hab
    rcases Nat.lt_trichotomy a b with hl | hl | hl
    · have := hr.mono a b ha hb hl; omega
    · exact hl
    · have := hr.mono b a hb ha hl; omega
  have hback : ∀ (i : Nat) k, c'.fc2cc[i]? = some (some k) → ∃ j, c.fc2cc[i]? = some (some j) ∧ φ j = k := by
    intro i k hk
    have hi : i < g.nbC := by
      rw [← h.len, ← hr.len]; exact (List.getElem?_eq_some_iff.1 hk).1
    obtain ⟨j, hj⟩ := h.total i hi
    refine ⟨j, hj, ?_⟩
    have := hr.map i j hj
    rw [hk] at this
    simpa using this.symm
  have hcc : ∀ k cc, c'.ccs.find? k = some cc → ∃ j, c.ccs.find? j = some cc ∧ φ j = k := by
    intro k cc hk
    obtain ⟨j, hj, hjk⟩ := hr.onto k ((hr.keys k).1 (NMap.mem_keys.2 ⟨cc, hk⟩))
    obtain ⟨cc', hcc'⟩ := NMap.mem_keys.1 hj
    have := hr.ccs j cc' hcc'
    rw [hjk, hk] at this
    cases this
    exact ⟨j, hcc', hjk⟩
  refine ⟨by rw [hr.len, h.len], ?_, hr.keys, ?_, ?_, ?_, ?_, ?_, ?_, ?_, ?_, ?_⟩
  · intro i hi
    obtain ⟨k, hk⟩ := h.total i hi
    exact ⟨φ k, hr.map i k hk⟩
  · intro i k hk
    obtain ⟨j, hj, hjk⟩ := hback i k hk
    obtain ⟨cc, hc⟩ := NMap.mem_keys.1 (h.range i j hj)
    rw [← hr.keys, ← hjk]
    exact NMap.mem_keys.2 ⟨cc, hr.ccs j cc hc⟩
  · intro k cc hk i
    obtain ⟨j, hj, hjk⟩ := hcc k cc hk
    rw [h.part j cc hj]
    constructor
    · intro hi; rw [hr.map i j hi, hjk]
    · intro hi
      obtain ⟨j', hj', hjk'⟩ := hback i k hi
      have := hinj j j' (NMap.mem_keys.2 ⟨cc, hj⟩) (h.range i j' hj') (by rw [hjk, hjk'])
      rw [this, hj']
  · intro k cc hk
    obtain ⟨j, hj, hjk⟩ := hcc k cc hk
    exact h.card j cc hj
  · intro i j k l cck ccl hi hj hk hl h1 h2
    have a1 := h.stay k cck hk h1 i ((hc0.part k cck hk i).2 hi)
    have a2 := h.stay l ccl hl h2 j ((hc0.part l ccl hl j).2 hj)
    rw [hr.map i k a1, hr.map j l a2]
    simp only [Option.some.injEq]
    exact ⟨fun e => by rw [e], fun he => hinj k l (h.range i k a1) (h.range j l a2) he⟩
  · intro m hm k hk
    obtain ⟨cc, h1, h2⟩ := hm k hk
    have h3 := h.aniso k cc h1 h2
    have := hr.ccs k cc h3
    have hmf := hcnt m hm
    rw [hfirst k (by omega)] at this
    rw [this, h1]
  · intro i k cc k0 cc0 h1 h2 h3 h4
    obtain ⟨j, hj, hjk⟩ := hback i k h1
    obtain ⟨j', hj', hjk'⟩ := hcc k cc h2
    have := hinj j j' (h.range i j hj) (NMap.mem_keys.2 ⟨cc, hj'⟩) (by rw [hjk, hjk'])
    subst this
    exact h.flag i j cc k0 cc0 hj hj' h3 h4
  · intro k cc hk hiso
    obtain ⟨j, hj, hjk⟩ := hcc k cc hk
    exact h.good j cc hj hiso
  · intro k cc hk hiso
    obtain ⟨j, hj, hjk⟩ := hcc k cc hk
    obtain ⟨cc0, g1, g2⟩ := h.isoK j cc hj
    by_cases hc : c0.thresh < cc0.card
    · left
      have hsub : ∀ a, a ∈ cc0.fcs → a ∈ cc.fcs := by
        intro a ha
        exact (h.part j cc hj a).2 (h.stay j cc0 g1 hc a ha)
      have := NSet.card_le_of_subset hsub
      have h1 := (hc0.card j cc0 g1).1
      have h2 := (h.card j cc hj).1
      omega
    · have hjs : j ∈ c0.singular := by
        rw [hc0.sing]
        exact ⟨cc0, g1, by rw [← g2, hiso], by omega⟩
      rcases h.left j hjs cc hj with h1 | ⟨h1, h2⟩
      · exact Or.inl h1
      · exact Or.inr ⟨j, h1, h2⟩
  · intro k cc hk hi hcard hcl
    exact ⟨φ k, hr.ccs k cc (h.closed k cc hk hi hcard hcl)⟩

/-- correction succeeds if the small cells are surrounded by large ones -/
theorem correct_surrounded {g : Graph W} (hv : ValidCRS g.nbC g.rowPtr g.colInd) (hsym : SymmetricCRS g.rowPtr g.colInd)
    (hh : Hash) {Q : NSet → Nat → Prop} (hQ : Absorbs g Q) (hA : AbsorbsAll g Q) {c : Cont} (hc : CInv g.nbC c)
    (hS : SurroundedC g c) (hgood : ∀ k cc, c.ccs.find? k = some cc → cc.iso = true → Q cc.fcs cc.compact)
    (hcomp : ∀ i : Nat, i < g.nbC → ∃ k, c.fc2cc[i]? = some (some k)) :
    Ok (c.correct g hh) (fun c' => ∃ N, CorrectedT g Q c c' N) := by
  unfold Cont.correct
  refine Ok.bind (correctLoop_sinv hv hsym hh hQ hA hc hS hgood hcomp) ?_
  rintro ⟨c1, rem⟩ h
  simp only at h ⊢
  split
  · rename_i hrem
    rw [Ok_pure]
    have hnr : ∀ k, k ∉ rem := by
      intro k hk; rw [← NSet.mem_elems, hrem] at hk; simp at hk
    refine ⟨c.counter, h.renum hc (φ := id) (first := c.counter)
      ⟨fun i k hk => hk, rfl, fun k cc hk => hk, ?_, ?_, fun a b _ _ hab => hab⟩ (fun k _ => rfl) ?_⟩
    · intro k; rw [h.keys]; simp [hnr]
    · intro k hk; exact ⟨k, (h.keys k).2 ⟨hk, hnr k⟩, rfl⟩
    · intro m hm
      rcases Nat.lt_or_ge c.counter m with hl | hl
      · obtain ⟨cc, h1, _⟩ := hm c.counter hl
        have := (hc.keys c.counter).1 (NMap.mem_keys.2 ⟨cc, h1⟩)
        omega
      · exact hl
  · rename_i first l hrem
    have hfr : first ∈ rem := by rw [← NSet.mem_elems, hrem]; simp
    have hmin : ∀ k, k ∈ rem → first ≤ k := by
      intro k hk
      have hs := rem.sorted
      rw [← NSet.mem_elems] at hk
      rw [hrem] at hk hs
      rcases List.mem_cons.1 hk with rfl | hk
      · exact Nat.le_refl _
      · exact Nat.le_of_lt ((List.pairwise_cons.1 hs).1 k hk)
    have hfs := h.remIn first hfr
    obtain ⟨fcc, hf1, hf2, _⟩ := (hc.sing first).1 hfs
    have hflt : first < c.counter := (hc.keys first).1 (NMap.mem_keys.2 ⟨fcc, hf1⟩)
    refine Ok.mono (renumber_ok (first := first) ?_ h.range h.part) ?_
    · intro k hk
      exact (h.keys k).2 ⟨by omega, fun hkr => by have := hmin k hkr; omega⟩
    · rintro c' ⟨N, φ, hr, hφ⟩
      refine ⟨N, h.renum hc hr hφ ?_⟩
      intro m hm
      rcases Nat.lt_or_ge first m with hl | hl
      · obtain ⟨cc, h1, h2⟩ := hm first hl
        rw [hf1] at h1; cases h1
        rw [hf2] at h2; cases h2
      · exact hl

theorem absorbsAll_sound {g : Graph W} (hv : ValidCRS g.nbC g.rowPtr g.colInd) (hsym : SymmetricCRS g.rowPtr g.colInd) :
    AbsorbsAll g (Sound g) := by
  intro s k u l x y k' hs hu hls hlu hx hy hadj hmin
  have hS : ∀ {a}, a ∈ s → a ∈ s.insertMany u.elems := fun h => NSet.mem_insertMany.2 (Or.inr h)
  have hU : ∀ {a}, a ∈ u → a ∈ s.insertMany u.elems := fun h => NSet.mem_insertMany.2 (Or.inl h)
  refine ⟨?_, ?_⟩
  · have hsub1 : ∀ {a b : Nat}, a ∈ s → b ∈ s → ∃ l, Walk (fun a b => Adj g.rowPtr g.colInd a b ∧ a ∈ s.insertMany u.elems ∧ b ∈ s.insertMany u.elems) l a b := by
      intro a b ha hb
      obtain ⟨l, hl⟩ := hs.1 a b ha hb
      exact ⟨l, hl.mono (fun a b ⟨h1, h2, h3⟩ => ⟨h1, hS h2, hS h3⟩)⟩
    have hsub2 : ∀ {a b : Nat}, a ∈ u → b ∈ u → ∃ l, Walk (fun a b => Adj g.rowPtr g.colInd a b ∧ a ∈ s.insertMany u.elems ∧ b ∈ s.insertMany u.elems) l a b := by
      intro a b ha hb
      obtain ⟨l, hl⟩ := hu.1 a b ha hb
      exact ⟨l, hl.mono (fun a b ⟨h1, h2, h3⟩ => ⟨h1, hU h2, hU h3⟩)⟩
    intro a b ha hb
    rcases NSet.mem_insertMany.1 ha with ha | ha <;> rcases NSet.mem_insertMany.1 hb with hb | hb
    · exact hsub2 ha hb
    · obtain ⟨l1, h1⟩ := hsub2 ha hx
      obtain ⟨l2, h2⟩ := hsub1 hy hb
      exact ⟨_, (h1.step ⟨hadj, hU hx, hS hy⟩).trans h2⟩
    · obtain ⟨l1, h1⟩ := hsub1 ha hy
      obtain ⟨l2, h2⟩ := hsub2 hx hb
      exact ⟨_, (h1.step ⟨hsym _ _ hadj, hS hy, hU hx⟩).trans h2⟩
    · exact hsub1 ha hb
  · intro hun _
    refine (minCompactness_ok hv (s := s.insertMany u.elems) ?_).elim hmin hun
    intro z hz
    rcases NSet.mem_insertMany.1 hz with hz | hz
    · exact hlu z hz
    · exact hls z hz

end CoMMA
