import Verif.Lemmas.Select
import Verif.Lemmas.Container
/-! # Correction with threshold 1 -/

set_option linter.unusedSectionVars false

namespace CoMMA

variable {W : Type} [Num W]

/-- a property of the cells and of the compactness of isotropic coarse cells that survives the addition
of a neighbour -/
def Absorbs (g : Graph W) (Q : NSet → Nat → Prop) : Prop :=
  ∀ s k x y k', Q s k → (∀ z ∈ s, z < g.nbC) → x ∉ s → y ∈ s → Adj g.rowPtr g.colInd x y →
    g.minCompactness (s.insert x) = .ok k' → Q (s.insert x) k'

/-- state of the loop over the singular cells: `c0` is the container before correction, `pre`
the singular cells already treated -/
structure KInv (g : Graph W) (Q : NSet → Nat → Prop) (c0 : Cont) (pre : List Nat) (c : Cont) (rem : NSet) : Prop where
  len : c.fc2cc.length = g.nbC
  total : ∀ i : Nat, i < g.nbC → ∃ k, c.fc2cc[i]? = some (some k)
  keys : ∀ k, k ∈ c.ccs.keys ↔ k < c0.counter ∧ k ∉ rem
  range : ∀ (i : Nat) k, c.fc2cc[i]? = some (some k) → k ∈ c.ccs.keys
  part : ∀ k cc, c.ccs.find? k = some cc → ∀ i : Nat, i ∈ cc.fcs ↔ c.fc2cc[i]? = some (some k)
  card : ∀ k cc, c.ccs.find? k = some cc → cc.card = cc.fcs.card ∧ 0 < cc.card
  isoK : ∀ k cc, c.ccs.find? k = some cc → ∃ cc0, c0.ccs.find? k = some cc0 ∧ cc.iso = cc0.iso
  flag : ∀ (i : Nat) k cc k0 cc0, c.fc2cc[i]? = some (some k) → c.ccs.find? k = some cc →
    c0.fc2cc[i]? = some (some k0) → c0.ccs.find? k0 = some cc0 → cc.iso = cc0.iso
  aniso : ∀ k cc0, c0.ccs.find? k = some cc0 → cc0.iso = false → c.ccs.find? k = some cc0
  stay : ∀ k cc0, c0.ccs.find? k = some cc0 → 1 < cc0.card → ∀ i : Nat, i ∈ cc0.fcs → c.fc2cc[i]? = some (some k)
  good : ∀ k cc, c.ccs.find? k = some cc → cc.iso = true → Q cc.fcs cc.compact
  left : ∀ k ∈ pre, ∀ cc, c.ccs.find? k = some cc → cc.card ≤ 1 → ∀ x ∈ cc.fcs, ∀ y, Adj g.rowPtr g.colInd x y →
    y = x ∨ ∃ k' cc', c.fc2cc[y]? = some (some k') ∧ c.ccs.find? k' = some cc' ∧ cc'.iso = false
  remIn : ∀ k ∈ rem, k ∈ pre
  thresh : c.thresh = c0.thresh

theorem KInv.lt {g : Graph W} {Q : NSet → Nat → Prop} {c0 c : Cont} {pre : List Nat} {rem : NSet}
    (h : KInv g Q c0 pre c rem) {k : Nat} {cc : CC} (hk : c.ccs.find? k = some cc) : ∀ x ∈ cc.fcs, x < g.nbC := by
  intro x hx
  have := (h.part k cc hk x).1 hx
  rw [← h.len]
  exact (List.getElem?_eq_some_iff.1 this).1

theorem KInv_init {g : Graph W} {Q : NSet → Nat → Prop} {c : Cont} (h : CInv g.nbC c)
    (hQ : ∀ k cc, c.ccs.find? k = some cc → cc.iso = true → Q cc.fcs cc.compact)
    (hcomp : ∀ i : Nat, i < g.nbC → ∃ k, c.fc2cc[i]? = some (some k)) : KInv g Q c [] c NSet.empty where
  len := h.lenF
  total := hcomp
  keys k := by rw [h.keys]; simp
  range i k hk := (h.keys k).2 (h.range i k hk)
  part := h.part
  card := h.card
  isoK k cc hk := ⟨cc, hk, rfl⟩
  flag i k cc k0 cc0 h1 h2 h3 h4 := by
    rw [h1] at h3; cases h3; rw [h2] at h4; cases h4; rfl
  aniso k cc hk _ := hk
  stay k cc hk _ i hi := (h.part k cc hk i).1 hi
  good := hQ
  left k hk := by simp at hk
  remIn k hk := by simp at hk
  thresh := rfl

/-- a singleton given to a neighbouring isotropic coarse cell -/
theorem KInv.move {g : Graph W} {Q : NSet → Nat → Prop} (hQ : Absorbs g Q) {c0 c c' : Cont} (hc0 : CInv g.nbC c0)
    {pre : List Nat} {rem : NSet} (h : KInv g Q c0 pre c rem) {old r x y m : Nat} {occ rcc : CC}
    (hold : c.ccs.find? old = some occ) (hoi : occ.iso = true) (hof : ∀ i, i ∈ occ.fcs ↔ i = x)
    (hr : c.ccs.find? r = some rcc) (hri : rcc.iso = true) (hne : r ≠ old)
    (hxy : Adj g.rowPtr g.colInd x y) (hy : y ∈ rcc.fcs) (hm : g.minCompactness (rcc.fcs.insert x) = .ok m)
    (hlen : c'.fc2cc.length = c.fc2cc.length)
    (hf : ∀ i : Nat, c'.fc2cc[i]? = if i = x then some (some r) else c.fc2cc[i]?)
    (hccs : ∀ k, c'.ccs.find? k = if k = old then none else if k = r then some (rcc.insertCell x m) else c.ccs.find? k)
    (ht : c'.thresh = c.thresh) : KInv g Q c0 (pre ++ [old]) c' (rem.insert old) := by
  have hxold : c.fc2cc[x]? = some (some old) := (h.part old occ hold x).1 ((hof x).2 rfl)
  have hxr : x ∉ rcc.fcs := by
    intro hx
    have := (h.part r rcc hr x).1 hx
    rw [hxold] at this
    simp at this
    exact hne this.symm
  have hkeys : ∀ k, k ∈ c'.ccs.keys ↔ k ∈ c.ccs.keys ∧ k ≠ old := by
    intro k
    rw [NMap.mem_keys, NMap.mem_keys, hccs]
    by_cases hk : k = old
    · simp [hk]
    · rw [if_neg hk]
      by_cases hkr : k = r
      · subst hkr; simp [hr, hk]
      · rw [if_neg hkr]; simp [hk]
  have hxn : x < g.nbC := h.lt hold x ((hof x).2 rfl)
  -- cells of the new container
  have hcase : ∀ {k cc}, c'.ccs.find? k = some cc → k ≠ old ∧
      ((k = r ∧ cc = rcc.insertCell x m) ∨ (k ≠ r ∧ c.ccs.find? k = some cc)) := by
    intro k cc hk
    rw [hccs] at hk
    by_cases h1 : k = old
    · rw [if_pos h1] at hk; cases hk
    · rw [if_neg h1] at hk
      by_cases h2 : k = r
      · rw [if_pos h2] at hk; cases hk; exact ⟨h1, Or.inl ⟨h2, rfl⟩⟩
      · rw [if_neg h2] at hk; exact ⟨h1, Or.inr ⟨h2, hk⟩⟩
  have hxflag : ∀ k0 cc0, c0.fc2cc[x]? = some (some k0) → c0.ccs.find? k0 = some cc0 → cc0.iso = true := by
    intro k0 cc0 h1 h2
    rw [← h.flag x old occ k0 cc0 hxold hold h1 h2, hoi]
  refine ⟨by rw [hlen, h.len], ?_, ?_, ?_, ?_, ?_, ?_, ?_, ?_, ?_, ?_, ?_, ?_, by rw [ht, h.thresh]⟩
  · intro i hi
    rw [hf]
    split
    · exact ⟨r, rfl⟩
    · exact h.total i hi
  · intro k
    rw [hkeys, h.keys, NSet.mem_insert]
    constructor
    · rintro ⟨⟨h1, h2⟩, h3⟩; exact ⟨h1, by rintro (h4 | h4); exacts [h3 h4, h2 h4]⟩
    · rintro ⟨h1, h2⟩; exact ⟨⟨h1, fun h4 => h2 (Or.inr h4)⟩, fun h4 => h2 (Or.inl h4)⟩
  · intro i k hk
    rw [hf] at hk
    rw [hkeys]
    split at hk
    · simp only [Option.some.injEq] at hk
      subst hk
      exact ⟨NMap.mem_keys.2 ⟨_, hr⟩, hne⟩
    · rename_i hix
      refine ⟨h.range i k hk, ?_⟩
      rintro rfl
      exact hix ((hof i).1 ((h.part _ occ hold i).2 hk))
  · intro k cc hk i
    obtain ⟨hko, ⟨rfl, rfl⟩ | ⟨hkr, hk'⟩⟩ := hcase hk
    · show i ∈ rcc.fcs.insert x ↔ _
      rw [NSet.mem_insert, hf, h.part _ rcc hr]
      by_cases hix : i = x
      · simp [hix]
      · simp [hix]
    · rw [hf, h.part k cc hk']
      by_cases hix : i = x
      · subst hix
        rw [hxold]
        simp [Ne.symm hkr, Ne.symm hko]
      · simp [hix]
  · intro k cc hk
    obtain ⟨hko, ⟨rfl, rfl⟩ | ⟨hkr, hk'⟩⟩ := hcase hk
    · show rcc.card + 1 = (rcc.fcs.insert x).card ∧ 0 < rcc.card + 1
      rw [NSet.card_insert hxr, (h.card _ rcc hr).1]
      omega
    · exact h.card k cc hk'
  · intro k cc hk
    obtain ⟨hko, ⟨rfl, rfl⟩ | ⟨hkr, hk'⟩⟩ := hcase hk
    · exact h.isoK _ rcc hr
    · exact h.isoK k cc hk'
  · intro i k cc k0 cc0 h1 h2 h3 h4
    rw [hf] at h1
    obtain ⟨hko, ⟨rfl, rfl⟩ | ⟨hkr, hk'⟩⟩ := hcase h2
    · split at h1
      · rename_i hix
        subst hix
        rw [hxflag k0 cc0 h3 h4]; exact hri
      · exact h.flag i _ rcc k0 cc0 h1 hr h3 h4
    · split at h1
      · simp only [Option.some.injEq] at h1; exact absurd h1.symm hkr
      · exact h.flag i k cc k0 cc0 h1 hk' h3 h4
  · intro k cc0 hk hiso
    have hk' := h.aniso k cc0 hk hiso
    rw [hccs]
    by_cases h1 : k = old
    · subst h1; rw [hold] at hk'; cases hk'; rw [hoi] at hiso; cases hiso
    · rw [if_neg h1]
      by_cases h2 : k = r
      · subst h2; rw [hr] at hk'; cases hk'; rw [hri] at hiso; cases hiso
      · rw [if_neg h2]; exact hk'
  · intro k cc0 hk hcard i hi
    have := h.stay k cc0 hk hcard i hi
    rw [hf]
    split
    · rename_i hix
      exfalso
      subst hix
      -- the whole original cell is in `old`, which has one cell
      rw [hxold] at this
      simp only [Option.some.injEq] at this
      subst this
      have hsub : ∀ a, a ∈ cc0.fcs → a ∈ NSet.single i := by
        intro a ha
        have := h.stay _ cc0 hk hcard a ha
        exact NSet.mem_single.2 ((hof a).1 ((h.part _ occ hold a).2 this))
      have h1 := NSet.card_le_of_subset hsub
      rw [NSet.card_single, ← (hc0.card _ cc0 hk).1] at h1
      omega
    · exact this
  · intro k cc hk hiso
    obtain ⟨hko, ⟨rfl, rfl⟩ | ⟨hkr, hk'⟩⟩ := hcase hk
    · exact hQ rcc.fcs rcc.compact x y m (h.good _ rcc hr hri) (h.lt hr) hxr hy hxy hm
    · exact h.good k cc hk' hiso
  · intro k hkp cc hk hcard z hz w hzw
    obtain ⟨hko, ⟨rfl, rfl⟩ | ⟨hkr, hk'⟩⟩ := hcase hk
    · exfalso
      have h1 : rcc.card + 1 ≤ 1 := hcard
      have h2 := (h.card _ rcc hr).2
      omega
    · have hkp' : k ∈ pre := by
        rcases List.mem_append.1 hkp with hp | hp
        · exact hp
        · simp at hp; exact absurd hp hko
      rcases h.left k hkp' cc hk' hcard z hz w hzw with h1 | ⟨k', cc', h1, h2, h3⟩
      · exact Or.inl h1
      · refine Or.inr ⟨k', cc', ?_, ?_, h3⟩
        · rw [hf, if_neg, h1]
          rintro rfl
          rw [hxold] at h1
          simp only [Option.some.injEq] at h1
          subst h1
          rw [hold] at h2; cases h2; rw [hoi] at h3; cases h3
        · rw [hccs, if_neg, if_neg, h2]
          · rintro rfl; rw [hr] at h2; cases h2; rw [hri] at h3; cases h3
          · rintro rfl; rw [hold] at h2; cases h2; rw [hoi] at h3; cases h3
  · intro k hk
    rcases NSet.mem_insert.1 hk with rfl | hk
    · simp
    · exact List.mem_append_left _ (h.remIn k hk)

/-- nothing happens to a cell -/
theorem KInv.skip {g : Graph W} {Q : NSet → Nat → Prop} {c0 c : Cont} {pre : List Nat} {rem : NSet}
    (h : KInv g Q c0 pre c rem) {old : Nat}
    (hl : ∀ cc, c.ccs.find? old = some cc → cc.card ≤ 1 → ∀ x ∈ cc.fcs, ∀ y, Adj g.rowPtr g.colInd x y →
      y = x ∨ ∃ k' cc', c.fc2cc[y]? = some (some k') ∧ c.ccs.find? k' = some cc' ∧ cc'.iso = false) :
    KInv g Q c0 (pre ++ [old]) c rem where
  len := h.len
  total := h.total
  keys := h.keys
  range := h.range
  part := h.part
  card := h.card
  isoK := h.isoK
  flag := h.flag
  aniso := h.aniso
  stay := h.stay
  good := h.good
  left k hk := by
    rcases List.mem_append.1 hk with hk | hk
    · exact h.left k hk
    · simp at hk; subst hk; exact hl
  remIn k hk := List.mem_append_left _ (h.remIn k hk)
  thresh := h.thresh

theorem NSet.single_of_card {s : NSet} (h : s.card = 1) : ∃ x, s.elems = [x] := by
  unfold NSet.card at h
  match hs : s.elems, h with
  | [x], _ => exact ⟨x, rfl⟩

theorem correctStep_inv {g : Graph W} (hv : ValidCRS g.nbC g.rowPtr g.colInd) (hh : Hash) {Q : NSet → Nat → Prop}
    (hQ : Absorbs g Q) {c0 : Cont} (hc0 : CInv g.nbC c0) (ht : c0.thresh = 1) {pre : List Nat} {c : Cont} {rem : NSet}
    (h : KInv g Q c0 pre c rem) {old : Nat} (hold : old ∈ c0.singular) (hnew : old ∉ pre) :
    Ok (correctStep g hh (c, rem) old) (fun r => KInv g Q c0 (pre ++ [old]) r.1 r.2) := by
  obtain ⟨occ0, hocc0, hoi0, _⟩ := (hc0.sing old).1 hold
  have hlt : old < c0.counter := (hc0.keys old).1 (NMap.mem_keys.2 ⟨_, hocc0⟩)
  have hmem : old ∈ c.ccs.keys := (h.keys old).2 ⟨hlt, fun hr => hnew (h.remIn old hr)⟩
  obtain ⟨occ, hocc⟩ := NMap.mem_keys.1 hmem
  have hoi : occ.iso = true := by
    obtain ⟨cc0, h1, h2⟩ := h.isoK old occ hocc
    rw [hocc0] at h1; cases h1; rw [h2, hoi0]
  unfold correctStep
  simp only
  rw [NMap.at_eq.2 hocc, ok_bind, h.thresh, ht]
  by_cases hcard : occ.card ≤ 1
  · rw [if_pos hcard]
    have hc1 : occ.fcs.card = 1 := by
      have := h.card old occ hocc
      omega
    obtain ⟨x, hx⟩ := NSet.single_of_card hc1
    have hof : ∀ i, i ∈ occ.fcs ↔ i = x := by
      intro i; rw [← NSet.mem_elems, hx]; simp
    have hxn : x < g.nbC := h.lt hocc x ((hof x).2 rfl)
    unfold neighsByFc
    have hord : hh.ord 5 occ.fcs.elems = [x] := by
      have := hh.perm 5 occ.fcs.elems
      rw [hx] at this ⊢
      exact List.perm_singleton.1 this
    rw [hord]
    simp only [List.mapM_cons, List.mapM_nil]
    obtain ⟨s, hs1, hs2⟩ := (neighsCC_ok hv h.total hxn old).eq
    rw [hs1]
    simp only [ok_bind, pure_bind]
    unfold tryWhole
    rw [if_neg (by omega)]
    simp only [pure_bind]
    unfold tryCells
    simp only [List.foldlM_cons, List.foldlM_nil]
    have hnn : ∀ k ∈ s, ∃ cc, c.ccs.find? k = some cc ∧ ∀ x ∈ cc.fcs, x < g.nbC := by
      intro k hk
      obtain ⟨_, j, _, hj⟩ := (hs2 k).1 hk
      obtain ⟨cc, hcc⟩ := NMap.mem_keys.1 (h.range j k hj)
      exact ⟨cc, hcc, h.lt hcc⟩
    -- all neighbours in anisotropic cells
    have hskip : (∀ k ∈ s, ∀ cc, c.ccs.find? k = some cc → cc.iso = false) →
        KInv g Q c0 (pre ++ [old]) c rem := by
      intro hall
      refine h.skip ?_
      intro cc hcc _ z hz y hzy
      rw [hocc] at hcc; cases hcc
      have := (hof z).1 hz
      subst this
      obtain ⟨k, hk⟩ := h.total y (hv.adj_lt hzy).2
      by_cases hko : k = old
      · subst hko
        exact Or.inl ((hof y).1 ((h.part _ occ hocc y).2 hk))
      · have hks : k ∈ s := (hs2 k).2 ⟨hko, y, hzy, hk⟩
        obtain ⟨cc, hcc, _⟩ := hnn k hks
        exact Or.inr ⟨k, cc, hk, hcc, hall k hks cc hcc⟩
    by_cases hs0 : s.card = 0
    · rw [if_pos hs0]
      simp only [pure_bind, Ok_pure]
      refine hskip ?_
      intro k hk
      have := NSet.card_pos_iff.2 ⟨k, hk⟩
      omega
    · rw [if_neg hs0]
      obtain ⟨o, ho, ho1, ho2⟩ := (selectCC_ok hv hxn hnn).eq
      rw [ho]
      simp only [ok_bind]
      cases o with
      | none =>
        simp only [pure_bind, Ok_pure]
        exact hskip (ho1 rfl)
      | some r =>
        obtain ⟨b, hb1, hb2, hb3, ⟨rcc, hr1, hr2, _, _, hr3, _⟩, _⟩ := ho2 r.1 r.2 rfl
        rw [hb1] at hb3 hr1
        rw [hb2] at hr3
        obtain ⟨hro, y, hxy, hyr⟩ := (hs2 r.1).1 hb3
        have hxl : x < c.fc2cc.length := by rw [h.len]; exact hxn
        simp only [moveCell]
        rw [wr_of_lt hxl, ok_bind, NMap.at_eq.2 hr1]
        simp only [ok_bind, pure_bind, Ok_pure, if_true, dropCC]
        refine h.move hQ hc0 hocc hoi hof hr1 hr2 hro hxy ((h.part _ rcc hr1 y).2 hyr) hr3 (by simp) ?_ ?_ rfl
        · intro i
          rw [List.getElem?_set]
          by_cases hi : x = i
          · subst hi; simp [hxl]
          · rw [if_neg hi, if_neg (fun h => hi h.symm)]
        · intro k
          rw [NMap.find?_erase]
          split
          · rfl
          · rw [NMap.find?_insert]
  · rw [if_neg hcard, Ok_pure]
    refine h.skip ?_
    intro cc hcc hle
    rw [hocc] at hcc; cases hcc
    exact absurd hle hcard

theorem correctLoop_inv {g : Graph W} (hv : ValidCRS g.nbC g.rowPtr g.colInd) (hh : Hash) {Q : NSet → Nat → Prop}
    (hQ : Absorbs g Q) {c : Cont} (hc : CInv g.nbC c) (ht : c.thresh = 1)
    (hgood : ∀ k cc, c.ccs.find? k = some cc → cc.iso = true → Q cc.fcs cc.compact)
    (hcomp : ∀ i : Nat, i < g.nbC → ∃ k, c.fc2cc[i]? = some (some k)) :
    Ok (c.singular.foldlM (correctStep g hh) (c, NSet.empty)) (fun r => KInv g Q c c.singular r.1 r.2) := by
  refine Ok.foldlM_prefix (I := fun pre (r : Cont × NSet) => KInv g Q c pre r.1 r.2) (KInv_init hc hgood hcomp) ?_
  rintro pre a post ⟨c', rem⟩ hsp hI
  refine correctStep_inv hv hh hQ hc ht hI (by rw [hsp]; simp) ?_
  intro hp
  have hs := hc.singSorted
  rw [hsp, List.pairwise_append] at hs
  exact absurd (hs.2.2 a hp a (by simp)) (Nat.lt_irrefl a)

/-- result of the renumbering: `φ` sends the remaining indices, in order, to `0, 1, …` -/
structure Renum (c c' : Cont) (N : Nat) (φ : Nat → Nat) : Prop where
  map : ∀ (i : Nat) k, c.fc2cc[i]? = some (some k) → c'.fc2cc[i]? = some (some (φ k))
  len : c'.fc2cc.length = c.fc2cc.length
  ccs : ∀ k cc, c.ccs.find? k = some cc → c'.ccs.find? (φ k) = some cc
  keys : ∀ k, k ∈ c'.ccs.keys ↔ k < N
  onto : ∀ k, k < N → ∃ j, j ∈ c.ccs.keys ∧ φ j = k
  mono : ∀ a b, a ∈ c.ccs.keys → b ∈ c.ccs.keys → a < b → φ a < φ b

theorem renameCells_ok {f : List (Option Nat)} {s : NSet} (hs : ∀ x ∈ s, x < f.length) (k : Nat) :
    Ok (renameCells f s k) (fun f' => f'.length = f.length ∧
      ∀ i : Nat, f'[i]? = if i ∈ s then some (some k) else f[i]?) := by
  unfold renameCells
  refine Ok.mono (Ok.foldlM_prefix (I := fun pre (f' : List (Option Nat)) => f'.length = f.length ∧
      ∀ i : Nat, f'[i]? = if i ∈ pre then some (some k) else f[i]?) (by simp) ?_) ?_
  · rintro pre a post f' hsp ⟨h1, h2⟩
    have ha : a < f'.length := by rw [h1]; exact hs a (by rw [← NSet.mem_elems, hsp]; simp)
    rw [wr_of_lt ha]
    refine ⟨by simp [h1], ?_⟩
    intro i
    rw [List.getElem?_set]
    by_cases hi : a = i
    · subst hi; simp [ha]
    · rw [if_neg hi, h2]
      have : (i ∈ pre ++ [a]) ↔ i ∈ pre := by simp [Ne.symm hi]
      simp [this]
  · rintro f' ⟨h1, h2⟩
    exact ⟨h1, fun i => by rw [h2]; simp⟩

theorem foldl_insert_find? (l : List (Nat × CC)) (hl : l.Pairwise (fun a b => a.1 < b.1)) (m : NMap CC) (j : Nat) (v : CC) :
    (l.foldl (fun (m : NMap CC) e => m.insert e.1 e.2) m).find? j = some v ↔
      (j, v) ∈ l ∨ ((∀ e ∈ l, e.1 ≠ j) ∧ m.find? j = some v) := by
  induction l generalizing m with
  | nil => simp
  | cons e l ih =>
    rw [List.pairwise_cons] at hl
    rw [List.foldl_cons, ih hl.2, NMap.find?_insert]
    constructor
    · rintro (h | ⟨h1, h2⟩)
      · exact Or.inl (by simp [h])
      · split at h2
        · rename_i he; cases h2; left; subst he; simp
        · rename_i he
          right
          refine ⟨?_, h2⟩
          intro e' he'
          rcases List.mem_cons.1 he' with rfl | he'
          · exact fun h => he h.symm
          · exact h1 e' he'
    · rintro (h | ⟨h1, h2⟩)
      · rcases List.mem_cons.1 h with h | h
        · right
          subst h
          refine ⟨fun e' he' => ?_, by simp⟩
          have := hl.1 e' he'
          simp only at this
          omega
        · exact Or.inl h
      · right
        refine ⟨fun e' he' => h1 e' (by simp [he']), ?_⟩
        rw [if_neg (fun h => h1 e (by simp) h.symm), h2]

theorem idxOf_lt_of_sorted {l : List Nat} (h : l.Pairwise (· < ·)) {a b : Nat} (ha : a ∈ l) (hb : b ∈ l) (hab : a < b) :
    l.idxOf a < l.idxOf b := by
  induction l with
  | nil => simp at ha
  | cons x l ih =>
    rw [List.pairwise_cons] at h
    by_cases hxa : x = a
    · subst hxa
      rw [List.idxOf_cons_self, List.idxOf_cons_ne _ (by omega)]
      omega
    · have ha' : a ∈ l := by simpa [Ne.symm hxa] using ha
      have hxb : x ≠ b := by
        have := h.1 a ha'
        omega
      have hb' : b ∈ l := by simpa [Ne.symm hxb] using hb
      rw [List.idxOf_cons_ne _ hxa, List.idxOf_cons_ne _ hxb]
      have := ih h.2 ha' hb'
      omega

/-- renumbering, when some fine cells have the index of a removed coarse cell -/
structure RenumG (c c' : Cont) (N : Nat) (φ : Nat → Nat) : Prop where
  map : ∀ (i : Nat) k, c.fc2cc[i]? = some (some k) → k ∈ c.ccs.keys → c'.fc2cc[i]? = some (some (φ k))
  out : ∀ (i : Nat), (∀ k, c.fc2cc[i]? = some (some k) → k ∉ c.ccs.keys) → c'.fc2cc[i]? = c.fc2cc[i]?
  len : c'.fc2cc.length = c.fc2cc.length
  ccs : ∀ k cc, c.ccs.find? k = some cc → c'.ccs.find? (φ k) = some cc
  keys : ∀ k, k ∈ c'.ccs.keys ↔ k < N
  onto : ∀ k, k < N → ∃ j, j ∈ c.ccs.keys ∧ φ j = k
  mono : ∀ a b, a ∈ c.ccs.keys → b ∈ c.ccs.keys → a < b → φ a < φ b

theorem renumber_gen {c : Cont} {first : Nat}
    (hlow : ∀ k, k < first → k ∈ c.ccs.keys)
    (hpart : ∀ k cc, c.ccs.find? k = some cc → ∀ i : Nat, i ∈ cc.fcs ↔ c.fc2cc[i]? = some (some k)) :
    Ok (renumber c first) (fun c' => ∃ N φ, RenumG c c' N φ ∧ (∀ k, k < first → φ k = k)) := by
  unfold renumber
  rw [if_pos (by
    by_cases h0 : first = 0
    · exact Or.inl h0
    · exact Or.inr (NMap.has_iff.2 (hlow _ (by omega))))]
  simp only
  generalize hrest : c.ccs.entries.filter (fun e => decide (first ≤ e.1)) = rest
  have hmemR : ∀ e, e ∈ rest ↔ e ∈ c.ccs.entries ∧ first ≤ e.1 := by intro e; rw [← hrest]; simp
  have hsR : rest.Pairwise (fun a b => a.1 < b.1) := by rw [← hrest]; exact c.ccs.sorted.filter _
  have hsRk : (rest.map (·.1)).Pairwise (· < ·) := List.pairwise_map.2 hsR
  have hkR : ∀ k, k ∈ rest.map (·.1) ↔ k ∈ c.ccs.keys ∧ first ≤ k := by
    intro k
    rw [List.mem_map, NMap.mem_keys]
    constructor
    · rintro ⟨e, he, rfl⟩
      exact ⟨⟨e.2, NMap.find?_eq_some.2 ((hmemR e).1 he).1⟩, ((hmemR e).1 he).2⟩
    · rintro ⟨⟨v, hv⟩, h2⟩
      exact ⟨(k, v), (hmemR _).2 ⟨NMap.find?_eq_some.1 hv, h2⟩, rfl⟩
  generalize hk : (c.ccs.entries.filter (fun e => decide (e.1 < first))).foldl
    (fun (m : NMap CC) e => m.insert e.1 e.2) NMap.empty = m0
  have hm0 : ∀ j v, m0.find? j = some v ↔ c.ccs.find? j = some v ∧ j < first := by
    intro j v
    rw [← hk, foldl_insert_find? _ (c.ccs.sorted.filter _)]
    simp [NMap.find?_eq_some]
  have hdisj : ∀ e ∈ rest, ∀ e' ∈ rest, ∀ i : Nat, i ∈ e.2.fcs → i ∈ e'.2.fcs → e.1 = e'.1 := by
    intro e he e' he' i h1 h2
    have f1 := NMap.find?_eq_some.2 ((hmemR e).1 he).1
    have f2 := NMap.find?_eq_some.2 ((hmemR e').1 he').1
    have g1 := (hpart _ _ f1 i).1 h1
    rw [(hpart _ _ f2 i).1 h2] at g1
    simpa using g1.symm
  let φ : Nat → Nat := fun k => if k < first then k else first + (rest.map (·.1)).idxOf k
  have hfold : Ok (rest.foldlM (fun (a : List (Option Nat) × NMap CC × Nat) e => do
      let f ← renameCells a.1 e.2.fcs a.2.2
      pure (f, a.2.1.insert a.2.2 e.2, a.2.2 + 1)) (c.fc2cc, m0, first)) (fun r =>
      r.2.2 = first + rest.length ∧ r.1.length = c.fc2cc.length ∧
      (∀ (t : Nat) e, rest[t]? = some e → ∀ i : Nat, i ∈ e.2.fcs → r.1[i]? = some (some (first + t))) ∧
      (∀ i : Nat, (∀ e ∈ rest, i ∉ e.2.fcs) → r.1[i]? = c.fc2cc[i]?) ∧
      (∀ j v, r.2.1.find? j = some v ↔ (c.ccs.find? j = some v ∧ j < first) ∨
        ∃ (t : Nat) (e : Nat × CC), rest[t]? = some e ∧ j = first + t ∧ v = e.2)) := by
    refine Ok.foldlM_prefix (I := fun pre (r : List (Option Nat) × NMap CC × Nat) =>
      r.2.2 = first + pre.length ∧ r.1.length = c.fc2cc.length ∧
      (∀ (t : Nat) e, pre[t]? = some e → ∀ i : Nat, i ∈ e.2.fcs → r.1[i]? = some (some (first + t))) ∧
      (∀ i : Nat, (∀ e ∈ pre, i ∉ e.2.fcs) → r.1[i]? = c.fc2cc[i]?) ∧
      (∀ j v, r.2.1.find? j = some v ↔ (c.ccs.find? j = some v ∧ j < first) ∨
        ∃ (t : Nat) (e : Nat × CC), pre[t]? = some e ∧ j = first + t ∧ v = e.2)) ?_ ?_
    · exact ⟨rfl, rfl, by simp, by simp, by simp [hm0]⟩
    · rintro pre a post ⟨f, m, nid⟩ hsp ⟨h1, h2, h3, h4, h5⟩
      simp only at h1 h2 h3 h4 h5 ⊢
      have haR : a ∈ rest := by rw [hsp]; simp
      have hlt : ∀ x ∈ a.2.fcs, x < f.length := by
        intro x hx
        have f1 := NMap.find?_eq_some.2 ((hmemR a).1 haR).1
        have := (hpart _ _ f1 x).1 hx
        rw [h2]
        exact (List.getElem?_eq_some_iff.1 this).1
      refine Ok.bind (renameCells_ok hlt nid) ?_
      rintro f' ⟨g1, g2⟩
      rw [Ok_pure]
      have hget : ∀ (t : Nat) e, (pre ++ [a])[t]? = some e ↔ pre[t]? = some e ∨ (t = pre.length ∧ e = a) := by
        intro t e
        rw [List.getElem?_append]
        split
        · rename_i ht
          constructor
          · exact Or.inl
          · rintro (h | ⟨h, _⟩)
            · exact h
            · omega
        · rename_i ht
          have hno : ¬ pre[t]? = some e := by
            intro h
            exact ht (List.getElem?_eq_some_iff.1 h).1
          by_cases hte : t = pre.length
          · simp [hte, eq_comm]
          · have : ([a] : List (Nat × CC))[t - pre.length]? = none := by
              rw [List.getElem?_eq_none]; simp; omega
            simp [this, hno, hte]
      refine ⟨by simp [h1]; omega, by rw [g1, h2], ?_, ?_, ?_⟩
      · intro t e he i hi
        simp only
        rw [g2]
        rcases (hget t e).1 he with he | ⟨ht, he⟩
        · rw [if_neg, h3 t e he i hi]
          intro hia
          have he' : e ∈ pre := List.mem_of_getElem? he
          have heq := hdisj e (by rw [hsp]; simp [he']) a haR i hi hia
          have := hsR
          rw [hsp, List.pairwise_append] at this
          have := this.2.2 e he' a (by simp)
          omega
        · subst he
          rw [if_pos hi, h1, ht]
      · intro i hi
        simp only
        rw [g2, if_neg (hi a (by simp))]
        exact h4 i (fun e he => hi e (by simp [he]))
      · intro j v
        simp only
        rw [NMap.find?_insert]
        by_cases hj : j = nid
        · rw [if_pos hj]
          constructor
          · intro hv
            cases hv
            exact Or.inr ⟨pre.length, a, (hget _ _).2 (Or.inr ⟨rfl, rfl⟩), by omega, rfl⟩
          · rintro (⟨_, hlt⟩ | ⟨t, e, he, hje, hv⟩)
            · omega
            · rcases (hget t e).1 he with he | ⟨ht, he⟩
              · have := (List.getElem?_eq_some_iff.1 he).1
                omega
              · rw [hv, he]
        · rw [if_neg hj, h5]
          constructor
          · rintro (h | ⟨t, e, he, hje, hv⟩)
            · exact Or.inl h
            · exact Or.inr ⟨t, e, (hget t e).2 (Or.inl he), hje, hv⟩
          · rintro (h | ⟨t, e, he, hje, hv⟩)
            · exact Or.inl h
            · rcases (hget t e).1 he with he | ⟨ht, he⟩
              · exact Or.inr ⟨t, e, he, hje, hv⟩
              · omega
  refine Ok.bind hfold ?_
  rintro ⟨f, m, nid⟩ ⟨h1, h2, h3, h4, h5⟩
  rw [Ok_pure]
  simp only at h1 h2 h3 h4 h5
  have hidx : ∀ k v, c.ccs.find? k = some v → first ≤ k → rest[(rest.map (·.1)).idxOf k]? = some (k, v) := by
    intro k v hkv hle
    have hkm : k ∈ rest.map (·.1) := (hkR k).2 ⟨NMap.mem_keys.2 ⟨v, hkv⟩, hle⟩
    have hl : (rest.map (·.1)).idxOf k < (rest.map (·.1)).length := List.idxOf_lt_length_of_mem hkm
    have hl' : (rest.map (·.1)).idxOf k < rest.length := by simpa using hl
    have hget : (rest.map (·.1))[(rest.map (·.1)).idxOf k] = k := List.getElem_idxOf hl
    rw [List.getElem_map] at hget
    rw [List.getElem?_eq_getElem hl']
    congr 1
    have hmem : rest[(rest.map (·.1)).idxOf k] ∈ rest := List.getElem_mem hl'
    have hf : c.ccs.find? (rest[(rest.map (·.1)).idxOf k]'hl').1 = some (rest[(rest.map (·.1)).idxOf k]'hl').2 :=
      NMap.find?_eq_some.2 ((hmemR _).1 hmem).1
    rw [hget, hkv] at hf
    rw [Prod.ext_iff]
    exact ⟨hget, by simpa using hf.symm⟩
  refine ⟨first + rest.length, φ, ⟨?_, ?_, h2, ?_, ?_, ?_, ?_⟩, fun k hk => by simp [φ, hk]⟩
  · intro i k hk hkk
    simp only
    obtain ⟨cc, hcc⟩ := NMap.mem_keys.1 hkk
    have hi := (hpart k cc hcc i).2 hk
    by_cases hkf : k < first
    · have hφ : φ k = k := by simp [φ, hkf]
      rw [hφ, h4, hk]
      intro e he hie
      have f1 := NMap.find?_eq_some.2 ((hmemR e).1 he).1
      have := (hpart _ _ f1 i).1 hie
      rw [hk] at this
      simp only [Option.some.injEq] at this
      have := ((hmemR e).1 he).2
      omega
    · have hφ : φ k = first + (rest.map (·.1)).idxOf k := by simp [φ, hkf]
      rw [hφ]
      exact h3 _ _ (hidx k cc hcc (by omega)) i hi
  · intro i hno
    refine h4 i ?_
    intro e he hie
    have f1 := NMap.find?_eq_some.2 ((hmemR e).1 he).1
    exact hno e.1 ((hpart _ _ f1 i).1 hie) (NMap.mem_keys.2 ⟨_, f1⟩)
  · intro k cc hcc
    simp only
    rw [h5]
    by_cases hkf : k < first
    · have hφ : φ k = k := by simp [φ, hkf]
      rw [hφ]; exact Or.inl ⟨hcc, hkf⟩
    · have hφ : φ k = first + (rest.map (·.1)).idxOf k := by simp [φ, hkf]
      rw [hφ]
      exact Or.inr ⟨_, _, hidx k cc hcc (by omega), rfl, rfl⟩
  · intro k
    simp only
    rw [NMap.mem_keys]
    constructor
    · rintro ⟨v, hv⟩
      rcases (h5 k v).1 hv with ⟨_, h⟩ | ⟨t, e, he, hke, _⟩
      · omega
      · have := (List.getElem?_eq_some_iff.1 he).1
        omega
    · intro hk
      by_cases hkf : k < first
      · obtain ⟨v, hv⟩ := NMap.mem_keys.1 (hlow k hkf)
        exact ⟨v, (h5 k v).2 (Or.inl ⟨hv, hkf⟩)⟩
      · have hl : k - first < rest.length := by omega
        exact ⟨_, (h5 k _).2 (Or.inr ⟨k - first, _, List.getElem?_eq_getElem hl, by omega, rfl⟩)⟩
  · intro k hk
    by_cases hkf : k < first
    · exact ⟨k, hlow k hkf, by simp [φ, hkf]⟩
    · have hl : k - first < rest.length := by omega
      have hl' : k - first < (rest.map (·.1)).length := by simpa using hl
      have hmem : (rest.map (·.1))[k - first] ∈ rest.map (·.1) := List.getElem_mem hl'
      have := (hkR _).1 hmem
      refine ⟨_, this.1, ?_⟩
      have hnd : (rest.map (·.1)).Nodup := hsRk.imp Nat.ne_of_lt
      show (if _ then _ else _) = k
      rw [if_neg (by omega), hnd.idxOf_getElem]
      omega
  · intro a b ha hb hab
    show (if _ then _ else _) < (if _ then _ else _)
    by_cases h1 : a < first
    · rw [if_pos h1]
      split
      · exact hab
      · exact Nat.lt_of_lt_of_le h1 (Nat.le_add_right _ _)
    · rw [if_neg h1, if_neg (by omega)]
      have := idxOf_lt_of_sorted hsRk ((hkR a).2 ⟨ha, by omega⟩) ((hkR b).2 ⟨hb, by omega⟩) hab
      omega


theorem renumber_ok {c : Cont} {first : Nat}
    (hlow : ∀ k, k < first → k ∈ c.ccs.keys)
    (hrange : ∀ (i : Nat) k, c.fc2cc[i]? = some (some k) → k ∈ c.ccs.keys)
    (hpart : ∀ k cc, c.ccs.find? k = some cc → ∀ i : Nat, i ∈ cc.fcs ↔ c.fc2cc[i]? = some (some k)) :
    Ok (renumber c first) (fun c' => ∃ N φ, Renum c c' N φ ∧ (∀ k, k < first → φ k = k)) := by
  refine Ok.mono (renumber_gen hlow hpart) ?_
  rintro c' ⟨N, φ, h, h'⟩
  exact ⟨N, φ, ⟨fun i k hk => h.map i k hk (hrange i k hk), h.len, h.ccs, h.keys, h.onto, h.mono⟩, h'⟩

/-- container after correction (`c'`) compared with the one before (`c`) -/
structure Corrected (g : Graph W) (Q : NSet → Nat → Prop) (c c' : Cont) (N : Nat) : Prop where
  len : c'.fc2cc.length = g.nbC
  total : ∀ i : Nat, i < g.nbC → ∃ k, c'.fc2cc[i]? = some (some k)
  keys : ∀ k, k ∈ c'.ccs.keys ↔ k < N
  range : ∀ (i : Nat) k, c'.fc2cc[i]? = some (some k) → k < N
  part : ∀ k cc, c'.ccs.find? k = some cc → ∀ i : Nat, i ∈ cc.fcs ↔ c'.fc2cc[i]? = some (some k)
  card : ∀ k cc, c'.ccs.find? k = some cc → cc.card = cc.fcs.card ∧ 0 < cc.card
  join : ∀ (i j : Nat) k, c.fc2cc[i]? = some (some k) → c.fc2cc[j]? = some (some k) → c'.fc2cc[i]? = c'.fc2cc[j]?
  big : ∀ (i j : Nat) k l cck ccl, c.fc2cc[i]? = some (some k) → c.fc2cc[j]? = some (some l) →
    c.ccs.find? k = some cck → c.ccs.find? l = some ccl → 1 < cck.card → 1 < ccl.card → k ≠ l →
    c'.fc2cc[i]? ≠ c'.fc2cc[j]?
  aniso : ∀ m, (∀ k, k < m → ∃ cc, c.ccs.find? k = some cc ∧ cc.iso = false) →
    ∀ k, k < m → c'.ccs.find? k = c.ccs.find? k
  flag : ∀ (i : Nat) k cc k0 cc0, c'.fc2cc[i]? = some (some k) → c'.ccs.find? k = some cc →
    c.fc2cc[i]? = some (some k0) → c.ccs.find? k0 = some cc0 → cc.iso = cc0.iso
  good : ∀ k cc, c'.ccs.find? k = some cc → cc.iso = true → Q cc.fcs cc.compact
  left : ∀ k cc, c'.ccs.find? k = some cc → cc.iso = true → cc.card ≤ 1 → ∀ x ∈ cc.fcs, ∀ y, Adj g.rowPtr g.colInd x y →
    y = x ∨ ∃ k' cc', c'.fc2cc[y]? = some (some k') ∧ c'.ccs.find? k' = some cc' ∧ cc'.iso = false

/-- the loop followed by a renumbering -/
theorem KInv.renum {g : Graph W} {Q : NSet → Nat → Prop} {c0 c c' : Cont} (hc0 : CInv g.nbC c0) (ht : c0.thresh = 1)
    {rem : NSet} (h : KInv g Q c0 c0.singular c rem) {N first : Nat} {φ : Nat → Nat} (hr : Renum c c' N φ)
    (hfirst : ∀ k, k < first → φ k = k)
    (hcnt : ∀ m, (∀ k, k < m → ∃ cc, c0.ccs.find? k = some cc ∧ cc.iso = false) → m ≤ first) :
    Corrected g Q c0 c' N := by
  have hinj : ∀ a b, a ∈ c.ccs.keys → b ∈ c.ccs.keys → φ a = φ b → a = b := by
    intro a b ha hb hab
    rcases Nat.lt_trichotomy a b with hl | hl | hl
    · have := hr.mono a b ha hb hl; omega
    · exact hl
    · have := hr.mono b a hb ha hl; omega
  -- entries of the new map come from the old one
  have hback : ∀ (i : Nat) k, c'.fc2cc[i]? = some (some k) → ∃ j, c.fc2cc[i]? = some (some j) ∧ φ j = k := by
    intro i k hk
    have hi : i < g.nbC := by
      rw [← h.len, ← hr.len]; exact (List.getElem?_eq_some_iff.1 hk).1
    obtain ⟨j, hj⟩ := h.total i hi
    refine ⟨j, hj, ?_⟩
    have := hr.map i j hj
    rw [hk] at this
    simpa using this.symm
  have hcc : ∀ k cc, c'.ccs.find? k = some cc → ∃ j, c.ccs.find? j = some cc ∧ φ j = k := by
    intro k cc hk
    obtain ⟨j, hj, hjk⟩ := hr.onto k ((hr.keys k).1 (NMap.mem_keys.2 ⟨cc, hk⟩))
    obtain ⟨cc', hcc'⟩ := NMap.mem_keys.1 hj
    have := hr.ccs j cc' hcc'
    rw [hjk, hk] at this
    cases this
    exact ⟨j, hcc', hjk⟩
  have hstayJ : ∀ (i j : Nat) k, c0.fc2cc[i]? = some (some k) → c0.fc2cc[j]? = some (some k) → c.fc2cc[i]? = c.fc2cc[j]? := by
    intro i j k hi hj
    obtain ⟨cc, hk⟩ := hc0.keys' (hc0.range i k hi)
    have hic := (hc0.part k cc hk i).2 hi
    have hjc := (hc0.part k cc hk j).2 hj
    by_cases h1 : 1 < cc.card
    · rw [h.stay k cc hk h1 i hic, h.stay k cc hk h1 j hjc]
    · have hcard := hc0.card k cc hk
      obtain ⟨x, hx⟩ := NSet.single_of_card (s := cc.fcs) (by omega)
      rw [← NSet.mem_elems, hx, List.mem_singleton] at hic hjc
      rw [hic, hjc]
  refine ⟨by rw [hr.len, h.len], ?_, hr.keys, ?_, ?_, ?_, ?_, ?_, ?_, ?_, ?_, ?_⟩
  · intro i hi
    obtain ⟨k, hk⟩ := h.total i hi
    exact ⟨φ k, hr.map i k hk⟩
  · intro i k hk
    obtain ⟨j, hj, hjk⟩ := hback i k hk
    obtain ⟨cc, hc⟩ := NMap.mem_keys.1 (h.range i j hj)
    rw [← hr.keys, ← hjk]
    exact NMap.mem_keys.2 ⟨cc, hr.ccs j cc hc⟩
  · intro k cc hk i
    obtain ⟨j, hj, hjk⟩ := hcc k cc hk
    rw [h.part j cc hj]
    constructor
    · intro hi; rw [hr.map i j hi, hjk]
    · intro hi
      obtain ⟨j', hj', hjk'⟩ := hback i k hi
      have := hinj j j' (NMap.mem_keys.2 ⟨cc, hj⟩) (h.range i j' hj') (by rw [hjk, hjk'])
      rw [this, hj']
  · intro k cc hk
    obtain ⟨j, hj, hjk⟩ := hcc k cc hk
    exact h.card j cc hj
  · intro i j k hi hj
    have he := hstayJ i j k hi hj
    have hin : i < g.nbC := by rw [← hc0.lenF]; exact (List.getElem?_eq_some_iff.1 hi).1
    obtain ⟨a, ha⟩ := h.total i hin
    rw [hr.map i a ha, hr.map j a (by rw [← he, ha])]
  · intro i j k l cck ccl hi hj hk hl h1 h2 hne he
    have a1 := h.stay k cck hk h1 i ((hc0.part k cck hk i).2 hi)
    have a2 := h.stay l ccl hl h2 j ((hc0.part l ccl hl j).2 hj)
    rw [hr.map i k a1, hr.map j l a2] at he
    simp only [Option.some.injEq] at he
    exact hne (hinj k l (h.range i k a1) (h.range j l a2) he)
  · intro m hm k hk
    obtain ⟨cc, h1, h2⟩ := hm k hk
    have h3 := h.aniso k cc h1 h2
    have := hr.ccs k cc h3
    have hmf := hcnt m hm
    rw [hfirst k (by omega)] at this
    rw [this, h1]
  · intro i k cc k0 cc0 h1 h2 h3 h4
    obtain ⟨j, hj, hjk⟩ := hback i k h1
    obtain ⟨j', hj', hjk'⟩ := hcc k cc h2
    have := hinj j j' (h.range i j hj) (NMap.mem_keys.2 ⟨cc, hj'⟩) (by rw [hjk, hjk'])
    subst this
    exact h.flag i j cc k0 cc0 hj hj' h3 h4
  · intro k cc hk hiso
    obtain ⟨j, hj, hjk⟩ := hcc k cc hk
    exact h.good j cc hj hiso
  · intro k cc hk hiso hcard x hx y hxy
    obtain ⟨j, hj, hjk⟩ := hcc k cc hk
    have hjs : j ∈ c0.singular := by
      rw [hc0.sing]
      obtain ⟨cc0, g1, g2⟩ := h.isoK j cc hj
      refine ⟨cc0, g1, by rw [← g2, hiso], ?_⟩
      rw [ht]
      rcases Nat.lt_or_ge 1 cc0.card with hc | hc
      · -- an original cell with more than one fine cell stays that large
        have hsub : ∀ a, a ∈ cc0.fcs → a ∈ cc.fcs := by
          intro a ha
          exact (h.part j cc hj a).2 (h.stay j cc0 g1 hc a ha)
        have := NSet.card_le_of_subset hsub
        have h1 := (hc0.card j cc0 g1).1
        have h2 := (h.card j cc hj).1
        omega
      · exact hc
    rcases h.left j hjs cc hj hcard x hx y hxy with h1 | ⟨k', cc', h1, h2, h3⟩
    · exact Or.inl h1
    · exact Or.inr ⟨φ k', cc', hr.map y k' h1, hr.ccs k' cc' h2, h3⟩

/-- correction with threshold 1 always succeeds -/
theorem correct_ok {g : Graph W} (hv : ValidCRS g.nbC g.rowPtr g.colInd) (hh : Hash) {Q : NSet → Nat → Prop}
    (hQ : Absorbs g Q) {c : Cont} (hc : CInv g.nbC c) (ht : c.thresh = 1)
    (hgood : ∀ k cc, c.ccs.find? k = some cc → cc.iso = true → Q cc.fcs cc.compact)
    (hcomp : ∀ i : Nat, i < g.nbC → ∃ k, c.fc2cc[i]? = some (some k)) :
    Ok (c.correct g hh) (fun c' => ∃ N, Corrected g Q c c' N) := by
  unfold Cont.correct
  refine Ok.bind (correctLoop_inv hv hh hQ hc ht hgood hcomp) ?_
  rintro ⟨c1, rem⟩ h
  simp only at h ⊢
  split
  · rename_i hrem
    rw [Ok_pure]
    have hnr : ∀ k, k ∉ rem := by
      intro k hk; rw [← NSet.mem_elems, hrem] at hk; simp at hk
    refine ⟨c.counter, h.renum hc ht (φ := id) (first := c.counter)
      ⟨fun i k hk => hk, rfl, fun k cc hk => hk, ?_, ?_, fun a b _ _ hab => hab⟩ (fun k _ => rfl) ?_⟩
    · intro k; rw [h.keys]; simp [hnr]
    · intro k hk; exact ⟨k, (h.keys k).2 ⟨hk, hnr k⟩, rfl⟩
    · intro m hm
      rcases Nat.lt_or_ge c.counter m with hl | hl
      · obtain ⟨cc, h1, _⟩ := hm c.counter hl
        have := (hc.keys c.counter).1 (NMap.mem_keys.2 ⟨cc, h1⟩)
        omega
      · exact hl
  · rename_i first l hrem
    have hfr : first ∈ rem := by rw [← NSet.mem_elems, hrem]; simp
    have hmin : ∀ k, k ∈ rem → first ≤ k := by
      intro k hk
      have hs := rem.sorted
      rw [← NSet.mem_elems] at hk
      rw [hrem] at hk hs
      rcases List.mem_cons.1 hk with rfl | hk
      · exact Nat.le_refl _
      · exact Nat.le_of_lt ((List.pairwise_cons.1 hs).1 k hk)
    have hfs := h.remIn first hfr
    obtain ⟨fcc, hf1, hf2, _⟩ := (hc.sing first).1 hfs
    have hflt : first < c.counter := (hc.keys first).1 (NMap.mem_keys.2 ⟨fcc, hf1⟩)
    refine Ok.mono (renumber_ok (first := first) ?_ h.range h.part) ?_
    · intro k hk
      exact (h.keys k).2 ⟨by omega, fun hkr => by have := hmin k hkr; omega⟩
    · rintro c' ⟨N, φ, hr, hφ⟩
      refine ⟨N, h.renum hc ht hr hφ ?_⟩
      intro m hm
      rcases Nat.lt_or_ge first m with hl | hl
      · obtain ⟨cc, h1, h2⟩ := hm first hl
        rw [hf1] at h1; cases h1
        rw [hf2] at h2; cases h2
      · exact hl

end CoMMA
