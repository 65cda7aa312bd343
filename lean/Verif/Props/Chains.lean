import Verif.Lemmas.Chains
import Verif.Props.LineGrowth
import Verif.Props.Anisotropic
/-! # C94: where strong couplings form chains the lines are the chains -/

set_option linter.unusedSectionVars false

namespace CoMMA

variable {W : Type} [Num W]

/-- the lines grown from cells that form chains are the chains -/
theorem LinesFrom.chains {g : Graph W} {coupling : Coupling} {T : Nat → Prop} {force : Bool}
    (hc : FormChains g coupling T) (hf : force = false ∨ StraightChains g coupling T) {seeds : List Nat}
    {ls : List (List Nat)} (h : LinesFrom g coupling force (· ∈ seeds) seeds ls) (hT : ∀ i, i ∈ seeds ↔ T i) {i j : Nat} (hne : i ≠ j)
    (hi : T i) (hnd : ls.flatten.Nodup) :
    (∃ l ∈ ls, i ∈ l ∧ j ∈ l) ↔ Chained g coupling T i j := by
  have hcells := h.cells hc hf (fun x hx => (hT x).1 hx)
  constructor
  · rintro ⟨l, hl, hil, hjl⟩
    have hl2 : ∀ x ∈ l, T x := fun x hx => (hT x).1 (hcells l hl x hx)
    have hcons : Consecutive (fun u v => T u ∧ T v ∧ StrongTo g coupling u v) l := by
      intro k u v hu hv
      have hTu := hl2 u (List.mem_of_getElem? hu)
      have hTv := hl2 v (List.mem_of_getElem? hv)
      rcases h.linkedChains hc hf (fun x hx => (hT x).1 hx) l hl k u v hu hv with h1 | h1
      · exact ⟨hTu, hTv, h1⟩
      · exact ⟨hTu, hTv, hc.back v u hTv hTu h1⟩
    obtain ⟨a, ha⟩ := List.mem_iff_getElem?.1 hil
    obtain ⟨b, hb⟩ := List.mem_iff_getElem?.1 hjl
    rcases Nat.le_total a b with hab | hab
    · exact ⟨b - a, hcons.walk (b - a) a i j ha (by rw [Nat.add_sub_cancel' hab]; exact hb)⟩
    · refine ⟨a - b, Walk.symm (fun u v h => ⟨h.2.1, h.1, hc.back u v h.1 h.2.1 h.2.2⟩) ?_⟩
      exact hcons.walk (a - b) b j i hb (by rw [Nat.add_sub_cancel' hab]; exact ha)
  · rintro ⟨k, hw⟩
    induction hw with
    | nil => exact absurd rfl hne
    | @step k i y z hw hyz ih =>
      obtain ⟨hTy, hTz, hs⟩ := hyz
      by_cases hyz : y = z
      · subst hyz
        exact ih hne hi
      · obtain ⟨l, hl, hy, hz⟩ := h.together hc hf (fun x hx => (hT x).1 hx) (fun a b _ hb _ _ => (hT b).2 hb) hyz ((hT y).2 hTy)
          ((hT z).2 hTz) ((hT y).2 hTy) hs
        by_cases hiy : i = y
        · subst hiy
          exact ⟨l, hl, hy, hz⟩
        · obtain ⟨l', hl', hi', hy'⟩ := ih hiy hi
          have : l' = l := by
            by_contra hll
            obtain ⟨a, ha⟩ := List.mem_iff_getElem?.1 hl
            obtain ⟨b, hb⟩ := List.mem_iff_getElem?.1 hl'
            have hpw := (List.nodup_flatten.1 hnd).2
            have hd : ∀ p q : Nat, p < q → ∀ r s, ls[p]? = some r → ls[q]? = some s → y ∈ r → y ∈ s → False := by
              intro p q hpq r s hr hs h1 h2
              obtain ⟨hp1, rfl⟩ := List.getElem?_eq_some_iff.1 hr
              obtain ⟨hq1, rfl⟩ := List.getElem?_eq_some_iff.1 hs
              exact (List.pairwise_iff_getElem.1 hpw p q hp1 hq1 hpq) h1 h2
            rcases Nat.lt_trichotomy a b with h1 | h1 | h1
            · exact hd a b h1 l l' ha hb hy hy'
            · subst h1
              rw [ha] at hb
              exact hll (Option.some.inj hb).symm
            · exact hd b a h1 l' l hb ha hy' hy
          subst this
          exact ⟨l', hl, hi', hz⟩

/-- **C94** If, among the tagged cells, strong couplings are mutual and no cell has more than two, the call builds exactly
their chains: two tagged cells are on the same line if and only if one is reached from the other through strong
couplings of tagged cells.  If lines are to keep their direction the chains must be straight.  `fls` are the lines that are agglomerated (C40). -/
theorem C94_chains (hW : LawfulLt W) {P : Platform} {a : Args W} {o : Outs} {n : Nat} (hm : ValidMesh a n)
    (hp : ValidParams P a) (hs : CorrectsSingletons a) (hb : BuildsLines a n)
    (hno : ∀ fls, fineLines P a o = .ok fls → FitsLimit a fls) (hns : NoSelfLoop a.rowPtr a.colInd)
    (hpos : NonnegCouplings (graphOf a) (meantCoupling a)) (hc : FormChains (graphOf a) (meantCoupling a)
      (fun i => i ∈ a.compliant ∧ IsAnisotropic (graphOf a) (meantThreshold a.thr) i))
    (hforce : a.forceDir = false ∨ StraightChains (graphOf a) (meantCoupling a)
      (fun i => i ∈ a.compliant ∧ IsAnisotropic (graphOf a) (meantThreshold a.thr) i)) :
    ∃ fls out, agglomerateOneLevel P a o = (out, .ok ()) ∧ CoarsensLines a fls out ∧
      ∀ i j, i ≠ j → i ∈ a.compliant ∧ IsAnisotropic (graphOf a) (meantThreshold a.thr) i →
        ((∃ l ∈ fls, i ∈ l ∧ j ∈ l) ↔ Chained (graphOf a) (meantCoupling a)
          (fun i => i ∈ a.compliant ∧ IsAnisotropic (graphOf a) (meantThreshold a.thr) i) i j) := by
  obtain ⟨fls, out, h1, h2, h3, h4, _, _⟩ := C40_built hW hm hp hs hb hno
  obtain ⟨fls', seeds, e1, e2, _, _, e5⟩ := C48_call (P := P) (o := o) hW hm hb hns hpos
  rw [h1] at e1
  cases e1
  exact ⟨fls, out, h2, h3.lines, fun i j hne hi => e5.chains hc hforce e2 hne hi h4⟩

end CoMMA
