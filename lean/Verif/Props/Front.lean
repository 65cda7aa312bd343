import Verif.Lemmas.Front
import Verif.Spec.Front
import Verif.Props.AfterLines
import Verif.Props.Levels
import Verif.Props.Numbering
/-! # C71: with neighbourhood priority the coarse cells advance as a front -/

set_option linter.unusedSectionVars false

namespace CoMMA

variable {W F : Type} [Num W]

/-- the front of a run after the lines -/
theorem MapAfterLines.front {E : IsoEnv W F} {G : NMap Nat → Nat → List Nat → Prop} {n : Nat} {gss : List (List (List Nat))}
    {f : List Nat} (h : MapAfterLines E G n gss f) (hk : E.pool.kind = .neighbourhood) (hB : E.pool.nBnd.length = n)
    (h3 : ∀ b ∈ E.pool.nBnd, b ≤ 3) (hg : ValidCRS n E.g.rowPtr E.g.colInd) (hc : ConnectedMesh n E.g.rowPtr E.g.colInd)
    (h1 : 1 ≤ E.minCard) (h0 : 0 ∈ f) {k : Nat} (hkf : k ∈ f) (hmk : gss.flatten.length ≤ k) :
    ∃ i : Nat, f[i]? = some k ∧
      ((gss.flatten.length = 0 ∧ (E.pool.onePoint = true → k = 0) ∧
          ∃ b, E.pool.nBnd[i]? = some b ∧ ∀ b' ∈ E.pool.nBnd, b' ≤ b) ∨
        ∃ j l : Nat, Adj E.g.rowPtr E.g.colInd j i ∧ f[j]? = some l ∧ l < k) := by
  obtain ⟨agg0, p0, cs, agg, p, ha, hp, ht, hF, hlen, hget⟩ := h
  have hB' : ∀ x < n, ∃ b, E.pool.nBnd[x]? = some b := fun x hx => ⟨_, List.getElem?_eq_getElem (by rw [hB]; exact hx)⟩
  -- numbers of the coarse cells
  have hline : ∀ x, x ∈ gss.flatten.flatten → ∃ l, f[x]? = some l ∧ l < gss.flatten.length := by
    intro x hx
    obtain ⟨c, hc1, hxc⟩ := List.mem_flatten.1 hx
    obtain ⟨l, hl⟩ := List.mem_iff_getElem?.1 hc1
    have hll := (List.getElem?_eq_some_iff.1 hl).1
    refine ⟨l, (hget x l).2 ⟨NSet.ofList c, ?_, NSet.mem_ofList.2 hxc⟩, hll⟩
    rw [List.getElem?_append_left (by rw [List.length_map]; exact hll), List.getElem?_map, hl]; rfl
  have hcell : ∀ (j : Nat) (e : Nat × NSet) (x : Nat), cs[j]? = some e → x ∈ e.2 → f[x]? = some (gss.flatten.length + j) := by
    intro j e x hj hx
    refine (hget x _).2 ⟨e.2, ?_, hx⟩
    rw [List.getElem?_append_right (by simp only [List.length_map]; omega), List.length_map, Nat.add_sub_cancel_left,
      List.getElem?_map, hj]
    rfl
  have hlt : ∀ x ∈ gss.flatten.flatten, x < n := by
    intro x hx
    obtain ⟨l, hl, _⟩ := hline x hx
    rw [← hlen]
    exact (List.getElem?_eq_some_iff.1 hl).1
  obtain ⟨e, he⟩ : ∃ e, cs[k - gss.flatten.length]? = some e := by
    obtain ⟨i, hi⟩ := List.mem_iff_getElem?.1 hkf
    obtain ⟨c, hc1, _⟩ := (hget i k).1 hi
    rw [List.getElem?_append_right (by simpa only [List.length_map] using hmk), List.length_map, List.getElem?_map] at hc1
    cases hcs : cs[k - gss.flatten.length]? with
    | none => rw [hcs] at hc1; cases hc1
    | some e => exact ⟨e, rfl⟩
  have hA : ∀ x : Nat, agg0[x]? = some true → x ∈ gss.flatten.flatten := by
    intro x hx
    rw [ha, List.getElem?_map] at hx
    by_cases hi : x < n
    · rw [List.getElem?_range hi] at hx
      simpa using hx
    · rw [List.getElem?_eq_none (by simpa using hi)] at hx
      cases hx
  -- conclusion from the invariant
  have fin : ∀ I, FrontInv E.g I n agg0 p0 → (∀ x ∈ I, gss.flatten.length = 0 ∧
      (E.pool.onePoint = true → I = [x] ∧ ∀ y : Nat, agg0[y]? ≠ some true) ∧
      ∃ b, E.pool.nBnd[x]? = some b ∧ ∀ b' ∈ E.pool.nBnd, b' ≤ b) →
      ∃ i : Nat, f[i]? = some k ∧
        ((gss.flatten.length = 0 ∧ (E.pool.onePoint = true → k = 0) ∧
            ∃ b, E.pool.nBnd[i]? = some b ∧ ∀ b' ∈ E.pool.nBnd, b' ≤ b) ∨
          ∃ j l : Nat, Adj E.g.rowPtr E.g.colInd j i ∧ f[j]? = some l ∧ l < k) := by
    intro I hI hI'
    have key := (ht.front hI hk hB' hg hc h1).2
    obtain ⟨k1, k2, k3, k4, k5⟩ := key _ e he
    have hf : f[e.1]? = some k := by
      have := hcell _ e e.1 he k1
      rwa [Nat.add_sub_cancel' hmk] at this
    refine ⟨e.1, hf, ?_⟩
    rcases k5 with k5 | ⟨x, hx, k5⟩
    · obtain ⟨i1, i2, i3⟩ := hI' _ k5
      refine Or.inl ⟨i1, fun ho => ?_, i3⟩
      obtain ⟨rfl, hno⟩ := i2 ho
      -- the first coarse cell has the one cell
      by_contra hk0
      have hcl : 0 < cs.length := by
        have := (List.getElem?_eq_some_iff.1 he).1
        omega
      obtain ⟨f1, _, _, _, f5⟩ := key 0 _ (List.getElem?_eq_getElem hcl)
      rcases f5 with f5 | ⟨y, _, f5 | ⟨j, _, hj, _⟩⟩
      · rw [List.mem_singleton] at f5
        have := k4 0 _ (by omega) (List.getElem?_eq_getElem hcl)
        rw [← f5] at this
        exact this f1
      · exact hno y f5
      · omega
    · refine Or.inr ?_
      rcases k5 with k5 | ⟨j, e', hj, hj', hx'⟩
      · obtain ⟨l, hl, hl'⟩ := hline x (hA x k5)
        exact ⟨x, l, hx, hl, by omega⟩
      · exact ⟨x, _, hx, hcell j e' x hj' hx', by omega⟩
  cases hp with
  | near _ h4 h5 h6 h7 =>
    exact fin [] (FrontInv.near hB h3 hlt hk ha h4 h5 h6 h7) (by simp)
  | level h4 => rw [hk] at h4; cases h4
  | higher h4 => rw [hk] at h4; cases h4
  | fresh hw hp =>
    obtain ⟨I, i1, i2, i3⟩ := FrontInv.started hB h3 hp
    by_cases hz : gss.flatten.flatten = []
    · have ha' : agg0 = List.replicate n false := by
        rw [ha, hz]
        simp
      rw [← ha'] at i1
      by_cases hg0 : gss.flatten.length = 0
      · refine fin I i1 (fun x hx => ⟨hg0, fun ho => ⟨?_, ?_⟩, i2 x hx⟩)
        · obtain ⟨y, hy⟩ := i3 ho
          rw [hy] at hx ⊢
          rw [List.mem_singleton.1 hx]
        · intro y hy
          have := hA y hy
          rw [hz] at this
          cases this
      · exfalso
        obtain ⟨i, hi⟩ := List.mem_iff_getElem?.1 h0
        obtain ⟨c, hc1, hic⟩ := (hget i 0).1 hi
        rw [List.getElem?_append_left (by simp only [List.length_map]; omega), List.getElem?_map] at hc1
        cases hgr : gss.flatten[0]? with
        | none => rw [hgr] at hc1; cases hc1
        | some gr =>
          rw [hgr] at hc1
          cases hc1
          have : i ∈ gss.flatten.flatten := List.mem_flatten.2 ⟨gr, List.mem_of_getElem? hgr, NSet.mem_ofList.1 hic⟩
          rw [hz] at this
          cases this
    · -- no cell is left
      exfalso
      obtain ⟨i, hi⟩ := List.mem_iff_getElem?.1 hkf
      have hin : i < n := by rw [← hlen]; exact (List.getElem?_eq_some_iff.1 hi).1
      obtain ⟨x, hx⟩ := List.exists_mem_of_ne_nil _ hz
      obtain ⟨len, hwalk⟩ := hc x i (hlt x hx) hin
      have hi' : i ∉ gss.flatten.flatten := by
        intro hmem
        obtain ⟨l, hl, hl'⟩ := hline i hmem
        rw [hi] at hl
        cases hl
        omega
      obtain ⟨u, v, huv, hu, hv⟩ := walk_crosses (P := (· ∈ gss.flatten.flatten)) (Q := fun z => agg0[z]? = some false) (by
        intro y z hyz
        by_cases hz : z ∈ gss.flatten.flatten
        · exact Or.inl hz
        · right
          rw [ha, List.getElem?_map, List.getElem?_range (hg.adj_lt hyz).2]
          simpa using hz) hwalk hx hi'
      have : v ∈ (gss.flatten.flatten.flatMap (rowOf E.g.rowPtr E.g.colInd)).filter (fun x => decide (agg0[x]? = some false)) := by
        rw [List.mem_filter, List.mem_flatMap]
        exact ⟨⟨u, hu, adj_iff_rowOf.1 huv⟩, by simpa using hv⟩
      rw [hw] at this
      cases this

section call
variable {P : Platform} {a : Args W} {o : Outs} {n : Nat}

/-- single cells are made only when all their neighbours are taken -/
theorem MapAfterLines.singlesLast {E : IsoEnv W F} {G : NMap Nat → Nat → List Nat → Prop} {n : Nat} {gss : List (List (List Nat))}
    {f : List Nat} (h : MapAfterLines E G n gss f) (hg : ValidCRS n E.g.rowPtr E.g.colInd) (hm : 1 < E.minCard) :
    SinglesLast E.g.rowPtr E.g.colInd f gss.flatten.length := by
  rintro x k ⟨k', hx', hmk, hc⟩ hx y hxy
  rw [hx] at hx'
  cases hx'
  obtain ⟨_, _, _, agg, _, seed, order, s, _, _, _, _, _, g1, g2, g3⟩ := h.turn (List.mem_of_getElem? hx) hmk
  have hseed : seed = x := count_one_pos hc ((g3 seed).2 (g1.seed_mem (by omega))) hx
  subst hseed
  by_contra hno
  rw [not_or] at hno
  obtain ⟨l, h1, h2⟩ := g2 y (hg.adj_lt hxy).2
  have : ¬ l < k := fun hlt => hno.2 ⟨l, h1, hlt⟩
  rw [decide_eq_false this] at h2
  exact hno.1 (g1.alone hm (fun z hz => count_one_pos hc ((g3 z).2 hz) hx) hxy h2)

/-- **C71** On a connected mesh a call with neighbourhood priority agglomerates as
a front: each coarse cell not made from a line touches one with a smaller number, or, if there
are no lines, contains a cell with the largest number of boundary faces.  With a one-point
initialisation only the first coarse cell touches none.  No correction, or correction of single cells. -/
theorem C71_front (hm : ValidMesh a n) (hp : ValidParams P a)
    (hW : LawfulLt W) (hu : UniqueRows a.rowPtr a.colInd) (hl : NoSelfLoop a.rowPtr a.colInd)
    (hs : CorrectsSingletons a) (hmode : ValidMode (graphOf a) a o n) (hk : NeighbourhoodFirst a)
    (hc : ConnectedMesh n a.rowPtr a.colInd) :
    ∃ out m, agglomerateOneLevel P a o = (out, .ok ()) ∧ LineCells a o out m ∧
      ∀ k ∈ out.fcToCc, m ≤ k → ∃ i : Nat, out.fcToCc[i]? = some k ∧
        (TouchesEarlier a out.fcToCc k i ∨
          (m = 0 ∧ MostBoundary a i ∧ (a.order = .neighbourhoodOnePoint → k = 0))) := by
  obtain ⟨c, k0, p0, idx, lines, gss, hd0⟩ := described hm hp hW hu hl hmode
  obtain ⟨f0, g1, h4⟩ := hd0.map
  obtain ⟨fc, h1, h5⟩ : ∃ f, agglomerateOneLevel P a o = (⟨f, idx, lines⟩, .ok ()) ∧ FixedSingles a gss.flatten.length f0 f := by
    unfold FixedSingles
    cases hcor : a.correction with
    | false =>
      rw [uncorrected_self hcor] at g1
      exact ⟨f0, g1, rfl⟩
    | true =>
      obtain ⟨f, f0', e1, e2, e3⟩ := hd0.start.exact hm hp hcor hs hu hl
      rw [e2] at g1
      cases g1
      refine ⟨f, e1, ?_⟩
      rw [if_pos rfl, ← hd0.counter]
      exact e3
  have h2 := hd0.start.made
  have h3 := (hd0.rows fc).lineCells
  have hE := callEnv hp h2
  have hdim := hE.dim
  have hd := hp.dim
  have hmin := hE.minCard
  have hmin' := hp.minCard
  have hcrs : ValidCRS n (isoEnvOf P a c).g.rowPtr (isoEnvOf P a c).g.colInd := by rw [hE.rowPtr, hE.colInd]; exact hm.crs
  have hpos := hm.pos
  have hsl := h4.singlesLast hcrs (by omega)
  rw [hE.rowPtr, hE.colInd] at hsl
  have h0 : 0 ∈ f0 := by
    obtain ⟨_, _, _, f, ho⟩ := outcome hm.uncorrected hp.uncorrected (by intro e; cases e) hd0.start.uncorrected
    have heq := ho.eq
    rw [show a.uncorrected = { a with correction := false } from rfl, g1] at heq
    cases heq
    obtain ⟨N, hN⟩ := ho.reads.contiguous
    have hlen := ho.reads.len
    have : f0[0]'(by omega) ∈ f0 := List.getElem_mem _
    exact (hN 0).2 (Nat.lt_of_le_of_lt (Nat.zero_le _) ((hN _).1 this))
  have key : ∀ k ∈ f0, gss.flatten.length ≤ k → ∃ i : Nat, f0[i]? = some k ∧
      ((∃ j l : Nat, Adj a.rowPtr a.colInd j i ∧ f0[j]? = some l ∧ l < k) ∨
        (gss.flatten.length = 0 ∧ MostBoundary a i ∧ (a.order = .neighbourhoodOnePoint → k = 0))) := by
   intro k hkf hmk
   obtain ⟨i, hi, hor⟩ := h4.front (by
       have := hE.kind
       unfold NeighbourhoodFirst at hk
       cases hkk : (isoEnvOf P a c).pool.kind with
       | neighbourhood => rfl
       | boundary =>
         rcases this.1 hkk with e | e <;> rw [e] at hk <;> rcases hk with hk | hk <;> cases hk)
     (by rw [hE.poolBnd, hE.nBnd, List.length_map]; exact hm.bnd)
     (by
       rw [hE.poolBnd, hE.nBnd]
       intro b hb
       obtain ⟨b', _, rfl⟩ := List.mem_map.1 hb
       omega)
     hcrs (by rw [hE.rowPtr, hE.colInd]; exact hc)
     (by omega) h0 hkf hmk
   refine ⟨i, hi, ?_⟩
   rcases hor with ⟨e1, e2, b, e3, e4⟩ | ⟨j, l, e1, e2, e3⟩
   · right
     refine ⟨e1, ?_, fun ho => e2 (hE.onePoint.2 (Or.inr ho))⟩
     rw [hE.poolBnd, hE.nBnd, List.getElem?_map] at e3
     rw [hE.poolBnd, hE.nBnd] at e4
     cases hb : a.nBnd[i]? with
     | none => rw [hb] at e3; cases e3
     | some b0 =>
       rw [hb] at e3
       cases e3
       have hdd : (isoEnvOf P a c).g.dim = a.dim.toNat := by omega
       refine ⟨b0, hb, fun b' hb' => ?_⟩
       rw [← hdd]
       exact e4 _ (List.mem_map.2 ⟨b', hb', rfl⟩)
   · left
     rw [hE.rowPtr, hE.colInd] at e1
     exact ⟨j, l, e1, e2, e3⟩
  refine ⟨_, _, h1, h3, ?_⟩
  unfold FixedSingles at h5
  by_cases hcor : a.correction = true
  · rw [if_pos hcor] at h5
    exact h5.front hm.sym hsl (Q := fun i k => gss.flatten.length = 0 ∧ MostBoundary a i ∧
      (a.order = .neighbourhoodOnePoint → k = 0)) (fun i k k' hq hle => ⟨hq.1, hq.2.1, fun e => by have := hq.2.2 e; omega⟩) key
  · rw [if_neg hcor] at h5
    rw [h5]
    exact key

theorem connected_join {rp ci : List Nat} (hs : SymmetricCRS rp ci) {S T : Nat → Prop} (hS : ConnectedSet rp ci S)
    (hT : ConnectedSet rp ci T) {x y : Nat} (hx : S x) (hy : T y) (hxy : Adj rp ci x y) :
    ConnectedSet rp ci (fun i => S i ∨ T i) := by
  have wS : ∀ u v, S u → S v → ∃ k, Walk (fun a b => Adj rp ci a b ∧ (S a ∨ T a) ∧ (S b ∨ T b)) k u v := by
    intro u v hu hv
    obtain ⟨k, hw⟩ := hS u v hu hv
    exact ⟨k, hw.mono (fun a b h => ⟨h.1, Or.inl h.2.1, Or.inl h.2.2⟩)⟩
  have wT : ∀ u v, T u → T v → ∃ k, Walk (fun a b => Adj rp ci a b ∧ (S a ∨ T a) ∧ (S b ∨ T b)) k u v := by
    intro u v hu hv
    obtain ⟨k, hw⟩ := hT u v hu hv
    exact ⟨k, hw.mono (fun a b h => ⟨h.1, Or.inr h.2.1, Or.inr h.2.2⟩)⟩
  have across : ∀ u v, S u → T v → ∃ k, Walk (fun a b => Adj rp ci a b ∧ (S a ∨ T a) ∧ (S b ∨ T b)) k u v := by
    intro u v hu hv
    obtain ⟨k, h1⟩ := wS u x hu hx
    obtain ⟨l, h2⟩ := wT y v hy hv
    exact ⟨_, (h1.trans (Walk.single ⟨hxy, Or.inl hx, Or.inr hy⟩)).trans h2⟩
  rintro u v (hu | hu) (hv | hv)
  · exact wS u v hu hv
  · exact across u v hu hv
  · obtain ⟨k, hw⟩ := across v u hv hu
    exact ⟨k, hw.symm (fun a b h => ⟨hs _ _ h.1, h.2.2, h.2.1⟩)⟩
  · exact wT u v hu hv

/-- **C71** With a one-point initialisation and no lines, the cells of the first coarse cells, however many, are connected. -/
theorem C71_one_point (hm : ValidMesh a n) (hp : ValidParams P a)
    (hW : LawfulLt W) (hu : UniqueRows a.rowPtr a.colInd) (hl : NoSelfLoop a.rowPtr a.colInd)
    (hs : CorrectsSingletons a) (ho : WithoutLines a o) (hk : a.order = .neighbourhoodOnePoint)
    (hc : ConnectedMesh n a.rowPtr a.colInd) :
    ∃ out, agglomerateOneLevel P a o = (out, .ok ()) ∧ 
      ∀ k, ConnectedSet a.rowPtr a.colInd (fun i => ∃ l, out.fcToCc[i]? = some l ∧ l ≤ k) := by
  obtain ⟨out, m, h1, h2, h3⟩ := C71_front (P := P) hm hp hW hu hl hs (withoutLines_mode ho) (Or.inr hk) hc
  have hm0 : m = 0 := by
    rcases h2 with ⟨_, h⟩ | ⟨h, _⟩
    · exact h
    · exact absurd ho h
  subst hm0
  have hcon : ∀ k, ConnectedSet a.rowPtr a.colInd (fun i => out.fcToCc[i]? = some k) := by
    intro k
    have := C05_connected (P := P) hm hp hs ho k
    rw [h1] at this
    exact this
  refine ⟨out, h1, fun k => ?_⟩
  have same : ∀ {S T : Nat → Prop}, (∀ i, S i ↔ T i) → ConnectedSet a.rowPtr a.colInd S → ConnectedSet a.rowPtr a.colInd T := by
    intro S T h hS
    rwa [show S = T from funext (fun i => propext (h i))] at hS
  induction k with
  | zero => exact same (by intro i; constructor
                           · intro h; exact ⟨0, h, Nat.le_refl _⟩
                           · rintro ⟨l, h, hl⟩; rwa [Nat.le_zero.1 hl] at h) (hcon 0)
  | succ k ih =>
    have split : ∀ i : Nat, ((∃ l, out.fcToCc[i]? = some l ∧ l ≤ k) ∨ out.fcToCc[i]? = some (k + 1)) ↔
        ∃ l, out.fcToCc[i]? = some l ∧ l ≤ k + 1 := by
      intro i
      constructor
      · rintro (⟨l, h, hl⟩ | h)
        · exact ⟨l, h, by omega⟩
        · exact ⟨_, h, Nat.le_refl _⟩
      · rintro ⟨l, h, hl⟩
        by_cases e : l = k + 1
        · subst e; exact Or.inr h
        · exact Or.inl ⟨l, h, by omega⟩
    by_cases hin : k + 1 ∈ out.fcToCc
    · obtain ⟨i, hi, ⟨j, l, e1, e2, e3⟩ | ⟨_, _, e⟩⟩ := h3 (k + 1) hin (Nat.zero_le _)
      · exact same split (connected_join hm.sym ih (hcon (k + 1)) ⟨l, e2, by omega⟩ hi e1)
      · cases e hk
    · refine same ?_ ih
      intro i
      rw [← split]
      exact (or_iff_left (fun h => hin (List.mem_of_getElem? h))).symm

end call

/-! ### Concrete cases -/

/-- 2 × 3 squares -/
def exFront : Args Int := { exGrid6 with order := .neighbourhoodOnePoint }

theorem exFront_valid : ValidMesh exFront 6 := ⟨by decide, exGrid6_crs, exGrid6_valid.sym, Or.inr exLawful, rfl, rfl, rfl, rfl, rfl, 2, by decide⟩

theorem exFront_params : ValidParams exPlatform exFront where
  dim := by decide
  minCard := by decide
  goalCard := by decide
  maxCard := by decide
  iter := by decide
  thresh := by decide
  order := by decide
  aspect := by decide
  onePoint := by decide

theorem exGrid6_connected : ConnectedMesh 6 exGrid6.rowPtr exGrid6.colInd :=
  connected_of_smaller exGrid6_valid.sym (by
    intro i h1 h2
    have : ∀ i < 6, 0 < i → ∃ j < 6, j < i ∧ j ∈ rowOf exGrid6.rowPtr exGrid6.colInd i := by decide
    obtain ⟨j, _, h3, h4⟩ := this i h2 h1
    exact ⟨j, h3, adj_iff_rowOf.2 h4⟩)

example := C71_front (o := ⟨[], [], []⟩) exFront_valid exFront_params exLawful exGrid6_uniq exGrid6_loop (fun _ => Or.inl rfl)
  (withoutLines_mode (Or.inl rfl)) (Or.inr rfl) exGrid6_connected
example := C71_one_point (o := ⟨[], [], []⟩) exFront_valid exFront_params exLawful exGrid6_uniq exGrid6_loop (fun _ => Or.inl rfl)
  (Or.inl rfl) rfl exGrid6_connected
example : (agglomerateOneLevel exPlatform exFront ⟨[], [], []⟩).1.fcToCc = [0, 0, 2, 1, 1, 2] := by decide +kernel

/-- the column in the middle is given as a line -/
def exFrontLine : Args Int := { exGrid6 with order := .neighbourhood, isAniso := true }

theorem exFrontLine_gives : GivesLines exFrontLine ⟨[], [0, 2], [1, 4]⟩ 6 [[1, 4]] where
  on := rfl
  build := rfl
  enc := ⟨rfl, rfl⟩
  data := by decide
  disjoint := by decide
  range := by decide

example := C71_front (P := exPlatform) (a := exFrontLine) (o := ⟨[], [0, 2], [1, 4]⟩) (n := 6)
  ⟨by decide, exGrid6_crs, exGrid6_valid.sym, Or.inr exLawful, rfl, rfl, rfl, rfl, rfl, 2, by decide⟩
  ⟨by decide, by decide, by decide, by decide, by decide, by decide, by decide, by decide, by decide⟩
  exLawful exGrid6_uniq exGrid6_loop (fun _ => Or.inl rfl)
  ⟨Or.inr (Or.inr ⟨_, exFrontLine_gives⟩), fun _ _ => by intro l _ m h; cases h⟩ (Or.inl rfl) exGrid6_connected
example : agglomerateOneLevel exPlatform exFrontLine ⟨[], [0, 2], [1, 4]⟩ = (⟨[1, 0, 2, 1, 0, 2], [0, 1], [0]⟩, .ok ()) := by
  decide +kernel

/-- The mesh must be connected: `exHood` is made of two rows of cells, coarse cell 2 is the first
of the second row; it touches no other before, none of its cells has the most boundary faces. -/
theorem C71_unconnected_counterexample :
    ¬ ∀ k ∈ (agglomerateOneLevel exPlatform exHood ⟨[], [], []⟩).1.fcToCc, ∃ i : Nat,
      (agglomerateOneLevel exPlatform exHood ⟨[], [], []⟩).1.fcToCc[i]? = some k ∧
        (TouchesEarlier exHood (agglomerateOneLevel exPlatform exHood ⟨[], [], []⟩).1.fcToCc k i ∨ MostBoundary exHood i) := by
  have h : (agglomerateOneLevel exPlatform exHood ⟨[], [], []⟩).1.fcToCc = [0, 0, 1, 1, 2, 2, 3] := by decide +kernel
  rw [h]
  intro hall
  obtain ⟨i, hi, hor⟩ := hall 2 (by decide)
  have hi7 := (List.getElem?_eq_some_iff.1 hi).1
  have hi2 : i = 4 ∨ i = 5 := by
    have : ∀ i < 7, ([0, 0, 1, 1, 2, 2, 3] : List Nat)[i]? = some 2 → i = 4 ∨ i = 5 := by decide
    exact this i hi7 hi
  rcases hor with ⟨j, l, h1, h2, h3⟩ | ⟨b, h1, h2⟩
  · have hj := (List.getElem?_eq_some_iff.1 h2).1
    rw [adj_iff_rowOf] at h1
    have : ∀ j < 7, (4 ∈ rowOf exHood.rowPtr exHood.colInd j ∨ 5 ∈ rowOf exHood.rowPtr exHood.colInd j) →
        ([0, 0, 1, 1, 2, 2, 3] : List Nat)[j]? = some 2 ∨ ([0, 0, 1, 1, 2, 2, 3] : List Nat)[j]? = some 3 := by decide
    have hh : 4 ∈ rowOf exHood.rowPtr exHood.colInd j ∨ 5 ∈ rowOf exHood.rowPtr exHood.colInd j := by
      rcases hi2 with rfl | rfl
      · exact Or.inl h1
      · exact Or.inr h1
    rcases this j hj hh with e | e <;> rw [h2] at e <;> cases e <;> omega
  · have h4 := h2 3 (by decide)
    have h5 : b ≤ 1 := by
      rcases hi2 with rfl | rfl
      · have : exHood.nBnd[4]? = some 1 := rfl
        rw [this] at h1; cases h1; decide
      · have : exHood.nBnd[5]? = some 0 := rfl
        rw [this] at h1; cases h1; decide
    have h6 : exHood.dim.toNat = 3 := rfl
    rw [h6] at h4
    omega


/-! ### The numbering of the cells with neighbourhood priority (C70) -/

/-- the mesh of `exFront` with cells 0 and 4 swapped, neighbours listed in another order -/
def exFront' : Args Int := { exGrid6' with order := .neighbourhoodOnePoint }

theorem exFront_valid' : ValidMesh exFront' 6 :=
  ⟨by decide, exGrid6_crs', exGrid6_valid'.sym, Or.inr exLawful, rfl, rfl, rfl, rfl, rfl, 2, by decide⟩

theorem exFront_swapped : Renumbered (swapCells 0 4) exFront exFront' := by
  refine Renumbered.of_cells exFront_valid exFront_valid' ?_ (by decide) (by decide) (by decide) rfl
  intro x hx
  unfold swapCells
  split_ifs <;> omega

example := C70_numbering_partial (o := ⟨[], [], []⟩) exFront_valid exFront_valid' exFront_params exLawful exGrid6_uniq exGrid6_loop
  exGrid6_input (Or.inl rfl) (fun _ => Or.inl rfl) (Or.inr exGrid6_connected) (swap_renumbering 0 4) exFront_swapped exGrid6_ties

example : (agglomerateOneLevel exPlatform exFront' ⟨[], [], []⟩).1.fcToCc = [1, 0, 2, 1, 0, 2] := by decide +kernel

end CoMMA
