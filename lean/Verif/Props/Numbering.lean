import Verif.Lemmas.Front
import Verif.Props.WholeCall
/-! # C70: the numbering of the cells does not matter -/

set_option linter.unusedSectionVars false

namespace CoMMA

variable {W F : Type} [Num W] {σ τ : Nat → Nat}

theorem faces_fst {g : Graph W} (hv : g.values.length = g.colInd.length) (i : Nat) :
    (facesOf g i).map Prod.fst = rowOf g.rowPtr g.colInd i ∧ (facesOf g i).map Prod.snd = entriesOfRow g.rowPtr g.values i := by
  have hl : (rowOf g.rowPtr g.colInd i).length = (entriesOfRow g.rowPtr g.values i).length := by
    unfold rowOf entriesOfRow
    cases g.rowPtr[i]? with
    | none => rfl
    | some b =>
      cases g.rowPtr[i + 1]? with
      | none => rfl
      | some e => simp only [List.length_take, List.length_drop, hv]
  unfold facesOf
  exact ⟨List.map_fst_zip (by omega), List.map_snd_zip (by omega)⟩

theorem unique_of_nodup {rp ci : List Nat} (h : ∀ i, (rowOf rp ci i).Nodup) : UniqueRows rp ci := by
  intro i b e hb he k l j k1 k2 l1 l2 hk hl
  have hn := h i
  unfold rowOf at hn
  rw [hb, he] at hn
  have key : ∀ {x : Nat}, b ≤ x → x < e → ci[x]? = some j → ((ci.drop b).take (e - b))[x - b]? = some j := by
    intro x hx1 hx2 hx
    rw [List.getElem?_take_of_lt (by omega), List.getElem?_drop, show b + (x - b) = x by omega, hx]
  have h1 := key k1 k2 hk
  have h2 := key l1 l2 hl
  obtain ⟨p1, q1⟩ := List.getElem?_eq_some_iff.1 h1
  obtain ⟨p2, q2⟩ := List.getElem?_eq_some_iff.1 h2
  have := (hn.getElem_inj_iff (hi := p1) (hj := p2)).1 (by rw [q1, q2])
  omega

theorem nodup_of_unique {n : Nat} {rp ci : List Nat} (hc : ValidCRS n rp ci) (hu : UniqueRows rp ci) (i : Nat) : (rowOf rp ci i).Nodup := by
  by_cases hi : i < n
  · rw [rowOf_eq hc hi]
    exact UniqueRows.nodup hc hu hi
  · unfold rowOf
    have : rp[i + 1]? = none := List.getElem?_eq_none (by rw [hc.rows]; omega)
    rw [this]
    split
    · simp_all
    · exact List.nodup_nil

section call
variable {P : Platform} {a a' : Args W} {n : Nat} (h : Renumbering σ τ) (hr : Renumbered σ a a') (hm : ValidMesh a n) (hm' : ValidMesh a' n)
include h hr hm hm'

theorem Renumbered.graph : ImgGraph σ (graphOf a) (graphOf a') := by
  have hdim : a'.dim = a.dim := (congrArg Args.dim hr.others :)
  refine ⟨hr.faces, fun i => ?_, fun i => ?_, hr.volumes, hr.centers, fun i => ?_, ?_⟩
  · have h1 := (hr.faces i).map Prod.fst
    rw [(faces_fst (g := graphOf a') hm'.values _).1, List.map_map] at h1
    rw [← (faces_fst (g := graphOf a) hm.values i).1, List.map_map]
    exact h1
  · have h1 := (hr.faces i).map Prod.snd
    rw [(faces_fst (g := graphOf a') hm'.values _).2, List.map_map] at h1
    rw [← (faces_fst (g := graphOf a) hm.values i).2]
    exact h1
  · show (clampBnd a'.dim.toNat a'.nBnd)[σ i]? = (clampBnd a.dim.toNat a.nBnd)[i]?
    unfold clampBnd
    rw [List.getElem?_map, List.getElem?_map, hr.bnd, hdim]
  · show a'.dim.toNat = a.dim.toNat
    rw [hdim]

theorem Renumbered.range (x : Nat) : σ x < n ↔ x < n := by
  have := range_img (by rw [hm.bnd, hm'.bnd]) hr.bnd x
  rwa [hm.bnd] at this

theorem Renumbered.params (hp : ValidParams P a) : ValidParams P a' := by
  have e := hr.others
  have e1 : a'.order = a.order := (congrArg Args.order e :)
  refine ⟨?_, ?_, ?_, ?_, ?_, ?_, ?_, ?_, ?_⟩
  · rw [show a'.dim = a.dim from (congrArg Args.dim e :)]; exact hp.dim
  · rw [show a'.minCard = a.minCard from (congrArg Args.minCard e :)]; exact hp.minCard
  · rw [show a'.minCard = a.minCard from (congrArg Args.minCard e :), show a'.goalCard = a.goalCard from (congrArg Args.goalCard e :)]; exact hp.goalCard
  · rw [show a'.maxCard = a.maxCard from (congrArg Args.maxCard e :), show a'.goalCard = a.goalCard from (congrArg Args.goalCard e :)]; exact hp.maxCard
  · rw [show a'.fcIter = a.fcIter from (congrArg Args.fcIter e :)]; exact hp.iter
  · rw [show a'.singThresh = a.singThresh from (congrArg Args.singThresh e :)]; exact hp.thresh
  · rw [e1]; exact hp.order
  · rw [show a'.aspect = a.aspect from (congrArg Args.aspect e :)]; exact hp.aspect
  · rw [e1, hm'.bnd, ← hm.bnd]
    intro ho
    obtain ⟨h1, h2⟩ := hp.onePoint ho
    refine ⟨h1, fun w hw => h2 w ?_⟩
    obtain ⟨i, hi⟩ := List.mem_iff_getElem?.1 hw
    exact List.mem_iff_getElem?.2 ⟨τ i, by rw [← hr.prio, h.forth]; exact hi⟩

theorem Renumbered.uniq (hu : UniqueRows a.rowPtr a.colInd) : UniqueRows a'.rowPtr a'.colInd := by
  refine unique_of_nodup (h.all (fun i => ?_))
  have := (hr.graph h hm hm').rows i
  exact this.nodup_iff.2 ((nodup_of_unique hm.crs hu i).map h.inj)

theorem Renumbered.noLoop (hl : NoSelfLoop a.rowPtr a.colInd) : NoSelfLoop a'.rowPtr a'.colInd :=
  h.all (fun i hi => hl i (((hr.graph h hm hm').adj h).1 hi))

theorem Renumbered.features (hF : FeatInput (graphOf a) a.aspect) : FeatInput (graphOf a') a'.aspect := by
  have hg := hr.graph h hm hm'
  have e : a'.aspect = a.aspect := (congrArg Args.aspect hr.others :)
  rw [e]
  refine ⟨by rw [graphOf_nbC hm']; exact hm'.crs, meshSizes hm', hm'.sym, hF.add, fun hk => ?_, hF.geom, hF.bary, fun hk => ?_⟩
  · obtain ⟨h1, h2, h3⟩ := hF.weights hk
    exact ⟨h1, hg.symWeights h hF.add h2, hr.noLoop h hm hm' h3⟩
  · obtain ⟨h1, h2, h3⟩ := hF.facets hk
    exact ⟨hr.uniq h hm hm' h1, hr.noLoop h hm hm' h2, h3⟩

theorem Renumbered.env (hk : KeepsTies σ a.prio) {E E' : IsoEnv W (Feats W)} (hE : CallEnv P a E) (hE' : CallEnv P a' E') :
    ImgEnv σ E E' := by
  have hg := hr.graph h hm hm'
  have e := hr.others
  have hdim : E'.g.dim = E.g.dim := by
    have h1 := hE.dim; have h2 := hE'.dim
    rw [show a'.dim = a.dim from (congrArg Args.dim e :)] at h2
    omega
  have e1 : a'.order = a.order := (congrArg Args.order e :)
  have hf : facesOf E.g = facesOf (graphOf a) := by
    funext i; unfold facesOf; rw [hE.rowPtr, hE.colInd, hE.values]; rfl
  have hf' : facesOf E'.g = facesOf (graphOf a') := by
    funext i; unfold facesOf; rw [hE'.rowPtr, hE'.colInd, hE'.values]; rfl
  have hb : ∀ i : Nat, E'.g.nBnd[σ i]? = E.g.nBnd[i]? := by
    intro i
    rw [hE.nBnd, hE'.nBnd, List.getElem?_map, List.getElem?_map, hr.bnd, hdim]
  refine ⟨⟨?_, ?_, ?_, ?_, ?_, hb, hdim⟩, ?_, ?_, ?_, ?_, ?_, ?_, ?_, ?_, ?_⟩
  · rw [hf, hf']; exact hg.faces
  · rw [hE.rowPtr, hE.colInd, hE'.rowPtr, hE'.colInd]; exact hg.rows
  · rw [hE.rowPtr, hE.values, hE'.rowPtr, hE'.values]; exact hg.entries
  · rw [hE.volumes, hE'.volumes]; exact hr.volumes
  · rw [hE.centers, hE'.centers]; exact hr.centers
  · rw [hE.prio, hE'.prio]; exact ImgPrio.of hr.prio hk
  · rw [hE.poolBnd, hE'.poolBnd]; exact hb
  · have h1 := hE.kind; have h2 := hE'.kind
    rw [e1, ← h1] at h2
    revert h2
    cases E.pool.kind <;> cases E'.pool.kind <;> simp
  · rw [Bool.eq_iff_iff, hE.onePoint, hE'.onePoint, e1]
  · rw [hE.nbh, hE'.nbh]; exact (congrArg Args.nbh e :)
  · have h1 := hE.fcIter; have h2 := hE'.fcIter
    rw [show a'.fcIter = a.fcIter from (congrArg Args.fcIter e :)] at h2; omega
  · have h1 := hE.minCard; have h2 := hE'.minCard
    rw [show a'.minCard = a.minCard from (congrArg Args.minCard e :)] at h2; omega
  · have h1 := hE.goalCard; have h2 := hE'.goalCard
    rw [show a'.goalCard = a.goalCard from (congrArg Args.goalCard e :)] at h2; omega
  · have h1 := hE.maxCard; have h2 := hE'.maxCard
    rw [show a'.maxCard = a.maxCard from (congrArg Args.maxCard e :)] at h2; omega

end call

theorem withoutLines_mode {g : Graph W} {a : Args W} {o : Outs} {n : Nat} (h : WithoutLines a o) : ValidMode g a o n :=
  ⟨Or.inl h, fun _ ht => absurd h ht.on⟩

theorem call_shaped {P : Platform} {a : Args W} {o : Outs} {n : Nat} (hm : ValidMesh a n) (hp : ValidParams P a)
    (hW : LawfulLt W) (hu : UniqueRows a.rowPtr a.colInd) (hl : NoSelfLoop a.rowPtr a.colInd)
    (hF : FeatInput (graphOf a) a.aspect) (hmode : ValidMode (graphOf a) a o n) (hs : CorrectsSingletons a) :
    ∃ out, agglomerateOneLevel P a o = (out, .ok ()) ∧ DescribedBy P a o n (fun E => ShapedSeq E a.aspect) (FixedSingles a) out := by
  obtain ⟨c, k, p, idx, lines, gss, hd⟩ := described hm hp hW hu hl hmode
  obtain ⟨f, f0, h1, h2, h3⟩ := hd.fixed hm hp hu hl hs
  exact ⟨_, h1, (C65_call hm hp hW hu hl hF hmode hs _).1 h1⟩

theorem TopBounds.started {c : PoolCfg W} {p : Pool} (h : PoolStarted c p) (agg : List Bool) : TopBounds c agg p := by
  intro i b hi _
  obtain ⟨t, l, h1, _, h3, _⟩ := h.start
  exact ⟨t, h1, h3 b (List.mem_iff_getElem?.2 ⟨i, hi⟩)⟩

theorem Renumbered.corrects {a a' : Args W} (hr : Renumbered σ a a') (hs : CorrectsSingletons a) : CorrectsSingletons a' := by
  have e := hr.others
  unfold CorrectsSingletons
  rw [show a'.correction = a.correction from (congrArg Args.correction e :), show a'.singThresh = a.singThresh from (congrArg Args.singThresh e :),
    show a'.minCard = a.minCard from (congrArg Args.minCard e :)]
  exact hs

theorem CallEnv.symWeights {P : Platform} {a : Args W} {E : IsoEnv W (Feats W)} (d1 : CallEnv P a E) (hF : FeatInput (graphOf a) a.aspect) :
    a.aspect.weights = true → SymWeights E.g := by
  intro hw
  have := (hF.weights hw).2.1
  have hf : facesOf E.g = facesOf (graphOf a) := by
    funext i; unfold facesOf; rw [d1.rowPtr, d1.colInd, d1.values]; rfl
  unfold SymWeights weightTo at *
  rw [hf]
  exact this

/-- the image of a call without lines, for a description of the growth of coarse cells that is invariant -/
theorem renumbered_call {P : Platform} {a a' : Args W} {o : Outs} {n : Nat} (hm : ValidMesh a n) (hm' : ValidMesh a' n)
    (hp : ValidParams P a) (hs : CorrectsSingletons a)
    (ho : WithoutLines a o) (hb : BoundaryFirst a ∨ ConnectedMesh n a.rowPtr a.colInd)
    (h : Renumbering σ τ) (hr : Renumbered σ a a') (hk : KeepsTies σ a.prio)
    {Gr Gr' : IsoEnv W (Feats W) → NMap Nat → Nat → List Nat → Prop}
    (hcall : ∃ out, agglomerateOneLevel P a o = (out, .ok ()) ∧ DescribedBy P a o n Gr (FixedSingles a) out)
    (hcall' : ∃ out, agglomerateOneLevel P a' o = (out, .ok ()) ∧ DescribedBy P a' o n Gr' (FixedSingles a') out)
    (huniq : ∀ out out', DescribedBy P a' o n Gr' (FixedSingles a') out → DescribedBy P a' o n Gr' (FixedSingles a') out' → out = out')
    (himg : ∀ E E', CallEnv P a E → CallEnv P a' E' → ImgEnv σ E E' → ∀ d d' hi xs, ImgMap σ d d' → Gr E d hi xs → Gr' E' d' hi (xs.map σ)) :
    ∃ f f', agglomerateOneLevel P a o = (⟨f, o.linesIdx, o.lines⟩, .ok ()) ∧
      agglomerateOneLevel P a' o = (⟨f', o.linesIdx, o.lines⟩, .ok ()) ∧
      f.length = n ∧ f'.length = n ∧ ∀ i : Nat, f'[σ i]? = f[i]? := by
  have e := hr.others
  have ho' : WithoutLines a' o := by
    unfold WithoutLines
    rw [show a'.isAniso = a.isAniso from (congrArg Args.isAniso e :), show a'.buildLines = a.buildLines from (congrArg Args.buildLines e :)]
    exact ho
  have ecor : a'.correction = a.correction := (congrArg Args.correction e :)
  have hp' := hr.params h hm hm' hp
  have hs' : CorrectsSingletons a' := by
    unfold CorrectsSingletons
    rw [ecor, show a'.singThresh = a.singThresh from (congrArg Args.singThresh e :), show a'.minCard = a.minCard from (congrArg Args.minCard e :)]
    exact hs
  obtain ⟨out, h1, E, gss, f0, d1, d2, d3, d4⟩ := hcall
  obtain ⟨out', h1', dd⟩ := hcall'
  have dd' := dd
  obtain ⟨E', gss', f0', d1', d2', d3', d4'⟩ := dd
  cases d2 with
  | on ht _ _ _ => exact absurd ho ht.on
  | off _ hg hidx hlines =>
  subst hg
  have hE := hr.env h hm hm' hk d1 d1'
  have hn := hr.range h hm hm'
  obtain ⟨agg0, p0, cs, agg, p, m1, m2, m3, m4, m5⟩ := d3
  have hagg0 : agg0 = List.replicate n false := by
    rw [m1]
    apply List.ext_getElem?
    intro i
    rw [List.getElem?_map, List.getElem?_replicate]
    by_cases hi : i < n
    · rw [List.getElem?_range hi, if_pos hi]; simp
    · rw [List.getElem?_eq_none (by rw [List.length_range]; omega), if_neg hi]; rfl
  have hst : PoolStarted E.pool p0 := by
    cases m2 with
    | fresh _ h2 => exact h2
    | near _ h2 _ _ _ => simp at h2
    | level _ h2 _ _ _ _ => simp at h2
    | higher _ h2 _ _ _ _ _ _ _ => simp at h2
  have himg0 : ImgFlags σ agg0 agg0 := by
    intro x
    rw [hagg0, List.getElem?_replicate, List.getElem?_replicate]
    simp only [hn]
  obtain ⟨p0', hp0⟩ := ImgPool.some σ p0
  have hbl : E'.pool.nBnd.length = E.pool.nBnd.length := by
    rw [d1.poolBnd, d1'.poolBnd, d1.nBnd, d1'.nBnd, List.length_map, List.length_map, hm.bnd, hm'.bnd]
  have hst' := hst.img h hE.cfg hp0 hbl
  have hset : ∀ cs agg p, IsoTrace E (Gr E) agg0 p0 cs agg p → (∃ s : Nat, agg[s]? = some false) →
      LevelSettled E.pool agg p := by
    intro cs agg p ht ⟨s, hs⟩
    cases hkd : E.pool.kind with
    | boundary => exact Or.inl (ht.bounds hkd (TopBounds.started hst agg0))
    | neighbourhood =>
      right
      have hcon : ConnectedMesh n E.g.rowPtr E.g.colInd := by
        rw [d1.rowPtr, d1.colInd]
        rcases hb with hb | hb
        · have := d1.kind.2 hb
          rw [hkd] at this
          cases this
        · exact hb
      have hcrs : ValidCRS n E.g.rowPtr E.g.colInd := by rw [d1.rowPtr, d1.colInd]; exact hm.crs
      have hbn : E.pool.nBnd.length = n := by rw [d1.poolBnd, d1.nBnd, List.length_map, hm.bnd]
      have hdim := d1.dim
      have hpd := hp.dim
      have hmin := d1.minCard
      have hpm := hp.minCard
      obtain ⟨I, i1, _⟩ := FrontInv.started (E := E) hbn (by
        rw [d1.poolBnd, d1.nBnd]
        intro b hb
        obtain ⟨b', _, rfl⟩ := List.mem_map.1 hb
        omega) hst
      rw [← hagg0] at i1
      have hfr := (ht.front i1 hkd (fun x hx => ⟨_, List.getElem?_eq_getElem (by omega)⟩) hcrs hcon (by omega)).1
      rw [hkd]
      exact hfr.waits hcrs hcon hs
  obtain ⟨cs', agg', p', t1, t2, t3, t4⟩ := IsoTrace.img (G := Gr E) (G' := Gr' E') h hE (himg E E' d1 d1' hE) himg0
    (by rw [hagg0, List.length_replicate]; exact hn) hp0 hset m3 (by rw [m4, hagg0]; simp)
  have hagg' : agg' = List.replicate n true := by
    apply List.ext_getElem?
    refine h.all (fun x => ?_)
    rw [t2, m4, List.getElem?_replicate, List.getElem?_replicate]
    simp only [hn]
  simp only [List.flatten_nil, List.map_nil, List.nil_append] at m5
  obtain ⟨f0', n1, n2⟩ := m5.img h hn (cs' := cs'.map Prod.snd) (by rw [List.forall₂_map_left_iff, List.forall₂_map_right_iff]; exact t1)
  have hlen : f0'.length = f0.length := by rw [n2.1, m5.1]
  have key : ∃ f1', ImgVec σ out.fcToCc f1' ∧ FixedSingles a' 0 f0' f1' := by
    unfold FixedSingles at d4 ⊢
    rw [ecor]
    cases hcor : a.correction with
    | false =>
      rw [hcor] at d4
      exact ⟨f0', by rw [show out.fcToCc = f0 from d4]; exact n1, rfl⟩
    | true =>
      rw [hcor, if_pos rfl] at d4
      exact CorrectionOf.img h (hr.graph h hm hm') n1 hlen d4
  obtain ⟨f1', k1, k2⟩ := key
  obtain ⟨g1, g2, g3⟩ := C01_total (o := o) hm hp hs ho
  obtain ⟨g1', g2', g3'⟩ := C01_total (o := o) hm' hp' hs' ho'
  have hd : DescribedBy P a' o n Gr' (FixedSingles a') ⟨f1', o.linesIdx, o.lines⟩ := by
    refine ⟨E', [], f0', d1', .off ho' rfl rfl rfl, ⟨agg0, p0', cs', agg', p', m1, ?_, ?_, hagg', ?_⟩, k2⟩
    · exact .fresh rfl hst'
    · exact t4
    · simpa using n2
  have hout := huniq _ _ dd' hd
  subst hout
  refine ⟨out.fcToCc, f1', ?_, h1', ?_, ?_, k1⟩
  · rw [h1]
    obtain ⟨f, i, l⟩ := out
    simp only at hidx hlines
    rw [hidx, hlines]
  · rw [h1] at g2
    rw [(Prod.mk.inj g2).1]
    exact g3
  · rw [h1'] at g2'
    rw [← g3', (Outs.mk.inj (Prod.mk.inj g2').1).1]

/-- **C70** (partial) The numbering of the cells does not matter to a call without lines that
agglomerates the cells with more boundary faces first, or on a connected mesh, in exact arithmetic:
on the renumbered mesh it gives each cell the same coarse cell, with the same number.  Cells with the
same priority must keep their order. -/
theorem C70_numbering_partial {P : Platform} {a a' : Args W} {o : Outs} {n : Nat} (hm : ValidMesh a n) (hm' : ValidMesh a' n)
    (hp : ValidParams P a) (hW : LawfulLt W) (hu : UniqueRows a.rowPtr a.colInd) (hl : NoSelfLoop a.rowPtr a.colInd)
    (hF : FeatInput (graphOf a) a.aspect) (ho : WithoutLines a o) (hs : CorrectsSingletons a)
    (hb : BoundaryFirst a ∨ ConnectedMesh n a.rowPtr a.colInd)
    (h : Renumbering σ τ) (hr : Renumbered σ a a') (hk : KeepsTies σ a.prio) :
    ∃ f f', agglomerateOneLevel P a o = (⟨f, o.linesIdx, o.lines⟩, .ok ()) ∧
      agglomerateOneLevel P a' o = (⟨f', o.linesIdx, o.lines⟩, .ok ()) ∧
      f.length = n ∧ f'.length = n ∧ ∀ i : Nat, f'[σ i]? = f[i]? := by
  have e := hr.others
  have ho' : WithoutLines a' o := by
    unfold WithoutLines
    rw [show a'.isAniso = a.isAniso from (congrArg Args.isAniso e :), show a'.buildLines = a.buildLines from (congrArg Args.buildLines e :)]
    exact ho
  have easp : a'.aspect = a.aspect := (congrArg Args.aspect e :)
  have hp' := hr.params h hm hm' hp
  refine renumbered_call hm hm' hp hs ho hb h hr hk (call_shaped (o := o) hm hp hW hu hl hF (withoutLines_mode ho) hs)
    (call_shaped (o := o) hm' hp' hW (hr.uniq h hm hm' hu) (hr.noLoop h hm hm' hl) (hr.features h hm hm' hF)
      (withoutLines_mode ho') (hr.corrects hs)) (fun _ _ => C65_unique hW hp'.aspect) ?_
  intro E E' d1 _ hE d d' hi xs hd hx
  rw [easp]
  exact ShapedSeq.img h hE hF.add (d1.symWeights hF) hd hx

/-! ### Concrete cases -/

/-- two cells swapped -/
def swapCells (x y : Nat) (i : Nat) : Nat := if i = x then y else if i = y then x else i

theorem swap_renumbering (x y : Nat) : Renumbering (swapCells x y) (swapCells x y) := by
  have key : ∀ i, swapCells x y (swapCells x y i) = i := by
    intro i
    unfold swapCells
    split_ifs <;> omega
  exact ⟨key, key⟩

/-- to check that a call is renumbered it is enough to look at its cells -/
theorem Renumbered.of_cells {a a' : Args W} {n : Nat} (hm : ValidMesh a n) (hm' : ValidMesh a' n) (hn : ∀ x, n ≤ x → n ≤ σ x)
    (hc : ∀ i ∈ a.compliant, i < n) (hc' : ∀ i ∈ a'.compliant, i < n)
    (h : ∀ i < n, (facesOf (graphOf a') (σ i)).Perm ((facesOf (graphOf a) i).map (fun e => (σ e.1, e.2))) ∧
      a'.volumes[σ i]? = a.volumes[i]? ∧ a'.centers[σ i]? = a.centers[i]? ∧ a'.prio[σ i]? = a.prio[i]? ∧
      a'.nBnd[σ i]? = a.nBnd[i]? ∧ (σ i ∈ a'.compliant ↔ i ∈ a.compliant))
    (ho : a' = { a with rowPtr := a'.rowPtr, colInd := a'.colInd, values := a'.values, volumes := a'.volumes,
                        centers := a'.centers, prio := a'.prio, nBnd := a'.nBnd, compliant := a'.compliant }) :
    Renumbered σ a a' := by
  have out : ∀ {α : Type} {v v' : List α}, v.length = n → v'.length = n → ∀ i, ¬ i < n → v'[σ i]? = v[i]? := by
    intro α v v' h1 h2 i hi
    rw [List.getElem?_eq_none (by have := hn i (by omega); omega), List.getElem?_eq_none (by omega)]
  have row : ∀ {b : Args W}, ValidMesh b n → ∀ i, n ≤ i → facesOf (graphOf b) i = [] := by
    intro b hb i hi
    have : (graphOf b).rowPtr[i + 1]? = none := List.getElem?_eq_none (by show b.rowPtr.length ≤ _; rw [hb.crs.rows]; omega)
    unfold facesOf rowOf
    rw [this]
    cases (graphOf b).rowPtr[i]? <;> rfl
  refine ⟨fun i => ?_, fun i => ?_, fun i => ?_, fun i => ?_, fun i => ?_, fun i => ?_, ho⟩ <;> by_cases hi : i < n
  · exact (h i hi).1
  · rw [row hm i (by omega), row hm' _ (hn i (by omega))]; exact List.Perm.refl _
  · exact (h i hi).2.1
  · exact out hm.volumes hm'.volumes i hi
  · exact (h i hi).2.2.1
  · exact out hm.centers hm'.centers i hi
  · exact (h i hi).2.2.2.1
  · exact out hm.prio hm'.prio i hi
  · exact (h i hi).2.2.2.2.1
  · exact out hm.bnd hm'.bnd i hi
  · exact (h i hi).2.2.2.2.2
  · constructor
    · intro hc1; have := hc' _ hc1; have := hn i (by omega); omega
    · intro hc1; exact absurd (hc _ hc1) hi

/-- 2 × 3 squares; single cells are corrected -/
def exGrid6 : Args Int :=
  { exArgs3 with
    rowPtr := [0, 2, 5, 7, 9, 12, 14], colInd := [1, 3, 0, 2, 4, 1, 5, 0, 4, 3, 1, 5, 4, 2],
    values := [1, 1, 1, 1, 1, 1, 1, 1, 1, 1, 1, 1, 1, 1], volumes := [1, 1, 1, 1, 1, 1],
    centers := [[0, 0], [1, 0], [2, 0], [0, 1], [1, 1], [2, 1]], prio := [6, 4, 3, 2, 5, 1], nBnd := [2, 1, 2, 2, 1, 2],
    compliant := [], order := .boundary, minCard := 2, goalCard := 2, maxCard := 3 }

/-- the same mesh with cells 0 and 4 swapped, neighbours listed in another order -/
def exGrid6' : Args Int :=
  { exGrid6 with
    rowPtr := [0, 3, 6, 8, 10, 12, 14], colInd := [1, 3, 5, 0, 2, 4, 5, 1, 0, 4, 3, 1, 2, 0],
    centers := [[1, 1], [1, 0], [2, 0], [0, 1], [0, 0], [2, 1]], prio := [5, 4, 3, 2, 6, 1], nBnd := [1, 1, 2, 2, 2, 2] }

theorem exGrid6_crs : ValidCRS 6 exGrid6.rowPtr exGrid6.colInd := checkCRS_sound (by decide)
theorem exGrid6_crs' : ValidCRS 6 exGrid6'.rowPtr exGrid6'.colInd := checkCRS_sound (by decide)
theorem exGrid6_uniq : UniqueRows exGrid6.rowPtr exGrid6.colInd := checkUniq_sound exGrid6_crs (by decide)
theorem exGrid6_loop : NoSelfLoop exGrid6.rowPtr exGrid6.colInd := checkNoLoop_sound exGrid6_crs (by decide)

theorem exGrid6_valid : ValidMesh exGrid6 6 where
  pos := by decide
  crs := exGrid6_crs
  sym := checkSym_sound exGrid6_crs (by decide)
  uniq := Or.inr exLawful
  values := rfl
  volumes := rfl
  centers := rfl
  prio := rfl
  bnd := rfl
  coords := ⟨2, by decide⟩

theorem exGrid6_valid' : ValidMesh exGrid6' 6 where
  pos := by decide
  crs := exGrid6_crs'
  sym := checkSym_sound exGrid6_crs' (by decide)
  uniq := Or.inr exLawful
  values := rfl
  volumes := rfl
  centers := rfl
  prio := rfl
  bnd := rfl
  coords := ⟨2, by decide⟩

theorem exGrid6_params : ValidParams exPlatform exGrid6 where
  dim := by decide
  minCard := by decide
  goalCard := by decide
  maxCard := by decide
  iter := by decide
  thresh := by decide
  order := by decide
  aspect := by decide
  onePoint := by decide

theorem exGrid6_input : FeatInput (graphOf exGrid6) exGrid6.aspect where
  crs := exGrid6_crs
  sizes := ⟨rfl, rfl, rfl, rfl, 2, by decide⟩
  sym := exGrid6_valid.sym
  add := exCommAdd
  weights _ := ⟨exExact, symWeights_of exGrid6_crs rfl (by decide), exGrid6_loop⟩
  geom _ := ⟨exLawful, exSymm⟩
  bary _ := ⟨exLawful, exSymm⟩
  facets h := absurd h (by decide)

theorem exGrid6_swapped : Renumbered (swapCells 0 4) exGrid6 exGrid6' := by
  refine Renumbered.of_cells exGrid6_valid exGrid6_valid' ?_ (by decide) (by decide) (by decide) rfl
  intro x hx
  unfold swapCells
  split_ifs <;> omega

theorem exGrid6_ties : KeepsTies (swapCells 0 4) exGrid6.prio := by
  intro i j w hi hj hij
  have h1 := (List.getElem?_eq_some_iff.1 hi).1
  have h2 := (List.getElem?_eq_some_iff.1 hj).1
  have key : ∀ i < 6, ∀ j < 6, exGrid6.prio[i]? = exGrid6.prio[j]? → i = j := by decide
  have := key i h1 j h2 (by rw [hi, hj])
  omega

example := C70_numbering_partial (o := ⟨[], [], []⟩) exGrid6_valid exGrid6_valid' exGrid6_params exLawful exGrid6_uniq exGrid6_loop
  exGrid6_input (Or.inl rfl) (fun _ => Or.inl rfl) (Or.inl (Or.inl rfl)) (swap_renumbering 0 4) exGrid6_swapped exGrid6_ties

/-- the results of both calls: cells 0 and 4 are in different coarse cells -/
example : (agglomerateOneLevel exPlatform exGrid6 ⟨[], [], []⟩).1.fcToCc = [0, 0, 1, 2, 2, 1] ∧
    (agglomerateOneLevel exPlatform exGrid6' ⟨[], [], []⟩).1.fcToCc = [2, 0, 1, 2, 0, 1] := by
  constructor <;> decide +kernel

/-- two rows of cells, no face between them; neighbourhood priority -/
def exHood : Args Int :=
  { exArgs3 with
    rowPtr := [0,1,3,5,6,7,9,10], colInd := [1,0,2,1,3,2,5,4,6,5], values := [1,1,1,1,1,1,1,1,1,1],
    volumes := [1,1,1,1,1,1,1], centers := [[0,0,0],[1,0,0],[2,0,0],[3,0,0],[0,1,0],[1,1,0],[2,1,0]],
    nBnd := [3,0,0,0,1,0,2], prio := [7,6,5,4,3,2,1], dim := 3, correction := false,
    compliant := [], order := .neighbourhood, minCard := 2, goalCard := 2, maxCard := 2 }
/-- cells 4 and 6 swapped -/
def exHood' : Args Int :=
  { exHood with
    centers := [[0,0,0],[1,0,0],[2,0,0],[3,0,0],[2,1,0],[1,1,0],[0,1,0]], nBnd := [3,0,0,0,2,0,1], prio := [7,6,5,4,1,2,3] }

theorem exHood_crs : ValidCRS 7 exHood.rowPtr exHood.colInd := checkCRS_sound (by decide)

theorem exHood_valid : ValidMesh exHood 7 where
  pos := by decide
  crs := exHood_crs
  sym := checkSym_sound exHood_crs (by decide)
  uniq := Or.inr exLawful
  values := rfl
  volumes := rfl
  centers := rfl
  prio := rfl
  bnd := rfl
  coords := ⟨3, by decide⟩

theorem exHood_valid' : ValidMesh exHood' 7 where
  pos := by decide
  crs := exHood_crs
  sym := exHood_valid.sym
  uniq := Or.inr exLawful
  values := rfl
  volumes := rfl
  centers := rfl
  prio := rfl
  bnd := rfl
  coords := ⟨3, by decide⟩

/-- **C70 fails with neighbourhood priority**: all priorities are different, and yet the
coarse cells depend on the numbering.  When no cell waits at the current level the pool goes
to the level of the lowest-numbered free cell that has enough boundary faces, whatever its priority. -/
theorem C70_neighbourhood_counterexample :
    ValidMesh exHood 7 ∧ ValidMesh exHood' 7 ∧ ValidParams exPlatform exHood ∧ Renumbered (swapCells 4 6) exHood exHood' ∧
      exHood.prio.Nodup ∧
      agglomerateOneLevel exPlatform exHood ⟨[], [], []⟩ = (⟨[0, 0, 1, 1, 2, 2, 3], [], []⟩, .ok ()) ∧
      agglomerateOneLevel exPlatform exHood' ⟨[], [], []⟩ = (⟨[0, 0, 1, 1, 2, 2, 3], [], []⟩, .ok ()) := by
  refine ⟨exHood_valid, exHood_valid', ⟨by decide, by decide, by decide, by decide, by decide, by decide, by decide, by decide,
    by decide⟩, ?_, by decide, by decide +kernel, by decide +kernel⟩
  refine Renumbered.of_cells exHood_valid exHood_valid' ?_ (by decide) (by decide) (by decide) rfl
  intro x hx
  unfold swapCells
  split_ifs <;> omega

/-- cells 4 and 5 of the first numbering share a coarse cell; under their new numbers 6 and 5
they do not -/
example : ([0, 0, 1, 1, 2, 2, 3] : List Nat)[4]? = ([0, 0, 1, 1, 2, 2, 3] : List Nat)[5]? ∧
    ([0, 0, 1, 1, 2, 2, 3] : List Nat)[swapCells 4 6 4]? ≠ ([0, 0, 1, 1, 2, 2, 3] : List Nat)[swapCells 4 6 5]? := by decide

/-- three cells in a row, all with the same priority: reversing the row gives the same data -/
def exTied : Args Int := { exArgs3 with prio := [1, 1, 1], correction := false }

theorem exTied_valid : ValidMesh exTied 3 where
  pos := by decide
  crs := checkCRS_sound (by decide)
  sym := checkSym_sound (n := 3) (checkCRS_sound (by decide)) (by decide)
  uniq := Or.inr exLawful
  values := rfl
  volumes := rfl
  centers := rfl
  prio := rfl
  bnd := rfl
  coords := ⟨2, by decide⟩

/-- **C70 fails for cells with the same priority**: the tie goes to the lower number -/
theorem C70_ties_counterexample :
    ValidMesh exTied 3 ∧ ValidParams exPlatform exTied ∧ BoundaryFirst exTied ∧
      Renumbered (swapCells 0 2) exTied { exTied with centers := [[2, 0], [1, 0], [0, 0]] } ∧
      agglomerateOneLevel exPlatform exTied ⟨[], [], []⟩ = (⟨[0, 0, 1], [], []⟩, .ok ()) ∧
      agglomerateOneLevel exPlatform { exTied with centers := [[2, 0], [1, 0], [0, 0]] } ⟨[], [], []⟩ =
        (⟨[0, 0, 1], [], []⟩, .ok ()) := by
  refine ⟨exTied_valid, ⟨by decide, by decide, by decide, by decide, by decide, by decide, by decide, by decide,
    by decide⟩, Or.inl rfl, ?_, by decide +kernel, by decide +kernel⟩
  refine Renumbered.of_cells (n := 3) exTied_valid { exTied_valid with centers := rfl, coords := ⟨2, by decide⟩ } ?_ (by decide) (by decide)
    (by decide) rfl
  intro x hx
  unfold swapCells
  split_ifs <;> omega

end CoMMA
