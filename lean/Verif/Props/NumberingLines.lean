import Verif.Lemmas.NumberingLines
import Verif.Props.Front
/-! # C70: the numbering of the cells, for calls with lines -/

set_option linter.unusedSectionVars false

namespace CoMMA

variable {W F : Type} [Num W] {σ τ : Nat → Nat}

theorem flatten_img (gss : List (List (List Nat))) :
    (gss.map (List.map (List.map σ))).flatten = gss.flatten.map (List.map σ) ∧
      (gss.map (List.map (List.map σ))).flatten.flatten = gss.flatten.flatten.map σ := by
  have h1 : (gss.map (List.map (List.map σ))).flatten = gss.flatten.map (List.map σ) := (List.map_flatten).symm
  exact ⟨h1, by rw [h1]; exact (List.map_flatten).symm⟩

theorem offsets_img (ls : List (List Nat)) : ∀ k, offsets k (ls.map (List.map σ)) = offsets k ls := by
  induction ls with
  | nil => intro k; rfl
  | cons l r ih => intro k; simp only [List.map_cons, offsets, List.length_map, ih]

/-- what is free was free before -/
theorem IsoTrace.keeps {E : IsoEnv W F} {G : NMap Nat → Nat → List Nat → Prop} {agg0 : List Bool} {p0 : Pool} {cs : List (Nat × NSet)}
    {agg : List Bool} {p : Pool} (ht : IsoTrace E G agg0 p0 cs agg p) {x : Nat} :
    agg[x]? = some false → agg0[x]? = some false := by
  induction ht with
  | start => exact id
  | @turn cs agg agg2 p p1 p2 seed order s h1 h2 h3 h4 h5 ih =>
    intro hx
    rw [h5] at hx
    split at hx
    · cases hx
    · exact ih hx

/-- the level to which the pool goes is settled in every state of a run after lines -/
theorem settled_after {E : IsoEnv W F} {G : NMap Nat → Nat → List Nat → Prop} {n : Nat} {taken : List Nat} {agg0 : List Bool} {p0 : Pool}
    (ha : agg0 = (List.range n).map (fun i => decide (i ∈ taken))) (hlt : ∀ x ∈ taken, x < n)
    (hp : PoolAfterLines E.pool agg0 ((taken.flatMap (rowOf E.g.rowPtr E.g.colInd)).filter (fun x => decide (agg0[x]? = some false))) p0)
    (hB : E.pool.nBnd.length = n) (h3 : ∀ b ∈ E.pool.nBnd, b ≤ 3) (hg : ValidCRS n E.g.rowPtr E.g.colInd) (h1 : 1 ≤ E.minCard)
    (hc : E.pool.kind = .neighbourhood → ConnectedMesh n E.g.rowPtr E.g.colInd)
    {cs : List (Nat × NSet)} {agg : List Bool} {p : Pool} (ht : IsoTrace E G agg0 p0 cs agg p) {s : Nat} (hs : agg[s]? = some false) :
    LevelSettled E.pool agg p := by
  cases hk : E.pool.kind with
  | boundary => exact Or.inl (ht.bounds hk (TopBounds.after hk hp))
  | neighbourhood =>
    right
    have hcon := hc hk
    have hB' : ∀ x < n, ∃ b, E.pool.nBnd[x]? = some b := fun x hx => ⟨_, List.getElem?_eq_getElem (by rw [hB]; exact hx)⟩
    have fin : ∀ I, FrontInv E.g I n agg0 p0 → ∃ t, p.top = some t ∧ ¬ NoneWaiting agg p (lowestLevel E.pool.kind t) t := by
      intro I hI
      have := (ht.front hI hk hB' hg hcon h1).1.waits hg hcon hs
      rw [hk]
      exact this
    cases hp with
    | near _ h4 h5 h6 h7 => exact fin [] (FrontInv.near hB h3 hlt hk ha h4 h5 h6 h7)
    | level h4 => rw [hk] at h4; cases h4
    | higher h4 => rw [hk] at h4; cases h4
    | fresh hw hp =>
      obtain ⟨I, i1, i2, i3⟩ := FrontInv.started hB h3 hp
      by_cases hz : taken = []
      · have ha' : agg0 = List.replicate n false := by
          rw [ha, hz]
          simp
        rw [← ha'] at i1
        exact fin I i1
      · exfalso
        obtain ⟨x, hx⟩ := List.exists_mem_of_ne_nil _ hz
        have hsn : s < n := by
          have := (List.getElem?_eq_some_iff.1 (ht.keeps hs)).1
          rw [ha] at this
          simpa using this
        obtain ⟨len, hwalk⟩ := hcon x s (hlt x hx) hsn
        have hst : s ∉ taken := by
          intro hmem
          have := ht.keeps hs
          rw [ha, List.getElem?_map, List.getElem?_range hsn] at this
          simp [hmem] at this
        obtain ⟨u, v, huv, hu, hv⟩ := walk_crosses (P := (· ∈ taken)) (Q := fun z => agg0[z]? = some false) (by
          intro y z hyz
          by_cases hz : z ∈ taken
          · exact Or.inl hz
          · right
            rw [ha, List.getElem?_map, List.getElem?_range (hg.adj_lt hyz).2]
            simpa using hz) hwalk hx hst
        have : v ∈ (taken.flatMap (rowOf E.g.rowPtr E.g.colInd)).filter (fun x => decide (agg0[x]? = some false)) := by
          rw [List.mem_filter, List.mem_flatMap]
          exact ⟨⟨u, hu, adj_iff_rowOf.1 huv⟩, by simpa using hv⟩
        rw [hw] at this
        cases this

theorem KeepsLineTies.congr {g g' : Graph W} {coupling : Coupling} {force : Bool} (h1 : g'.rowPtr = g.rowPtr) (h2 : g'.colInd = g.colInd)
    (h3 : g'.values = g.values) (h4 : g'.centers = g.centers) (hk : KeepsLineTies σ g coupling force) : KeepsLineTies σ g' coupling force := by
  have e1 : CouplingOf g' = CouplingOf g := by unfold CouplingOf FaceAt; rw [h1, h2, h3, h4]
  have e2 : Ahead g' = Ahead g := by unfold Ahead StepDir; rw [h4]
  have e3 : Arrives g' = Arrives g := by unfold Arrives StepDir; rw [h1, h2, h4]
  refine ⟨?_, ?_⟩
  · rw [e1]; exact hk.coupling
  · rw [e2, e3, h1, h2]; exact hk.direction

section call
variable {P : Platform} {a a' : Args W} {o o' : Outs} {n : Nat} (h : Renumbering σ τ) (hr : Renumbered σ a a') (hm : ValidMesh a n) (hm' : ValidMesh a' n)
include h hr hm hm'

theorem Renumbered.builds (hb : BuildsLines a n) : BuildsLines a' n := by
  have e := hr.others
  have e1 : a'.isAniso = a.isAniso := (congrArg Args.isAniso e :)
  have e2 : a'.buildLines = a.buildLines := (congrArg Args.buildLines e :)
  have e3 : a'.thr = a.thr := (congrArg Args.thr e :)
  have e4 : meantCoupling a' = meantCoupling a := by
    unfold meantCoupling; rw [e2, show a'.coupling = a.coupling from (congrArg Args.coupling e :)]
  refine ⟨by rw [e1]; exact hb.on, by rw [e2]; exact hb.build, h.all (fun i hi => ?_), ?_⟩
  · exact (hr.range h hm hm' i).2 (hb.compliant i ((hr.compliant i).1 hi))
  · rw [e3, e4]
    intro h1 h2
    refine h.all (fun i hi => ?_)
    obtain ⟨j, hj⟩ := hb.isolated h1 h2 i ((hr.compliant i).1 hi)
    exact ⟨σ j, ((hr.graph h hm hm').adj h).2 hj⟩

theorem Renumbered.gives (hi : o'.linesIdx = o.linesIdx) (hl : o'.lines = o.lines.map σ) {ls : List (List Nat)} (hg : GivesLines a o n ls) :
    GivesLines a' o' n (ls.map (List.map σ)) := by
  have e := hr.others
  have hf : (ls.map (List.map σ)).flatten = ls.flatten.map σ := (List.map_flatten).symm
  refine ⟨by rw [show a'.isAniso = a.isAniso from (congrArg Args.isAniso e :)]; exact hg.on,
    by rw [show a'.buildLines = a.buildLines from (congrArg Args.buildLines e :)]; exact hg.build, ⟨?_, ?_⟩, ?_, ?_, ?_⟩
  · rw [hi, offsets_img]; exact hg.enc.1
  · rw [hl, hf, ← hg.enc.2]
  · rw [hf]; simpa using hg.data
  · rw [hf]; exact h.nodup hg.disjoint
  · rw [hf]
    intro x hx
    obtain ⟨y, hy, rfl⟩ := List.mem_map.1 hx
    exact (hr.range h hm hm' y).2 (hg.range y hy)

/-- the lines of the renumbered call -/
theorem TakesLines.img (hW : LawfulLt W) (hk : KeepsTies σ a.prio) (hs : SameLines σ a o o') {g g' : Graph W} (hg : ImgGraph σ g g')
    (h1 : g.rowPtr = a.rowPtr) (h2 : g.colInd = a.colInd) (h3 : g.values = a.values) (h4 : g.centers = a.centers)
    {fls : List (List Nat)} (ht : TakesLines g a o n fls) : TakesLines g' a' o' n (fls.map (List.map σ)) := by
  have e := hr.others
  cases ht with
  | @built seeds fls b1 b2 b3 b4 b5 =>
    have hk' : KeepsLineTies σ g (meantCoupling a) a.forceDir := by
      rcases hs with ⟨_, hs⟩ | ⟨hs, _⟩
      · exact hs.congr h1 h2 h3 h4
      · rw [b1.build] at hs; cases hs
    have e4 : meantCoupling a' = meantCoupling a := by
      unfold meantCoupling
      rw [show a'.buildLines = a.buildLines from (congrArg Args.buildLines e :), show a'.coupling = a.coupling from (congrArg Args.coupling e :)]
    refine .built (seeds := seeds.map σ) (hr.builds h hm hm' b1) (h.all (fun i => ?_)) (h.nodup b3) ?_ ?_
    · rw [h.mem, b2, hr.compliant, show a'.thr = a.thr from (congrArg Args.thr e :), hg.anisotropic h]
    · exact (ImgPrio.of hr.prio hk).ordered b4
    · rw [e4, show a'.forceDir = a.forceDir from (congrArg Args.forceDir e :)]
      exact b5.img h hg hW hk' (fun x => h.mem)
  | @given ls b1 =>
    rcases hs with ⟨hs, _⟩ | ⟨_, hs1, hs2⟩
    · rw [b1.build] at hs; cases hs
    · have := TakesLines.given (g := g') (hr.gives h hm hm' hs1 hs2 b1)
      rw [List.filter_map] at this
      have hfun : (fun l : List Nat => decide (1 < l.length)) ∘ List.map σ = fun l => decide (1 < l.length) := by
        funext l; rw [Function.comp_apply, List.length_map]
      rwa [hfun] at this

end call

theorem renumbering_id : Renumbering id id := ⟨fun _ => rfl, fun _ => rfl⟩

theorem keepsLineTies_id (g : Graph W) (coupling : Coupling) (force : Bool) : KeepsLineTies id g coupling force :=
  ⟨fun _ _ _ _ _ _ h => h, fun _ _ _ _ _ _ _ _ _ _ _ h => h⟩

theorem renumbered_id (a : Args W) : Renumbered id a a :=
  ⟨fun i => by simp, fun _ => rfl, fun _ => rfl, fun _ => rfl, fun _ => rfl, fun _ => Iff.rfl, rfl⟩

theorem sameLines_id (a : Args W) (o : Outs) : SameLines id a o o := by
  unfold SameLines
  cases a.buildLines with
  | true => exact Or.inl ⟨rfl, keepsLineTies_id _ _ _⟩
  | false => exact Or.inr ⟨rfl, rfl, by simp⟩

theorem CallEnv.graph {P : Platform} {a : Args W} {E : IsoEnv W (Feats W)} (hE : CallEnv P a E) : ImgGraph id E.g (graphOf a) := by
  have hdim := hE.dim
  have hd : E.g.dim = a.dim.toNat := by omega
  refine ⟨fun i => ?_, fun i => ?_, fun i => ?_, fun i => ?_, fun i => ?_, fun i => ?_, hd.symm⟩
  · have : facesOf E.g = facesOf (graphOf a) := by
      funext i; unfold facesOf; rw [hE.rowPtr, hE.colInd, hE.values]; rfl
    rw [this]
    simp
  · rw [hE.rowPtr, hE.colInd, List.map_id]; exact List.Perm.refl _
  · rw [hE.rowPtr, hE.values]; exact List.Perm.refl _
  · rw [hE.volumes]; rfl
  · rw [hE.centers]; rfl
  · rw [hE.nBnd, hd, ← clampBnd_eq]; rfl

theorem keepsTies_id (prio : List W) : KeepsTies id prio := fun _ _ _ _ _ h => h

/-- the lines read off the graph of the call -/
theorem TakesLines.ofCall {P : Platform} {a : Args W} {o : Outs} {n : Nat} {E : IsoEnv W (Feats W)} (hm : ValidMesh a n) (hW : LawfulLt W)
    (hE : CallEnv P a E) {fls : List (List Nat)} (ht : TakesLines E.g a o n fls) : TakesLines (graphOf a) a o n fls := by
  have := ht.img renumbering_id (renumbered_id a) hm hm hW (keepsTies_id _) (sameLines_id a o) hE.graph hE.rowPtr hE.colInd hE.values hE.centers
  simpa using this

theorem call_length {P : Platform} {a : Args W} {o : Outs} {n : Nat} (hm : ValidMesh a n) (hp : ValidParams P a)
    (hW : LawfulLt W) (hu : UniqueRows a.rowPtr a.colInd) (hl : NoSelfLoop a.rowPtr a.colInd)
    (hmode : ValidMode (graphOf a) a o n) (hs : CorrectsSingletons a) {out : Outs} (h : agglomerateOneLevel P a o = (out, .ok ())) :
    out.fcToCc.length = n := by
  obtain ⟨c, k, p, idx, lines, gss, hd⟩ := described hm hp hW hu hl hmode
  obtain ⟨_, _, _, f, ho⟩ := outcome hm hp hs hd.start
  have heq := ho.eq
  rw [h] at heq
  cases heq
  exact ho.reads.len

theorem Renumbered.mode {a a' : Args W} {o o' : Outs} {n : Nat} (h : Renumbering σ τ) (hr : Renumbered σ a a')
    (hm : ValidMesh a n) (hm' : ValidMesh a' n) (hW : LawfulLt W) (hk : KeepsTies σ a.prio) (hs : SameLines σ a o o')
    (ho : ¬ WithoutLines a o) (hmode : ValidMode (graphOf a) a o n) {fls : List (List Nat)} (ht : TakesLines (graphOf a) a o n fls) :
    ValidMode (graphOf a') a' o' n := by
  have e := hr.others
  have hg := hr.graph h hm hm'
  have ht' := ht.img h hr hm hm' hW hk hs hg rfl rfl rfl rfl
  have e2 : a'.buildLines = a.buildLines := (congrArg Args.buildLines e :)
  have e4 : meantCoupling a' = meantCoupling a := by
    unfold meantCoupling
    rw [e2, show a'.coupling = a.coupling from (congrArg Args.coupling e :)]
  refine ⟨?_, fun fls' hf => ?_⟩
  · rcases hmode.mode with h1 | ⟨h1, h2⟩ | ⟨ls, h1⟩
    · exact absurd h1 ho
    · refine Or.inr (Or.inl ⟨hr.builds h hm hm' h1, ?_⟩)
      rw [e4]
      exact h.all (fun i => h.all (fun j w hw => h2 i j w ((hg.coupled h i j w).1 hw)))
    · rcases hs with ⟨hs, _⟩ | ⟨_, hs1, hs2⟩
      · rw [h1.build] at hs; cases hs
      · exact Or.inr (Or.inr ⟨_, hr.gives h hm hm' hs1 hs2 h1⟩)
  · rw [hf.unique hW ht']
    intro l hl m hlim
    obtain ⟨l0, hl0, rfl⟩ := List.mem_map.1 hl
    rw [List.length_map]
    refine hmode.fits fls ht l0 hl0 m ?_
    rw [← hlim]
    unfold lineLimit
    rw [e2, show a'.maxCells = a.maxCells from (congrArg Args.maxCells e :)]

/-- the image of a call with lines, for a description of the growth of coarse cells that is invariant -/
theorem renumbered_lines_call {P : Platform} {a a' : Args W} {o o' : Outs} {n : Nat} (hm : ValidMesh a n) (hm' : ValidMesh a' n)
    (hp : ValidParams P a) (hW : LawfulLt W) (heq : ExactEq W) (hu : UniqueRows a.rowPtr a.colInd) (hl : NoSelfLoop a.rowPtr a.colInd)
    (hmode : ValidMode (graphOf a) a o n) (ho : ¬ WithoutLines a o) (hs : CorrectsSingletons a)
    (hb : BoundaryFirst a ∨ ConnectedMesh n a.rowPtr a.colInd)
    (h : Renumbering σ τ) (hr : Renumbered σ a a') (hrow : SameRowOrder σ a a') (hk : KeepsTies σ a.prio) (hlines : SameLines σ a o o')
    {Gr Gr' : IsoEnv W (Feats W) → NMap Nat → Nat → List Nat → Prop}
    (hcall : ∃ out, agglomerateOneLevel P a o = (out, .ok ()) ∧ DescribedBy P a o n Gr (FixedSingles a) out)
    (hcall' : ValidMode (graphOf a') a' o' n → ∃ out, agglomerateOneLevel P a' o' = (out, .ok ()) ∧
      DescribedBy P a' o' n Gr' (FixedSingles a') out)
    (huniq : ∀ out out', DescribedBy P a' o' n Gr' (FixedSingles a') out → DescribedBy P a' o' n Gr' (FixedSingles a') out' → out = out')
    (himg : ∀ E E', CallEnv P a E → CallEnv P a' E' → ImgEnv σ E E' → ∀ d d' hi xs, ImgMap σ d d' → Gr E d hi xs → Gr' E' d' hi (xs.map σ)) :
    ∃ f f' idx lines, agglomerateOneLevel P a o = (⟨f, idx, lines⟩, .ok ()) ∧
      agglomerateOneLevel P a' o' = (⟨f', idx, lines⟩, .ok ()) ∧
      f.length = n ∧ f'.length = n ∧ ∀ i : Nat, f'[σ i]? = f[i]? := by
  have e := hr.others
  have ecor : a'.correction = a.correction := (congrArg Args.correction e :)
  have hp' := hr.params h hm hm' hp
  have hs' : CorrectsSingletons a' := by
    unfold CorrectsSingletons
    rw [ecor, show a'.singThresh = a.singThresh from (congrArg Args.singThresh e :), show a'.minCard = a.minCard from (congrArg Args.minCard e :)]
    exact hs
  obtain ⟨out, h1, E, gss, f0, d1, d2, d3, d4⟩ := hcall
  cases d2 with
  | off hoff => exact absurd hoff ho
  | @on fls cls t1 t2 t3 t4 =>
  have hmode' := hr.mode h hm hm' hW hk hlines ho hmode (t1.ofCall hm hW d1)
  obtain ⟨out', h1', dd⟩ := hcall' hmode'
  have dd' := dd
  obtain ⟨E', gss', f0', d1', d2', d3', d4'⟩ := dd
  clear d2' d3' d4' gss' f0'
  have hE := hr.env h hm hm' hk d1 d1'
  have hn := hr.range h hm hm'
  obtain ⟨agg0, p0, cs, agg, p, m1, m2, m3, m4, m5⟩ := d3
  -- the lines
  have u1 : TakesLines E'.g a' o' n (fls.map (List.map σ)) :=
    t1.img h hr hm hm' hW hk hlines hE.graph d1.rowPtr d1.colInd d1.values d1.centers
  have elim : lineLimit a' = lineLimit a := by
    unfold lineLimit
    rw [show a'.buildLines = a.buildLines from (congrArg Args.buildLines e :), show a'.maxCells = a.maxCells from (congrArg Args.maxCells e :)]
  have u2 : CutsLines E'.g a' (fls.map (List.map σ)) (gss.map (List.map (List.map σ))) := by
    unfold CutsLines
    rw [List.forall₂_map_left_iff, List.forall₂_map_right_iff, elim, show a'.oddLine = a.oddLine from (congrArg Args.oddLine e :)]
    refine List.Forall₂.imp (fun line groups hx => ?_) t2
    obtain ⟨l, x1, x2⟩ := hx
    exact ⟨l.map σ, x1.img hE.graph.nBnd hr.prio heq hk, x2.img⟩
  obtain ⟨fl1, fl2⟩ := flatten_img (σ := σ) gss
  have flen : (gss.map (List.map (List.map σ))).flatten.length = gss.flatten.length := by rw [fl1, List.length_map]
  have u3 : NumbersLines (gss.map (List.map (List.map σ))) cls := by
    refine ⟨?_, by rw [flen]; exact t3.2⟩
    rw [t3.1, List.map_map]
    exact List.map_congr_left (fun x _ => by rw [Function.comp_apply, List.length_map])
  -- the state after the lines
  have hlt : ∀ x ∈ gss.flatten.flatten, x < n := by
    intro x hx
    obtain ⟨c, hc1, hxc⟩ := List.mem_flatten.1 hx
    obtain ⟨l, hl⟩ := List.mem_iff_getElem?.1 hc1
    have : f0[x]? = some l := by
      refine (m5.2 x l).2 ⟨NSet.ofList c, ?_, NSet.mem_ofList.2 hxc⟩
      rw [List.getElem?_append_left (by rw [List.length_map]; exact (List.getElem?_eq_some_iff.1 hl).1), List.getElem?_map, hl]; rfl
    rw [← m5.1]
    exact (List.getElem?_eq_some_iff.1 this).1
  have l0 : agg0.length = n := by rw [m1]; simp
  let agg0' := (List.range n).map (fun i => decide (i ∈ (gss.map (List.map (List.map σ))).flatten.flatten))
  have himg0 : ImgFlags σ agg0 agg0' := by
    intro x
    show ((List.range n).map _)[σ x]? = _
    rw [m1, List.getElem?_map, List.getElem?_map, fl2]
    by_cases hx : x < n
    · rw [List.getElem?_range hx, List.getElem?_range ((hn x).2 hx)]
      simp only [Option.map_some, h.mem]
    · rw [List.getElem?_eq_none (by rw [List.length_range]; exact Nat.le_of_not_lt (fun hc => hx ((hn x).1 hc))),
        List.getElem?_eq_none (by rw [List.length_range]; omega)]
      rfl
  obtain ⟨p0', hp0⟩ := ImgPool.some σ p0
  have hbl : E'.pool.nBnd.length = E.pool.nBnd.length := by
    rw [d1.poolBnd, d1'.poolBnd, d1.nBnd, d1'.nBnd, List.length_map, List.length_map, hm.bnd, hm'.bnd]
  have hw : ((gss.map (List.map (List.map σ))).flatten.flatten.flatMap (rowOf E'.g.rowPtr E'.g.colInd)).filter
      (fun x => decide (agg0'[x]? = some false)) =
      ((gss.flatten.flatten.flatMap (rowOf E.g.rowPtr E.g.colInd)).filter (fun x => decide (agg0[x]? = some false))).map σ := by
    rw [fl2, List.flatMap_map, d1'.rowPtr, d1'.colInd, d1.rowPtr, d1.colInd]
    have : (fun x => rowOf a'.rowPtr a'.colInd (σ x)) = fun x => (rowOf a.rowPtr a.colInd x).map σ := funext hrow
    rw [this, ← List.map_flatMap, List.filter_map]
    congr 1
    refine List.filter_congr (fun x _ => ?_)
    rw [Function.comp_apply, himg0]
  have hpool := m2.img h hE.cfg himg0 hp0 hbl
  rw [← hw] at hpool
  have hset : ∀ cs agg p, IsoTrace E (Gr E) agg0 p0 cs agg p → (∃ s : Nat, agg[s]? = some false) →
      LevelSettled E.pool agg p := by
    intro cs agg p ht ⟨s, hs⟩
    have hdim := d1.dim
    have hpd := hp.dim
    have hmin := d1.minCard
    have hpm := hp.minCard
    refine settled_after m1 hlt m2 (by rw [d1.poolBnd, d1.nBnd, List.length_map, hm.bnd]) ?_
      (by rw [d1.rowPtr, d1.colInd]; exact hm.crs) (by omega) (fun hkd => ?_) ht hs
    · rw [d1.poolBnd, d1.nBnd]
      intro b hb
      obtain ⟨b', _, rfl⟩ := List.mem_map.1 hb
      omega
    · rw [d1.rowPtr, d1.colInd]
      rcases hb with hb | hb
      · have := d1.kind.2 hb
        rw [hkd] at this
        cases this
      · exact hb
  obtain ⟨cs', agg', p', t1', t2', t3', t4'⟩ := IsoTrace.img (G := Gr E) (G' := Gr' E') h hE
    (himg E E' d1 d1' hE) himg0
    (by rw [l0]; exact hn) hp0 hset m3 (by rw [m4, l0]; simp)
  have hagg' : agg' = List.replicate n true := by
    apply List.ext_getElem?
    refine h.all (fun x => ?_)
    rw [t2', m4, List.getElem?_replicate, List.getElem?_replicate]
    simp only [hn]
  have hnum : List.Forall₂ (ImgSet σ) (gss.flatten.map NSet.ofList ++ cs.map Prod.snd)
      ((gss.map (List.map (List.map σ))).flatten.map NSet.ofList ++ cs'.map Prod.snd) := by
    refine List.rel_append ?_ ?_
    · rw [fl1, List.map_map, List.forall₂_map_left_iff, List.forall₂_map_right_iff]
      exact List.forall₂_same.2 (fun c _ => ImgSet.ofList h c)
    · rw [List.forall₂_map_left_iff, List.forall₂_map_right_iff]; exact t1'
  obtain ⟨f0', n1, n2⟩ := m5.img h hn hnum
  have hlen : f0'.length = f0.length := by rw [n2.1, m5.1]
  have key : ∃ f1', ImgVec σ out.fcToCc f1' ∧ FixedSingles a' gss.flatten.length f0' f1' := by
    unfold FixedSingles at d4 ⊢
    rw [ecor]
    cases hcor : a.correction with
    | false =>
      rw [hcor] at d4
      exact ⟨f0', by rw [show out.fcToCc = f0 from d4]; exact n1, rfl⟩
    | true =>
      rw [hcor, if_pos rfl] at d4
      exact CorrectionOf.img h (hr.graph h hm hm') n1 hlen d4
  obtain ⟨f1', k1, k2⟩ := key
  have hd : DescribedBy P a' o' n Gr' (FixedSingles a') ⟨f1', out.linesIdx, out.lines⟩ := by
    refine ⟨E', gss.map (List.map (List.map σ)), f0', d1', .on u1 u2 u3 t4, ⟨agg0', p0', cs', agg', p', rfl, hpool, ?_, hagg', n2⟩, ?_⟩
    · exact t4'
    · rw [flen]; exact k2
  have hout := huniq _ _ dd' hd
  subst hout
  exact ⟨out.fcToCc, f1', out.linesIdx, out.lines, h1, h1', call_length hm hp hW hu hl hmode hs h1,
    call_length (out := ⟨f1', _, _⟩) hm' hp' hW (hr.uniq h hm hm' hu) (hr.noLoop h hm hm' hl) hmode' hs' h1', k1⟩

/-- **C70** (partial) The numbering of the cells does not matter to a call with lines, built or
given, that agglomerates the cells with more boundary faces first, or on a connected mesh, in exact
arithmetic: on the renumbered mesh it gives each cell the same coarse cell, with the same number, and
the same coarse lines.  The neighbours of each cell must be listed in the same order, and cells with
the same priority, or tied in the choice of the next cell of a line, must keep their order. -/
theorem C70_lines_partial {P : Platform} {a a' : Args W} {o o' : Outs} {n : Nat} (hm : ValidMesh a n) (hm' : ValidMesh a' n)
    (hp : ValidParams P a) (hW : LawfulLt W) (heq : ExactEq W) (hu : UniqueRows a.rowPtr a.colInd) (hl : NoSelfLoop a.rowPtr a.colInd)
    (hF : FeatInput (graphOf a) a.aspect) (hmode : ValidMode (graphOf a) a o n) (ho : ¬ WithoutLines a o) (hs : CorrectsSingletons a)
    (hb : BoundaryFirst a ∨ ConnectedMesh n a.rowPtr a.colInd)
    (h : Renumbering σ τ) (hr : Renumbered σ a a') (hrow : SameRowOrder σ a a') (hk : KeepsTies σ a.prio) (hlines : SameLines σ a o o') :
    ∃ f f' idx lines, agglomerateOneLevel P a o = (⟨f, idx, lines⟩, .ok ()) ∧
      agglomerateOneLevel P a' o' = (⟨f', idx, lines⟩, .ok ()) ∧
      f.length = n ∧ f'.length = n ∧ ∀ i : Nat, f'[σ i]? = f[i]? := by
  have easp : a'.aspect = a.aspect := (congrArg Args.aspect hr.others :)
  have hp' := hr.params h hm hm' hp
  refine renumbered_lines_call hm hm' hp hW heq hu hl hmode ho hs hb h hr hrow hk hlines (call_shaped (o := o) hm hp hW hu hl hF hmode hs)
    (fun hmode' => call_shaped (o := o') hm' hp' hW (hr.uniq h hm hm' hu) (hr.noLoop h hm hm' hl) (hr.features h hm hm' hF)
      hmode' (hr.corrects hs)) (fun _ _ => C65_unique hW hp'.aspect) ?_
  intro E E' d1 _ hE d d' hi xs hd hx
  rw [easp]
  exact ShapedSeq.img h hE hF.add (d1.symWeights hF) hd hx

/-! ### Concrete cases -/

theorem exExactEq : ExactEq Int := fun _ _ h => of_decide_eq_true h

/-- to check that rows are listed in the same order it is enough to look at the cells -/
theorem sameRowOrder_of {a a' : Args W} {n : Nat} (hm : ValidMesh a n) (hm' : ValidMesh a' n) (hn : ∀ x, n ≤ x → n ≤ σ x)
    (h : ∀ i < n, rowOf a'.rowPtr a'.colInd (σ i) = (rowOf a.rowPtr a.colInd i).map σ) : SameRowOrder σ a a' := by
  have row : ∀ {b : Args W}, ValidMesh b n → ∀ i, n ≤ i → rowOf b.rowPtr b.colInd i = [] := by
    intro b hb i hi
    rw [List.eq_nil_iff_forall_not_mem]
    intro j hj
    have := (hb.crs.adj_lt (adj_iff_rowOf.2 hj)).1
    omega
  intro i
  by_cases hi : i < n
  · exact h i hi
  · rw [row hm i (by omega), row hm' _ (hn i (by omega))]; rfl

/-- the middle column of the 2 × 3 squares is given as a line; cells 0 and 4 are swapped -/
def exFrontLine' : Args Int :=
  { exFrontLine with
    rowPtr := [0, 3, 6, 8, 10, 12, 14], colInd := [3, 1, 5, 4, 2, 0, 1, 5, 4, 0, 1, 3, 0, 2],
    centers := [[1, 1], [1, 0], [2, 0], [0, 1], [0, 0], [2, 1]], prio := [5, 4, 3, 2, 6, 1], nBnd := [1, 1, 2, 2, 2, 2] }

theorem exFrontLine_valid : ValidMesh exFrontLine 6 :=
  ⟨by decide, exGrid6_crs, exGrid6_valid.sym, Or.inr exLawful, rfl, rfl, rfl, rfl, rfl, 2, by decide⟩

theorem exFrontLine_crs' : ValidCRS 6 exFrontLine'.rowPtr exFrontLine'.colInd := checkCRS_sound (by decide)

theorem exFrontLine_valid' : ValidMesh exFrontLine' 6 :=
  ⟨by decide, exFrontLine_crs', checkSym_sound exFrontLine_crs' (by decide), Or.inr exLawful, rfl, rfl, rfl, rfl, rfl, 2, by decide⟩

theorem swap_out {x y n : Nat} (hx : x < n) (hy : y < n) (i : Nat) (hi : n ≤ i) : n ≤ swapCells x y i := by
  unfold swapCells
  split_ifs <;> omega

theorem keepsTies_of {prio : List Int} (h : prio.Nodup) : KeepsTies σ prio := by
  intro i j w hi hj hij
  obtain ⟨h1, e1⟩ := List.getElem?_eq_some_iff.1 hi
  obtain ⟨h2, e2⟩ := List.getElem?_eq_some_iff.1 hj
  have := (h.getElem_inj_iff (hi := h1) (hj := h2)).1 (by rw [e1, e2])
  omega

example := C70_lines_partial (P := exPlatform) (a := exFrontLine) (a' := exFrontLine') (o := ⟨[], [0, 2], [1, 4]⟩) (o' := ⟨[], [0, 2], [1, 0]⟩)
  exFrontLine_valid exFrontLine_valid'
  ⟨by decide, by decide, by decide, by decide, by decide, by decide, by decide, by decide, by decide⟩
  exLawful exExactEq exGrid6_uniq exGrid6_loop exGrid6_input
  ⟨Or.inr (Or.inr ⟨_, exFrontLine_gives⟩), fun _ _ => by intro l _ m h; cases h⟩
  (by rintro (h | ⟨_, h | h⟩) <;> revert h <;> decide) (fun _ => Or.inl rfl) (Or.inr exGrid6_connected) (swap_renumbering 0 4)
  (Renumbered.of_cells exFrontLine_valid exFrontLine_valid' (swap_out (by decide) (by decide)) (by decide) (by decide) (by decide) rfl)
  (sameRowOrder_of exFrontLine_valid exFrontLine_valid' (swap_out (by decide) (by decide)) (by decide))
  (keepsTies_of (by decide)) (Or.inr ⟨rfl, rfl, by decide⟩)

/-- the same coarse cells and the same coarse line -/
example : agglomerateOneLevel exPlatform exFrontLine ⟨[], [0, 2], [1, 4]⟩ = (⟨[1, 0, 2, 1, 0, 2], [0, 1], [0]⟩, .ok ()) ∧
    agglomerateOneLevel exPlatform exFrontLine' ⟨[], [0, 2], [1, 0]⟩ = (⟨[0, 0, 2, 1, 1, 2], [0, 1], [0]⟩, .ok ()) := by
  constructor <;> decide +kernel

/-- two columns, swapped; the lines are built -/
def swapCols (i : Nat) : Nat := if i < 3 then i + 3 else if i < 6 then i - 3 else i

theorem swapCols_renumbering : Renumbering swapCols swapCols := by
  have key : ∀ i, swapCols (swapCols i) = i := by
    intro i
    unfold swapCols
    split_ifs <;> omega
  exact ⟨key, key⟩

theorem swapCols_out (i : Nat) (hi : 6 ≤ i) : 6 ≤ swapCols i := by
  unfold swapCols
  split_ifs <;> omega

def exBuild' : Args Int :=
  { exBuild with centers := [[5, 0], [5, 1], [5, 2], [0, 0], [0, 1], [0, 2]], prio := [3, 2, 1, 6, 5, 4] }

theorem exBuild_valid' : ValidMesh exBuild' 6 :=
  ⟨by decide, exBuild_valid.crs, exBuild_valid.sym, Or.inr exLawful, rfl, rfl, rfl, rfl, rfl, 2, by decide⟩

theorem exBuild_input : FeatInput (graphOf exBuild) exBuild.aspect where
  crs := exCols_crs
  sizes := ⟨rfl, rfl, rfl, rfl, 2, by decide⟩
  sym := exBuild_valid.sym
  add := exCommAdd
  weights _ := ⟨exExact, symWeights_of exCols_crs rfl (by decide), exCols_noLoop⟩
  geom _ := ⟨exLawful, exSymm⟩
  bary _ := ⟨exLawful, exSymm⟩
  facets h := absurd h (by decide)

/-- a step of length zero does not lead ahead -/
theorem not_ahead_zero (d : List Int) : ¬ Num.lt (Num.ofNat 0) (scalar d [0, 0]) = true := by
  rcases d with _ | ⟨x, _ | ⟨y, l⟩⟩ <;> simp [scalar, sumUp, Num.lt, Num.ofNat, Num.add, Num.mul]

theorem exBuild_ties : KeepsLineTies swapCols (graphOf exBuild) .maxWeight true := by
  refine ⟨fun i j k w hj hk hlt => ?_, fun _ i j k d c hj hk _ hj' hk' hlt => ?_⟩
  · have hi := (exBuild_valid.crs.adj_lt hj.adj).1
    have hj : (j, w) ∈ facesOf (graphOf exBuild) i := mem_faces.2 hj
    have hk : (k, w) ∈ facesOf (graphOf exBuild) i := mem_faces.2 hk
    have key : ∀ i < 6, ∀ e ∈ facesOf (graphOf exBuild) i, ∀ e' ∈ facesOf (graphOf exBuild) i, e.2 = e'.2 → e.1 < e'.1 →
        swapCols e.1 < swapCols e'.1 := by decide
    exact key i hi _ hj _ hk rfl hlt
  · have hi := (exBuild_valid.crs.adj_lt hj).1
    have key : ∀ i < 6, ∀ j ∈ rowOf exBuild.rowPtr exBuild.colInd i, ∀ k ∈ rowOf exBuild.rowPtr exBuild.colInd i, j < k →
        (unitFrom (exBuild.centers[j]?.getD []) (exBuild.centers[i]?.getD []) = [0, 0] ∨
        unitFrom (exBuild.centers[k]?.getD []) (exBuild.centers[i]?.getD []) = [0, 0]) ∨ swapCols j < swapCols k := by decide
    have zero : ∀ k, Ahead (graphOf exBuild) d i k c → unitFrom (exBuild.centers[k]?.getD []) (exBuild.centers[i]?.getD []) ≠ [0, 0] := by
      rintro k ⟨d', ⟨ci, cn, h1, h2, rfl⟩, rfl, h3, _⟩ hz
      rw [show exBuild.centers[k]? = some cn from h2, show exBuild.centers[i]? = some ci from h1] at hz
      simp only [Option.getD_some] at hz
      rw [hz] at h3
      exact not_ahead_zero d h3
    rcases key i hi j (adj_iff_rowOf.1 hj) k (adj_iff_rowOf.1 hk) hlt with (h | h) | h
    · exact absurd h (zero j hj')
    · exact absurd h (zero k hk')
    · exact h

example (o o' : Outs) := C70_lines_partial (P := exPlatform) (a := exBuild) (a' := exBuild') (o := o) (o' := o')
  exBuild_valid exBuild_valid' exBuild_params exLawful exExactEq (checkUniq_sound exCols_crs (by decide)) exCols_noLoop exBuild_input
  (exBuild_mode o) (by rintro (h | ⟨h, _⟩) <;> cases h) (fun _ => Or.inl rfl) (Or.inl (Or.inl rfl)) swapCols_renumbering
  (Renumbered.of_cells exBuild_valid exBuild_valid' swapCols_out (by decide) (by decide) (by decide) rfl)
  (sameRowOrder_of exBuild_valid exBuild_valid' swapCols_out (by decide))
  (keepsTies_of (by decide)) (Or.inl ⟨rfl, exBuild_ties⟩)

example : agglomerateOneLevel exPlatform exBuild ⟨[], [], []⟩ = (⟨[0, 0, 2, 1, 1, 2], [0, 1, 2], [0, 1]⟩, .ok ()) ∧
    agglomerateOneLevel exPlatform exBuild' ⟨[], [], []⟩ = (⟨[1, 1, 2, 0, 0, 2], [0, 1, 2], [0, 1]⟩, .ok ()) := by
  constructor <;> decide +kernel

/-- 3 × 3 squares, the first two cells of the middle column are given as a line -/
def exListed (r : List Nat) : Args Int :=
  { exArgs3 with
    rowPtr := [0, 2, 5, 7, 10, 14, 17, 19, 22, 24],
    colInd := [1, 3] ++ r ++ [1, 5, 0, 4, 6, 1, 3, 5, 7, 2, 4, 8, 3, 7, 4, 6, 8, 5, 7],
    values := [1, 1, 1, 1, 1, 1, 1, 1, 1, 1, 1, 1, 1, 1, 1, 1, 1, 1, 1, 1, 1, 1, 1, 1], volumes := [1, 1, 1, 1, 1, 1, 1, 1, 1],
    centers := [[0, 0], [1, 0], [2, 0], [0, 1], [1, 1], [2, 1], [0, 2], [1, 2], [2, 2]],
    prio := [9, 8, 7, 6, 5, 4, 3, 2, 1], nBnd := [2, 1, 2, 1, 0, 1, 2, 1, 2], isAniso := true,
    correction := false, minCard := 4, goalCard := 4, maxCard := 4 }

theorem exListed_crs : ValidCRS 9 (exListed [0, 2, 4]).rowPtr (exListed [0, 2, 4]).colInd := checkCRS_sound (by decide)
theorem exListed_crs' : ValidCRS 9 (exListed [2, 0, 4]).rowPtr (exListed [2, 0, 4]).colInd := checkCRS_sound (by decide)
theorem exListed_valid : ValidMesh (exListed [0, 2, 4]) 9 :=
  ⟨by decide, exListed_crs, checkSym_sound exListed_crs (by decide), Or.inr exLawful, rfl, rfl, rfl, rfl, rfl, 2, by decide⟩
theorem exListed_valid' : ValidMesh (exListed [2, 0, 4]) 9 :=
  ⟨by decide, exListed_crs', checkSym_sound exListed_crs' (by decide), Or.inr exLawful, rfl, rfl, rfl, rfl, rfl, 2, by decide⟩

/-- **C70 fails with lines if the neighbours of a cell are listed in another order**, even if the
cells keep their numbers and all priorities are different: the free cells met next to a line wait in
the order in which they are met, whatever their priorities.  Here cell 1 lists its neighbour 2
before 0, and cell 7 goes to another coarse cell. -/
theorem C70_rows_counterexample :
    ValidMesh (exListed [0, 2, 4]) 9 ∧ ValidMesh (exListed [2, 0, 4]) 9 ∧ ValidParams exPlatform (exListed [0, 2, 4]) ∧
      GivesLines (exListed [0, 2, 4]) ⟨[], [0, 2], [1, 4]⟩ 9 [[1, 4]] ∧ BoundaryFirst (exListed [0, 2, 4]) ∧
      Renumbered id (exListed [0, 2, 4]) (exListed [2, 0, 4]) ∧ (exListed [0, 2, 4]).prio.Nodup ∧
      agglomerateOneLevel exPlatform (exListed [0, 2, 4]) ⟨[], [0, 2], [1, 4]⟩ = (⟨[1, 0, 2, 1, 0, 2, 1, 1, 2], [0, 1], [0]⟩, .ok ()) ∧
      agglomerateOneLevel exPlatform (exListed [2, 0, 4]) ⟨[], [0, 2], [1, 4]⟩ = (⟨[2, 0, 1, 2, 0, 1, 2, 1, 1], [0, 1], [0]⟩, .ok ()) := by
  refine ⟨exListed_valid, exListed_valid', ⟨by decide, by decide, by decide, by decide, by decide, by decide, by decide, by decide,
    by decide⟩, ⟨rfl, rfl, ⟨rfl, rfl⟩, by decide, by decide, by decide⟩, Or.inl rfl, ?_, by decide, by decide +kernel, by decide +kernel⟩
  exact Renumbered.of_cells exListed_valid exListed_valid' (fun _ h => h) (by decide) (by decide) (by decide) rfl

/-- four cells: cell 0 in the middle is coupled with the three others by the same amount -/
def exStar (c : List (List Int)) (p : List Int) : Args Int :=
  { exArgs3 with
    rowPtr := [0, 3, 4, 5, 6], colInd := [1, 2, 3, 0, 0, 0], values := [1, 1, 1, 1, 1, 1], volumes := [1, 1, 1, 1],
    centers := c, prio := p, nBnd := [1, 3, 3, 3], thr := -1, buildLines := true,
    correction := false, isAniso := true, oddLine := true, compliant := [0, 1, 2, 3] }

theorem exStar_crs : ValidCRS 4 [0, 3, 4, 5, 6] [1, 2, 3, 0, 0, 0] := checkCRS_sound (by decide)
theorem exStar_valid : ValidMesh (exStar [[0, 0], [1, 0], [0, 1], [-1, 0]] [4, 3, 2, 1]) 4 :=
  ⟨by decide, exStar_crs, checkSym_sound exStar_crs (by decide), Or.inr exLawful, rfl, rfl, rfl, rfl, rfl, 2, by decide⟩
theorem exStar_valid' : ValidMesh (exStar [[0, 0], [0, 1], [1, 0], [-1, 0]] [4, 2, 3, 1]) 4 :=
  ⟨by decide, exStar_crs, checkSym_sound exStar_crs (by decide), Or.inr exLawful, rfl, rfl, rfl, rfl, rfl, 2, by decide⟩

/-- **C70 fails for cells tied in the choice of the next cell of a line**, even if all priorities are
different: the tie goes to the lower number, not to the higher priority.  Here cells 1 and 2 are
swapped: the line of the first call has three cells, that of the second two. -/
theorem C70_line_ties_counterexample :
    ValidMesh (exStar [[0, 0], [1, 0], [0, 1], [-1, 0]] [4, 3, 2, 1]) 4 ∧ ValidMesh (exStar [[0, 0], [0, 1], [1, 0], [-1, 0]] [4, 2, 3, 1]) 4 ∧
      ValidParams exPlatform (exStar [[0, 0], [1, 0], [0, 1], [-1, 0]] [4, 3, 2, 1]) ∧
      BuildsLines (exStar [[0, 0], [1, 0], [0, 1], [-1, 0]] [4, 3, 2, 1]) 4 ∧ 
      Renumbered (swapCells 1 2) (exStar [[0, 0], [1, 0], [0, 1], [-1, 0]] [4, 3, 2, 1]) (exStar [[0, 0], [0, 1], [1, 0], [-1, 0]] [4, 2, 3, 1]) ∧
      agglomerateOneLevel exPlatform (exStar [[0, 0], [1, 0], [0, 1], [-1, 0]] [4, 3, 2, 1]) ⟨[], [], []⟩ =
        (⟨[0, 0, 1, 0], [0, 1], [0]⟩, .ok ()) ∧
      agglomerateOneLevel exPlatform (exStar [[0, 0], [0, 1], [1, 0], [-1, 0]] [4, 2, 3, 1]) ⟨[], [], []⟩ =
        (⟨[0, 0, 1, 2], [0, 1], [0]⟩, .ok ()) := by
  refine ⟨exStar_valid, exStar_valid', ⟨by decide, by decide, by decide, by decide, by decide, by decide, by decide, by decide,
    by decide⟩, ⟨rfl, rfl, by decide, ?_⟩, ?_, by decide +kernel, by decide +kernel⟩
  · intro _ _ i hi
    have key : ∀ i ∈ (exStar [[0, 0], [1, 0], [0, 1], [-1, 0]] [4, 3, 2, 1]).compliant, rowOf [0, 3, 4, 5, 6] [1, 2, 3, 0, 0, 0] i ≠ [] := by decide
    obtain ⟨j, hj⟩ := List.exists_mem_of_ne_nil _ (key i hi)
    exact ⟨j, adj_iff_rowOf.2 hj⟩
  · exact Renumbered.of_cells exStar_valid exStar_valid' (swap_out (by decide) (by decide)) (by decide) (by decide) (by decide) rfl

end CoMMA
