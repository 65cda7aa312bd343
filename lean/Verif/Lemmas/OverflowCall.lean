import Verif.Lemmas.OverflowCorrect
import Verif.Lemmas.AnisoOutcome
/-! # Bounds of the integers of a whole call -/

namespace CoMMA

variable {W : Type} [Num W]

theorem tagOneC_eq {g : Graph W} (hv : ValidCRS g.nbC g.rowPtr g.colInd) {mx : Int} (hR : Room g mx) {prio : List W}
    {coupling : Coupling} {preserving : Nat} {thr : W} (s : TagSt W) {i : Nat} (hi : i < g.nbC) :
    tagOneC mx g prio coupling preserving thr s i = tagOne g prio coupling preserving thr s i := by
  have hroom := hR.room
  unfold tagOneC tagOne
  split
  · rfl
  · have hd : deg g i ≤ g.colInd.length := deg_le hv hi
    have hc : (rowL g.rowPtr g.colInd i).count i ≤ deg g i := List.count_le_length
    rw [neighs_eq hv hi, ok_bind, fits_ok, ok_bind]
    intro x hx
    obtain ⟨k, hk, rfl⟩ := List.mem_map.1 hx
    have hk := List.mem_range.1 hk
    have hlen : (rowL g.rowPtr g.colInd i).length = deg g i := rfl
    omega

theorem tagCellsC_eq {g : Graph W} (hv : ValidCRS g.nbC g.rowPtr g.colInd) {mx : Int} (hR : Room g mx) (h : Hash) {prio : List W}
    {coupling : Coupling} {preserving : Nat} {thr : W} (maxW : List W) (isAniso : List Bool) (hc : ∀ i ∈ g.compliant, i < g.nbC) :
    tagCellsC mx g h prio coupling preserving thr maxW isAniso = g.tagCells h prio coupling preserving thr maxW isAniso := by
  unfold tagCellsC Graph.tagCells
  rw [foldlM_congr_mem (fun i hi s => tagOneC_eq hv hR s (hc i (NSet.mem_elems.1 ((h.perm 6 _).mem_iff.1 hi))))]

theorem buildLinesC_eq {g : Graph W} (hv : ValidCRS g.nbC g.rowPtr g.colInd) {mx : Int} (hR : Room g mx) (h : Hash) {prio : List W}
    {coupling : Coupling} {force : Bool} {thr : W} (hc : ∀ i ∈ g.compliant, i < g.nbC) :
    buildLinesC mx g h prio coupling force thr = buildLines g h prio coupling force thr := by
  unfold buildLinesC
  rw [tagCellsC_eq hv hR h _ _ hc]
  unfold buildLines
  cases g.tagCells h prio coupling 0 thr (List.replicate g.nbC (Num.ofNat 0)) (List.replicate g.nbC false) with
  | ok r => rfl
  | error e => rfl

theorem room_of {a : Args W} {n : Nat} (hm : ValidMesh a n) {P : Platform} (hp : ValidParams P a)
    (hr : 3 * (a.colInd.length : Int) + 5 * n + 8 ≤ P.intMax) : Room (graphOf a) P.intMax where
  bnd := by
    intro b hb
    have := mem_clampBnd hb
    rcases hp.dim with h | h <;> rw [h] at this <;> simp at this <;> omega
  room := by rw [graphOf_nbC hm]; exact hr

theorem isoPhaseC_eq {P : Platform} {a : Args W} {o : Outs} {n : Nat} (hm : ValidMesh a n) (hp : ValidParams P a)
    (hr : 3 * (a.colInd.length : Int) + 5 * n + 8 ≤ P.intMax) (hmax : a.maxCard ≤ P.intMax)
    {c : PoolCfg W} {k : Cont} {p : Pool} {idx lines : List Nat} (h : Start P a o c n k p idx lines) :
    isoPhaseC P a c k p = isoPhase P a c k p := by
  have hn : (isoEnvOf P a c).g.nbC = n := graphOf_nbC hm
  have hE := isoInput hm hp h.made
  have hR := room_of hm hp hr
  have hcrs : ValidCRS (graphOf a).nbC (graphOf a).rowPtr (graphOf a).colInd := hE.crs
  obtain ⟨D, hD⟩ := (meshSizes hm).coords
  have h1 := hp.minCard
  have h2 := hp.goalCard
  have h3 := hp.maxCard
  have hrun : isoRunC P.intMax (isoEnvOfC P a c) k p = isoRun (isoEnvOf P a c) k p := by
    refine isoRunC_eq hE (ar := arOfC P.intMax (graphOf a) P.hash a.aspect) (arOfC_safe hcrs (meshSizes hm) P.hash a.aspect hD hR) hR
      rfl (fun i f cc => arOfC_sub _ _ _ _ i f cc) ?_ ?_ (by rw [hn]; exact h.cinv) (by rw [hn]; exact h.pool)
    · intro i r hr
      unfold arOfC at hr
      simp only at hr
      obtain ⟨l, _, hr⟩ := bind_ok_iff.1 hr
      obtain ⟨u, _, hr⟩ := bind_ok_iff.1 hr
      exact hr
    · show ((cardOr 5 10 a.dim a.maxCard : Nat) : Int) ≤ P.intMax
      rw [cardOr_pos (by omega)]; omega
  unfold isoPhaseC isoPhase
  refine bind_congr_ok (fun _ _ => ?_)
  rw [hrun]
  refine bind_congr_inv (isoRun_inv hE (by rw [hn]; exact h.cinv) (by rw [hn]; exact h.pool)) (fun r hr => ?_)
  unfold correctIfC correctIf
  split
  · exact correctC_eq hcrs hR (apart_of_cinv hr.1.cinv)
  · rfl

theorem runPhasesC_eq {P : Platform} {a : Args W} {o : Outs} {n : Nat} (hm : ValidMesh a n) (hp : ValidParams P a)
    (hr : 3 * (a.colInd.length : Int) + 5 * n + 8 ≤ P.intMax) (hmax : a.maxCard ≤ P.intMax)
    (hc : ¬ WithoutLines a o → a.buildLines = true → ∀ i ∈ a.compliant, i < n)
    {c : PoolCfg W} {k : Cont} {p : Pool} {idx lines : List Nat} (h : Start P a o c n k p idx lines) :
    runPhasesC P a o c = runPhases P a o c := by
  have hR := room_of hm hp hr
  have hcrs : ValidCRS (graphOf a).nbC (graphOf a).rowPtr (graphOf a).colInd := (isoInput hm hp h.made).crs
  have hph : anisoPhaseC P a o c = anisoPhase P a o c := by
    unfold anisoPhaseC anisoPhase
    split
    · rename_i hon
      have : fineLinesC P a o = fineLines P a o := by
        unfold fineLinesC fineLines
        split
        · rename_i hb
          refine buildLinesC_eq hcrs hR _ (fun i hi => ?_)
          rw [graphOf_nbC hm]
          exact hc (withLines_iff.2 hon) hb i (NSet.mem_ofList.1 hi)
        · rfl
      rw [this]
    · rfl
  unfold runPhasesC runPhases
  rw [hph, h.eq]
  simp only
  rw [isoPhaseC_eq hm hp hr hmax h]
  rfl

end CoMMA
