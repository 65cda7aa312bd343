import Verif.Lemmas.Turn
import Verif.Lemmas.CoarseGraph
/-! # The coarse graph of a turned mesh -/

set_option linter.unusedSectionVars false

namespace CoMMA

variable {W : Type} [Num W] {D : Nat} {φ : List W → List W}

theorem addCenter_closed {v : W} {x c : List W} (hx : x.length = D) (hc : c.length = D) :
    addCenter v x D c = .ok (List.zipWith Num.add c (x.map (fun y => Num.mul v y))) := by
  obtain ⟨r, h1, h2, h3⟩ := (addCenter_ok (v := v) hx hc).eq
  rw [h1]
  congr 1
  apply List.ext_getElem
  · simp [h2, hx, hc]
  · intro j hj1 hj2
    have := h3 j (by omega)
    rw [List.getElem?_eq_getElem hj1] at this
    simpa using this

/-- what is gathered, turned -/
def Gather.turned (φ : List W → List W) (s : Gather W) : Gather W := { s with centers := s.centers.map φ }

/-- all points have `D` coordinates -/
def AllDim (D : Nat) (l : List (List W)) : Prop := ∀ c ∈ l, c.length = D

theorem error_bind' {α β : Type} (e : Err) (f : α → M β) : ((Except.error e : M α) >>= f) = .error e := rfl

theorem rd_mapped {α β : Type} (f : α → β) (l : List α) (i : Nat) : rd (l.map f) i = (rd l i).map f := by
  unfold rd
  rw [List.getElem?_map]
  cases l[i]? <;> rfl

theorem wr_mapped {α β : Type} (f : α → β) (l : List α) (i : Nat) (x : α) : wr (l.map f) i (f x) = (wr l i x).map (List.map f) := by
  unfold wr
  rw [List.length_map]
  split
  · rw [← List.map_set]; rfl
  · rfl

theorem gatherCell_turned (ht : TurnsSpace D φ) {g : MeshData W} (hg : AllDim D g.centers) (f2c : List Nat) (s : Gather W)
    (hs : AllDim D s.centers) (fc : Nat) :
    gatherCell (g.turned φ) f2c D (s.turned φ) fc = (gatherCell g f2c D s fc).map (Gather.turned φ) ∧
      ∀ s', gatherCell g f2c D s fc = .ok s' → AllDim D s'.centers := by
  unfold gatherCell
  show (do
    let cc ← rd f2c fc
    let fs ← rd s.c2f cc
    let c2f ← wr s.c2f cc (fs.insert fc)
    let v ← rd g.volumes fc
    let cv ← rd s.volumes cc
    let volumes ← wr s.volumes cc (Num.add cv v)
    let x ← rd (g.centers.map φ) fc
    let c ← rd (s.centers.map φ) cc
    let c ← addCenter v x D c
    let centers ← wr (s.centers.map φ) cc c
    pure (⟨c2f, volumes, centers⟩ : Gather W)) = _ ∧ _
  cases h1 : rd f2c fc with
  | error e => exact ⟨rfl, nofun⟩
  | ok cc =>
    simp only [ok_bind]
    cases h2 : rd s.c2f cc with
    | error e => exact ⟨rfl, nofun⟩
    | ok fs =>
      simp only [ok_bind]
      cases h3 : wr s.c2f cc (fs.insert fc) with
      | error e => exact ⟨rfl, nofun⟩
      | ok c2f =>
        simp only [ok_bind]
        cases h4 : rd g.volumes fc with
        | error e => exact ⟨rfl, nofun⟩
        | ok v =>
          simp only [ok_bind]
          cases h5 : rd s.volumes cc with
          | error e => exact ⟨rfl, nofun⟩
          | ok cv =>
            simp only [ok_bind]
            cases h6 : wr s.volumes cc (Num.add cv v) with
            | error e => exact ⟨rfl, nofun⟩
            | ok vol =>
              simp only [ok_bind, rd_mapped]
              cases h7 : rd g.centers fc with
              | error e => exact ⟨rfl, nofun⟩
              | ok x =>
                cases h8 : rd s.centers cc with
                | error e => exact ⟨rfl, nofun⟩
                | ok c =>
                  have lx := hg x (List.mem_of_getElem? (rd_ok.1 h7))
                  have lc := hs c (List.mem_of_getElem? (rd_ok.1 h8))
                  simp only [Except.map, ok_bind]
                  rw [addCenter_closed lx lc, addCenter_closed (ht.length x lx) (ht.length c lc), ← ht.times x v lx,
                    ← ht.add c _ lc (by simp [lx]), ok_bind, ok_bind, wr_mapped]
                  cases h9 : wr s.centers cc (List.zipWith Num.add c (x.map (fun y => Num.mul v y))) with
                  | error e => exact ⟨rfl, nofun⟩
                  | ok cs =>
                    refine ⟨rfl, ?_⟩
                    intro s' h
                    cases h
                    unfold wr at h9
                    split at h9
                    · cases h9
                      intro d hd
                      rcases List.mem_or_eq_of_mem_set hd with h | rfl
                      · exact hs d h
                      · simp [lx, lc]
                    · cases h9

theorem gather_turned (ht : TurnsSpace D φ) {g : MeshData W} (hg : AllDim D g.centers) (f2c l : List Nat) :
    ∀ s : Gather W, AllDim D s.centers →
      l.foldlM (gatherCell (g.turned φ) f2c D) (s.turned φ) = (l.foldlM (gatherCell g f2c D) s).map (Gather.turned φ) ∧
      ∀ s', l.foldlM (gatherCell g f2c D) s = .ok s' → AllDim D s'.centers := by
  induction l with
  | nil =>
    intro s hs
    exact ⟨rfl, fun s' h => by cases h; exact hs⟩
  | cons fc l ih =>
    intro s hs
    rw [List.foldlM_cons, List.foldlM_cons]
    obtain ⟨h1, h2⟩ := gatherCell_turned ht hg f2c s hs fc
    rw [h1]
    cases h3 : gatherCell g f2c D s fc with
    | error e => exact ⟨rfl, nofun⟩
    | ok s1 =>
      simp only [Except.map, ok_bind]
      exact ih s1 (h2 s1 h3)

theorem coarseCell_turned (ht : TurnsSpace D φ) (g : MeshData W) (f2c : List Nat) (z : Int) {gt : Gather W} (hg : AllDim D gt.centers)
    (out : MeshData W) (cc : Nat) :
    coarseCell (g.turned φ) f2c z (gt.turned φ) (out.turned φ) cc = (coarseCell g f2c z gt out cc).map (MeshData.turned φ) := by
  unfold coarseCell
  show (do
    let fcs ← rd gt.c2f cc
    let c ← rd (gt.centers.map φ) cc
    let s ← fcs.elems.foldlM (addFine g f2c fcs) (z, Num.lmin, NMap.empty)
    let last ← rd out.adjIdx (out.adjIdx.length - 1)
    pure ({
      adjIdx := out.adjIdx ++ [last + s.2.2.size]
      adj := out.adj ++ s.2.2.keys
      weights := out.weights ++ s.2.2.entries.map Prod.snd
      volumes := out.volumes
      centers := out.centers.map φ ++ [c.map (fun x => Num.mul x (Num.div (Num.ofNat 1) (Num.ofNat fcs.card)))]
      priority := out.priority ++ [s.2.1]
      nBnd := out.nBnd ++ [s.1] } : MeshData W)) = _
  cases h1 : rd gt.c2f cc with
  | error e => rfl
  | ok fcs =>
    simp only [ok_bind, rd_mapped]
    cases h2 : rd gt.centers cc with
    | error e => rfl
    | ok c =>
      have lc := hg c (List.mem_of_getElem? (rd_ok.1 h2))
      simp only [Except.map, ok_bind]
      cases h3 : fcs.elems.foldlM (addFine g f2c fcs) (z, Num.lmin, NMap.empty) with
      | error e => rfl
      | ok s =>
        simp only [ok_bind]
        cases h4 : rd out.adjIdx (out.adjIdx.length - 1) with
        | error e => rfl
        | ok last =>
          simp only [ok_bind, ← ht.timesRight c _ lc]
          show Except.ok _ = Except.ok _
          unfold MeshData.turned
          simp

theorem coarse_turned (ht : TurnsSpace D φ) (g : MeshData W) (f2c : List Nat) (z : Int) {gt : Gather W} (hg : AllDim D gt.centers)
    (l : List Nat) : ∀ out : MeshData W,
      l.foldlM (coarseCell (g.turned φ) f2c z (gt.turned φ)) (out.turned φ) =
        (l.foldlM (coarseCell g f2c z gt) out).map (MeshData.turned φ) := by
  induction l with
  | nil => intro out; rfl
  | cons cc l ih =>
    intro out
    rw [List.foldlM_cons, List.foldlM_cons, coarseCell_turned ht g f2c z hg out cc]
    cases h3 : coarseCell g f2c z gt out cc with
    | error e => rfl
    | ok s1 =>
      simp only [Except.map, ok_bind]
      exact ih s1

/-- the coarse graph of the turned mesh is the turned coarse graph, whatever the mesh and the map -/
theorem buildCoarseGraph_turned (ht : TurnsSpace D φ) {g : MeshData W} (hg : AllDim D g.centers) (z : Int) (f2c : List Nat) :
    buildCoarseGraph z f2c (g.turned φ) = (buildCoarseGraph z f2c g).map (MeshData.turned φ) := by
  unfold buildCoarseGraph
  cases h1 : maxIndex f2c with
  | error e => rfl
  | ok mx =>
    show (rd (g.centers.map φ) 0 >>= _) = _
    simp only [ok_bind, rd_mapped]
    cases h2 : rd g.centers 0 with
    | error e => rfl
    | ok c0 =>
      have l0 := hg c0 (List.mem_of_getElem? (rd_ok.1 h2))
      simp only [Except.map, ok_bind, l0, ht.length c0 l0]
      have hs : AllDim D (List.replicate (mx + 1) (List.replicate D (Num.ofNat 0 : W))) := by
        intro c hc
        rw [List.eq_of_mem_replicate hc, List.length_replicate]
      have hz : (⟨List.replicate (mx + 1) NSet.empty, List.replicate (mx + 1) (Num.ofNat 0),
          List.replicate (mx + 1) (List.replicate D (Num.ofNat 0))⟩ : Gather W) =
          Gather.turned φ ⟨List.replicate (mx + 1) NSet.empty, List.replicate (mx + 1) (Num.ofNat 0),
            List.replicate (mx + 1) (List.replicate D (Num.ofNat 0))⟩ := by
        unfold Gather.turned
        simp only [List.map_replicate, ht.zero]
      obtain ⟨h3, h4⟩ := gather_turned ht hg f2c (List.range f2c.length) (⟨List.replicate (mx + 1) NSet.empty, List.replicate (mx + 1) (Num.ofNat 0),
        List.replicate (mx + 1) (List.replicate D (Num.ofNat 0))⟩ : Gather W) hs
      rw [← hz] at h3
      rw [h3]
      cases h5 : (List.range f2c.length).foldlM (gatherCell g f2c D) (⟨List.replicate (mx + 1) NSet.empty, List.replicate (mx + 1) (Num.ofNat 0),
          List.replicate (mx + 1) (List.replicate D (Num.ofNat 0))⟩ : Gather W) with
      | error e => rfl
      | ok gt =>
        simp only [Except.map, ok_bind]
        exact coarse_turned ht g f2c z (h4 gt h5) (List.range (mx + 1)) ⟨[0], [], [], gt.volumes, [], [], []⟩

end CoMMA
