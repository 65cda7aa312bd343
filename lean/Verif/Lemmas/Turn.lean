import Verif.Props.SameData
/-! # Turned meshes: directions of the lines and couplings -/

set_option linter.unusedSectionVars false

namespace CoMMA

variable {W : Type} [Num W] {D : Nat} {φ : List W → List W} {g g' : Graph W}

theorem TurnsSpace.dist2 (h : TurnsSpace D φ) {c d : List W} (hc : c.length = D) (hd : d.length = D) :
    CoMMA.dist2 (φ c) (φ d) = CoMMA.dist2 c d := by
  have := h.dist hc hd
  rw [sqDist_eq (by rw [h.length c hc, h.length d hd]), sqDist_eq (by rw [hc, hd])] at this
  exact Except.ok.inj this

theorem TurnsSpace.vec (h : TurnsSpace D φ) {c d : List W} (hc : c.length = D) (hd : d.length = D) :
    vecFrom (φ c) (φ d) = φ (vecFrom c d) := by
  have key : ∀ a b : List W, vecFrom a b = List.zipWith Num.sub b a := by
    intro a b
    unfold vecFrom
    rw [List.zipWith_comm]
  rw [key, key, h.sub d c hd hc]

theorem turnVec_length {c d : List W} (hc : c.length = D) (hd : d.length = D) : (vecFrom c d).length = D := by
  simp [vecFrom, hc, hd]

theorem TurnsSpace.unit (h : TurnsSpace D φ) {c d : List W} (hc : c.length = D) (hd : d.length = D) :
    unitFrom (φ c) (φ d) = φ (unitFrom c d) := by
  have hl := turnVec_length hc hd
  unfold unitFrom
  rw [h.vec hc hd, h.scalar _ _ hl hl, h.timesRight _ _ hl]

theorem turnUnit_length {c d : List W} (hc : c.length = D) (hd : d.length = D) : (unitFrom c d).length = D := by
  unfold unitFrom
  rw [List.length_map, turnVec_length hc hd]

theorem Turned.getElem? {cs cs' : List (List W)} (h : Turned D φ cs cs') (i : Nat) : cs'[i]? = cs[i]?.map φ := by
  rw [h.1, List.getElem?_map]

theorem Turned.steps (ht : TurnsSpace D φ) (h : Turned D φ g.centers g'.centers) :
    StepsAlike (fun d d' => d.length = D ∧ d' = φ d) g g' where
  step := by
    rintro i n d ⟨ci, cn, h1, h2, rfl⟩
    have l1 := h.2 ci (List.mem_of_getElem? h1)
    have l2 := h.2 cn (List.mem_of_getElem? h2)
    exact ⟨_, ⟨turnUnit_length l2 l1, rfl⟩, φ ci, φ cn, by rw [h.getElem?, h1]; rfl, by rw [h.getElem?, h2]; rfl, (ht.unit l2 l1).symm⟩
  back := by
    rintro i n d ⟨ci, cn, h1, h2, rfl⟩
    rw [h.getElem?] at h1 h2
    obtain ⟨c, k1, rfl⟩ := Option.map_eq_some_iff.1 h1
    obtain ⟨e, k2, rfl⟩ := Option.map_eq_some_iff.1 h2
    have l1 := h.2 c (List.mem_of_getElem? k1)
    have l2 := h.2 e (List.mem_of_getElem? k2)
    exact ⟨_, ⟨turnUnit_length l2 l1, ht.unit l2 l1⟩, c, e, k1, k2, rfl⟩
  cos := by
    rintro d _ e _ ⟨h1, rfl⟩ ⟨h2, rfl⟩
    exact ht.scalar d e h1 h2
  neg := by
    rintro d _ ⟨h1, rfl⟩
    exact ⟨by rw [List.length_map, h1], (ht.neg d h1).symm⟩

theorem Turned.coupling (ht : TurnsSpace D φ) (h : Turned D φ g.centers g'.centers) (h1 : g'.rowPtr = g.rowPtr)
    (h2 : g'.colInd = g.colInd) (h3 : g'.values = g.values) (coupling : Coupling) : CouplingOf g' coupling = CouplingOf g coupling := by
  funext i j r
  unfold CouplingOf FaceAt
  rw [h1, h2, h3]
  cases coupling with
  | maxWeight => rfl
  | unknown => rfl
  | minDistance =>
    simp only
    refine propext (exists_congr fun k => and_congr Iff.rfl ?_)
    rw [h.getElem?, h.getElem?]
    constructor
    · rintro ⟨ci, cn, g1, g2, g3⟩
      obtain ⟨c, k1, rfl⟩ := Option.map_eq_some_iff.1 g1
      obtain ⟨e, k2, rfl⟩ := Option.map_eq_some_iff.1 g2
      rw [ht.dist2 (h.2 c (List.mem_of_getElem? k1)) (h.2 e (List.mem_of_getElem? k2))] at g3
      exact ⟨c, e, k1, k2, g3⟩
    · rintro ⟨c, e, g1, g2, g3⟩
      rw [← ht.dist2 (h.2 c (List.mem_of_getElem? g1)) (h.2 e (List.mem_of_getElem? g2))] at g3
      exact ⟨φ c, φ e, by rw [g1]; rfl, by rw [g2]; rfl, g3⟩

end CoMMA
