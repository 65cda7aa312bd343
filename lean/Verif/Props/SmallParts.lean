import Verif.Spec.SmallParts
import Verif.Props.CorrectedSize
/-! # C88: small parts of the mesh become one coarse cell -/

set_option linter.unusedSectionVars false

namespace CoMMA

section
variable {rp ci f s : List Nat} {n : Nat}

/-- a connected coarse cell that has a cell of the part lies in it -/
theorem PartOfMesh.holds (h : PartOfMesh n rp ci s) {k : Nat} (hc : ConnectedSet rp ci (fun i => f[i]? = some k)) {i : Nat} (hi : i ∈ s)
    (hk : f[i]? = some k) : ∀ j : Nat, f[j]? = some k → j ∈ s := by
  intro j hj
  obtain ⟨m, hw⟩ := hc i j hk hj
  have key : ∀ {m x y : Nat}, Walk (fun a b => Adj rp ci a b ∧ f[a]? = some k ∧ f[b]? = some k) m x y → x ∈ s → y ∈ s := by
    intro m x y hw
    induction hw with
    | nil => exact id
    | step _ hr ih => exact fun hx => h.closed _ (ih hx) _ hr.1
  exact key hw hi

/-- a part of at most `mn` cells is one coarse cell, if coarse cells are connected and those of less than `mn` cells have no
neighbours of larger index -/
theorem PartOfMesh.whole (h : PartOfMesh n rp ci s) {mn : Int} (hsize : (s.length : Int) ≤ mn) (hlen : f.length = n)
    (hc : ∀ i k, i ∈ s → f[i]? = some k → ConnectedSet rp ci (fun i => f[i]? = some k))
    (hmin : ∀ x y kx ky : Nat, x ∈ s → f[x]? = some kx → f[y]? = some ky → (f.count kx : Int) < mn → Adj rp ci x y → ky ≤ kx) :
    ∃ k, ∀ i : Nat, f[i]? = some k ↔ i ∈ s := by
  -- the smallest index in the part
  obtain ⟨k, ⟨i, hi, hk⟩, hk2⟩ : ∃ k, (∃ i ∈ s, f[i]? = some k) ∧ ∀ j ∈ s, ∀ l, f[j]? = some l → k ≤ l := by
    obtain ⟨i0, hi0⟩ := List.exists_mem_of_ne_nil _ h.nonempty
    have hex : ∃ k, ∃ i ∈ s, f[i]? = some k := ⟨_, i0, hi0, List.getElem?_eq_getElem (by rw [hlen]; exact h.cells i0 hi0)⟩
    classical
    refine ⟨Nat.find hex, Nat.find_spec hex, fun j hj l hl => Nat.find_min' hex ⟨j, hj, hl⟩⟩
  have hin := h.holds (hc i k hi hk) hi hk
  refine ⟨k, fun j => ⟨hin j, fun hj => ?_⟩⟩
  by_cases hsm : (f.count k : Int) < mn
  · obtain ⟨m, hw⟩ := h.connected i j hi hj
    have key : ∀ {m x y : Nat}, Walk (fun a b => Adj rp ci a b ∧ a ∈ s ∧ b ∈ s) m x y → f[x]? = some k → f[y]? = some k := by
      intro m x y hw
      induction hw with
      | nil => exact id
      | @step m x y z _ hr ih =>
        intro hx
        obtain ⟨l, hl⟩ : ∃ l, f[z]? = some l := ⟨_, List.getElem?_eq_getElem (by rw [hlen]; exact h.cells _ hr.2.2)⟩
        have h1 := hmin _ _ _ _ hr.2.1 (ih hx) hl hsm hr.1
        have h2 := hk2 _ hr.2.2 _ hl
        rw [hl, show l = k by omega]
    exact key hw hk
  · -- as many cells as the part has
    by_contra hn
    have hsub : ∀ x ∈ cellsOf f k, x ∈ s.erase j := by
      intro x hx
      rw [mem_cellsOf] at hx
      exact (List.mem_erase_of_ne (by rintro rfl; exact hn hx)).2 (hin x hx)
    have hle := (List.subperm_of_subset (nodup_cellsOf f k) hsub).length_le
    rw [length_cellsOf, List.length_erase_of_mem hj] at hle
    have := List.length_pos_of_mem hj
    omega

/-- correction does not change a coarse cell that is a whole part -/
theorem PartOfMesh.corrected (h : PartOfMesh n rp ci s) {m : Nat} {f0 : List Nat} (hap : SinglesApart rp ci f0 m)
    (hcor : CorrectionOf rp ci m f0 f) {k0 : Nat} (h0 : ∀ i : Nat, f0[i]? = some k0 ↔ i ∈ s)
    (hc : ∀ i k, i ∈ s → f[i]? = some k → ConnectedSet rp ci (fun i => f[i]? = some k)) :
    ∃ k, ∀ i : Nat, f[i]? = some k ↔ i ∈ s := by
  obtain ⟨i0, hi0⟩ := List.exists_mem_of_ne_nil _ h.nonempty
  obtain ⟨f1, hmv, hlen, heq⟩ := MovedOnce.corrected hap hcor
  -- no cell of the part moves
  have hstay : ∀ i ∈ s, f1[i]? = some k0 := by
    intro i hi
    have hi0 := (h0 i).2 hi
    have hil : i < f1.length := by rw [hmv.1]; exact (List.getElem?_eq_some_iff.1 hi0).1
    obtain ⟨l, hl⟩ : ∃ l, f1[i]? = some l := ⟨_, List.getElem?_eq_getElem hil⟩
    rcases hmv.2 i l hl with h1 | ⟨_, _, _, y, hy1, hy2⟩
    · rw [hi0] at h1; cases h1; exact hl
    · have h3 := (h0 y).2 (h.closed i hi y hy1)
      rw [hy2] at h3
      cases h3
      exact hl
  have hil : i0 < f.length := by rw [hlen]; exact (List.getElem?_eq_some_iff.1 (hstay i0 hi0)).1
  obtain ⟨k, hk⟩ : ∃ k, f[i0]? = some k := ⟨_, List.getElem?_eq_getElem hil⟩
  refine ⟨k, fun j => ⟨h.holds (hc i0 k hi0 hk) hi0 hk j, fun hj => ?_⟩⟩
  rw [← hk, heq, hstay j hj, hstay i0 hi0]

end

variable {W : Type} [Num W]

/-- **C04** (two small coarse cells) Without correction, two coarse cells with fewer than
`min_card` cells each have no face in common. -/
theorem C04_apart {P : Platform} {a : Args W} {o : Outs} {n : Nat} (hm : ValidMesh a n) (hp : ValidParams P a)
    (hcor : a.correction = false) (hoff : WithoutLines a o) {x y kx ky : Nat}
    (hx : (agglomerateOneLevel P a o).1.fcToCc[x]? = some kx) (hy : (agglomerateOneLevel P a o).1.fcToCc[y]? = some ky)
    (hsx : ((agglomerateOneLevel P a o).1.fcToCc.count kx : Int) < a.minCard)
    (hsy : ((agglomerateOneLevel P a o).1.fcToCc.count ky : Int) < a.minCard) (hne : kx ≠ ky) : ¬ Adj a.rowPtr a.colInd x y := by
  intro hadj
  have h1 := C04_min_card hm hp hcor hoff hx hy hsx hadj
  have h2 := C04_min_card hm hp hcor hoff hy hx hsy (hm.sym _ _ hadj)
  omega

/-- **C88** (without lines) A connected part of the mesh with at most `min_card` cells becomes
one coarse cell, with and without correction of single cells. -/
theorem C88_isotropic {P : Platform} {a : Args W} {o : Outs} {n : Nat} (hm : ValidMesh a n) (hp : ValidParams P a)
    (hs : CorrectsSingletons a) (hoff : WithoutLines a o) {s : List Nat} (hpart : PartOfMesh n a.rowPtr a.colInd s)
    (hsize : (s.length : Int) ≤ a.minCard) :
    ∃ f k, agglomerateOneLevel P a o = (⟨f, o.linesIdx, o.lines⟩, .ok ()) ∧ ∀ i : Nat, f[i]? = some k ↔ i ∈ s := by
  have plain : ∀ {b : Args W}, ValidMesh b n → ValidParams P b → b.correction = false → WithoutLines b o →
      PartOfMesh n b.rowPtr b.colInd s → (s.length : Int) ≤ b.minCard →
      ∃ f k, agglomerateOneLevel P b o = (⟨f, o.linesIdx, o.lines⟩, .ok ()) ∧ ∀ i : Nat, f[i]? = some k ↔ i ∈ s := by
    intro b hm hp hcor hoff hpart hsize
    have hs : CorrectsSingletons b := fun h => by rw [hcor] at h; cases h
    obtain ⟨f, e, hlen⟩ := C01_total hm hp hs hoff
    have hmin := @C04_min_card _ _ _ _ _ _ hm hp hcor hoff
    have hcon := C05_connected hm hp hs hoff
    rw [e] at hmin hcon
    obtain ⟨k, hk⟩ := hpart.whole hsize hlen (fun _ k _ _ => hcon k) (fun x y kx ky _ hx hy h1 h2 => hmin hx hy h1 h2)
    exact ⟨f, k, e, hk⟩
  by_cases hcor : a.correction = true
  · obtain ⟨f, f0, e1, e2, l1, l2, h1, _, _⟩ := C10_only_merges hm hp hcor hs hoff
    obtain ⟨g, k0, e3, h0⟩ := plain (b := { a with correction := false }) { hm with } { hp with } rfl hoff hpart hsize
    rw [e2] at e3
    cases e3
    obtain ⟨i0, hi0⟩ := List.exists_mem_of_ne_nil _ hpart.nonempty
    have hcon := C05_connected hm hp hs hoff
    rw [e1] at hcon
    obtain ⟨k, hk⟩ : ∃ k, f[i0]? = some k := ⟨_, List.getElem?_eq_getElem (by rw [l1]; exact hpart.cells _ hi0)⟩
    refine ⟨f, k, e1, fun j => ⟨hpart.holds (hcon k) hi0 hk j, fun hj => ?_⟩⟩
    rw [← hk]
    exact h1 j i0 (hpart.cells _ hj) (hpart.cells _ hi0) (by rw [(h0 j).2 hj, (h0 i0).2 hi0])
  · exact plain hm hp (by simpa using hcor) hoff hpart hsize

/-- **C88** (with lines) The same if no cell of the part is in a coarse cell made from a line. -/
theorem C88_call (hW : LawfulLt W) {P : Platform} {a : Args W} {o : Outs} {n : Nat} (hm : ValidMesh a n) (hp : ValidParams P a)
    (hs : CorrectsSingletons a) (hu : UniqueRows a.rowPtr a.colInd)
    (hl : NoSelfLoop a.rowPtr a.colInd) (hmode : ValidMode (graphOf a) a o n) (ho : ¬ WithoutLines a o)
    {s : List Nat} (hpart : PartOfMesh n a.rowPtr a.colInd s) (hsize : (s.length : Int) ≤ a.minCard) :
    ∃ f idx lines, agglomerateOneLevel P a o = (⟨f, idx, lines⟩, .ok ()) ∧
      ((∀ i ∈ s, ∀ k, f[i]? = some k → k ∉ lines) → ∃ k, ∀ i : Nat, f[i]? = some k ↔ i ∈ s) := by
  obtain ⟨fls, ⟨f, idx, lines⟩, _, e1, hres⟩ := C40_call hW hm hp hs hl hmode ho
  refine ⟨f, idx, lines, e1, fun hoff => ?_⟩
  have hcon : ∀ i k, i ∈ s → f[i]? = some k → ConnectedSet a.rowPtr a.colInd (fun i => f[i]? = some k) :=
    fun i k hi hk => hres.connected k (hoff i hi k hk)
  by_cases hcor : a.correction = true
  · obtain ⟨f', f0, idx', lines', e1', e2, hlines, hc⟩ := C39_call hW hm hp hcor hs hu hl hmode ho
    rw [e1] at e1'
    cases e1'
    obtain ⟨f', f0', idx', lines', e1', e2', hkept⟩ := C11_call hW hm hp hcor hs hl hmode ho
    rw [e1] at e1'
    rw [e2] at e2'
    cases e1'
    cases e2'
    have hm0 : ValidMesh { a with correction := false } n := { hm with }
    have hp0 : ValidParams P { a with correction := false } := { hp with }
    have hs0 : CorrectsSingletons { a with correction := false } := fun h => by cases h
    obtain ⟨fls, hres0⟩ : ∃ fls, AnisoResult { a with correction := false } n fls ⟨f0, idx, lines⟩ := by
      obtain ⟨ls, ⟨hb, hf⟩ | ⟨hg, hf⟩⟩ := hmode.withLines hW P hm hl ho
      · obtain ⟨fls, out, _, h2, h3, _⟩ := C40_built hW hm0 hp0 hs0 (o := o) { hb with } hf
        rw [e2] at h2
        cases h2
        exact ⟨fls, h3⟩
      · obtain ⟨out, h2, h3⟩ := C40_given hm0 hp0 hs0 (o := o) { hg with } hf
        rw [e2] at h2
        cases h2
        exact ⟨_, h3⟩
    have hmc := hp.minCard
    have hmem : ∀ k, lines.length ≤ k → k ∉ lines := by
      intro k hk hin
      rw [hlines, List.mem_range] at hin
      omega
    have hap : SinglesApart a.rowPtr a.colInd f0 lines.length := singlesApart hm.sym hl (fun x y kx ky hx hy hk h1 hadj =>
      hres0.min rfl x y kx ky hx hy (hmem kx hk) (by show (f0.count kx : Int) < a.minCard; omega) hadj)
    have hoff0 : ∀ i ∈ s, ∀ k, f0[i]? = some k → k ∉ lines := by
      intro i hi k hk hkl
      exact hoff i hi k ((hkept k hkl i).2 hk) hkl
    obtain ⟨k0, h0⟩ := hpart.whole (f := f0) hsize hres0.len (fun i k hi hk => hres0.connected k (hoff0 i hi k hk))
      (fun x y kx ky hxs hx hy h1 h2 => hres0.min rfl x y kx ky hx hy (hoff0 x hxs kx hx) h1 h2)
    exact hpart.corrected hap hc h0 hcon
  · exact hpart.whole hsize hres.len hcon (fun x y kx ky hxs hx hy h1 h2 =>
      hres.min (by simpa using hcor) x y kx ky hx hy (hoff x hxs kx hx) h1 h2)

/-- three cells in a row and, apart from them, two cells -/
def exApart : Args Int :=
  { exArgs3 with
    rowPtr := [0, 1, 3, 4, 5, 6], colInd := [1, 0, 2, 1, 4, 3], values := List.replicate 6 1, volumes := List.replicate 5 1,
    centers := [[0, 0], [1, 0], [2, 0], [9, 0], [9, 1]], prio := [5, 4, 3, 2, 1], nBnd := [3, 2, 3, 3, 3] }

theorem exApart_crs : ValidCRS 5 exApart.rowPtr exApart.colInd := checkCRS_sound (by decide)

theorem exApart_valid : ValidMesh exApart 5 :=
  ⟨by decide, exApart_crs, checkSym_sound exApart_crs (by decide), Or.inr exLawful, rfl, rfl, rfl, rfl, rfl, 2, by decide⟩

theorem exApart_params : ValidParams exPlatform exApart :=
  ⟨by decide, by decide, by decide, by decide, by decide, by decide, by decide, by decide, by decide⟩

theorem exApart_part : PartOfMesh 5 exApart.rowPtr exApart.colInd [3, 4] where
  nonempty := by decide
  nodup := by decide
  cells := by decide
  connected := by
    intro x y hx hy
    have hb : ∀ a ∈ [3, 4], ∀ b ∈ [3, 4], a = b ∨ b ∈ rowOf exApart.rowPtr exApart.colInd a := by decide
    rcases hb x hx y hy with rfl | h
    · exact ⟨0, .nil _⟩
    · exact ⟨1, .step (.nil _) ⟨adj_iff_rowOf.2 h, hx, hy⟩⟩
  closed := by
    intro i hi j hj
    have hb : ∀ a ∈ [3, 4], ∀ b ∈ rowOf exApart.rowPtr exApart.colInd a, b ∈ [3, 4] := by decide
    exact hb i hi j (adj_iff_rowOf.1 hj)

example := C88_isotropic (P := exPlatform) (o := ⟨[], [], []⟩) exApart_valid exApart_params (fun _ => Or.inl rfl) (Or.inl rfl) exApart_part
  (by decide)

/-- the same with the line of the first two cells -/
def exApartLine : Args Int := { exApart with isAniso := true }

theorem exApartLine_gives : GivesLines exApartLine ⟨[], [0, 2], [0, 1]⟩ 5 [[0, 1]] :=
  ⟨rfl, rfl, ⟨by decide, by decide⟩, by decide, by decide, by decide⟩

theorem exApartLine_mode : ValidMode (graphOf exApartLine) exApartLine ⟨[], [0, 2], [0, 1]⟩ 5 :=
  ⟨Or.inr (Or.inr ⟨_, exApartLine_gives⟩), fun _ _ => by intro l _ m h; cases h⟩

example := C88_call (P := exPlatform) exLawful (a := exApartLine) { exApart_valid with } { exApart_params with } (fun _ => Or.inl rfl)
  (checkUniq_sound exApart_crs (by decide)) (checkNoLoop_sound exApart_crs (by decide)) exApartLine_mode
  (withLines_iff.2 (by decide)) exApart_part (by decide)

/-- here the part is a coarse cell apart from that of the line -/
example : agglomerateOneLevel exPlatform exApartLine ⟨[], [0, 2], [0, 1]⟩ = (⟨[0, 0, 1, 2, 2], [0, 1], [0]⟩, .ok ()) := by
  decide +kernel

/-- cells `2` and `4` are both alone and have no face in common -/
example : ¬ Adj exTwin.rowPtr exTwin.colInd 2 4 :=
  C04_apart (P := exPlatform) (a := { exTwin with correction := false }) (o := ⟨[], [], []⟩) { exTwin_valid with } { exTwin_params with } rfl
    (Or.inl rfl) (kx := 1) (ky := 3) (by rw [C87_tight.2.2.1]; decide) (by rw [C87_tight.2.2.1]; decide)
    (by rw [C87_tight.2.2.1]; decide) (by rw [C87_tight.2.2.1]; decide) (by decide)

end CoMMA
