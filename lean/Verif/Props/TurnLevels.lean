import Verif.Lemmas.TurnLevels
import Verif.Props.Turn
import Verif.Props.Levels
/-! # C83 for the coarse graph and for several levels -/

set_option linter.unusedSectionVars false

namespace CoMMA

variable {W : Type} [Num W] {D : Nat} {φ : List W → List W}

/-- **C83** (coarse graph) The coarse graph of the turned mesh is the turned coarse graph,
whatever the mesh and the map from fine to coarse cells. -/
theorem C83_coarse_graph (ht : TurnsSpace D φ) {g : MeshData W} (hg : ∀ c ∈ g.centers, c.length = D) (z : Int) (f2c : List Nat) :
    buildCoarseGraph z f2c { g with centers := g.centers.map φ } =
      (buildCoarseGraph z f2c g).map (fun g' => { g' with centers := g'.centers.map φ }) :=
  buildCoarseGraph_turned ht hg z f2c

/-- the coarse mesh has rows without repetitions and self-neighbours, and centers with as many
coordinates as the fine ones -/
theorem coarse_plain {g : MeshData W} {n : Nat} (hg : GoodMesh g n) {f2c : List Nat} (hf : f2c.length = n)
    {N : Nat} (hN : ∀ k, k ∈ f2c ↔ k < N) (hD : ∀ c ∈ g.centers, c.length = D) {z : Int} {g' : MeshData W}
    (h : buildCoarseGraph z f2c g = .ok g') :
    UniqueRows g'.adjIdx g'.adj ∧ NoSelfLoop g'.adjIdx g'.adj ∧ ∀ c ∈ g'.centers, c.length = D := by
  have hv := hg.validData
  have hpos : 0 < N := by
    have : 0 < f2c.length := by rw [hf]; exact hg.pos
    have := (hN f2c[0]).1 (List.getElem_mem this)
    omega
  have hcc : CoarseCount f2c N := ⟨fun k hk => (hN k).1 hk, (hN _).2 (by omega)⟩
  obtain ⟨out, h1, ⟨rows, h2⟩, _⟩ := (buildCoarseGraph_ok hv hf z hD hcc.1 hcc.2).eq
  rw [h] at h1
  cases h1
  refine ⟨h2.uniq, ?_, ?_⟩
  · intro i hi
    exact ((h2.adj_iff hv hf hcc.1 i i).1 hi).1 rfl
  · intro c hc
    rw [h2.centers] at hc
    obtain ⟨k, _, rfl⟩ := List.mem_map.1 hc
    simp [moments]

/-- **C83** (several levels) Turning the finest mesh turns all the meshes of the levels and
changes no map, if the settings of the levels do not depend on the positions of the centers. -/
theorem C83_levels {P : Platform} {z : Int} (hz : z ≤ 0) (hW : LawfulLt W)
    {above : Prop} (levels : List (MeshData W → Outs → Args W)) {n : Nat} {g : MeshData W} (hg : GoodMesh g n)
    (hu : UniqueRows g.adjIdx g.adj) (hl : NoSelfLoop g.adjIdx g.adj) (hD : ∀ c ∈ g.centers, c.length = D)
    (hab : above → PrioritiesAbove g) (ht : TurnsSpace D φ)
    (hblind : ∀ s ∈ levels, ∀ g' o' x, s { g' with centers := x } o' = s g' o')
    (hlev : ∀ s ∈ levels, ∀ g' o' n', GoodMesh g' n' → n' ≤ n → (above → PrioritiesAbove g') →
      KnownCall P ((s g' o').onMesh g') o' n' ∧
        ValidMode (graphOf ((s g' o').onMesh g')) ((s g' o').onMesh g') o' n') (o : Outs) :
    ∃ maps gN, runLevels P z levels g o = .ok (maps, gN) ∧
      runLevels P z levels { g with centers := g.centers.map φ } o = .ok (maps, { gN with centers := gN.centers.map φ }) := by
  induction levels generalizing n g o with
  | nil => exact ⟨[], g, rfl, rfl⟩
  | cons s r ih =>
    obtain ⟨hk, hmode⟩ := hlev s (by simp) g o n hg (Nat.le_refl n) hab
    obtain ⟨out, h1, h2, N, h3⟩ := hk.partition (hg.validMesh _)
    obtain ⟨g', h4, h5, h6, h7⟩ := C18_coarse_mesh hg h2 h3 hz
    obtain ⟨u1, u2, u3⟩ := coarse_plain hg h2 h3 hD h4
    obtain ⟨maps, gN, h8, h9⟩ := ih h5 u1 u2 u3 (fun h => h7 (hW.irrefl _) (hab h))
      (fun s hs => hblind s (List.mem_cons_of_mem _ hs))
      (fun s hs g' o' n' hg' hn' => hlev s (List.mem_cons_of_mem _ hs) g' o' n' hg' (by omega)) out
    have hturn := C83_turned (x := g.centers.map φ) (hg.validMesh (s g o)) hk.params hW hu hl hmode ht ⟨rfl, hD⟩
    have e1 : agglomerateOneLevel P ((s { g with centers := g.centers.map φ } o).onMesh { g with centers := g.centers.map φ }) o =
        (out, .ok ()) := by
      rw [hblind s (by simp), ← h1, ← hturn]
      rfl
    refine ⟨out.fcToCc :: maps, gN, ?_, ?_⟩
    · unfold runLevels
      rw [h1]
      simp only [h4, h8]
    · unfold runLevels
      rw [e1]
      simp only [C83_coarse_graph ht hD, h4, Except.map, h9]

/-! ### A concrete case -/

/-- two levels of the row of three cells, mirrored -/
example := C83_levels (P := exPlatform) (z := -100) (by decide) exLawful (above := False) exLevels exLine3_good
  (checkUniq_sound exLine3_valid.crs (by decide)) (checkNoLoop_sound exLine3_valid.crs (by decide)) (by decide : ∀ c ∈ exLine3.centers, c.length = 1)
  (fun h => h.elim) (reverseAxes_turns int_signs [true])
  (fun s hs g' o' x => by
    have : s = fun _ _ => exArgs3 := by simpa [exLevels] using hs
    subst this
    rfl)
  (fun s hs g' o' n' _ _ _ => ⟨⟨(exLevels_ok s hs g' o').1, (exLevels_ok s hs g' o').2.1,
    Or.inl (exLevels_ok s hs g' o').2.2⟩, Or.inl (exLevels_ok s hs g' o').2.2, fun fls h => by
      have : s = fun _ _ => exArgs3 := by simpa [exLevels] using hs
      subst this
      intro l _ m h
      cases h⟩) ⟨[], [], []⟩

end CoMMA
