import Verif.Lemmas.Numbering
import Verif.Spec.AnyThreshold
/-! # Correction with any threshold and the numbering of the cells -/

set_option linter.unusedSectionVars false

namespace CoMMA

variable {W : Type} [Num W] {σ τ : Nat → Nat}

section
variable {g g' : Graph W} (h : Renumbering σ τ) (hg : ImgGraph σ g g') {f f' : List Nat} (hf : ImgVec σ f f')
  (hl : f'.length = f.length)

theorem ImgVec.absorbed (hf : ImgVec σ f f') (k r : Nat) : ImgVec σ (absorbed f k r) (absorbed f' k r) := by
  intro i
  unfold CoMMA.absorbed
  rw [List.getElem?_map, List.getElem?_map, hf]

include h hg hf hl

theorem ImgVec.whole (m k r : Nat) : WholeReceiver g'.rowPtr g'.colInd f' m k r ↔ WholeReceiver g.rowPtr g.colInd f m k r := by
  have h1 := ImgVec.fcs h hf hl r
  have h2 := ImgVec.fcs h (hf.absorbed k r) (by simp [CoMMA.absorbed, hl]) r
  unfold WholeReceiver
  simp only [hg.compactness h h1, hg.compactness h h2]
  have : (∃ x y : Nat, f'[x]? = some k ∧ Adj g'.rowPtr g'.colInd x y ∧ f'[y]? = some r) ↔
      ∃ x y : Nat, f[x]? = some k ∧ Adj g.rowPtr g.colInd x y ∧ f[y]? = some r := by
    rw [h.ex]
    refine exists_congr (fun x => ?_)
    rw [h.ex]
    refine exists_congr (fun y => ?_)
    rw [hf, hf, hg.adj h]
  rw [this]

theorem ImgVec.bestWhole {m k r : Nat} (hb : BestWhole g.rowPtr g.colInd f m k r) : BestWhole g'.rowPtr g'.colInd f' m k r := by
  obtain ⟨h1, h2⟩ := hb
  refine ⟨(ImgVec.whole h hg hf hl m k r).2 h1, fun s hs => ?_⟩
  rw [ImgVec.count h hf hl, ImgVec.count h hf hl]
  exact h2 s ((ImgVec.whole h hg hf hl m k s).1 hs)

omit hf hl in
theorem CellByCell.img {m : Nat} {start start' : List Nat} (hs : ImgVec σ start start') (hsl : start'.length = start.length)
    {xs f f1 : List Nat} (hc : CellByCell g.rowPtr g.colInd m start xs f f1) :
    ∀ {f' : List Nat}, ImgVec σ f f' → f'.length = f.length →
      ∃ f1', ImgVec σ f1 f1' ∧ f1'.length = f1.length ∧ CellByCell g'.rowPtr g'.colInd m start' (xs.map σ) f' f1' := by
  induction hc with
  | done => exact fun {f'} hf hl => ⟨f', hf, hl, .done⟩
  | @stays x xs f f1 h1 _ ih =>
    intro f' hf hl
    obtain ⟨f1', i1, i2, i3⟩ := ih hf hl
    exact ⟨f1', i1, i2, .stays (fun r hr => h1 r ((ImgVec.receiver h hg hs hsl m x r).1 hr)) i3⟩
  | @given x xs r f f1 h1 _ ih =>
    intro f' hf hl
    have hset : ImgVec σ (f.set x r) (f'.set (σ x) r) := by
      intro i
      rw [List.getElem?_set, List.getElem?_set, hf, hl]
      simp only [h.inj.eq_iff, range_img hl hf]
    obtain ⟨f1', i1, i2, i3⟩ := ih hset (by rw [List.length_set, List.length_set, hl])
    refine ⟨f1', i1, i2, .given ⟨(ImgVec.receiver h hg hs hsl m x r).2 h1.1, fun s hs' => ?_⟩ i3⟩
    have := h1.2 s ((ImgVec.receiver h hg hs hsl m x s).1 hs')
    unfold Closer at *
    rw [ImgVec.gains h hg hf hl, ImgVec.gains h hg hf hl, ImgVec.facesTo h hg hf hl, ImgVec.facesTo h hg hf hl,
      ImgVec.count h hf hl, ImgVec.count h hf hl]
    exact this

omit hf hl in
theorem TreatsSmall.img {m : Nat} {ks f D f1 D1 : List Nat} (ht : TreatsSmall g.rowPtr g.colInd m ks f D f1 D1) :
    ∀ {f' : List Nat}, ImgVec σ f f' → f'.length = f.length →
      ∃ f1', ImgVec σ f1 f1' ∧ f1'.length = f1.length ∧ TreatsSmall g'.rowPtr g'.colInd m ks f' D f1' D1 := by
  induction ht with
  | done => exact fun {f'} hf hl => ⟨f', hf, hl, .done⟩
  | @whole k ks r f f1 D D1 h1 h2 _ ih =>
    intro f' hf hl
    obtain ⟨f1', i1, i2, i3⟩ := ih (hf.absorbed k r) (by simp [CoMMA.absorbed, hl])
    exact ⟨f1', i1, i2, .whole (by rw [ImgVec.count h hf hl]; exact h1) (ImgVec.bestWhole h hg hf hl h2) i3⟩
  | @cells k ks xs f f2 f1 D D1 h1 h2 h3 h4 h5 _ ih =>
    intro f' hf hl
    obtain ⟨f2', j1, j2, j3⟩ := CellByCell.img h hg hf hl h5 hf hl
    obtain ⟨f1', i1, i2, i3⟩ := ih j1 j2
    refine ⟨f1', i1, i2, .cells (xs := xs.map σ) ?_ (h2.map h.inj) (h.all (fun x => ?_)) ?_ j3 i3⟩
    · rw [ImgVec.count h hf hl]
      exact fun hc r hr => h1 hc r ((ImgVec.whole h hg hf hl m k r).1 hr)
    · rw [h.mem, hf]
      exact h3 x
    · obtain ⟨x, hx, r, hr⟩ := h4
      exact ⟨σ x, List.mem_map_of_mem hx, r, (ImgVec.receiver h hg hf hl m x r).2 hr⟩
  | @alone k ks f f1 D D1 h1 _ ih =>
    intro f' hf hl
    obtain ⟨f1', i1, i2, i3⟩ := ih hf hl
    refine ⟨f1', i1, i2, .alone (h.all (fun x hx r hr => ?_)) i3⟩
    rw [hf] at hx
    exact h1 x hx r ((ImgVec.receiver h hg hf hl m x r).1 hr)

theorem SmallCorrectionOf.img {m t : Nat} {f1 : List Nat} (hc : SmallCorrectionOf g.rowPtr g.colInd m t f f1) :
    ∃ f1', ImgVec σ f1 f1' ∧ f1'.length = f1.length ∧ SmallCorrectionOf g'.rowPtr g'.colInd m t f' f1' := by
  obtain ⟨N, f2, D, h1, h2, rfl⟩ := hc
  obtain ⟨f2', i1, i2, i3⟩ := TreatsSmall.img h hg h2 hf hl
  refine ⟨renumberedBut f2' D, ?_, by simp [renumberedBut, i2], N, f2', D, fun k => (ImgVec.mem h hf k).trans (h1 k), ?_, rfl⟩
  · intro i
    unfold renumberedBut
    rw [List.getElem?_map, List.getElem?_map, i1]
  · have : smallsOf f' m t N = smallsOf f m t N := by
      unfold smallsOf
      exact List.filter_congr (fun k _ => by rw [ImgVec.count h hf hl])
    rw [this]
    exact i3

end

end CoMMA
