import Verif.Lemmas.Tagging
import Verif.Lemmas.Best
/-! # Extreme weights of a cell -/

set_option linter.unusedSectionVars false

namespace CoMMA

variable {W : Type} [Num W]

theorem LawfulLt.le_trans (hW : LawfulLt W) {a b c : W} (h1 : Num.lt b a = false) (h2 : Num.lt c b = false) :
    Num.lt c a = false := by
  by_contra h
  have h : Num.lt c a = true := by simpa using h
  cases h3 : Num.lt a b with
  | true =>
    have := hW.trans c a b h h3
    rw [h2] at this; cases this
  | false =>
    have := hW.total a b h3 h1
    subst this
    rw [h2] at h; cases h

theorem minMax_fold (hW : LawfulLt W) (i : Nat) : ∀ (l : List (Nat × W)) (s : W × W × Int),
    (∀ e ∈ l, e.1 ≠ i → Num.lt e.2 (l.foldl (fun (s : W × W × Int) e =>
      if e.1 ≠ i then (if Num.lt e.2 s.1 then e.2 else s.1, if Num.lt s.2.1 e.2 then e.2 else s.2.1, s.2.2)
      else (s.1, s.2.1, s.2.2 - 1)) s).1 = false ∧
      Num.lt (l.foldl (fun (s : W × W × Int) e =>
      if e.1 ≠ i then (if Num.lt e.2 s.1 then e.2 else s.1, if Num.lt s.2.1 e.2 then e.2 else s.2.1, s.2.2)
      else (s.1, s.2.1, s.2.2 - 1)) s).2.1 e.2 = false) ∧
    (let r := (l.foldl (fun (s : W × W × Int) e =>
      if e.1 ≠ i then (if Num.lt e.2 s.1 then e.2 else s.1, if Num.lt s.2.1 e.2 then e.2 else s.2.1, s.2.2)
      else (s.1, s.2.1, s.2.2 - 1)) s)
     (r.1 = s.1 ∨ ∃ e ∈ l, e.1 ≠ i ∧ e.2 = r.1) ∧ Num.lt s.1 r.1 = false ∧
     (r.2.1 = s.2.1 ∨ ∃ e ∈ l, e.1 ≠ i ∧ e.2 = r.2.1) ∧ Num.lt r.2.1 s.2.1 = false) := by
  intro l
  induction l with
  | nil => intro s; simp [hW.irrefl]
  | cons a l ih =>
    intro s
    rw [List.foldl_cons]
    generalize hs' : (if a.1 ≠ i then (if Num.lt a.2 s.1 then a.2 else s.1, if Num.lt s.2.1 a.2 then a.2 else s.2.1, s.2.2)
      else (s.1, s.2.1, s.2.2 - 1)) = s'
    obtain ⟨h1, h2, h3, h4, h5⟩ := ih s'
    simp only at h2 h3 h4 h5 ⊢
    -- the new bounds compared with the old ones and with the entry
    have hmn : Num.lt s.1 s'.1 = false ∧ (a.1 ≠ i → Num.lt a.2 s'.1 = false) ∧ (s'.1 = s.1 ∨ (a.1 ≠ i ∧ s'.1 = a.2)) := by
      rw [← hs']
      split
      · rename_i ha
        simp only
        split
        · rename_i hlt
          exact ⟨hW.asymm hlt, fun _ => hW.irrefl _, Or.inr ⟨ha, rfl⟩⟩
        · rename_i hlt
          exact ⟨hW.irrefl _, fun _ => by simpa using hlt, Or.inl rfl⟩
      · rename_i ha
        exact ⟨hW.irrefl _, fun h => absurd h ha, Or.inl rfl⟩
    have hmx : Num.lt s'.2.1 s.2.1 = false ∧ (a.1 ≠ i → Num.lt s'.2.1 a.2 = false) ∧ (s'.2.1 = s.2.1 ∨ (a.1 ≠ i ∧ s'.2.1 = a.2)) := by
      rw [← hs']
      split
      · rename_i ha
        simp only
        split
        · rename_i hlt
          exact ⟨hW.asymm hlt, fun _ => hW.irrefl _, Or.inr ⟨ha, rfl⟩⟩
        · rename_i hlt
          exact ⟨hW.irrefl _, fun _ => by simpa using hlt, Or.inl rfl⟩
      · rename_i ha
        exact ⟨hW.irrefl _, fun h => absurd h ha, Or.inl rfl⟩
    refine ⟨?_, ?_, ?_, ?_, ?_⟩
    · intro e he hei
      rcases List.mem_cons.1 he with rfl | he
      · exact ⟨hW.le_trans h3 (hmn.2.1 hei), hW.le_trans (hmx.2.1 hei) h5⟩
      · exact h1 e he hei
    · rcases h2 with h2 | ⟨e, he, hei, h2⟩
      · rcases hmn.2.2 with h | ⟨ha, h⟩
        · exact Or.inl (by rw [h2, h])
        · exact Or.inr ⟨a, by simp, ha, by rw [h2, h]⟩
      · exact Or.inr ⟨e, by simp [he], hei, h2⟩
    · exact hW.le_trans h3 hmn.1
    · rcases h4 with h4 | ⟨e, he, hei, h4⟩
      · rcases hmx.2.2 with h | ⟨ha, h⟩
        · exact Or.inl (by rw [h4, h])
        · exact Or.inr ⟨a, by simp, ha, by rw [h4, h]⟩
      · exact Or.inr ⟨e, by simp [he], hei, h4⟩
    · exact hW.le_trans hmx.1 h5

theorem mem_rowZip {g : Graph W} (h : ValidCRS g.nbC g.rowPtr g.colInd) (hv : g.values.length = g.colInd.length)
    {i : Nat} (hi : i < g.nbC) {w : W} :
    (∃ e ∈ (rowL g.rowPtr g.colInd i).zip (rowL g.rowPtr g.values i), e.1 ≠ i ∧ e.2 = w) ↔ FaceWeight g i w := by
  obtain ⟨b, e, hb, he, hbe, hec, h5⟩ := h.row hi g.colInd rfl
  obtain ⟨b', e', hb', he', _, _, h5'⟩ := h.row hi g.values hv
  rw [hb] at hb'; cases hb'
  rw [he] at he'; cases he'
  have hr1 : rowL g.rowPtr g.colInd i = (g.colInd.drop b).take (e - b) := by unfold rowL; rw [h5]
  have hr2 : rowL g.rowPtr g.values i = (g.values.drop b).take (e - b) := by unfold rowL; rw [h5']
  rw [hr1, hr2]
  constructor
  · rintro ⟨⟨n, w'⟩, hmem, hne, rfl⟩
    obtain ⟨k, hk⟩ := List.mem_iff_getElem?.1 hmem
    rw [List.getElem?_zip_eq_some] at hk
    obtain ⟨k1, k2⟩ := hk
    rw [List.getElem?_take] at k1 k2
    split at k1
    · rename_i hke
      rw [if_pos hke] at k2
      rw [List.getElem?_drop] at k1 k2
      exact ⟨b, e, b + k, n, hb, he, by omega, by omega, k1, hne, k2⟩
    · cases k1
  · rintro ⟨b', e', k, n, hb', he', h1, h2, h3, hne, h4⟩
    rw [hb] at hb'; cases hb'
    rw [he] at he'; cases he'
    refine ⟨(n, w), ?_, hne, rfl⟩
    refine List.mem_iff_getElem?.2 ⟨k - b, ?_⟩
    rw [List.getElem?_zip_eq_some, List.getElem?_take, List.getElem?_take, if_pos (by omega), if_pos (by omega),
      List.getElem?_drop, List.getElem?_drop, show b + (k - b) = k by omega]
    exact ⟨h3, h4⟩

/-- the computed extreme weights are the extreme weights -/
theorem mmOf_range (hW : LawfulLt W) {g : Graph W} (h : ValidCRS g.nbC g.rowPtr g.colInd)
    (hv : g.values.length = g.colInd.length) {i : Nat} (hi : i < g.nbC) :
    WeightRange g i (mmOf g i).1 (mmOf g i).2.1 := by
  obtain ⟨h1, h2, h3, h4, h5⟩ := minMax_fold hW i ((rowL g.rowPtr g.colInd i).zip (rowL g.rowPtr g.values i))
    (Num.lmax, Num.ofNat 0, (((rowL g.rowPtr g.colInd i).zip (rowL g.rowPtr g.values i)).length : Int))
  refine ⟨?_, ?_, h3, ?_, ?_, h5⟩
  · intro w hw
    obtain ⟨e, he, hei, rfl⟩ := (mem_rowZip h hv hi).2 hw
    exact (h1 e he hei).1
  · rcases h2 with h2 | h2
    · exact Or.inl h2
    · exact Or.inr ((mem_rowZip h hv hi).1 h2)
  · intro w hw
    obtain ⟨e, he, hei, rfl⟩ := (mem_rowZip h hv hi).2 hw
    exact (h1 e he hei).2
  · rcases h4 with h4 | h4
    · exact Or.inl h4
    · exact Or.inr ((mem_rowZip h hv hi).1 h4)

theorem WeightRange.unique (hW : LawfulLt W) {g : Graph W} {i : Nat} {mn mx mn' mx' : W} (h : WeightRange g i mn mx)
    (h' : WeightRange g i mn' mx') : mn = mn' ∧ mx = mx' := by
  obtain ⟨a1, a2, a3, a4, a5, a6⟩ := h
  obtain ⟨b1, b2, b3, b4, b5, b6⟩ := h'
  constructor
  · refine hW.total _ _ ?_ ?_
    · rcases a2 with a2 | a2
      · rw [a2]; exact b3
      · exact b1 _ a2
    · rcases b2 with b2 | b2
      · rw [b2]; exact a3
      · exact a1 _ b2
  · refine hW.total _ _ ?_ ?_
    · rcases b5 with b5 | b5
      · rw [b5]; exact a6
      · exact a4 _ b5
    · rcases a5 with a5 | a5
      · rw [a5]; exact b6
      · exact b4 _ a5

theorem isTagged_iff (hW : LawfulLt W) {g : Graph W} (h : ValidCRS g.nbC g.rowPtr g.colInd)
    (hv : g.values.length = g.colInd.length) {thr : W} {i : Nat} (hi : i < g.nbC) :
    isTagged g thr i = true ↔ IsAnisotropic g thr i := by
  unfold isTagged IsAnisotropic
  rw [Bool.or_eq_true]
  have hr := mmOf_range hW h hv hi
  constructor
  · rintro (h1 | h1)
    · exact Or.inl h1
    · exact Or.inr ⟨_, _, hr, h1⟩
  · rintro (h1 | ⟨mn, mx, h1, h2⟩)
    · exact Or.inl h1
    · obtain ⟨rfl, rfl⟩ := h1.unique hW hr
      exact Or.inr h2

theorem minMax_count (i : Nat) : ∀ (l : List (Nat × W)) (s : W × W × Int),
    (l.foldl (fun (s : W × W × Int) e =>
      if e.1 ≠ i then (if Num.lt e.2 s.1 then e.2 else s.1, if Num.lt s.2.1 e.2 then e.2 else s.2.1, s.2.2)
      else (s.1, s.2.1, s.2.2 - 1)) s).2.2 = s.2.2 - l.countP (fun e => decide (e.1 = i)) := by
  intro l
  induction l with
  | nil => intro s; simp
  | cons a l ih =>
    intro s
    rw [List.foldl_cons, ih, List.countP_cons]
    by_cases h : a.1 = i
    · simp [h]; omega
    · simp [h]

theorem mmOf_count {g : Graph W} (h : ValidCRS g.nbC g.rowPtr g.colInd)
    (hv : g.values.length = g.colInd.length) {i : Nat} (hi : i < g.nbC) :
    (mmOf g i).2.2 = (((rowOf g.rowPtr g.colInd i).countP (fun j => decide (j ≠ i)) : Nat) : Int) := by
  obtain ⟨_, hlen⟩ := weights_eq h hv hi
  have hz : ((rowL g.rowPtr g.colInd i).zip (rowL g.rowPtr g.values i)).countP (fun e => decide (e.1 = i)) =
      (rowL g.rowPtr g.colInd i).countP (fun j => decide (j = i)) := by
    rw [show (fun (e : Nat × W) => decide (e.1 = i)) = (fun j => decide (j = i)) ∘ Prod.fst from rfl, ← List.countP_map,
      List.map_fst_zip (Nat.le_of_eq hlen.symm)]
  unfold mmOf minMaxWeights
  rw [minMax_count, hz, rowOf_eq h hi]
  have := List.length_eq_countP_add_countP (fun j => decide (j = i)) (l := rowL g.rowPtr g.colInd i)
  have hn : (rowL g.rowPtr g.colInd i).countP (fun j => decide (j ≠ i)) =
      (rowL g.rowPtr g.colInd i).countP (fun j => decide (¬ (decide (j = i) = true))) := by
    congr 1; funext j; simp
  rw [hn]
  simp only [List.length_zip, hlen, Nat.min_self]
  omega

theorem keepsL_iff {g : Graph W} (h : ValidCRS g.nbC g.rowPtr g.colInd) (hm : MeshSizes g) {p i : Nat} (hi : i < g.nbC) :
    keepsL g p i = true ↔ (p = 2 → QuadLike g i) := by
  unfold keepsL QuadLike
  rw [mmOf_count h hm.values hi]
  by_cases hp : p = 2
  · have hb : i < g.nBnd.length := by rw [hm.bnd]; exact hi
    generalize (rowOf g.rowPtr g.colInd i).countP (fun j => decide (j ≠ i)) = c
    simp [hp, hb]
    omega
  · simp [hp]

theorem isTaggedL_iff (hW : LawfulLt W) {g : Graph W} (h : ValidCRS g.nbC g.rowPtr g.colInd)
    (hm : MeshSizes g) {p : Nat} {thr : W} {i : Nat} (hi : i < g.nbC) :
    isTaggedL g p thr i = true ↔ IsAnisotropic g thr i ∧ (p = 2 → Num.lt thr (Num.ofNat 0) = true ∨ QuadLike g i) := by
  rw [← isTagged_iff hW h hm.values hi]
  have hk := keepsL_iff h hm (p := p) hi
  unfold isTaggedL isTagged
  cases Num.lt thr (Num.ofNat 0) with
  | true => simp
  | false =>
    simp only [Bool.false_or, Bool.and_eq_true, hk]
    simp

end CoMMA
