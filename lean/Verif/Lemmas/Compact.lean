import Verif.Lemmas.Best
/-! # Compactness -/

set_option linter.unusedSectionVars false

namespace CoMMA

variable {W F : Type} [Num W]

theorem foldl_min_spec (l : List (Nat × Nat)) (a : Nat) :
    let r := l.foldl (fun a x => if x.2 < a then x.2 else a) a
    r ≤ a ∧ (∀ e ∈ l, r ≤ e.2) ∧ (r = a ∨ ∃ e ∈ l, e.2 = r) := by
  induction l generalizing a with
  | nil => simp
  | cons e l ih =>
    simp only [List.foldl_cons]
    obtain ⟨h1, h2, h3⟩ := ih (if e.2 < a then e.2 else a)
    by_cases hlt : e.2 < a
    · rw [if_pos hlt] at h1 h2 h3 ⊢
      refine ⟨by omega, ?_, ?_⟩
      · intro x hx
        rcases List.mem_cons.1 hx with rfl | hx
        · exact h1
        · exact h2 x hx
      · rcases h3 with h3 | ⟨x, hx, h3⟩
        · exact Or.inr ⟨e, by simp, h3.symm⟩
        · exact Or.inr ⟨x, by simp [hx], h3⟩
    · rw [if_neg hlt] at h1 h2 h3 ⊢
      refine ⟨h1, ?_, ?_⟩
      · intro x hx
        rcases List.mem_cons.1 hx with rfl | hx
        · omega
        · exact h2 x hx
      · rcases h3 with h3 | ⟨x, hx, h3⟩
        · exact Or.inl h3
        · exact Or.inr ⟨x, by simp [hx], h3⟩

theorem minValue_spec {m : NMap Nat} {k v : Nat} (h : m.find? k = some v) :
    (∃ x, m.find? x = some (minValue m)) ∧ ∀ x w, m.find? x = some w → minValue m ≤ w := by
  have hmem := NMap.find?_eq_some.1 h
  unfold minValue
  cases he : m.entries with
  | nil => rw [he] at hmem; simp at hmem
  | cons e es =>
    obtain ⟨h1, h2, h3⟩ := foldl_min_spec es e.2
    simp only at h1 h2 h3 ⊢
    constructor
    · rcases h3 with h3 | ⟨x, hx, h3⟩
      · exact ⟨e.1, NMap.find?_eq_some.2 (by rw [he, h3]; simp)⟩
      · exact ⟨x.1, NMap.find?_eq_some.2 (by rw [he, ← h3]; simp [hx])⟩
    · intro x w hx
      have := NMap.find?_eq_some.1 hx
      rw [he] at this
      rcases List.mem_cons.1 this with h4 | h4
      · subst h4; exact h1
      · exact h2 _ h4

/-- counting the row in the set or the set in the row is the same if the row does not repeat -/
theorem countP_has_eq {row : List Nat} (hn : row.Nodup) (s : NSet) :
    row.countP (fun n => s.has n) = nbShared row s := by
  unfold nbShared
  rw [List.countP_eq_length_filter, List.countP_eq_length_filter]
  apply List.Perm.length_eq
  rw [List.perm_ext_iff_of_nodup (hn.filter _) (s.nodup.filter _)]
  intro a
  simp only [List.mem_filter, NSet.has_iff, NSet.mem_elems, List.contains_iff_mem]
  tauto

theorem nbShared_insert {row : List Nat} {s : NSet} {x : Nat} (hx : x ∉ s) :
    nbShared row (s.insert x) = nbShared row s + (if x ∈ row then 1 else 0) := by
  unfold nbShared
  have hp : (s.insert x).elems.Perm (x :: s.elems) :=
    NSet.elems_perm (List.nodup_cons.2 ⟨hx, s.nodup⟩) (fun a => by simp)
  rw [hp.countP_eq, List.countP_cons]
  simp

theorem nbShared_single {row : List Nat} {x : Nat} : nbShared row (NSet.single x) = if x ∈ row then 1 else 0 := by
  unfold NSet.single
  rw [nbShared_insert (by simp)]
  simp [nbShared, NSet.empty]

/-- the map holds the number of neighbours inside the set -/
def CompactOk (rowPtr colInd : List Nat) (s : NSet) (m : NMap Nat) : Prop :=
  ∀ x k, m.find? x = some k ↔ x ∈ s ∧ k = nbShared (rowOf rowPtr colInd x) s

theorem CompactOk.min {rowPtr colInd : List Nat} {s : NSet} {m : NMap Nat} (h : CompactOk rowPtr colInd s m)
    (hs : 1 < s.card) : IsCompactness rowPtr colInd s (minValue m) := by
  refine ⟨fun h' => by omega, fun _ => ?_⟩
  obtain ⟨y, hy⟩ := NSet.card_pos_iff.1 (show 0 < s.card by omega)
  obtain ⟨⟨x, hx⟩, h2⟩ := minValue_spec ((h y _).2 ⟨hy, rfl⟩)
  obtain ⟨h3, h4⟩ := (h _ _).1 hx
  exact ⟨⟨x, h3, h4.symm⟩, fun x hx => h2 x _ ((h x _).2 ⟨hx, rfl⟩)⟩

theorem foldl_compact (tmp : NSet) (row : List Nat) (hn : row.Nodup) (k0 : Nat) (m : NMap Nat) :
    let r := row.foldl (fun (p : Nat × NMap Nat) n =>
      if tmp.has n then (p.1 + 1, p.2.insert n ((p.2.find? n).getD 0 + 1)) else (p.1, p.2)) (k0, m)
    r.1 = k0 + row.countP (fun n => tmp.has n) ∧
    ∀ x, r.2.find? x = if x ∈ row ∧ x ∈ tmp then some ((m.find? x).getD 0 + 1) else m.find? x := by
  induction row generalizing k0 m with
  | nil => simp
  | cons a row ih =>
    rw [List.nodup_cons] at hn
    simp only [List.foldl_cons]
    by_cases ha : a ∈ tmp
    · have hh : tmp.has a = true := NSet.has_iff.2 ha
      rw [if_pos hh]
      obtain ⟨h1, h2⟩ := ih hn.2 (k0 + 1) (m.insert a ((m.find? a).getD 0 + 1))
      refine ⟨by rw [h1, List.countP_cons, if_pos hh]; omega, fun x => ?_⟩
      rw [h2, NMap.find?_insert]
      by_cases hxa : x = a
      · subst hxa
        rw [if_neg (fun h => hn.1 h.1), if_pos rfl, if_pos ⟨by simp, ha⟩]
      · rw [if_neg hxa]
        simp [hxa]
    · have hh : tmp.has a = false := NSet.has_false_iff.2 ha
      rw [if_neg (by simp [hh])]
      obtain ⟨h1, h2⟩ := ih hn.2 k0 m
      refine ⟨by rw [h1, List.countP_cons, hh]; simp, fun x => ?_⟩
      rw [h2]
      by_cases hxa : x = a
      · subst hxa
        rw [if_neg (fun h => ha h.2), if_neg (fun h => ha h.2)]
      · simp [hxa]

theorem growCompact_ok {n : Nat} {rowPtr colInd : List Nat} (hv : ValidCRS n rowPtr colInd)
    (hsym : SymmetricCRS rowPtr colInd) (hu : UniqueRows rowPtr colInd) (hl : NoSelfLoop rowPtr colInd)
    {s : NSet} {m : NMap Nat} (h : CompactOk rowPtr colInd s m) (hs : ∀ x ∈ s, x < n) {x : Nat} (hx : x < n)
    (hxs : x ∉ s) :
    CompactOk rowPtr colInd (s.insert x) (growCompact (s.insert x) x (rowL rowPtr colInd x) m) := by
  have hn : (rowL rowPtr colInd x).Nodup := UniqueRows.nodup hv hu hx
  obtain ⟨h1, h2⟩ := foldl_compact (s.insert x) _ hn 0 m
  have hself : x ∉ rowL rowPtr colInd x := fun hh => hl x ((hv.mem_rowL hx).1 hh)
  intro y k
  unfold growCompact
  simp only at h1 h2 ⊢
  rw [NMap.find?_insert]
  by_cases hyx : y = x
  · subst hyx
    rw [if_pos rfl, h1, countP_has_eq hn, rowOf_eq hv hx]
    simp [eq_comm]
  · rw [if_neg hyx, h2]
    simp only [NSet.mem_insert, hyx, false_or]
    by_cases hys : y ∈ s
    · have hy := hs y hys
      have hold := (h y _).2 ⟨hys, rfl⟩
      rw [nbShared_insert hxs, hold]
      have hiff : y ∈ rowL rowPtr colInd x ↔ x ∈ rowOf rowPtr colInd y := by
        rw [rowOf_eq hv hy, hv.mem_rowL hx, hv.mem_rowL hy]
        exact ⟨hsym _ _, hsym _ _⟩
      by_cases hyr : y ∈ rowL rowPtr colInd x
      · rw [if_pos ⟨hyr, hys⟩, if_pos (hiff.1 hyr)]
        simp [hys, eq_comm]
      · rw [if_neg (fun h => hyr h.1), if_neg (fun h => hyr (hiff.2 h))]
        simp [hys, eq_comm]
    · rw [if_neg (fun h => hys h.2)]
      have : m.find? y = none := by
        cases hm : m.find? y with
        | none => rfl
        | some w => exact absurd ((h y w).1 hm).1 hys
      simp [this, hys]

theorem minCompactness_ok {g : Graph W} (hv : ValidCRS g.nbC g.rowPtr g.colInd) {s : NSet}
    (hs : ∀ x ∈ s, x < g.nbC) :
    Ok (g.minCompactness s) (fun k => UniqueRows g.rowPtr g.colInd → IsCompactness g.rowPtr g.colInd s k) := by
  unfold Graph.minCompactness
  split
  · rename_i hc
    unfold Graph.fcCompactness
    have hmain : Ok (s.elems.foldlM (fun (m : NMap Nat) i => do
        let row ← g.neighs i
        pure (m.insert i (row.countP (fun n => s.has n)))) NMap.empty)
        (fun m => UniqueRows g.rowPtr g.colInd → CompactOk g.rowPtr g.colInd s m) := by
      refine Ok.mono (Ok.foldlM_prefix (I := fun pre (m : NMap Nat) => UniqueRows g.rowPtr g.colInd →
        ∀ x k, m.find? x = some k ↔ x ∈ pre ∧ k = nbShared (rowOf g.rowPtr g.colInd x) s) (by simp) ?_) ?_
      · intro pre i post m hl hI
        have hi : i < g.nbC := hs i (by rw [← NSet.mem_elems, hl]; simp)
        rw [neighs_eq hv hi, ok_bind]
        intro hu x k
        rw [NMap.find?_insert, countP_has_eq (UniqueRows.nodup hv hu hi), ← rowOf_eq hv hi]
        by_cases hxi : x = i
        · subst hxi; simp [eq_comm]
        · rw [if_neg hxi, hI hu]; simp [hxi]
      · intro m hm hu x k
        rw [hm hu, NSet.mem_elems]
    unfold NSet.card at hc
    split
    · rename_i he; rw [he] at hc; simp at hc
    · rename_i he; rw [he] at hc; simp at hc
    · exact Ok.bind hmain (fun m hm hu => (hm hu).min hc)
  · intro _
    exact ⟨fun _ => rfl, fun h => by omega⟩

end CoMMA
