import Verif.Lemmas.Compact
import Verif.Lemmas.Search
import Verif.Model.Correction
/-! # Choice of the receiver of a corrected cell -/

set_option linter.unusedSectionVars false

namespace CoMMA

variable {W : Type} [Num W]

/-- number of faces between the fine cell `fc` and the fine cells of `s` -/
def facesWith (rowPtr colInd : List Nat) (fc : Nat) (s : NSet) : Nat :=
  (s.elems.map (fun i => (rowOf rowPtr colInd i).count fc)).sum

theorem neighsCC_ok {g : Graph W} (hv : ValidCRS g.nbC g.rowPtr g.colInd) {f : List (Option Nat)}
    (hf : ∀ j, j < g.nbC → ∃ k, f[j]? = some (some k)) {i : Nat} (hi : i < g.nbC) (old : Nat) :
    Ok (neighsCC g f i old) (fun s => ∀ k, k ∈ s ↔ k ≠ old ∧ ∃ j, Adj g.rowPtr g.colInd i j ∧ f[j]? = some (some k)) := by
  unfold neighsCC
  rw [neighs_eq hv hi, ok_bind]
  refine Ok.mono (Ok.foldlM_prefix (I := fun pre (s : NSet) =>
    ∀ k, k ∈ s ↔ k ≠ old ∧ ∃ j ∈ pre, f[j]? = some (some k)) (by simp) ?_) ?_
  · intro pre a post s hsp hI
    have ha : a < g.nbC := hv.rowL_lt hi (by rw [hsp]; simp)
    obtain ⟨k, hk⟩ := hf a ha
    rw [rd_ok.2 hk, ok_bind]
    refine Ok.bind (P := fun x => x = k) (Ok_valueM rfl rfl) ?_
    rintro w hw
    rw [hw]
    rw [Ok_pure]
    intro k'
    have hsplit : (∃ j ∈ pre ++ [a], f[j]? = some (some k')) ↔ (∃ j ∈ pre, f[j]? = some (some k')) ∨ k' = k := by
      simp only [List.mem_append, List.mem_singleton, or_and_right, exists_or, exists_eq_left]
      constructor
      · rintro (h | h)
        · exact Or.inl h
        · rw [hk] at h; right; simpa using h.symm
      · rintro (h | h)
        · exact Or.inl h
        · right; rw [hk, h]
    rw [hsplit]
    by_cases hold : k = old
    · rw [if_neg (by simpa using hold), hI]
      constructor
      · rintro ⟨h1, h2⟩; exact ⟨h1, Or.inl h2⟩
      · rintro ⟨h1, h2 | h2⟩
        · exact ⟨h1, h2⟩
        · exact absurd (h2.trans hold) h1
    · rw [if_pos hold, NSet.mem_insert, hI]
      constructor
      · rintro (h | ⟨h1, h2⟩)
        · exact ⟨h ▸ hold, Or.inr h⟩
        · exact ⟨h1, Or.inl h2⟩
      · rintro ⟨h1, h2 | h2⟩
        · exact Or.inr ⟨h1, h2⟩
        · exact Or.inl h2
  · intro s hs k
    rw [hs]
    constructor
    · rintro ⟨h1, j, h2, h3⟩; exact ⟨h1, j, (hv.mem_rowL hi).1 h2, h3⟩
    · rintro ⟨h1, j, h2, h3⟩; exact ⟨h1, j, (hv.mem_rowL hi).2 h2, h3⟩

theorem sharedWith_ok {g : Graph W} (hv : ValidCRS g.nbC g.rowPtr g.colInd) (fc : Nat) {s : NSet}
    (hs : ∀ x ∈ s, x < g.nbC) :
    sharedWith g fc s = .ok (facesWith g.rowPtr g.colInd fc s) := by
  have : Ok (sharedWith g fc s) (fun r => r = facesWith g.rowPtr g.colInd fc s) := by
    unfold sharedWith facesWith
    refine Ok.foldlM_prefix (I := fun pre r => r = (pre.map (fun i => (rowOf g.rowPtr g.colInd i).count fc)).sum) (by simp) ?_
    intro pre a post b hsp hI
    have ha : a < g.nbC := hs a (by rw [← NSet.mem_elems, hsp]; simp)
    rw [neighs_eq hv ha, ok_bind, Ok_pure, hI]
    simp [rowOf_eq hv ha]
  obtain ⟨r, h1, h2⟩ := this.eq
  rw [h1, h2]

/-- a record of `isoRecs` describes the isotropic coarse cell it stands for -/
def NbFeat (g : Graph W) (ccs : NMap CC) (fc : Nat) (r : NbRec) : Prop :=
  ∃ cc, ccs.find? r.id = some cc ∧ cc.iso = true ∧ r.card = cc.card ∧
    r.shared = facesWith g.rowPtr g.colInd fc cc.fcs ∧ g.minCompactness (cc.fcs.insert fc) = .ok r.compact ∧
    (r.better = true ↔ cc.compact < r.compact)

theorem isoRecs_ok {g : Graph W} (hv : ValidCRS g.nbC g.rowPtr g.colInd) {ccs : NMap CC} {fc : Nat}
    (hfc : fc < g.nbC) {neighs : NSet}
    (hn : ∀ k ∈ neighs, ∃ cc, ccs.find? k = some cc ∧ ∀ x ∈ cc.fcs, x < g.nbC) :
    Ok (isoRecs g ccs fc neighs) (fun l => l.Pairwise (fun a b => a.id < b.id) ∧
      (∀ r ∈ l, r.id ∈ neighs ∧ NbFeat g ccs fc r) ∧
      (∀ k ∈ neighs, ∀ cc, ccs.find? k = some cc → cc.iso = true → ∃ r ∈ l, r.id = k)) := by
  unfold isoRecs
  refine Ok.mono (Ok.foldlM_prefix (I := fun pre (l : List NbRec) => l.Pairwise (fun a b => a.id < b.id) ∧
    (∀ r ∈ l, r.id ∈ pre ∧ NbFeat g ccs fc r) ∧
    (∀ k ∈ pre, ∀ cc, ccs.find? k = some cc → cc.iso = true → ∃ r ∈ l, r.id = k)) (by simp) ?_) ?_
  · rintro pre k post l hsp ⟨h1, h2, h3⟩
    obtain ⟨cc, hcc, hlt⟩ := hn k (by rw [← NSet.mem_elems, hsp]; simp)
    rw [NMap.at_eq.2 hcc, ok_bind]
    by_cases hiso : cc.iso = true
    · rw [if_pos hiso]
      unfold nbRec
      rw [sharedWith_ok hv fc hlt, ok_bind]
      obtain ⟨m, hm, _⟩ := (minCompactness_ok hv (s := cc.fcs.insert fc) (by
        intro x hx
        rcases NSet.mem_insert.1 hx with rfl | hx
        · exact hfc
        · exact hlt x hx)).eq
      rw [hm, ok_bind, pure_bind, Ok_pure]
      refine ⟨?_, ?_, ?_⟩
      · rw [List.pairwise_append]
        refine ⟨h1, by simp, ?_⟩
        intro a ha b hb
        rw [List.mem_singleton] at hb
        subst hb
        have hs := neighs.sorted
        rw [hsp, List.pairwise_append] at hs
        exact hs.2.2 a.id (h2 a ha).1 k (by simp)
      · intro r hr
        rcases List.mem_append.1 hr with hr | hr
        · exact ⟨by simp [(h2 r hr).1], (h2 r hr).2⟩
        · rw [List.mem_singleton] at hr
          subst hr
          exact ⟨by simp, cc, hcc, hiso, rfl, rfl, hm, by simp⟩
      · intro j hj c hc hci
        rcases List.mem_append.1 hj with hj | hj
        · obtain ⟨r, hr, hrj⟩ := h3 j hj c hc hci
          exact ⟨r, by simp [hr], hrj⟩
        · rw [List.mem_singleton] at hj
          exact ⟨_, List.mem_append_right _ (List.mem_singleton.2 rfl), hj.symm⟩
    · rw [if_neg hiso, Ok_pure]
      refine ⟨h1, fun r hr => ⟨by simp [(h2 r hr).1], (h2 r hr).2⟩, ?_⟩
      intro j hj c hc hci
      rcases List.mem_append.1 hj with hj | hj
      · exact h3 j hj c hc hci
      · rw [List.mem_singleton] at hj
        subst hj
        rw [hcc] at hc
        cases hc
        exact absurd hci hiso
  · rintro l ⟨h1, h2, h3⟩
    exact ⟨h1, fun r hr => ⟨(h2 r hr).1, (h2 r hr).2⟩, fun k hk => h3 k hk⟩

/-- lexicographic preference: more shared faces, then fewer cells, then smaller index -/
def Pref (a b : NbRec) : Prop :=
  b.shared < a.shared ∨ (a.shared = b.shared ∧ (a.card < b.card ∨ (a.card = b.card ∧ a.id ≤ b.id)))

theorem Pref.rfl' (a : NbRec) : Pref a a := by unfold Pref; omega
theorem Pref.trans {a b c : NbRec} (h : Pref a b) (h' : Pref b c) : Pref a c := by unfold Pref at *; omega

theorem foldl_pref {f : NbRec → NbRec → NbRec}
    (hf : ∀ a x, f a x = x ∨ f a x = a)
    (hp : ∀ a x, a.id ≤ x.id → Pref (f a x) a ∧ Pref (f a x) x) (l : List NbRec) :
    ∀ r : NbRec, (∀ x ∈ l, r.id ≤ x.id) → l.Pairwise (fun a b => a.id ≤ b.id) →
      (l.foldl f r ∈ r :: l) ∧ ∀ x ∈ r :: l, Pref (l.foldl f r) x := by
  induction l with
  | nil => intro r _ _; simp [Pref.rfl']
  | cons y l ih =>
    intro r hr hs
    rw [List.pairwise_cons] at hs
    rw [List.foldl_cons]
    have hle : r.id ≤ y.id := hr y (by simp)
    obtain ⟨h1, h2⟩ := ih (f r y) (by
      intro x hx
      rcases hf r y with h | h
      · rw [h]; exact hs.1 x hx
      · rw [h]; exact hr x (by simp [hx])) hs.2
    refine ⟨?_, ?_⟩
    · rcases List.mem_cons.1 h1 with h | h
      · rw [h]
        rcases hf r y with h' | h' <;> rw [h'] <;> simp
      · simp [h]
    · intro x hx
      have hfy := hp r y hle
      have hh := h2 (f r y) (by simp)
      rcases List.mem_cons.1 hx with rfl | hx
      · exact hh.trans hfy.1
      · rcases List.mem_cons.1 hx with rfl | hx
        · exact hh.trans hfy.2
        · exact h2 x (by simp [hx])

theorem pickCompact_spec {r : NbRec} {l : List NbRec} (h : (r :: l).Pairwise (fun a b => a.id < b.id)) :
    pickCompact r (r :: l) ∈ r :: l ∧ ∀ x ∈ r :: l, Pref (pickCompact r (r :: l)) x := by
  rw [List.pairwise_cons] at h
  have := foldl_pref (f := fun r x => if r.shared < x.shared then x
    else if x.shared = r.shared ∧ x.card < r.card then x else r) (by
      intro a x
      split
      · exact Or.inl rfl
      · split
        · exact Or.inl rfl
        · exact Or.inr rfl) (by
      intro a x hax
      split
      · unfold Pref; omega
      · split <;> (unfold Pref; omega)) (r :: l) r (by
        intro x hx
        rcases List.mem_cons.1 hx with rfl | hx
        · exact Nat.le_refl _
        · exact Nat.le_of_lt (h.1 x hx)) (List.pairwise_cons.2 ⟨fun b hb => Nat.le_of_lt (h.1 b hb), h.2.imp Nat.le_of_lt⟩)
  refine ⟨?_, fun x hx => this.2 x (by simp [hx])⟩
  have h1 := this.1
  rcases List.mem_cons.1 h1 with h1 | h1
  · show List.foldl _ _ _ ∈ _
    rw [h1]; simp
  · exact h1

theorem argMaxShared_spec (l : List NbRec) :
    ∃ m, argMaxShared l = l.filter (fun x => decide (x.shared = m)) ∧ (∀ x ∈ l, x.shared ≤ m) ∧
      (l ≠ [] → ∃ x ∈ l, x.shared = m) := by
  unfold argMaxShared
  suffices H : ∀ l : List NbRec, (∀ x ∈ l, x.shared ≤ (l.foldl (fun (a : Nat × List NbRec) x =>
      if a.1 < x.shared then (x.shared, [x]) else if x.shared = a.1 then (a.1, a.2 ++ [x]) else a) (0, [])).1) ∧
      (l.foldl (fun (a : Nat × List NbRec) x =>
      if a.1 < x.shared then (x.shared, [x]) else if x.shared = a.1 then (a.1, a.2 ++ [x]) else a) (0, [])).2 =
      l.filter (fun x => decide (x.shared = (l.foldl (fun (a : Nat × List NbRec) x =>
      if a.1 < x.shared then (x.shared, [x]) else if x.shared = a.1 then (a.1, a.2 ++ [x]) else a) (0, [])).1)) ∧
      (l ≠ [] → ∃ x ∈ l, x.shared = (l.foldl (fun (a : Nat × List NbRec) x =>
      if a.1 < x.shared then (x.shared, [x]) else if x.shared = a.1 then (a.1, a.2 ++ [x]) else a) (0, [])).1) ∧
      (l = [] → (l.foldl (fun (a : Nat × List NbRec) x =>
      if a.1 < x.shared then (x.shared, [x]) else if x.shared = a.1 then (a.1, a.2 ++ [x]) else a) (0, [])).1 = 0) by
    obtain ⟨h1, h2, h3, _⟩ := H l
    exact ⟨_, h2, h1, h3⟩
  intro l
  induction l using List.reverseRecOn with
  | nil => simp
  | append_singleton l y ih =>
    rw [List.foldl_append]
    simp only [List.foldl_cons, List.foldl_nil]
    generalize (l.foldl (fun (a : Nat × List NbRec) x =>
      if a.1 < x.shared then (x.shared, [x]) else if x.shared = a.1 then (a.1, a.2 ++ [x]) else a) (0, [])) = a at ih ⊢
    obtain ⟨h1, h2, h3, h4⟩ := ih
    have hmem : ∀ x : NbRec, x ∈ l ++ [y] ↔ x ∈ l ∨ x = y := by simp
    split
    · rename_i hlt
      refine ⟨?_, ?_, fun _ => ⟨y, by simp, rfl⟩, by simp⟩
      · intro x hx
        rcases (hmem x).1 hx with hx | hx
        · have := h1 x hx; simp only; omega
        · rw [hx]; exact Nat.le_refl _
      · rw [List.filter_append]
        have : l.filter (fun x => decide (x.shared = y.shared)) = [] := by
          rw [List.filter_eq_nil_iff]
          intro x hx
          have := h1 x hx
          simp; omega
        rw [this]; simp
    · split
      · rename_i hlt heq
        refine ⟨?_, ?_, fun _ => ⟨y, by simp, heq⟩, by simp⟩
        · intro x hx
          rcases (hmem x).1 hx with hx | hx
          · exact h1 x hx
          · rw [hx]; exact Nat.le_of_eq heq
        · rw [List.filter_append, h2]; simp [heq]
      · rename_i hlt hne
        refine ⟨?_, ?_, ?_, by simp⟩
        · intro x hx
          rcases (hmem x).1 hx with hx | hx
          · exact h1 x hx
          · rw [hx]; omega
        · rw [List.filter_append, h2]; simp [hne]
        · intro _
          have : l ≠ [] := by
            rintro rfl
            have := h4 rfl
            omega
          obtain ⟨x, hx, hxe⟩ := h3 this
          exact ⟨x, by simp [hx], hxe⟩

theorem pickCard_spec {r : NbRec} {l : List NbRec} {m : Nat} (h : (r :: l).Pairwise (fun a b => a.id < b.id))
    (hm : ∀ x ∈ r :: l, x.shared = m) :
    pickCard r (r :: l) ∈ r :: l ∧ ∀ x ∈ r :: l, Pref (pickCard r (r :: l)) x := by
  unfold pickCard
  suffices H : ∀ (l : List NbRec) (r : NbRec), (∀ x ∈ l, r.id ≤ x.id) → l.Pairwise (fun a b => a.id < b.id) →
      (∀ x ∈ r :: l, x.shared = m) →
      l.foldl (fun r x => if x.card < r.card then x else r) r ∈ r :: l ∧
      ∀ x ∈ r :: l, Pref (l.foldl (fun r x => if x.card < r.card then x else r) r) x by
    have hc := List.pairwise_cons.1 h
    obtain ⟨h1, h2⟩ := H (r :: l) r (by
      intro x hx
      rcases List.mem_cons.1 hx with rfl | hx
      · exact Nat.le_refl _
      · exact Nat.le_of_lt (hc.1 x hx)) h (by
      intro x hx
      rcases List.mem_cons.1 hx with rfl | hx
      · exact hm _ (by simp)
      · exact hm x hx)
    refine ⟨?_, fun x hx => h2 x (by simp [hx])⟩
    rcases List.mem_cons.1 h1 with h1 | h1
    · rw [h1]; simp
    · exact h1
  intro l
  induction l with
  | nil => intro r _ _ _; simp [Pref.rfl']
  | cons y l ih =>
    intro r hr hs hm
    rw [List.pairwise_cons] at hs
    rw [List.foldl_cons]
    have hle : r.id ≤ y.id := hr y (by simp)
    have hsr : r.shared = m := hm r (by simp)
    have hsy : y.shared = m := hm y (by simp)
    by_cases hlt : y.card < r.card
    · rw [if_pos hlt]
      obtain ⟨h1, h2⟩ := ih y (fun x hx => Nat.le_of_lt (hs.1 x hx)) hs.2 (fun x hx => hm x (List.mem_cons_of_mem _ hx))
      refine ⟨List.mem_cons_of_mem _ h1, ?_⟩
      intro x hx
      rcases List.mem_cons.1 hx with rfl | hx
      · refine (h2 y (by simp)).trans ?_
        unfold Pref; omega
      · exact h2 x hx
    · rw [if_neg hlt]
      obtain ⟨h1, h2⟩ := ih r (fun x hx => hr x (by simp [hx])) hs.2 (by
        intro x hx
        rcases List.mem_cons.1 hx with rfl | hx
        · exact hsr
        · exact hm x (by simp [hx]))
      refine ⟨?_, ?_⟩
      · rcases List.mem_cons.1 h1 with h1 | h1
        · rw [h1]; simp
        · simp [h1]
      · intro x hx
        rcases List.mem_cons.1 hx with rfl | hx
        · exact h2 _ (by simp)
        · rcases List.mem_cons.1 hx with rfl | hx
          · refine (h2 r (by simp)).trans ?_
            unfold Pref; omega
          · exact h2 x (by simp [hx])

/-- the chosen receiver -/
theorem selectCC_ok {g : Graph W} (hv : ValidCRS g.nbC g.rowPtr g.colInd) {ccs : NMap CC} {fc : Nat}
    (hfc : fc < g.nbC) {neighs : NSet}
    (hn : ∀ k ∈ neighs, ∃ cc, ccs.find? k = some cc ∧ ∀ x ∈ cc.fcs, x < g.nbC) :
    Ok (selectCC g ccs fc neighs) (fun o =>
      (o = none → ∀ k ∈ neighs, ∀ cc, ccs.find? k = some cc → cc.iso = false) ∧
      (∀ id k, o = some (id, k) → ∃ b, b.id = id ∧ b.compact = k ∧ b.id ∈ neighs ∧ NbFeat g ccs fc b ∧
        ∀ x, x.id ∈ neighs → NbFeat g ccs fc x → (b.better = true ∧ x.better = false) ∨ (b.better = x.better ∧ Pref b x))) := by
  unfold selectCC
  refine Ok.bind (isoRecs_ok hv hfc hn) ?_
  rintro recs ⟨h1, h2, h3⟩
  have huniq : ∀ x, x.id ∈ neighs → NbFeat g ccs fc x → x ∈ recs := by
    intro x hx hfx
    obtain ⟨cc, hcc, hiso, hcard, hsh, hcmp, hbet⟩ := hfx
    obtain ⟨r, hr, hrid⟩ := h3 x.id hx cc hcc hiso
    obtain ⟨cc', hcc', _, hcard', hsh', hcmp', hbet'⟩ := (h2 r hr).2
    rw [hrid, hcc] at hcc'
    cases hcc'
    rw [hcmp] at hcmp'
    have hc : x.compact = r.compact := by injection hcmp'
    have : x = r := by
      cases x; cases r
      simp only [NbRec.mk.injEq]
      simp only at *
      refine ⟨hrid.symm, by omega, by omega, hc, ?_⟩
      rw [Bool.eq_iff_iff, hbet, hbet', hc]
    rw [this]; exact hr
  split
  · rename_i r l hfl
    rw [Ok_pure]
    refine ⟨by simp, ?_⟩
    intro id k hk
    simp only [Option.some.injEq, Prod.mk.injEq] at hk
    have hsub : ∀ x ∈ r :: l, x ∈ recs ∧ x.better = true := by
      intro x hx; rw [← hfl] at hx; simpa using hx
    obtain ⟨hp1, hp2⟩ := pickCompact_spec (r := r) (l := l) (by rw [← hfl]; exact h1.filter _)
    refine ⟨_, hk.1, hk.2, (h2 _ (hsub _ hp1).1).1, (h2 _ (hsub _ hp1).1).2, ?_⟩
    intro x hx hfx
    have hxr := huniq x hx hfx
    cases hb : x.better
    · left; exact ⟨(hsub _ hp1).2, rfl⟩
    · right
      refine ⟨(hsub _ hp1).2, hp2 x ?_⟩
      rw [← hfl]; simp [hxr, hb]
  · rename_i hfl
    rw [List.filter_eq_nil_iff] at hfl
    obtain ⟨m, hm1, hm2, hm3⟩ := argMaxShared_spec recs
    split
    · rename_i r l hrl
      rw [Ok_pure]
      refine ⟨by simp, ?_⟩
      intro id k hk
      simp only [Option.some.injEq, Prod.mk.injEq] at hk
      rw [hm1] at hrl
      have hsub : ∀ x ∈ r :: l, x ∈ recs ∧ x.shared = m := by
        intro x hx; rw [← hrl] at hx; simpa using hx
      obtain ⟨hp1, hp2⟩ := pickCard_spec (r := r) (l := l) (m := m) (by rw [← hrl]; exact h1.filter _) (fun x hx => (hsub x hx).2)
      refine ⟨_, hk.1, hk.2, (h2 _ (hsub _ hp1).1).1, (h2 _ (hsub _ hp1).1).2, ?_⟩
      intro x hx hfx
      have hxr := huniq x hx hfx
      right
      have e1 := hfl _ (hsub _ hp1).1
      have e2 := hfl _ hxr
      refine ⟨by rw [Bool.not_eq_true] at e1 e2; rw [e1, e2], ?_⟩
      by_cases hxm : x.shared = m
      · exact hp2 x (by rw [← hrl]; simp [hxr, hxm])
      · have := hm2 x hxr
        have := (hsub _ hp1).2
        unfold Pref; omega
    · rename_i hrl
      rw [Ok_pure]
      refine ⟨?_, by simp⟩
      intro _ k hk cc hcc
      cases hiso : cc.iso
      · rfl
      · exfalso
        obtain ⟨r, hr, _⟩ := h3 k hk cc hcc hiso
        obtain ⟨x, hx, hxm⟩ := hm3 (by rintro rfl; simp at hr)
        rw [hm1, List.filter_eq_nil_iff] at hrl
        exact hrl x hx (by simpa using hxm)

end CoMMA
