import Verif.Lemmas.Features
/-! # Features and aspect ratio when a cell is added -/

set_option linter.unusedSectionVars false

namespace CoMMA

variable {W : Type} [Num W]

/-! ### Largest and smallest of a list -/

theorem foldlM_total {α β : Type} {f : β → α → M β} {F : β → α → β} {l : List α}
    (h : ∀ b, ∀ x ∈ l, f b x = .ok (F b x)) (b : β) : l.foldlM f b = .ok (l.foldl F b) := by
  induction l generalizing b with
  | nil => rfl
  | cons x l ih =>
    rw [List.foldlM_cons, h b x (by simp), ok_bind, List.foldl_cons]
    exact ih (fun b y hy => h b y (by simp [hy])) _

theorem foldl_pair {α β γ : Type} (u : β → α → β) (v : γ → α → γ) (l : List α) (b : β) (c : γ) :
    l.foldl (fun a x => (u a.1 x, v a.2 x)) (b, c) = (l.foldl u b, l.foldl v c) := by
  induction l generalizing b c with
  | nil => rfl
  | cons x l ih => rw [List.foldl_cons, List.foldl_cons, List.foldl_cons, ih]

/-- largest value of the elements that satisfy `p` -/
def maxWhere {α : Type} (p : α → Bool) (v : α → W) (l : List α) (a : W) : W :=
  l.foldl (fun m x => if p x && Num.lt m (v x) then v x else m) a

/-- smallest value of the elements that satisfy `p` -/
def minWhere {α : Type} (p : α → Bool) (v : α → W) (l : List α) (a : W) : W :=
  l.foldl (fun m x => if p x && Num.lt (v x) m then v x else m) a

theorem LargestFrom.refl (hW : LawfulLt W) {a : W} {R : W → Prop} (h : ∀ d, ¬ R d) : LargestFrom a R a :=
  ⟨Or.inl rfl, hW.irrefl _, fun d hd => absurd hd (h d)⟩

theorem SmallestFrom.refl (hW : LawfulLt W) {a : W} {R : W → Prop} (h : ∀ d, ¬ R d) : SmallestFrom a R a :=
  ⟨Or.inl rfl, hW.irrefl _, fun d hd => absurd hd (h d)⟩

theorem maxWhere_spec (hW : LawfulLt W) {α : Type} (p : α → Bool) (v : α → W) (l : List α) (a : W) :
    LargestFrom a (fun d => ∃ x ∈ l, p x = true ∧ d = v x) (maxWhere p v l a) := by
  unfold maxWhere
  induction l generalizing a with
  | nil => exact LargestFrom.refl hW (by simp)
  | cons x l ih =>
    rw [List.foldl_cons]
    have h := ih (if p x && Num.lt a (v x) then v x else a)
    revert h
    generalize l.foldl _ _ = m
    rintro ⟨h1, h2, h3⟩
    by_cases hc : (p x && Num.lt a (v x)) = true
    · rw [if_pos hc] at h1 h2
      rw [Bool.and_eq_true] at hc
      refine ⟨?_, hW.le_trans (hW.asymm hc.2) h2, ?_⟩
      · rcases h1 with h1 | ⟨y, hy, hp, he⟩
        · exact Or.inr ⟨x, by simp, hc.1, h1⟩
        · exact Or.inr ⟨y, by simp [hy], hp, he⟩
      · rintro d ⟨y, hy, hp, rfl⟩
        rcases List.mem_cons.1 hy with rfl | hy
        · exact h2
        · exact h3 _ ⟨y, hy, hp, rfl⟩
    · rw [if_neg hc] at h1 h2
      refine ⟨?_, h2, ?_⟩
      · rcases h1 with h1 | ⟨y, hy, hp, he⟩
        · exact Or.inl h1
        · exact Or.inr ⟨y, by simp [hy], hp, he⟩
      · rintro d ⟨y, hy, hp, rfl⟩
        rcases List.mem_cons.1 hy with rfl | hy
        · have : Num.lt a (v y) = false := by
            rw [hp] at hc; simpa using hc
          exact hW.le_trans this h2
        · exact h3 _ ⟨y, hy, hp, rfl⟩

theorem minWhere_spec (hW : LawfulLt W) {α : Type} (p : α → Bool) (v : α → W) (l : List α) (a : W) :
    SmallestFrom a (fun d => ∃ x ∈ l, p x = true ∧ d = v x) (minWhere p v l a) := by
  unfold minWhere
  induction l generalizing a with
  | nil => exact SmallestFrom.refl hW (by simp)
  | cons x l ih =>
    rw [List.foldl_cons]
    have h := ih (if p x && Num.lt (v x) a then v x else a)
    revert h
    generalize l.foldl _ _ = m
    rintro ⟨h1, h2, h3⟩
    by_cases hc : (p x && Num.lt (v x) a) = true
    · rw [if_pos hc] at h1 h2
      rw [Bool.and_eq_true] at hc
      refine ⟨?_, hW.le_trans h2 (hW.asymm hc.2), ?_⟩
      · rcases h1 with h1 | ⟨y, hy, hp, he⟩
        · exact Or.inr ⟨x, by simp, hc.1, h1⟩
        · exact Or.inr ⟨y, by simp [hy], hp, he⟩
      · rintro d ⟨y, hy, hp, rfl⟩
        rcases List.mem_cons.1 hy with rfl | hy
        · exact h2
        · exact h3 _ ⟨y, hy, hp, rfl⟩
    · rw [if_neg hc] at h1 h2
      refine ⟨?_, h2, ?_⟩
      · rcases h1 with h1 | ⟨y, hy, hp, he⟩
        · exact Or.inl h1
        · exact Or.inr ⟨y, by simp [hy], hp, he⟩
      · rintro d ⟨y, hy, hp, rfl⟩
        rcases List.mem_cons.1 hy with rfl | hy
        · have : Num.lt (v y) a = false := by
            rw [hp] at hc; simpa using hc
          exact hW.le_trans h2 this
        · exact h3 _ ⟨y, hy, hp, rfl⟩

theorem LargestFrom.step (hW : LawfulLt W) {fl a m : W} {R R' S : W → Prop} (h1 : LargestFrom fl R a)
    (h2 : LargestFrom a R' m) (hS : ∀ d, S d ↔ R d ∨ R' d) : LargestFrom fl S m := by
  obtain ⟨a1, a2, a3⟩ := h1
  obtain ⟨b1, b2, b3⟩ := h2
  refine ⟨?_, hW.le_trans a2 b2, ?_⟩
  · rcases b1 with rfl | b1
    · exact a1.imp id (fun hh => (hS _).2 (Or.inl hh))
    · exact Or.inr ((hS _).2 (Or.inr b1))
  · intro d hd
    rcases (hS d).1 hd with hd | hd
    · exact hW.le_trans (a3 d hd) b2
    · exact b3 d hd

theorem SmallestFrom.step (hW : LawfulLt W) {cap a m : W} {R R' S : W → Prop} (h1 : SmallestFrom cap R a)
    (h2 : SmallestFrom a R' m) (hS : ∀ d, S d ↔ R d ∨ R' d) : SmallestFrom cap S m := by
  obtain ⟨a1, a2, a3⟩ := h1
  obtain ⟨b1, b2, b3⟩ := h2
  refine ⟨?_, hW.le_trans b2 a2, ?_⟩
  · rcases b1 with rfl | b1
    · exact a1.imp id (fun hh => (hS _).2 (Or.inl hh))
    · exact Or.inr ((hS _).2 (Or.inr b1))
  · intro d hd
    rcases (hS d).1 hd with hd | hd
    · exact hW.le_trans b2 (a3 d hd)
    · exact b3 d hd

/-! ### Distances -/

theorem dist2_symm (hS : SymmArith W) (a b : List W) : dist2 a b = dist2 b a := by
  unfold dist2
  congr 1
  induction a generalizing b with
  | nil => simp
  | cons x a ih =>
    cases b with
    | nil => simp
    | cons y b => rw [List.zipWith_cons_cons, List.zipWith_cons_cons, ih, hS.sq]

theorem PairDist_insert (hS : SymmArith W) {g : Graph W} {s : NSet} {x : Nat} (hxs : x ∉ s) (d : W) :
    PairDist g (s.insert x) d ↔ PairDist g s d ∨ ∃ y ∈ s, d = dist2 (centerAt g x) (centerAt g y) := by
  constructor
  · rintro ⟨i, hi, j, hj, hij, rfl⟩
    rcases NSet.mem_insert.1 hi with rfl | hi'
    · rcases NSet.mem_insert.1 hj with rfl | hj'
      · exact absurd rfl hij
      · exact Or.inr ⟨j, hj', rfl⟩
    · rcases NSet.mem_insert.1 hj with rfl | hj'
      · exact Or.inr ⟨i, hi', dist2_symm hS _ _⟩
      · exact Or.inl ⟨i, hi', j, hj', hij, rfl⟩
  · rintro (⟨i, hi, j, hj, hij, rfl⟩ | ⟨y, hy, rfl⟩)
    · exact ⟨i, NSet.mem_insert.2 (Or.inr hi), j, NSet.mem_insert.2 (Or.inr hj), hij, rfl⟩
    · exact ⟨x, NSet.mem_insert.2 (Or.inl rfl), y, NSet.mem_insert.2 (Or.inr hy), by rintro rfl; exact hxs hy, rfl⟩

theorem rd_center {g : Graph W} (hm : MeshSizes g) {i : Nat} (hi : i < g.nbC) : rd g.centers i = .ok (centerAt g i) := by
  have hic : i < g.centers.length := by rw [hm.centers]; exact hi
  rw [rd_of_lt hic]
  unfold centerAt
  rw [List.getElem?_eq_getElem hic, Option.getD_some]

theorem rd_volume {g : Graph W} (hm : MeshSizes g) {i : Nat} (hi : i < g.nbC) : rd g.volumes i = .ok (volumeAt g i) := by
  have hic : i < g.volumes.length := by rw [hm.volumes]; exact hi
  rw [rd_of_lt hic]
  unfold volumeAt
  rw [List.getElem?_eq_getElem hic, Option.getD_some]

theorem center_length {g : Graph W} (hm : MeshSizes g) {D : Nat} (hD : ∀ c ∈ g.centers, c.length = D) {i : Nat}
    (hi : i < g.nbC) : (centerAt g i).length = D := by
  have hic : i < g.centers.length := by rw [hm.centers]; exact hi
  unfold centerAt
  rw [List.getElem?_eq_getElem hic, Option.getD_some]
  exact hD _ (List.getElem_mem hic)

theorem updateGeom_eq (hW : LawfulLt W) (hS : SymmArith W) {g : Graph W} (hm : MeshSizes g) (h : Hash) {i : Nat} (hi : i < g.nbC) {cc : NSet}
    (hcc : ∀ y ∈ cc, y < g.nbC) (hni : i ∉ cc) {f : Feats W} (h1 : LargestFrom Num.lmin (PairDist g cc) f.sqDiam)
    (h2 : SmallestFrom Num.lmax (PairDist g cc) f.sqMin) :
    Ok (updateGeom g h i f cc) (fun r => LargestFrom Num.lmin (PairDist g (cc.insert i)) r.1 ∧
      SmallestFrom Num.lmax (PairDist g (cc.insert i)) r.2) := by
  obtain ⟨D, hD⟩ := hm.coords
  have hord : ∀ x, x ∈ h.ord 4 cc.elems ↔ x ∈ cc := fun x => (h.perm 4 cc.elems).mem_iff
  unfold updateGeom
  rw [rd_center hm hi, ok_bind, foldlM_total (F := fun (a : W × W) x =>
    (if true && Num.lt a.1 (dist2 (centerAt g i) (centerAt g x)) then dist2 (centerAt g i) (centerAt g x) else a.1,
     if true && Num.lt (dist2 (centerAt g i) (centerAt g x)) a.2 then dist2 (centerAt g i) (centerAt g x) else a.2))]
  · have hf := foldl_pair (fun (a : W) x => if true && Num.lt a (dist2 (centerAt g i) (centerAt g x)) then dist2 (centerAt g i) (centerAt g x) else a)
      (fun (a : W) x => if true && Num.lt (dist2 (centerAt g i) (centerAt g x)) a then dist2 (centerAt g i) (centerAt g x) else a)
      (h.ord 4 cc.elems) f.sqDiam f.sqMin
    rw [hf]
    refine ⟨h1.step hW (maxWhere_spec hW (fun _ => true) (fun x => dist2 (centerAt g i) (centerAt g x)) _ _) ?_,
      h2.step hW (minWhere_spec hW (fun _ => true) (fun x => dist2 (centerAt g i) (centerAt g x)) _ _) ?_⟩
    · intro d
      rw [PairDist_insert hS hni]
      simp only [hord, true_and]
    · intro d
      rw [PairDist_insert hS hni]
      simp only [hord, true_and]
  · intro a x hx
    have hx' := hcc x ((hord x).1 hx)
    rw [rd_center hm hx', ok_bind, sqDist_eq (by rw [center_length hm hD hx', center_length hm hD hi]), ok_bind]
    simp
    rfl

/-! ### Moments -/

theorem momentOf_insert (hA : CommAdd W) {g : Graph W} {s : NSet} {x : Nat} (hxs : x ∉ s) (j : Nat) :
    momentOf g (s.insert x) j =
      Num.add (momentOf g s j) (Num.mul (volumeAt g x) (((centerAt g x)[j]?).getD (Num.ofNat 0))) := by
  unfold momentOf
  rw [sumOver_insert hA hxs, hA.comm]

theorem updateBary_eq (hA : CommAdd W) {g : Graph W} (hm : MeshSizes g) {i : Nat} (hi : i < g.nbC) {cc : NSet} (hni : i ∉ cc) {f : Feats W}
    (hlen : f.sum.length = (centerAt g i).length) (hf : ∀ j, j < f.sum.length → f.sum[j]? = some (momentOf g cc j)) :
    Ok (updateBary g i f cc) (fun r => r.1.length = (centerAt g i).length ∧
      (∀ j, j < r.1.length → r.1[j]? = some (momentOf g (cc.insert i) j)) ∧
      r.2 = baryOf g (cc.insert i) (centerAt g i).length) := by
  unfold updateBary
  rw [rd_center hm hi, ok_bind, rd_volume hm hi, ok_bind]
  simp only
  refine Ok.mono (Ok.foldlM_range (I := fun k (a : List W × List W) => a.1.length = (centerAt g i).length ∧
    (∀ j, j < a.1.length → a.1[j]? = some (if j < k then momentOf g (cc.insert i) j else momentOf g cc j)) ∧
    a.2 = baryOf g (cc.insert i) k) ?_ ?_) ?_
  · exact ⟨hlen, fun j hj => by simpa using hf j hj, rfl⟩
  · rintro k hk a ⟨h1, h2, h3⟩
    have hk' : k < a.1.length := by omega
    have hak : a.1[k] = momentOf g cc k := by
      have := h2 k hk'
      rw [List.getElem?_eq_getElem hk'] at this
      simpa using this
    rw [rd_of_lt hk, ok_bind, rd_of_lt hk', ok_bind, wr_of_lt hk', ok_bind, Ok_pure]
    have hmo : Num.add a.1[k] (Num.mul (volumeAt g i) (centerAt g i)[k]) = momentOf g (cc.insert i) k := by
      rw [momentOf_insert hA hni, hak, List.getElem?_eq_getElem hk, Option.getD_some]
    simp only [hmo]
    refine ⟨by simpa using h1, ?_, ?_⟩
    · intro j hj
      have hj' : j < a.1.length := by simpa using hj
      by_cases hjk : j = k
      · subst hjk; simp [hj']
      · rw [List.getElem?_set_ne (fun hh => hjk hh.symm), h2 j hj']
        have : j < k ↔ j < k + 1 := by omega
        simp only [this]
    · rw [h3]
      unfold baryOf
      rw [List.range_succ, List.map_append, NSet.card_insert hni]
      rfl
  · rintro a ⟨h1, h2, h3⟩
    refine ⟨h1, fun j hj => ?_, h3⟩
    rw [h2 j hj, if_pos (by omega)]

theorem baryOf_length {g : Graph W} (s : NSet) (D : Nat) : (baryOf g s D).length = D := by
  unfold baryOf; simp

theorem maxBary_eq (hW : LawfulLt W) {g : Graph W} (hm : MeshSizes g) (h : Hash) {D : Nat} (hD : ∀ c ∈ g.centers, c.length = D)
    {i : Nat} (hi : i < g.nbC) {cc : NSet} (hcc : ∀ y ∈ cc, y < g.nbC) {b : List W} (hb : b = baryOf g (cc.insert i) D) :
    Ok (maxBary g h b i cc) (fun d => BaryDist2 g (cc.insert i) D d ∧
      ∀ x, BaryDist2 g (cc.insert i) D x → Num.lt d x = false) := by
  have hord : ∀ x, x ∈ h.ord 4 cc.elems ↔ x ∈ cc := fun x => (h.perm 4 cc.elems).mem_iff
  have hbl : b.length = D := by rw [hb, baryOf_length]
  unfold maxBary
  rw [rd_center hm hi, ok_bind, sqDist_eq (by rw [center_length hm hD hi, hbl]), ok_bind,
    foldlM_total (F := fun (a : W) x => if true && Num.lt a (dist2 b (centerAt g x)) then dist2 b (centerAt g x) else a)]
  · have hs := maxWhere_spec hW (fun _ => true) (fun x => dist2 b (centerAt g x)) (h.ord 4 cc.elems) (dist2 b (centerAt g i))
    unfold maxWhere at hs
    revert hs
    generalize List.foldl _ _ _ = m
    rintro ⟨h1, h2, h3⟩
    refine ⟨?_, ?_⟩
    · rcases h1 with rfl | ⟨x, hx, _, rfl⟩
      · exact ⟨i, NSet.mem_insert.2 (Or.inl rfl), by rw [hb]⟩
      · exact ⟨x, NSet.mem_insert.2 (Or.inr ((hord x).1 hx)), by rw [hb]⟩
    · rintro x ⟨y, hy, rfl⟩
      rw [← hb]
      rcases NSet.mem_insert.1 hy with rfl | hy
      · exact h2
      · exact h3 _ ⟨y, (hord y).2 hy, rfl, rfl⟩
  · intro a x hx
    have hx' := hcc x ((hord x).1 hx)
    rw [rd_center hm hx', ok_bind, sqDist_eq (by rw [center_length hm hD hx', hbl]), ok_bind]
    simp
    rfl

theorem minMaxBary_eq (hW : LawfulLt W) (h1 : Num.lt (Num.ctol : W) Num.lmin = false)
    (h2 : ∀ d : W, Num.lt Num.lmax (Num.sqrt d) = false) {g : Graph W} (hm : MeshSizes g) (h : Hash) {D : Nat}
    (hD : ∀ c ∈ g.centers, c.length = D) {i : Nat} (hi : i < g.nbC) {cc : NSet} (hcc : ∀ y ∈ cc, y < g.nbC)
    {b : List W} (hb : b = baryOf g (cc.insert i) D) {m : NMap Int}
    (hfa : ∀ x ∈ cc.insert i, m.find? x = some (freeFaces g (cc.insert i) x : Int)) :
    Ok (minMaxBary g h b m i cc) (fun r => SmallestFrom Num.lmax (BaryDist g (cc.insert i) D) r.1 ∧
      LargestFrom Num.lmin (BaryDist g (cc.insert i) D) r.2) := by
  have hord : ∀ x, x ∈ h.ord 4 cc.elems ↔ x ∈ cc := fun x => (h.perm 4 cc.elems).mem_iff
  have hbl : b.length = D := by rw [hb, baryOf_length]
  have hpos : ∀ x ∈ cc.insert i, (0 < (m.find? x).getD 0 ↔ 0 < freeFaces g (cc.insert i) x) := by
    intro x hx
    rw [hfa x hx, Option.getD_some]
    omega
  have hmem : ∀ x ∈ cc, x ∈ cc.insert i := fun x hx => NSet.mem_insert.2 (Or.inr hx)
  let v : Nat → W := fun x => Num.sqrt (dist2 b (centerAt g x))
  let p : Nat → Bool := fun x => decide (0 < freeFaces g (cc.insert i) x) && Num.lt Num.ctol (v x)
  have hBD : ∀ d, BaryDist g (cc.insert i) D d ↔ (p i = true ∧ d = v i) ∨ ∃ x ∈ h.ord 4 cc.elems, p x = true ∧ d = v x := by
    intro d
    constructor
    · rintro ⟨x, hx, hx1, rfl, hx2⟩
      rw [← hb] at hx2 ⊢
      have hpx : p x = true := by
        show (_ && _) = true
        rw [Bool.and_eq_true]
        exact ⟨by simpa using hx1, hx2⟩
      rcases NSet.mem_insert.1 hx with rfl | hx
      · exact Or.inl ⟨hpx, rfl⟩
      · exact Or.inr ⟨x, (hord x).2 hx, hpx, rfl⟩
    · have : ∀ x, x ∈ cc.insert i → p x = true → BaryDist g (cc.insert i) D (v x) := by
        intro x hx hp
        have hp : (decide (0 < freeFaces g (cc.insert i) x) && Num.lt Num.ctol (v x)) = true := hp
        rw [Bool.and_eq_true] at hp
        exact ⟨x, hx, by simpa using hp.1, by rw [← hb], hp.2⟩
      rintro (⟨hp, rfl⟩ | ⟨x, hx, hp, rfl⟩)
      · exact this i (NSet.mem_insert.2 (Or.inl rfl)) hp
      · exact this x (hmem x ((hord x).1 hx)) hp
  have hfirst : minMaxFirst g b m i = .ok (if p i then (v i, v i) else (Num.lmax, Num.lmin)) := by
    unfold minMaxFirst
    by_cases hc : 0 < (m.find? i).getD 0
    · rw [if_pos hc, rd_center hm hi, ok_bind, sqDist_eq (by rw [center_length hm hD hi, hbl]), ok_bind]
      have := (hpos i (NSet.mem_insert.2 (Or.inl rfl))).1 hc
      have hp : p i = Num.lt Num.ctol (v i) := by simp [p, this]
      rw [hp]
      rfl
    · rw [if_neg hc]
      have : ¬ 0 < freeFaces g (cc.insert i) i := fun hh => hc ((hpos i (NSet.mem_insert.2 (Or.inl rfl))).2 hh)
      have hp : p i = false := by simp [p]; omega
      rw [hp]
      rfl
  unfold minMaxBary
  rw [hfirst, ok_bind, foldlM_total (F := fun (a : W × W) x =>
    (if p x && Num.lt (v x) a.1 then v x else a.1, if p x && Num.lt a.2 (v x) then v x else a.2))]
  · have hstart : SmallestFrom Num.lmax (fun d => p i = true ∧ d = v i) (if p i then (v i, v i) else (Num.lmax, Num.lmin)).1 ∧
        LargestFrom Num.lmin (fun d => p i = true ∧ d = v i) (if p i then (v i, v i) else (Num.lmax, Num.lmin)).2 := by
      by_cases hp : p i = true
      · rw [if_pos hp]
        have hp' : (decide (0 < freeFaces g (cc.insert i) i) && Num.lt Num.ctol (v i)) = true := hp
        rw [Bool.and_eq_true] at hp'
        refine ⟨⟨Or.inr ⟨hp, rfl⟩, h2 _, ?_⟩, ⟨Or.inr ⟨hp, rfl⟩, ?_, ?_⟩⟩
        · rintro d ⟨_, rfl⟩; exact hW.irrefl _
        · exact hW.le_trans h1 (hW.asymm hp'.2)
        · rintro d ⟨_, rfl⟩; exact hW.irrefl _
      · rw [if_neg hp]
        exact ⟨SmallestFrom.refl hW (fun d hd => hp hd.1), LargestFrom.refl hW (fun d hd => hp hd.1)⟩
    revert hstart
    generalize (if p i then (v i, v i) else (Num.lmax, Num.lmin)) = st
    rintro ⟨hs1, hs2⟩
    have hf := foldl_pair (fun (a : W) x => if p x && Num.lt (v x) a then v x else a)
      (fun (a : W) x => if p x && Num.lt a (v x) then v x else a) (h.ord 4 cc.elems) st.1 st.2
    rw [show (st.1, st.2) = st from rfl] at hf
    rw [hf]
    exact ⟨hs1.step hW (minWhere_spec hW p v _ _) hBD, hs2.step hW (maxWhere_spec hW p v _ _) hBD⟩
  · intro a x hx
    have hxc := (hord x).1 hx
    by_cases hc : 0 < (m.find? x).getD 0
    · rw [if_pos hc, rd_center hm (hcc x hxc), ok_bind, sqDist_eq (by rw [center_length hm hD (hcc x hxc), hbl]), ok_bind]
      have := (hpos x (hmem x hxc)).1 hc
      have hp : p x = Num.lt Num.ctol (v x) := by simp [p, this]
      simp only [hp]
      show (Except.ok _ : M (W × W)) = .ok _
      congr 1
      show (if Num.lt Num.ctol (v x) = true then (if Num.lt (v x) a.1 = true then v x else a.1, if Num.lt a.2 (v x) = true then v x else a.2) else a) = _
      cases Num.lt Num.ctol (v x) <;> simp
    · rw [if_neg hc]
      have : ¬ 0 < freeFaces g (cc.insert i) x := fun hh => hc ((hpos x (hmem x hxc)).2 hh)
      have hp : p x = false := by simp [p]; omega
      simp [hp]
      rfl

/-! ### One cell, one more cell -/

theorem updateBasic_eq {g : Graph W} {kind : ARKind} (hF : FeatInput g kind) {i : Nat}
    (hi : i < g.nbC) {cc : NSet} (hcc : ∀ y ∈ cc, y < g.nbC) (hni : i ∉ cc) {f : Feats W} (hf : FeatsOf g kind cc f)
    {cw uf : Bool} (hcw : cw = true → kind.weights = true) (huf : uf = true → kind = .maxOverMinBary) :
    Ok (updateBasic cw uf g i f cc) (fun r => r.1 = nbShared (rowOf g.rowPtr g.colInd i) cc ∧
      r.2.measure = measureOf g (cc.insert i) ∧ r.2.nInt = internalPairs g (cc.insert i) ∧
      (cw = true → r.2.int = internalWeight g (cc.insert i) ∧ r.2.ext = externalWeight g (cc.insert i)) ∧
      (uf = true → ∀ x, r.2.facets.find? x = if x ∈ cc.insert i then some (freeFaces g (cc.insert i) x : Int) else none)) := by
  have h := hF.crs
  have hm := hF.sizes
  unfold updateBasic
  rw [rd_volume hm hi, ok_bind]
  refine Ok.bind (Ok.and (sharedFaces_ok h hm hi hni) (sharedFaces_weight h hm hi hni)) ?_
  rintro ⟨sw, s⟩ ⟨⟨h1, h2⟩, h3⟩
  simp only at h1 h2 h3 ⊢
  refine Ok.bind (P := fun (d : Feats W) => d.measure = measureOf g (cc.insert i) ∧ d.nInt = internalPairs g (cc.insert i) ∧
      (cw = true → d.int = internalWeight g (cc.insert i) ∧ d.ext = externalWeight g (cc.insert i))) ?_ ?_
  · have hme : Num.add f.measure (volumeAt g i) = measureOf g (cc.insert i) := by
      rw [hf.measure]
      unfold measureOf
      rw [sumOver_insert hF.add hni, hF.add.comm]
    have hni' : f.nInt + s.card = internalPairs g (cc.insert i) := by
      rw [internalPairs_insert h hF.sym hcc hi hni, hf.nInt, h2]
    unfold withWeights updateWeights
    cases cw with
    | false =>
      simp only [Bool.false_eq_true, if_false]
      exact ⟨hme, hni', fun hh => absurd hh (by simp)⟩
    | true =>
      simp only [if_true]
      obtain ⟨hX, hSW, hl⟩ := hF.weights (hcw rfl)
      obtain ⟨hint, hext⟩ := hf.weights (hcw rfl)
      obtain ⟨x, hx, hx'⟩ := totalWeight_eq h hm hi
      rw [hx, hx' hX]
      refine ⟨hme, hni', fun _ => ⟨?_, ?_⟩⟩
      · show Num.add f.int sw = _
        rw [internalWeight_insert hF.add hSW hni, hint, h3]
      · show Num.sub (Num.add f.ext _) (Num.mul (Num.ofNat 2) sw) = _
        rw [hX.two, hext, externalWeight_insert hF.add h hm hSW hl hi hni, h3, hX.cancel]
  · rintro d ⟨d1, d2, d3⟩
    cases uf with
    | false =>
      simp only [Bool.false_eq_true, if_false]
      exact ⟨h2, d1, d2, d3, fun hh => absurd hh (by simp)⟩
    | true =>
      simp only [if_true]
      have hk := huf rfl
      obtain ⟨hu, hl, _, _⟩ := hF.facets hk
      have hfa := hf.facets hk
      refine Ok.bind (updateFacets_eq h hm hi (m := f.facets) (s := s) ?_) ?_
      · intro x hx
        exact ⟨_, by rw [hfa x, if_pos ((h1 x).1 hx).2]⟩
      · intro m hm'
        refine ⟨h2, d1, d2, d3, fun _ x => ?_⟩
        simp only
        rw [hm' x]
        by_cases hxi : x = i
        · subst hxi
          rw [if_pos rfl, if_pos (NSet.mem_insert.2 (Or.inl rfl))]
          have := freeFaces_new h hu hl (s := cc) hi
          rw [h2]
          congr 1
          omega
        · rw [if_neg hxi, hfa x]
          by_cases hxc : x ∈ cc
          · rw [if_pos hxc, if_pos (NSet.mem_insert.2 (Or.inr hxc)), Option.map_some]
            have := freeFaces_insert h hF.sym hu hcc hi hni hxc
            have hiff : x ∈ s ↔ x ∈ rowL g.rowPtr g.colInd i := by rw [h1 x]; simp [hxc]
            congr 1
            by_cases hxs : x ∈ s
            · rw [if_pos hxs]; rw [if_pos (hiff.1 hxs)] at this; omega
            · rw [if_neg hxs]; rw [if_neg (fun hh => hxs (hiff.2 hh))] at this; omega
          · rw [if_neg hxc, if_neg (by rw [NSet.mem_insert]; simp [hxi, hxc])]
            rfl

theorem featsOf_init {g : Graph W} {kind : ARKind} (hF : FeatInput g kind) {i : Nat} (hi : i < g.nbC) :
    Ok (Feats.init g i) (fun f => FeatsOf g kind (NSet.single i) f) := by
  have h := hF.crs
  have hm := hF.sizes
  have hloop : NoSelfLoop g.rowPtr g.colInd → ∀ y ∈ rowL g.rowPtr g.colInd i, y ≠ i := by
    rintro hl y hy rfl
    exact hl y ((h.mem_rowL hi).1 hy)
  unfold Feats.init
  obtain ⟨x, hx, hx'⟩ := totalWeight_eq h hm hi
  rw [rd_volume hm hi, ok_bind, hx, ok_bind, totalFaces_eq h hm hi, ok_bind, rd_center hm hi, ok_bind, Ok_pure]
  refine ⟨?_, ?_, ?_, ?_, ?_, ?_, ?_⟩
  · unfold measureOf
    rw [sumOver_single hF.add]
  · unfold internalPairs
    have : (NSet.single i).elems = [i] := rfl
    rw [this]
    simp
  · intro hk
    obtain ⟨hX, _, hl⟩ := hF.weights hk
    have hx' := hx' hX
    unfold internalWeight externalWeight
    rw [sumOver_single hF.add, sumOver_single hF.add]
    refine ⟨(weightTo_none ?_).symm, ?_⟩
    · intro e _
      have : (NSet.single i).has e.1 = decide (e.1 = i) := by
        rw [Bool.eq_iff_iff, NSet.has_iff, NSet.mem_single]; simp
      rw [this]
      simp
      omega
    · simp only
      rw [hx']
      congr 1
      apply weightTo_congr
      intro e he
      have := facesOf_adj h hm.values hi he
      have hne : e.1 ≠ i := by intro hh; rw [hh] at this; exact hl i this
      have : (NSet.single i).has e.1 = false := by rw [NSet.has_false_iff, NSet.mem_single]; exact hne
      rw [this]
      rfl
  · intro hk
    refine LargestFrom.refl (hF.geom hk).1 ?_
    rintro d ⟨a, ha, b, hb, hab, _⟩
    rw [NSet.mem_single] at ha hb
    exact hab (by rw [ha, hb])
  · intro hk
    refine SmallestFrom.refl (hF.geom hk).1 ?_
    rintro d ⟨a, ha, b, hb, hab, _⟩
    rw [NSet.mem_single] at ha hb
    exact hab (by rw [ha, hb])
  · intro hk x hx
    rw [NSet.mem_single] at hx
    subst hx
    refine ⟨by simp, ?_⟩
    intro j hj
    have hj' : j < (centerAt g x).length := by simpa using hj
    unfold momentOf
    rw [sumOver_single hF.add]
    simp [hj', (hF.bary hk).2.mul]
  · intro hk x
    obtain ⟨_, hl, _, _⟩ := hF.facets hk
    rw [NMap.find?_insert]
    simp only [NSet.mem_single]
    by_cases hxi : x = i
    · subst hxi
      rw [if_pos rfl, if_pos rfl]
      unfold freeFaces
      rw [rowOf_eq h hi, List.countP_eq_length.2]
      intro y hy
      rw [Bool.not_eq_true', NSet.has_false_iff, NSet.mem_single]
      exact hloop hl y hy
    · rw [if_neg hxi, if_neg hxi]
      rfl

theorem featsOf_compute {g : Graph W} {kind : ARKind} (hF : FeatInput g kind) (hh : Hash) (hk : kind ≠ .unknown) {i : Nat}
    (hi : i < g.nbC) {cc : NSet} (hcc : ∀ y ∈ cc, y < g.nbC) (hne : ∃ y, y ∈ cc) (hni : i ∉ cc) {f : Feats W}
    (hf : FeatsOf g kind cc f) :
    Ok ((arOf g hh kind).compute i f cc) (fun r => r.1 = nbShared (rowOf g.rowPtr g.colInd i) cc ∧
      RatioOf g kind (cc.insert i) r.2.1 ∧ FeatsOf g kind (cc.insert i) r.2.2) := by
  have h := hF.crs
  have hm := hF.sizes
  obtain ⟨D, hD⟩ := hm.coords
  have hins : ∀ y ∈ cc.insert i, y < g.nbC := by
    intro y hy
    rcases NSet.mem_insert.1 hy with rfl | hy
    · exact hi
    · exact hcc y hy
  have hcen : ∀ y ∈ cc.insert i, (centerAt g y).length = D := fun y hy => center_length hm hD (hins y hy)
  unfold arOf
  simp only
  split
  · rename_i hb
    obtain ⟨hW, hS⟩ := hF.bary hb
    obtain ⟨y, hy⟩ := hne
    have hw : kind.weights = false := by cases kind <;> first | rfl | exact absurd hb (by simp [ARKind.bary])
    have hg : kind.geom = false := by cases kind <;> first | rfl | exact absurd hb (by simp [ARKind.bary])
    obtain ⟨hlen, hmo⟩ := hf.moments hb y hy
    have hleni : f.sum.length = (centerAt g i).length := by
      rw [hlen, hcen y (NSet.mem_insert.2 (Or.inr hy)), hcen i (NSet.mem_insert.2 (Or.inl rfl))]
    unfold arBary
    refine Ok.bind (updateBasic_eq hF hi hcc hni hf (fun hh => absurd hh (by simp)) (fun hk => by simpa using hk)) ?_
    rintro ⟨n, nf⟩ ⟨h1, h2, h3, _, h5⟩
    simp only at h1 h2 h3 h5 ⊢
    refine Ok.bind (updateBary_eq hF.add hm hi hni hleni hmo) ?_
    rintro ⟨sum, bary⟩ ⟨b1, b2, b3⟩
    simp only at b1 b2 b3 ⊢
    have hiD := hcen i (NSet.mem_insert.2 (Or.inl rfl))
    rw [hiD] at b1 b3
    split
    · rename_i hk2
      obtain ⟨_, _, hc1, hc2⟩ := hF.facets hk2
      have h5' := h5 (by simp [hk2])
      refine Ok.bind (minMaxBary_eq hW hc1 hc2 hm hh hD hi hcc b3 (m := nf.facets) (fun x hx => by rw [h5' x, if_pos hx])) ?_
      rintro ⟨mn, mx⟩ ⟨m1, m2⟩
      refine ⟨h1, ?_, h2, h3, fun hh => absurd hh (by simp [hw]), fun hh => absurd hh (by simp [hg]),
        fun hh => absurd hh (by simp [hg]), fun _ x hx => ⟨by rw [hcen x hx]; exact b1, b2⟩, fun _ => h5'⟩
      subst hk2
      exact ⟨D, mn, mx, hcen, m1, m2, rfl⟩
    · rename_i hk2
      have hk3 : kind = .maxBaryOverRadius := by
        cases kind <;> first | rfl | exact absurd rfl hk2 | (simp [ARKind.bary] at hb)
      refine Ok.bind (maxBary_eq hW hm hh hD hi hcc b3) ?_
      rintro d ⟨m1, m2⟩
      refine ⟨h1, ?_, h2, h3, fun hh => absurd hh (by simp [hw]), fun hh => absurd hh (by simp [hg]),
        fun hh => absurd hh (by simp [hg]), fun _ x hx => ⟨by rw [hcen x hx]; exact b1, b2⟩, fun hh => absurd hh hk2⟩
      subst hk3
      refine ⟨D, d, hcen, m2, m1, ?_⟩
      unfold xOverRadius overRadius
      simp only [h2]
  · rename_i hb
    have hk2 : kind ≠ .maxOverMinBary := by rintro rfl; exact hb rfl
    split
    · rename_i hg
      obtain ⟨hW, hS⟩ := hF.geom hg
      have hw : kind.weights = false := by cases kind <;> first | rfl | exact absurd hg (by simp [ARKind.geom])
      unfold arGeom
      refine Ok.bind (updateBasic_eq hF hi hcc hni hf (fun hh => absurd hh (by simp)) (fun hh => absurd hh (by simp))) ?_
      rintro ⟨n, nf⟩ ⟨h1, h2, h3, _, _⟩
      simp only at h1 h2 h3 ⊢
      refine Ok.bind (updateGeom_eq hW hS hm hh hi hcc hni (hf.diam hg) (hf.edge hg)) ?_
      rintro ⟨d, e⟩ ⟨g1, g2⟩
      refine ⟨h1, ?_, h2, h3, fun hh => absurd hh (by simp [hw]), fun _ => g1, fun _ => g2,
        fun hh => absurd hh (by simp [hb]), fun hh => absurd hh hk2⟩
      have hcard : (cc.insert i).card = cc.card + 1 := NSet.card_insert hni
      cases kind <;> first | (simp [ARKind.geom] at hg; done) | skip
      · refine ⟨d, g1, ?_⟩
        unfold arValue xOverRadius overRadius
        simp only [h2]
      · refine ⟨d, e, g1, g2, ?_⟩
        unfold arValue
        have : cc.card = 1 ↔ cc.card + 1 = 2 := by omega
        simp only [hcard, this]
      · exact g1
    · rename_i hg
      unfold arPlain
      refine Ok.bind (updateBasic_eq hF hi hcc hni hf (fun hh => hh) (fun hh => absurd hh (by simp))) ?_
      rintro ⟨n, nf⟩ ⟨h1, h2, h3, h4, _⟩
      simp only at h1 h2 h3 h4 ⊢
      refine ⟨h1, ?_, h2, h3, h4, fun hh => absurd hh hg, fun hh => absurd hh hg, fun hh => absurd hh hb,
        fun hh => absurd hh hk2⟩
      cases kind <;> first | exact absurd rfl hb | exact absurd rfl hg | exact absurd rfl hk | skip
      · show Num.div _ _ = _; simp only [h2]
      · show Num.div _ _ = _; simp only [(h4 rfl).1]
      · show (if _ then _ else _) = _; simp only [h2, (h4 rfl).2]
      · show nf.ext = _; exact (h4 rfl).2
      · show Num.div _ _ = _; simp only [h2, (h4 rfl).2]

end CoMMA
