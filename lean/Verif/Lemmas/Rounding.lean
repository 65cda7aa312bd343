import Verif.Lemmas.Double
import Verif.Lemmas.CoarseRows
import Verif.Props.Levels
/-! # Sums in rounded arithmetic -/

set_option linter.unusedSectionVars false

namespace CoMMA

variable {W : Type} [Num W]

theorem sumW_cons_zero (h0 : ∀ a : W, Num.add (Num.ofNat 0) a = a) (x : W) (l : List W) :
    sumW (x :: l) = l.foldl Num.add x := by
  unfold sumW
  rw [List.foldl_cons, h0]

/-- a sum of numbers, one after the other -/
theorem foldl_error {v : W → ℚ} {Fin : W → Prop} {u : ℚ} (hR : RoundedAdd W v Fin u) (l : List W) : ∀ x : W,
    Fin (l.foldl Num.add x) → Fin x ∧ (∀ y ∈ l, Fin y) ∧
      |v (l.foldl Num.add x) - (v x + (l.map v).sum)| ≤
        ((1 + u) ^ l.length - 1) * (|v x| + (l.map (fun a => |v a|)).sum) := by
  induction l using List.reverseRecOn with
  | nil => intro x hx; simpa using hx
  | append_singleton l a ih =>
    intro x hx
    rw [List.foldl_append, List.foldl_cons, List.foldl_nil] at hx ⊢
    obtain ⟨h1, h2⟩ := hR.finite _ _ hx
    obtain ⟨h3, h4, h5⟩ := ih x h1
    refine ⟨h3, ?_, ?_⟩
    · intro y hy
      rcases List.mem_append.1 hy with hy | hy
      · exact h4 y hy
      · rw [List.mem_singleton.1 hy]; exact h2
    · have h6 := hR.add _ _ hx
      have hu := hR.nonneg
      rw [List.map_append, List.map_append, List.sum_append, List.sum_append, List.length_append]
      simp only [List.map_cons, List.map_nil, List.sum_cons, List.sum_nil, add_zero, List.length_cons, List.length_nil,
        zero_add, pow_succ]
      generalize v (Num.add (l.foldl Num.add x) a) = r at h6 ⊢
      generalize v (l.foldl Num.add x) = s at h5 h6
      have hT : |v x + (l.map v).sum| ≤ |v x| + (l.map (fun a => |v a|)).sum := by
        refine (abs_add_le _ _).trans ?_
        have : ∀ l : List W, |(l.map v).sum| ≤ (l.map (fun a => |v a|)).sum := by
          intro l
          induction l with
          | nil => simp
          | cons b l ih =>
            simp only [List.map_cons, List.sum_cons]
            exact (abs_add_le _ _).trans (by linarith)
        linarith [this l]
      have hA : 0 ≤ |v x| + (l.map (fun a => |v a|)).sum := (abs_nonneg _).trans hT
      rw [← add_assoc (v x), ← add_assoc |v x|]
      generalize v x + (l.map v).sum = T at h5 hT ⊢
      generalize |v x| + (l.map (fun a => |v a|)).sum = A at h5 hT hA ⊢
      have hp : 1 ≤ (1 + u) ^ l.length := one_le_pow₀ (by linarith)
      generalize (1 + u) ^ l.length = p at h5 hp ⊢
      have hs : |s| ≤ p * A := by
        have : |s| ≤ |s - T| + |T| := by
          have := abs_add_le (s - T) T
          simpa using this
        linarith
      have h7 : |s + v a| ≤ p * A + |v a| := (abs_add_le _ _).trans (by linarith)
      have h8 : u * |s + v a| ≤ u * (p * A + |v a|) := mul_le_mul_of_nonneg_left h7 hu
      have h9 : |r - (T + v a)| ≤ |r - (s + v a)| + |s - T| := by
        have : r - (T + v a) = (r - (s + v a)) + (s - T) := by ring
        rw [this]; exact abs_add_le _ _
      have h10 : 0 ≤ (p - 1) * |v a| := mul_nonneg (by linarith) (abs_nonneg _)
      have h11 : 0 ≤ u * ((p - 1) * |v a|) := mul_nonneg hu h10
      have e : (p * (1 + u) - 1) * (A + |v a|) =
          u * (p * A + |v a|) + (p - 1) * A + (p - 1) * |v a| + u * ((p - 1) * |v a|) := by ring
      rw [e]
      linarith

/-- rounded sums: one rounding less than numbers -/
theorem sumW_error {v : W → ℚ} {Fin : W → Prop} {u : ℚ} (hR : RoundedAdd W v Fin u) (l : List W) (hf : Fin (sumW l)) :
    (∀ y ∈ l, Fin y) ∧ |v (sumW l) - (l.map v).sum| ≤ ((1 + u) ^ (l.length - 1) - 1) * (l.map (fun a => |v a|)).sum := by
  cases l with
  | nil => simp [sumW, hR.zero]
  | cons x l =>
    rw [sumW_cons_zero hR.zeroAdd] at hf ⊢
    obtain ⟨h1, h2, h3⟩ := foldl_error hR l x hf
    refine ⟨?_, by simpa using h3⟩
    intro y hy
    rcases List.mem_cons.1 hy with rfl | hy
    · exact h1
    · exact h2 y hy

/-- sums of numbers that are not negative -/
theorem foldl_grows {Fin : W → Prop} (hL : LawfulLt W) (hG : GrowingAdd W Fin) (l : List W)
    (hl : ∀ y ∈ l, Num.lt y (Num.ofNat 0) = false) : ∀ x : W, Num.lt x (Num.ofNat 0) = false →
      Num.lt (l.foldl Num.add x) x = false ∧ (∀ y ∈ l, Fin y → Num.lt (l.foldl Num.add x) y = false) ∧
      (Num.lt (Num.ofNat 0) x = true → Num.lt (Num.ofNat 0) (l.foldl Num.add x) = true) := by
  have tr : ∀ a b c : W, Num.lt a b = false → Num.lt b c = false → Num.lt a c = false := by
    intro a b c h1 h2
    by_contra h3
    have h3 : Num.lt a c = true := by simpa using h3
    cases h4 : Num.lt b a with
    | true => rw [hL.trans _ _ _ h4 h3] at h2; cases h2
    | false =>
      have := hL.total _ _ h1 h4
      subst this
      rw [h3] at h2; cases h2
  induction l with
  | nil => intro x _; simp [hL.irrefl]
  | cons a l ih =>
    intro x hx
    have ha := hl a (by simp)
    have hx' : Num.lt (Num.add x a) (Num.ofNat 0) = false := tr _ _ _ (hG.left x a ha) hx
    obtain ⟨h1, h2, h3⟩ := ih (fun y hy => hl y (by simp [hy])) (Num.add x a) hx'
    rw [List.foldl_cons]
    refine ⟨tr _ _ _ h1 (hG.left x a ha), ?_, fun h => h3 (hG.pos x a h ha)⟩
    intro y hy hf
    rcases List.mem_cons.1 hy with rfl | hy
    · exact tr _ _ _ h1 (hG.right x y hf hx)
    · exact h2 y hy hf

/-- a sum is the sum of the sums of its parts -/
theorem sum_fibers {f2c : Nat → Option Nat} (f : Nat → ℚ) {J : List Nat} (hJ : J.Nodup) (l : List Nat) :
    (J.map (fun k => ((l.filter (fun i => decide (f2c i = some k))).map f).sum)).sum =
      ((l.filter (fun i => decide (∃ k ∈ J, f2c i = some k))).map f).sum := by
  induction l with
  | nil => simp
  | cons a l ih =>
    have h1 : ∀ k, (((a :: l).filter (fun i => decide (f2c i = some k))).map f).sum =
        (if f2c a = some k then f a else 0) + ((l.filter (fun i => decide (f2c i = some k))).map f).sum := by
      intro k
      by_cases hk : f2c a = some k
      · simp [hk]
      · simp [hk]
    have h2 : (J.map (fun k => if f2c a = some k then f a else 0)).sum = if ∃ k ∈ J, f2c a = some k then f a else 0 := by
      clear ih h1
      induction J with
      | nil => simp
      | cons b J ih =>
        rw [List.nodup_cons] at hJ
        rw [List.map_cons, List.sum_cons, ih hJ.2]
        by_cases hb : f2c a = some b
        · have hno : ¬ ∃ k ∈ J, f2c a = some k := by
            rintro ⟨k, hk, he⟩
            rw [hb] at he; cases he
            exact hJ.1 hk
          rw [if_pos hb, if_neg hno, if_pos ⟨b, by simp, hb⟩, add_zero]
        · by_cases hk : ∃ k ∈ J, f2c a = some k
          · obtain ⟨k, hk1, hk2⟩ := hk
            rw [if_neg hb, if_pos ⟨k, hk1, hk2⟩, if_pos ⟨k, by simp [hk1], hk2⟩, zero_add]
          · rw [if_neg hb, if_neg hk, if_neg, add_zero]
            rintro ⟨k, hk1, hk2⟩
            rcases List.mem_cons.1 hk1 with rfl | hk1
            · exact hb hk2
            · exact hk ⟨k, hk1, hk2⟩
    have h3 : (J.map (fun k => (((a :: l).filter (fun i => decide (f2c i = some k))).map f).sum)).sum =
        (J.map (fun k => if f2c a = some k then f a else 0)).sum +
          (J.map (fun k => ((l.filter (fun i => decide (f2c i = some k))).map f).sum)).sum := by
      rw [← List.sum_map_add]
      congr 1
      exact List.map_congr_left fun k _ => h1 k
    rw [h3, h2, ih]
    by_cases hk : ∃ k ∈ J, f2c a = some k
    · rw [if_pos hk, List.filter_cons_of_pos (by simpa using hk)]; simp
    · rw [if_neg hk, List.filter_cons_of_neg (by simpa using hk)]; simp

/-- value of an entry, zero if there is none -/
def entryVal (v : W → ℚ) (x : List W) (i : Nat) : ℚ := ((x[i]?).map v).getD 0

theorem exactSum_eq (v : W → ℚ) (x : List W) (l : List Nat) : exactSum v x l = (l.map (entryVal v x)).sum := by
  unfold exactSum entriesAt entryVal
  induction l with
  | nil => simp
  | cons a l ih =>
    cases h : x[a]? with
    | none => rw [List.filterMap_cons_none h]; simp [h, ih]
    | some y => rw [List.filterMap_cons_some h]; simp [h, ih]

theorem exactSize_eq (v : W → ℚ) (x : List W) (l : List Nat) :
    exactSize v x l = (l.map (fun i => |entryVal v x i|)).sum := by
  unfold exactSize entriesAt entryVal
  induction l with
  | nil => simp
  | cons a l ih =>
    cases h : x[a]? with
    | none => rw [List.filterMap_cons_none h]; simp [h, ih]
    | some y => rw [List.filterMap_cons_some h]; simp [h, ih]

theorem exactSize_nonneg (v : W → ℚ) (x : List W) (l : List Nat) : 0 ≤ exactSize v x l := by
  rw [exactSize_eq]
  refine List.sum_nonneg ?_
  intro a ha
  obtain ⟨i, _, rfl⟩ := List.mem_map.1 ha
  exact abs_nonneg _

theorem entriesAt_length {α : Type} {x : List α} {l : List Nat} (h : ∀ i ∈ l, i < x.length) :
    (entriesAt x l).length = l.length := by
  unfold entriesAt
  induction l with
  | nil => rfl
  | cons a l ih =>
    rw [List.filterMap_cons_some (List.getElem?_eq_getElem (h a (by simp)))]
    simp [ih (fun i hi => h i (by simp [hi]))]

/-- `V` is the sum of the entries at `l` up to rounding -/
def NearSum (v : W → ℚ) (u : ℚ) (x : List W) (l : List Nat) (V : W) : Prop :=
  |v V - exactSum v x l| ≤ ((1 + u) ^ (l.length - 1) - 1) * exactSize v x l

theorem nearSum_sumW {v : W → ℚ} {Fin : W → Prop} {u : ℚ} (hR : RoundedAdd W v Fin u) {x : List W} {l : List Nat}
    (hl : ∀ i ∈ l, i < x.length) (hf : Fin (sumW (entriesAt x l))) :
    (∀ i ∈ l, ∀ y, x[i]? = some y → Fin y) ∧ NearSum v u x l (sumW (entriesAt x l)) := by
  obtain ⟨h1, h2⟩ := sumW_error hR _ hf
  rw [entriesAt_length hl] at h2
  refine ⟨?_, h2⟩
  intro i hi y hy
  exact h1 y (List.mem_filterMap.2 ⟨i, hi, hy⟩)

theorem length_le_sum {α : Type} (m : α → Nat) (J : List α) (h : ∀ j ∈ J, 1 ≤ m j) :
    J.length ≤ (J.map m).sum ∧ ∀ j ∈ J, m j + J.length ≤ (J.map m).sum + 1 := by
  induction J with
  | nil => simp
  | cons a J ih =>
    obtain ⟨h1, h2⟩ := ih (fun j hj => h j (by simp [hj]))
    have ha := h a (by simp)
    simp only [List.length_cons, List.map_cons, List.sum_cons]
    refine ⟨by omega, ?_⟩
    intro j hj
    rcases List.mem_cons.1 hj with rfl | hj
    · omega
    · have := h2 j hj; omega

theorem sum_abs_le (f : Nat → ℚ) (J : List Nat) : |(J.map f).sum| ≤ (J.map (fun j => |f j|)).sum := by
  induction J with
  | nil => simp
  | cons b l ih =>
    simp only [List.map_cons, List.sum_cons]
    exact (abs_add_le _ _).trans (by linarith)

theorem sum_map_sub' (f g : Nat → ℚ) (J : List Nat) :
    (J.map f).sum - (J.map g).sum = (J.map (fun j => f j - g j)).sum := by
  induction J with
  | nil => simp
  | cons b l ih => simp only [List.map_cons, List.sum_cons]; rw [← ih]; ring

theorem sum_map_const_mul (c : ℚ) (f : Nat → ℚ) (J : List Nat) : c * (J.map f).sum = (J.map (fun j => c * f j)).sum := by
  induction J with
  | nil => simp
  | cons b l ih => simp only [List.map_cons, List.sum_cons]; rw [← ih]; ring

theorem sum_map_le {f g : Nat → ℚ} {J : List Nat} (h : ∀ j ∈ J, f j ≤ g j) : (J.map f).sum ≤ (J.map g).sum := by
  induction J with
  | nil => simp
  | cons b l ih =>
    simp only [List.map_cons, List.sum_cons]
    have := h b (by simp)
    have := ih (fun j hj => h j (by simp [hj]))
    linarith

/-- sums of sums: errors accumulate like in one sum -/
theorem nearSum_trans {v : W → ℚ} {u : ℚ} (hu : 0 ≤ u) {x y : List W} {J L : List Nat} {part : Nat → List Nat}
    (hsum : ∀ φ : Nat → ℚ, (J.map (fun j => ((part j).map φ).sum)).sum = (L.map φ).sum)
    (hne : ∀ j ∈ J, 1 ≤ (part j).length)
    (hy : ∀ j ∈ J, ∃ Y, y[j]? = some Y ∧ NearSum v u x (part j) Y) {V : W} (hV : NearSum v u y J V) :
    NearSum v u x L V := by
  have hlen : (J.map (fun j => (part j).length)).sum = L.length := by
    have := hsum (fun _ => 1)
    have e : ∀ l : List Nat, (l.map (fun _ => (1 : ℚ))).sum = (l.length : ℚ) := by
      intro l; simp
    rw [e L] at this
    have e2 : ∀ J : List Nat, (J.map (fun j => ((part j).map (fun _ => (1 : ℚ))).sum)).sum =
        (((J.map (fun j => (part j).length)).sum : Nat) : ℚ) := by
      intro J
      induction J with
      | nil => simp
      | cons a J ih => simp only [List.map_cons, List.sum_cons]; rw [ih, e]; push_cast; ring
    rw [e2] at this
    exact_mod_cast this
  obtain ⟨_, hcount⟩ := length_le_sum (fun j => (part j).length) J hne
  rw [hlen] at hcount
  have h1u : (1 : ℚ) ≤ 1 + u := by linarith
  have hS : exactSum v x L = (J.map (fun j => exactSum v x (part j))).sum := by
    rw [exactSum_eq, ← hsum]
    congr 1
    exact List.map_congr_left fun j _ => (exactSum_eq v x (part j)).symm
  have hA : exactSize v x L = (J.map (fun j => exactSize v x (part j))).sum := by
    rw [exactSize_eq, ← hsum]
    congr 1
    exact List.map_congr_left fun j _ => (exactSize_eq v x (part j)).symm
  unfold NearSum at hV ⊢
  rw [exactSum_eq, exactSize_eq] at hV
  have hVj : ∀ j ∈ J, |entryVal v y j - exactSum v x (part j)| ≤
      ((1 + u) ^ ((part j).length - 1) - 1) * exactSize v x (part j) := by
    intro j hj
    obtain ⟨Y, h1, h2⟩ := hy j hj
    have : entryVal v y j = v Y := by simp [entryVal, h1]
    rw [this]
    exact h2
  have habs : ∀ j ∈ J, |entryVal v y j| ≤ (1 + u) ^ ((part j).length - 1) * exactSize v x (part j) := by
    intro j hj
    have h1 := hVj j hj
    have h2 : |exactSum v x (part j)| ≤ exactSize v x (part j) := by
      rw [exactSum_eq, exactSize_eq]; exact sum_abs_le _ _
    have h3 : |entryVal v y j| ≤ |entryVal v y j - exactSum v x (part j)| + |exactSum v x (part j)| := by
      have := abs_add_le (entryVal v y j - exactSum v x (part j)) (exactSum v x (part j))
      simpa using this
    linarith
  have hq : 0 ≤ (1 + u) ^ (J.length - 1) - 1 := by linarith [one_le_pow₀ h1u (n := J.length - 1)]
  have e1 : |v V - exactSum v x L| ≤ |v V - (J.map (entryVal v y)).sum| +
      |(J.map (entryVal v y)).sum - exactSum v x L| := abs_sub_le _ _ _
  have e2 : |(J.map (entryVal v y)).sum - exactSum v x L| ≤
      (J.map (fun j => ((1 + u) ^ ((part j).length - 1) - 1) * exactSize v x (part j))).sum := by
    rw [hS, sum_map_sub']
    exact (sum_abs_le _ _).trans (sum_map_le hVj)
  have e3 : ((1 + u) ^ (J.length - 1) - 1) * (J.map (fun i => |entryVal v y i|)).sum ≤
      (J.map (fun j => ((1 + u) ^ (J.length - 1) - 1) *
        ((1 + u) ^ ((part j).length - 1) * exactSize v x (part j)))).sum := by
    rw [sum_map_const_mul]
    exact sum_map_le fun j hj => mul_le_mul_of_nonneg_left (habs j hj) hq
  refine (e1.trans (add_le_add (hV.trans e3) e2)).trans ?_
  rw [hA, sum_map_const_mul, ← List.sum_map_add]
  refine sum_map_le fun j hj => ?_
  have h1 := exactSize_nonneg v x (part j)
  have h2 : (1 + u) ^ (J.length - 1 + ((part j).length - 1)) ≤ (1 + u) ^ (L.length - 1) :=
    pow_le_pow_right₀ h1u (by have := hcount j hj; have := hne j hj; have := List.length_pos_of_mem hj; omega)
  rw [pow_add] at h2
  calc ((1 + u) ^ (J.length - 1) - 1) * ((1 + u) ^ ((part j).length - 1) * exactSize v x (part j)) +
        ((1 + u) ^ ((part j).length - 1) - 1) * exactSize v x (part j)
      = ((1 + u) ^ (J.length - 1) * (1 + u) ^ ((part j).length - 1) - 1) * exactSize v x (part j) := by ring
    _ ≤ _ := mul_le_mul_of_nonneg_right (by linarith) h1

end CoMMA
