import Verif.Spec.RoundedFeatures
import Verif.Lemmas.Rounding
import Verif.Lemmas.FeatureStep
import Verif.Lemmas.Double
/-! # Features of coarse cells in rounded arithmetic -/

set_option linter.unusedSectionVars false

namespace CoMMA

variable {W : Type} [Num W]

/-! ### Calculus of errors -/

section near
variable {u : ℚ} (hu : 0 ≤ u)
include hu

theorem one_le_grow (p : Nat) : 1 ≤ (1 + u) ^ p := one_le_pow₀ (by linarith)

theorem Near.mono {p q : Nat} {e f x A S T : ℚ} (h : Near u p e x A S) (hp : p ≤ q) (he : e ≤ f) (he0 : 0 ≤ e) (hS : S ≤ T) (hS0 : 0 ≤ S) :
    Near u q f x A T := by
  unfold Near at h ⊢
  have h1 := one_le_grow hu p
  have h2 : (1 + u) ^ p ≤ (1 + u) ^ q := pow_le_pow_right₀ (by linarith) hp
  refine h.trans (add_le_add ?_ ?_)
  · exact mul_le_mul (by linarith) hS hS0 (by linarith)
  · exact mul_le_mul h2 he he0 (by linarith)

theorem Near.refl (p : Nat) {e x S : ℚ} (he : 0 ≤ e) (hS : 0 ≤ S) : Near u p e x x S := by
  unfold Near
  have h1 := one_le_grow hu p
  rw [sub_self, abs_zero]
  exact add_nonneg (mul_nonneg (by linarith) hS) (mul_nonneg (by linarith) he)

theorem Near.add {p : Nat} {e f x y A B S T : ℚ} (h1 : Near u p e x A S) (h2 : Near u p f y B T) :
    Near u p (e + f) (x + y) (A + B) (S + T) := by
  unfold Near at h1 h2 ⊢
  have : x + y - (A + B) = (x - A) + (y - B) := by ring
  rw [this]
  refine (abs_add_le _ _).trans ((add_le_add h1 h2).trans (le_of_eq (by ring)))

theorem Near.sub {p : Nat} {e f x y A B S T : ℚ} (h1 : Near u p e x A S) (h2 : Near u p f y B T) :
    Near u p (e + f) (x - y) (A - B) (S + T) := by
  unfold Near at h1 h2 ⊢
  have : x - y - (A - B) = (x - A) + -(y - B) := by ring
  rw [this]
  refine (abs_add_le _ _).trans ?_
  rw [abs_neg]
  exact (add_le_add h1 h2).trans (le_of_eq (by ring))

theorem Near.scale {p : Nat} {e x A S c : ℚ} (hc : 0 ≤ c) (h : Near u p e x A S) : Near u p (c * e) (c * x) (c * A) (c * S) := by
  unfold Near at h ⊢
  rw [← mul_sub, abs_mul, abs_of_nonneg hc]
  exact (mul_le_mul_of_nonneg_left h hc).trans (le_of_eq (by ring))

/-- rounding -/
theorem Near.round {p : Nat} {e η x y A S : ℚ} (h : Near u p e x A S) (hA : |A| ≤ S) (hη : 0 ≤ η) (hr : |y - x| ≤ u * |x| + η) :
    Near u (p + 1) (e + η) y A S := by
  unfold Near at h ⊢
  have h1 := one_le_grow hu (p + 1)
  have hx : |x| ≤ |x - A| + |A| := by
    have := abs_add_le (x - A) A
    simpa using this
  have h2 : u * |x| ≤ u * (((1 + u) ^ p - 1) * S + (1 + u) ^ p * e + S) := mul_le_mul_of_nonneg_left (by linarith) hu
  have h3 : |y - A| ≤ |y - x| + |x - A| := by
    have := abs_add_le (y - x) (x - A)
    simpa using this
  have h4 : η ≤ (1 + u) ^ (p + 1) * η := le_mul_of_one_le_left hη h1
  rw [mul_add]
  have : u * (((1 + u) ^ p - 1) * S + (1 + u) ^ p * e + S) + (((1 + u) ^ p - 1) * S + (1 + u) ^ p * e) =
      ((1 + u) ^ (p + 1) - 1) * S + (1 + u) ^ (p + 1) * e := by rw [pow_succ]; ring
  linarith

/-- products without absolute errors -/
theorem Near.mul {p q : Nat} {x y A B S T : ℚ} (h1 : Near u p 0 x A S) (h2 : Near u q 0 y B T) (hA : |A| ≤ S) (hB : |B| ≤ T) :
    Near u (p + q) 0 (x * y) (A * B) (S * T) := by
  unfold Near at h1 h2 ⊢
  rw [mul_zero, add_zero] at h1 h2 ⊢
  have hp := one_le_grow hu p
  have hq := one_le_grow hu q
  have hS : 0 ≤ S := (abs_nonneg _).trans hA
  have hT : 0 ≤ T := (abs_nonneg _).trans hB
  have e : x * y - A * B = (x - A) * (y - B) + ((x - A) * B + A * (y - B)) := by ring
  rw [e, pow_add]
  generalize (1 + u) ^ p = P at *
  generalize (1 + u) ^ q = Q at *
  have a1 : |(x - A) * (y - B)| ≤ ((P - 1) * S) * ((Q - 1) * T) := by
    rw [abs_mul]; exact mul_le_mul h1 h2 (abs_nonneg _) (mul_nonneg (by linarith) hS)
  have a2 : |(x - A) * B| ≤ ((P - 1) * S) * T := by
    rw [abs_mul]; exact mul_le_mul h1 hB (abs_nonneg _) (mul_nonneg (by linarith) hS)
  have a3 : |A * (y - B)| ≤ S * ((Q - 1) * T) := by
    rw [abs_mul]; exact mul_le_mul hA h2 (abs_nonneg _) hS
  refine (abs_add_le _ _).trans ((add_le_add a1 ((abs_add_le _ _).trans (add_le_add a2 a3))).trans (le_of_eq (by ring)))

/-- the larger of two numbers -/
theorem Near.max {p : Nat} {e x y A B : ℚ} (h1 : Near u p e x A A) (h2 : Near u p e y B B) :
    Near u p e (max x y) (max A B) (max A B) := by
  unfold Near at h1 h2 ⊢
  have hp := one_le_grow hu p
  rw [abs_le] at h1 h2 ⊢
  have m1 : ((1 + u) ^ p - 1) * A ≤ ((1 + u) ^ p - 1) * Max.max A B := mul_le_mul_of_nonneg_left (le_max_left _ _) (by linarith)
  have m2 : ((1 + u) ^ p - 1) * B ≤ ((1 + u) ^ p - 1) * Max.max A B := mul_le_mul_of_nonneg_left (le_max_right _ _) (by linarith)
  constructor
  · rcases max_cases A B with ⟨h, _⟩ | ⟨h, _⟩
    · rw [h] at m1 ⊢; have := le_max_left x y; linarith
    · rw [h] at m2 ⊢; have := le_max_right x y; linarith
  · rcases max_cases x y with ⟨h, _⟩ | ⟨h, _⟩
    · rw [h]; have := le_max_left A B; linarith
    · rw [h]; have := le_max_right A B; linarith

end near

/-! ### Exact sums -/

theorem rat_comm : CommAdd ℚ := ⟨add_comm, add_assoc, zero_add⟩

theorem rat_lawful : LawfulLt ℚ where
  irrefl a := by show decide (a < a) = false; simp
  trans a b c h1 h2 := by
    have h1 := of_decide_eq_true h1
    have h2 := of_decide_eq_true h2
    exact decide_eq_true (h1.trans h2)
  total a b h1 h2 := by
    have h1 := of_decide_eq_false h1
    have h2 := of_decide_eq_false h2
    exact le_antisymm (not_lt.1 h2) (not_lt.1 h1)

theorem rat_exact : ExactArith ℚ where
  toCommAdd := rat_comm
  cancel a b := by show a + b - b = a; ring
  two a := by show (2 : Nat) * a = a + a; push_cast; ring
  reduce l := by show l.foldl _ 0 = _; unfold sumW; show _ = l.foldl _ ((0 : Nat) : ℚ); simp only [Nat.cast_zero]; rfl

theorem rat_symm : SymmArith ℚ where
  sq a b := by show (a - b) * (a - b) = (b - a) * (b - a); ring
  mul a b := mul_comm a b

theorem rat_sum (l : List ℚ) : sumW l = l.sum := by
  induction l with
  | nil => show ((0 : Nat) : ℚ) = 0; simp
  | cons x l ih => rw [sumW_cons rat_comm, ih, List.sum_cons]; rfl

theorem abs_sum_le (l : List ℚ) : |l.sum| ≤ (l.map (fun a => |a|)).sum := by
  induction l with
  | nil => simp
  | cons x l ih =>
    rw [List.sum_cons, List.map_cons, List.sum_cons]
    exact (abs_add_le _ _).trans (by linarith)

theorem rat_sumUp (l : List ℚ) : sumUp l = l.sum := rat_sum l

section exact
variable (v : W → ℚ) (g : Graph W)

theorem exact_entries (i : Nat) : entriesOfRow g.rowPtr (g.values.map v) i = (entriesOfRow g.rowPtr g.values i).map v := by
  unfold entriesOfRow
  split
  · rw [← List.map_drop, ← List.map_take]
  · rfl

theorem exact_faces (i : Nat) : facesOf (g.exact v) i = (facesOf g i).map (fun e => (e.1, v e.2)) := by
  unfold facesOf
  show (rowOf g.rowPtr g.colInd i).zip (entriesOfRow g.rowPtr (g.values.map v) i) = _
  rw [exact_entries, List.zip_map_right]
  rfl

theorem exact_weightTo (i : Nat) (p : Nat → Bool) :
    weightTo (g.exact v) i p = (((facesOf g i).filter (fun e => p e.1)).map (fun e => v e.2)).sum := by
  unfold weightTo
  rw [rat_sum, exact_faces, List.filter_map, List.map_map]
  rfl

theorem exact_volume {g : Graph W} (hm : MeshSizes g) {i : Nat} (hi : i < g.nbC) : volumeAt (g.exact v) i = v (volumeAt g i) := by
  have hic : i < g.volumes.length := by rw [hm.volumes]; exact hi
  unfold volumeAt
  show ((g.volumes.map v)[i]?).getD _ = _
  rw [List.getElem?_map, List.getElem?_eq_getElem hic]
  rfl

theorem exact_center (i : Nat) : centerAt (g.exact v) i = (centerAt g i).map v := by
  unfold centerAt
  show ((g.centers.map (·.map v))[i]?).getD [] = _
  rw [List.getElem?_map]
  cases g.centers[i]? <;> rfl

theorem exact_sizes {g : Graph W} (hm : MeshSizes g) : MeshSizes (g.exact v) := by
  obtain ⟨D, hD⟩ := hm.coords
  refine ⟨hm.bnd, ?_, ?_, ?_, D, ?_⟩
  · show (g.volumes.map v).length = _; rw [List.length_map]; exact hm.volumes
  · show (g.centers.map _).length = _; rw [List.length_map]; exact hm.centers
  · show (g.values.map v).length = _; rw [List.length_map]; exact hm.values
  · intro c hc
    obtain ⟨c', hc', rfl⟩ := List.mem_map.1 (show c ∈ g.centers.map (·.map v) from hc)
    rw [List.length_map]
    exact hD c' hc'

end exact


/-! ### Weights of faces -/

section weights
variable {v : W → ℚ} {Fin : W → Prop} {u η : ℚ} {N D : Nat} {g : Graph W}
variable (hR : RoundedArith W v Fin u η N) (hg : RoundedInput g v Fin N D)
include hR hg

theorem face_nonneg {i : Nat} {e : Nat × W} (he : e ∈ facesOf g i) : 0 ≤ v e.2 := by
  apply hg.weights
  unfold facesOf at he
  have := (List.of_mem_zip he).2
  unfold entriesOfRow at this
  split at this
  · exact List.mem_of_mem_drop (List.mem_of_mem_take this)
  · cases this

theorem faces_le {i : Nat} (hi : i < g.nbC) : (facesOf g i).length ≤ D := by
  unfold facesOf
  rw [List.length_zip]
  exact (Nat.min_le_left _ _).trans (hg.rows i hi)

theorem exact_weightTo_nonneg (i : Nat) (p : Nat → Bool) : 0 ≤ weightTo (g.exact v) i p := by
  rw [exact_weightTo]
  apply List.sum_nonneg
  intro x hx
  obtain ⟨e, he, rfl⟩ := List.mem_map.1 hx
  exact face_nonneg hR hg (List.mem_filter.1 he).1

theorem near_weightTo {i : Nat} (hi : i < g.nbC) (p : Nat → Bool) (hf : Fin (weightTo g i p)) :
    Near u D 0 (v (weightTo g i p)) (weightTo (g.exact v) i p) (weightTo (g.exact v) i p) := by
  have h := (sumW_error hR.toRoundedAdd _ hf).2
  have h0 := exact_weightTo_nonneg hR hg i p
  rw [exact_weightTo] at h0 ⊢
  rw [List.map_map, List.map_map, List.length_map] at h
  have e1 : (((facesOf g i).filter (fun e => p e.1)).map ((fun a => |v a|) ∘ (·.2))) = (((facesOf g i).filter (fun e => p e.1)).map (fun e => v e.2)) := by
    apply List.map_congr_left
    intro e he
    exact abs_of_nonneg (face_nonneg hR hg (List.mem_filter.1 he).1)
  rw [e1] at h
  have : Near u ((((facesOf g i).filter (fun e => p e.1)).length) - 1) 0 (v (weightTo g i p)) (((facesOf g i).filter (fun e => p e.1)).map (fun e => v e.2)).sum
      (((facesOf g i).filter (fun e => p e.1)).map (fun e => v e.2)).sum := by
    unfold Near
    rw [mul_zero, add_zero]
    exact h
  refine this.mono hR.nonneg ?_ le_rfl le_rfl le_rfl h0
  have := List.length_filter_le (fun e : Nat × W => p e.1) (facesOf g i)
  have := faces_le hR hg hi
  omega

theorem exact_all {i : Nat} (hi : i < g.nbC) :
    weightTo (g.exact v) i (fun _ => true) = ((rowL g.rowPtr g.values i).map v).sum := by
  rw [weightTo_all (g := g.exact v) hg.crs (exact_sizes v hg.sizes).values hi, rat_sum,
    ← entries_eq (g := g.exact v) hg.crs (exact_sizes v hg.sizes).values hi, ← entries_eq hg.crs hg.sizes.values hi]
  congr 1
  exact exact_entries v g i

theorem near_reduce {i : Nat} (hi : i < g.nbC) (hf : Fin (Num.reduce (rowL g.rowPtr g.values i))) :
    Near u D 0 (v (Num.reduce (rowL g.rowPtr g.values i))) (weightTo (g.exact v) i (fun _ => true)) (weightTo (g.exact v) i (fun _ => true)) := by
  have h := (hR.reduce _ hf).2
  have h0 := exact_weightTo_nonneg hR hg i (fun _ => true)
  rw [exact_all hR hg hi] at h0 ⊢
  have hlen := (weights_eq hg.crs hg.sizes.values hi).2
  have hrow := hg.rows i hi
  rw [rowOf_eq hg.crs hi] at hrow
  have e1 : (rowL g.rowPtr g.values i).map (fun a => |v a|) = (rowL g.rowPtr g.values i).map v := by
    apply List.map_congr_left
    intro w hw
    refine abs_of_nonneg (hg.weights w ?_)
    rw [← entries_eq hg.crs hg.sizes.values hi] at hw
    unfold entriesOfRow at hw
    split at hw
    · exact List.mem_of_mem_drop (List.mem_of_mem_take hw)
    · cases hw
  rw [e1] at h
  have : Near u (rowL g.rowPtr g.values i).length 0 (v (Num.reduce (rowL g.rowPtr g.values i))) ((rowL g.rowPtr g.values i).map v).sum
      ((rowL g.rowPtr g.values i).map v).sum := by
    unfold Near
    rw [mul_zero, add_zero]
    exact h
  exact this.mono hR.nonneg (by omega) le_rfl le_rfl le_rfl h0

theorem exact_boundary {i : Nat} (hi : i < g.nbC) : boundaryEstimate (g.exact v) i =
    if (g.nBnd[i]?).getD 0 = 0 then 0 else
      ((g.nBnd[i]?).getD 0 : ℚ) * weightTo (g.exact v) i (fun _ => true) / ((rowOf g.rowPtr g.colInd i).length : ℚ) := by
  unfold boundaryEstimate
  show (if (g.nBnd[i]?).getD 0 = 0 then ((0 : Nat) : ℚ) else
    (((g.nBnd[i]?).getD 0 : Nat) : ℚ) * sumW (entriesOfRow g.rowPtr (g.values.map v) i) / (((rowOf g.rowPtr g.colInd i).length : Nat) : ℚ)) = _
  rw [exact_all hR hg hi, rat_sum, exact_entries, entries_eq hg.crs hg.sizes.values hi, Nat.cast_zero]

theorem exact_boundary_nonneg {i : Nat} (hi : i < g.nbC) : 0 ≤ boundaryEstimate (g.exact v) i := by
  rw [exact_boundary hR hg hi]
  split
  · exact le_rfl
  · have := exact_weightTo_nonneg hR hg i (fun _ => true)
    positivity

theorem near_boundary {i : Nat} (hi : i < g.nbC) : ∃ x, g.boundaryWeight i = .ok x ∧
    (Fin x → Near u (D + 2) (2 * η) (v x) (boundaryEstimate (g.exact v) i) (boundaryEstimate (g.exact v) i)) := by
  have hu := hR.nonneg
  have hη := hR.small
  have hb : i < g.nBnd.length := by rw [hg.sizes.bnd]; exact hi
  have hge : (g.nBnd[i]?).getD 0 = g.nBnd[i] := by rw [List.getElem?_eq_getElem hb]; rfl
  have halone := hg.alone i hi
  have hbN := hg.bnd _ (List.getElem_mem hb)
  have h0 := exact_weightTo_nonneg hR hg i (fun _ => true)
  rw [exact_boundary hR hg hi]
  rw [hge] at halone ⊢
  unfold Graph.boundaryWeight
  rw [rd_of_lt hb, ok_bind]
  by_cases hz : g.nBnd[i] = 0
  · rw [if_pos hz, if_pos hz]
    refine ⟨_, rfl, fun _ => ?_⟩
    rw [hR.zero]
    exact Near.refl hu _ (by linarith) le_rfl
  · rw [if_neg hz, if_neg hz]
    obtain ⟨n, hn, hn'⟩ := nbNeighs_ok hg.crs hi
    rw [(weights_eq hg.crs hg.sizes.values hi).1, ok_bind, hn, ok_bind, rowOf_eq hg.crs hi, ← hn']
    refine ⟨_, rfl, fun hf => ?_⟩
    have hnD : n ≤ D := by have := hg.rows i hi; rw [rowOf_eq hg.crs hi, ← hn'] at this; exact this
    have hn0 : n ≠ 0 := by
      intro hh
      apply halone hz
      rw [rowOf_eq hg.crs hi]
      exact List.eq_nil_of_length_eq_zero (by omega)
    have hn1 : (1 : ℚ) ≤ (n : ℚ) := by exact_mod_cast Nat.pos_of_ne_zero hn0
    have hlim := hg.limit
    obtain ⟨c1, c2⟩ := hR.count n (by omega)
    obtain ⟨b1, b2⟩ := hR.count g.nBnd[i] hbN
    obtain ⟨f1, d1⟩ := hR.div _ _ c1 (by rw [c2]; linarith) hf
    obtain ⟨f2, m1⟩ := hR.mul _ _ (Or.inl (by rw [b2]; exact_mod_cast hz)) b1 f1
    have r1 := near_reduce hR hg hi f2
    rw [b2] at m1
    rw [c2] at d1
    have hbq : (0 : ℚ) ≤ (g.nBnd[i] : ℚ) := by positivity
    have s1 := r1.scale hu hbq
    have hp : 0 ≤ (g.nBnd[i] : ℚ) * weightTo (g.exact v) i (fun _ => true) := mul_nonneg hbq h0
    have s2 := s1.round hu (by rw [abs_of_nonneg hp]) hη m1
    have s3 := s2.scale hu (c := 1 / (n : ℚ)) (by positivity)
    have hp2 : 0 ≤ 1 / (n : ℚ) * ((g.nBnd[i] : ℚ) * weightTo (g.exact v) i (fun _ => true)) := mul_nonneg (by positivity) hp
    have hdiv : ∀ a : ℚ, a / n = 1 / n * a := fun a => by ring
    rw [hdiv] at d1
    have s4 := s3.round hu (by rw [abs_of_nonneg hp2]) hη d1
    rw [hdiv]
    refine s4.mono hu le_rfl ?_ ?_ le_rfl hp2
    · have : 1 / (n : ℚ) * (g.nBnd[i] * 0 + η) ≤ η := by
        rw [mul_zero, zero_add]
        exact mul_le_of_le_one_left hη (by rw [div_le_one (by linarith)]; exact hn1)
      linarith
    · have : 0 ≤ 1 / (n : ℚ) * (g.nBnd[i] * 0 + η) := mul_nonneg (by positivity) (by linarith)
      linarith

/-- exact weight of all the faces of a cell, with the estimate of the boundary -/
def exactTotal (g : Graph W) (v : W → ℚ) (i : Nat) : ℚ := weightTo (g.exact v) i (fun _ => true) + boundaryEstimate (g.exact v) i

theorem exactTotal_nonneg {i : Nat} (hi : i < g.nbC) : 0 ≤ exactTotal g v i :=
  add_nonneg (exact_weightTo_nonneg hR hg i _) (exact_boundary_nonneg hR hg hi)

theorem near_total {i : Nat} (hi : i < g.nbC) : ∃ x, g.totalWeight i = .ok x ∧
    (Fin x → Near u (D + 3) (2 * η) (v x) (exactTotal g v i) (exactTotal g v i)) := by
  have hu := hR.nonneg
  have hη := hR.small
  obtain ⟨b, h1, h2⟩ := near_boundary hR hg hi
  unfold Graph.totalWeight
  rw [(weights_eq hg.crs hg.sizes.values hi).1, ok_bind, h1, ok_bind]
  refine ⟨_, rfl, fun hf => ?_⟩
  obtain ⟨f1, f2⟩ := hR.finite _ _ hf
  have h0 := exact_weightTo_nonneg hR hg i (fun _ => true)
  have r1 := (near_reduce hR hg hi f1).mono hu (q := D + 2) (by omega) le_rfl le_rfl le_rfl h0
  have r2 := r1.add hu (h2 f2)
  have := r2.round hu (abs_of_nonneg (exactTotal_nonneg hR hg hi)).le le_rfl (y := v (Num.add (Num.reduce (rowL g.rowPtr g.values i)) b))
    (by rw [add_zero]; exact hR.add _ _ hf)
  rw [zero_add, add_zero] at this
  exact this

/-! ### One cell, one more cell -/

/-- what is known of the features of a set of cells -/
structure NearFeats (g : Graph W) (v : W → ℚ) (Fin : W → Prop) (u η : ℚ) (D : Nat) (kind : ARKind) (s : NSet) (f : Feats W) : Prop where
  measure : Fin f.measure → Near u (s.card - 1) 0 (v f.measure) (measureOf (g.exact v) s) (measureOf (g.exact v) s)
  nInt : f.nInt = internalPairs g s
  int : kind.weights = true → Fin f.int → Near u (D + s.card) 0 (v f.int) (internalWeight (g.exact v) s) (internalWeight (g.exact v) s)
  ext : kind.weights = true → Fin f.ext → Near u (D + 2 * s.card + 1) (2 * s.card * η) (v f.ext) (externalWeight (g.exact v) s)
    (externalWeight (g.exact v) s + 4 * internalWeight (g.exact v) s)
  diam : kind.geom = true → LargestFrom Num.lmin (PairDist g s) f.sqDiam
  edge : kind.geom = true → SmallestFrom Num.lmax (PairDist g s) f.sqMin
  moments : kind.bary = true → (∀ i ∈ s, f.sum.length = (centerAt g i).length) ∧
    ∀ j x, f.sum[j]? = some x → Fin x → Near u (s.card + 1) (s.card * η) (v x) (momentOf (g.exact v) s j) (momentSize (g.exact v) s j)

/-- the new sums of moments -/
theorem updateBary_sum {i : Nat} (hi : i < g.nbC) {cc : NSet} {f : Feats W} (hlen : f.sum.length = (centerAt g i).length) {r : List W × List W}
    (h : updateBary g i f cc = .ok r) : r.1.length = (centerAt g i).length ∧ ∀ (j : Nat) (x : W), r.1[j]? = some x → ∃ s c, f.sum[j]? = some s ∧
      (centerAt g i)[j]? = some c ∧ x = Num.add s (Num.mul (volumeAt g i) c) := by
  suffices hs : Ok (updateBary g i f cc) (fun r => r.1.length = (centerAt g i).length ∧ ∀ (j : Nat) (x : W), r.1[j]? = some x → ∃ s c, f.sum[j]? = some s ∧
      (centerAt g i)[j]? = some c ∧ x = Num.add s (Num.mul (volumeAt g i) c)) by
    rw [h] at hs
    exact hs
  unfold updateBary
  rw [rd_center hg.sizes hi, ok_bind, rd_volume hg.sizes hi, ok_bind]
  simp only
  refine Ok.mono (Ok.foldlM_range (I := fun k (a : List W × List W) => a.1.length = (centerAt g i).length ∧
    (∀ (j : Nat) (x : W), j < k → a.1[j]? = some x → ∃ s c, f.sum[j]? = some s ∧ (centerAt g i)[j]? = some c ∧ x = Num.add s (Num.mul (volumeAt g i) c)) ∧
    ∀ j, k ≤ j → a.1[j]? = f.sum[j]?) ?_ ?_) ?_
  · exact ⟨hlen, fun j x hj => absurd hj (by omega), fun j _ => rfl⟩
  · rintro k hk a ⟨h1, h2, h3⟩
    have hk' : k < a.1.length := by omega
    rw [rd_of_lt hk, ok_bind, rd_of_lt hk', ok_bind, wr_of_lt hk', ok_bind, Ok_pure]
    have hak : f.sum[k]? = some a.1[k] := by rw [← h3 k le_rfl, List.getElem?_eq_getElem hk']
    refine ⟨by simpa using h1, ?_, ?_⟩
    · intro j x hj hx
      by_cases hjk : j = k
      · subst hjk
        simp only [List.getElem?_set_self hk', Option.some.injEq] at hx
        exact ⟨_, _, hak, List.getElem?_eq_getElem hk, hx.symm⟩
      · rw [List.getElem?_set_ne (fun hh => hjk hh.symm)] at hx
        exact h2 j x (by omega) hx
    · intro j hj
      rw [List.getElem?_set_ne (by omega)]
      exact h3 j (by omega)
  · rintro a ⟨h1, h2, h3⟩
    refine ⟨h1, fun j x hx => h2 j x ?_ hx⟩
    have := (List.getElem?_eq_some_iff.1 hx).1
    omega

theorem fin_volume {i : Nat} (hi : i < g.nbC) : Fin (volumeAt g i) := by
  have hic : i < g.volumes.length := by rw [hg.sizes.volumes]; exact hi
  unfold volumeAt
  rw [List.getElem?_eq_getElem hic, Option.getD_some]
  exact hg.finite.1 _ (List.getElem_mem hic)

theorem fin_coord {i : Nat} (hi : i < g.nbC) {j : Nat} {c : W} (hc : (centerAt g i)[j]? = some c) : Fin c := by
  have hic : i < g.centers.length := by rw [hg.sizes.centers]; exact hi
  unfold centerAt at hc
  rw [List.getElem?_eq_getElem hic, Option.getD_some] at hc
  exact hg.finite.2 _ (List.getElem_mem hic) _ (List.mem_of_getElem? hc)

/-- one term of a moment -/
theorem near_term {i : Nat} (hi : i < g.nbC) {j : Nat} {c : W} (hc : (centerAt g i)[j]? = some c) {x : W}
    (hx : x = Num.mul (volumeAt g i) c ∨ x = Num.mul c (volumeAt g i)) (hf : Fin x) :
    Near u 1 η (v x) (volumeAt (g.exact v) i * ((centerAt (g.exact v) i)[j]?).getD 0)
      |volumeAt (g.exact v) i * ((centerAt (g.exact v) i)[j]?).getD 0| := by
  have hu := hR.nonneg
  rw [exact_volume v hg.sizes hi, exact_center, List.getElem?_map, hc, Option.map_some, Option.getD_some]
  have f1 := fin_volume hR hg hi
  have f2 := fin_coord hR hg hi hc
  have h0 := Near.refl hu 0 (x := v (volumeAt g i) * v c) le_rfl (abs_nonneg (v (volumeAt g i) * v c))
  have := h0.round hu le_rfl hR.small (y := v x) (by
    rcases hx with rfl | rfl
    · exact (hR.mul _ _ (Or.inr f2) f1 hf).2
    · have := (hR.mul _ _ (Or.inr f1) f2 hf).2
      rwa [mul_comm (v c)] at this)
  simpa using this

theorem sumOver_nonneg {l : List Nat} {f : Nat → ℚ} (h : ∀ i ∈ l, 0 ≤ f i) : 0 ≤ sumOver l f := by
  unfold sumOver
  rw [rat_sum]
  apply List.sum_nonneg
  intro x hx
  obtain ⟨i, hi, rfl⟩ := List.mem_map.1 hx
  exact h i hi

theorem internal_nonneg (s : NSet) : 0 ≤ internalWeight (g.exact v) s :=
  sumOver_nonneg hR hg (fun i _ => exact_weightTo_nonneg hR hg i _)

theorem external_nonneg {s : NSet} (hs : ∀ i ∈ s, i < g.nbC) : 0 ≤ externalWeight (g.exact v) s :=
  sumOver_nonneg hR hg (fun i hi => add_nonneg (exact_weightTo_nonneg hR hg i _) (exact_boundary_nonneg hR hg (hs i hi)))

theorem volume_nonneg {i : Nat} (hi : i < g.nbC) : 0 ≤ volumeAt (g.exact v) i := by
  rw [exact_volume v hg.sizes hi]
  apply hg.volumes
  have hic : i < g.volumes.length := by rw [hg.sizes.volumes]; exact hi
  unfold volumeAt
  rw [List.getElem?_eq_getElem hic, Option.getD_some]
  exact List.getElem_mem hic

theorem measure_nonneg {s : NSet} (hs : ∀ i ∈ s, i < g.nbC) : 0 ≤ measureOf (g.exact v) s :=
  sumOver_nonneg hR hg (fun _ hi => volume_nonneg hR hg (hs _ hi))

theorem exact_step {s : NSet} {x : Nat} (hx : x < g.nbC) (hxs : x ∉ s) :
    externalWeight (g.exact v) (s.insert x) =
      externalWeight (g.exact v) s + exactTotal g v x - 2 * weightTo (g.exact v) x (fun n => s.has n) := by
  have h := externalWeight_insert rat_comm (g := g.exact v) hg.crs (exact_sizes v hg.sizes) hg.symW hg.loop hx hxs
  have h : externalWeight (g.exact v) s + exactTotal g v x =
    externalWeight (g.exact v) (s.insert x) + (weightTo (g.exact v) x (fun n => s.has n) + weightTo (g.exact v) x (fun n => s.has n)) := h
  linarith

theorem near_basic {kind : ARKind} {i : Nat} (hi : i < g.nbC) {cc : NSet} (hcc : ∀ y ∈ cc, y < g.nbC) (hne : ∃ y, y ∈ cc) (hni : i ∉ cc)
    {f : Feats W} (hf : NearFeats g v Fin u η D kind cc f) {cw uf : Bool} (hcw : cw = true → kind.weights = true) {r : Nat × Feats W}
    (h : updateBasic cw uf g i f cc = .ok r) :
    r.1 = nbShared (rowOf g.rowPtr g.colInd i) cc ∧
    (Fin r.2.measure → Near u ((cc.insert i).card - 1) 0 (v r.2.measure) (measureOf (g.exact v) (cc.insert i)) (measureOf (g.exact v) (cc.insert i))) ∧
    r.2.nInt = internalPairs g (cc.insert i) ∧
    (cw = true → (Fin r.2.int → Near u (D + (cc.insert i).card) 0 (v r.2.int) (internalWeight (g.exact v) (cc.insert i))
        (internalWeight (g.exact v) (cc.insert i))) ∧
      (Fin r.2.ext → Near u (D + 2 * (cc.insert i).card + 1) (2 * (cc.insert i).card * η) (v r.2.ext) (externalWeight (g.exact v) (cc.insert i))
        (externalWeight (g.exact v) (cc.insert i) + 4 * internalWeight (g.exact v) (cc.insert i)))) := by
  have hu := hR.nonneg
  have hη := hR.small
  have hcard : (cc.insert i).card = cc.card + 1 := NSet.card_insert hni
  have hpos : 0 < cc.card := by
    obtain ⟨y, hy⟩ := hne
    exact List.length_pos_of_mem hy
  unfold updateBasic at h
  rw [rd_volume hg.sizes hi, ok_bind] at h
  obtain ⟨⟨sw, sh⟩, h1, h⟩ := bind_ok_iff.1 h
  have hsw : sw = weightTo g i (fun n => cc.has n) := by
    obtain ⟨r', e1, e2⟩ := (sharedFaces_weight hg.crs hg.sizes hi hni).eq
    rw [h1] at e1; cases e1; exact e2
  have hsh : sh.card = nbShared (rowOf g.rowPtr g.colInd i) cc := by
    obtain ⟨r', e1, e2⟩ := (sharedFaces_ok hg.crs hg.sizes hi hni).eq
    rw [h1] at e1; cases e1; exact e2.2
  obtain ⟨d, h2, h⟩ := bind_ok_iff.1 h
  have key : (Fin d.measure → Near u ((cc.insert i).card - 1) 0 (v d.measure) (measureOf (g.exact v) (cc.insert i)) (measureOf (g.exact v) (cc.insert i))) ∧
      d.nInt = internalPairs g (cc.insert i) ∧
      (cw = true → (Fin d.int → Near u (D + (cc.insert i).card) 0 (v d.int) (internalWeight (g.exact v) (cc.insert i))
          (internalWeight (g.exact v) (cc.insert i))) ∧
        (Fin d.ext → Near u (D + 2 * (cc.insert i).card + 1) (2 * (cc.insert i).card * η) (v d.ext) (externalWeight (g.exact v) (cc.insert i))
          (externalWeight (g.exact v) (cc.insert i) + 4 * internalWeight (g.exact v) (cc.insert i)))) := by
    have hme : Fin (Num.add f.measure (volumeAt g i)) → Near u ((cc.insert i).card - 1) 0 (v (Num.add f.measure (volumeAt g i)))
        (measureOf (g.exact v) (cc.insert i)) (measureOf (g.exact v) (cc.insert i)) := by
      intro hfin
      obtain ⟨f1, f2⟩ := hR.finite _ _ hfin
      have em : measureOf (g.exact v) (cc.insert i) = measureOf (g.exact v) cc + v (volumeAt g i) := by
        unfold measureOf
        rw [sumOver_insert rat_comm hni, exact_volume v hg.sizes hi]
        exact add_comm _ _
      have hv := volume_nonneg hR hg hi
      rw [exact_volume v hg.sizes hi] at hv
      have hM := measure_nonneg hR hg hcc
      have a1 := (hf.measure f1).add hu (Near.refl hu (cc.card - 1) (x := v (volumeAt g i)) le_rfl hv)
      have a2 := a1.round hu (abs_of_nonneg (add_nonneg hM hv)).le le_rfl (y := v (Num.add f.measure (volumeAt g i)))
        (by rw [add_zero]; exact hR.add _ _ hfin)
      rw [em, hcard, show cc.card + 1 - 1 = cc.card - 1 + 1 by omega]
      simpa using a2
    have hnn : f.nInt + sh.card = internalPairs g (cc.insert i) := by
      rw [internalPairs_insert hg.crs hg.sym hcc hi hni, hf.nInt, hsh]
    unfold withWeights updateWeights at h2
    cases cw with
    | false =>
      simp only [Bool.false_eq_true, if_false] at h2
      cases h2
      exact ⟨hme, hnn, fun hh => absurd hh (by simp)⟩
    | true =>
      simp only [if_true] at h2
      have hk := hcw rfl
      obtain ⟨t, t1, t2⟩ := near_total hR hg hi
      rw [t1] at h2
      cases h2
      refine ⟨hme, hnn, fun _ => ⟨?_, ?_⟩⟩
      · intro hfin
        have hfin : Fin (Num.add f.int sw) := hfin
        obtain ⟨f1, f2⟩ := hR.finite _ _ hfin
        rw [hsw] at f2
        have w0 := exact_weightTo_nonneg hR hg i (fun n => cc.has n)
        have w1 := (near_weightTo hR hg hi _ f2).mono hu (q := D + cc.card) (by omega) le_rfl le_rfl le_rfl w0
        have hI := internal_nonneg hR hg cc
        have a1 := (hf.int hk f1).add hu w1
        have a2 := a1.round hu (abs_of_nonneg (add_nonneg hI w0)).le le_rfl (y := v (Num.add f.int sw))
          (by rw [add_zero, hsw]; exact hR.add _ _ (hsw ▸ hfin))
        have ei : internalWeight (g.exact v) (cc.insert i) = internalWeight (g.exact v) cc + weightTo (g.exact v) i (fun n => cc.has n) :=
          internalWeight_insert rat_comm hg.symW hni
        rw [ei, hcard, ← Nat.add_assoc]
        simpa using a2
      · intro hfin
        have hfin : Fin (Num.sub (Num.add f.ext t) (Num.mul (Num.ofNat 2) sw)) := hfin
        show Near _ _ _ (v (Num.sub (Num.add f.ext t) (Num.mul (Num.ofNat 2) sw))) _ _
        obtain ⟨f1, f2, e1⟩ := hR.sub _ _ hfin
        obtain ⟨f3, e2⟩ := hR.two _ f2
        obtain ⟨f4, f5⟩ := hR.finite _ _ f1
        have e3 := hR.add _ _ f1
        rw [hsw] at f3
        have w0 := exact_weightTo_nonneg hR hg i (fun n => cc.has n)
        have t0 := exactTotal_nonneg hR hg hi
        have hI := internal_nonneg hR hg cc
        have hE := external_nonneg hR hg hcc
        have c0 : (0 : ℚ) ≤ 2 * cc.card * η := by positivity
        have t3 := (t2 f5).mono hu (q := D + 2 * cc.card + 1) (by omega) le_rfl (by linarith) le_rfl t0
        have a1 := (hf.ext hk f4).add hu t3
        have hs1 : |externalWeight (g.exact v) cc + exactTotal g v i| ≤
            externalWeight (g.exact v) cc + 4 * internalWeight (g.exact v) cc + exactTotal g v i := by
          rw [abs_of_nonneg (add_nonneg hE t0)]; linarith
        have a2 := a1.round hu hs1 le_rfl (y := v (Num.add f.ext t)) (by rw [add_zero]; exact e3)
        have w1 := ((near_weightTo hR hg hi _ f3).mono hu (q := D + 2 * cc.card + 1 + 1) (by omega) le_rfl le_rfl le_rfl w0).scale hu
          (c := 2) (by norm_num)
        rw [← hsw, ← e2] at w1
        have a3 := a2.sub hu w1
        have ei : internalWeight (g.exact v) (cc.insert i) = internalWeight (g.exact v) cc + weightTo (g.exact v) i (fun n => cc.has n) :=
          internalWeight_insert rat_comm hg.symW hni
        have ee := exact_step hR hg hi hni
        have hs2 : |externalWeight (g.exact v) cc + exactTotal g v i - 2 * weightTo (g.exact v) i (fun n => cc.has n)| ≤
            externalWeight (g.exact v) cc + 4 * internalWeight (g.exact v) cc + exactTotal g v i + 2 * weightTo (g.exact v) i (fun n => cc.has n) := by
          rw [abs_le]
          constructor <;> linarith
        have a4 := a3.round hu hs2 le_rfl (by rw [add_zero]; exact e1)
        have eS : externalWeight (g.exact v) (cc.insert i) + 4 * internalWeight (g.exact v) (cc.insert i) =
            externalWeight (g.exact v) cc + 4 * internalWeight (g.exact v) cc + exactTotal g v i + 2 * weightTo (g.exact v) i (fun n => cc.has n) := by
          rw [ee, ei]; ring
        rw [eS, ee, hcard]
        refine a4.mono hu (by omega) (le_of_eq (by push_cast; ring)) ?_ le_rfl ((abs_nonneg _).trans hs2)
        linarith
  obtain ⟨k1, k2, k3⟩ := key
  cases uf with
  | false =>
    simp only [Bool.false_eq_true, if_false] at h
    cases h
    exact ⟨hsh, k1, k2, k3⟩
  | true =>
    simp only [if_true] at h
    obtain ⟨m, _, h⟩ := bind_ok_iff.1 h
    cases h
    exact ⟨hsh, k1, k2, k3⟩

theorem not_mem_none (i : Nat) : i ∉ NSet.empty := fun h => List.not_mem_nil h

theorem single_insert (i : Nat) : NSet.single i = NSet.empty.insert i := by
  apply NSet.ext
  intro a
  rw [NSet.mem_single, NSet.mem_insert]
  exact ⟨Or.inl, fun h => h.resolve_right (not_mem_none hR hg a)⟩

theorem near_init {kind : ARKind} (hW : LawfulLt W) {i : Nat} (hi : i < g.nbC) {f : Feats W} (h : Feats.init g i = .ok f) :
    NearFeats g v Fin u η D kind (NSet.single i) f := by
  have hu := hR.nonneg
  have hη := hR.small
  obtain ⟨t, t1, t2⟩ := near_total hR hg hi
  unfold Feats.init at h
  rw [rd_volume hg.sizes hi, ok_bind, t1, ok_bind, totalFaces_eq hg.crs hg.sizes hi, ok_bind, rd_center hg.sizes hi, ok_bind] at h
  cases h
  have hI : internalWeight (g.exact v) (NSet.single i) = 0 := by
    have := internalWeight_insert rat_comm (g := g.exact v) hg.symW (s := NSet.empty) (x := i) (by exact not_mem_none hR hg _)
    rw [← single_insert hR hg] at this
    rw [this, weightTo_none (fun e _ => by rw [NSet.has_false_iff]; exact not_mem_none hR hg _)]
    show sumOver [] _ + ((0 : Nat) : ℚ) = 0
    unfold sumOver
    rw [rat_sum]
    simp
  have hE : externalWeight (g.exact v) (NSet.single i) = exactTotal g v i := by
    rw [single_insert hR hg, exact_step hR hg hi (by exact not_mem_none hR hg _),
      weightTo_none (fun e _ => by rw [NSet.has_false_iff]; exact not_mem_none hR hg _)]
    show sumOver [] _ + _ - 2 * ((0 : Nat) : ℚ) = _
    unfold sumOver
    rw [rat_sum]
    simp
  have hM : measureOf (g.exact v) (NSet.single i) = v (volumeAt g i) := by
    unfold measureOf
    rw [sumOver_single rat_comm, exact_volume v hg.sizes hi]
  have hv := volume_nonneg hR hg hi
  rw [exact_volume v hg.sizes hi] at hv
  have hc : (NSet.single i).card = 1 := rfl
  refine ⟨?_, ?_, ?_, ?_, ?_, ?_, ?_⟩
  · intro _
    rw [hM]
    exact Near.refl hu _ le_rfl hv
  · unfold internalPairs
    have : (NSet.single i).elems = [i] := rfl
    rw [this]
    simp
  · intro _ _
    rw [hI, hR.zero]
    exact Near.refl hu _ le_rfl le_rfl
  · intro _ hf
    rw [hI, hE, hc]
    refine (t2 hf).mono hu (by omega) (by push_cast; linarith) (by linarith) (by linarith) (exactTotal_nonneg hR hg hi)
  · intro _
    refine LargestFrom.refl hW ?_
    rintro d ⟨a, ha, b, hb, hab, _⟩
    rw [NSet.mem_single] at ha hb
    exact hab (by rw [ha, hb])
  · intro _
    refine SmallestFrom.refl hW ?_
    rintro d ⟨a, ha, b, hb, hab, _⟩
    rw [NSet.mem_single] at ha hb
    exact hab (by rw [ha, hb])
  · intro _
    refine ⟨?_, ?_⟩
    · intro a ha
      rw [NSet.mem_single] at ha
      subst ha
      show (List.map _ _).length = _
      rw [List.length_map]
    · intro j x hx hfin
      have hx : (List.map (fun x => Num.mul x (volumeAt g i)) (centerAt g i))[j]? = some x := hx
      rw [List.getElem?_map] at hx
      obtain ⟨c, q1, q2⟩ := Option.map_eq_some_iff.1 hx
      have t1 := near_term hR hg hi q1 (Or.inr q2.symm) hfin
      have e1 : momentOf (g.exact v) (NSet.single i) j = volumeAt (g.exact v) i * ((centerAt (g.exact v) i)[j]?).getD 0 := by
        unfold momentOf
        rw [sumOver_single rat_comm]
        show volumeAt (g.exact v) i * _ = _
        simp [Num.ofNat]
      have e2 : momentSize (g.exact v) (NSet.single i) j = |volumeAt (g.exact v) i * ((centerAt (g.exact v) i)[j]?).getD 0| := by
        unfold momentSize
        rw [sumOver_single rat_comm]
      rw [e1, e2, hc]
      exact t1.mono hu (by omega) (by push_cast; linarith) hη le_rfl (abs_nonneg _)

theorem near_compute {kind : ARKind} (hW : LawfulLt W) (hS : SymmArith W) (hh : Hash) {i : Nat} (hi : i < g.nbC) {cc : NSet}
    (hcc : ∀ y ∈ cc, y < g.nbC) (hne : ∃ y, y ∈ cc) (hni : i ∉ cc) {f : Feats W} (hf : NearFeats g v Fin u η D kind cc f)
    {r : Nat × W × Feats W} (h : (arOf g hh kind).compute i f cc = .ok r) :
    NearFeats g v Fin u η D kind (cc.insert i) r.2.2 := by
  unfold arOf at h
  simp only at h
  by_cases hb : kind.bary = true
  · rw [if_pos hb] at h
    have hw : kind.weights = false := by cases kind <;> first | rfl | exact absurd hb (by simp [ARKind.bary])
    have hge : kind.geom = false := by cases kind <;> first | rfl | exact absurd hb (by simp [ARKind.bary])
    unfold arBary at h
    obtain ⟨b, h1, h⟩ := bind_ok_iff.1 h
    obtain ⟨y, h2, h⟩ := bind_ok_iff.1 h
    obtain ⟨_, k1, k2, _⟩ := near_basic hR hg hi hcc hne hni hf (cw := false) (by simp) h1
    have hu := hR.nonneg
    have hη := hR.small
    obtain ⟨m1, m2⟩ := hf.moments hb
    obtain ⟨y0, hy0⟩ := hne
    obtain ⟨dd, hdd⟩ := hg.sizes.coords
    have hlen : f.sum.length = (centerAt g i).length := by
      rw [m1 y0 hy0, center_length hg.sizes hdd (hcc y0 hy0), center_length hg.sizes hdd hi]
    obtain ⟨s1, s2⟩ := updateBary_sum hR hg hi hlen h2
    have hmom : (∀ x ∈ cc.insert i, y.1.length = (centerAt g x).length) ∧
        ∀ j x, y.1[j]? = some x → Fin x → Near u ((cc.insert i).card + 1) ((cc.insert i).card * η) (v x) (momentOf (g.exact v) (cc.insert i) j)
          (momentSize (g.exact v) (cc.insert i) j) := by
      refine ⟨?_, ?_⟩
      · intro x hx
        rw [s1, center_length hg.sizes hdd hi]
        rcases NSet.mem_insert.1 hx with rfl | hx
        · rw [center_length hg.sizes hdd hi]
        · rw [center_length hg.sizes hdd (hcc x hx)]
      · intro j x hx hfin
        obtain ⟨s, c, q1, q2, rfl⟩ := s2 j x hx
        obtain ⟨f1, f2⟩ := hR.finite _ _ hfin
        have t1 := near_term hR hg hi q2 (Or.inl rfl) f2
        have t2 := (m2 j s q1 f1).add hu (t1.mono hu (q := cc.card + 1) (by omega) le_rfl hη le_rfl (abs_nonneg _))
        have hA : |momentOf (g.exact v) cc j| ≤ momentSize (g.exact v) cc j := by
          unfold momentOf momentSize sumOver
          rw [rat_sum, rat_sum]
          refine (abs_sum_le _).trans (le_of_eq ?_)
          rw [List.map_map]
          simp only [Function.comp_def]
          show (List.map (fun a => |volumeAt (g.exact v) a * _|) _).sum = _
          congr 2
        have t3 := t2.round hu ((abs_add_le _ _).trans (add_le_add hA le_rfl)) le_rfl (y := v (Num.add s (Num.mul (volumeAt g i) c)))
          (by rw [add_zero]; exact hR.add _ _ hfin)
        have e1 : momentOf (g.exact v) (cc.insert i) j = momentOf (g.exact v) cc j + volumeAt (g.exact v) i * ((centerAt (g.exact v) i)[j]?).getD 0 := by
          rw [momentOf_insert rat_comm hni]
          show momentOf (g.exact v) cc j + volumeAt (g.exact v) i * _ = _
          simp [Num.ofNat]
        have e2 : momentSize (g.exact v) (cc.insert i) j = momentSize (g.exact v) cc j + |volumeAt (g.exact v) i * ((centerAt (g.exact v) i)[j]?).getD 0| := by
          unfold momentSize
          rw [sumOver_insert rat_comm hni]
          exact add_comm _ _
        have hcard : (cc.insert i).card = cc.card + 1 := NSet.card_insert hni
        rw [e1, e2, hcard]
        have e3 : ((cc.card : ℚ) * η + η + 0) = ((cc.card + 1 : Nat) : ℚ) * η := by push_cast; ring
        rw [e3] at t3
        exact t3
    have done : ∀ nf : Feats W, nf.measure = b.2.measure → nf.nInt = b.2.nInt → nf.sum = y.1 → NearFeats g v Fin u η D kind (cc.insert i) nf := by
      intro nf e1 e2 e3
      refine ⟨by rw [e1]; exact k1, by rw [e2]; exact k2, ?_, ?_, ?_, ?_, fun _ => by rw [e3]; exact hmom⟩
      · intro hk; rw [hw] at hk; cases hk
      · intro hk; rw [hw] at hk; cases hk
      · intro hk; rw [hge] at hk; cases hk
      · intro hk; rw [hge] at hk; cases hk
    split at h
    · obtain ⟨m, _, h⟩ := bind_ok_iff.1 h
      cases h
      exact done _ rfl rfl rfl
    · obtain ⟨m, _, h⟩ := bind_ok_iff.1 h
      cases h
      exact done _ rfl rfl rfl
  · rw [if_neg hb] at h
    by_cases hge : kind.geom = true
    · rw [if_pos hge] at h
      have hw : kind.weights = false := by cases kind <;> first | rfl | exact absurd hge (by simp [ARKind.geom])
      unfold arGeom at h
      obtain ⟨b, h1, h⟩ := bind_ok_iff.1 h
      obtain ⟨y, h2, h⟩ := bind_ok_iff.1 h
      obtain ⟨_, k1, k2, _⟩ := near_basic hR hg hi hcc hne hni hf (cw := false) (by simp) h1
      obtain ⟨y', e1, e2⟩ := (updateGeom_eq hW hS hg.sizes hh hi hcc hni (hf.diam hge) (hf.edge hge)).eq
      rw [h2] at e1
      cases e1
      cases h
      refine ⟨k1, k2, ?_, ?_, fun _ => e2.1, fun _ => e2.2, fun hk => absurd hk hb⟩
      · intro hk; rw [hw] at hk; cases hk
      · intro hk; rw [hw] at hk; cases hk
    · rw [if_neg hge] at h
      unfold arPlain at h
      obtain ⟨b, h1, h⟩ := bind_ok_iff.1 h
      obtain ⟨_, k1, k2, k3⟩ := near_basic hR hg hi hcc hne hni hf (cw := kind.weights) id h1
      cases h
      exact ⟨k1, k2, fun hk => (k3 hk).1, fun hk => (k3 hk).2, fun hk => absurd hk hge, fun hk => absurd hk hge, fun hk => absurd hk hb⟩

/-! ### Distances -/

theorem near_square {x y : W} (h : Fin (Num.mul (Num.sub x y) (Num.sub x y))) :
    Near u 3 η (v (Num.mul (Num.sub x y) (Num.sub x y))) ((v x - v y) * (v x - v y)) ((v x - v y) * (v x - v y)) := by
  have hu := hR.nonneg
  have f1 := (hR.square _).2 h
  obtain ⟨_, _, e1⟩ := hR.sub _ _ f1
  have a1 : Near u 1 0 (v (Num.sub x y)) (v x - v y) |v x - v y| := by
    have := (Near.refl hu 0 (x := v x - v y) le_rfl (abs_nonneg _)).round hu le_rfl le_rfl (y := v (Num.sub x y)) (by rw [add_zero]; exact e1)
    simpa using this
  have a2 := a1.mul hu a1 le_rfl le_rfl
  have e : |v x - v y| * |v x - v y| = (v x - v y) * (v x - v y) := abs_mul_abs_self _
  rw [e] at a2
  have a3 := a2.round hu (abs_of_nonneg (mul_self_nonneg _)).le hR.small (hR.mul _ _ (Or.inr f1) f1 h).2
  simpa using a3

theorem foldl_square_nonneg : ∀ (l : List W) (x : W), 0 ≤ v x → (∀ a ∈ l, 0 ≤ v a) → 0 ≤ v (l.foldl Num.add x) := by
  intro l
  induction l with
  | nil => intro x hx _; exact hx
  | cons a l ih =>
    intro x hx hl
    rw [List.foldl_cons]
    exact ih _ (hR.grow _ _ hx (hl a (by simp))) (fun b hb => hl b (by simp [hb]))

theorem dist_nonneg (a b : List W) : 0 ≤ v (dist2 a b) := by
  unfold dist2 sumUp
  refine foldl_square_nonneg hR hg _ _ (by rw [hR.zero]) ?_
  intro x hx
  obtain ⟨k, hk, rfl⟩ := List.getElem_of_mem hx
  rw [List.getElem_zipWith]
  exact (hR.square _).1

theorem near_squares : ∀ (a b : List W) (x : W) (p : Nat) (e A : ℚ), 3 ≤ p → 0 ≤ e → 0 ≤ A → (Fin x → Near u p e (v x) A A) →
    Fin ((List.zipWith (fun x y => Num.mul (Num.sub x y) (Num.sub x y)) a b).foldl Num.add x) → a.length = b.length →
    Near u (p + a.length) (e + a.length * η) (v ((List.zipWith (fun x y => Num.mul (Num.sub x y) (Num.sub x y)) a b).foldl Num.add x))
      (A + (List.zipWith (fun x y => (v x - v y) * (v x - v y)) a b).sum) (A + (List.zipWith (fun x y => (v x - v y) * (v x - v y)) a b).sum) ∧ Fin x := by
  have hu := hR.nonneg
  have hη := hR.small
  intro a
  induction a with
  | nil =>
    intro b x p e A hp he hA hx hf _
    simp only [List.zipWith_nil_left, List.foldl_nil, List.sum_nil, add_zero, List.length_nil, Nat.cast_zero, zero_mul] at hf ⊢
    exact ⟨hx hf, hf⟩
  | cons y a ih =>
    intro b x p e A hp he hA hx hf hl
    cases b with
    | nil => simp at hl
    | cons z b =>
      rw [List.zipWith_cons_cons, List.foldl_cons] at hf
      rw [List.zipWith_cons_cons, List.foldl_cons, List.zipWith_cons_cons, List.sum_cons]
      have s0 : 0 ≤ (v y - v z) * (v y - v z) := mul_self_nonneg _
      obtain ⟨h1, h2⟩ := ih b (Num.add x (Num.mul (Num.sub y z) (Num.sub y z))) (p + 1) (e + η) (A + (v y - v z) * (v y - v z)) (by omega) (add_nonneg he hη)
        (add_nonneg hA s0) (fun hf' => by
          obtain ⟨f1, f2⟩ := hR.finite _ _ hf'
          have t := (hx f1).add hu ((near_square hR hg f2).mono hu hp le_rfl hη le_rfl s0)
          have := t.round hu (abs_of_nonneg (add_nonneg hA s0)).le le_rfl (y := v (Num.add x (Num.mul (Num.sub y z) (Num.sub y z))))
            (by rw [add_zero]; exact hR.add _ _ hf')
          simpa using this) hf (by simpa using hl)
      refine ⟨?_, (hR.finite _ _ h2).1⟩
      rw [← add_assoc]
      refine h1.mono hu (by rw [List.length_cons]; omega) (le_of_eq ?_) (by positivity) le_rfl ?_
      · rw [List.length_cons]; push_cast; ring
      · refine add_nonneg (add_nonneg hA s0) (List.sum_nonneg ?_)
        intro q hq
        obtain ⟨k, hk, rfl⟩ := List.getElem_of_mem hq
        rw [List.getElem_zipWith]
        exact mul_self_nonneg _

theorem near_dist {a b : List W} (hl : a.length = b.length) (hf : Fin (dist2 a b)) :
    Near u (a.length + 3) (a.length * η) (v (dist2 a b)) (dist2 (a.map v) (b.map v)) (dist2 (a.map v) (b.map v)) := by
  have hu := hR.nonneg
  have h := (near_squares hR hg a b (Num.ofNat 0) 3 0 0 le_rfl le_rfl le_rfl (fun _ => by
    rw [hR.zero]; exact Near.refl hu 3 le_rfl le_rfl) hf hl).1
  have e : dist2 (a.map v) (b.map v) = (List.zipWith (fun x y => (v x - v y) * (v x - v y)) a b).sum := by
    unfold dist2
    rw [rat_sumUp, List.zipWith_map]
    rfl
  rw [e, Nat.add_comm]
  rw [zero_add, zero_add] at h
  exact h

theorem exact_dist_nonneg (a b : List ℚ) : 0 ≤ dist2 a b := by
  unfold dist2
  rw [rat_sumUp]
  refine List.sum_nonneg ?_
  intro q hq
  obtain ⟨k, hk, rfl⟩ := List.getElem_of_mem hq
  rw [List.getElem_zipWith]
  exact mul_self_nonneg (_ : ℚ)

theorem lt_false {a b : W} : Num.lt a b = false ↔ v b ≤ v a := by
  rw [hR.lt]; simp

theorem near_diam {dd : Nat} (hd : ∀ c ∈ g.centers, c.length = dd) {s : NSet} (hs : ∀ i ∈ s, i < g.nbC) {m : W} {M : ℚ}
    (h1 : LargestFrom Num.lmin (PairDist g s) m) (h2 : LargestFrom Num.lmin (PairDist (g.exact v) s) M) (hf : Fin m) :
    Near u (dd + 3) (dd * η) (v m) M M := by
  have hu := hR.nonneg
  have hη := hR.small
  obtain ⟨a1, a2, a3⟩ := h1
  obtain ⟨b1, b2, b3⟩ := h2
  have b2 : (Num.lmin : ℚ) ≤ M := by simpa [Num.lt] using b2
  have b3 : ∀ d, PairDist (g.exact v) s d → d ≤ M := fun d hd => by have := b3 d hd; simpa [Num.lt] using this
  rw [lt_false hR hg, hR.limits.2.1] at a2
  have key : ∀ i ∈ s, ∀ j ∈ s, i ≠ j → v (dist2 (centerAt g i) (centerAt g j)) ≤ v m ∧
      Near u (dd + 3) (dd * η) (v (dist2 (centerAt g i) (centerAt g j))) (dist2 (centerAt (g.exact v) i) (centerAt (g.exact v) j))
        (dist2 (centerAt (g.exact v) i) (centerAt (g.exact v) j)) := by
    intro i hi j hj hij
    have l1 := (lt_false hR hg).1 (a3 _ ⟨i, hi, j, hj, hij, rfl⟩)
    have hfin := hR.bound _ _ hf (dist_nonneg hR hg _ _) l1
    have hli := center_length hg.sizes hd (hs i hi)
    have hlj := center_length hg.sizes hd (hs j hj)
    have := near_dist hR hg (by rw [hli, hlj]) hfin
    rw [exact_center, exact_center]
    rw [hli] at this
    exact ⟨l1, this⟩
  have G := one_le_grow hu (dd + 3)
  have H : 0 ≤ (1 + u) ^ (dd + 3) * (dd * η) := by positivity
  have hM : 0 ≤ M := by
    rcases b1 with rfl | ⟨i, hi, j, hj, hij, rfl⟩
    · have : (0 : ℚ) ≤ (Num.lmin : Dbl).value := by
        rw [← Dbl.value_zero, Dbl.value_le]; decide
      exact this
    · exact exact_dist_nonneg hR hg _ _
  unfold Near
  have hGM : 0 ≤ ((1 + u) ^ (dd + 3) - 1) * M := mul_nonneg (by linarith) hM
  rw [abs_le]
  constructor
  · rcases b1 with rfl | ⟨i, hi, j, hj, hij, rfl⟩
    · linarith
    · obtain ⟨k1, k2⟩ := key i hi j hj hij
      unfold Near at k2
      rw [abs_le] at k2
      linarith [k2.1]
  · rcases a1 with rfl | ⟨i, hi, j, hj, hij, rfl⟩
    · rw [hR.limits.2.1]
      linarith
    · obtain ⟨k1, k2⟩ := key i hi j hj hij
      unfold Near at k2
      rw [abs_le] at k2
      have l2 := b3 _ ⟨i, hi, j, hj, hij, rfl⟩
      have := mul_le_mul_of_nonneg_left l2 (show 0 ≤ (1 + u) ^ (dd + 3) - 1 by linarith)
      linarith [k2.2]

theorem near_edge {dd : Nat} (hd : ∀ c ∈ g.centers, c.length = dd) {s : NSet} (hs : ∀ i ∈ s, i < g.nbC) {m m' : W} {M : ℚ}
    (h0 : LargestFrom Num.lmin (PairDist g s) m') (hf : Fin m')
    (h1 : SmallestFrom Num.lmax (PairDist g s) m) (h2 : SmallestFrom Num.lmax (PairDist (g.exact v) s) M) :
    Near u (dd + 3) (dd * η) (v m) M M := by
  have hu := hR.nonneg
  have hη := hR.small
  obtain ⟨a1, a2, a3⟩ := h1
  obtain ⟨b1, b2, b3⟩ := h2
  have b2 : M ≤ (Num.lmax : ℚ) := by simpa [Num.lt] using b2
  have b3 : ∀ d, PairDist (g.exact v) s d → M ≤ d := fun d hd => by have := b3 d hd; simpa [Num.lt] using this
  rw [lt_false hR hg, hR.limits.2.2] at a2
  have key : ∀ i ∈ s, ∀ j ∈ s, i ≠ j → v m ≤ v (dist2 (centerAt g i) (centerAt g j)) ∧
      Near u (dd + 3) (dd * η) (v (dist2 (centerAt g i) (centerAt g j))) (dist2 (centerAt (g.exact v) i) (centerAt (g.exact v) j))
        (dist2 (centerAt (g.exact v) i) (centerAt (g.exact v) j)) := by
    intro i hi j hj hij
    have l1 := (lt_false hR hg).1 (a3 _ ⟨i, hi, j, hj, hij, rfl⟩)
    have l0 := (lt_false hR hg).1 (h0.2.2 _ ⟨i, hi, j, hj, hij, rfl⟩)
    have hfin := hR.bound _ _ hf (dist_nonneg hR hg _ _) l0
    have hli := center_length hg.sizes hd (hs i hi)
    have hlj := center_length hg.sizes hd (hs j hj)
    have := near_dist hR hg (by rw [hli, hlj]) hfin
    rw [exact_center, exact_center]
    rw [hli] at this
    exact ⟨l1, this⟩
  have G := one_le_grow hu (dd + 3)
  have H : 0 ≤ (1 + u) ^ (dd + 3) * (dd * η) := by positivity
  have hlm : (0 : ℚ) ≤ Num.lmax := by
    have : (0 : ℚ) ≤ (Num.lmax : Dbl).value := by
      rw [← Dbl.value_zero, Dbl.value_le]; decide
    exact this
  have hM : 0 ≤ M := by
    rcases b1 with rfl | ⟨i, hi, j, hj, hij, rfl⟩
    · exact hlm
    · exact exact_dist_nonneg hR hg _ _
  unfold Near
  have hGM : 0 ≤ ((1 + u) ^ (dd + 3) - 1) * M := mul_nonneg (by linarith) hM
  rw [abs_le]
  constructor
  · rcases a1 with rfl | ⟨i, hi, j, hj, hij, rfl⟩
    · rw [hR.limits.2.2]
      linarith
    · obtain ⟨k1, k2⟩ := key i hi j hj hij
      unfold Near at k2
      rw [abs_le] at k2
      have l2 := b3 _ ⟨i, hi, j, hj, hij, rfl⟩
      have n0 := dist_nonneg hR hg (centerAt g i) (centerAt g j)
      by_cases hG : (1 + u) ^ (dd + 3) - 1 ≤ 1
      · have := mul_le_mul_of_nonneg_left l2 (show 0 ≤ 1 - ((1 + u) ^ (dd + 3) - 1) by linarith)
        linarith [k2.1]
      · have : 1 * M ≤ ((1 + u) ^ (dd + 3) - 1) * M := mul_le_mul_of_nonneg_right (by linarith) hM
        linarith
  · rcases b1 with rfl | ⟨i, hi, j, hj, hij, rfl⟩
    · linarith
    · obtain ⟨k1, k2⟩ := key i hi j hj hij
      unfold Near at k2
      rw [abs_le] at k2
      linarith [k2.2]

end weights

end CoMMA
