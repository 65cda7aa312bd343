import Verif.Model.Graph
import Verif.Spec.Graph
import Verif.Lemmas.Containers
/-! # Lemmas on compressed rows -/

namespace CoMMA

variable {α : Type}

/-- the row read by `rowM` -/
def rowL (rowPtr : List Nat) (v : List α) (c : Nat) : List α :=
  match rowM rowPtr v c with
  | .ok r => r
  | .error _ => []

section
variable {n : Nat} {rowPtr colInd : List Nat}

theorem ValidCRS.getPtr (h : ValidCRS n rowPtr colInd) {i : Nat} (hi : i ≤ n) :
    ∃ b, rowPtr[i]? = some b ∧ b ≤ colInd.length := by
  have key : ∀ k, k ≤ n → ∃ b, rowPtr[n - k]? = some b ∧ b ≤ colInd.length := by
    intro k
    induction k with
    | zero => intro _; exact ⟨_, h.last, Nat.le_refl _⟩
    | succ k ih =>
      intro hk
      obtain ⟨e, he, hle⟩ := ih (by omega)
      have hlt : n - (k + 1) < rowPtr.length := by rw [h.rows]; omega
      refine ⟨rowPtr[n - (k + 1)], by simp [hlt], Nat.le_trans ?_ hle⟩
      refine h.mono (n - (k + 1)) _ _ (by simp [hlt]) ?_
      rw [show n - (k + 1) + 1 = n - k by omega]; exact he
  have := key (n - i) (by omega)
  rwa [show n - (n - i) = i by omega] at this

/-- rows of a valid CRS can be read -/
theorem ValidCRS.row (h : ValidCRS n rowPtr colInd) {i : Nat} (hi : i < n) (v : List α)
    (hv : v.length = colInd.length) :
    ∃ b e, rowPtr[i]? = some b ∧ rowPtr[i + 1]? = some e ∧ b ≤ e ∧ e ≤ colInd.length ∧
      rowM rowPtr v i = .ok ((v.drop b).take (e - b)) := by
  obtain ⟨b, hb, _⟩ := h.getPtr (i := i) (by omega)
  obtain ⟨e, he, hle⟩ := h.getPtr (i := i + 1) (by omega)
  have hbe := h.mono i b e hb he
  refine ⟨b, e, hb, he, hbe, hle, ?_⟩
  unfold rowM
  rw [rd_ok.2 hb, rd_ok.2 he]
  simp only [ok_bind, slice]
  rw [if_pos ⟨hbe, by omega⟩]

theorem ValidCRS.rowM_eq (h : ValidCRS n rowPtr colInd) {i : Nat} (hi : i < n) (v : List α)
    (hv : v.length = colInd.length) : rowM rowPtr v i = .ok (rowL rowPtr v i) := by
  obtain ⟨b, e, _, _, _, _, h5⟩ := h.row hi v hv
  unfold rowL; rw [h5]

theorem mem_drop_take {v : List α} {b e : Nat} {x : α} :
    x ∈ (v.drop b).take (e - b) ↔ ∃ k, b ≤ k ∧ k < e ∧ v[k]? = some x := by
  rw [List.mem_iff_getElem?]
  constructor
  · rintro ⟨k, hk⟩
    rw [List.getElem?_take] at hk
    split at hk
    · rw [List.getElem?_drop] at hk
      exact ⟨b + k, by omega, by omega, hk⟩
    · cases hk
  · rintro ⟨k, h1, h2, h3⟩
    refine ⟨k - b, ?_⟩
    rw [List.getElem?_take, if_pos (by omega), List.getElem?_drop, show b + (k - b) = k by omega]
    exact h3

/-- members of a row are the adjacent cells -/
theorem ValidCRS.mem_rowL (h : ValidCRS n rowPtr colInd) {i j : Nat} (hi : i < n) :
    j ∈ rowL rowPtr colInd i ↔ Adj rowPtr colInd i j := by
  obtain ⟨b, e, hb, he, _, _, h5⟩ := h.row hi colInd rfl
  unfold rowL; rw [h5]
  simp only [mem_drop_take]
  constructor
  · rintro ⟨k, h1, h2, h3⟩; exact ⟨b, e, k, hb, he, h1, h2, h3⟩
  · rintro ⟨b', e', k, h1, h2, h3, h4, h6⟩
    rw [hb] at h1; cases h1
    rw [he] at h2; cases h2
    exact ⟨k, h3, h4, h6⟩

theorem ValidCRS.adj_lt (h : ValidCRS n rowPtr colInd) {i j : Nat} (ha : Adj rowPtr colInd i j) :
    i < n ∧ j < n := by
  obtain ⟨b, e, k, _, h2, _, _, h5⟩ := ha
  constructor
  · by_contra hc
    rw [List.getElem?_eq_none (by rw [h.rows]; omega)] at h2; cases h2
  · exact h.range j (List.mem_of_getElem? h5)

theorem ValidCRS.rowL_lt (h : ValidCRS n rowPtr colInd) {i j : Nat} (hi : i < n)
    (hj : j ∈ rowL rowPtr colInd i) : j < n := (h.adj_lt ((h.mem_rowL hi).1 hj)).2

end

/-! ### Walks -/

theorem Walk.trans {R : Nat → Nat → Prop} {k l x y z : Nat} (h : Walk R k x y) (h' : Walk R l y z) :
    Walk R (k + l) x z := by
  induction h' with
  | nil => exact h
  | step _ hr ih => exact (ih h).step hr

theorem Walk.mono {R S : Nat → Nat → Prop} (hRS : ∀ x y, R x y → S x y) {k x y : Nat} (h : Walk R k x y) :
    Walk S k x y := by
  induction h with
  | nil => exact .nil _
  | step _ hr ih => exact .step ih (hRS _ _ hr)

theorem Walk.single {R : Nat → Nat → Prop} {x y : Nat} (h : R x y) : Walk R 1 x y := .step (.nil x) h

theorem Walk.symm {R : Nat → Nat → Prop} (hs : ∀ x y, R x y → R y x) {k x y : Nat} (h : Walk R k x y) :
    Walk R k y x := by
  induction h with
  | nil => exact .nil _
  | @step k x y z _ hr ih =>
    have := (Walk.single (hs _ _ hr)).trans ih
    rwa [show k + 1 = 1 + k by omega]

/-- the last step to a different vertex -/
theorem Walk.last {R : Nat → Nat → Prop} {m x z : Nat} (h : Walk R m x z) (hne : x ≠ z) : ∃ y, y ≠ z ∧ R y z := by
  induction h with
  | nil => exact absurd rfl hne
  | @step k x y z hw hr ih =>
    by_cases hyz : y = z
    · rw [hyz] at ih; exact ih hne
    · exact ⟨y, hyz, hr⟩

end CoMMA
