import Verif.Lemmas.Best
import Verif.Spec.Agglomeration
/-! # Checkers used to show that concrete graphs meet the hypotheses of the theorems -/

namespace CoMMA

theorem adj_iff_rowOf {rp ci : List Nat} {i j : Nat} : Adj rp ci i j ↔ j ∈ rowOf rp ci i := by
  unfold Adj rowOf
  constructor
  · rintro ⟨b, e, k, hb, he, h1, h2, h3⟩
    rw [hb, he]
    exact mem_drop_take.2 ⟨k, h1, h2, h3⟩
  · intro h
    split at h
    · rename_i b e hb he
      obtain ⟨k, h1, h2, h3⟩ := mem_drop_take.1 h
      exact ⟨b, e, k, hb, he, h1, h2, h3⟩
    · simp at h

/-- executable version of `ValidCRS` -/
def checkCRS (n : Nat) (rp ci : List Nat) : Bool :=
  decide (rp.length = n + 1) && (List.range n).all (fun i => decide (rp.getD i 0 ≤ rp.getD (i + 1) 0)) &&
    decide (rp[n]? = some ci.length) && ci.all (fun j => decide (j < n))

theorem checkCRS_sound {n : Nat} {rp ci : List Nat} (h : checkCRS n rp ci = true) : ValidCRS n rp ci := by
  simp only [checkCRS, Bool.and_eq_true, decide_eq_true_eq, List.all_eq_true, List.mem_range] at h
  obtain ⟨⟨⟨h1, h2⟩, h3⟩, h4⟩ := h
  refine ⟨h1, ?_, h3, h4⟩
  intro i b e hb he
  have hi := (List.getElem?_eq_some_iff.1 he).1
  have := h2 i (by omega)
  rw [List.getD_eq_getElem?_getD, List.getD_eq_getElem?_getD, hb, he] at this
  exact this

/-- executable version of `SymmetricCRS` -/
def checkSym (n : Nat) (rp ci : List Nat) : Bool :=
  (List.range n).all (fun i => (rowOf rp ci i).all (fun j => (rowOf rp ci j).contains i))

theorem checkSym_sound {n : Nat} {rp ci : List Nat} (hv : ValidCRS n rp ci) (h : checkSym n rp ci = true) :
    SymmetricCRS rp ci := by
  intro i j hij
  simp only [checkSym, List.all_eq_true, List.mem_range, List.contains_iff_mem] at h
  have := h i (hv.adj_lt hij).1 j (adj_iff_rowOf.1 hij)
  exact adj_iff_rowOf.2 this

/-- executable version of `UniqueRows` -/
def checkUniq (n : Nat) (rp ci : List Nat) : Bool :=
  (List.range n).all (fun i => decide (rowOf rp ci i).Nodup)

theorem checkUniq_sound {n : Nat} {rp ci : List Nat} (hv : ValidCRS n rp ci) (h : checkUniq n rp ci = true) :
    UniqueRows rp ci := by
  intro i b e hb he k l j hk hke hl hle hkj hlj
  simp only [checkUniq, List.all_eq_true, List.mem_range, decide_eq_true_eq] at h
  have hi : i < n := by
    have := (List.getElem?_eq_some_iff.1 he).1
    have := hv.rows
    omega
  have hnd := h i hi
  have hrow : rowOf rp ci i = (ci.drop b).take (e - b) := by unfold rowOf; rw [hb, he]
  rw [hrow] at hnd
  have e1 : ((ci.drop b).take (e - b))[k - b]? = some j := by
    rw [List.getElem?_take, if_pos (by omega), List.getElem?_drop, show b + (k - b) = k by omega, hkj]
  have e2 : ((ci.drop b).take (e - b))[l - b]? = some j := by
    rw [List.getElem?_take, if_pos (by omega), List.getElem?_drop, show b + (l - b) = l by omega, hlj]
  obtain ⟨p1, q1⟩ := List.getElem?_eq_some_iff.1 e1
  obtain ⟨p2, q2⟩ := List.getElem?_eq_some_iff.1 e2
  have := (List.Nodup.getElem_inj_iff hnd (hi := p1) (hj := p2)).1 (by rw [q1, q2])
  omega

/-- executable version of `NoSelfLoop` -/
def checkNoLoop (n : Nat) (rp ci : List Nat) : Bool :=
  (List.range n).all (fun i => !(rowOf rp ci i).contains i)

theorem checkNoLoop_sound {n : Nat} {rp ci : List Nat} (hv : ValidCRS n rp ci) (h : checkNoLoop n rp ci = true) :
    NoSelfLoop rp ci := by
  intro i hii
  simp only [checkNoLoop, List.all_eq_true, List.mem_range] at h
  have := h i (hv.adj_lt hii).1
  have h2 := adj_iff_rowOf.1 hii
  simp at this
  exact this h2

end CoMMA
