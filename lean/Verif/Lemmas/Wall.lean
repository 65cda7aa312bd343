import Verif.Model.Util
import Verif.Lemmas.Graph
import Mathlib.Data.List.Count
/-! # Wall distance: invariant of the breadth-first search -/

namespace CoMMA

/-- distance stored for a cell -/
def dv (dist : List Int) (x : Nat) : Int := (dist[x]?).getD (-1)

theorem rd_dv {dist : List Int} {n x : Nat} (hl : dist.length = n) (hx : x < n) :
    rd dist x = .ok (dv dist x) := by
  have h : x < dist.length := by omega
  rw [rd_ok, dv]; simp [h]

theorem dv_set {dist : List Int} {x y : Nat} {d : Int} (hx : x < dist.length) :
    dv (dist.set x d) y = if y = x then d else dv dist y := by
  unfold dv
  rw [List.getElem?_set]
  by_cases h : x = y
  · subst h; simp [hx]
  · simp [h, Ne.symm h]

/-- number of cells without a distance -/
def unl (dist : List Int) : Nat := dist.countP (fun d => decide (d < 0))

theorem unl_set {dist : List Int} {x : Nat} {d : Int} (hx : x < dist.length) (h : dv dist x < 0)
    (hd : 0 ≤ d) : unl (dist.set x d) + 1 = unl dist := by
  unfold unl
  have hx' : dist[x] < 0 := by simpa [dv, hx] using h
  rw [List.countP_set]
  have hpos : 0 < dist.countP (fun d => decide (d < 0)) := by
    rw [List.countP_pos_iff]
    exact ⟨dist[x], by simp, by simpa using hx'⟩
  simp [hx', show ¬ d < 0 by omega]
  · omega
  · exact hx

section
variable {n : Nat} {rowPtr colInd wall : List Nat}

/-- invariant between two iterations of the outer loop -/
structure WInv (n : Nat) (rowPtr colInd wall q : List Nat) (dist : List Int) : Prop where
  len : dist.length = n
  qn : ∀ x ∈ q, x < n ∧ 0 ≤ dv dist x
  sorted : q.Pairwise (fun a b => dv dist a ≤ dv dist b)
  near : ∀ a ∈ q, ∀ x < n, dv dist x ≤ dv dist a + 1
  sound : ∀ x, x < n → 0 ≤ dv dist x → ∃ w ∈ wall, Walk (Adj rowPtr colInd) (dv dist x).toNat w x
  closed : ∀ x, x < n → 0 ≤ dv dist x → x ∉ q → ∀ y, Adj rowPtr colInd x y →
    0 ≤ dv dist y ∧ dv dist y ≤ dv dist x + 1
  walls : ∀ w ∈ wall, dv dist w = 0
  wn : ∀ w ∈ wall, w < n
  neg : ∀ x < n, -1 ≤ dv dist x

theorem wallVisit_loop (h : ValidCRS n rowPtr colInd) {cur : Nat} {q : List Nat} {dist : List Int}
    (hI : WInv n rowPtr colInd wall (cur :: q) dist) :
    Ok ((rowL rowPtr colInd cur).foldlM (wallVisit (dv dist cur + 1)) (dist, q))
      (fun st => WInv n rowPtr colInd wall st.2 st.1 ∧ unl st.1 + st.2.length = unl dist + q.length) := by
  obtain ⟨hcn, hc0⟩ := hI.qn cur (by simp)
  set d := dv dist cur with hd
  have hnear : ∀ x < n, dv dist x ≤ d + 1 := fun x hx => hI.near cur (by simp) x hx
  refine Ok.mono (Ok.foldlM_prefix (I := fun pre (st : List Int × List Nat) =>
      st.1.length = n ∧ dv st.1 cur = d ∧
      (∀ x ∈ st.2, x < n ∧ d ≤ dv st.1 x) ∧
      st.2.Pairwise (fun a b => dv st.1 a ≤ dv st.1 b) ∧
      (∀ x < n, dv st.1 x ≤ d + 1) ∧
      (∀ x, x < n → 0 ≤ dv st.1 x → ∃ w ∈ wall, Walk (Adj rowPtr colInd) (dv st.1 x).toNat w x) ∧
      (∀ x, x < n → 0 ≤ dv st.1 x → x ∉ st.2 → x ≠ cur → ∀ y, Adj rowPtr colInd x y →
        0 ≤ dv st.1 y ∧ dv st.1 y ≤ dv st.1 x + 1) ∧
      (∀ y ∈ pre, 0 ≤ dv st.1 y) ∧
      (∀ w ∈ wall, dv st.1 w = 0) ∧ (∀ x < n, -1 ≤ dv st.1 x) ∧
      unl st.1 + st.2.length = unl dist + q.length) ?_ ?_) ?_
  · have hs := hI.sorted
    rw [List.pairwise_cons] at hs
    refine ⟨hI.len, rfl, fun x hx => ⟨(hI.qn x (by simp [hx])).1, hs.1 x hx⟩, hs.2, hnear, hI.sound,
      ?_, by simp, hI.walls, hI.neg, rfl⟩
    intro x hx h0 hxq hxc y hy
    exact hI.closed x hx h0 (by simp [hxc, hxq]) y hy
  · rintro pre x post ⟨dist', q'⟩ hl ⟨h1, h2, h3, h4, h5, h6, h7, h8, h9, h10, h11⟩
    simp only at *
    have hxr : x ∈ rowL rowPtr colInd cur := by rw [hl]; simp
    have hxn : x < n := h.rowL_lt hcn hxr
    have hadj : Adj rowPtr colInd cur x := (h.mem_rowL hcn).1 hxr
    have hxlt : x < dist'.length := by omega
    unfold wallVisit
    simp only
    rw [rd_dv h1 hxn]
    simp only [ok_bind]
    by_cases hneg : dv dist' x < 0
    · rw [if_pos hneg, wr_of_lt hxlt]
      simp only [ok_bind, Ok_pure]
      have hset : ∀ y, dv (dist'.set x (d + 1)) y = if y = x then d + 1 else dv dist' y :=
        fun y => dv_set hxlt
      have hxc : cur ≠ x := by intro e; rw [← e, h2] at hneg; omega
      have hxq : x ∉ q' := by intro hm; have := (h3 x hm).2; omega
      refine ⟨by simpa using h1, by rw [hset, if_neg hxc, h2], ?_, ?_, ?_, ?_, ?_, ?_, ?_, ?_, ?_⟩
      · intro y hy
        rw [hset]
        rcases List.mem_append.1 hy with hy | hy
        · refine ⟨(h3 y hy).1, ?_⟩
          split
          · omega
          · exact (h3 y hy).2
        · simp only [List.mem_singleton] at hy; subst hy
          exact ⟨hxn, by rw [if_pos rfl]; omega⟩
      · rw [List.pairwise_append]
        refine ⟨h4.imp_of_mem (fun {a b} ha hb hab => ?_), by simp, ?_⟩
        · rw [hset, hset, if_neg (by rintro rfl; exact hxq ha), if_neg (by rintro rfl; exact hxq hb)]
          exact hab
        · intro a ha b hb
          simp only [List.mem_singleton] at hb; subst hb
          rw [hset, hset, if_neg (by rintro rfl; exact hxq ha), if_pos rfl]
          exact h5 a (h3 a ha).1
      · intro y hy
        rw [hset]; split
        · omega
        · exact h5 y hy
      · intro y hy h0
        rw [hset] at h0 ⊢
        split
        · rename_i he; subst he
          obtain ⟨w, hw, hwalk⟩ := h6 cur hcn (by omega)
          refine ⟨w, hw, ?_⟩
          rw [h2] at hwalk
          rw [show (d + 1).toNat = d.toNat + 1 by omega]
          exact hwalk.step hadj
        · rename_i he
          rw [if_neg he] at h0
          exact h6 y hy h0
      · intro y hy h0 hyq hyc z hz
        have hyx : y ≠ x := by rintro rfl; exact hyq (by simp)
        rw [hset, if_neg hyx] at h0
        have h12 := h7 y hy h0 (fun hm => hyq (by simp [hm])) hyc z hz
        have hzx : z ≠ x := by rintro rfl; omega
        rw [hset, hset, if_neg hzx, if_neg hyx]
        exact h12
      · intro y hy
        rw [hset]; split
        · omega
        · rename_i hyx
          rcases List.mem_append.1 hy with hy | hy
          · exact h8 y hy
          · simp only [List.mem_singleton] at hy; exact absurd hy hyx
      · intro w hw
        have hwx : w ≠ x := by rintro rfl; have := h9 w hw; omega
        rw [hset, if_neg hwx]; exact h9 w hw
      · intro y hy
        rw [hset]; split
        · omega
        · exact h10 y hy
      · have := unl_set (d := d + 1) hxlt hneg (by omega)
        simp only [List.length_append, List.length_singleton]
        omega
    · rw [if_neg hneg]
      have := h5 x hxn
      rw [if_neg (by omega)]
      simp only [Ok_pure]
      refine ⟨h1, h2, h3, h4, h5, h6, h7, ?_, h9, h10, h11⟩
      intro y hy
      rcases List.mem_append.1 hy with hy | hy
      · exact h8 y hy
      · simp only [List.mem_singleton] at hy; subst hy; omega
  · rintro ⟨dist', q'⟩ ⟨h1, h2, h3, h4, h5, h6, h7, h8, h9, h10, h11⟩
    refine ⟨⟨h1, fun x hx => ⟨(h3 x hx).1, by have := (h3 x hx).2; simp only at this ⊢; omega⟩, h4, ?_, h6, ?_, h9, hI.wn, h10⟩, h11⟩
    · intro a ha x hx
      have := (h3 a ha).2
      have := h5 x hx
      omega
    · intro x hx h0 hxq y hy
      by_cases hxc : x = cur
      · subst hxc
        have := h8 y ((h.mem_rowL hx).2 hy)
        have := h5 y (h.adj_lt hy).2
        simp only at *
        omega
      · exact h7 x hx h0 hxq hxc y hy

theorem wallLoop_spec (h : ValidCRS n rowPtr colInd) (f : Nat) {q : List Nat} {dist : List Int}
    (hI : WInv n rowPtr colInd wall q dist) (hf : unl dist + q.length ≤ f) :
    Ok (wallLoop rowPtr colInd f q dist) (fun r => WInv n rowPtr colInd wall [] r) := by
  induction f generalizing q dist with
  | zero =>
    cases q with
    | nil => simpa [wallLoop] using hI
    | cons a q => simp at hf
  | succ f ih =>
    cases q with
    | nil => simpa [wallLoop] using hI
    | cons cur q =>
      obtain ⟨hcn, hc0⟩ := hI.qn cur (by simp)
      unfold wallLoop
      rw [rd_dv hI.len hcn]
      simp only [ok_bind]
      rw [h.rowM_eq hcn colInd rfl]
      simp only [ok_bind]
      refine (wallVisit_loop h hI).bind (fun st ⟨h1, h2⟩ => ?_)
      refine ih h1 ?_
      simp only [List.length_cons] at hf
      omega

theorem wallInit_spec (hw : ∀ w ∈ wall, w < n) :
    Ok (wall.foldlM (fun (st : List Int × List Nat) c => do
      let dist ← wr st.1 c 0
      pure (dist, st.2 ++ [c])) (List.replicate n (-1), []))
    (fun st => WInv n rowPtr colInd wall st.2 st.1 ∧ unl st.1 + st.2.length ≤ wall.length + n) := by
  refine Ok.mono (Ok.foldlM_prefix (I := fun pre (st : List Int × List Nat) =>
      st.1.length = n ∧ st.2 = pre ∧ ∀ x < n, dv st.1 x = if x ∈ pre then 0 else -1) ?_ ?_) ?_
  · refine ⟨by simp, rfl, fun x hx => ?_⟩
    simp [dv, hx]
  · rintro pre c post ⟨dist, q⟩ hl ⟨h1, h2, h3⟩
    simp only at *
    subst h2
    have hcn : c < n := hw c (by rw [hl]; simp)
    have hlt : c < dist.length := by omega
    rw [wr_of_lt hlt]
    simp only [ok_bind, Ok_pure]
    refine ⟨by simpa using h1, trivial, fun x hx => ?_⟩
    rw [dv_set hlt, h3 x hx]
    simp only [List.mem_append, List.mem_singleton]
    by_cases hxc : x = c <;> simp [hxc]
  · rintro ⟨dist, q⟩ ⟨h1, h2, h3⟩
    simp only at *
    subst h2
    refine ⟨⟨h1, ?_, ?_, ?_, ?_, ?_, ?_, hw, ?_⟩, ?_⟩
    · intro x hx
      refine ⟨hw x hx, ?_⟩
      rw [h3 x (hw x hx), if_pos hx]; exact Int.le_refl _
    · rw [List.pairwise_iff_forall_sublist]
      intro a b hab
      have ha : a ∈ q := hab.subset (by simp)
      have hb : b ∈ q := hab.subset (by simp)
      rw [h3 a (hw a ha), h3 b (hw b hb), if_pos ha, if_pos hb]; exact Int.le_refl _
    · intro a ha x hx
      rw [h3 a (hw a ha), h3 x hx, if_pos ha]; split <;> omega
    · intro x hx h0
      rw [h3 x hx] at h0 ⊢
      split
      · rename_i hm; exact ⟨x, hm, .nil x⟩
      · rename_i hm; rw [if_neg hm] at h0; omega
    · intro x hx h0 hxq
      rw [h3 x hx, if_neg hxq] at h0; omega
    · intro w hw'
      rw [h3 w (hw w hw'), if_pos hw']
    · intro x hx
      rw [h3 x hx]; split <;> omega
    · have : unl dist ≤ n := by rw [← h1]; exact List.countP_le_length
      omega

end

end CoMMA
