import Verif.Spec.LineGrowth
import Verif.Lemmas.WeightRange
import Verif.Lemmas.BuildLines
/-! # Couplings and directions as computed -/

set_option linter.unusedSectionVars false

namespace CoMMA

variable {W : Type} [Num W]

theorem Ok.foldlM_range {β : Type} {f : β → Nat → M β} {n : Nat} {b : β} {I : Nat → β → Prop} (h0 : I 0 b)
    (hs : ∀ k, k < n → ∀ b, I k b → Ok (f b k) (I (k + 1))) : Ok ((List.range n).foldlM f b) (I n) := by
  have := Ok.foldlM_prefix (l := List.range n) (f := f) (b := b) (I := fun pre b => I pre.length b) h0 (by
    intro pre a post b hsp hI
    have hlen : pre.length < n := by
      have := congrArg List.length hsp
      simp at this; omega
    have ha : a = pre.length := by
      have h1 : (List.range n)[pre.length]? = some a := by rw [hsp]; simp
      rw [List.getElem?_range hlen] at h1
      cases h1; rfl
    subst ha
    simpa using hs _ hlen b hI)
  simpa using this

theorem sumUp_take_succ {l : List W} {k : Nat} (h : k < l.length) :
    sumUp (l.take (k + 1)) = Num.add (sumUp (l.take k)) l[k] := by
  unfold sumUp
  rw [List.take_succ_eq_append_getElem h, List.foldl_append]
  rfl

theorem sqDist_eq {a b : List W} (h : b.length = a.length) : sqDist a b = .ok (dist2 a b) := by
  obtain ⟨r, hr, hp⟩ := Ok.eq (m := sqDist a b) (P := fun r => r = dist2 a b) (by
    unfold sqDist
    refine Ok.mono (Ok.foldlM_range (I := fun k r => r = sumUp ((List.zipWith (fun x y => Num.mul (Num.sub x y) (Num.sub x y)) a b).take k))
      rfl ?_) ?_
    · intro k hk s hs
      rw [rd_of_lt hk, ok_bind, rd_of_lt (by omega), ok_bind, Ok_pure, sumUp_take_succ (by simp; omega), hs]
      simp
    · intro r hr
      rw [hr, List.take_of_length_le (by simp; omega)]
      rfl)
  rw [hr, hp]

theorem dotProduct_eq {a b : List W} (h : b.length = a.length) : dotProduct a b = .ok (scalar a b) := by
  obtain ⟨r, hr, hp⟩ := Ok.eq (m := dotProduct a b) (P := fun r => r = scalar a b) (by
    unfold dotProduct
    refine Ok.mono (Ok.foldlM_range (I := fun k r => r = sumUp ((List.zipWith Num.mul a b).take k)) rfl ?_) ?_
    · intro k hk s hs
      rw [rd_of_lt hk, ok_bind, rd_of_lt (by omega), ok_bind, Ok_pure, sumUp_take_succ (by simp; omega), hs]
      simp
    · intro r hr
      rw [hr, List.take_of_length_le (by simp; omega)]
      rfl)
  rw [hr, hp]

theorem vecFrom_length {a b : List W} (h : b.length = a.length) : (vecFrom a b).length = a.length := by
  simp [vecFrom, h]

theorem unitFrom_length {a b : List W} (h : b.length = a.length) : (unitFrom a b).length = a.length := by
  simp [unitFrom, vecFrom_length h]

theorem getDirection_eq {a b dir : List W} (h1 : b.length = a.length) (h2 : dir.length = a.length) :
    getDirection a b dir = .ok (unitFrom a b) := by
  obtain ⟨r, hr, hp⟩ := Ok.eq (m := getDirection a b dir) (P := fun r => r = unitFrom a b) (by
    unfold getDirection
    have hv := vecFrom_length h1
    refine Ok.bind (P := fun (s : List W × W) => s.1 = vecFrom a b ∧ s.2 = scalar (vecFrom a b) (vecFrom a b)) ?_ ?_
    · refine Ok.mono (Ok.foldlM_range (I := fun k (s : List W × W) => s.1 = (vecFrom a b).take k ++ dir.drop k ∧
        s.2 = sumUp ((List.zipWith Num.mul (vecFrom a b) (vecFrom a b)).take k)) ⟨by simp, rfl⟩ ?_) ?_
      · rintro k hk s ⟨e1, e2⟩
        have hkv : k < (vecFrom a b).length := by omega
        have hl : s.1.length = a.length := by rw [e1]; simp; omega
        have hk2 : (vecFrom a b)[k] = Num.sub b[k] a[k] := by simp [vecFrom]
        rw [rd_of_lt hk, ok_bind, rd_of_lt (by omega), ok_bind, wr_of_lt (by omega), ok_bind, Ok_pure]
        refine ⟨?_, ?_⟩
        · simp only
          rw [e1, ← hk2, List.set_append_right _ _ (by simp; omega), List.take_succ_eq_append_getElem hkv,
            List.append_assoc]
          congr 1
          have : k - ((vecFrom a b).take k).length = 0 := by simp; omega
          rw [this, List.drop_eq_getElem_cons (show k < dir.length by omega), List.set_cons_zero]
          simp
        · simp only
          rw [sumUp_take_succ (by simp; omega), e2]
          simp [hk2]
      · rintro s ⟨e1, e2⟩
        refine ⟨?_, ?_⟩
        · rw [e1, List.take_of_length_le (by omega), List.drop_of_length_le (by omega), List.append_nil]
        · rw [e2, List.take_of_length_le (by simp; omega)]
          rfl
    · rintro s ⟨e1, e2⟩
      rw [Ok_pure, e1, e2]
      rfl)
  rw [hr, hp]

theorem centerDirection_eq {L : LineEnv W} (hL : LineOk L) {x y : Nat} (hx : x < L.g.nbC) (hy : y < L.g.nbC)
    {dir : List W} (hd : dir.length = L.ptsDim) :
    ∃ d, L.g.centerDirection x y dir = .ok d ∧ StepDir L.g y x d ∧ d.length = L.ptsDim := by
  unfold Graph.centerDirection
  have hx' : x < L.g.centers.length := by rw [hL.centers]; exact hx
  have hy' : y < L.g.centers.length := by rw [hL.centers]; exact hy
  have e1 := hL.coords _ (List.getElem_mem hx')
  have e2 := hL.coords _ (List.getElem_mem hy')
  rw [rd_of_lt hx', ok_bind, rd_of_lt hy', ok_bind]
  refine ⟨_, getDirection_eq (by omega) (by omega), ⟨L.g.centers[y], L.g.centers[x], by simp [hy'], by simp [hx'], rfl⟩, ?_⟩
  rw [unitFrom_length (by omega), e1]

theorem StepDir.unique {g : Graph W} {i n : Nat} {d d' : List W} (h : StepDir g i n d) (h' : StepDir g i n d') : d = d' := by
  obtain ⟨a, b, h1, h2, h3⟩ := h
  obtain ⟨a', b', h1', h2', h3'⟩ := h'
  rw [h1] at h1'; cases h1'
  rw [h2] at h2'; cases h2'
  rw [h3, h3']

/-- the coupling read at a position of the storage -/
def CouplingAt (g : Graph W) (coupling : Coupling) (i k n : Nat) (w : W) : Prop :=
  match coupling with
  | .maxWeight => g.values[k]? = some w
  | .minDistance => ∃ ci cn, g.centers[i]? = some ci ∧ g.centers[n]? = some cn ∧
      w = Num.div (Num.ofNat 1) (dist2 ci cn)
  | .unknown => False

theorem couplingOf_iff {g : Graph W} {coupling : Coupling} {i n : Nat} {w : W} :
    CouplingOf g coupling i n w ↔ ∃ k, FaceAt g i k n ∧ CouplingAt g coupling i k n w := Iff.rfl

theorem CouplingAt.unique {g : Graph W} {coupling : Coupling} {i k n : Nat} {w w' : W} (h : CouplingAt g coupling i k n w)
    (h' : CouplingAt g coupling i k n w') : w = w' := by
  cases coupling with
  | unknown => exact h.elim
  | maxWeight => unfold CouplingAt at h h'; simp only at h h'; rw [h] at h'; cases h'; rfl
  | minDistance =>
    obtain ⟨a, b, h1, h2, h3⟩ := h
    obtain ⟨a', b', h1', h2', h3'⟩ := h'
    rw [h1] at h1'; cases h1'
    rw [h2] at h2'; cases h2'
    rw [h3, h3']

theorem StrongestOf.unique (hW : LawfulLt W) {g : Graph W} {coupling : Coupling} (hp : NonnegCouplings g coupling)
    {i : Nat} {m m' : W} (h : StrongestOf g coupling i m) (h' : StrongestOf g coupling i m') : m = m' := by
  obtain ⟨h1, h2⟩ := h
  obtain ⟨h1', h2'⟩ := h'
  rcases h2 with ⟨n, h2⟩ | h2 <;> rcases h2' with ⟨n', h2'⟩ | h2'
  · exact hW.total _ _ (h1 _ _ h2') (h1' _ _ h2)
  · subst h2'; exact hW.total _ _ (hp _ _ _ h2) (h1' _ _ h2)
  · subst h2; exact hW.total _ _ (h1 _ _ h2') (hp _ _ _ h2')
  · rw [h2, h2']

theorem faceAt_iff {g : Graph W} (h : ValidCRS g.nbC g.rowPtr g.colInd) {i : Nat} (hi : i < g.nbC) {b : Nat}
    (hb : rd g.rowPtr i = .ok b) {k n : Nat} :
    FaceAt g i k n ↔ ∃ j, k = b + j ∧ (rowL g.rowPtr g.colInd i)[j]? = some n := by
  obtain ⟨b', e, hb', he, hbe, hec, h5⟩ := h.row hi g.colInd rfl
  rw [rd_ok] at hb
  rw [hb] at hb'; cases hb'
  unfold rowL; rw [h5]
  simp only
  constructor
  · rintro ⟨b1, e1, h1, h2, h3, h4, h6⟩
    rw [hb] at h1; cases h1
    rw [he] at h2; cases h2
    refine ⟨k - b, by omega, ?_⟩
    rw [List.getElem?_take, if_pos (by omega), List.getElem?_drop, show b + (k - b) = k by omega, h6]
  · rintro ⟨j, hk, hj⟩
    rw [List.getElem?_take] at hj
    split at hj
    · rw [List.getElem?_drop] at hj
      exact ⟨b, e, hb, he, by omega, by omega, by rw [hk]; exact hj⟩
    · cases hj

theorem ValidCRS.mono' {n : Nat} {rp ci : List Nat} (h : ValidCRS n rp ci) {i j a b : Nat} (hij : i ≤ j)
    (ha : rp[i]? = some a) (hb : rp[j]? = some b) : a ≤ b := by
  obtain ⟨d, rfl⟩ := Nat.exists_eq_add_of_le hij
  induction d generalizing b with
  | zero => rw [Nat.add_zero, ha] at hb; cases hb; exact Nat.le_refl _
  | succ d ih =>
    have hl : i + d < rp.length := by have := (List.getElem?_eq_some_iff.1 hb).1; omega
    exact Nat.le_trans (ih (by omega) (List.getElem?_eq_getElem hl)) (h.mono (i + d) _ _ (List.getElem?_eq_getElem hl) hb)

theorem FaceAt.same {g : Graph W} (h : ValidCRS g.nbC g.rowPtr g.colInd) {i j k n n' : Nat} (h1 : FaceAt g i k n)
    (h2 : FaceAt g j k n') : i = j := by
  obtain ⟨b, e, hb, he, h3, h4, _⟩ := h1
  obtain ⟨b', e', hb', he', h3', h4', _⟩ := h2
  rcases Nat.lt_trichotomy i j with hij | hij | hij
  · have := h.mono' (show i + 1 ≤ j by omega) he hb'; omega
  · exact hij
  · have := h.mono' (show j + 1 ≤ i by omega) he' hb; omega

theorem FaceAt.adj {g : Graph W} {i k n : Nat} (h : FaceAt g i k n) : Adj g.rowPtr g.colInd i n := by
  obtain ⟨b, e, hb, he, h3, h4, h5⟩ := h
  exact ⟨b, e, k, hb, he, h3, h4, h5⟩

theorem faceAt_of_adj {g : Graph W} {i n : Nat} (h : Adj g.rowPtr g.colInd i n) : ∃ k, FaceAt g i k n := by
  obtain ⟨b, e, k, hb, he, h3, h4, h5⟩ := h
  exact ⟨k, b, e, hb, he, h3, h4, h5⟩

end CoMMA
