import Verif.Spec.Features
import Verif.Lemmas.AspectRatio
import Verif.Lemmas.Greedy
import Verif.Lemmas.LineData
import Verif.Lemmas.WeightRange
import Verif.Lemmas.CoarseGraph
import Verif.Lemmas.HashFree
/-! # Features of a coarse cell -/

set_option linter.unusedSectionVars false
set_option linter.unusedSimpArgs false

namespace CoMMA

variable {W : Type} [Num W]

/-! ### Sums -/

theorem CommAdd.left (hA : CommAdd W) (a b c : W) : Num.add a (Num.add b c) = Num.add b (Num.add a c) := by
  rw [← hA.assoc, hA.comm a b, hA.assoc]

theorem CommAdd.zero' (hA : CommAdd W) (a : W) : Num.add a (Num.ofNat 0) = a := by
  rw [hA.comm, hA.zero]

theorem foldl_add (hA : CommAdd W) (l : List W) (a b : W) :
    l.foldl Num.add (Num.add a b) = Num.add a (l.foldl Num.add b) := by
  induction l generalizing b with
  | nil => rfl
  | cons x l ih => rw [List.foldl_cons, List.foldl_cons, hA.assoc, ih]

theorem sumW_nil : sumW ([] : List W) = Num.ofNat 0 := rfl

theorem sumW_cons (hA : CommAdd W) (x : W) (l : List W) : sumW (x :: l) = Num.add x (sumW l) := by
  unfold sumW
  rw [List.foldl_cons, hA.comm, foldl_add hA]

theorem sumW_perm (hA : CommAdd W) {l l' : List W} (h : l.Perm l') : sumW l = sumW l' := by
  induction h with
  | nil => rfl
  | cons x _ ih => rw [sumW_cons hA, sumW_cons hA, ih]
  | swap x y l => rw [sumW_cons hA, sumW_cons hA, sumW_cons hA, sumW_cons hA, hA.left]
  | trans _ _ ih1 ih2 => rw [ih1, ih2]

theorem sumOver_cons (hA : CommAdd W) (x : Nat) (l : List Nat) (f : Nat → W) :
    sumOver (x :: l) f = Num.add (f x) (sumOver l f) := by
  unfold sumOver; rw [List.map_cons, sumW_cons hA]

theorem sumOver_congr {l : List Nat} {f f' : Nat → W} (h : ∀ x ∈ l, f x = f' x) : sumOver l f = sumOver l f' := by
  unfold sumOver; rw [List.map_congr_left h]

theorem sumOver_perm (hA : CommAdd W) {l l' : List Nat} (h : l.Perm l') (f : Nat → W) : sumOver l f = sumOver l' f :=
  sumW_perm hA (h.map f)

theorem sumOver_add (hA : CommAdd W) (l : List Nat) (f f' : Nat → W) :
    sumOver l (fun i => Num.add (f i) (f' i)) = Num.add (sumOver l f) (sumOver l f') := by
  induction l with
  | nil => exact (hA.zero _).symm
  | cons x l ih =>
    rw [sumOver_cons hA, sumOver_cons hA, sumOver_cons hA, ih, hA.assoc, hA.assoc]
    congr 1
    exact hA.left _ _ _

theorem insert_elems_perm {s : NSet} {x : Nat} (h : x ∉ s) : (s.insert x).elems.Perm (x :: s.elems) :=
  NSet.elems_perm (List.nodup_cons.2 ⟨h, s.nodup⟩) (fun a => by simp)

theorem sumOver_insert (hA : CommAdd W) {s : NSet} {x : Nat} (h : x ∉ s) (f : Nat → W) :
    sumOver (s.insert x).elems f = Num.add (f x) (sumOver s.elems f) := by
  rw [sumOver_perm hA (insert_elems_perm h), sumOver_cons hA]

theorem sumOver_single (hA : CommAdd W) (x : Nat) (f : Nat → W) : sumOver (NSet.single x).elems f = f x := by
  have : (NSet.single x).elems = [x] := rfl
  rw [this, sumOver_cons hA]
  exact hA.zero' _

/-! ### Weights of faces -/

theorem weightTo_split (hA : CommAdd W) (g : Graph W) (i : Nat) {p q r : Nat → Bool}
    (h : ∀ e ∈ facesOf g i, (p e.1 = (q e.1 || r e.1)) ∧ (q e.1 && r e.1) = false) :
    weightTo g i p = Num.add (weightTo g i q) (weightTo g i r) := by
  unfold weightTo
  revert h
  generalize facesOf g i = l
  intro h
  induction l with
  | nil => exact (hA.zero _).symm
  | cons e l ih =>
    have h1 := h e (by simp)
    have h2 := ih (fun e he => h e (by simp [he]))
    rw [List.filter_cons, List.filter_cons, List.filter_cons, h1.1]
    cases hq : q e.1 <;> cases hr : r e.1 <;> simp only [hq, hr, Bool.or_false, Bool.or_true, Bool.or_self, Bool.false_eq_true, if_false, if_true, List.map_cons, sumW_cons hA, h2]
    · exact hA.left _ _ _
    · exact (hA.assoc _ _ _).symm
    · exact absurd h1.2 (by rw [hq, hr]; simp)

theorem weightTo_congr {g : Graph W} {i : Nat} {p q : Nat → Bool} (h : ∀ e ∈ facesOf g i, p e.1 = q e.1) :
    weightTo g i p = weightTo g i q := by
  unfold weightTo
  rw [List.filter_congr h]

theorem weightTo_none {g : Graph W} {i : Nat} {p : Nat → Bool} (h : ∀ e ∈ facesOf g i, p e.1 = false) :
    weightTo g i p = Num.ofNat 0 := by
  unfold weightTo
  rw [List.filter_eq_nil_iff.2 (fun e he => by rw [h e he]; simp)]
  rfl

/-- faces sorted by the cell they lead to -/
theorem sumOver_weightTo (hA : CommAdd W) (g : Graph W) (x : Nat) (q : Nat → Bool) {l : List Nat} (hn : l.Nodup) :
    sumOver l (fun i => weightTo g x (fun n => decide (n = i) && q i)) =
      weightTo g x (fun n => decide (n ∈ l) && q n) := by
  induction l with
  | nil => rw [weightTo_none (fun e _ => by simp)]; rfl
  | cons a l ih =>
    have ⟨h1, h2⟩ := List.nodup_cons.1 hn
    rw [sumOver_cons hA, ih h2]
    symm
    apply weightTo_split hA
    intro e _
    by_cases hea : e.1 = a
    · subst hea; simp [h1]
    · simp [hea]

theorem facesOf_eq {g : Graph W} (h : ValidCRS g.nbC g.rowPtr g.colInd) (hv : g.values.length = g.colInd.length)
    {i : Nat} (hi : i < g.nbC) : facesOf g i = (rowL g.rowPtr g.colInd i).zip (rowL g.rowPtr g.values i) := by
  obtain ⟨b, e, hb, he, _, _, h5⟩ := h.row hi g.colInd rfl
  obtain ⟨b', e', hb', he', _, _, h5'⟩ := h.row hi g.values hv
  rw [hb] at hb'; rw [he] at he'
  cases hb'; cases he'
  unfold facesOf rowL rowOf entriesOfRow
  rw [h5, h5', hb, he]

theorem entries_eq {g : Graph W} (h : ValidCRS g.nbC g.rowPtr g.colInd) (hv : g.values.length = g.colInd.length)
    {i : Nat} (hi : i < g.nbC) : entriesOfRow g.rowPtr g.values i = rowL g.rowPtr g.values i := by
  obtain ⟨b, e, hb, he, _, _, h5⟩ := h.row hi g.values hv
  unfold rowL entriesOfRow
  rw [h5, hb, he]

theorem facesOf_adj {g : Graph W} (h : ValidCRS g.nbC g.rowPtr g.colInd) (hv : g.values.length = g.colInd.length)
    {i : Nat} (hi : i < g.nbC) {e : Nat × W} (he : e ∈ facesOf g i) : Adj g.rowPtr g.colInd i e.1 := by
  rw [facesOf_eq h hv hi] at he
  exact (h.mem_rowL hi).1 (List.of_mem_zip he).1

/-- all faces -/
theorem weightTo_all {g : Graph W} (h : ValidCRS g.nbC g.rowPtr g.colInd) (hv : g.values.length = g.colInd.length)
    {i : Nat} (hi : i < g.nbC) : weightTo g i (fun _ => true) = sumW (rowL g.rowPtr g.values i) := by
  unfold weightTo
  rw [facesOf_eq h hv hi, List.filter_true]
  congr 1
  have := (weights_eq h hv hi).2
  exact List.map_snd_zip (by omega)

theorem boundaryWeight_eq {g : Graph W} (h : ValidCRS g.nbC g.rowPtr g.colInd) (hm : MeshSizes g) {i : Nat}
    (hi : i < g.nbC) : ∃ x, g.boundaryWeight i = .ok x ∧ (ExactArith W → x = boundaryEstimate g i) := by
  unfold Graph.boundaryWeight boundaryEstimate
  have hb : i < g.nBnd.length := by rw [hm.bnd]; exact hi
  rw [rd_of_lt hb, ok_bind, List.getElem?_eq_getElem hb, Option.getD_some]
  split
  · exact ⟨_, rfl, fun _ => rfl⟩
  · obtain ⟨n, hn, hn'⟩ := nbNeighs_ok h hi
    rw [(weights_eq h hm.values hi).1, ok_bind, hn, ok_bind, entries_eq h hm.values hi, rowOf_eq h hi, hn']
    exact ⟨_, rfl, fun hX => by rw [hX.reduce]⟩

theorem totalWeight_eq {g : Graph W} (h : ValidCRS g.nbC g.rowPtr g.colInd) (hm : MeshSizes g) {i : Nat}
    (hi : i < g.nbC) :
    ∃ x, g.totalWeight i = .ok x ∧ (ExactArith W → x = Num.add (weightTo g i (fun _ => true)) (boundaryEstimate g i)) := by
  unfold Graph.totalWeight
  obtain ⟨b, hb, hb'⟩ := boundaryWeight_eq h hm hi
  rw [(weights_eq h hm.values hi).1, ok_bind, hb, ok_bind, weightTo_all h hm.values hi]
  exact ⟨_, rfl, fun hX => by rw [hX.reduce, hb' hX]⟩

theorem totalFaces_eq {g : Graph W} (h : ValidCRS g.nbC g.rowPtr g.colInd) (hm : MeshSizes g) {i : Nat}
    (hi : i < g.nbC) : g.totalFaces i = .ok ((g.nBnd[i]?).getD 0 + (rowL g.rowPtr g.colInd i).length) := by
  unfold Graph.totalFaces
  have hb : i < g.nBnd.length := by rw [hm.bnd]; exact hi
  obtain ⟨n, hn, hn'⟩ := nbNeighs_ok h hi
  rw [rd_of_lt hb, ok_bind, hn, ok_bind, List.getElem?_eq_getElem hb, Option.getD_some, hn']
  rfl

theorem sharedFaces_weight {g : Graph W} (h : ValidCRS g.nbC g.rowPtr g.colInd) (hm : MeshSizes g) {i : Nat}
    (hi : i < g.nbC) {cc : NSet} (hcc : i ∉ cc) :
    Ok (sharedFaces g i cc) (fun r => r.1 = weightTo g i (fun n => cc.has n)) := by
  obtain ⟨hw, hlen⟩ := weights_eq h hm.values hi
  unfold sharedFaces
  rw [neighs_eq h hi, ok_bind, hw, ok_bind, Ok_pure, ← facesOf_eq h hm.values hi]
  unfold weightTo sumW
  generalize facesOf g i = l
  generalize (Num.ofNat 0 : W) = z
  generalize NSet.empty = t
  induction l generalizing z t with
  | nil => rfl
  | cons e l ih =>
    rw [List.foldl_cons, List.filter_cons]
    by_cases he : cc.has e.1 = true
    · have : e.1 ≠ i := by rintro rfl; exact hcc (NSet.has_iff.1 he)
      rw [if_pos ⟨this, he⟩, if_pos he, List.map_cons, List.foldl_cons]
      exact ih _ _
    · rw [if_neg (fun hh => he hh.2), if_neg he]
      exact ih _ _

/-- external weight when a cell is added -/
theorem externalWeight_insert {g : Graph W} (hA : CommAdd W) (h : ValidCRS g.nbC g.rowPtr g.colInd) (hm : MeshSizes g)
    (hs : SymWeights g) (hl : NoSelfLoop g.rowPtr g.colInd) {s : NSet} {x : Nat} (hx : x < g.nbC) (hxs : x ∉ s) :
    Num.add (externalWeight g s) (Num.add (weightTo g x (fun _ => true)) (boundaryEstimate g x)) =
      Num.add (externalWeight g (s.insert x))
        (Num.add (weightTo g x (fun n => s.has n)) (weightTo g x (fun n => s.has n))) := by
  unfold externalWeight
  rw [sumOver_insert hA hxs, sumOver_add hA, sumOver_add hA]
  have e1 : sumOver s.elems (fun i => weightTo g i (fun j => !s.has j)) =
      Num.add (sumOver s.elems (fun i => weightTo g i (fun j => !(s.insert x).has j))) (weightTo g x (fun n => s.has n)) := by
    have : weightTo g x (fun n => s.has n) = sumOver s.elems (fun i => weightTo g i (fun j => decide (j = x))) := by
      rw [sumOver_congr (f' := fun i => weightTo g x (fun n => decide (n = i) && true)) (fun i _ => by
        rw [hs i x]; simp), sumOver_weightTo hA g x (fun _ => true) s.nodup]
      apply weightTo_congr
      intro e _
      rw [Bool.eq_iff_iff, NSet.has_iff]
      simp
    rw [this, ← sumOver_add hA]
    apply sumOver_congr
    intro i _
    apply weightTo_split hA
    intro e _
    have h1 : (s.insert x).has e.1 = (decide (e.1 = x) || s.has e.1) := by
      rw [Bool.eq_iff_iff, NSet.has_iff, NSet.mem_insert, Bool.or_eq_true, NSet.has_iff]; simp
    rw [h1]
    by_cases hex : e.1 = x
    · have : s.has e.1 = false := by rw [NSet.has_false_iff, hex]; exact hxs
      simp [hex] at this ⊢; simp [this]
    · simp [hex]
  have e2 : weightTo g x (fun _ => true) =
      Num.add (weightTo g x (fun j => !(s.insert x).has j)) (weightTo g x (fun n => s.has n)) := by
    apply weightTo_split hA
    intro e he
    have hne : e.1 ≠ x := by
      intro hh
      have := facesOf_adj h hm.values hx he
      rw [hh] at this
      exact hl x this
    have h1 : (s.insert x).has e.1 = s.has e.1 := by
      rw [Bool.eq_iff_iff, NSet.has_iff, NSet.mem_insert, NSet.has_iff]; simp [hne]
    rw [h1]
    cases s.has e.1 <;> simp
  rw [e1, e2]
  have : Std.Associative (Num.add : W → W → W) := ⟨hA.assoc⟩
  have : Std.Commutative (Num.add : W → W → W) := ⟨hA.comm⟩
  ac_rfl

/-- internal weight when a cell is added -/
theorem internalWeight_insert {g : Graph W} (hA : CommAdd W) (hs : SymWeights g) {s : NSet} {x : Nat} (hxs : x ∉ s) :
    internalWeight g (s.insert x) = Num.add (internalWeight g s) (weightTo g x (fun n => s.has n)) := by
  unfold internalWeight
  rw [sumOver_insert hA hxs]
  have hh : ∀ n, (s.insert x).has n = (decide (n = x) || s.has n) := fun n => by
    rw [Bool.eq_iff_iff, NSet.has_iff, NSet.mem_insert, Bool.or_eq_true, NSet.has_iff]; simp
  have hx' : s.has x = false := by rw [NSet.has_false_iff]; exact hxs
  have e1 : sumOver s.elems (fun i => weightTo g i (fun j => decide (j < i) && (s.insert x).has j)) =
      Num.add (sumOver s.elems (fun i => weightTo g i (fun j => decide (j < i) && s.has j)))
        (weightTo g x (fun n => decide (x < n) && s.has n)) := by
    have : weightTo g x (fun n => decide (x < n) && s.has n) =
        sumOver s.elems (fun i => weightTo g i (fun j => decide (j = x) && decide (x < i))) := by
      rw [sumOver_congr (f' := fun i => weightTo g x (fun n => decide (n = i) && decide (x < i))) (fun i _ => by
        by_cases hxi : x < i
        · simp only [hxi, decide_true, Bool.and_true]; exact hs i x
        · rw [weightTo_none (fun e _ => by simp [hxi]), weightTo_none (fun e _ => by simp [hxi])]),
        sumOver_weightTo hA g x (fun i => decide (x < i)) s.nodup]
      apply weightTo_congr
      intro e _
      rw [Bool.eq_iff_iff, Bool.and_eq_true, NSet.has_iff]
      simp [and_comm]
    rw [this, ← sumOver_add hA]
    apply sumOver_congr
    intro i _
    apply weightTo_split hA
    intro e _
    rw [hh]
    by_cases hex : e.1 = x
    · rw [hex, hx']; simp
    · simp [hex]
  have e2 : weightTo g x (fun n => s.has n) =
      Num.add (weightTo g x (fun j => decide (j < x) && (s.insert x).has j)) (weightTo g x (fun n => decide (x < n) && s.has n)) := by
    apply weightTo_split hA
    intro e _
    rw [hh]
    by_cases hex : e.1 = x
    · rw [hex, hx']; simp
    · rcases Nat.lt_or_gt_of_ne hex with h1 | h1
      · simp [hex, h1, Nat.lt_asymm h1]
      · simp [hex, h1, Nat.lt_asymm h1]
  rw [e1, e2]
  have : Std.Associative (Num.add : W → W → W) := ⟨hA.assoc⟩
  have : Std.Commutative (Num.add : W → W → W) := ⟨hA.comm⟩
  ac_rfl

/-- internal faces when a cell is added -/
theorem internalPairs_insert {g : Graph W} (h : ValidCRS g.nbC g.rowPtr g.colInd) (hsym : SymmetricCRS g.rowPtr g.colInd)
    {s : NSet} (hs : ∀ y ∈ s, y < g.nbC) {x : Nat} (hx : x < g.nbC) (hxs : x ∉ s) :
    internalPairs g (s.insert x) = internalPairs g s + nbShared (rowOf g.rowPtr g.colInd x) s := by
  have hp := insert_elems_perm hxs
  unfold internalPairs
  rw [(hp.map _).sum_nat, List.map_cons, List.sum_cons]
  simp only [hp.countP_eq, List.countP_cons]
  have e2 : (s.elems.map (fun i => s.elems.countP (fun j => decide (j < i) && (rowOf g.rowPtr g.colInd i).contains j))).sum +
      s.elems.countP (fun i => decide (x < i) && (rowOf g.rowPtr g.colInd x).contains i) =
      (s.elems.map (fun i => s.elems.countP (fun j => decide (j < i) && (rowOf g.rowPtr g.colInd i).contains j) +
        if (decide (x < i) && (rowOf g.rowPtr g.colInd i).contains x) = true then 1 else 0)).sum := by
    apply sum_map_add_countP
    intro y hy
    have hy' := hs y hy
    have hiff : y ∈ rowOf g.rowPtr g.colInd x ↔ x ∈ rowOf g.rowPtr g.colInd y := by
      rw [rowOf_eq h hx, h.mem_rowL hx, rowOf_eq h hy', h.mem_rowL hy']
      exact ⟨hsym _ _, hsym _ _⟩
    simp only [Bool.and_eq_true, decide_eq_true_eq, List.contains_iff_mem, hiff]
  rw [← e2]
  have e3 : nbShared (rowOf g.rowPtr g.colInd x) s =
      s.elems.countP (fun j => decide (j < x) && (rowOf g.rowPtr g.colInd x).contains j) +
      s.elems.countP (fun j => decide (x < j) && (rowOf g.rowPtr g.colInd x).contains j) := by
    unfold nbShared
    have : ∀ l : List Nat, x ∉ l → l.countP (fun y => (rowOf g.rowPtr g.colInd x).contains y) =
        l.countP (fun j => decide (j < x) && (rowOf g.rowPtr g.colInd x).contains j) +
        l.countP (fun j => decide (x < j) && (rowOf g.rowPtr g.colInd x).contains j) := by
      intro l
      induction l with
      | nil => intro _; rfl
      | cons a l ih =>
        intro hxl
        have h1 := ih (fun hh => hxl (by simp [hh]))
        have h2 : a ≠ x := fun hh => hxl (by simp [hh])
        simp only [List.countP_cons, h1]
        rcases Nat.lt_or_gt_of_ne h2 with h3 | h3
        · simp [h3, Nat.lt_asymm h3]; omega
        · simp [h3, Nat.lt_asymm h3]; omega
    exact this s.elems hxs
  rw [e3]
  simp
  omega

/-! ### Free faces -/

theorem freeFaces_insert {g : Graph W} (h : ValidCRS g.nbC g.rowPtr g.colInd) (hsym : SymmetricCRS g.rowPtr g.colInd)
    (hu : UniqueRows g.rowPtr g.colInd) {s : NSet} (hs : ∀ y ∈ s, y < g.nbC)
    {x : Nat} (hx : x < g.nbC) (hxs : x ∉ s) {y : Nat} (hy : y ∈ s) :
    freeFaces g (s.insert x) y + (if y ∈ rowL g.rowPtr g.colInd x then 1 else 0) = freeFaces g s y := by
  have hy' := hs y hy
  have hn := UniqueRows.nodup h hu hy'
  have hiff : y ∈ rowL g.rowPtr g.colInd x ↔ x ∈ rowL g.rowPtr g.colInd y := by
    rw [h.mem_rowL hx, h.mem_rowL hy']
    exact ⟨hsym _ _, hsym _ _⟩
  unfold freeFaces
  rw [rowOf_eq h hy']
  have a1 := countP_not_add (l := rowL g.rowPtr g.colInd y) (fun z => s.has z)
  have a2 := countP_not_add (l := rowL g.rowPtr g.colInd y) (fun z => (s.insert x).has z)
  rw [countP_has_eq hn] at a1 a2
  rw [nbShared_insert hxs] at a2
  simp only [hiff]
  omega

theorem freeFaces_new {g : Graph W} (h : ValidCRS g.nbC g.rowPtr g.colInd) (hu : UniqueRows g.rowPtr g.colInd)
    (hl : NoSelfLoop g.rowPtr g.colInd) {s : NSet} {x : Nat} (hx : x < g.nbC) :
    freeFaces g (s.insert x) x + nbShared (rowOf g.rowPtr g.colInd x) s =
      (g.nBnd[x]?).getD 0 + (rowL g.rowPtr g.colInd x).length := by
  have hself : x ∉ rowL g.rowPtr g.colInd x := fun hh => hl x ((h.mem_rowL hx).1 hh)
  unfold freeFaces
  rw [rowOf_eq h hx, ← countP_has_eq (UniqueRows.nodup h hu hx) s]
  have : (rowL g.rowPtr g.colInd x).countP (fun j => !(s.insert x).has j) =
      (rowL g.rowPtr g.colInd x).countP (fun j => !s.has j) := by
    apply List.countP_congr
    intro y hy
    have : y ≠ x := by rintro rfl; exact hself hy
    have : (s.insert x).has y = s.has y := by
      rw [Bool.eq_iff_iff, NSet.has_iff, NSet.has_iff, NSet.mem_insert]; simp [this]
    rw [this]
  rw [this]
  have := countP_not_add (l := rowL g.rowPtr g.colInd x) (fun z => s.has z)
  omega

theorem updateFacets_eq {g : Graph W} (h : ValidCRS g.nbC g.rowPtr g.colInd) (hm : MeshSizes g) {i : Nat}
    (hi : i < g.nbC) {m : NMap Int} {s : NSet} (hs : ∀ x ∈ s, ∃ v, m.find? x = some v) :
    Ok (updateFacets g i m s) (fun m' => ∀ x, m'.find? x =
      if x = i then some ((((g.nBnd[i]?).getD 0 + (rowL g.rowPtr g.colInd i).length : Nat) : Int) - s.card)
      else (m.find? x).map (fun v => if x ∈ s then v - 1 else v)) := by
  unfold updateFacets
  refine Ok.bind (P := fun (m' : NMap Int) => ∀ x, m'.find? x = (m.find? x).map (fun v => if x ∈ s then v - 1 else v)) ?_ ?_
  · refine Ok.mono (Ok.foldlM_prefix (I := fun (pre : List Nat) (m' : NMap Int) =>
      ∀ x, m'.find? x = (m.find? x).map (fun v => if x ∈ pre then v - 1 else v)) ?_ ?_) ?_
    · intro x; simp
    · intro pre x post m' hl hm'
      obtain ⟨v, hv⟩ := hs x (show x ∈ s.elems by rw [hl]; simp)
      have hxp : x ∉ pre := by
        have := s.nodup
        rw [hl] at this
        intro hh
        exact (List.disjoint_of_nodup_append this hh) (by simp)
      have hv' : m'.find? x = some v := by rw [hm' x, hv]; simp [hxp]
      rw [NMap.at_eq.2 hv', ok_bind, Ok_pure]
      intro y
      rw [NMap.find?_insert]
      by_cases hyx : y = x
      · subst hyx; simp [hv]
      · rw [if_neg hyx, hm' y]
        simp [hyx]
    · intro m' hm' x
      exact hm' x
  · intro m' hm'
    rw [totalFaces_eq h hm hi, ok_bind, Ok_pure]
    intro x
    rw [NMap.find?_insert, hm']

end CoMMA
