import Verif.Lemmas.Tagging
/-! # Construction of the anisotropic lines -/

set_option linter.unusedSectionVars false

namespace CoMMA

variable {W : Type} [Num W]

/-- sizes read by the construction of a line -/
structure LineOk (L : LineEnv W) : Prop where
  crs : ValidCRS L.g.nbC L.g.rowPtr L.g.colInd
  sym : SymmetricCRS L.g.rowPtr L.g.colInd
  centers : L.g.centers.length = L.g.nbC
  coords : ∀ c ∈ L.g.centers, c.length = L.ptsDim
  ref : L.ref.length = L.g.colInd.length
  maxW : L.maxW.length = L.g.nbC

theorem getDirection_ok {a b dir : List W} (h1 : b.length = a.length) (h2 : dir.length = a.length) :
    Ok (getDirection a b dir) (fun d => d.length = a.length) := by
  unfold getDirection
  refine Ok.bind (P := fun (s : List W × W) => s.1.length = a.length) ?_ (fun r hr => by rw [Ok_pure]; simpa using hr)
  refine Ok.foldlM h2 ?_
  intro i hi s hs
  have hi' : i < a.length := by simpa using hi
  rw [rd_of_lt hi', ok_bind, rd_of_lt (by rw [h1]; exact hi'), ok_bind, wr_of_lt (by rw [hs]; exact hi'), ok_bind, Ok_pure]
  simpa using hs

theorem centerDirection_ok {L : LineEnv W} (hL : LineOk L) {x y : Nat} (hx : x < L.g.nbC) (hy : y < L.g.nbC)
    {dir : List W} (hd : dir.length = L.ptsDim) :
    Ok (L.g.centerDirection x y dir) (fun d => d.length = L.ptsDim) := by
  unfold Graph.centerDirection
  have e1 := hL.coords _ (List.getElem_mem (show x < L.g.centers.length by rw [hL.centers]; exact hx))
  have e2 := hL.coords _ (List.getElem_mem (show y < L.g.centers.length by rw [hL.centers]; exact hy))
  rw [rd_of_lt (show x < L.g.centers.length by rw [hL.centers]; exact hx), ok_bind,
    rd_of_lt (show y < L.g.centers.length by rw [hL.centers]; exact hy), ok_bind]
  exact Ok.mono (getDirection_ok (by rw [e1, e2]) (by rw [e1, hd])) (fun d h => by rw [h, e1])

theorem dotProduct_ok {a b : List W} (h : a.length ≤ b.length) : Ok (dotProduct a b) (fun _ => True) := by
  unfold dotProduct
  refine Ok.foldlM trivial ?_
  intro i hi s _
  have hi' : i < a.length := by simpa using hi
  rw [rd_of_lt hi', ok_bind, rd_of_lt (show i < b.length by omega), ok_bind]
  trivial

/-- the candidates are neighbours of the seed that may still be taken -/
def CandOk (L : LineEnv W) (toTreat : List Bool) (seed : Nat) (c : List (Nat × W)) : Prop :=
  ∀ e ∈ c, Adj L.g.rowPtr L.g.colInd seed e.1 ∧ toTreat[e.1]? = some true

theorem CandOk.insert {L : LineEnv W} {toTreat : List Bool} {seed : Nat} {c : List (Nat × W)}
    (h : CandOk L toTreat seed c) {x : Nat × W} (h1 : Adj L.g.rowPtr L.g.colInd seed x.1)
    (h2 : toTreat[x.1]? = some true) : CandOk L toTreat seed (pinsert x c) := by
  intro e he
  rcases mem_pinsert_sub he with rfl | he
  · exact ⟨h1, h2⟩
  · exact h e he

theorem candWeight_ok {L : LineEnv W} (hL : LineOk L) {toTreat : List Bool} (ht : toTreat.length = L.g.nbC) {seed : Nat}
    (hs : seed < L.g.nbC) : Ok (candWeight L toTreat seed) (CandOk L toTreat seed) := by
  unfold candWeight
  obtain ⟨b, hb, hbl⟩ := row_offset hL.crs hs
  rw [hb, ok_bind, neighs_eq hL.crs hs, ok_bind, rd_of_lt (by rw [hL.maxW]; exact hs), ok_bind]
  refine Ok.bind (P := fun (r : Nat × List (Nat × W)) => CandOk L toTreat seed r.2) ?_ (fun r hr => Ok_pure.2 hr)
  refine Ok.mono (Ok.foldlM_prefix (I := fun pre (s : Nat × List (Nat × W)) => s.1 = b + pre.length ∧
    CandOk L toTreat seed s.2) ⟨rfl, by intro e he; simp at he⟩ ?_) (fun r hr => hr.2)
  rintro pre n post s hsp ⟨h1, h2⟩
  have hmem : n ∈ rowL L.g.rowPtr L.g.colInd seed := by rw [hsp]; simp
  have hn : n < L.g.nbC := hL.crs.rowL_lt hs hmem
  have hlen : pre.length < (rowL L.g.rowPtr L.g.colInd seed).length := by rw [hsp]; simp
  have hr := hL.ref
  rw [rd_of_lt (by rw [ht]; exact hn), ok_bind, rd_of_lt (by rw [h1]; omega), ok_bind, Ok_pure]
  refine ⟨by simp [h1]; omega, ?_⟩
  dsimp only
  split
  · rename_i hc
    rw [Bool.and_eq_true] at hc
    exact h2.insert ((hL.crs.mem_rowL hs).1 hmem) (by rw [List.getElem?_eq_getElem (by rw [ht]; exact hn), hc.1])
  · exact h2

theorem candDir_ok {L : LineEnv W} (hL : LineOk L) {toTreat : List Bool} (ht : toTreat.length = L.g.nbC) {seed : Nat}
    (hs : seed < L.g.nbC) {prev : List W} (hp : prev.length = L.ptsDim) (cw : Bool) :
    Ok (candDir L toTreat prev cw seed) (CandOk L toTreat seed) := by
  unfold candDir
  obtain ⟨b, hb, hbl⟩ := row_offset hL.crs hs
  rw [hb, ok_bind, neighs_eq hL.crs hs, ok_bind, rd_of_lt (by rw [hL.maxW]; exact hs), ok_bind]
  refine Ok.bind (P := fun (r : Nat × List (Nat × W)) => CandOk L toTreat seed r.2) ?_ (fun r hr => Ok_pure.2 hr)
  refine Ok.mono (Ok.foldlM_prefix (I := fun pre (s : Nat × List (Nat × W)) => s.1 = b + pre.length ∧
    CandOk L toTreat seed s.2) ⟨rfl, by intro e he; simp at he⟩ ?_) (fun r hr => hr.2)
  rintro pre n post s hsp ⟨h1, h2⟩
  have hmem : n ∈ rowL L.g.rowPtr L.g.colInd seed := by rw [hsp]; simp
  have hn : n < L.g.nbC := hL.crs.rowL_lt hs hmem
  have hlen : pre.length < (rowL L.g.rowPtr L.g.colInd seed).length := by rw [hsp]; simp
  have hr := hL.ref
  rw [rd_of_lt (by rw [ht]; exact hn), ok_bind, rd_of_lt (by rw [h1]; omega), ok_bind]
  split
  · rename_i hc
    rw [Bool.and_eq_true] at hc
    unfold candDot
    refine Ok.bind (P := CandOk L toTreat seed) ?_ ?_
    · refine Ok.bind (centerDirection_ok hL hn hs (by simp)) ?_
      intro dir hd
      refine Ok.bind (dotProduct_ok (Nat.le_of_eq (by rw [hp, hd]))) ?_
      intro dot _
      rw [Ok_pure]
      split
      · exact h2.insert ((hL.crs.mem_rowL hs).1 hmem) (by rw [List.getElem?_eq_getElem (by rw [ht]; exact hn), hc.1])
      · exact h2
    · intro c hc'
      rw [Ok_pure]
      exact ⟨by simp [h1]; omega, hc'⟩
  · rw [Ok_pure]
    exact ⟨by simp [h1]; omega, h2⟩

/-- invariant of the loop building a line from `primal`; `t0` are the cells that could be
taken at the beginning -/
structure LInv (L : LineEnv W) (t0 : List Bool) (primal : Nat) (s : LineSt W) : Prop where
  len : s.toTreat.length = L.g.nbC
  treat : ∀ i : Nat, s.toTreat[i]? = some true ↔ t0[i]? = some true ∧ i ∉ s.line
  mem : ∀ i ∈ s.line, t0[i]? = some true
  nodup : s.line.Nodup
  path : IsPath L.g.rowPtr L.g.colInd s.line
  fwd : s.opposite = false → s.line.head? = some primal ∧ s.line.getLast? = some s.seed
  bwd : s.opposite = true → s.line.head? = some s.seed
  prev : s.prevDir.length = L.ptsDim
  first : ∀ d, s.primalDir = some d → d.length = L.ptsDim
  some : s.seed ≠ primal → s.primalDir.isSome = true
  prim : primal ∈ s.line
  free : t0.length = L.g.nbC

/-- what is left to do -/
def LineSt.left (s : LineSt W) : Nat :=
  s.toTreat.count true + (if s.opposite then 0 else 1) + (if s.fin then 0 else 1)

theorem isPath_append {rp ci l : List Nat} (h : IsPath rp ci l) {y x : Nat} (hy : l.getLast? = some y)
    (ha : Adj rp ci y x) : IsPath rp ci (l ++ [x]) := by
  intro k u v hu hv
  have hne : l ≠ [] := by intro h0; rw [h0] at hy; simp at hy
  have hlen : 0 < l.length := List.length_pos_iff.2 hne
  by_cases hk : k + 1 < l.length
  · rw [List.getElem?_append_left (by omega)] at hu
    rw [List.getElem?_append_left hk] at hv
    exact h k u v hu hv
  · have hk2 : k + 1 < (l ++ [x]).length := (List.getElem?_eq_some_iff.1 hv).1
    simp only [List.length_append, List.length_singleton] at hk2
    have hkl : k + 1 = l.length := by omega
    rw [hkl, List.getElem?_concat_length] at hv
    rw [List.getElem?_append_left (by omega)] at hu
    rw [List.getLast?_eq_getElem?, show l.length - 1 = k by omega, hu] at hy
    cases hy; cases hv
    exact ha

theorem isPath_cons {rp ci l : List Nat} (h : IsPath rp ci l) {y x : Nat} (hy : l.head? = some y)
    (ha : Adj rp ci x y) : IsPath rp ci (x :: l) := by
  intro k u v hu hv
  cases k with
  | zero =>
    simp only [List.getElem?_cons_zero] at hu
    simp only [Nat.zero_add, List.getElem?_cons_succ] at hv
    rw [List.head?_eq_getElem?, hv] at hy
    cases hu; cases hy
    exact ha
  | succ k =>
    rw [List.getElem?_cons_succ] at hu hv
    exact h k u v hu hv

theorem LInv.seed_lt {L : LineEnv W} {t0 : List Bool} {primal : Nat} {s : LineSt W} (h : LInv L t0 primal s) :
    s.seed ∈ s.line ∧ s.seed < L.g.nbC := by
  have hm : s.seed ∈ s.line := by
    cases ho : s.opposite with
    | false => exact List.mem_of_getLast? (h.fwd ho).2
    | true => exact List.mem_of_head? (h.bwd ho)
  refine ⟨hm, ?_⟩
  rw [← h.free]
  exact (List.getElem?_eq_some_iff.1 (h.mem _ hm)).1

theorem count_set_false {l : List Bool} {x : Nat} (h : l[x]? = some true) :
    (l.set x false).count true + 1 = l.count true := by
  obtain ⟨hx, hv⟩ := List.getElem?_eq_some_iff.1 h
  rw [List.count_set hx, hv]
  have : 0 < l.count true := List.count_pos_iff.2 (List.mem_of_getElem? h)
  simp; omega

theorem extend_ok {L : LineEnv W} (hL : LineOk L) {t0 : List Bool} {primal : Nat} {s : LineSt W} (h : LInv L t0 primal s)
    {x : Nat} (hadj : Adj L.g.rowPtr L.g.colInd s.seed x) (hx : s.toTreat[x]? = some true) :
    Ok (s.extend L x) (fun s' => LInv L t0 primal s' ∧ s'.left < s.left) := by
  obtain ⟨hx0, hxl⟩ := (h.treat x).1 hx
  have hxn : x < L.g.nbC := by rw [← h.len]; exact (List.getElem?_eq_some_iff.1 hx).1
  unfold LineSt.extend
  rw [wr_of_lt (by rw [h.len]; exact hxn), ok_bind]
  refine Ok.bind (centerDirection_ok hL hxn h.seed_lt.2 h.prev) ?_
  intro dir hd
  rw [Ok_pure]
  refine ⟨⟨by simp [h.len], ?_, ?_, ?_, ?_, ?_, ?_, hd, ?_, ?_, ?_, h.free⟩, ?_⟩
  · intro i
    simp only [List.getElem?_set]
    have hml : i ∈ (if s.opposite = true then x :: s.line else s.line ++ [x]) ↔ i = x ∨ i ∈ s.line := by
      split
      · simp
      · simp; tauto
    rw [hml]
    by_cases hxi : x = i
    · subst hxi; simp [h.len, hxn]
    · rw [if_neg hxi, h.treat]
      have : ¬ i = x := fun he => hxi he.symm
      simp [this]
  · intro i hi
    simp only at hi
    have : i = x ∨ i ∈ s.line := by
      split at hi
      · simpa using hi
      · simp at hi; tauto
    rcases this with rfl | hi
    · exact hx0
    · exact h.mem i hi
  · simp only
    split
    · exact List.nodup_cons.2 ⟨hxl, h.nodup⟩
    · rw [List.nodup_append]
      refine ⟨h.nodup, by simp, ?_⟩
      intro a ha b hb hab
      simp at hb
      subst hb; subst hab
      exact hxl ha
  · simp only
    split
    · rename_i ho
      exact isPath_cons h.path (h.bwd ho) (hL.sym _ _ hadj)
    · rename_i ho
      exact isPath_append h.path (h.fwd (by simpa using ho)).2 hadj
  · intro ho
    simp only at ho ⊢
    rw [ho]
    simp only [Bool.false_eq_true, if_false, List.getLast?_concat, and_true]
    rw [List.head?_append, (h.fwd ho).1]
    rfl
  · intro ho
    simp only at ho ⊢
    rw [ho]; rfl
  · intro d hdd
    simp only at hdd
    split at hdd
    · exact h.first d hdd
    · cases hdd; exact hd
  · intro _
    simp only
    split
    · assumption
    · rfl
  · simp only
    have := h.prim
    split <;> simp [this]
  · unfold LineSt.left
    simp only
    have := count_set_false hx
    omega

theorem turn_ok {L : LineEnv W} {t0 : List Bool} {primal : Nat} {s : LineSt W} (h : LInv L t0 primal s)
    (hf : s.fin = false) : Ok (s.turn primal) (fun s' => LInv L t0 primal s' ∧ s'.left < s.left) := by
  unfold LineSt.turn
  split
  · rename_i hc
    simp only [Bool.and_eq_true, Bool.not_eq_true', decide_eq_true_eq] at hc
    obtain ⟨ho, hne⟩ := hc
    obtain ⟨d, hd⟩ := Option.isSome_iff_exists.1 (h.some hne)
    have hdl := h.first d hd
    rw [hd]
    show Ok ((List.range s.prevDir.length).mapM _ >>= _) _
    refine Ok.bind (P := fun (l : List W) => l.length = L.ptsDim) ?_ ?_
    · refine Ok.mono (Ok.mapM (P := fun _ _ => True) ?_) ?_
      · intro i hi
        have : i < d.length := by rw [hdl, ← h.prev]; simpa using hi
        rw [rd_of_lt this, ok_bind]; trivial
      · intro r hr
        rw [← hr.length_eq]; simp [h.prev]
    · intro l hl
      rw [Ok_pure]
      refine ⟨⟨h.len, h.treat, h.mem, h.nodup, h.path, by intro h'; simp at h', ?_, hl, ?_, by simp, h.prim, h.free⟩, ?_⟩
      · intro _; exact (h.fwd ho).1
      · intro d' hd'; simp only at hd'; cases hd'; exact hdl
      · unfold LineSt.left; simp only [ho, hf]; simp
  · rw [Ok_pure]
    refine ⟨⟨h.len, h.treat, h.mem, h.nodup, h.path, h.fwd, h.bwd, h.prev, h.first, h.some, h.prim, h.free⟩, ?_⟩
    unfold LineSt.left
    simp only [hf]
    simp

theorem lineStep_ok {L : LineEnv W} (hL : LineOk L) {t0 : List Bool} {primal : Nat} {s : LineSt W} (h : LInv L t0 primal s)
    (hf : s.fin = false) : Ok (lineStep L primal s) (fun s' => LInv L t0 primal s' ∧ s'.left < s.left) := by
  obtain ⟨_, hs⟩ := h.seed_lt
  unfold lineStep
  refine Ok.bind (P := CandOk L s.toTreat s.seed) ?_ ?_
  · unfold firstCands
    split
    · exact candWeight_ok hL h.len hs
    · exact candDir_ok hL h.len hs h.prev _
  · intro c hc
    match c, hc with
    | e :: _, hc => exact extend_ok hL h (hc e (by simp)).1 (hc e (by simp)).2
    | [], _ =>
      simp only
      refine Ok.bind (P := CandOk L s.toTreat s.seed) ?_ ?_
      · unfold moreCands
        split
        · exact candDir_ok hL h.len hs h.prev _
        · rw [Ok_pure]; intro e he; simp at he
      · intro c hc
        match c, hc with
        | e :: _, hc => exact extend_ok hL h (hc e (by simp)).1 (hc e (by simp)).2
        | [], _ => exact turn_ok h hf

theorem lineLoop_ok {L : LineEnv W} (hL : LineOk L) {t0 : List Bool} {primal : Nat} :
    ∀ (fuel : Nat) (s : LineSt W), LInv L t0 primal s → s.left ≤ fuel →
      Ok (lineLoop L primal fuel s) (LInv L t0 primal) := by
  intro fuel
  induction fuel with
  | zero =>
    intro s h hl
    unfold lineLoop
    cases hf : s.fin with
    | true => rw [if_pos rfl]; exact h
    | false =>
      unfold LineSt.left at hl
      rw [hf] at hl
      simp at hl
  | succ fuel ih =>
    intro s h hl
    unfold lineLoop
    cases hf : s.fin with
    | true => rw [if_pos rfl]; exact h
    | false =>
      rw [if_neg (by simp)]
      refine Ok.bind (lineStep_ok hL h hf) ?_
      rintro s' ⟨h1, h2⟩
      exact ih s' h1 (by omega)

/-- one line -/
theorem buildLine_ok {L : LineEnv W} (hL : LineOk L) {t0 : List Bool} (ht : t0.length = L.g.nbC) {primal : Nat}
    (hp : t0[primal]? = some true) :
    Ok (buildLine L t0 primal) (fun r => r.2.length = L.g.nbC ∧ primal ∈ r.1 ∧ r.1.Nodup ∧ (∀ i ∈ r.1, t0[i]? = some true) ∧
      IsPath L.g.rowPtr L.g.colInd r.1 ∧ ∀ i : Nat, r.2[i]? = some true ↔ t0[i]? = some true ∧ i ∉ r.1) := by
  unfold buildLine
  have hpn : primal < L.g.nbC := by rw [← ht]; exact (List.getElem?_eq_some_iff.1 hp).1
  rw [wr_of_lt (by rw [ht]; exact hpn), ok_bind]
  refine Ok.bind (P := fun s => LInv L t0 primal s ∧ primal ∈ s.line) ?_ ?_
  · refine Ok.mono (lineLoop_ok hL (t0 := t0) _ _ ?_ ?_) ?_
    · refine ⟨by simp [ht], ?_, by simpa using hp, by simp, ?_, by simp, by simp, by simp, by simp, by simp, by simp, ht⟩
      · intro i
        simp only [List.getElem?_set]
        by_cases hpi : primal = i
        · subst hpi; simp [ht, hpn]
        · have : ¬ i = primal := fun he => hpi he.symm
          simp [hpi, this]
      · intro k x y hx hy
        simp at hy
    · unfold LineSt.left
      simp only
      have := List.count_le_length (a := true) (l := t0.set primal false)
      simp only [List.length_set] at this
      simp; omega
    · intro s hs
      exact ⟨hs, hs.prim⟩
  · rintro s ⟨hs, hpm⟩
    rw [Ok_pure]
    exact ⟨hs.len, hpm, hs.nodup, hs.mem, hs.path, hs.treat⟩

/-- invariant of the loop over the tagged cells -/
structure FromInv (L : LineEnv W) (t0 : List Bool) (ls : List (List Nat)) (t : List Bool) : Prop where
  len : t.length = L.g.nbC
  sub : ∀ i : Nat, t[i]? = some true → t0[i]? = some true
  mem : ∀ x ∈ ls.flatten, t0[x]? = some true ∧ t[x]? ≠ some true
  nodup : ls.flatten.Nodup
  two : ∀ l ∈ ls, 2 ≤ l.length
  path : ∀ l ∈ ls, IsPath L.g.rowPtr L.g.colInd l

theorem buildFrom_ok {L : LineEnv W} (hL : LineOk L) {t0 : List Bool} (ht : t0.length = L.g.nbC) {seeds : List Nat}
    (hs : ∀ x ∈ seeds, x < L.g.nbC) : Ok (buildFrom L seeds t0) (fun r => FromInv L t0 r.1 r.2) := by
  unfold buildFrom
  refine Ok.foldlM ⟨ht, fun _ h => h, by simp, by simp, by simp, by simp⟩ ?_
  rintro i hi ⟨ls, t⟩ h
  simp only at h ⊢
  have hin := hs i hi
  rw [rd_of_lt (by rw [h.len]; exact hin), ok_bind]
  split
  · rename_i hti
    have hti' : t[i]? = some true := by rw [List.getElem?_eq_getElem (by rw [h.len]; exact hin), hti]
    refine Ok.bind (buildLine_ok hL h.len hti') ?_
    rintro ⟨line, t'⟩ ⟨h1, h2, h3, h4, h5, h6⟩
    rw [Ok_pure]
    simp only at h1 h2 h3 h4 h5 h6 ⊢
    have hmem : ∀ x ∈ ls.flatten, t0[x]? = some true ∧ t'[x]? ≠ some true := by
      intro x hx
      refine ⟨(h.mem x hx).1, fun hc => (h.mem x hx).2 ((h6 x).1 hc).1⟩
    split
    · rename_i hlen
      refine ⟨h1, fun i hi => h.sub i ((h6 i).1 hi).1, ?_, ?_, ?_, ?_⟩
      · intro x hx
        rw [List.flatten_append, List.mem_append] at hx
        rcases hx with hx | hx
        · exact hmem x hx
        · simp at hx
          exact ⟨h.sub x (h4 x hx), fun hc => ((h6 x).1 hc).2 hx⟩
      · rw [List.flatten_append, List.nodup_append]
        refine ⟨h.nodup, by simpa using h3, ?_⟩
        intro a ha b hb hab
        simp at hb
        subst hab
        exact (h.mem a ha).2 (h4 a hb)
      · intro l hl
        rcases List.mem_append.1 hl with hl | hl
        · exact h.two l hl
        · simp at hl; rw [hl]; omega
      · intro l hl
        rcases List.mem_append.1 hl with hl | hl
        · exact h.path l hl
        · simp at hl; rw [hl]; exact h5
    · exact ⟨h1, fun i hi => h.sub i ((h6 i).1 hi).1, hmem, h.nodup, h.two, h.path⟩
  · rw [Ok_pure]
    exact h

/-- all lines -/
theorem buildLines_ok {g : Graph W} (hh : Hash) {prio : List W} {coupling : Coupling} {thr : W}
    (hI : LinesInput g prio coupling thr) (hsym : SymmetricCRS g.rowPtr g.colInd) (force : Bool) :
    Ok (buildLines g hh prio coupling force thr) (fun ls => ls.flatten.Nodup ∧ (∀ l ∈ ls, 2 ≤ l.length) ∧
      (∀ l ∈ ls, IsPath g.rowPtr g.colInd l) ∧ ∀ x ∈ ls.flatten, x ∈ g.compliant ∧ isTagged g thr x = true) := by
  unfold buildLines
  refine Ok.bind (tagCells_ok hh hI (maxW := List.replicate g.nbC (Num.ofNat 0)) (by simp)) ?_
  rintro ⟨alt, maxW, flags, seeds⟩ ⟨h1, h2, h3, h4, h5⟩
  simp only at h1 h2 h3 h4 h5 ⊢
  have hseed : ∀ x ∈ seeds, x ∈ g.compliant ∧ isTagged g thr x = true := by
    intro x hx
    rw [h5, mem_firsts_psetOf, List.mem_filter] at hx
    exact ⟨NSet.mem_elems.1 ((hh.perm 6 _).mem_iff.1 hx.1), hx.2⟩
  match hse : seeds, hseed with
  | [], _ => simp only; rw [Ok_pure]; simp
  | x :: r, hseed =>
    simp only
    have hx0 := hI.compliant x (hseed x (by simp)).1
    have hpos : 0 < g.centers.length := by rw [hI.sizes.centers]; omega
    rw [rd_of_lt hpos, ok_bind]
    obtain ⟨D, hD⟩ := hI.sizes.coords
    have hL : LineOk (⟨g, refWeights g coupling alt, maxW, force, (g.centers[0]).length⟩ : LineEnv W) := by
      refine ⟨hI.crs, hsym, hI.sizes.centers, ?_, ?_, h2⟩
      · intro c hc
        simp only
        rw [hD c hc, hD _ (List.getElem_mem _)]
      · simp only
        unfold refWeights
        cases coupling with
        | unknown => exact absurd rfl hI.known
        | maxWeight => exact hI.sizes.values
        | minDistance => simp only; rw [h1]; simp [altInit, hI.sizes.values]
    refine Ok.bind (buildFrom_ok hL h3 (fun y hy => hI.compliant y (hseed y hy).1)) ?_
    rintro ⟨ls, t⟩ h
    rw [Ok_pure]
    refine ⟨h.nodup, h.two, h.path, ?_⟩
    intro y hy
    exact hseed y ((h4 y).1 (h.mem y hy).1)

end CoMMA
