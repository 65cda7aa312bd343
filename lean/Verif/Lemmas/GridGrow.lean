import Verif.Lemmas.Compact
import Verif.Lemmas.ExampleTools
import Verif.Spec.Growth
/-! # Growth of a coarse cell from the corner of a block of a grid -/

set_option linter.unusedSectionVars false

namespace CoMMA

variable {W F : Type} [Num W]

/-- number of neighbours of a cell in a list of cells -/
def cnt (g : Graph W) (x : Nat) (xs : List Nat) : Nat := xs.countP (fun y => decide (y ∈ rowOf g.rowPtr g.colInd x))

theorem nbShared_ofList {g : Graph W} {x : Nat} {xs : List Nat} (h : xs.Nodup) :
    nbShared (rowOf g.rowPtr g.colInd x) (NSet.ofList xs) = cnt g x xs := by
  unfold nbShared cnt
  rw [(NSet.elems_perm h (fun a => by simp)).countP_eq]
  apply List.countP_congr
  intro y _
  simp

theorem FirstBest.spec {Q : Nat → Merit W → F → Prop} {l : List Nat} {c : Nat} {m : Merit W} {f : F}
    (h : FirstBest Q l c m f) : c ∈ l ∧ Q c m f ∧ ∀ x ∈ l, ∃ m' f', Q x m' f' ∧ m.AsGood m' := by
  obtain ⟨μ, h1, h2, h3, pre, post, rfl, _⟩ := h
  have hc : c ∈ pre ++ c :: post := by simp
  refine ⟨hc, ?_, fun x hx => ⟨_, _, h1 x hx, h3 x hx⟩⟩
  have := h1 c hc
  rw [h2] at this
  exact this

theorem Merit.ahead_faces {m : Merit W} {q : Nat} : (m.ahead q).faces = max m.faces q := by
  unfold Merit.ahead
  split
  · simp only []; omega
  · rename_i h
    have : m.faces = max m.faces q := by omega
    split <;> exact this

theorem Merit.ahead_order {m : Merit W} {q : Nat} : (m.ahead q).order = m.order := by
  unfold Merit.ahead
  split
  · rfl
  · split <;> rfl

theorem GreedySeq.last {E : IsoEnv W F} {d : NMap Nat} {hi : Nat} {xs : List Nat} {f : F} (h : GreedySeq E d hi xs f)
    (hl : 2 ≤ xs.length) : ∃ ys c f0 l m, xs = ys ++ [c] ∧ GreedySeq E d hi ys f0 ∧
      Candidates E.g E.nbh E.pool.prio d.keySet ys l ∧
      FirstBest (LookAhead E d.keySet d (min (hi - ys.length) E.fcIter - 1) ys f0) l c m f := by
  cases h with
  | seed => simp at hl
  | next h1 h2 h3 => exact ⟨_, _, _, _, _, rfl, h1, h2, h3⟩

theorem GreedySeq.not_nil {E : IsoEnv W F} {d : NMap Nat} {hi : Nat} {xs : List Nat} {f : F} (h : GreedySeq E d hi xs f) :
    xs ≠ [] := by
  cases h <;> simp

theorem head_of_snoc {ys : List Nat} {c s : Nat} (h : (ys ++ [c]).head? = some s) (hy : ys ≠ []) : ys.head? = some s := by
  cases ys with
  | nil => exact absurd rfl hy
  | cons a l => simpa using h

/-- The last cell added is a candidate and is as good as the others; when no cell is looked ahead. -/
theorem LookAhead.zero {E : IsoEnv W F} {al : NSet} {d : NMap Nat} {xs : List Nat} {f f' : F} {c : Nat} {m : Merit W}
    (h : LookAhead E al d 0 xs f c m f') : HasMerit E d f (NSet.ofList xs) c m f' := h

/-- candidates when the last cell added is next to an allowed cell -/
theorem cands_mem {g : Graph W} {kind : NbhKind} {prio : List W} {al : NSet} {xs l : List Nat} {v t : Nat}
    (h : Candidates g kind prio al (xs ++ [v]) l) (ht : InFront g.rowPtr g.colInd al (xs ++ [v]) t)
    (hv : Adj g.rowPtr g.colInd v t) : t ∈ l ∧ ∀ x ∈ l, InFront g.rowPtr g.colInd al (xs ++ [v]) x := by
  cases kind with
  | extended => exact ⟨(h.1 t).2 ht, fun x hx => (h.1 x).1 hx⟩
  | pureFront =>
    obtain ⟨_, h1, h2⟩ := h
    by_cases hl : (xs ++ [v]).length ≤ g.dim
    · exact ⟨(h1 hl t).2 ht, fun x hx => (h1 hl x).1 hx⟩
    · rcases h2 (by omega) with ⟨_, h3⟩ | ⟨_, i, y, h3, h4, h5⟩
      · exact absurd ht (h3 t)
      · have hlast : (xs ++ [v])[xs.length]? = some v := by simp
        have hr := h5 _ _ hlast ⟨t, ht, hv⟩
        have hi : i < (xs ++ [v]).length := (List.getElem?_eq_some_iff.1 h3).1
        rw [List.length_append, List.length_singleton] at hi hr
        have : i = xs.length := by
          unfold frontRank at hr
          omega
        subst this
        rw [hlast] at h3
        cases h3
        exact ⟨(h4 t).2 ⟨ht, hv⟩, fun x hx => ((h4 x).1 hx).1⟩

/-- candidates are allowed cells next to the coarse cell -/
theorem cands_inFront {g : Graph W} {kind : NbhKind} {prio : List W} {al : NSet} {xs l : List Nat}
    (h : Candidates g kind prio al xs l) {x : Nat} (hx : x ∈ l) : InFront g.rowPtr g.colInd al xs x := by
  cases kind with
  | extended => exact (h.1 x).1 hx
  | pureFront =>
    obtain ⟨_, h1, h2⟩ := h
    by_cases hl : xs.length ≤ g.dim
    · exact (h1 hl x).1 hx
    · rcases h2 (by omega) with ⟨h3, _⟩ | ⟨_, i, y, _, h4, _⟩
      · rw [h3] at hx; cases hx
      · exact ((h4 x).1 hx).1

/-- all of them are when the coarse cell is small -/
theorem cands_all {g : Graph W} {kind : NbhKind} {prio : List W} {al : NSet} {xs l : List Nat}
    (h : Candidates g kind prio al xs l) (hl : xs.length ≤ g.dim ∨ kind = .extended) {x : Nat}
    (hx : InFront g.rowPtr g.colInd al xs x) : x ∈ l := by
  cases kind with
  | extended => exact (h.1 x).2 hx
  | pureFront =>
    rcases hl with hl | hl
    · exact (h.2.1 hl x).2 hx
    · cases hl

/-- the corner `s` of a block of four cells that may be taken: `u` and `v` are next to it, `t` is opposite to it -/
structure Square (g : Graph W) (d : NMap Nat) (s u v t : Nat) : Prop where
  symm : ∀ x y, y ∈ rowOf g.rowPtr g.colInd x → x ∈ rowOf g.rowPtr g.colInd y
  tri : ∀ x y z, y ∈ rowOf g.rowPtr g.colInd x → z ∈ rowOf g.rowPtr g.colInd x → z ∉ rowOf g.rowPtr g.colInd y
  pos : ∀ x k, d.find? x = some k → 0 < k
  du : d.find? u = some 1
  dv : d.find? v = some 1
  dt : d.find? t = some 2
  one : ∀ x, d.find? x = some 1 → x = u ∨ x = v
  first : ∀ x ∈ d.keySet, x ∈ rowOf g.rowPtr g.colInd s → x = u ∨ x = v
  su : u ∈ rowOf g.rowPtr g.colInd s
  sv : v ∈ rowOf g.rowPtr g.colInd s
  ut : t ∈ rowOf g.rowPtr g.colInd u
  vt : t ∈ rowOf g.rowPtr g.colInd v
  com : ∀ x, u ∈ rowOf g.rowPtr g.colInd x → v ∈ rowOf g.rowPtr g.colInd x → x = s ∨ x = t
  hs : s ∉ d.keySet
  uv : u ≠ v

theorem Square.swap {g : Graph W} {d : NMap Nat} {s u v t : Nat} (h : Square g d s u v t) : Square g d s v u t :=
  ⟨h.symm, h.tri, h.pos, h.dv, h.du, h.dt, fun x hx => (h.one x hx).symm, fun x hx hs => (h.first x hx hs).symm,
    h.sv, h.su, h.vt, h.ut, fun x h1 h2 => h.com x h2 h1, h.hs, h.uv.symm⟩

theorem mem_keySet_of {d : NMap Nat} {x k : Nat} (h : d.find? x = some k) : x ∈ d.keySet := by
  rw [NMap.mem_keySet, NMap.mem_keys]
  exact ⟨k, h⟩

theorem Square.nodup {g : Graph W} {d : NMap Nat} {s u v t : Nat} (h : Square g d s u v t) : [s, u, v, t].Nodup := by
  have h1 : s ≠ u := fun e => h.hs (e ▸ mem_keySet_of h.du)
  have h2 : s ≠ v := fun e => h.hs (e ▸ mem_keySet_of h.dv)
  have h3 : s ≠ t := fun e => h.hs (e ▸ mem_keySet_of h.dt)
  have h4 : u ≠ t := fun e => by have := h.dt; rw [← e, h.du] at this; cases this
  have h5 : v ≠ t := fun e => by have := h.dt; rw [← e, h.dv] at this; cases this
  have h6 := h.uv
  simp [h1, h2, h3, h4, h5, h6]

/-- the second cell added -/
theorem Square.second {E : IsoEnv W F} {d : NMap Nat} {s u v t k c : Nat} (h : Square E.g d s u v t) (hdim : 2 ≤ E.g.dim)
    (hk : k ≤ 1) {f f' : F} {l : List Nat} {m : Merit W} (hl : Candidates E.g E.nbh E.pool.prio d.keySet [s, u] l)
    (hb : FirstBest (LookAhead E d.keySet d k [s, u] f) l c m f') : c = v := by
  have hnd := h.nodup
  simp only [List.nodup_cons, List.mem_cons, List.not_mem_nil, or_false, not_or, List.nodup_nil, and_true, not_false_eq_true]
    at hnd
  have hvf : InFront E.g.rowPtr E.g.colInd d.keySet [s, u] v := by
    refine ⟨mem_keySet_of h.dv, ?_, s, by simp, adj_iff_rowOf.2 h.sv⟩
    simp only [List.mem_cons, List.not_mem_nil, or_false, not_or]
    exact ⟨fun e => hnd.1.2.1 e.symm, fun e => hnd.2.1.1 e.symm⟩
  obtain ⟨hcl, hcm, hbest⟩ := hb.spec
  obtain ⟨mv, fv, hvm, hgood⟩ := hbest v (cands_all hl (Or.inl (by simpa using hdim)) hvf)
  obtain ⟨hck, hcn, _⟩ := cands_inFront hl hcl
  simp only [List.mem_cons, List.not_mem_nil, or_false, not_or] at hcn
  have hsu2 : ∀ x, cnt E.g x [s, u] ≤ 1 := by
    intro x
    unfold cnt
    have := h.tri x s u
    have := h.su
    simp only [List.countP_cons, List.countP_nil, decide_eq_true_eq]
    split_ifs <;> first | omega | (exfalso; tauto)
  have hnd2 : [s, u].Nodup := by simp; exact hnd.1.1
  have hv1 : cnt E.g v [s, u] = 1 := by
    have h1 := hsu2 v
    have h2 := h.symm s v h.sv
    unfold cnt at h1 ⊢
    simp only [List.countP_cons, List.countP_nil, decide_eq_true_eq, if_pos h2] at h1 ⊢
    omega
  have key : ∀ (mc : Nat), mc ≤ mv.faces → mv.order = 1 → d.find? c = some m.order → m.faces = mc → c = v := by
    intro mc h1 h2 h3 h4
    have hpos := h.pos c _ h3
    unfold Merit.AsGood at hgood
    have : m.order = 1 := by omega
    rw [this] at h3
    rcases h.one c h3 with h5 | h5
    · exact absurd h5 hcn.2
    · exact h5
  rcases Nat.le_one_iff_eq_zero_or_eq_one.1 hk with rfl | rfl
  · have hc' := hcm.zero
    have hv' := hvm.zero
    have e1 := hc'.faces
    have e2 := hv'.faces
    rw [nbShared_ofList hnd2] at e1 e2
    have e3 := hv'.order
    rw [h.dv] at e3
    exact key m.faces (by rw [e1, e2, hv1]; exact hsu2 c) (Option.some.inj e3).symm hc'.order rfl
  · obtain ⟨m0, lc, hc', hlc, hcase⟩ := hcm
    obtain ⟨n0, lv, hv', hlv, hcasev⟩ := hvm
    have e1 := hc'.faces
    have e2 := hv'.faces
    rw [nbShared_ofList hnd2] at e1 e2
    have e3 := hv'.order
    rw [h.dv] at e3
    -- faces of the cell after `v`
    have hnd3 : [s, u, v].Nodup := by simp; tauto
    have htf : InFront E.g.rowPtr E.g.colInd d.keySet ([s, u] ++ [v]) t := by
      refine ⟨mem_keySet_of h.dt, ?_, u, by simp, adj_iff_rowOf.2 h.ut⟩
      simp only [List.cons_append, List.nil_append, List.mem_cons, List.not_mem_nil, or_false, not_or]
      exact ⟨fun e => hnd.1.2.2 e.symm, fun e => hnd.2.1.2 e.symm, fun e => hnd.2.2 e.symm⟩
    have htl := (cands_mem hlv htf (adj_iff_rowOf.2 h.vt)).1
    have ht2 : 2 ≤ cnt E.g t [s, u, v] := by
      have h1 := h.symm u t h.ut
      have h2 := h.symm v t h.vt
      unfold cnt
      simp only [List.countP_cons, List.countP_nil, decide_eq_true_eq, if_pos h1, if_pos h2]
      omega
    have hmv : 2 ≤ mv.faces ∧ mv.order = 1 := by
      rcases hcasev with ⟨hlv0, _⟩ | ⟨c2, m2, f2, hb2, rfl⟩
      · rw [hlv0] at htl; cases htl
      · obtain ⟨_, hc2m, hbest2⟩ := hb2.spec
        obtain ⟨mt, ft, htm, hgt⟩ := hbest2 t htl
        have e4 := htm.zero.faces
        have e5 := hc2m.zero.faces
        have hcat : [s, u] ++ [v] = [s, u, v] := rfl
        rw [hcat, nbShared_ofList hnd3] at e4 e5
        rw [Merit.ahead_faces, Merit.ahead_order, hcat, nbShared_ofList hnd3]
        unfold Merit.AsGood at hgt
        refine ⟨by omega, ?_⟩
        exact (Option.some.inj e3).symm
    have hmc : m.faces ≤ 2 ∧ m.order = m0.order := by
      have h1 := hsu2 c
      rcases hcase with ⟨_, rfl⟩ | ⟨c2, m2, f2, hb2, rfl⟩
      · exact ⟨by omega, rfl⟩
      · refine ⟨?_, Merit.ahead_order⟩
        have hndc : [s, u, c].Nodup := by
          simp only [List.nodup_cons, List.mem_cons, List.not_mem_nil, or_false, not_or, List.nodup_nil, and_true,
            not_false_eq_true]
          exact ⟨⟨hnd.1.1, fun e => hcn.1 e.symm⟩, fun e => hcn.2 e.symm⟩
        have hcat : [s, u] ++ [c] = [s, u, c] := rfl
        rw [Merit.ahead_faces, hcat, nbShared_ofList hndc]
        have h2 := hsu2 c2
        have : cnt E.g c2 [s, u, c] ≤ cnt E.g c2 [s, u] + 1 := by
          unfold cnt
          simp only [List.countP_cons, List.countP_nil, decide_eq_true_eq]
          split_ifs <;> omega
        omega
    exact key m.faces (by omega) hmv.2 (by rw [hmc.2]; exact hc'.order) rfl

/-- the third cell added -/
theorem Square.third {E : IsoEnv W F} {d : NMap Nat} {s u v t c : Nat} (h : Square E.g d s u v t) {f f' : F} {l : List Nat}
    {m : Merit W} (hl : Candidates E.g E.nbh E.pool.prio d.keySet [s, u, v] l)
    (hb : FirstBest (LookAhead E d.keySet d 0 [s, u, v] f) l c m f') : c = t := by
  have hnd := h.nodup
  simp only [List.nodup_cons, List.mem_cons, List.not_mem_nil, or_false, not_or, List.nodup_nil, and_true, not_false_eq_true]
    at hnd
  have hnd3 : [s, u, v].Nodup := by simp; tauto
  have htf : InFront E.g.rowPtr E.g.colInd d.keySet ([s, u] ++ [v]) t := by
    refine ⟨mem_keySet_of h.dt, ?_, u, by simp, adj_iff_rowOf.2 h.ut⟩
    simp only [List.cons_append, List.nil_append, List.mem_cons, List.not_mem_nil, or_false, not_or]
    exact ⟨fun e => hnd.1.2.2 e.symm, fun e => hnd.2.1.2 e.symm, fun e => hnd.2.2 e.symm⟩
  have htl := (cands_mem (xs := [s, u]) (v := v) hl htf (adj_iff_rowOf.2 h.vt)).1
  obtain ⟨hcl, hcm, hbest⟩ := hb.spec
  obtain ⟨mt, ft, htm, hgood⟩ := hbest t htl
  have e1 := hcm.zero.faces
  have e2 := htm.zero.faces
  rw [nbShared_ofList hnd3] at e1 e2
  have ht2 : 2 ≤ cnt E.g t [s, u, v] := by
    have h1 := h.symm u t h.ut
    have h2 := h.symm v t h.vt
    unfold cnt
    simp only [List.countP_cons, List.countP_nil, decide_eq_true_eq, if_pos h1, if_pos h2]
    omega
  have hc2 : 2 ≤ cnt E.g c [s, u, v] := by
    unfold Merit.AsGood at hgood
    omega
  have h1 := h.tri c s u
  have h2 := h.tri c s v
  have h3 := h.com c
  have h4 := h.su
  have h5 := h.sv
  have hcn := (cands_inFront hl hcl).2.1
  unfold cnt at hc2
  simp only [List.countP_cons, List.countP_nil, decide_eq_true_eq] at hc2
  simp only [List.mem_cons, List.not_mem_nil, or_false, not_or] at hcn
  split_ifs at hc2 <;> first | omega | tauto

/-- all the cells added -/
theorem Square.grown {E : IsoEnv W F} {d : NMap Nat} {s u v t : Nat} (h : Square E.g d s u v t) (hdim : 2 ≤ E.g.dim)
    {hi : Nat} (hhi : hi = 4 ∨ E.fcIter ≤ 1) {xs : List Nat} {f : F} (hx : GreedySeq E d hi xs f) (hh : xs.head? = some s)
    (hl : xs.length = 4) :
    xs = [s, u, v, t] ∨ xs = [s, v, u, t] := by
  obtain ⟨ys, c3, f3, l3, m3, rfl, hy, hl3, hb3⟩ := hx.last (by omega)
  have hyl : ys.length = 3 := by simpa using hl
  have hyh := head_of_snoc hh hy.not_nil
  obtain ⟨zs, c2, f2, l2, m2, rfl, hz, hl2, hb2⟩ := hy.last (by omega)
  have hzl : zs.length = 2 := by simpa using hyl
  have hzh := head_of_snoc hyh hz.not_nil
  obtain ⟨ws, c1, f1, l1, m1, rfl, hw, hl1, hb1⟩ := hz.last (by omega)
  have hwl : ws.length = 1 := by simpa using hzl
  have hwh := head_of_snoc hzh hw.not_nil
  obtain ⟨a, rfl⟩ := List.length_eq_one_iff.1 hwl
  cases hwh
  have hc1 : c1 = u ∨ c1 = v := by
    obtain ⟨h1, _, y, hy, h3⟩ := cands_inFront hl1 hb1.spec.1
    rw [List.mem_singleton] at hy
    subst hy
    exact h.first c1 h1 (adj_iff_rowOf.1 h3)
  have hk2 : min (hi - ([s] ++ [c1]).length) E.fcIter - 1 ≤ 1 := by
    simp only [List.cons_append, List.nil_append, List.length_cons, List.length_nil]
    omega
  have hk3 : min (hi - ([s] ++ [c1] ++ [c2]).length) E.fcIter - 1 = 0 := by
    simp only [List.cons_append, List.nil_append, List.length_cons, List.length_nil]
    omega
  rw [hk3] at hb3
  rcases hc1 with rfl | rfl
  · have := h.second hdim hk2 hl2 hb2
    subst this
    have := h.third hl3 hb3
    subst this
    exact Or.inl rfl
  · have := h.swap.second hdim hk2 hl2 hb2
    subst this
    have := h.swap.third hl3 hb3
    subst this
    exact Or.inr rfl

/-- compactness of the cells added so far is at most the number of neighbours of the last one -/
theorem compactness_le {g : Graph W} {xs : List Nat} {x k : Nat} (hn : xs.Nodup) (hx : x ∈ xs)
    (h : IsCompactness g.rowPtr g.colInd (NSet.ofList xs) k) : k ≤ cnt g x xs := by
  by_cases hc : (NSet.ofList xs).card ≤ 1
  · rw [h.1 hc]
    exact Nat.zero_le _
  · rw [← nbShared_ofList hn]
    exact (h.2 (by omega)).2 x (by simpa using hx)

/-- compactness of the block and of its parts -/
theorem Square.compact {g : Graph W} {d : NMap Nat} {s u v t : Nat} (h : Square g d s u v t) {lo : Nat} {κ : Nat → Nat}
    (hκ : ∀ j, lo ≤ j → j ≤ 4 → IsCompactness g.rowPtr g.colInd (NSet.ofList ([s, u, v, t].take j)) (κ j))
    (hlo : lo ≤ 4) : 2 ≤ κ 4 ∧ ∀ m, lo ≤ m → m < 4 → κ m ≤ 1 := by
  have hnd := h.nodup
  have hsu := h.symm s u h.su
  have hsv := h.symm s v h.sv
  have hut := h.symm u t h.ut
  have hvt := h.symm v t h.vt
  have huv : v ∉ rowOf g.rowPtr g.colInd u := h.tri s u v h.su h.sv
  have hst : t ∉ rowOf g.rowPtr g.colInd s := fun hst => h.tri s u t h.su hst h.ut
  have hns : ∀ x, x ∉ rowOf g.rowPtr g.colInd x := fun x hx => h.tri x x x hx hx hx
  have h4 : 2 ≤ κ 4 := by
    have hc := hκ 4 hlo (Nat.le_refl _)
    simp only [List.take_succ_cons, List.take_zero] at hc
    have hcard : 1 < (NSet.ofList [s, u, v, t]).card := by rw [NSet.card_ofList hnd]; simp
    obtain ⟨⟨x, hx, hxk⟩, _⟩ := hc.2 hcard
    rw [nbShared_ofList hnd] at hxk
    rw [← hxk]
    unfold cnt
    simp only [NSet.mem_ofList, List.mem_cons, List.not_mem_nil, or_false] at hx
    rcases hx with rfl | rfl | rfl | rfl
    · simp [List.countP_cons, h.su, h.sv]; omega
    · simp [List.countP_cons, hsu, h.ut]; omega
    · simp [List.countP_cons, hsv, h.vt]; omega
    · simp [List.countP_cons, hut, hvt]; omega
  refine ⟨h4, fun m h1 h2 => ?_⟩
  have hc := hκ m h1 (by omega)
  have hle : κ m ≤ 1 := by
    have hnd' := hnd.sublist (List.take_sublist m _)
    have : m = 0 ∨ m = 1 ∨ m = 2 ∨ m = 3 := by omega
    rcases this with rfl | rfl | rfl | rfl
    · rw [hc.1 (by simp [NSet.card_ofList])]; omega
    · rw [hc.1 (by simp [NSet.card_ofList])]; omega
    · refine Nat.le_trans (compactness_le hnd' (x := s) (by simp) hc) ?_
      simp [cnt, h.su, hns]
    · refine Nat.le_trans (compactness_le hnd' (x := u) (by simp) hc) ?_
      simp [cnt, hsu, hns, huv]
  exact hle

/-- the whole block is kept -/
theorem Square.size {g : Graph W} {d : NMap Nat} {s u v t : Nat} (h : Square g d s u v t) {lo m : Nat} {κ : Nat → Nat}
    {e : Nat → Int}
    (hκ : ∀ j, lo ≤ j → j ≤ 4 → IsCompactness g.rowPtr g.colInd (NSet.ofList ([s, u, v, t].take j)) (κ j))
    (hlo : lo ≤ 4) (hb : BestSize lo 4 4 κ e m) : m = 4 := by
  obtain ⟨h4, hle⟩ := h.compact hκ hlo
  obtain ⟨h1, h2, h3⟩ := hb
  by_contra hne
  have hk := h3 4 hlo (Nat.le_refl _)
  have := hle m h1 (by omega)
  omega

/-- beginning of a coarse cell grown one cell after the other -/
theorem GreedySeq.take {E : IsoEnv W F} {d : NMap Nat} {hi : Nat} {xs : List Nat} {f : F} (h : GreedySeq E d hi xs f) :
    ∀ j, 1 ≤ j → j ≤ xs.length → ∃ f', GreedySeq E d hi (xs.take j) f' := by
  induction h with
  | @seed s f h =>
    intro j h1 h2
    have : j = 1 := by simpa using Nat.le_antisymm h2 h1
    subst this
    exact ⟨f, .seed h⟩
  | @next xs l f f' c m hg hn hb ih =>
    intro j h1 h2
    rw [List.length_append, List.length_singleton] at h2
    by_cases hj : j ≤ xs.length
    · rw [List.take_append_of_le_length hj]
      exact ih j h1 hj
    · rw [List.take_of_length_le (by rw [List.length_append, List.length_singleton]; omega)]
      exact ⟨f', .next hg hn hb⟩

/-- its cells but the first are reached by faces -/
theorem GreedySeq.adj {E : IsoEnv W F} {d : NMap Nat} {hi : Nat} {xs : List Nat} {f : F} (h : GreedySeq E d hi xs f) :
    ∀ x ∈ xs, xs.head? = some x ∨ ∃ y, Adj E.g.rowPtr E.g.colInd y x := by
  induction h with
  | @seed s f h => intro x hx; rw [List.mem_singleton] at hx; subst hx; exact Or.inl rfl
  | @next xs l f f' c m hg hn hb ih =>
    intro x hx
    rcases List.mem_append.1 hx with hx | hx
    · rcases ih x hx with h1 | h1
      · left
        cases xs with
        | nil => cases h1
        | cons a l => simpa using h1
      · exact Or.inr h1
    · rw [List.mem_singleton] at hx
      subst hx
      obtain ⟨_, _, y, _, hy⟩ := cands_inFront hn hb.spec.1
      exact Or.inr ⟨y, hy⟩

end CoMMA
