import Verif.Lemmas.Lines
import Verif.Props.Pool
import Verif.Lemmas.AnisoStart
/-! # The seeds pool after the anisotropic phase -/

set_option linter.unusedSectionVars false

namespace CoMMA

variable {W : Type} [Num W]

theorem rowOf_lt {n : Nat} {rp ci : List Nat} (hv : ValidCRS n rp ci) {x y : Nat} (h : x ∈ rowOf rp ci y) : x < n := by
  unfold rowOf at h
  split at h
  · exact hv.range x (List.mem_of_mem_drop (List.mem_of_mem_take h))
  · cases h

theorem dropAgg_ok {agg : List Bool} {n : Nat} (ha : agg.length = n) : ∀ {l : List Nat}, (∀ x ∈ l, x < n) →
    Ok (dropAgg agg l) (fun r => r = l.filter (fun x => !isAgg agg x))
  | [], _ => by simp [dropAgg]
  | x :: l, h => by
    unfold dropAgg
    have hx : x < agg.length := by rw [ha]; exact h x (by simp)
    rw [rd_of_lt hx, ok_bind]
    refine Ok.bind (dropAgg_ok ha (fun y hy => h y (by simp [hy]))) ?_
    rintro r rfl
    have : isAgg agg x = agg[x] := by simp [isAgg, hx]
    by_cases hax : agg[x] = true
    · simp [hax, this]
    · simp [hax, this]

theorem PoolRun.ofNew {c : PoolCfg W} {n : Nat} {agg : List Bool} (ha : agg.length = n) :
    PoolRun c n Pool.new agg false := by
  refine .mark .start (by simp [ha]) ?_
  intro i hi
  have := List.mem_of_getElem? hi
  simp at this

theorem needInit_new (c : PoolCfg W) (agg : List Bool) : Pool.new.needInit c agg = .ok (true, Pool.new) := by
  unfold Pool.needInit
  have : Pool.new.isEmpty = .ok true := rfl
  rw [this, ok_bind]
  cases c.kind <;> rfl

theorem updateAnisoPool_ok {g : Graph W} {c : PoolCfg W} {n : Nat} (hc : PoolInput c n) (hp : PrioritiesOk c)
    (hb : g.nBnd = c.nBnd) {agg : List Bool} (ha : agg.length = n) {neighs : List Nat} (hn : ∀ x ∈ neighs, x < n) :
    Ok (updateAnisoPool g c agg neighs Pool.new) (fun p => PoolRun c n p agg true) := by
  have h0 : PoolRun c n Pool.new agg false := PoolRun.ofNew ha
  have hfin : ∀ {p : Pool} {b : Bool}, PoolRun c n p agg b → (b = true ∨ p = Pool.new) →
      Ok (do
        let r ← p.needInit c agg
        if r.1 then r.2.initialize c else pure r.2) (fun p => PoolRun c n p agg true) := by
    intro p b hr hor
    obtain ⟨⟨r, p'⟩, hni⟩ := (C06_no_failure hc hp hr).2.2.2
    rw [hni, ok_bind]
    have hr' := PoolRun.needInit hr hni
    cases r with
    | true =>
      obtain ⟨p2, hp2⟩ := (C06_no_failure hc hp hr').1
      simp only [if_true]
      exact Ok.of_eq hp2 (.init hr' hp2)
    | false =>
      simp only [Bool.false_eq_true, if_false]
      rcases hor with rfl | rfl
      · exact hr'
      · rw [needInit_new] at hni; cases hni
  unfold updateAnisoPool pushAniso
  simp only [bind_assoc]
  refine Ok.bind (dropAgg_ok ha hn) ?_
  intro l hl
  cases l with
  | nil =>
    simp only [pure_bind]
    exact hfin h0 (Or.inr rfl)
  | cons x r =>
    have hx : ∀ y ∈ x :: r, y < n := by
      intro y hy
      rw [hl] at hy
      exact hn y (List.mem_filter.1 hy).1
    have hxb : x < g.nBnd.length := by rw [hb, hc.bnd]; exact hx x (by simp)
    simp only [bind_assoc]
    rw [rd_of_lt hxb, ok_bind]
    have h1 : PoolRun c n (Pool.new.setTop g.nBnd[x]) agg true :=
      .setTop h0 ⟨g.nBnd[x], by rw [← hb]; exact List.getElem_mem _, Nat.le_refl _⟩
    obtain ⟨p2, hp2⟩ := (C06_no_failure hc hp h1).2.1 (x :: r) hx
    rw [hp2, ok_bind]
    exact hfin (.update h1 hx hp2) (Or.inl rfl)

theorem filter_free {agg : List Bool} {n : Nat} (ha : agg.length = n) {l : List Nat} (hl : ∀ x ∈ l, x < n) :
    l.filter (fun x => !isAgg agg x) = l.filter (fun x => decide (agg[x]? = some false)) := by
  refine List.filter_congr (fun x hx => ?_)
  have hlt : x < agg.length := by rw [ha]; exact hl x hx
  simp only [isAgg, List.getElem?_eq_getElem hlt]
  cases agg[x] <;> rfl

theorem updateAnisoPool_exact (hW : LawfulLt W) {g : Graph W} {c : PoolCfg W} {n : Nat} (hc : PoolInput c n)
    (hp : PrioritiesOk c) (hb : g.nBnd = c.nBnd) {agg : List Bool} (ha : agg.length = n) {neighs : List Nat}
    (hn : ∀ x ∈ neighs, x < n) :
    Ok (updateAnisoPool g c agg neighs Pool.new)
      (PoolAfterLines c agg (neighs.filter (fun x => decide (agg[x]? = some false)))) := by
  have hfin : ∀ m : M Pool, (do
        let p ← m
        let r ← p.needInit c agg
        if r.1 then r.2.initialize c else pure r.2) = m.bind (finishAniso c agg) := fun _ => rfl
  unfold updateAnisoPool
  rw [hfin]
  unfold pushAniso
  show Ok ((dropAgg agg neighs >>= _) >>= _) _
  rw [bind_assoc]
  refine Ok.bind (dropAgg_ok ha hn) ?_
  rw [filter_free ha hn]
  intro l hl
  rw [← hl]
  have hw : ∀ y ∈ l, y < n ∧ agg[y]? = some false := by
    intro y hy
    rw [hl, List.mem_filter] at hy
    exact ⟨hn y hy.1, by simpa using hy.2⟩
  clear hl
  cases l with
  | nil =>
    simp only [pure_bind]
    obtain ⟨p', hp'⟩ := (C06_no_failure hc hp (PoolRun.ofNew ha)).1
    unfold finishAniso
    rw [needInit_new, ok_bind]
    simp only [if_true]
    rw [hp']
    exact .fresh rfl (poolStarted hW hc hp hp')
  | cons x r =>
    have hxn := (hw x (by simp)).1
    have hxb : g.nBnd[x]? = some (c.nb x) := by rw [hb]; exact nb_of_some hc hxn
    simp only [bind_assoc]
    rw [rd_ok.2 hxb, ok_bind]
    cases hk : c.kind with
    | neighbourhood =>
      refine Ok.bind (update_near hc hk (fun y hy => (hw y hy).1)) ?_
      rintro p ⟨h1, h2⟩
      rw [finishAniso_near hc hk (List.mem_cons_self ..) hxn h1 h2]
      exact .near hk rfl (nb_of_some hc hxn) h1 h2
    | boundary =>
      refine Ok.bind (update_bnd hc hk (fun y hy => (hw y hy).1) rfl (nb_of_some hc hxn)) ?_
      rintro p ⟨t, h1, ⟨y, hy, hyt⟩, h3, h4⟩
      exact finishAniso_bnd hW hc hp hk ha hy hw h1 hyt h3 h4

/-- what the anisotropic agglomerator leaves behind -/
structure AnisoDone (g : Graph W) (c : PoolCfg W) (L : LineCfg) (lines : List (List Nat)) (cont : Cont)
    (r : Cont × Pool × List (List Nat)) (gss : List (List (List Nat))) : Prop where
  cut : List.Forall₂ (CutLine g c.prio L) lines gss
  made : AnisoMade g.nbC cont gss.flatten r.1
  pool : PoolRun c g.nbC r.2.1 r.1.agg true
  listed : List.Forall₂ (Listed r.1) gss r.2.2
  all : r.2.2.flatten = List.range' cont.counter gss.flatten.length
  start : LawfulLt W → PoolAfterLines c r.1.agg ((gss.flatten.flatten.flatMap (rowOf g.rowPtr g.colInd)).filter
    (fun x => decide (r.1.agg[x]? = some false))) r.2.1

theorem agglomLines_ok {g : Graph W} (hv : ValidCRS g.nbC g.rowPtr g.colInd) {c : PoolCfg W}
    (hc : PoolInput c g.nbC) (hp : PrioritiesOk c) (hb : g.nBnd = c.nBnd) {L : LineCfg} {cont : Cont}
    (hcont : CInv g.nbC cont) {lines : List (List Nat)} (hlen : ∀ l ∈ lines, 2 ≤ l.length)
    (hno : ∀ l ∈ lines, NoOverrun L l.length) (hnd : lines.flatten.Nodup)
    (hfree : ∀ x ∈ lines.flatten, cont.agg[x]? = some false) :
    Ok (agglomLines g c L lines cont Pool.new) (fun r => ∃ gss, AnisoDone g c L lines cont r gss) := by
  unfold agglomLines
  split
  · rename_i hl
    subst hl
    obtain ⟨p', hp'⟩ := (C06_no_failure hc hp (PoolRun.ofNew hcont.lenA)).1
    rw [hp', ok_bind]
    exact ⟨[], .nil, AnisoMade.refl hcont, .init (PoolRun.ofNew hcont.lenA) hp', .nil, by simp,
      fun hW => .fresh rfl (poolStarted hW hc hp hp')⟩
  · refine Ok.bind (linesLoop_ok hv (by rw [hb, hc.bnd]) hc.prio hcont hlen hno hnd hfree) ?_
    rintro ⟨c1, nb, cl⟩ ⟨gss, h⟩
    simp only
    have hnb : ∀ x ∈ nb, x < g.nbC := by
      intro x hx
      have := h.neigh
      simp only at this
      rw [this, List.mem_flatMap] at hx
      obtain ⟨y, _, hx⟩ := hx
      exact rowOf_lt hv hx
    obtain ⟨p, hpe, hpr⟩ := (updateAnisoPool_ok hc hp hb h.made.cinv.lenA hnb).eq
    rw [hpe, ok_bind]
    refine ⟨gss, h.cut, h.made, hpr, h.listed, h.all, fun hW => ?_⟩
    have := (updateAnisoPool_exact hW hc hp hb h.made.cinv.lenA hnb).elim hpe
    have hne := h.neigh
    simp only at hne
    rw [← hne]
    exact this

end CoMMA
