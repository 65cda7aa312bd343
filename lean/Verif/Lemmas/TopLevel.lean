import Verif.Spec.TopLevel
import Verif.Lemmas.AnisoPool
import Verif.Lemmas.Isotropic
import Verif.Lemmas.AspectRatio
import Verif.Lemmas.Correction
/-! # The phases of `agglomerate_one_level` -/

set_option linter.unusedSectionVars false

namespace CoMMA

variable {W : Type} [Num W]

theorem getLast?_of_crs {n : Nat} {rowPtr colInd : List Nat} (h : ValidCRS n rowPtr colInd) :
    rowPtr.getLast? = some colInd.length := by
  rw [List.getLast?_eq_getElem?, h.rows]
  exact h.last

theorem effMaxCells_eq (a : Args W) : effMaxCells a = lineLimit a := by
  unfold effMaxCells lineLimit
  cases a.maxCells with
  | none => rfl
  | some m =>
    simp only [Option.filter_some]
    cases a.buildLines <;> by_cases h : m ≤ 0 <;> simp [h]

theorem effCoupling_eq (a : Args W) : effCoupling a = meantCoupling a := by
  unfold effCoupling meantCoupling
  cases a.coupling <;> cases a.buildLines <;> simp

theorem effThreshold_eq (t : W) : effThreshold t = meantThreshold t := by
  unfold effThreshold meantThreshold
  cases h1 : Num.lt (Num.ofNat 1) t <;> cases h2 : Num.lt t (Num.ofNat 0) <;> simp

theorem clampBnd_eq (d : Nat) (l : List Nat) : clampBnd d l = l.map (fun b => min b d) := by
  unfold clampBnd
  refine List.map_congr_left (fun b _ => ?_)
  split <;> omega

theorem checkArg_true : checkArg true = .ok () := rfl

theorem checkBasic_ok {P : Platform} {a : Args W} {n : Nat} (hm : ValidMesh a n) (hp : ValidParams P a) :
    checkBasic a = .ok () := by
  have h1 := hp.minCard
  have h2 := hp.goalCard
  have h3 := hp.maxCard
  have hl := getLast?_of_crs hm.crs
  have hne : a.rowPtr ≠ [] := by
    intro h; have := hm.crs.rows; rw [h] at this; simp at this
  unfold checkBasic
  have e1 : (decide (a.dim = 2) || decide (a.dim = 3)) = true := by simpa using hp.dim
  have e2 : (!(decide (a.minCard ≤ 1) || decide (a.goalCard ≤ 1) || decide (a.maxCard ≤ 1))) = true := by
    simp; omega
  have e3 : (decide (a.minCard ≤ a.goalCard) && decide (a.goalCard ≤ a.maxCard)) = true := by
    simp; omega
  have e4 : (!decide (a.fcIter < 1)) = true := by have := hp.iter; simp; omega
  have e5 : (!decide (4 < a.fcIter)) = true := by have := hp.iter; simp; omega
  have e6 : (!(a.rowPtr.isEmpty || decide (a.rowPtr.getLast? ≠ some a.colInd.length)
      || decide (a.rowPtr.getLast? ≠ some a.values.length))) = true := by
    simp [hl, hm.values, hne]
  rw [e1, e2, e3, e4, e5, e6]
  rfl

/-- the pool built by the top-level function -/
structure PoolMade (P : Platform) (a : Args W) (c : PoolCfg W) : Prop where
  eq : poolOf P a = .ok c
  prio : c.prio = a.prio
  bnd : c.nBnd = clampBnd a.dim.toNat a.nBnd
  idx : c.idxMax = P.idxMax
  one : c.onePoint = true → a.order = .boundaryOnePoint ∨ a.order = .neighbourhoodOnePoint

theorem poolOf_ok (P : Platform) {a : Args W} (h : a.order ≠ .unknown) : ∃ c, PoolMade P a c := by
  cases ho : a.order with
  | unknown => exact absurd ho h
  | boundary => exact ⟨_, by unfold poolOf; rw [ho], rfl, rfl, rfl, by simp⟩
  | neighbourhood => exact ⟨_, by unfold poolOf; rw [ho], rfl, rfl, rfl, by simp⟩
  | boundaryOnePoint => exact ⟨_, by unfold poolOf; rw [ho], rfl, rfl, rfl, fun _ => Or.inl ho⟩
  | neighbourhoodOnePoint => exact ⟨_, by unfold poolOf; rw [ho], rfl, rfl, rfl, fun _ => Or.inr ho⟩

theorem mem_clampBnd {d : Nat} {l : List Nat} {b : Nat} (h : b ∈ clampBnd d l) : b ≤ d := by
  unfold clampBnd at h
  obtain ⟨x, _, rfl⟩ := List.mem_map.1 h
  split <;> omega

theorem PoolMade.input {P : Platform} {a : Args W} {c : PoolCfg W} (hc : PoolMade P a c) {n : Nat}
    (hm : ValidMesh a n) (hp : ValidParams P a) : PoolInput c n where
  pos := hm.pos
  bnd := by rw [hc.bnd]; simp [clampBnd, hm.bnd]
  prio := by rw [hc.prio, hm.prio]
  le3 b hb := by
    rw [hc.bnd] at hb
    have := mem_clampBnd hb
    rcases hp.dim with h | h <;> rw [h] at this <;> simp at this <;> omega

theorem PoolMade.prioOk {P : Platform} {a : Args W} {c : PoolCfg W} (hc : PoolMade P a c)
    (hp : ValidParams P a) : PrioritiesOk c := by
  intro ho
  have := hp.onePoint (hc.one ho)
  rw [hc.bnd, hc.prio, hc.idx]
  exact ⟨by simpa [clampBnd] using this.1, this.2⟩

theorem graphOf_nbC {a : Args W} {n : Nat} (hm : ValidMesh a n) : (graphOf a).nbC = n := by
  show a.rowPtr.length - 1 = n
  rw [hm.crs.rows]; rfl

theorem meshSizes {a : Args W} {n : Nat} (hm : ValidMesh a n) : MeshSizes (graphOf a) where
  bnd := by rw [graphOf_nbC hm]; show (clampBnd _ _).length = n; simp [clampBnd, hm.bnd]
  volumes := by rw [graphOf_nbC hm]; exact hm.volumes
  centers := by rw [graphOf_nbC hm]; exact hm.centers
  values := hm.values
  coords := hm.coords

theorem cardOr_pos {d2 d3 : Nat} {dim card : Int} (h : 0 < card) : cardOr d2 d3 dim card = card.toNat := by
  unfold cardOr
  rw [if_neg (by omega)]

theorem isoInput {P : Platform} {a : Args W} {n : Nat} (hm : ValidMesh a n) (hp : ValidParams P a)
    {c : PoolCfg W} (hc : PoolMade P a c) : IsoInput (isoEnvOf P a c) := by
  have h1 := hp.minCard
  have h2 := hp.goalCard
  have h3 := hp.maxCard
  have hn : (isoEnvOf P a c).g.nbC = n := graphOf_nbC hm
  have hcrs : ValidCRS (graphOf a).nbC (graphOf a).rowPtr (graphOf a).colInd := by
    rw [graphOf_nbC hm]; exact hm.crs
  refine ⟨hcrs, hm.sym, hm.uniq, ?_, (meshSizes hm).bnd, ?_, hc.prioOk hp, ?_, ?_, ?_, arOf_safe hcrs (meshSizes hm) _ _⟩
  · show a.dim.toNat = 2 ∨ a.dim.toNat = 3
    rcases hp.dim with h | h <;> rw [h] <;> decide
  · rw [hn]; exact hc.input hm hp
  · show 1 < cardOr 3 6 a.dim a.minCard
    rw [cardOr_pos (by omega)]; omega
  · show cardOr 3 6 a.dim a.minCard ≤ cardOr 4 8 a.dim a.goalCard
    rw [cardOr_pos (by omega), cardOr_pos (by omega)]; omega
  · show cardOr 4 8 a.dim a.goalCard ≤ cardOr 5 10 a.dim a.maxCard
    rw [cardOr_pos (by omega), cardOr_pos (by omega)]; omega

/-- state before the isotropic phase -/
structure Start (P : Platform) (a : Args W) (o : Outs) (c : PoolCfg W) (n : Nat) (k : Cont) (p : Pool)
    (idx lines : List Nat) : Prop where
  check : checkAll P a o = .ok c
  made : PoolMade P a c
  eq : anisoPhase P a o c = .ok (k, p, idx, lines)
  cinv : CInv n k
  pool : PoolRun c n p k.agg true
  aniso : ∀ j cc, k.ccs.find? j = some cc → cc.iso = false
  thresh : k.thresh = (effThresh a).toNat

theorem checkAll_ok {P : Platform} {a : Args W} {o : Outs} {n : Nat} (hm : ValidMesh a n) (hp : ValidParams P a)
    {c : PoolCfg W} (hc : PoolMade P a c) (hl : checkLines a o = .ok ()) : checkAll P a o = .ok c := by
  unfold checkAll
  rw [checkBasic_ok hm hp, ok_bind, hl, ok_bind]
  have : (!decide (a.singThresh ≤ 0)) = true := by have := hp.thresh; simp; omega
  rw [this, checkArg_true, ok_bind, hc.eq]

theorem withoutLines_iff {a : Args W} {o : Outs} : WithoutLines a o ↔ anisoOn a o = false := by
  unfold WithoutLines anisoOn
  cases a.isAniso <;> cases a.buildLines <;> simp
  constructor
  · rintro (h | h) h'
    · omega
    · exact h
  · intro h
    rcases Nat.lt_or_ge o.linesIdx.length 2 with h1 | h1
    · exact Or.inl h1
    · exact Or.inr (h h1)

theorem withLines_iff {a : Args W} {o : Outs} : ¬ WithoutLines a o ↔ anisoOn a o = true := by
  rw [withoutLines_iff]; simp

theorem start_iso {P : Platform} {a : Args W} {o : Outs} {n : Nat} (hm : ValidMesh a n) (hp : ValidParams P a)
    (hoff : WithoutLines a o) : ∃ c k p, Start P a o c n k p o.linesIdx o.lines ∧ k = Cont.new n (effThresh a).toNat := by
  replace hoff := withoutLines_iff.1 hoff
  obtain ⟨c, hc⟩ := poolOf_ok P hp.order
  have hcl : checkLines a o = .ok () := by unfold checkLines; rw [hoff]; rfl
  obtain ⟨p, hpi⟩ := (C06_no_failure (hc.input hm hp) (hc.prioOk hp) PoolRun.start).1
  refine ⟨c, _, p, ⟨checkAll_ok hm hp hc hcl, hc, ?_, CInv_new _ _, .init .start hpi, ?_, rfl⟩, rfl⟩
  · unfold anisoPhase
    rw [hoff, graphOf_nbC hm, hpi]; rfl
  · intro j cc h; simp [Cont.new] at h

/-- state before the isotropic phase of an anisotropic run, with the lines and their groups -/
theorem start_aniso {P : Platform} {a : Args W} {o : Outs} {n : Nat} (hm : ValidMesh a n) (hp : ValidParams P a)
    (hon : anisoOn a o = true) (hcl : checkLines a o = .ok ()) {ls : List (List Nat)} (hls : fineLines P a o = .ok ls)
    (hlen : ∀ l ∈ ls, 2 ≤ l.length) (hno : ∀ l ∈ ls, NoOverrun ⟨a.oddLine, lineLimit a⟩ l.length)
    (hnd : ls.flatten.Nodup) (hlt : ∀ x ∈ ls.flatten, x < n) :
    ∃ c k p cls gss, Start P a o c n k p (exportLines cls).1 (exportLines cls).2 ∧
      AnisoDone (graphOf a) c ⟨a.oddLine, lineLimit a⟩ ls (Cont.new n (effThresh a).toNat) (k, p, cls) gss := by
  obtain ⟨c, hc⟩ := poolOf_ok P hp.order
  have hn := graphOf_nbC hm
  have hcrs : ValidCRS (graphOf a).nbC (graphOf a).rowPtr (graphOf a).colInd := by
    rw [hn]; exact hm.crs
  obtain ⟨⟨k, p, cls⟩, hr, gss, hd⟩ := (agglomLines_ok hcrs (c := c) (by rw [hn]; exact hc.input hm hp) (hc.prioOk hp)
    (by rw [hc.bnd]; rfl) (L := ⟨a.oddLine, lineLimit a⟩) (cont := Cont.new n (effThresh a).toNat)
    (by rw [hn]; exact CInv_new _ _) hlen hno hnd (by
      intro x hx
      have := hlt x hx
      show (List.replicate n false)[x]? = some false
      rw [List.getElem?_replicate, if_pos this])).eq
  have hd1 := hd.made
  have hd2 := hd.pool
  rw [hn] at hd1 hd2
  refine ⟨c, k, p, cls, gss, ⟨checkAll_ok hm hp hc hcl, hc, ?_, hd1.cinv, hd2, ?_, hd1.thresh⟩, hd⟩
  · unfold anisoPhase
    rw [hon, hls, hn, effMaxCells_eq]
    simp only [if_true, ok_bind, hr]; rfl
  · intro j cc h
    have hj : j < k.counter := (hd1.cinv.keys j).1 (NMap.mem_keys.2 ⟨_, h⟩)
    have hcnt : k.counter = 0 + gss.flatten.length := hd1.counter
    have hj' : j < gss.flatten.length := by omega
    have := hd1.new j _ (List.getElem?_eq_getElem hj')
    have h0 : (Cont.new n (effThresh a).toNat).counter = 0 := rfl
    rw [h0, Nat.zero_add] at this
    simp only at this h
    rw [h] at this
    cases this; rfl

/-- state after the isotropic phase, before correction -/
structure Grown (P : Platform) (a : Args W) (o : Outs) (n : Nat) (k0 : Cont) (c : PoolCfg W) (p0 p1 : Pool) (k1 : Cont) :
    Prop where
  eq : isoRun (isoEnvOf P a c) k0 p0 = .ok (k1, p1)
  inv : IInv (isoEnvOf P a c) k0 k1
  all : k1.nbAgg = n

theorem grown_ok {P : Platform} {a : Args W} {o : Outs} {n : Nat} (hm : ValidMesh a n) (hp : ValidParams P a)
    {c : PoolCfg W} {k : Cont} {p : Pool} {idx lines : List Nat} (h : Start P a o c n k p idx lines) :
    ∃ k1 p1, Grown P a o n k c p p1 k1 := by
  have hn : (isoEnvOf P a c).g.nbC = n := graphOf_nbC hm
  obtain ⟨⟨k1, p1⟩, hr, hi, ha⟩ := (isoRun_inv (isoInput hm hp h.made) (c := k) (p := p)
    (by rw [hn]; exact h.cinv) (by rw [hn]; exact h.pool)).eq
  exact ⟨k1, p1, hr, hi, by rw [hn] at ha; exact ha⟩

theorem fill_ok {k : Cont} {n : Nat} (hl : k.fc2cc.length = n)
    (ht : ∀ i : Nat, i < n → ∃ j, k.fc2cc[i]? = some (some j)) :
    ∃ f, fillFcToCc k = .ok f ∧ f.length = n ∧ ∀ (i : Nat) j, f[i]? = some j ↔ k.fc2cc[i]? = some (some j) := by
  unfold fillFcToCc
  have h : ∀ l : List (Option Nat), (∀ x ∈ l, x ≠ none) →
      ∃ f, l.mapM valueM = .ok f ∧ l = f.map some := by
    intro l
    induction l with
    | nil => intro _; exact ⟨[], rfl, rfl⟩
    | cons x r ih =>
      intro hx
      obtain ⟨f, h1, h2⟩ := ih (fun y hy => hx y (by simp [hy]))
      cases x with
      | none => exact absurd rfl (hx none (by simp))
      | some v =>
        refine ⟨v :: f, ?_, by simp [h2]⟩
        rw [List.mapM_cons, h1]; rfl
  obtain ⟨f, h1, h2⟩ := h k.fc2cc (by
    intro x hx hxn
    obtain ⟨i, hi⟩ := List.mem_iff_getElem?.1 hx
    have : i < n := by rw [← hl]; exact (List.getElem?_eq_some_iff.1 hi).1
    obtain ⟨j, hj⟩ := ht i this
    rw [hi, hxn] at hj; cases hj)
  refine ⟨f, h1, by rw [← hl, h2]; simp, ?_⟩
  intro i j
  rw [h2, List.getElem?_map]
  cases f[i]? <;> simp

/-- the whole call, once the phases are known -/
theorem run_eq {P : Platform} {a : Args W} {o : Outs} {n : Nat} {c : PoolCfg W} {k : Cont} {p : Pool} {idx lines : List Nat}
    (h : Start P a o c n k p idx lines) (hasp : a.aspect ≠ .unknown) {k1 : Cont} {p1 : Pool}
    (hg : Grown P a o n k c p p1 k1) {k2 : Cont} (hk2 : correctIf P a k1 = .ok k2) {f : List Nat}
    (hf : fillFcToCc k2 = .ok f) : agglomerateOneLevel P a o = (⟨f, idx, lines⟩, .ok ()) ∧ isoPhase P a c k p = .ok k2 := by
  have this : isoPhase P a c k p = .ok k2 := by
    unfold isoPhase
    rw [decide_eq_true hasp, checkArg_true, ok_bind, hg.eq, ok_bind]
    exact hk2
  refine ⟨?_, this⟩
  unfold agglomerateOneLevel
  rw [h.check]
  simp only
  unfold runPhases
  rw [h.eq]
  simp only
  rw [this]
  simp only
  rw [hf]

/-- connectivity and compactness survive the correction -/
def Sound (g : Graph W) (s : NSet) (k : Nat) : Prop :=
  ConnectedSet g.rowPtr g.colInd (· ∈ s) ∧
    (UniqueRows g.rowPtr g.colInd → NoSelfLoop g.rowPtr g.colInd → IsCompactness g.rowPtr g.colInd s k)

theorem absorbs_sound {g : Graph W} (hv : ValidCRS g.nbC g.rowPtr g.colInd) (hsym : SymmetricCRS g.rowPtr g.colInd) :
    Absorbs g (Sound g) := by
  intro s k x y k' hQ hs hxs hys hadj hmin
  refine ⟨?_, ?_⟩
  · have hsub : ∀ {u v : Nat}, u ∈ s → v ∈ s → ∃ l, Walk (fun a b => Adj g.rowPtr g.colInd a b ∧ a ∈ s.insert x ∧ b ∈ s.insert x) l u v := by
      intro u v hu hv
      obtain ⟨l, hl⟩ := hQ.1 u v hu hv
      exact ⟨l, hl.mono (fun a b ⟨h1, h2, h3⟩ => ⟨h1, NSet.mem_insert.2 (Or.inr h2), NSet.mem_insert.2 (Or.inr h3)⟩)⟩
    have hxi : x ∈ s.insert x := NSet.mem_insert.2 (Or.inl rfl)
    have hyi : y ∈ s.insert x := NSet.mem_insert.2 (Or.inr hys)
    intro u v hu hv
    rcases NSet.mem_insert.1 hu with hu | hu <;> rcases NSet.mem_insert.1 hv with hv | hv
    · rw [hu, hv]; exact ⟨0, .nil _⟩
    · obtain ⟨l, hl⟩ := hsub hys hv
      rw [hu]
      exact ⟨_, (Walk.single (R := fun a b => Adj g.rowPtr g.colInd a b ∧ a ∈ s.insert x ∧ b ∈ s.insert x)
        ⟨hadj, hxi, hyi⟩).trans hl⟩
    · obtain ⟨l, hl⟩ := hsub hu hys
      rw [hv]
      exact ⟨_, hl.step ⟨hsym _ _ hadj, hyi, hxi⟩⟩
    · exact hsub hu hv
  · intro hu _
    refine (minCompactness_ok hv (s := s.insert x) ?_).elim hmin hu
    intro z hz
    rcases NSet.mem_insert.1 hz with hz | hz
    · rw [hz]; exact (hv.adj_lt hadj).1
    · exact hs z hz

/-- an uncorrected run -/
theorem run_plain {P : Platform} {a : Args W} {o : Outs} {n : Nat} (hp : ValidParams P a)
    {c : PoolCfg W} {k : Cont} {p : Pool} {idx lines : List Nat} (h : Start P a o c n k p idx lines) {k1 : Cont} {p1 : Pool}
    (hm : ValidMesh a n) (hg : Grown P a o n k c p p1 k1) (hcor : a.correction = false) :
    ∃ f, agglomerateOneLevel P a o = (⟨f, idx, lines⟩, .ok ()) ∧ f.length = n ∧
      (∀ (i : Nat) j, f[i]? = some j ↔ k1.fc2cc[i]? = some (some j)) ∧ isoPhase P a c k p = .ok k1 := by
  have hci : CInv n k1 := by have := hg.inv.cinv; rwa [show (isoEnvOf P a c).g.nbC = n from graphOf_nbC hm] at this
  obtain ⟨f, hf, hl, hi⟩ := fill_ok hci.lenF (fun i hi => hci.complete hg.all hi)
  have hr := run_eq h hp.aspect hg (k2 := k1) (by unfold correctIf; rw [hcor]; rfl) hf
  exact ⟨f, hr.1, hl, hi, hr.2⟩

/-- a corrected run -/
theorem run_corrected {P : Platform} {a : Args W} {o : Outs} {n : Nat} (hm : ValidMesh a n) (hp : ValidParams P a)
    {c : PoolCfg W} {k : Cont} {p : Pool} {idx lines : List Nat} (h : Start P a o c n k p idx lines) {k1 : Cont} {p1 : Pool}
    (hg : Grown P a o n k c p p1 k1) (hcor : a.correction = true) (hs : a.singThresh = 1 ∨ a.minCard = 2) :
    ∃ f k2 N, agglomerateOneLevel P a o = (⟨f, idx, lines⟩, .ok ()) ∧ f.length = n ∧
      (∀ (i : Nat) j, f[i]? = some j ↔ k2.fc2cc[i]? = some (some j)) ∧
      Corrected (graphOf a) (Sound (graphOf a)) k1 k2 N ∧ isoPhase P a c k p = .ok k2 := by
  have hn := graphOf_nbC hm
  have hcrs : ValidCRS (graphOf a).nbC (graphOf a).rowPtr (graphOf a).colInd := by
    rw [hn]; exact hm.crs
  have ht : k1.thresh = 1 := by
    rw [hg.inv.thresh, h.thresh]
    unfold effThresh
    have := hp.minCard
    have := hp.thresh
    split <;> omega
  have hci : CInv n k1 := by have := hg.inv.cinv; rwa [show (isoEnvOf P a c).g.nbC = n from graphOf_nbC hm] at this
  obtain ⟨k2, hk2, N, hN⟩ := (correct_ok hcrs P.hash (absorbs_sound hcrs hm.sym) hg.inv.cinv ht (by
      intro j cc hf hiso
      by_cases hj : k.counter ≤ j
      · obtain ⟨_, hgood⟩ := hg.inv.iso j cc hj hf
        exact ⟨hgood.conn, hgood.compact⟩
      · rw [hg.inv.old j (by omega)] at hf
        rw [h.aniso j cc hf] at hiso; cases hiso) (by
      intro i hi
      rw [hn] at hi
      exact hci.complete hg.all hi)).eq
  have hN1 := hN.len
  have hN2 := hN.total
  rw [hn] at hN1 hN2
  obtain ⟨f, hf, hl, hi⟩ := fill_ok hN1 hN2
  have hr := run_eq h hp.aspect hg (k2 := k2) (by unfold correctIf; rw [hcor]; exact hk2) hf
  exact ⟨f, k2, N, hr.1, hl, hi, hN, hr.2⟩

end CoMMA
