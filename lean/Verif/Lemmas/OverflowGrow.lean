import Verif.Lemmas.Overflow
/-! # Bounds of the integers of the growth -/

set_option linter.unusedSectionVars false

namespace CoMMA

variable {W F : Type} [Num W]

/-! ## Choice of a cell -/

/-- every result of the first program is a result of the second -/
def Sub {α : Type} (m m' : M α) : Prop := ∀ r, m = .ok r → m' = .ok r

theorem Sub.refl {α : Type} (m : M α) : Sub m m := fun _ h => h

theorem Sub.bind {α β : Type} {m m' : M α} {f f' : α → M β} (h : Sub m m') (hf : ∀ a, Sub (f a) (f' a)) :
    Sub (m >>= f) (m' >>= f') := by
  intro r hr
  obtain ⟨a, ha, hr⟩ := bind_ok_iff.1 hr
  rw [h a ha, ok_bind]
  exact hf a r hr

theorem Sub.foldlM {α β : Type} {f f' : β → α → M β} (hf : ∀ b a, Sub (f b a) (f' b a)) (l : List α) (b : β) :
    Sub (l.foldlM f b) (l.foldlM f' b) := by
  induction l generalizing b with
  | nil => exact Sub.refl _
  | cons a l ih =>
    rw [List.foldlM_cons, List.foldlM_cons]
    exact (hf b a).bind (fun b' => ih b')

theorem Sub.eq {α : Type} {m m' : M α} (h : Sub m m') {P : α → Prop} (hm : Ok m P) : m = m' := by
  obtain ⟨a, ha, _⟩ := hm.eq
  rw [ha, h a ha]

/-- the same agglomerator with another computer of aspect ratios -/
def withAr (E : IsoEnv W F) (ar : ARComp W F) : IsoEnv W F :=
  { E with
    ar := ar }

theorem best_sub {E : IsoEnv W F} {ar : ARComp W F} (hd : ar.default = E.ar.default)
    (hc : ∀ i f cc, Sub (ar.compute i f cc) (E.ar.compute i f cc)) (k : Nat) (nb : Nbh W) (d : NMap Nat) (feats : F) (cc : NSet) :
    Sub (best (withAr E ar) k nb d feats cc) (best E k nb d feats cc) := by
  have hbic : ∀ cands feats cc, Sub (bicBest (withAr E ar) cands d feats cc) (bicBest E cands d feats cc) := by
    intro cands feats cc
    unfold bicBest
    refine (Sub.refl _).bind (fun a0 => ?_)
    show Sub (List.foldlM (bicStep (withAr E ar) d feats cc) ⟨a0, Num.lmax, 0, 0, 0, ar.default⟩ cands >>= _) _
    rw [hd]
    refine (Sub.foldlM (fun s i => ?_) _ _).bind (fun s => Sub.refl _)
    unfold bicStep
    exact (hc i feats cc).bind (fun r => Sub.refl _)
  have hiter : ∀ k nb feats cc, Sub (iterBest (withAr E ar) d k nb feats cc) (iterBest E d k nb feats cc) := by
    intro k
    induction k with
    | zero =>
      intro nb feats cc
      unfold iterBest
      show Sub (List.foldlM _ (⟨0, Num.lmax, 0, 0, 0, ar.default⟩ : BestSt W F) nb.cands >>= _) _
      rw [hd]
      refine (Sub.foldlM (fun s i => ?_) _ _).bind (fun s => Sub.refl _)
      exact (hc i feats cc).bind (fun r => Sub.refl _)
    | succ k ih =>
      intro nb feats cc
      unfold iterBest
      show Sub (List.foldlM _ (⟨0, Num.lmax, 0, 0, 0, ar.default⟩ : BestSt W F) nb.cands >>= _) _
      rw [hd]
      refine (Sub.foldlM (fun s i => ?_) _ _).bind (fun s => Sub.refl _)
      refine (hc i feats cc).bind (fun r => ?_)
      refine (Sub.refl _).bind (fun row => ?_)
      refine (Sub.refl _).bind (fun nb' => ?_)
      exact (ih nb' r.2.2 (cc.insert i)).bind (fun q => Sub.refl _)
  unfold best
  show Sub (if E.fcIter ≤ 1 then _ else _) _
  split
  · exact hbic _ _ _
  · exact hiter _ _ _ _

theorem arOfC_sub (mx : Int) (g : Graph W) (h : Hash) (kind : ARKind) (i : Nat) (f : Feats W) (cc : NSet) :
    Sub ((arOfC mx g h kind).compute i f cc) ((arOf g h kind).compute i f cc) := by
  intro r hr
  unfold arOfC at hr
  simp only at hr
  obtain ⟨l, _, hr⟩ := bind_ok_iff.1 hr
  obtain ⟨u, _, hr⟩ := bind_ok_iff.1 hr
  exact hr

/-! ## Neighbourhoods -/

theorem nbhLoopC_eq {mx : Int} {g : Graph W} (hv : ValidCRS g.nbC g.rowPtr g.colInd) (hh : Hash) {agg : List Bool}
    (ha : agg.length = g.nbC) {nbOrder maxCard : Nat} (hn : 2 * (g.nbC : Int) + 4 ≤ mx) (ho : (nbOrder : Int) + 1 ≤ mx)
    (fuel : Nat) {s : NbhState} (hs : ∀ x ∈ s.d.keys, x < g.nbC) (hp : ∀ x ∈ s.prev.keys, x < g.nbC)
    (hf : fuel + s.iOrder ≤ g.nbC + 2) :
    nbhLoopC mx g hh agg nbOrder maxCard fuel s = g.nbhLoop hh agg nbOrder maxCard fuel s := by
  induction fuel generalizing s with
  | zero =>
    unfold nbhLoopC Graph.nbhLoop
    have h1 := NMap.size_le_of_keys_lt hs
    have h2 := NMap.size_le_of_keys_lt hp
    rw [fits_ok, ok_bind]
    intro x hx
    simp only [List.mem_cons, List.not_mem_nil, or_false] at hx
    rcases hx with rfl | rfl <;> omega
  | succ fuel ih =>
    unfold nbhLoopC Graph.nbhLoop
    have h1 := NMap.size_le_of_keys_lt hs
    have h2 := NMap.size_le_of_keys_lt hp
    rw [fits_ok, ok_bind]
    swap
    · intro x hx
      simp only [List.mem_cons, List.not_mem_nil, or_false] at hx
      rcases hx with rfl | rfl <;> omega
    split
    · simp only
      refine bind_congr_inv (nbhLayer_spec hv hh ha (d := s.d.merge s.prev) (prev := s.prev) (fun k hk => ⟨hp k hk, ?_⟩) s.iOrder) ?_
      · obtain ⟨v, hv'⟩ := NMap.mem_keys.1 hk
        rw [NMap.mem_keys]
        exact ⟨v, by rw [NMap.find?_merge, hv']⟩
      · intro cur hcur
        split
        · rfl
        · rw [fits_ok, ok_bind]
          · refine ih ?_ ?_ (by simp only; omega)
            · intro x hx
              obtain ⟨v, hv'⟩ := NMap.mem_keys.1 hx
              simp only at hv'
              rw [NMap.find?_merge] at hv'
              cases hd : s.prev.find? x with
              | some w => exact hp x (NMap.mem_keys.2 ⟨w, hd⟩)
              | none =>
                rw [hd] at hv'
                exact hs x (NMap.mem_keys.2 ⟨v, hv'⟩)
            · intro x hx
              obtain ⟨v, hv'⟩ := NMap.mem_keys.1 hx
              obtain ⟨_, _, y, _, hy⟩ := (hcur x v).1 hv'
              exact (hv.adj_lt hy.1).2
          · intro x hx
            simp only [List.mem_cons, List.not_mem_nil, or_false] at hx
            subst hx
            omega
    · rfl

theorem neighbourhoodC_eq {mx : Int} {g : Graph W} (hv : ValidCRS g.nbC g.rowPtr g.colInd) (hh : Hash) {agg : List Bool}
    (ha : agg.length = g.nbC) {seeds : NSet} (hs : ∀ x ∈ seeds, x < g.nbC) {nbOrder maxCard : Nat}
    (hn : 2 * (g.nbC : Int) + 4 ≤ mx) (ho : (nbOrder : Int) + 1 ≤ mx) :
    neighbourhoodC mx g hh seeds nbOrder maxCard agg = g.neighbourhood hh seeds nbOrder maxCard agg := by
  unfold neighbourhoodC Graph.neighbourhood
  rw [nbhLoopC_eq hv hh ha hn ho (g.nbC + 1)]
  · simp [NMap.empty, NMap.keys]
  · simp only
    have key : ∀ (l : List Nat) (m : NMap Nat), (∀ x ∈ l, x < g.nbC) → (∀ x ∈ m.keys, x < g.nbC) →
        ∀ x ∈ (l.foldl (fun m i => m.insert i 0) m).keys, x < g.nbC := by
      intro l
      induction l with
      | nil => intro m _ h; exact h
      | cons a l ih =>
        intro m h1 h2
        rw [List.foldl_cons]
        refine ih _ (fun x hx => h1 x (by simp [hx])) ?_
        intro x hx
        rcases NMap.mem_keys_insert.1 hx with rfl | hx
        · exact h1 x (by simp)
        · exact h2 x hx
    exact key _ _ hs (by simp [NMap.empty, NMap.keys])
  · simp only; omega

theorem minCompactnessC_eq {mx : Int} {g : Graph W} (hv : ValidCRS g.nbC g.rowPtr g.colInd) {s : NSet} (hs : ∀ x ∈ s, x < g.nbC)
    (hr : (g.colInd.length : Int) ≤ mx) : minCompactnessC mx g s = g.minCompactness s := by
  unfold minCompactnessC
  have h1 : Ok (compactnessInts g s) (fun l => ∀ x ∈ l, -mx - 1 ≤ x ∧ x ≤ mx) := by
    unfold compactnessInts
    refine (Ok.mapM (P := fun _ (b : Int) => -mx - 1 ≤ b ∧ b ≤ mx) ?_).mono ?_
    · intro x hx
      have hxn := hs x hx
      have hd := deg_le hv hxn
      rw [neighs_eq hv hxn, ok_bind, Ok_pure]
      have : (rowL g.rowPtr g.colInd x).countP (fun n => s.has n) ≤ deg g x := List.countP_le_length
      omega
    · intro r hr x hx
      obtain ⟨a, _, ha⟩ := Forall₂.mem_right hr hx
      exact ha
  obtain ⟨l, hl, hb⟩ := h1.eq
  rw [hl, ok_bind, fits_ok hb, ok_bind]

/-! ## Growth -/

/-- bounds of the integers of the growth -/
structure GrowB (g : Graph W) (s : GrowSt W F) : Prop where
  ext : -(3 * (degSum g s.tmp : Int) + 4 * s.tmp.card) ≤ s.ext ∧ s.ext ≤ 3 * (degSum g s.tmp : Int) + 4 * s.tmp.card
  compact : ∀ x v, s.compact.find? x = some v → v ≤ degSum g s.tmp

theorem compactInts_bound {tmp : NSet} {row : List Nat} {compact : NMap Nat} {B : Nat}
    (h : ∀ x v, compact.find? x = some v → v ≤ B) :
    (∀ x ∈ compactInts tmp row compact, 0 ≤ x ∧ x ≤ (B : Int) + row.length + 1) ∧
    ∀ next x v, (growCompact tmp next row compact).find? x = some v → v ≤ B + row.length := by
  have key : ∀ (l : List Nat) (k : Nat) (m : NMap Nat) (c : List Int) (b : Nat), k ≤ b → (∀ x v, m.find? x = some v → v ≤ b) →
      (∀ x ∈ c, 0 ≤ x ∧ x ≤ (b : Int) + 1) →
      let r := l.foldl (fun (a : Nat × NMap Nat × List Int) n =>
        if tmp.has n then
          (a.1 + 1, a.2.1.insert n ((a.2.1.find? n).getD 0 + 1),
            a.2.2 ++ [(a.1 : Int) + 1, ((a.2.1.find? n).getD 0 : Int) + 1])
        else a) (k, m, c)
      let q := l.foldl (fun (a : Nat × NMap Nat) n =>
        if tmp.has n then (a.1 + 1, a.2.insert n ((a.2.find? n).getD 0 + 1)) else (a.1, a.2)) (k, m)
      (∀ x ∈ r.2.2, 0 ≤ x ∧ x ≤ (b : Int) + l.length + 1) ∧ q.1 ≤ b + l.length ∧
        ∀ x v, q.2.find? x = some v → v ≤ b + l.length := by
    intro l
    induction l with
    | nil => intro k m c b h1 h2 h3; exact ⟨by simpa using h3, h1, h2⟩
    | cons n l ih =>
      intro k m c b h1 h2 h3
      simp only [List.foldl_cons, List.length_cons]
      by_cases hn : tmp.has n = true
      · simp only [hn, if_true]
        have hg : (m.find? n).getD 0 ≤ b := by
          cases hm : m.find? n with
          | none => simp
          | some v => simpa using h2 n v hm
        have := ih (k + 1) (m.insert n ((m.find? n).getD 0 + 1)) (c ++ [(k : Int) + 1, ((m.find? n).getD 0 : Int) + 1]) (b + 1)
          (by omega) (by
            intro x v hx
            rw [NMap.find?_insert] at hx
            split at hx
            · cases hx; omega
            · have := h2 x v hx; omega) (by
            intro x hx
            simp only [List.mem_append, List.mem_cons, List.not_mem_nil, or_false] at hx
            rcases hx with hx | rfl | rfl
            · have := h3 x hx; omega
            · omega
            · omega)
        refine ⟨fun x hx => ?_, ?_, fun x v hx => ?_⟩
        · have := this.1 x hx; omega
        · have := this.2.1; omega
        · have := this.2.2 x v hx; omega
      · simp only [Bool.not_eq_true] at hn
        simp only [hn, Bool.false_eq_true, if_false]
        have := ih k m c b h1 h2 h3
        refine ⟨fun x hx => ?_, ?_, fun x v hx => ?_⟩
        · have := this.1 x hx; omega
        · have := this.2.1; omega
        · have := this.2.2 x v hx; omega
  obtain ⟨h1, h2, h3⟩ := key row 0 compact [] B (Nat.zero_le _) h (by simp)
  refine ⟨h1, ?_⟩
  intro next x v hx
  unfold growCompact at hx
  simp only at hx
  rw [NMap.find?_insert] at hx
  split at hx
  · cases hx; exact h2
  · exact h3 x v hx

theorem growStore_same (E : IsoEnv W F) (maxInd k : Nat) (s : GrowSt W F) :
    (growStore E maxInd k s).ext = s.ext ∧ (growStore E maxInd k s).compact = s.compact ∧ (growStore E maxInd k s).tmp = s.tmp := by
  unfold growStore
  split <;> exact ⟨rfl, rfl, rfl⟩

section
variable {E : IsoEnv W F} (hE : IsoInput E) {ar : ARComp W F} {Inv : NSet → F → Prop} (hs : ARSafe E.g ar Inv) {mx : Int}
  (hR : Room E.g mx) (hdef : ar.default = E.ar.default) (hsub : ∀ i f cc, Sub (ar.compute i f cc) (E.ar.compute i f cc))
  (hinit : ∀ i, Sub (ar.init i) (E.ar.init i))
include hE hs hR hdef hsub

theorem withAr_input : IsoInput (withAr E ar) :=
  ⟨hE.crs, hE.sym, hE.uniq, hE.dim, hE.bnd, hE.pool, hE.prio, hE.minCard, hE.goalCard, hE.maxCard, ⟨Inv, hs⟩⟩

theorem growStepC_eq {agg : List Bool} {seed order : Nat} {d0 : NMap Nat} (hc : GCtx (withAr E ar) agg seed order d0) {maxInd : Nat}
    (hmi : maxInd ≤ E.g.nbC + 1) (hmd : maxInd ≤ d0.size + 1) {pre : List Nat} {s : GrowSt W F}
    (h : GInv (withAr E ar) Inv seed d0 pre s) (hb : GrowB E.g s) (hlt : s.size < maxInd) :
    growStepC mx (withAr E ar) maxInd s = growStep E maxInd s ∧
      ∀ r, growStep (withAr E ar) maxInd s = .ok r → growStep E maxInd s = .ok r ∧ GrowB E.g r := by
  have hE' := withAr_input hE hs hR hdef hsub
  have hroom := hR.room
  have hd1 : 1 ≤ E.g.dim := by rcases hE.dim with h | h <;> omega
  have htmp : ∀ x ∈ s.tmp, x < E.g.nbC := by
    intro x hx
    rcases h.st.sub x hx with rfl | hx
    · exact hc.seed_lt
    · exact (hc.key hE'.crs hx).1
  have hnext : s.next < E.g.nbC := htmp _ ((h.mem _).2 (by simp))
  obtain ⟨nb, hnbe, hnb⟩ := (h.nbh.update hE.crs hE.pool.prio hE.uniq hd1 hnext).eq
  replace hnbe : s.nb.update E.pool.prio s.next (rowL E.g.rowPtr E.g.colInd s.next) = .ok nb := hnbe
  have hok : NbhOk (withAr E ar) d0.keySet s.d (pre ++ [s.next]) s.tmp nb := by
    refine ⟨hnb, h.mem, htmp, ?_⟩
    intro x hx hxa
    obtain ⟨o, ho⟩ := NMap.mem_keys.1 (NMap.mem_keySet.1 hx)
    exact ⟨o, by rw [h.d, if_neg (fun hh => hxa ((h.mem x).1 hh)), ho]⟩
  have hne : nb.cands ≠ [] := hnb.ne (exists_front hc h.st (by omega) h.mem)
  have hbest := best_ok hE' hs (min (maxInd - s.size) E.fcIter) hok h.feats hne
  obtain ⟨⟨next, faces, feats⟩, hre, hr1, hr2, hr3⟩ := hbest.eq
  have hre' := best_sub hdef hsub _ _ _ _ _ _ hre
  simp only at hr1 hr2 hr3
  obtain ⟨hf1, hf2, y, hy, hya⟩ := hnb.sub _ hr1
  have hcand := hok.cand hE'.crs hE'.sym ⟨hf1, hf2, y, hy, hya⟩
  have hcl : next < E.g.nbC := hcand.lt
  have hnin : next ∉ s.tmp := hcand.nin
  obtain ⟨nn, hnn, hnnd⟩ := nbNeighs_ok hE.crs hcl
  have hbl : next < E.g.nBnd.length := by rw [hE.bnd]; exact hcl
  have hb3 := hR.bnd _ (List.getElem_mem hbl)
  have hnd : nn = deg E.g next := hnnd
  have hfl : faces ≤ deg E.g next := by
    rw [hr2, show rowOf (withAr E ar).g.rowPtr (withAr E ar).g.colInd next = rowOf E.g.rowPtr E.g.colInd next from rfl,
      rowOf_eq hE.crs hcl]
    exact nbShared_le
  have htmp' : ∀ x ∈ s.tmp.insert next, x < E.g.nbC := by
    intro x hx
    rcases NSet.mem_insert.1 hx with rfl | hx
    · exact hcl
    · exact htmp x hx
  have hsum := degSum_le hE.crs htmp'
  have hcardn := card_le_n htmp'
  have hds := degSum_insert (g := E.g) hnin
  have hci := NSet.card_insert hnin
  have hext := hb.ext
  have hsz : s.size = s.tmp.card := h.st.card.symm
  obtain ⟨hk1, hk2⟩ := compactInts_bound (tmp := s.tmp.insert next) (row := rowL E.g.rowPtr E.g.colInd next) hb.compact
  have hlen : (rowL E.g.rowPtr E.g.colInd next).length = deg E.g next := rfl
  have hfit1 : fits mx (growInts maxInd s.size nn (E.g.nBnd[next]) faces s.ext) = .ok () := by
    apply fits_ok
    intro x hx
    simp only [growInts, List.mem_cons, List.not_mem_nil, or_false] at hx
    rcases hx with rfl | rfl | rfl | rfl | rfl | rfl | rfl | rfl <;> omega
  have hfit2 : fits mx (compactInts (s.tmp.insert next) (rowL E.g.rowPtr E.g.colInd next) s.compact) = .ok () := by
    apply fits_ok
    intro x hx
    have := hk1 x hx
    omega
  have hE1 : growStep E maxInd s = growStep (withAr E ar) maxInd s := by
    unfold growStep
    rw [show (withAr E ar).g = E.g from rfl, show (withAr E ar).pool = E.pool from rfl,
      show (withAr E ar).fcIter = E.fcIter from rfl, neighs_eq hE.crs hnext, ok_bind, ok_bind]
    rw [hnbe, ok_bind, ok_bind, hre', ok_bind, hre, ok_bind]
    rfl
  constructor
  · rw [hE1]
    unfold growStepC growStep
    rw [show (withAr E ar).g = E.g from rfl, show (withAr E ar).pool = E.pool from rfl,
      show (withAr E ar).fcIter = E.fcIter from rfl, neighs_eq hE.crs hnext, ok_bind, ok_bind]
    rw [hnbe, ok_bind, ok_bind, hre, ok_bind, ok_bind]
    simp only
    rw [hnn, ok_bind, ok_bind, rd_of_lt hbl, ok_bind, ok_bind, neighs_eq hE.crs hcl, ok_bind, ok_bind, hfit1, ok_bind, hfit2, ok_bind]
  · intro r hr
    refine ⟨by rw [hE1]; exact hr, ?_⟩
    unfold growStep at hr
    rw [show (withAr E ar).g = E.g from rfl, show (withAr E ar).pool = E.pool from rfl,
      show (withAr E ar).fcIter = E.fcIter from rfl, neighs_eq hE.crs hnext, ok_bind] at hr
    rw [hnbe, ok_bind, hre, ok_bind] at hr
    simp only at hr
    rw [hnn, ok_bind, rd_of_lt hbl, ok_bind, neighs_eq hE.crs hcl, ok_bind] at hr
    cases hr
    obtain ⟨g1, g2, g3⟩ := growStore_same (withAr E ar) maxInd
      (minValue (growCompact (s.tmp.insert next) next (rowL E.g.rowPtr E.g.colInd next) s.compact))
      { s with
        nb := nb, size := s.size + 1, tmp := s.tmp.insert next
        compact := growCompact (s.tmp.insert next) next (rowL E.g.rowPtr E.g.colInd next) s.compact
        next := next
        ext := s.ext + ((nn : Int) + E.g.nBnd[next] - 1 - 2 * faces) }
    refine ⟨?_, ?_⟩
    · simp only
      rw [g1, g3]
      simp only
      omega
    · simp only
      rw [g2, g3]
      simp only
      intro x v hx
      have := hk2 next x v hx
      omega

theorem growLoopC_eq {agg : List Bool} {seed order : Nat} {d0 : NMap Nat} (hc : GCtx (withAr E ar) agg seed order d0) {maxInd : Nat}
    (hmin : E.minCard ≤ maxInd) (hmi : maxInd ≤ E.g.nbC + 1) (hmd : maxInd ≤ d0.size + 1) (fuel : Nat) {pre : List Nat} {s : GrowSt W F}
    (h : GInv (withAr E ar) Inv seed d0 pre s) (hb : GrowB E.g s) (hle : s.size ≤ maxInd) (hf : maxInd ≤ fuel + s.size) :
    growLoopC mx (withAr E ar) maxInd fuel s = growLoop E maxInd fuel s ∧ growLoop (withAr E ar) maxInd fuel s = growLoop E maxInd fuel s := by
  have hE' := withAr_input hE hs hR hdef hsub
  induction fuel generalizing pre s with
  | zero =>
    unfold growLoopC growLoop
    rw [if_neg (by omega)]
    exact ⟨rfl, rfl⟩
  | succ fuel ih =>
    unfold growLoopC growLoop
    split
    · rename_i hlt
      obtain ⟨h1, h2⟩ := growStepC_eq hE hs hR hdef hsub hc hmi hmd h hb hlt
      obtain ⟨r, hr, hr1, hr2⟩ := (growStep_inv hE' hs hc hmin hmd h hlt).eq
      obtain ⟨h3, h4⟩ := h2 r hr
      rw [h1, h3, hr]
      simp only [ok_bind]
      exact ih hr1 h4 (by omega) (by omega)
    · exact ⟨rfl, rfl⟩

include hinit

theorem growC_eq {agg : List Bool} {seed order : Nat} {d0 : NMap Nat} (hc : GCtx E agg seed order d0) (hg : E.goalCard ≤ d0.size + 1)
    (p : Pool) : growC mx (withAr E ar) agg p seed d0 = grow E agg p seed d0 := by
  have hE' := withAr_input hE hs hR hdef hsub
  have hc' : GCtx (withAr E ar) agg seed order d0 := ⟨hc.len, hc.free, hc.d⟩
  have hroom := hR.room
  have hmin := hE.minCard
  have hgc := hE.goalCard
  have hmc := hE.maxCard
  have hsl := hc.seed_lt
  have hdn : d0.size ≤ E.g.nbC := NMap.size_le_of_keys_lt (fun x hx => (hc.key hE.crs hx).1)
  obtain ⟨s0, he0, h0, h01⟩ := (growInit_inv hE' hs hc').eq
  obtain ⟨nn, hnn, hnnd⟩ := nbNeighs_ok hE.crs hsl
  have hbl : seed < E.g.nBnd.length := by rw [hE.bnd]; exact hsl
  have hb3 := hR.bnd _ (List.getElem_mem hbl)
  have hdl := deg_le hE.crs hsl
  have hnd : nn = deg E.g seed := hnnd
  have hinitE : growInit E seed d0 = .ok s0 ∧ GrowB E.g s0 := by
    unfold growInit at he0 ⊢
    obtain ⟨f, hf, he0⟩ := bind_ok_iff.1 he0
    rw [hinit seed f hf, ok_bind]
    rw [show (withAr E ar).g = E.g from rfl, hnn, ok_bind, rd_of_lt hbl, ok_bind] at he0
    rw [hnn, ok_bind, rd_of_lt hbl, ok_bind]
    cases he0
    refine ⟨rfl, ?_, ?_⟩
    · simp only [degSum_single, NSet.card_single]
      omega
    · intro x v hx
      simp only [NMap.find?_insert, NMap.find?_empty] at hx
      split at hx
      · cases hx; omega
      · cases hx
  have hinitC : growInitC mx (withAr E ar) seed d0 = .ok s0 := by
    unfold growInitC
    rw [show (withAr E ar).g = E.g from rfl, hnn, ok_bind, rd_of_lt hbl, ok_bind, fits_ok, ok_bind, he0]
    intro x hx
    simp only [List.mem_cons, List.not_mem_nil, or_false] at hx
    rcases hx with rfl | rfl | rfl <;> omega
  unfold growC grow
  simp only
  rw [show (withAr E ar).maxCard = E.maxCard from rfl]
  rw [fits_ok (by
    intro x hx
    simp only [List.mem_cons, List.not_mem_nil, or_false] at hx
    subst hx
    omega), ok_bind, hinitC, hinitE.1, ok_bind, ok_bind]
  obtain ⟨hl1, hl2⟩ := growLoopC_eq hE hs hR hdef hsub hc' (maxInd := min E.maxCard (d0.size + 1)) (by omega) (by omega) (by omega)
    (min E.maxCard (d0.size + 1)) h0 hinitE.2 (by omega) (by omega)
  rw [hl1]
  have hL := growLoop_inv hE' hs hc' (maxInd := min E.maxCard (d0.size + 1)) (show E.minCard ≤ _ by omega) (by omega)
    (min E.maxCard (d0.size + 1)) h0 (by omega) (by omega)
  rw [hl2] at hL
  refine bind_congr_inv hL ?_
  rintro s ⟨pre, h, hsz⟩
  have hb := h.big (show E.minCard ≤ s.size by omega)
  obtain ⟨t, m, hf, hsto⟩ := h.dict s.arg hb.1 hb.2
  have hcc : ((s.dict.find? s.arg).getD (NSet.empty, NMap.empty)).1 = t := by rw [hf]; rfl
  have htn : t.card ≤ E.g.nbC := card_le_n (fun x hx => by
    rcases hsto.sub x hx with rfl | hx
    · exact hsl
    · exact (hc.key hE.crs hx).1)
  rw [hcc, fits_ok, ok_bind]
  · rfl
  · intro x hx
    simp only [List.mem_cons, List.not_mem_nil, or_false] at hx
    rcases hx with rfl | rfl | rfl <;> omega

theorem chooseOptimalC_eq (hmax : (E.maxCard : Int) ≤ mx) {agg : List Bool} (ha : agg.length = E.g.nbC) {seed : Nat}
    (hseed : agg[seed]? = some false) (p : Pool) : chooseOptimalC mx (withAr E ar) agg p seed = chooseOptimal E agg p seed := by
  have hroom := hR.room
  have hmin := hE.minCard
  have hgc := hE.goalCard
  have hmc := hE.maxCard
  have hsl : seed < E.g.nbC := by
    have := (List.getElem?_eq_some_iff.1 hseed).1; omega
  have hsing : ∀ x ∈ NSet.single seed, x < E.g.nbC := fun x hx => by
    have : x = seed := by simpa using hx
    omega
  have hord : (maxOrder E : Int) + 1 ≤ mx := by
    unfold maxOrder
    have h2 : E.maxCard / E.g.dim + 1 ≤ E.maxCard := by
      have : E.maxCard / E.g.dim ≤ E.maxCard / 2 := Nat.div_le_div_left (by rcases hE.dim with h | h <;> omega) (by omega)
      omega
    have h3 : (if E.g.dim = 2 then 2 else 3) ≤ 3 := by split <;> omega
    generalize (if E.g.dim = 2 then 2 else 3) = q at *
    omega
  unfold chooseOptimalC chooseOptimal
  refine bind_congr_ok (fun _ _ => ?_)
  rw [show maxOrder (withAr E ar) = maxOrder E from rfl, show (withAr E ar).g = E.g from rfl, show (withAr E ar).h = E.h from rfl,
    show (withAr E ar).maxCard = E.maxCard from rfl, show (withAr E ar).goalCard = E.goalCard from rfl,
    neighbourhoodC_eq hE.crs E.h ha hsing (by omega) hord]
  refine bind_congr_inv (neighbourhood_spec hE.crs E.h ha hsing (by simp) _ (by omega)) ?_
  rintro ⟨order, d⟩ ⟨h1, h2, _⟩
  simp only at h1 h2 ⊢
  have hc : GCtx E agg seed order d := ⟨ha, hseed, h1⟩
  have hdn : d.size ≤ E.g.nbC := NMap.size_le_of_keys_lt (fun x hx => (hc.key hE.crs hx).1)
  rw [fits_ok (by
    intro x hx
    simp only [List.mem_cons, List.not_mem_nil, or_false] at hx
    subst hx
    omega), ok_bind]
  split
  · rfl
  · split
    · rw [minCompactnessC_eq hE.crs _ (by omega)]
      intro x hx
      simp only [NSet.mem_insertMany, NSet.mem_single] at hx
      rcases hx with hx | rfl
      · exact (hc.key hE.crs hx).1
      · exact hsl
    · exact growC_eq hE hs hR hdef hsub hinit hc (by omega) p

theorem isoStepC_eq (hmax : (E.maxCard : Int) ≤ mx) {c0 c : Cont} (h : IInv E c0 c) {p : Pool}
    (hp : PoolRun E.pool E.g.nbC p c.agg true) : isoStepC mx (withAr E ar) c p = isoStep E c p := by
  have hroom := hR.room
  obtain ⟨o, p', hch, hnone, hsome⟩ := C06_choose_new_seed hE.pool hE.prio hp
  unfold isoStepC isoStep
  rw [show (withAr E ar).pool = E.pool from rfl, hch, ok_bind, ok_bind]
  refine bind_congr_ok (fun _ _ => ?_)
  refine bind_congr_ok (fun seed hseed => ?_)
  have hso : o = some seed := by
    cases o with
    | none => cases hseed
    | some x => cases hseed; rfl
  have hfree := hsome seed hso
  rw [chooseOptimalC_eq hE hs hR hdef hsub hinit hmax h.cinv.lenA hfree]
  refine bind_congr_inv (chooseOptimal_ok hE h.cinv.lenA hfree (poolStable hE c.agg) (hp.choose hch)) ?_
  rintro ⟨s, k, p2⟩ ⟨hprop, hp2⟩
  simp only at hprop ⊢
  have hsn : s.card ≤ E.g.nbC := card_le_n (fun x hx => by
    have := (List.getElem?_eq_some_iff.1 (hprop.free x hx)).1
    rw [h.cinv.lenA] at this
    exact this)
  rw [fits_ok, ok_bind]
  intro x hx
  simp only [List.mem_cons, List.not_mem_nil, or_false] at hx
  subst hx
  omega

theorem isoRunC_eq (hmax : (E.maxCard : Int) ≤ mx) {c : Cont} (h : CInv E.g.nbC c) {p : Pool}
    (hp : PoolRun E.pool E.g.nbC p c.agg true) : isoRunC mx (withAr E ar) c p = isoRun E c p := by
  have key : ∀ (fuel : Nat) (c' : Cont) (p : Pool), IInv E c c' → PoolRun E.pool E.g.nbC p c'.agg true →
      isoLoopC mx (withAr E ar) fuel c' p = isoLoop E fuel c' p := by
    intro fuel
    induction fuel with
    | zero => intro c' p _ _; unfold isoLoopC isoLoop; rfl
    | succ fuel ih =>
      intro c' p h1 h2
      unfold isoLoopC isoLoop
      rw [show (withAr E ar).g = E.g from rfl]
      split
      · rename_i hlt
        rw [isoStepC_eq hE hs hR hdef hsub hinit hmax h1 h2]
        refine bind_congr_inv (isoStep_inv hE h1 h2 hlt) ?_
        rintro r ⟨g1, g2, _⟩
        exact ih r.1 r.2 g1 g2
      · rfl
  unfold isoRunC isoRun
  rw [show (withAr E ar).g = E.g from rfl, key _ _ _ (IInv_refl h) hp]

end

end CoMMA
