import Verif.Spec.Growth
import Verif.Lemmas.Growth
/-! # The growth is greedy -/

set_option linter.unusedSectionVars false

namespace CoMMA

variable {W F : Type} [Num W]

/-- (with the neighbourhood kept by the algorithm) Merit of cell `c` when `k` further cells are looked at: that of `c`, improved by the best
cell to be added after it.  `nb` is the neighbourhood of the coarse cell. -/
def NbLook (E : IsoEnv W F) (d : NMap Nat) : Nat → Nbh W → F → NSet → Nat → Merit W → F → Prop
  | 0, _, f, cc, c, m, f' => HasMerit E d f cc c m f'
  | k + 1, nb, f, cc, c, m, f' => ∃ m0 nb', HasMerit E d f cc c m0 f' ∧
      nb.update E.pool.prio c (rowOf E.g.rowPtr E.g.colInd c) = .ok nb' ∧
      ((nb'.cands = [] ∧ m = m0) ∨
        ∃ c2 m2 f2, FirstBest (NbLook E d k nb' f' (cc.insert c)) nb'.cands c2 m2 f2 ∧
          m = m0.ahead (nbShared (rowOf E.g.rowPtr E.g.colInd c2) (cc.insert c)))

theorem Merit.AsGood.rfl' (hW : LawfulLt W) (a : Merit W) : a.AsGood a :=
  Or.inr ⟨rfl, Or.inr ⟨rfl, hW.irrefl _⟩⟩

theorem LawfulLt.not_lt_trans (hW : LawfulLt W) {a b c : W} (h1 : Num.lt b a = false) (h2 : Num.lt c b = false) :
    Num.lt c a = false := by
  cases h : Num.lt c a with
  | false => rfl
  | true =>
    exfalso
    cases h3 : Num.lt a b with
    | true => rw [hW.trans _ _ _ h h3] at h2; cases h2
    | false =>
      have := hW.total _ _ h3 h1
      subst this
      rw [h] at h2; cases h2

theorem Merit.AsGood.trans (hW : LawfulLt W) {a b c : Merit W} (h1 : a.AsGood b) (h2 : b.AsGood c) : a.AsGood c := by
  unfold Merit.AsGood at *
  rcases h1 with h1 | ⟨h1, h1' | ⟨h1', h1''⟩⟩
  · rcases h2 with h2 | ⟨h2, _⟩ <;> (left; omega)
  · rcases h2 with h2 | ⟨h2, h2' | ⟨h2', _⟩⟩
    · left; omega
    · right; exact ⟨by omega, Or.inl (by omega)⟩
    · right; exact ⟨by omega, Or.inl (by omega)⟩
  · rcases h2 with h2 | ⟨h2, h2' | ⟨h2', h2''⟩⟩
    · left; omega
    · right; exact ⟨by omega, Or.inl (by omega)⟩
    · right; exact ⟨by omega, Or.inr ⟨by omega, hW.not_lt_trans h1'' h2''⟩⟩

/-- the first best of a list with given merits -/
structure FB (μ : Nat → Merit W × F) (cands : List Nat) (c : Nat) : Prop where
  good : ∀ x ∈ cands, (μ c).1.AsGood (μ x).1
  split : ∃ pre post, cands = pre ++ c :: post ∧ ∀ x ∈ pre, ¬ (μ x).1.AsGood (μ c).1

theorem FB.keep {μ : Nat → Merit W × F} {pre : List Nat} {b c : Nat} (h : FB μ pre b)
    (hbc : (μ b).1.AsGood (μ c).1) : FB μ (pre ++ [c]) b := by
  refine ⟨?_, ?_⟩
  · intro x hx
    rcases List.mem_append.1 hx with hx | hx
    · exact h.good x hx
    · rw [List.mem_singleton] at hx; rw [hx]; exact hbc
  · obtain ⟨l, r, h1, h2⟩ := h.split
    exact ⟨l, r ++ [c], by rw [h1]; simp, h2⟩

theorem FB.take (hW : LawfulLt W) {μ : Nat → Merit W × F} {pre : List Nat} {b c : Nat} (h : FB μ pre b)
    (hcb : (μ c).1.AsGood (μ b).1) (hbc : ¬ (μ b).1.AsGood (μ c).1) : FB μ (pre ++ [c]) c := by
  refine ⟨?_, pre, [], rfl, ?_⟩
  · intro x hx
    rcases List.mem_append.1 hx with hx | hx
    · exact hcb.trans hW (h.good x hx)
    · rw [List.mem_singleton] at hx; rw [hx]; exact Merit.AsGood.rfl' hW _
  · intro x hx hxc
    exact hbc ((h.good x hx).trans hW hxc)

/-- the fold over the candidates -/
theorem fold_best (hW : LawfulLt W) {d : NMap Nat} {μ : Nat → Merit W × F} {out : Nat → Nat}
    {step : BestSt W F → Nat → M (BestSt W F)} {cands : List Nat}
    (hstep : ∀ c ∈ cands, ∀ s, step s c = bestStep d s c (μ c).1.faces (out c) (μ c).1.ar (μ c).2)
    (hord : ∀ c ∈ cands, d.find? c = some (μ c).1.order) (hpos : ∀ c ∈ cands, 1 ≤ (μ c).1.faces)
    {s0 : BestSt W F} (h0 : s0.ref = 0) (hne : cands ≠ []) :
    Ok (cands.foldlM step s0) (fun s => s.feats = (μ s.arg).2 ∧ s.out = out s.arg ∧ FB μ cands s.arg) := by
  refine Ok.mono (Ok.foldlM_prefix (I := fun pre (s : BestSt W F) => (pre = [] → s.ref = 0) ∧
    (pre ≠ [] → s.arg ∈ pre ∧ s.argF = s.arg ∧ s.ref = (μ s.arg).1.faces ∧ s.minAr = (μ s.arg).1.ar ∧
      s.feats = (μ s.arg).2 ∧ s.out = out s.arg ∧ FB μ pre s.arg)) ⟨fun _ => h0, fun h => absurd rfl h⟩ ?_)
    (fun s hs => ⟨(hs.2 hne).2.2.2.2.1, (hs.2 hne).2.2.2.2.2.1, (hs.2 hne).2.2.2.2.2.2⟩)
  intro pre c post s hl ⟨hI0, hI⟩
  have hc : c ∈ cands := by rw [hl]; simp
  rw [hstep c hc]
  have hp := hpos c hc
  have htake : FB μ (pre ++ [c]) c → Ok (pure (s.take c (μ c).1.faces (out c) (μ c).1.ar (μ c).2) : M (BestSt W F))
      (fun s => (pre ++ [c] = [] → s.ref = 0) ∧ (pre ++ [c] ≠ [] → s.arg ∈ pre ++ [c] ∧ s.argF = s.arg ∧
        s.ref = (μ s.arg).1.faces ∧ s.minAr = (μ s.arg).1.ar ∧
        s.feats = (μ s.arg).2 ∧ s.out = out s.arg ∧ FB μ (pre ++ [c]) s.arg)) := by
    intro h
    rw [Ok_pure]
    exact ⟨by simp, fun _ => ⟨by simp [BestSt.take], rfl, rfl, rfl, rfl, rfl, h⟩⟩
  unfold bestStep
  rw [NMap.at_eq.2 (hord c hc), ok_bind]
  by_cases hpre : pre = []
  · have := hI0 hpre
    rw [if_pos (by omega), if_neg (by omega)]
    refine htake ?_
    subst hpre
    refine ⟨?_, [], [], rfl, by simp⟩
    intro x hx
    simp only [List.nil_append, List.mem_singleton] at hx
    rw [hx]; exact Merit.AsGood.rfl' hW _
  · obtain ⟨h1, h2, h3, h4, h5, h6, h7⟩ := hI hpre
    have hb : s.arg ∈ cands := by rw [hl]; simp [h1]
    have hkeep : (μ s.arg).1.AsGood (μ c).1 → Ok (pure s : M (BestSt W F))
        (fun s => (pre ++ [c] = [] → s.ref = 0) ∧ (pre ++ [c] ≠ [] → s.arg ∈ pre ++ [c] ∧ s.argF = s.arg ∧
          s.ref = (μ s.arg).1.faces ∧ s.minAr = (μ s.arg).1.ar ∧
          s.feats = (μ s.arg).2 ∧ s.out = out s.arg ∧ FB μ (pre ++ [c]) s.arg)) := by
      intro h
      rw [Ok_pure]
      exact ⟨by simp, fun _ => ⟨by simp [h1], h2, h3, h4, h5, h6, h7.keep h⟩⟩
    by_cases c1 : s.ref ≤ (μ c).1.faces
    · rw [if_pos c1]
      by_cases c2 : (μ c).1.faces = s.ref
      · rw [if_pos c2, h2, NMap.at_eq.2 (hord _ hb), ok_bind]
        by_cases c3 : (μ c).1.order ≤ (μ s.arg).1.order
        · rw [if_pos c3]
          by_cases c4 : (μ c).1.order = (μ s.arg).1.order
          · rw [if_pos c4]
            by_cases c5 : Num.lt (μ c).1.ar s.minAr = true
            · rw [if_pos (by simp [c5]; omega)]
              refine htake (h7.take hW ?_ ?_)
              · refine Or.inr ⟨by omega, Or.inr ⟨c4, ?_⟩⟩
                rw [← h4]
                exact hW.asymm c5
              · rintro (h | ⟨_, h | ⟨_, h⟩⟩)
                · omega
                · omega
                · rw [← h4, c5] at h; cases h
            · rw [if_neg (by simp [c5])]
              refine hkeep (Or.inr ⟨by omega, Or.inr ⟨c4.symm, ?_⟩⟩)
              rw [← h4]; simpa using c5
          · rw [if_neg c4]
            refine htake (h7.take hW (Or.inr ⟨by omega, Or.inl (by omega)⟩) ?_)
            rintro (h | ⟨_, h | ⟨h, _⟩⟩) <;> omega
        · rw [if_neg c3]
          exact hkeep (Or.inr ⟨by omega, Or.inl (by omega)⟩)
      · rw [if_neg c2]
        refine htake (h7.take hW (Or.inl (by omega)) ?_)
        rintro (h | ⟨h, _⟩) <;> omega
    · rw [if_neg c1]
      exact hkeep (Or.inl (by omega))

theorem FB.first {R : Nat → Merit W → F → Prop} {μ : Nat → Merit W × F} {cands : List Nat} {c : Nat}
    (h : FB μ cands c) (hR : ∀ x ∈ cands, R x (μ x).1 (μ x).2) : FirstBest R cands c (μ c).1 (μ c).2 :=
  ⟨μ, hR, rfl, h.good, h.split⟩

/-- `Agglomerator_Biconnected`: candidates and their merits -/
theorem bicBest_first {E : IsoEnv W F} (hW : LawfulLt W) {Inv : NSet → F → Prop} (hs : ARSafe E.g E.ar Inv) {cc : NSet}
    {feats : F} (hcc : ∀ x ∈ cc, x < E.g.nbC) (hf : Inv cc feats) {d : NMap Nat} {cands : List Nat} (hne : cands ≠ [])
    (hc : ∀ c ∈ cands, Cand E.g d cc c) :
    Ok (bicBest E cands d feats cc) (fun r => ∃ m, FirstBest (HasMerit E d feats cc) cands r.1 m r.2.2 ∧
      r.2.1 = m.faces) := by
  have hex : ∀ c, ∃ p : Merit W × F, c ∈ cands → HasMerit E d feats cc c p.1 p.2 ∧
      E.ar.compute c feats cc = .ok (p.1.faces, p.1.ar, p.2) := by
    intro c
    by_cases hcm : c ∈ cands
    · obtain ⟨⟨n, ar, f⟩, h1, h2, h3⟩ := (hs.compute cc feats c hf hcc (hc c hcm).lt (hc c hcm).nin).eq
      obtain ⟨o, ho⟩ := (hc c hcm).ord
      exact ⟨(⟨n, o, ar⟩, f), fun _ => ⟨⟨h2, ho, n, h1⟩, h1⟩⟩
    · exact ⟨(⟨0, 0, Num.ofNat 0⟩, feats), fun h => absurd h hcm⟩
  choose μ hμ using hex
  unfold bicBest
  have h0 : 0 < cands.length := List.length_pos_iff.2 hne
  rw [rd_of_lt h0, ok_bind]
  refine Ok.bind (fold_best hW (d := d) (μ := μ) (out := fun c => (μ c).1.faces) (step := bicStep E d feats cc) ?_ ?_ ?_ rfl hne) ?_
  · intro c hcm s
    unfold bicStep
    rw [(hμ c hcm).2, ok_bind]
  · intro c hcm; exact (hμ c hcm).1.order
  · intro c hcm; rw [(hμ c hcm).1.faces]; exact (hc c hcm).pos
  · intro s hs
    rw [Ok_pure]
    refine ⟨(μ s.arg).1, ?_, hs.2.1⟩
    rw [hs.1]
    exact hs.2.2.first (fun x hx => (hμ x hx).1)

theorem iterBest_nil {E : IsoEnv W F} {d : NMap Nat} {k : Nat} {nb : Nbh W} {f : F} {cc : NSet} (h : nb.cands = []) :
    iterBest E d k nb f cc = .ok (0, 0, E.ar.default) := by
  cases k <;> · unfold iterBest; rw [h]; rfl

theorem ahead_eq {m0 : Merit W} {r : Nat × Nat × F} :
    m0.ahead r.2.1 = ⟨(iterRefine m0.faces m0.ar r).1, m0.order, (iterRefine m0.faces m0.ar r).2⟩ := by
  unfold Merit.ahead iterRefine
  split
  · rfl
  · split <;> rfl

/-- `Agglomerator_Iterative`: candidates and their merits -/
theorem iterBest_first {E : IsoEnv W F} (hW : LawfulLt W) (hE : ValidCRS E.g.nbC E.g.rowPtr E.g.colInd)
    (hsym : SymmetricCRS E.g.rowPtr E.g.colInd)
    (hw : E.pool.prio.length = E.g.nbC) (hd : 1 ≤ E.g.dim)
    {Inv : NSet → F → Prop} (hs : ARSafe E.g E.ar Inv) {al : NSet} {d d0 : NMap Nat} (k : Nat) {added : List Nat}
    {cc : NSet} {nb : Nbh W} (h : NbhOk E al d added cc nb) (hdd : ∀ x, x ∉ cc → d.find? x = d0.find? x)
    {feats : F} (hf : Inv cc feats) (hne : nb.cands ≠ []) :
    Ok (iterBest E d k nb feats cc) (fun r => ∃ m, FirstBest (NbLook E d0 k nb feats cc) nb.cands r.1 m r.2.2 ∧
      r.2.1 = nbShared (rowOf E.g.rowPtr E.g.colInd r.1) cc) := by
  have hstep : ∀ {added : List Nat} {cc : NSet} {nb : Nbh W}, NbhOk E al d added cc nb → ∀ c ∈ nb.cands,
      Cand E.g d cc c ∧ E.g.neighs c = .ok (rowOf E.g.rowPtr E.g.colInd c) ∧
      Ok (nb.update E.pool.prio c (rowOf E.g.rowPtr E.g.colInd c)) (NbhOk E al d (added ++ [c]) (cc.insert c)) := by
    intro added cc nb h c hc
    have hcand := h.cand hE hsym (h.inv.sub c hc)
    rw [rowOf_eq hE hcand.lt]
    refine ⟨hcand, neighs_eq hE hcand.lt, ?_⟩
    refine (h.inv.update hE hw (Or.inr hW) hd hcand.lt).mono (fun nb' hnb' => ⟨hnb', ?_, ?_, ?_⟩)
    · intro x; rw [NSet.mem_insert, h.mem]; simp; tauto
    · intro x hx
      rcases NSet.mem_insert.1 hx with rfl | hx
      · exact hcand.lt
      · exact h.lt x hx
    · intro x hx hx'
      exact h.ord x hx (fun hh => hx' (by simp [hh]))
  induction k generalizing added cc nb feats with
  | zero =>
    have hex : ∀ c, ∃ p : Merit W × F, c ∈ nb.cands → HasMerit E d0 feats cc c p.1 p.2 ∧ d.find? c = some p.1.order ∧
        E.ar.compute c feats cc = .ok (p.1.faces, p.1.ar, p.2) := by
      intro c
      by_cases hcm : c ∈ nb.cands
      · obtain ⟨hcc, hn, hup⟩ := hstep h c hcm
        obtain ⟨⟨n, ar, f⟩, h1, h2, h3⟩ := (hs.compute cc feats c hf h.lt hcc.lt hcc.nin).eq
        obtain ⟨o, ho⟩ := hcc.ord
        exact ⟨(⟨n, o, ar⟩, f), fun _ => ⟨⟨h2, by rw [← hdd c hcc.nin]; exact ho, n, h1⟩, ho, h1⟩⟩
      · exact ⟨(⟨0, 0, Num.ofNat 0⟩, feats), fun h => absurd h hcm⟩
    choose μ hμ using hex
    unfold iterBest
    refine Ok.bind (fold_best hW (d := d) (μ := μ) (out := fun c => (μ c).1.faces) ?_ ?_ ?_ rfl hne) ?_
    · intro c hcm s
      obtain ⟨hcc, hn, hup⟩ := hstep h c hcm
      obtain ⟨nb', hnb', _⟩ := hup.eq
      rw [(hμ c hcm).2.2, ok_bind]
      simp only
      rw [hn, ok_bind, hnb', ok_bind]
    · intro c hcm; exact (hμ c hcm).2.1
    · intro c hcm; rw [(hμ c hcm).1.faces]; exact (hstep h c hcm).1.pos
    · intro s hs
      rw [Ok_pure]
      refine ⟨(μ s.arg).1, ?_, ?_⟩
      · rw [hs.1]
        exact hs.2.2.first (fun x hx => (hμ x hx).1)
      · obtain ⟨l, r, hl, _⟩ := hs.2.2.split
        simp only
        rw [hs.2.1, (hμ s.arg (by rw [hl]; simp)).1.faces]
  | succ k ih =>
    have hex : ∀ c, ∃ p : Merit W × F, c ∈ nb.cands → NbLook E d0 (k + 1) nb feats cc c p.1 p.2 ∧
        d.find? c = some p.1.order ∧ 1 ≤ p.1.faces ∧
        ∃ ar nb' r, E.ar.compute c feats cc = .ok (nbShared (rowOf E.g.rowPtr E.g.colInd c) cc, ar, p.2) ∧
          E.g.neighs c = .ok (rowOf E.g.rowPtr E.g.colInd c) ∧
          nb.update E.pool.prio c (rowOf E.g.rowPtr E.g.colInd c) = .ok nb' ∧
          iterBest E d k nb' p.2 (cc.insert c) = .ok r ∧
          p.1.faces = (iterRefine (nbShared (rowOf E.g.rowPtr E.g.colInd c) cc) ar r).1 ∧
          p.1.ar = (iterRefine (nbShared (rowOf E.g.rowPtr E.g.colInd c) cc) ar r).2 := by
      intro c
      by_cases hcm : c ∈ nb.cands
      · obtain ⟨hcc, hn, hup⟩ := hstep h c hcm
        obtain ⟨⟨n, ar, f⟩, h1, h2, h3⟩ := (hs.compute cc feats c hf h.lt hcc.lt hcc.nin).eq
        obtain ⟨o, ho⟩ := hcc.ord
        obtain ⟨nb', hnb', hok'⟩ := hup.eq
        simp only at h2 h3
        have hpos := hcc.pos
        have hm0 : HasMerit E d0 feats cc c ⟨n, o, ar⟩ f := ⟨h2, by rw [← hdd c hcc.nin]; exact ho, n, h1⟩
        have hr : ∃ r : Nat × Nat × F, iterBest E d k nb' f (cc.insert c) = .ok r ∧
            NbLook E d0 (k + 1) nb feats cc c ((⟨n, o, ar⟩ : Merit W).ahead r.2.1) f := by
          by_cases hnil : nb'.cands = []
          · refine ⟨_, iterBest_nil hnil, _, nb', hm0, hnb', Or.inl ⟨hnil, ?_⟩⟩
            simp only [Merit.ahead]
            rw [if_neg (by omega), if_neg]
            simp only [Bool.and_eq_true, decide_eq_true_eq, not_and]
            intro hh; omega
          · have hdd' : ∀ x, x ∉ cc.insert c → d.find? x = d0.find? x :=
              fun x hx => hdd x (fun hh => hx (NSet.mem_insert.2 (Or.inr hh)))
            obtain ⟨r, hr, m2, hm2, hq⟩ := (ih hok' hdd' h3 hnil).eq
            exact ⟨r, hr, _, nb', hm0, hnb', Or.inr ⟨_, _, _, hm2, by rw [hq]⟩⟩
        obtain ⟨r, hr1, hr2⟩ := hr
        rw [ahead_eq] at hr2
        refine ⟨(⟨(iterRefine n ar r).1, o, (iterRefine n ar r).2⟩, f), fun _ => ⟨hr2, ho, ?_, ar, nb', r, ?_, hn, hnb', hr1, ?_⟩⟩
        · exact iterRefine_pos (by omega)
        · rw [h1, h2]
        · rw [h2]; exact ⟨rfl, rfl⟩
      · exact ⟨(⟨0, 0, Num.ofNat 0⟩, feats), fun h => absurd h hcm⟩
    choose μ hμ using hex
    unfold iterBest
    refine Ok.bind (fold_best hW (d := d) (μ := μ) (out := fun c => nbShared (rowOf E.g.rowPtr E.g.colInd c) cc)
      ?_ ?_ ?_ rfl hne) ?_
    · intro c hcm s
      obtain ⟨_, _, _, ar, nb', r, e1, e2, e3, e4, e5, e6⟩ := hμ c hcm
      rw [e1, ok_bind]
      simp only
      rw [e2, ok_bind, e3, ok_bind, e4, ok_bind, e5, e6]
    · intro c hcm; exact (hμ c hcm).2.1
    · intro c hcm; exact (hμ c hcm).2.2.1
    · intro s hs
      rw [Ok_pure]
      refine ⟨(μ s.arg).1, ?_, hs.2.1⟩
      rw [hs.1]
      exact hs.2.2.first (fun x hx => (hμ x hx).1)

theorem HasMerit.congr {E : IsoEnv W F} {d d0 : NMap Nat} {f : F} {cc : NSet} {c : Nat} {m : Merit W} {f' : F}
    (h : HasMerit E d f cc c m f') (hd : d.find? c = d0.find? c) : HasMerit E d0 f cc c m f' :=
  ⟨h.faces, by rw [← hd]; exact h.order, h.ar⟩

theorem best_first {E : IsoEnv W F} (hW : LawfulLt W) (hE : IsoInput E) {Inv : NSet → F → Prop} (hs : ARSafe E.g E.ar Inv)
    {al : NSet} {d d0 : NMap Nat} (k : Nat) {added : List Nat} {cc : NSet} {nb : Nbh W}
    (h : NbhOk E al d added cc nb) (hdd : ∀ x, x ∉ cc → d.find? x = d0.find? x)
    {feats : F} (hf : Inv cc feats) (hne : nb.cands ≠ []) :
    Ok (best E (min k E.fcIter) nb d feats cc) (fun r => ∃ m,
      FirstBest (NbLook E d0 (min k E.fcIter - 1) nb feats cc) nb.cands r.1 m r.2.2) := by
  unfold best
  split
  · rename_i hle
    rw [show min k E.fcIter - 1 = 0 by omega]
    have hc : ∀ c ∈ nb.cands, Cand E.g d cc c := fun c hc => h.cand hE.crs hE.sym (h.inv.sub c hc)
    refine (bicBest_first hW hs h.lt hf hne hc).mono ?_
    rintro r ⟨m, ⟨μ, h1, h2⟩, _⟩
    exact ⟨m, μ, fun x hx => (h1 x hx).congr (hdd x (hc x hx).nin), h2⟩
  · have hd : 1 ≤ E.g.dim := by rcases hE.dim with h | h <;> omega
    exact (iterBest_first hW hE.crs hE.sym hE.pool.prio hd hs _ h hdd hf hne).mono
      (fun r ⟨m, h1, _⟩ => ⟨m, h1⟩)

/-! ### External faces -/

theorem externalFaces_single {g : Graph W} (hv : ValidCRS g.nbC g.rowPtr g.colInd) (hl : NoSelfLoop g.rowPtr g.colInd)
    {x : Nat} (hx : x < g.nbC) :
    externalFaces g (NSet.single x) = (rowL g.rowPtr g.colInd x).length + (g.nBnd[x]?).getD 0 := by
  unfold externalFaces
  have : (NSet.single x).elems = [x] := rfl
  rw [this]
  simp only [List.map_cons, List.map_nil, List.sum_cons, List.sum_nil, Nat.add_zero]
  rw [rowOf_eq hv hx]
  congr 1
  rw [List.countP_eq_length]
  intro y hy
  simp only [Bool.not_eq_true']
  rw [NSet.has_false_iff, NSet.mem_single]
  rintro rfl
  exact hl y ((hv.mem_rowL hx).1 hy)

theorem countP_not_add {l : List Nat} (p : Nat → Bool) : l.countP (fun y => !p y) + l.countP p = l.length := by
  induction l with
  | nil => rfl
  | cons a l ih =>
    simp only [List.countP_cons, List.length_cons]
    cases p a <;> simp <;> omega

theorem sum_map_add_countP {l : List Nat} {f g : Nat → Nat} {p : Nat → Bool}
    (h : ∀ y ∈ l, f y + (if p y then 1 else 0) = g y) : (l.map f).sum + l.countP p = (l.map g).sum := by
  induction l with
  | nil => rfl
  | cons a l ih =>
    have h1 := h a (by simp)
    have h2 := ih (fun y hy => h y (by simp [hy]))
    simp only [List.map_cons, List.sum_cons, List.countP_cons]
    omega

theorem externalFaces_insert {g : Graph W} (hv : ValidCRS g.nbC g.rowPtr g.colInd) (hsym : SymmetricCRS g.rowPtr g.colInd)
    (hu : UniqueRows g.rowPtr g.colInd) (hl : NoSelfLoop g.rowPtr g.colInd) {s : NSet} (hs : ∀ y ∈ s, y < g.nbC)
    {x : Nat} (hx : x < g.nbC) (hxs : x ∉ s) :
    externalFaces g (s.insert x) + 2 * nbShared (rowOf g.rowPtr g.colInd x) s =
      externalFaces g s + (rowL g.rowPtr g.colInd x).length + (g.nBnd[x]?).getD 0 := by
  have hp : (s.insert x).elems.Perm (x :: s.elems) :=
    NSet.elems_perm (List.nodup_cons.2 ⟨hxs, s.nodup⟩) (fun a => by simp)
  unfold externalFaces
  rw [(hp.map _).sum_nat, List.map_cons, List.sum_cons]
  have hself : x ∉ rowL g.rowPtr g.colInd x := fun hh => hl x ((hv.mem_rowL hx).1 hh)
  have e1 : (rowOf g.rowPtr g.colInd x).countP (fun y => !(s.insert x).has y) + nbShared (rowOf g.rowPtr g.colInd x) s =
      (rowL g.rowPtr g.colInd x).length := by
    rw [rowOf_eq hv hx, ← countP_has_eq (UniqueRows.nodup hv hu hx) s, ← countP_not_add (fun y => s.has y)]
    congr 1
    apply List.countP_congr
    intro y hy
    have : y ≠ x := by rintro rfl; exact hself hy
    have : (s.insert x).has y = s.has y := by
      rw [Bool.eq_iff_iff, NSet.has_iff, NSet.has_iff, NSet.mem_insert]; simp [this]
    rw [this]
  have e2 : (s.elems.map (fun y => (rowOf g.rowPtr g.colInd y).countP (fun z => !(s.insert x).has z) + (g.nBnd[y]?).getD 0)).sum
      + nbShared (rowOf g.rowPtr g.colInd x) s =
      (s.elems.map (fun y => (rowOf g.rowPtr g.colInd y).countP (fun z => !s.has z) + (g.nBnd[y]?).getD 0)).sum := by
    unfold nbShared
    apply sum_map_add_countP
    intro y hy
    have hy' := hs y hy
    have hn := UniqueRows.nodup hv hu hy'
    have hiff : y ∈ rowOf g.rowPtr g.colInd x ↔ x ∈ rowL g.rowPtr g.colInd y := by
      rw [rowOf_eq hv hx, hv.mem_rowL hx, hv.mem_rowL hy']
      exact ⟨hsym _ _, hsym _ _⟩
    rw [rowOf_eq hv hy']
    have a1 := countP_not_add (l := rowL g.rowPtr g.colInd y) (fun z => s.has z)
    have a2 := countP_not_add (l := rowL g.rowPtr g.colInd y) (fun z => (s.insert x).has z)
    rw [countP_has_eq hn] at a1 a2
    rw [nbShared_insert hxs] at a2
    simp only [List.contains_iff_mem, hiff]
    omega
  omega

end CoMMA
