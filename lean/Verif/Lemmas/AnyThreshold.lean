import Verif.Spec.AnyThreshold
import Verif.Lemmas.Threshold
import Verif.Lemmas.CorrectionExact
/-! # Correction with any threshold, when no two small cells have a common face -/

set_option linter.unusedSectionVars false

namespace CoMMA

variable {W : Type} [Num W]

/-! ## The best receiver of a whole coarse cell -/

theorem foldl_fewest : ∀ (l : List (Nat × Nat × Nat)) (r : Nat × Nat × Nat), (r :: l).Pairwise (fun a b => a.1 < b.1) →
    l.foldl (fun r x => if x.2.1 < r.2.1 then x else r) r ∈ r :: l ∧
      ∀ e ∈ r :: l, (l.foldl (fun r x => if x.2.1 < r.2.1 then x else r) r).2.1 < e.2.1 ∨
        ((l.foldl (fun r x => if x.2.1 < r.2.1 then x else r) r).2.1 = e.2.1 ∧
          (l.foldl (fun r x => if x.2.1 < r.2.1 then x else r) r).1 ≤ e.1) := by
  intro l
  induction l with
  | nil =>
    intro r _
    refine ⟨by simp, ?_⟩
    intro e he
    simp only [List.mem_cons, List.not_mem_nil, or_false] at he
    subst he
    exact Or.inr ⟨rfl, Nat.le_refl _⟩
  | cons y l ih =>
    intro r hs
    rw [List.foldl_cons]
    obtain ⟨h1, h2⟩ := List.pairwise_cons.1 hs
    have hry := h1 y (by simp)
    by_cases hlt : y.2.1 < r.2.1
    · rw [if_pos hlt]
      obtain ⟨g1, g2⟩ := ih y h2
      refine ⟨List.mem_cons_of_mem _ g1, ?_⟩
      intro e he
      rcases List.mem_cons.1 he with rfl | he
      · have := g2 y (by simp)
        omega
      · exact g2 e he
    · rw [if_neg hlt]
      obtain ⟨g1, g2⟩ := ih r (by
        rw [List.pairwise_cons] at h2 ⊢
        exact ⟨fun e he => Nat.lt_trans hry (h2.1 e he), h2.2⟩)
      constructor
      · rcases List.mem_cons.1 g1 with g1 | g1
        · rw [g1]; simp
        · simp [g1]
      · intro e he
        rcases List.mem_cons.1 he with rfl | he
        · exact g2 e (by simp)
        · rcases List.mem_cons.1 he with rfl | he
          · have := g2 r (by simp)
            omega
          · exact g2 e (by simp [he])

theorem selectWhole_exact {g : Graph W} (hv : ValidCRS g.nbC g.rowPtr g.colInd) {ccs : NMap CC} {fcs neighs : NSet}
    (hfc : ∀ x ∈ fcs, x < g.nbC)
    (hn : ∀ k ∈ neighs, ∃ cc, ccs.find? k = some cc ∧ ∀ x ∈ cc.fcs, x < g.nbC) :
    Ok (selectWhole g ccs fcs neighs) (fun o =>
      (o = none → ∀ k ∈ neighs, ∀ cc b, ccs.find? k = some cc → cc.iso = true →
        g.minCompactness (cc.fcs.insertMany fcs.elems) = .ok b → ¬ cc.compact < b) ∧
      ∀ id q, o = some (id, q) → id ∈ neighs ∧ ∃ cc, ccs.find? id = some cc ∧ cc.iso = true ∧
        g.minCompactness (cc.fcs.insertMany fcs.elems) = .ok q ∧ cc.compact < q ∧
        ∀ k ∈ neighs, ∀ cc' b, ccs.find? k = some cc' → cc'.iso = true →
          g.minCompactness (cc'.fcs.insertMany fcs.elems) = .ok b → cc'.compact < b →
          cc.card < cc'.card ∨ (cc.card = cc'.card ∧ id ≤ k)) := by
  unfold selectWhole
  refine Ok.bind (P := fun (l : List (Nat × Nat × Nat)) => l.Pairwise (fun a b => a.1 < b.1) ∧
    (∀ e ∈ l, e.1 ∈ neighs.elems ∧ ∃ cc, ccs.find? e.1 = some cc ∧ cc.iso = true ∧ e.2.1 = cc.card ∧
      g.minCompactness (cc.fcs.insertMany fcs.elems) = .ok e.2.2 ∧ cc.compact < e.2.2) ∧
    ∀ k ∈ neighs.elems, ∀ cc b, ccs.find? k = some cc → cc.iso = true →
      g.minCompactness (cc.fcs.insertMany fcs.elems) = .ok b → cc.compact < b → ∃ e ∈ l, e.1 = k) ?_ ?_
  · unfold wholeRecs
    refine Ok.foldlM_prefix (I := fun (pre : List Nat) (l : List (Nat × Nat × Nat)) => l.Pairwise (fun a b => a.1 < b.1) ∧
      (∀ e ∈ l, e.1 ∈ pre ∧ ∃ cc, ccs.find? e.1 = some cc ∧ cc.iso = true ∧ e.2.1 = cc.card ∧
        g.minCompactness (cc.fcs.insertMany fcs.elems) = .ok e.2.2 ∧ cc.compact < e.2.2) ∧
      ∀ k ∈ pre, ∀ cc b, ccs.find? k = some cc → cc.iso = true →
        g.minCompactness (cc.fcs.insertMany fcs.elems) = .ok b → cc.compact < b → ∃ e ∈ l, e.1 = k)
      ⟨List.Pairwise.nil, by simp, by simp⟩ ?_
    rintro pre k post l hsp ⟨h1, h2, h3⟩
    have hkn : k ∈ neighs := by rw [← NSet.mem_elems, hsp]; simp
    have hbig : ∀ j ∈ pre, j < k := by
      have := neighs.sorted
      rw [hsp, List.pairwise_append] at this
      intro j hj
      exact this.2.2 j hj k (by simp)
    obtain ⟨cc, hcc, hlt⟩ := hn k hkn
    have hold : ∀ e ∈ l, e.1 ∈ pre ++ [k] ∧ ∃ cc, ccs.find? e.1 = some cc ∧ cc.iso = true ∧ e.2.1 = cc.card ∧
        g.minCompactness (cc.fcs.insertMany fcs.elems) = .ok e.2.2 ∧ cc.compact < e.2.2 :=
      fun e he => ⟨List.mem_append_left _ (h2 e he).1, (h2 e he).2⟩
    rw [NMap.at_eq.2 hcc, ok_bind]
    by_cases hiso : cc.iso = true
    · rw [if_pos hiso]
      obtain ⟨q, hq, _⟩ := (minCompactness_ok hv (s := cc.fcs.insertMany fcs.elems) (by
        intro x hx
        rcases NSet.mem_insertMany.1 hx with hx | hx
        · exact hfc x hx
        · exact hlt x hx)).eq
      rw [hq, ok_bind, Ok_pure]
      by_cases hgain : cc.compact < q
      · rw [if_pos hgain]
        refine ⟨?_, ?_, ?_⟩
        · rw [List.pairwise_append]
          refine ⟨h1, by simp, ?_⟩
          intro e he e' he'
          rw [List.mem_singleton] at he'
          subst he'
          exact hbig _ (h2 e he).1
        · intro e he
          rcases List.mem_append.1 he with he | he
          · exact hold e he
          · rw [List.mem_singleton] at he
            subst he
            exact ⟨by simp, cc, hcc, hiso, rfl, hq, hgain⟩
        · intro k' hk' cc' b' a1 a2 a3 a4
          rcases List.mem_append.1 hk' with hk' | hk'
          · obtain ⟨e, he, hek⟩ := h3 k' hk' cc' b' a1 a2 a3 a4
            exact ⟨e, List.mem_append_left _ he, hek⟩
          · rw [List.mem_singleton] at hk'
            exact ⟨_, List.mem_append_right _ (List.mem_singleton.2 rfl), hk'.symm⟩
      · rw [if_neg hgain]
        refine ⟨h1, hold, ?_⟩
        intro k' hk' cc' b' a1 a2 a3 a4
        rcases List.mem_append.1 hk' with hk' | hk'
        · exact h3 k' hk' cc' b' a1 a2 a3 a4
        · rw [List.mem_singleton] at hk'
          subst hk'
          rw [hcc] at a1; cases a1
          rw [hq] at a3; cases a3
          exact absurd a4 hgain
    · rw [if_neg hiso, Ok_pure]
      refine ⟨h1, hold, ?_⟩
      intro k' hk' cc' b' a1 a2 a3 a4
      rcases List.mem_append.1 hk' with hk' | hk'
      · exact h3 k' hk' cc' b' a1 a2 a3 a4
      · rw [List.mem_singleton] at hk'
        subst hk'
        rw [hcc] at a1; cases a1
        exact absurd a2 hiso
  · rintro l ⟨h1, h2, h3⟩
    split
    · rename_i r rest
      rw [Ok_pure]
      refine ⟨(fun h => by cases h), ?_⟩
      intro id q he
      obtain ⟨g1, g2⟩ := foldl_fewest rest r h1
      obtain ⟨g3, cc, g4, g5, g6, g7, g8⟩ := h2 _ g1
      simp only [Option.some.injEq, Prod.mk.injEq] at he
      rw [← he.1, ← he.2]
      refine ⟨g3, cc, g4, g5, g7, g8, ?_⟩
      intro k hk cc' b a1 a2 a3 a4
      obtain ⟨e, he', hek⟩ := h3 k hk cc' b a1 a2 a3 a4
      obtain ⟨_, cc2, f1, _, f3, _⟩ := h2 e he'
      rw [hek, a1] at f1
      cases f1
      have := g2 e he'
      rw [← f3, ← g6, ← hek]
      exact this
    · rw [Ok_pure]
      refine ⟨?_, by intro id q he; cases he⟩
      intro _ k hk cc b a1 a2 a3 a4
      obtain ⟨e, he, _⟩ := h3 k hk cc b a1 a2 a3 a4
      simp at he

/-! ## State of the loop -/

/-- the entry `cc` of coarse cell `k` agrees with the map `f` -/
structure Live (g : Graph W) (m : Nat) (f : List Nat) (k : Nat) (cc : CC) : Prop where
  part : ∀ i : Nat, i ∈ cc.fcs ↔ f[i]? = some k
  card : cc.card = cc.fcs.card ∧ 0 < cc.card
  iso : cc.iso = true ↔ m ≤ k
  good : cc.iso = true → Sound g cc.fcs cc.compact

theorem Live.fcs {g : Graph W} {m : Nat} {f : List Nat} {k : Nat} {cc : CC} (h : Live g m f k cc) : cc.fcs = fcsOf f k := by
  apply NSet.ext
  intro i
  rw [h.part, mem_fcsOf]

theorem Live.count {g : Graph W} {m : Nat} {f : List Nat} {k : Nat} {cc : CC} (h : Live g m f k cc) : f.count k = cc.card := by
  rw [h.card.1]
  exact count_eq_card h.part

theorem Live.lt {g : Graph W} {m : Nat} {f : List Nat} {k : Nat} {cc : CC} (h : Live g m f k cc) {n : Nat} (hl : f.length = n) :
    ∀ x ∈ cc.fcs, x < n := by
  intro x hx
  rw [← hl]
  exact (List.getElem?_eq_some_iff.1 ((h.part x).1 hx)).1

theorem nbFeat_live {g : Graph W} (hv : ValidCRS g.nbC g.rowPtr g.colInd) (hsym : SymmetricCRS g.rowPtr g.colInd)
    (hu : UniqueRows g.rowPtr g.colInd) (hno : NoSelfLoop g.rowPtr g.colInd) {m : Nat} {f : List Nat} (hf : f.length = g.nbC)
    {ccs : NMap CC} {x : Nat} (hx : x < g.nbC) {b : NbRec} (hb : NbFeat g ccs x b)
    (hL : ∀ cc, ccs.find? b.id = some cc → Live g m f b.id cc) :
    b.card = f.count b.id ∧ b.shared = facesTo g.rowPtr g.colInd f x b.id ∧
      (b.better = true ↔ Gains g.rowPtr g.colInd f x b.id) := by
  obtain ⟨cc, h1, h2, h3, h4, h5, h6⟩ := hb
  have hl := hL cc h1
  have hfc := hl.fcs
  refine ⟨by rw [h3, hl.count], by rw [h4, hfc, facesWith_eq hv hsym hu hf hx], ?_⟩
  have hlt : ∀ z ∈ cc.fcs.insert x, z < g.nbC := by
    intro z hz
    rcases NSet.mem_insert.1 hz with rfl | hz
    · exact hx
    · exact hl.lt hf z hz
  have c1 : IsCompactness g.rowPtr g.colInd (fcsOf f b.id) cc.compact := by
    rw [← hfc]; exact (hl.good h2).2 hu hno
  have c2 : IsCompactness g.rowPtr g.colInd ((fcsOf f b.id).insert x) b.compact := by
    rw [← hfc]; exact (minCompactness_ok hv hlt).elim h5 hu
  rw [h6]
  constructor
  · exact fun hl => ⟨_, _, c1, c2, hl⟩
  · rintro ⟨u, v, g1, g2, hl⟩
    rw [c1.unique g1, c2.unique g2]; exact hl

/-- setting: `c0` is the container before correction and `f0` its map; no two small coarse
cells have a common face -/
structure AEnv (g : Graph W) (c0 : Cont) (f0 : List Nat) (m : Nat) : Prop where
  crs : ValidCRS g.nbC g.rowPtr g.colInd
  sym : SymmetricCRS g.rowPtr g.colInd
  cinv : CInv g.nbC c0
  views : Views g.nbC f0 c0
  total : ∀ i : Nat, i < g.nbC → ∃ k, f0[i]? = some k
  isoIff : ∀ k cc, c0.ccs.find? k = some cc → (cc.iso = true ↔ m ≤ k)
  good : ∀ k cc, c0.ccs.find? k = some cc → cc.iso = true → Sound g cc.fcs cc.compact
  apart : ∀ k l x y, k ∈ c0.singular → l ∈ c0.singular → f0[x]? = some k → f0[y]? = some l →
    Adj g.rowPtr g.colInd x y → k = l

/-- state of the loop: `pre` are the small cells already treated, `f` is the map -/
structure ThrInv (g : Graph W) (c0 : Cont) (f0 : List Nat) (m : Nat) (pre : List Nat) (f : List Nat) (c : Cont) (rem : NSet) :
    Prop where
  views : Views g.nbC f c
  keys : ∀ k, k ∈ c.ccs.keys ↔ k < c0.counter ∧ k ∉ rem
  live : ∀ k cc, c.ccs.find? k = some cc → Live g m f k cc
  fix : ∀ k, k ∈ c0.singular → k ∉ pre → c.ccs.find? k = c0.ccs.find? k
  dest : ∀ (i : Nat) k, f[i]? = some k → f0[i]? = some k ∨ (k ∉ c0.singular ∧ m ≤ k ∧ ∃ s ∈ pre, f0[i]? = some s)
  range : ∀ (i : Nat) k, f[i]? = some k → k < c0.counter
  remIn : ∀ k ∈ rem, k ∈ pre
  thresh : c.thresh = c0.thresh
  lenF : c.fc2cc.length = g.nbC

theorem ThrInv_init {g : Graph W} {c0 : Cont} {f0 : List Nat} {m : Nat} (hE : AEnv g c0 f0 m) :
    ThrInv g c0 f0 m [] f0 c0 NSet.empty where
  views := hE.views
  keys k := by rw [hE.cinv.keys]; simp
  live k cc hk := ⟨fun i => by rw [hE.cinv.part k cc hk, hE.views.get], hE.cinv.card k cc hk, hE.isoIff k cc hk, hE.good k cc hk⟩
  fix k _ _ := rfl
  dest i k hk := Or.inl hk
  range i k hk := hE.cinv.range i k ((hE.views.get i k).1 hk)
  remIn k hk := by simp at hk
  thresh := rfl
  lenF := hE.cinv.lenF

/-- state in the middle of the treatment of `old`, cells `p` being treated -/
structure Mid (g : Graph W) (c0 : Cont) (m : Nat) (f : List Nat) (c : Cont) (old : Nat) (p : List Nat) (f1 : List Nat)
    (c1 : Cont) : Prop where
  views : Views g.nbC f1 c1
  keys : ∀ k, k ∈ c1.ccs.keys ↔ k ∈ c.ccs.keys
  live : ∀ k cc, k ≠ old → c1.ccs.find? k = some cc → Live g m f1 k cc
  fix : ∀ k, k ∈ c0.singular → c1.ccs.find? k = c.ccs.find? k
  out : ∀ i : Nat, i ∉ p → f1[i]? = f[i]?
  into : ∀ i ∈ p, f1[i]? = f[i]? ∨ ∃ r, f1[i]? = some r ∧ r ∉ c0.singular ∧ ∃ x, f[x]? = some old ∧ Receiver g.rowPtr g.colInd f m x r
  thresh : c1.thresh = c.thresh
  lenF : c1.fc2cc.length = c.fc2cc.length

theorem getElem?_set_views {n : Nat} {f : List Nat} {c : Cont} (h : Views n f c) {x : Nat} (hx : x < n) (r : Nat) (i : Nat) :
    (f.set x r)[i]? = if i = x then some r else f[i]? := by
  have hl : x < f.length := by rw [h.len]; exact hx
  rw [List.getElem?_set]
  by_cases hi : x = i
  · subst hi; simp [hl]
  · rw [if_neg hi, if_neg (fun h => hi h.symm)]

/-! ## One small coarse cell -/

section
variable {g : Graph W} {c0 : Cont} {f0 : List Nat} {m : Nat}

theorem AEnv.sing_lt (hE : AEnv g c0 f0 m) {k : Nat} (hk : k ∈ c0.singular) : k < c0.counter := by
  obtain ⟨cc, h, _⟩ := (hE.cinv.sing k).1 hk
  exact (hE.cinv.keys k).1 (NMap.mem_keys.2 ⟨_, h⟩)

/-- neighbours of an untreated small coarse cell are in coarse cells that are not small -/
theorem ThrInv.near (hE : AEnv g c0 f0 m) {pre f : List Nat} {c : Cont} {rem : NSet} (h : ThrInv g c0 f0 m pre f c rem)
    (hpre : ∀ k ∈ pre, k ∈ c0.singular) {old : Nat} (hold : old ∈ c0.singular) (hnew : old ∉ pre) {x y k : Nat}
    (hx : f[x]? = some old) (hxy : Adj g.rowPtr g.colInd x y) (hy : f[y]? = some k) (hk : k ≠ old) :
    k ∉ c0.singular ∧ k ∈ c.ccs.keys := by
  have hx0 : f0[x]? = some old := by
    rcases h.dest x old hx with h1 | ⟨h1, _⟩
    · exact h1
    · exact absurd hold h1
  rcases h.dest y k hy with h1 | ⟨_, _, s, hs, h2⟩
  · have hks : k ∉ c0.singular := fun hks => hk (hE.apart old k x y hold hks hx0 h1 hxy).symm
    refine ⟨hks, (h.keys k).2 ⟨hE.cinv.range y k ((hE.views.get y k).1 h1), fun hr => hks (hpre k (h.remIn k hr))⟩⟩
  · exact absurd (hE.apart old s x y hold (hpre s hs) hx0 h2 hxy ▸ hs) hnew

theorem ThrInv.total {pre f : List Nat} {c : Cont} {rem : NSet} (h : ThrInv g c0 f0 m pre f c rem)
    (j : Nat) (hj : j < g.nbC) : ∃ k, c.fc2cc[j]? = some (some k) := by
  have : j < f.length := by rw [h.views.len]; exact hj
  exact ⟨f[j], (h.views.get j _).1 (List.getElem?_eq_getElem this)⟩

/-- the coarse cell is removed -/
theorem ThrInv.drop {pre f f1 : List Nat} {c c1 : Cont} {rem : NSet} (h : ThrInv g c0 f0 m pre f c rem)
    {old : Nat} (hold : old ∈ c0.singular) {p : List Nat}
    (hp : ∀ i ∈ p, f[i]? = some old) (hM : Mid g c0 m f c old p f1 c1) :
    ThrInv g c0 f0 m (pre ++ [old]) f1 (dropCC c1 rem old).1 (dropCC c1 rem old).2 := by
  unfold dropCC
  simp only
  refine ⟨⟨hM.views.len, hM.views.get⟩, ?_, ?_, ?_, ?_, ?_, ?_, ?_, ?_⟩
  · intro k
    show k ∈ (c1.ccs.erase old).keys ↔ _
    rw [NMap.mem_keys_erase, hM.keys, h.keys, NSet.mem_insert]
    constructor
    · rintro ⟨⟨b, d⟩, a⟩
      exact ⟨b, fun e => e.elim a d⟩
    · rintro ⟨a, b⟩
      exact ⟨⟨a, fun e => b (Or.inr e)⟩, fun e => b (Or.inl e)⟩
  · intro k cc hk
    replace hk : (c1.ccs.erase old).find? k = some cc := hk
    rw [NMap.find?_erase] at hk
    by_cases hko : k = old
    · rw [if_pos hko] at hk; cases hk
    · rw [if_neg hko] at hk
      exact hM.live k cc hko hk
  · intro k hk hkp
    have hko : k ≠ old := by rintro rfl; exact hkp (by simp)
    show (c1.ccs.erase old).find? k = _
    rw [NMap.find?_erase, if_neg hko, hM.fix k hk]
    exact h.fix k hk (fun e => hkp (List.mem_append_left _ e))
  · intro i k hi
    have key : f[i]? = some k → f0[i]? = some k ∨ (k ∉ c0.singular ∧ m ≤ k ∧ ∃ s ∈ pre ++ [old], f0[i]? = some s) := by
      intro hi
      rcases h.dest i k hi with h1 | ⟨h1, h4, s, h2, h3⟩
      · exact Or.inl h1
      · exact Or.inr ⟨h1, h4, s, List.mem_append_left _ h2, h3⟩
    by_cases hip : i ∈ p
    · rcases hM.into i hip with h1 | ⟨r, h1, h2, _, _, _, h4, _⟩
      · exact key (by rw [← h1]; exact hi)
      · rw [h1] at hi
        cases hi
        refine Or.inr ⟨h2, h4, old, by simp, ?_⟩
        rcases h.dest i old (hp i hip) with h3 | ⟨h3, _⟩
        · exact h3
        · exact absurd hold h3
    · rw [hM.out i hip] at hi
      exact key hi
  · intro i k hi
    by_cases hip : i ∈ p
    · rcases hM.into i hip with h1 | ⟨r, h1, _, x, _, _, _, y, _, hy⟩
      · exact h.range i k (by rw [← h1]; exact hi)
      · rw [h1] at hi
        cases hi
        exact h.range y _ hy
    · rw [hM.out i hip] at hi
      exact h.range i k hi
  · intro k hk
    rcases NSet.mem_insert.1 hk with rfl | hk
    · simp
    · exact List.mem_append_left _ (h.remIn k hk)
  · show c1.thresh = _
    rw [hM.thresh, h.thresh]
  · show c1.fc2cc.length = _
    rw [hM.lenF, h.lenF]

theorem ThrInv.keep {pre f : List Nat} {c : Cont} {rem : NSet} (h : ThrInv g c0 f0 m pre f c rem) (old : Nat) :
    ThrInv g c0 f0 m (pre ++ [old]) f c rem where
  views := h.views
  keys := h.keys
  live := h.live
  fix k hk hkp := h.fix k hk (fun e => hkp (List.mem_append_left _ e))
  dest i k hi := by
    rcases h.dest i k hi with h1 | ⟨h1, h4, s, h2, h3⟩
    · exact Or.inl h1
    · exact Or.inr ⟨h1, h4, s, List.mem_append_left _ h2, h3⟩
  range := h.range
  remIn k hk := List.mem_append_left _ (h.remIn k hk)
  thresh := h.thresh
  lenF := h.lenF

/-- neighbouring coarse cells of the cells of `old`, as computed -/
structure NbOf (g : Graph W) (f : List Nat) (old : Nat) (nb : List (Nat × NSet)) : Prop where
  nodup : (nb.map Prod.fst).Nodup
  cells : ∀ x : Nat, x ∈ nb.map Prod.fst ↔ f[x]? = some old
  mem : ∀ e ∈ nb, ∀ k, k ∈ e.2 ↔ k ≠ old ∧ ∃ j, Adj g.rowPtr g.colInd e.1 j ∧ f[j]? = some k

theorem NbOf.receiver {f : List Nat} {old : Nat} {nb : List (Nat × NSet)} (h : NbOf g f old nb) {e : Nat × NSet} (he : e ∈ nb)
    (r : Nat) : Receiver g.rowPtr g.colInd f m e.1 r ↔ r ∈ e.2 ∧ m ≤ r := by
  have hx := (h.cells e.1).1 (List.mem_map_of_mem he)
  unfold Receiver
  rw [hx, h.mem e he]
  constructor
  · rintro ⟨h1, h2, y, h3, h4⟩
    exact ⟨⟨fun e => h1 (by rw [e]), y, h3, h4⟩, h2⟩
  · rintro ⟨⟨h1, y, h3, h4⟩, h2⟩
    exact ⟨fun e => h1 (by cases e; rfl), h2, y, h3, h4⟩

theorem mem_glob (nb : List (Nat × NSet)) (k : Nat) :
    k ∈ nb.foldl (fun (s : NSet) e => s.insertMany e.2.elems) NSet.empty ↔ ∃ e ∈ nb, k ∈ e.2 := by
  have : ∀ (l : List (Nat × NSet)) (s : NSet), k ∈ l.foldl (fun (s : NSet) e => s.insertMany e.2.elems) s ↔
      k ∈ s ∨ ∃ e ∈ l, k ∈ e.2 := by
    intro l
    induction l with
    | nil => intro s; simp
    | cons e l ih =>
      intro s
      rw [List.foldl_cons, ih, NSet.mem_insertMany]
      constructor
      · rintro ((h | h) | ⟨e', h, h'⟩)
        · exact Or.inr ⟨e, by simp, h⟩
        · exact Or.inl h
        · exact Or.inr ⟨e', by simp [h], h'⟩
      · rintro (h | ⟨e', h, h'⟩)
        · exact Or.inl (Or.inr h)
        · rcases List.mem_cons.1 h with rfl | h
          · exact Or.inl (Or.inl h')
          · exact Or.inr ⟨e', h, h'⟩
  rw [this]; simp

theorem absorbed_get {f : List Nat} {k r i : Nat} : (absorbed f k r)[i]? = if f[i]? = some k then some r else f[i]? := by
  unfold absorbed
  rw [List.getElem?_map]
  cases h : f[i]? with
  | none => simp
  | some j =>
    by_cases hj : j = k
    · simp [hj]
    · simp [hj]

theorem fcsOf_absorbed {f : List Nat} {k r : Nat} :
    fcsOf (absorbed f k r) r = (fcsOf f r).insertMany (fcsOf f k).elems := by
  apply NSet.ext
  intro i
  rw [NSet.mem_insertMany, mem_fcsOf, mem_fcsOf, absorbed_get]
  show _ ↔ i ∈ fcsOf f k ∨ _
  rw [mem_fcsOf]
  by_cases h : f[i]? = some k
  · simp [h]
  · simp [h]

theorem tryWhole_exact (hE : AEnv g c0 f0 m) {pre f : List Nat} {c : Cont} {rem : NSet} (h : ThrInv g c0 f0 m pre f c rem)
    (hpre : ∀ k ∈ pre, k ∈ c0.singular) {old : Nat} (hold : old ∈ c0.singular) (hnew : old ∉ pre) {occ : CC}
    (hocc : c.ccs.find? old = some occ) {nb : List (Nat × NSet)} (hnb : NbOf g f old nb) :
    Ok (tryWhole g c occ nb) (fun o =>
      (o = none → UniqueRows g.rowPtr g.colInd → NoSelfLoop g.rowPtr g.colInd → 1 < f.count old →
        ∀ r, ¬ WholeReceiver g.rowPtr g.colInd f m old r) ∧
      ∀ c', o = some c' → ∃ r, 1 < f.count old ∧ Mid g c0 m f c old occ.fcs.elems (absorbed f old r) c' ∧
        (UniqueRows g.rowPtr g.colInd → NoSelfLoop g.rowPtr g.colInd → BestWhole g.rowPtr g.colInd f m old r)) := by
  have hL := h.live old occ hocc
  have hlen := h.views.len
  unfold tryWhole
  by_cases h1 : 1 < occ.card
  · rw [if_pos h1]
    simp only
    have hmem := mem_glob nb
    generalize nb.foldl (fun (s : NSet) e => s.insertMany e.2.elems) NSet.empty = glob at hmem ⊢
    have hglob : ∀ k, k ∈ glob ↔ k ≠ old ∧ ∃ x y : Nat, f[x]? = some old ∧ Adj g.rowPtr g.colInd x y ∧ f[y]? = some k := by
      intro k
      rw [hmem]
      constructor
      · rintro ⟨e, he, hk⟩
        obtain ⟨h2, j, h3, h4⟩ := (hnb.mem e he k).1 hk
        exact ⟨h2, e.1, j, (hnb.cells e.1).1 (List.mem_map_of_mem he), h3, h4⟩
      · rintro ⟨h2, x, y, h3, h4, h5⟩
        obtain ⟨e, he, rfl⟩ := List.mem_map.1 ((hnb.cells x).2 h3)
        exact ⟨e, he, (hnb.mem e he k).2 ⟨h2, y, h4, h5⟩⟩
    have hin : ∀ k ∈ glob, k ∉ c0.singular ∧ ∃ cc, c.ccs.find? k = some cc := by
      intro k hk
      obtain ⟨h2, x, y, h3, h4, h5⟩ := (hglob k).1 hk
      obtain ⟨a, b⟩ := h.near hE hpre hold hnew h3 h4 h5 h2
      exact ⟨a, NMap.mem_keys.1 b⟩
    have hmin : ∀ {k cc}, c.ccs.find? k = some cc → ∃ b, g.minCompactness (cc.fcs.insertMany occ.fcs.elems) = .ok b ∧
        (UniqueRows g.rowPtr g.colInd → IsCompactness g.rowPtr g.colInd (fcsOf (absorbed f old k) k) b) := by
      intro k cc hcc
      obtain ⟨b, hb, hb'⟩ := (minCompactness_ok hE.crs (s := cc.fcs.insertMany occ.fcs.elems) (by
        intro x hx
        rcases NSet.mem_insertMany.1 hx with hx | hx
        · exact hL.lt hlen x hx
        · exact (h.live k cc hcc).lt hlen x hx)).eq
      rw [fcsOf_absorbed, ← (h.live k cc hcc).fcs, ← hL.fcs]
      exact ⟨b, hb, hb'⟩
    have hcand : UniqueRows g.rowPtr g.colInd → NoSelfLoop g.rowPtr g.colInd → ∀ r, WholeReceiver g.rowPtr g.colInd f m old r →
        r ∈ glob ∧ ∃ cc b, c.ccs.find? r = some cc ∧ cc.iso = true ∧
          g.minCompactness (cc.fcs.insertMany occ.fcs.elems) = .ok b ∧ cc.compact < b := by
      rintro hu hl r ⟨a1, a2, a3, u, v, a4, a5, a6⟩
      have hr : r ∈ glob := (hglob r).2 ⟨a1, a3⟩
      obtain ⟨_, cc, hcc⟩ := hin r hr
      obtain ⟨b, hb, hb'⟩ := hmin hcc
      have hi : cc.iso = true := (h.live r cc hcc).iso.2 a2
      refine ⟨hr, cc, b, hcc, hi, hb, ?_⟩
      have e1 := ((h.live r cc hcc).good hi).2 hu hl
      rw [(h.live r cc hcc).fcs] at e1
      rw [e1.unique a4, (hb' hu).unique a5]
      exact a6
    split
    · rename_i hc0
      rw [Ok_pure]
      refine ⟨?_, (fun c' hc' => by cases hc')⟩
      intro _ hu hl _ r hr
      have := NSet.card_pos_iff.2 ⟨r, (hcand hu hl r hr).1⟩
      omega
    · refine Ok.bind (selectWhole_exact hE.crs (hL.lt hlen) ?_) ?_
      · intro k hk
        obtain ⟨_, cc, hcc⟩ := hin k hk
        exact ⟨cc, hcc, (h.live k cc hcc).lt hlen⟩
      · rintro o ⟨ho1, ho2⟩
        cases o with
        | none =>
          simp only [Ok_pure]
          refine ⟨?_, (fun c' hc' => by cases hc')⟩
          intro _ hu hl _ r hr
          obtain ⟨a1, cc, b, a2, a3, a4, a5⟩ := hcand hu hl r hr
          exact ho1 rfl r a1 cc b a2 a3 a4 a5
        | some r =>
          obtain ⟨hr1, rcc, hrcc, hri, hq, hgain, hbest⟩ := ho2 r.1 r.2 rfl
          obtain ⟨hro, x, y, hx, hxy, hy⟩ := (hglob r.1).1 hr1
          obtain ⟨hrs, _⟩ := hin r.1 hr1
          have hRL := h.live r.1 rcc hrcc
          simp only
          have hren : Ok (occ.fcs.elems.foldlM (fun f i => wr f i (some r.1)) c.fc2cc) (fun f' => f'.length = c.fc2cc.length ∧
              ∀ i : Nat, f'[i]? = if i ∈ occ.fcs then some (some r.1) else c.fc2cc[i]?) := by
            refine renameCells_ok (f := c.fc2cc) (s := occ.fcs) (fun x hx => ?_) r.1
            have := (h.views.get x old).1 ((hL.part x).1 hx)
            exact (List.getElem?_eq_some_iff.1 this).1
          refine Ok.bind hren ?_
          rintro f' ⟨hf1, hf2⟩
          rw [NMap.at_eq.2 hrcc, ok_bind, Ok_pure]
          refine ⟨(fun hn => by cases hn), ?_⟩
          intro c' hc'
          simp only [Option.some.injEq] at hc'
          subst hc'
          have hdisj : ∀ x ∈ occ.fcs, x ∉ rcc.fcs := by
            intro x hx hx'
            have e1 := (hL.part x).1 hx
            rw [(hRL.part x).1 hx'] at e1
            cases e1
            exact hro rfl
          have hget : ∀ (i j : Nat), (absorbed f old r.1)[i]? = some j ↔ f'[i]? = some (some j) := by
            intro i j
            rw [absorbed_get, hf2]
            by_cases hi : i ∈ occ.fcs
            · rw [if_pos ((hL.part i).1 hi), if_pos hi]; simp
            · rw [if_neg (fun e => hi ((hL.part i).2 e)), if_neg hi]; exact h.views.get i j
          refine ⟨r.1, by rw [hL.count]; exact h1, ⟨⟨by simp [absorbed, hlen], hget⟩, ?_, ?_, ?_, ?_, ?_, rfl, hf1⟩, ?_⟩
          · intro k
            rw [NMap.mem_keys_insert]
            constructor
            · rintro (rfl | hk)
              · exact NMap.mem_keys.2 ⟨rcc, hrcc⟩
              · exact hk
            · exact Or.inr
          · intro k cc' hko hk
            replace hk : (c.ccs.insert r.1 (rcc.insertCells occ.fcs r.2)).find? k = some cc' := hk
            rw [NMap.find?_insert] at hk
            by_cases hkr : k = r.1
            · rw [if_pos hkr] at hk
              cases hk
              subst hkr
              refine ⟨?_, ?_, hRL.iso, ?_⟩
              · intro i
                show i ∈ rcc.fcs.insertMany occ.fcs.elems ↔ _
                rw [NSet.mem_insertMany, absorbed_get, hRL.part, NSet.mem_elems, hL.part]
                by_cases hi : f[i]? = some old
                · simp [hi]
                · simp [hi]
              · refine ⟨?_, ?_⟩
                · show rcc.card + occ.fcs.card = (rcc.fcs.insertMany occ.fcs.elems).card
                  rw [card_insertMany_disjoint hdisj, hRL.card.1]
                · show 0 < rcc.card + occ.fcs.card
                  have := hRL.card.2
                  omega
              · intro _
                exact absorbsAll_sound hE.crs hE.sym rcc.fcs rcc.compact occ.fcs occ.compact x y r.2 (hRL.good hri)
                  (hL.good (by
                    obtain ⟨cc0, a1, a2, _⟩ := (hE.cinv.sing old).1 hold
                    exact hL.iso.2 ((hE.isoIff old cc0 a1).1 a2)))
                  (hRL.lt hlen) (hL.lt hlen) ((hL.part x).2 hx) ((hRL.part y).2 hy) hxy hq
            · rw [if_neg hkr] at hk
              have hk' := h.live k cc' hk
              refine ⟨?_, hk'.card, hk'.iso, hk'.good⟩
              intro i
              rw [hk'.part, absorbed_get]
              by_cases hi : f[i]? = some old
              · rw [if_pos hi, hi]
                simp [Ne.symm hkr, Ne.symm hko]
              · rw [if_neg hi]
          · intro k hk
            show (c.ccs.insert r.1 (rcc.insertCells occ.fcs r.2)).find? k = _
            rw [NMap.find?_insert, if_neg (by rintro rfl; exact hrs hk)]
          · intro i hi
            rw [absorbed_get, if_neg]
            rw [← hL.part]
            exact hi
          · intro i hi
            right
            refine ⟨r.1, ?_, hrs, x, hx, ?_⟩
            · rw [absorbed_get, if_pos ((hL.part i).1 hi)]
            · exact ⟨by rw [hx]; intro e; cases e; exact hro rfl, hRL.iso.1 hri, y, hxy, hy⟩
          · intro hu hl
            obtain ⟨b, hb, hb'⟩ := hmin hrcc
            rw [hq] at hb
            cases hb
            have e1 := (hRL.good hri).2 hu hl
            rw [hRL.fcs] at e1
            refine ⟨⟨hro, hRL.iso.1 hri, ⟨x, y, hx, hxy, hy⟩, _, _, e1, hb' hu, hgain⟩, ?_⟩
            intro s hs
            obtain ⟨a1, cc, b, a2, a3, a4, a5⟩ := hcand hu hl s hs
            have := hbest s a1 cc b a2 a3 a4 a5
            rw [hRL.count, (h.live s cc a2).count]
            exact this
  · rw [if_neg h1, Ok_pure]
    refine ⟨?_, (fun c' hc' => by cases hc')⟩
    intro _ _ _ hc
    rw [hL.count] at hc
    exact absurd hc h1

theorem CellByCell.trans {rp ci start xs ys f f1 f2 : List Nat} {m : Nat} (h : CellByCell rp ci m start xs f f1)
    (h' : CellByCell rp ci m start ys f1 f2) : CellByCell rp ci m start (xs ++ ys) f f2 := by
  induction h with
  | done => exact h'
  | stays hs _ ih => exact .stays hs (ih h')
  | given hs _ ih => exact .given hs (ih h')

theorem tryCells_exact (hE : AEnv g c0 f0 m) {pre f : List Nat} {c : Cont} {rem : NSet} (h : ThrInv g c0 f0 m pre f c rem)
    (hpre : ∀ k ∈ pre, k ∈ c0.singular) {old : Nat} (hold : old ∈ c0.singular) (hnew : old ∉ pre)
    {nb : List (Nat × NSet)} (hnb : NbOf g f old nb) :
    Ok (tryCells g c nb) (fun r => ∃ f1, Mid g c0 m f c old (nb.map Prod.fst) f1 r.2 ∧
      (r.1 = true ↔ ∃ e ∈ nb, ∃ s, Receiver g.rowPtr g.colInd f m e.1 s) ∧
      (UniqueRows g.rowPtr g.colInd → NoSelfLoop g.rowPtr g.colInd →
        CellByCell g.rowPtr g.colInd m f (nb.map Prod.fst) f f1)) := by
  have hlen := h.views.len
  unfold tryCells
  refine Ok.foldlM_prefix (I := fun (p : List (Nat × NSet)) (r : Bool × Cont) =>
    ∃ f1, Mid g c0 m f c old (p.map Prod.fst) f1 r.2 ∧
      (r.1 = true ↔ ∃ e ∈ p, ∃ s, Receiver g.rowPtr g.colInd f m e.1 s) ∧
      (UniqueRows g.rowPtr g.colInd → NoSelfLoop g.rowPtr g.colInd →
        CellByCell g.rowPtr g.colInd m f (p.map Prod.fst) f f1))
    ⟨f, ⟨h.views, fun _ => Iff.rfl, fun k cc _ hk => h.live k cc hk, fun _ _ => rfl, fun _ _ => rfl, by simp, rfl, rfl⟩, by simp,
      fun _ _ => .done⟩ ?_
  rintro p e post ⟨b, c1⟩ hsp ⟨f1, hM, hb, hC⟩
  simp only at hM hb ⊢
  have heb : e ∈ nb := by rw [hsp]; simp
  have hxo : f[e.1]? = some old := (hnb.cells e.1).1 (List.mem_map_of_mem heb)
  have hxn : e.1 < g.nbC := by rw [← hlen]; exact (List.getElem?_eq_some_iff.1 hxo).1
  have hxp : e.1 ∉ p.map Prod.fst := by
    intro hx
    have := hnb.nodup
    rw [hsp, List.map_append, List.nodup_append] at this
    exact this.2.2 e.1 hx e.1 (by simp) rfl
  have hx1 : f1[e.1]? = some old := by rw [hM.out e.1 hxp, hxo]
  have hnn : ∀ k ∈ e.2, k ≠ old ∧ k ∉ c0.singular ∧ ∃ cc, c1.ccs.find? k = some cc ∧ Live g m f1 k cc := by
    intro k hk
    obtain ⟨hko, j, hj1, hj2⟩ := (hnb.mem e heb k).1 hk
    obtain ⟨a, b⟩ := h.near hE hpre hold hnew hxo hj1 hj2 hko
    obtain ⟨cc, hcc⟩ := NMap.mem_keys.1 ((hM.keys k).2 b)
    exact ⟨hko, a, cc, hcc, hM.live k cc hko hcc⟩
  have hlen1 := hM.views.len
  -- nothing happens
  have hstay : (∀ r, ¬ Receiver g.rowPtr g.colInd f m e.1 r) →
      ∃ f2, Mid g c0 m f c old ((p ++ [e]).map Prod.fst) f2 c1 ∧
      (b = true ↔ ∃ e' ∈ p ++ [e], ∃ s, Receiver g.rowPtr g.colInd f m e'.1 s) ∧
      (UniqueRows g.rowPtr g.colInd → NoSelfLoop g.rowPtr g.colInd →
        CellByCell g.rowPtr g.colInd m f ((p ++ [e]).map Prod.fst) f f2) := by
    intro hno
    refine ⟨f1, ⟨hM.views, hM.keys, hM.live, hM.fix, ?_, ?_, hM.thresh, hM.lenF⟩, ?_, ?_⟩
    · intro i hi
      exact hM.out i (fun hp => hi (by rw [List.map_append]; exact List.mem_append_left _ hp))
    · intro i hi
      rw [List.map_append, List.mem_append] at hi
      rcases hi with hi | hi
      · exact hM.into i hi
      · simp only [List.map_cons, List.map_nil, List.mem_singleton] at hi
        subst hi
        left
        rw [hx1, hxo]
    · rw [hb]
      constructor
      · rintro ⟨e', he', s, hs⟩
        exact ⟨e', List.mem_append_left _ he', s, hs⟩
      · rintro ⟨e', he', s, hs⟩
        rcases List.mem_append.1 he' with he' | he'
        · exact ⟨e', he', s, hs⟩
        · rw [List.mem_singleton] at he'
          subst he'
          exact absurd hs (hno s)
    · intro hu hl
      rw [List.map_append]
      exact (hC hu hl).trans (.stays hno .done)
  by_cases hc0 : e.2.card = 0
  · rw [if_pos hc0, Ok_pure]
    refine hstay ?_
    intro r hr
    have := NSet.card_pos_iff.2 ⟨r, ((hnb.receiver heb r).1 hr).1⟩
    omega
  · rw [if_neg hc0]
    refine Ok.bind (selectCC_ok hE.crs hxn (fun k hk => ?_)) ?_
    · obtain ⟨_, _, cc, h1, h2⟩ := hnn k hk
      exact ⟨cc, h1, h2.lt hlen1⟩
    rintro o ⟨ho1, ho2⟩
    cases o with
    | none =>
      simp only [Ok_pure]
      refine hstay ?_
      intro r hr
      obtain ⟨h1, h2⟩ := (hnb.receiver heb r).1 hr
      obtain ⟨_, _, cc, h3, h4⟩ := hnn r h1
      have := ho1 rfl r h1 cc h3
      rw [h4.iso.2 h2] at this
      cases this
    | some r =>
      obtain ⟨b', hb1, hb2, hb3, hbf, hbest⟩ := ho2 r.1 r.2 rfl
      have hbf' := hbf
      obtain ⟨rcc, hr1, hr2, _, _, hr3, _⟩ := hbf'
      rw [hb1] at hb3 hr1
      rw [hb2] at hr3
      obtain ⟨hro, hrs, rcc', hrcc', hRL⟩ := hnn r.1 hb3
      rw [hr1] at hrcc'
      cases hrcc'
      obtain ⟨_, y, hxy, hyr⟩ := (hnb.mem e heb r.1).1 hb3
      have hy1 : f1[y]? = some r.1 := by
        rw [hM.out y, hyr]
        intro hy
        have : f[y]? = some old := (hnb.cells y).1 (by rw [hsp, List.map_append]; exact List.mem_append_left _ hy)
        rw [hyr] at this
        cases this
        exact hro rfl
      have hxl : e.1 < c1.fc2cc.length := (List.getElem?_eq_some_iff.1 ((hM.views.get e.1 old).1 hx1)).1
      have hrecv : Receiver g.rowPtr g.colInd f m e.1 r.1 := (hnb.receiver heb r.1).2 ⟨hb3, hRL.iso.1 hr2⟩
      simp only
      unfold moveCell
      rw [wr_of_lt hxl, ok_bind, NMap.at_eq.2 hr1]
      simp only [ok_bind, pure_bind, Ok_pure]
      have hset := getElem?_set_views hM.views hxn r.1
      have hset' : ∀ i : Nat, (c1.fc2cc.set e.1 (some r.1))[i]? = if i = e.1 then some (some r.1) else c1.fc2cc[i]? := by
        intro i
        rw [List.getElem?_set]
        by_cases hi : e.1 = i
        · subst hi; simp [hxl]
        · rw [if_neg hi, if_neg (fun h => hi h.symm)]
      have hxr : e.1 ∉ rcc.fcs := by
        rw [hRL.part, hx1]
        intro he
        cases he
        exact hro rfl
      refine ⟨f1.set e.1 r.1, ⟨⟨by simp [hlen1], ?_⟩, ?_, ?_, ?_, ?_, ?_, hM.thresh, by simp [hM.lenF]⟩, ?_, ?_⟩
      · intro i j
        show _ ↔ (c1.fc2cc.set e.1 (some r.1))[i]? = _
        rw [hset, hset']
        by_cases hi : i = e.1
        · simp [hi]
        · simp only [hi, if_false]; exact hM.views.get i j
      · intro k
        show k ∈ (c1.ccs.insert r.1 (rcc.insertCell e.1 r.2)).keys ↔ _
        rw [NMap.mem_keys_insert, hM.keys]
        constructor
        · rintro (rfl | hk)
          · exact (hM.keys _).1 (NMap.mem_keys.2 ⟨rcc, hr1⟩)
          · exact hk
        · exact Or.inr
      · intro k cc' hko hk
        replace hk : (c1.ccs.insert r.1 (rcc.insertCell e.1 r.2)).find? k = some cc' := hk
        rw [NMap.find?_insert] at hk
        by_cases hkr : k = r.1
        · rw [if_pos hkr] at hk
          cases hk
          subst hkr
          refine ⟨?_, ⟨?_, Nat.succ_pos _⟩, hRL.iso, ?_⟩
          · intro i
            show i ∈ rcc.fcs.insert e.1 ↔ _
            rw [NSet.mem_insert, hset, hRL.part]
            by_cases hi : i = e.1
            · simp [hi]
            · simp [hi]
          · show rcc.card + 1 = (rcc.fcs.insert e.1).card
            rw [NSet.card_insert hxr, hRL.card.1]
          · intro hi
            exact absorbs_sound hE.crs hE.sym rcc.fcs rcc.compact e.1 y r.2 (hRL.good hr2) (hRL.lt hlen1) hxr
              ((hRL.part y).2 hy1) hxy hr3
        · rw [if_neg hkr] at hk
          have hk' := hM.live k cc' hko hk
          refine ⟨?_, hk'.card, hk'.iso, hk'.good⟩
          intro i
          rw [hk'.part, hset]
          by_cases hi : i = e.1
          · subst hi
            rw [if_pos rfl, hx1]
            simp [Ne.symm hkr, Ne.symm hko]
          · rw [if_neg hi]
      · intro k hk
        show (c1.ccs.insert r.1 (rcc.insertCell e.1 r.2)).find? k = _
        rw [NMap.find?_insert, if_neg (by rintro rfl; exact hrs hk)]
        exact hM.fix k hk
      · intro i hi
        rw [List.map_append, List.mem_append] at hi
        rw [hset, if_neg (by rintro rfl; exact hi (Or.inr (by simp)))]
        exact hM.out i (fun h => hi (Or.inl h))
      · intro i hi
        by_cases hie : i = e.1
        · subst hie
          exact Or.inr ⟨r.1, by rw [hset, if_pos rfl], hrs, e.1, hxo, hrecv⟩
        · rw [List.map_append, List.mem_append] at hi
          rcases hi with hi | hi
          · rw [hset, if_neg hie]
            exact hM.into i hi
          · simp at hi; exact absurd hi hie
      · simp only [true_iff]
        exact ⟨e, by simp, r.1, hrecv⟩
      · intro hu hl
        rw [List.map_append]
        refine (hC hu hl).trans (.given ⟨hrecv, ?_⟩ .done)
        have hLive : ∀ (b : NbRec), b.id ∈ e.2 → ∀ cc, c1.ccs.find? b.id = some cc → Live g m f1 b.id cc := by
          intro b hb cc hcc
          exact hM.live b.id cc (hnn b.id hb).1 hcc
        obtain ⟨m1, m2, m3⟩ := nbFeat_live hE.crs hE.sym hu hl hlen1 hxn hbf (hLive b' (by rw [hb1]; exact hb3))
        rw [hb1] at m1 m2 m3
        intro s hs
        obtain ⟨h1, h2⟩ := (hnb.receiver heb s).1 hs
        obtain ⟨_, _, cc, h3, h4⟩ := hnn s h1
        have hi := h4.iso.2 h2
        obtain ⟨kk, hkk, _⟩ := (minCompactness_ok hE.crs (s := cc.fcs.insert e.1) (by
          intro z hz
          rcases NSet.mem_insert.1 hz with rfl | hz
          · exact hxn
          · exact h4.lt hlen1 z hz)).eq
        have hfeat : NbFeat g c1.ccs e.1 ⟨s, cc.card, facesWith g.rowPtr g.colInd e.1 cc.fcs, kk, decide (cc.compact < kk)⟩ :=
          ⟨cc, h3, hi, rfl, rfl, hkk, by simp⟩
        obtain ⟨n1, n2, n3⟩ := nbFeat_live hE.crs hE.sym hu hl hlen1 hxn hfeat (hLive _ h1)
        have := hbest _ h1 hfeat
        simp only at n1 n2 n3 this
        rcases this with ⟨e1, e2⟩ | ⟨e1, e2⟩
        · left
          refine ⟨m3.1 e1, fun hg => ?_⟩
          rw [n3.2 hg] at e2; cases e2
        · right
          refine ⟨by rw [← m3, ← n3, e1], ?_⟩
          unfold Pref at e2
          simp only at e2
          unfold Closer
          rw [← m1, ← m2, ← n1, ← n2, ← hb1]
          exact e2

/-- treatment of one small coarse cell, its fine cells being taken in the order `xs`: resulting map, and
whether the coarse cell is removed (the cases of `TreatsSmall`) -/
inductive StepT (rp ci : List Nat) (m k : Nat) (xs f : List Nat) : List Nat → Bool → Prop where
  | whole {r} : 1 < f.count k → BestWhole rp ci f m k r → StepT rp ci m k xs f (absorbed f k r) true
  | cells {f1} : (1 < f.count k → ∀ r, ¬ WholeReceiver rp ci f m k r) → (∃ x ∈ xs, ∃ r, Receiver rp ci f m x r) →
      CellByCell rp ci m f xs f f1 → StepT rp ci m k xs f f1 true
  | alone : (∀ x : Nat, f[x]? = some k → ∀ r, ¬ Receiver rp ci f m x r) → StepT rp ci m k xs f f false

theorem StepT.treats {rp ci xs f f' : List Nat} {m k : Nat} {b : Bool} (h : StepT rp ci m k xs f f' b) (hn : xs.Nodup)
    (hx : ∀ x : Nat, x ∈ xs ↔ f[x]? = some k) {ks D f2 D2 : List Nat}
    (ht : TreatsSmall rp ci m ks f' (if b then k :: D else D) f2 D2) : TreatsSmall rp ci m (k :: ks) f D f2 D2 := by
  cases h with
  | whole h1 h2 => exact .whole h1 h2 ht
  | cells h1 h2 h3 => exact .cells h1 hn hx h2 h3 ht
  | alone h1 => exact .alone h1 ht

/-- the cells of a small coarse cell whose turn has not come are those it had at first -/
theorem ThrInv.untouched (hE : AEnv g c0 f0 m) {pre f : List Nat} {c : Cont} {rem : NSet} (h : ThrInv g c0 f0 m pre f c rem)
    {old : Nat} (hold : old ∈ c0.singular) (hnew : old ∉ pre) (x : Nat) : x ∈ fcsOf f0 old ↔ f[x]? = some old := by
  obtain ⟨occ, hocc0, _⟩ := (hE.cinv.sing old).1 hold
  have h1 := (ThrInv_init hE).live old occ hocc0
  have h2 := h.live old occ (by rw [h.fix old hold hnew, hocc0])
  rw [← h1.fcs, h2.part]

theorem correctStep_step (hE : AEnv g c0 f0 m) (hh : Hash) {pre f : List Nat} {c : Cont} {rem : NSet}
    (h : ThrInv g c0 f0 m pre f c rem) (hpre : ∀ k ∈ pre, k ∈ c0.singular) {old : Nat} (hold : old ∈ c0.singular)
    (hnew : old ∉ pre) :
    Ok (correctStep g hh (c, rem) old) (fun r => ∃ f' b, ThrInv g c0 f0 m (pre ++ [old]) f' r.1 r.2 ∧ (b = true ↔ old ∈ r.2) ∧
      (UniqueRows g.rowPtr g.colInd → NoSelfLoop g.rowPtr g.colInd →
        StepT g.rowPtr g.colInd m old (hh.ord 5 (fcsOf f0 old).elems) f f' b) ∧
      (∀ k, k ∈ r.2 ↔ k ∈ rem ∨ (k = old ∧ old ∈ r.2))) := by
  obtain ⟨occ, hocc0, hoi0, hcard0⟩ := (hE.cinv.sing old).1 hold
  have hocc : c.ccs.find? old = some occ := by rw [h.fix old hold hnew, hocc0]
  have hL := h.live old occ hocc
  have hlen := h.views.len
  have hfc : fcsOf f0 old = occ.fcs := ((ThrInv_init hE).live old occ hocc0).fcs.symm
  unfold correctStep
  simp only
  rw [NMap.at_eq.2 hocc, ok_bind, h.thresh, if_pos hcard0]
  refine Ok.bind (neighsByFc_ok hE.crs hh h.total old (hL.lt hlen)) ?_
  rintro nb ⟨hnb1, hnb2⟩
  have hperm := hh.perm 5 occ.fcs.elems
  have hnb : NbOf g f old nb := by
    refine ⟨?_, ?_, ?_⟩
    · rw [hnb1]
      exact hperm.symm.nodup (occ.fcs.sorted.imp Nat.ne_of_lt)
    · intro i
      rw [hnb1, hperm.mem_iff, ← hL.part]; rfl
    · intro e he k
      rw [hnb2 e he k]
      simp only [h.views.get]
  refine Ok.bind (tryWhole_exact hE h hpre hold hnew hocc hnb) ?_
  rintro w ⟨hw1, hw2⟩
  cases w with
  | some c' =>
    obtain ⟨r, hr1, hr2, hr3⟩ := hw2 c' rfl
    simp only [Ok_pure]
    have hd : old ∈ (dropCC c' rem old).2 := NSet.mem_insert.2 (Or.inl rfl)
    refine ⟨absorbed f old r, true, h.drop hold (fun i hi => (hL.part i).1 hi) hr2, by simp [hd], ?_, ?_⟩
    · intro hu hl
      exact .whole hr1 (hr3 hu hl)
    · intro k
      show k ∈ rem.insert old ↔ _
      rw [NSet.mem_insert]
      constructor
      · rintro (rfl | hk)
        · exact Or.inr ⟨rfl, hd⟩
        · exact Or.inl hk
      · rintro (hk | ⟨rfl, _⟩)
        · exact Or.inr hk
        · exact Or.inl rfl
  | none =>
    have hw := hw1 rfl
    refine Ok.bind (tryCells_exact hE h hpre hold hnew hnb) ?_
    rintro ⟨b, c1⟩ ⟨f1, hM, hb, hC⟩
    simp only at hM hb ⊢
    rw [Ok_pure]
    cases b with
    | true =>
      rw [if_pos rfl]
      have hd : old ∈ (dropCC c1 rem old).2 := NSet.mem_insert.2 (Or.inl rfl)
      refine ⟨f1, true, h.drop hold (fun i hi => (hnb.cells i).1 hi) hM, by simp [hd], ?_, ?_⟩
      · intro hu hl
        obtain ⟨e, he, s, hs⟩ := hb.1 rfl
        rw [hfc, ← hnb1]
        exact .cells (hw hu hl) ⟨e.1, List.mem_map_of_mem he, s, hs⟩ (hC hu hl)
      · intro k
        show k ∈ rem.insert old ↔ _
        rw [NSet.mem_insert]
        constructor
        · rintro (rfl | hk)
          · exact Or.inr ⟨rfl, hd⟩
          · exact Or.inl hk
        · rintro (hk | ⟨rfl, _⟩)
          · exact Or.inr hk
          · exact Or.inl rfl
    | false =>
      rw [if_neg (by simp)]
      have hno : ∀ x : Nat, f[x]? = some old → ∀ r, ¬ Receiver g.rowPtr g.colInd f m x r := by
        intro x hx r hr
        obtain ⟨e, he, rfl⟩ := List.mem_map.1 ((hnb.cells x).2 hx)
        exact absurd (hb.2 ⟨e, he, r, hr⟩) (by simp)
      have hff : f1 = f := by
        apply List.ext_getElem?
        intro i
        by_cases hi : i ∈ nb.map Prod.fst
        · rcases hM.into i hi with h1 | ⟨r, _, _, x, hx, hr⟩
          · exact h1
          · exact absurd hr (hno x hx r)
        · exact hM.out i hi
      subst hff
      have hor : old ∉ rem := fun hr => hnew (h.remIn old hr)
      have hT : ThrInv g c0 f0 m pre f1 c1 rem := by
        refine ⟨hM.views, fun k => by rw [hM.keys, h.keys], ?_, fun k hk hkp => by rw [hM.fix k hk, h.fix k hk hkp], h.dest, h.range, h.remIn,
          by rw [hM.thresh, h.thresh], by rw [hM.lenF, h.lenF]⟩
        intro k cc hk
        by_cases hko : k = old
        · subst hko
          rw [hM.fix k hold] at hk
          exact h.live k cc hk
        · exact hM.live k cc hko hk
      refine ⟨f1, false, hT.keep old, by simp [hor], ?_, ?_⟩
      · intro _ _
        exact .alone hno
      · intro k
        simp only
        constructor
        · exact Or.inl
        · rintro (hk | ⟨_, hk⟩)
          · exact hk
          · exact absurd hk hor

theorem correctLoop_any (hE : AEnv g c0 f0 m) (hh : Hash) :
    ∀ (post pre : List Nat), c0.singular = pre ++ post → ∀ (c : Cont) (rem : NSet) (f D : List Nat),
      ThrInv g c0 f0 m pre f c rem → (∀ k, k ∈ D ↔ k ∈ rem) →
      Ok (post.foldlM (correctStep g hh) (c, rem)) (fun r => ∃ f1 D1, ThrInv g c0 f0 m c0.singular f1 r.1 r.2 ∧
        (∀ k, k ∈ D1 ↔ k ∈ r.2) ∧
        (UniqueRows g.rowPtr g.colInd → NoSelfLoop g.rowPtr g.colInd → TreatsSmall g.rowPtr g.colInd m post f D f1 D1)) := by
  intro post
  induction post with
  | nil =>
    intro pre hsp c rem f D h hD
    rw [List.foldlM_nil, Ok_pure]
    rw [List.append_nil] at hsp
    rw [hsp]
    exact ⟨f, D, h, hD, fun _ _ => .done⟩
  | cons k ks ih =>
    intro pre hsp c rem f D h hD
    rw [List.foldlM_cons]
    have hk : k ∈ c0.singular := by rw [hsp]; simp
    have hkp : k ∉ pre := by
      intro hp
      have hs := hE.cinv.singSorted
      rw [hsp, List.pairwise_append] at hs
      exact absurd (hs.2.2 k hp k (by simp)) (Nat.lt_irrefl k)
    have hpre : ∀ j ∈ pre, j ∈ c0.singular := fun j hj => by rw [hsp]; simp [hj]
    refine Ok.bind (correctStep_step hE hh h hpre hk hkp) ?_
    rintro ⟨c', rem'⟩ ⟨f', b, h', hb, hT, hr⟩
    simp only at h' hb hT hr
    have hperm := hh.perm 5 (fcsOf f0 k).elems
    refine Ok.mono (ih (pre ++ [k]) (by rw [hsp]; simp) c' rem' f' (if b then k :: D else D) h' ?_) ?_
    · intro j
      rw [hr]
      cases b with
      | true =>
        rw [if_pos rfl, List.mem_cons, hD]
        constructor
        · rintro (rfl | hj)
          · exact Or.inr ⟨rfl, hb.1 rfl⟩
          · exact Or.inl hj
        · rintro (hj | ⟨rfl, _⟩)
          · exact Or.inr hj
          · exact Or.inl rfl
      | false =>
        rw [if_neg (by simp), hD]
        constructor
        · exact Or.inl
        · rintro (hj | ⟨_, hj⟩)
          · exact hj
          · exact absurd (hb.2 hj) (by simp)
    · rintro r ⟨f1, D1, a1, a2, a3⟩
      refine ⟨f1, D1, a1, a2, fun hu hl => (hT hu hl).treats ?_ ?_ (a3 hu hl)⟩
      · exact hperm.symm.nodup ((fcsOf f0 k).sorted.imp Nat.ne_of_lt)
      · intro x
        rw [hperm.mem_iff, NSet.mem_elems]
        exact h.untouched hE hk hkp x

/-- renumbering of the coarse cells that are left -/
theorem ThrInv.renum {pre f D : List Nat} {c c' : Cont} {rem : NSet} (h : ThrInv g c0 f0 m pre f c rem)
    (hD : ∀ k, k ∈ D ↔ k ∈ rem) {N : Nat} {φ : Nat → Nat} (hr : RenumG c c' N φ) :
    Views g.nbC (renumberedBut f D) c' := by
  have hrank : ∀ k ∈ c.ccs.keys, ((List.range k).filter (fun j => decide (j ∉ D))).length = φ k := by
    intro k hk
    have hkc := ((h.keys k).1 hk).1
    rw [← rank_eq (f := c.ccs.keys) (N := N) (φ := φ) hr.mono ?_ ?_ hk]
    · congr 1
      refine List.filter_congr ?_
      intro j hj
      rw [List.mem_range] at hj
      rw [decide_eq_decide, h.keys, hD]
      constructor
      · exact fun e => ⟨by omega, e⟩
      · exact fun e => e.2
    · intro a ha
      obtain ⟨cc, hcc⟩ := NMap.mem_keys.1 ha
      exact (hr.keys _).1 (NMap.mem_keys.2 ⟨cc, hr.ccs a cc hcc⟩)
    · intro t ht
      obtain ⟨j, hj, hjt⟩ := hr.onto t ht
      exact ⟨j, hj, hjt⟩
  have hmap : ∀ (i : Nat) k, f[i]? = some k → (renumberedBut f D)[i]? = some (if k ∈ D then k else φ k) := by
    intro i k hk
    unfold renumberedBut
    rw [List.getElem?_map, hk, Option.map_some]
    congr 1
    by_cases hkD : k ∈ D
    · rw [if_pos hkD, if_pos hkD]
    · rw [if_neg hkD, if_neg hkD]
      exact hrank k ((h.keys k).2 ⟨h.range i k hk, fun hn => hkD ((hD k).2 hn)⟩)
  have hmap' : ∀ (i : Nat) k, f[i]? = some k → c'.fc2cc[i]? = some (some (if k ∈ D then k else φ k)) := by
    intro i k hk
    have hk' := (h.views.get i k).1 hk
    by_cases hkD : k ∈ D
    · rw [if_pos hkD, hr.out i, hk']
      intro j hj hjk
      rw [hk'] at hj
      cases hj
      exact ((h.keys k).1 hjk).2 ((hD k).1 hkD)
    · rw [if_neg hkD]
      exact hr.map i k hk' ((h.keys k).2 ⟨h.range i k hk, fun hn => hkD ((hD k).2 hn)⟩)
  refine ⟨by simp [renumberedBut, h.views.len], ?_⟩
  intro i j
  by_cases hi : i < f.length
  · have hk := List.getElem?_eq_getElem hi
    rw [hmap i _ hk, hmap' i _ hk]
    simp
  · have h1 : (renumberedBut f D)[i]? = none := by
      rw [List.getElem?_eq_none]; simp [renumberedBut]; omega
    have h2 : c'.fc2cc[i]? = none := by
      have hl : c.fc2cc.length = f.length := by rw [h.lenF, h.views.len]
      rw [List.getElem?_eq_none]
      rw [hr.len]; omega
    rw [h1, h2]; simp

theorem smalls_eq (hE : AEnv g c0 f0 m) : c0.singular = smallsOf f0 m c0.thresh c0.counter := by
  refine sorted_ext hE.cinv.singSorted ?_ ?_
  · unfold smallsOf
    exact List.pairwise_lt_range.filter _
  · intro k
    unfold smallsOf
    rw [hE.cinv.sing, List.mem_filter, List.mem_range]
    simp only [Bool.and_eq_true, decide_eq_true_eq]
    have hcount : ∀ cc, c0.ccs.find? k = some cc → f0.count k = cc.card := fun cc hcc => ((ThrInv_init hE).live k cc hcc).count
    constructor
    · rintro ⟨cc, h1, h2, h3⟩
      exact ⟨(hE.cinv.keys k).1 (NMap.mem_keys.2 ⟨cc, h1⟩), (hE.isoIff k cc h1).1 h2, by rw [hcount cc h1]; exact h3⟩
    · rintro ⟨h1, h2, h3⟩
      obtain ⟨cc, hcc⟩ := hE.cinv.keys' h1
      exact ⟨cc, hcc, (hE.isoIff k cc hcc).2 h2, by rw [← hcount cc hcc]; exact h3⟩

/-- the last part of the correction -/
theorem ThrInv.after (hE : AEnv g c0 f0 m) {f1 D : List Nat} {c1 : Cont} {rem : NSet} (h : ThrInv g c0 f0 m c0.singular f1 c1 rem)
    (hD : ∀ k, k ∈ D ↔ k ∈ rem) :
    Ok (match rem.elems with
      | [] => pure c1
      | first :: _ => renumber c1 first) (fun c' => Views g.nbC (renumberedBut f1 D) c' ∧ c'.fc2cc.length = g.nbC) := by
  split
  · rename_i hrem
    rw [Ok_pure]
    have hnr : ∀ k, k ∉ rem := by
      intro k hk; rw [← NSet.mem_elems, hrem] at hk; simp at hk
    refine ⟨h.renum hD (N := c0.counter) (φ := id)
      ⟨fun i k hk _ => hk, fun _ _ => rfl, rfl, fun k cc hk => hk, ?_, ?_, fun a b _ _ hab => hab⟩, h.lenF⟩
    · intro k; rw [h.keys]; simp [hnr]
    · intro k hk; exact ⟨k, (h.keys k).2 ⟨hk, hnr k⟩, rfl⟩
  · rename_i first l hrem
    have hfr : first ∈ rem := by rw [← NSet.mem_elems, hrem]; simp
    have hmin : ∀ k, k ∈ rem → first ≤ k := by
      intro k hk
      have hs := rem.sorted
      rw [← NSet.mem_elems] at hk
      rw [hrem] at hk hs
      rcases List.mem_cons.1 hk with rfl | hk
      · exact Nat.le_refl _
      · exact Nat.le_of_lt ((List.pairwise_cons.1 hs).1 k hk)
    have hflt := hE.sing_lt (h.remIn first hfr)
    refine Ok.mono (renumber_gen (first := first) ?_ ?_) ?_
    · intro k hk
      exact (h.keys k).2 ⟨by omega, fun hkr => by have := hmin k hkr; omega⟩
    · intro k cc hk i
      rw [(h.live k cc hk).part, h.views.get]
    · rintro c' ⟨N, φ, hr, _⟩
      exact ⟨h.renum hD hr, by rw [hr.len, h.lenF]⟩

/-- correction with any threshold succeeds and is the one specified -/
theorem correct_any (hE : AEnv g c0 f0 m) (hh : Hash) :
    Ok (c0.correct g hh) (fun c' => ∃ f1 D c1 rem, ThrInv g c0 f0 m c0.singular f1 c1 rem ∧ (∀ k, k ∈ D ↔ k ∈ rem) ∧
      Views g.nbC (renumberedBut f1 D) c' ∧ c'.fc2cc.length = g.nbC ∧
      (UniqueRows g.rowPtr g.colInd → NoSelfLoop g.rowPtr g.colInd →
        TreatsSmall g.rowPtr g.colInd m (smallsOf f0 m c0.thresh c0.counter) f0 [] f1 D)) := by
  unfold Cont.correct
  refine Ok.bind (correctLoop_any hE hh c0.singular [] rfl c0 NSet.empty f0 [] (ThrInv_init hE) (by simp)) ?_
  rintro ⟨c1, rem⟩ ⟨f1, D, h, hD, hT⟩
  rw [smalls_eq hE] at hT
  refine Ok.mono (h.after hE hD) ?_
  rintro c' ⟨h1, h2⟩
  exact ⟨f1, D, c1, rem, h, hD, h1, h2, hT⟩

end

end CoMMA
