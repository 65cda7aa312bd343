import Verif.Spec.Shape
import Verif.Lemmas.FeatureStep
import Verif.Lemmas.GreedyRun
import Verif.Lemmas.Best
import Verif.Props.Neighbourhood
/-! # Growth by the aspect ratio of the enlarged coarse cell -/

set_option linter.unusedSectionVars false

namespace CoMMA

variable {W : Type} [Num W]

theorem FirstBest.forget {F : Type} {R : Nat → Merit W → F → Prop} {R' : Nat → Merit W → Unit → Prop} {cands : List Nat}
    {c : Nat} {m : Merit W} {f : F} (h : FirstBest R cands c m f) (hR : ∀ x ∈ cands, ∀ m f, R x m f → R' x m ()) :
    FirstBest R' cands c m () := by
  obtain ⟨μ, h1, h2, h3, h4⟩ := h
  refine ⟨fun x => ((μ x).1, ()), fun x hx => hR x hx _ _ (h1 x hx), by simp [h2], h3, h4⟩

theorem hasMerit_true {E : IsoEnv W (Feats W)} {kind : ARKind} {hh : Hash} (hF : FeatInput E.g kind) (hk : kind ≠ .unknown)
    (hA : E.ar = arOf E.g hh kind) {d : NMap Nat} {f f' : Feats W} {cc : NSet} {c : Nat} {m : Merit W}
    (hc : c < E.g.nbC) (hcc : ∀ y ∈ cc, y < E.g.nbC) (hne : ∃ y, y ∈ cc) (hni : c ∉ cc) (hf : FeatsOf E.g kind cc f)
    (h : HasMerit E d f cc c m f') : TrueMerit E.g kind d cc c m ∧ FeatsOf E.g kind (cc.insert c) f' := by
  obtain ⟨n, hn⟩ := h.ar
  rw [hA] at hn
  obtain ⟨r, hr, h1, h2, h3⟩ := (featsOf_compute hF hh hk hc hcc hne hni hf).eq
  rw [hr] at hn
  cases hn
  exact ⟨⟨h.faces, h.order, h2⟩, h3⟩

theorem Candidates.front {g : Graph W} {kind : NbhKind} {prio : List W} {al : NSet} {xs l : List Nat}
    (h : Candidates g kind prio al xs l) {x : Nat} (hx : x ∈ l) : InFront g.rowPtr g.colInd al xs x := by
  cases kind with
  | extended => exact (h.1 x).1 hx
  | pureFront =>
    by_cases hd : xs.length ≤ g.dim
    · exact (h.2.1 hd x).1 hx
    · rcases h.2.2 (by omega) with ⟨h1, _⟩ | ⟨_, i, y, _, h1, _⟩
      · rw [h1] at hx; cases hx
      · exact ((h1 x).1 hx).1

theorem look_true {E : IsoEnv W (Feats W)} {kind : ARKind} {hh : Hash} (hF : FeatInput E.g kind) (hk : kind ≠ .unknown)
    (hA : E.ar = arOf E.g hh kind) {d : NMap Nat} (k : Nat) : ∀ {f f' : Feats W} {c : Nat} {m : Merit W} {xs l : List Nat},
    Candidates E.g E.nbh E.pool.prio d.keySet xs l → (∀ y ∈ xs, y < E.g.nbC) → xs ≠ [] → FeatsOf E.g kind (NSet.ofList xs) f →
    c ∈ l → LookAhead E d.keySet d k xs f c m f' →
    TrueLook E kind d k xs c m () ∧ FeatsOf E.g kind (NSet.ofList (xs ++ [c])) f' := by
  have hbase : ∀ {f f' : Feats W} {c : Nat} {m : Merit W} {xs l : List Nat},
      Candidates E.g E.nbh E.pool.prio d.keySet xs l → (∀ y ∈ xs, y < E.g.nbC) → xs ≠ [] → FeatsOf E.g kind (NSet.ofList xs) f →
      c ∈ l → HasMerit E d f (NSet.ofList xs) c m f' → c < E.g.nbC ∧
      TrueMerit E.g kind d (NSet.ofList xs) c m ∧ FeatsOf E.g kind (NSet.ofList (xs ++ [c])) f' := by
    intro f f' c m xs l hl hlt hne hf hc h
    obtain ⟨_, h2, y, hy, hyc⟩ := hl.front hc
    have hcl := (hF.crs.adj_lt hyc).2
    rw [ofList_append]
    exact ⟨hcl, hasMerit_true hF hk hA hcl (fun y hy => hlt y (NSet.mem_ofList.1 hy)) ⟨y, NSet.mem_ofList.2 hy⟩
      (fun hx => h2 (NSet.mem_ofList.1 hx)) hf h⟩
  induction k with
  | zero =>
    intro f f' c m xs l hl hlt hne hf hc h
    exact (hbase hl hlt hne hf hc h).2
  | succ k ih =>
    intro f f' c m xs l hl hlt hne hf hc h
    obtain ⟨m0, l', hm, hl', hrest⟩ := h
    obtain ⟨hcl, t1, t2⟩ := hbase hl hlt hne hf hc hm
    refine ⟨⟨m0, l', t1, hl', ?_⟩, t2⟩
    rcases hrest with hrest | ⟨c2, m2, f2, hb, hm2⟩
    · exact Or.inl hrest
    · refine Or.inr ⟨c2, m2, hb.forget ?_, hm2⟩
      intro x hx m f hlk
      refine (ih hl' ?_ (by simp) t2 hx hlk).1
      intro x hx
      rcases List.mem_append.1 hx with hx | hx
      · exact hlt x hx
      · rw [List.mem_singleton.1 hx]; exact hcl

theorem GreedySeq.ne_nil {F : Type} {E : IsoEnv W F} {d : NMap Nat} {hi : Nat} {xs : List Nat} {f : F}
    (h : GreedySeq E d hi xs f) : xs ≠ [] := by
  cases h <;> simp

theorem greedy_shaped {E : IsoEnv W (Feats W)} {kind : ARKind} {hh : Hash} (hF : FeatInput E.g kind) (hk : kind ≠ .unknown)
    (hA : E.ar = arOf E.g hh kind) {d : NMap Nat} {hi : Nat} {xs : List Nat} {f : Feats W}
    (h : GreedySeq E d hi xs f) : ∀ {s : Nat}, xs.head? = some s → s < E.g.nbC →
    ShapedSeq E kind d hi xs ∧ FeatsOf E.g kind (NSet.ofList xs) f ∧ (∀ x ∈ xs, x < E.g.nbC) := by
  induction h with
  | @seed s f h =>
    intro s' hs hlt
    simp only [List.head?_cons, Option.some.injEq] at hs
    subst hs
    rw [hA] at h
    obtain ⟨r, hr, h1⟩ := (featsOf_init hF hlt).eq
    have : (arOf E.g hh kind).init s = Feats.init E.g s := rfl
    rw [this, hr] at h
    cases h
    refine ⟨ShapedSeq.seed, ?_, by simpa using hlt⟩
    exact h1
  | @next xs l f f' c m hg hn hb ih =>
    intro s hs hlt
    have hne : xs ≠ [] := hg.ne_nil
    have hs' : xs.head? = some s := by
      cases xs with
      | nil => exact absurd rfl hne
      | cons a xs => simpa using hs
    obtain ⟨h1, h2, h3⟩ := ih hs' hlt
    obtain ⟨hcm, hcl⟩ := hb.mem
    obtain ⟨_, _, y, _, hyc⟩ := hn.front hcm
    refine ⟨ShapedSeq.next h1 hn (hb.forget ?_), (look_true hF hk hA _ hn h3 hne h2 hcm hcl).2, ?_⟩
    · intro x hx m f hl
      exact (look_true hF hk hA _ hn h3 hne h2 hx hl).1
    · intro x hx
      rcases List.mem_append.1 hx with hx | hx
      · exact h3 x hx
      · rw [List.mem_singleton.1 hx]; exact (hF.crs.adj_lt hyc).2

theorem GrownCell.mono {F : Type} {E : IsoEnv W F} {G G' : NMap Nat → Nat → List Nat → Prop} {agg : List Bool} {seed order : Nat} {s : NSet}
    (h : GrownCell E G agg seed order s) (hmin : 1 ≤ E.minCard)
    (hG : ∀ d hi xs, xs.head? = some seed → seed ∈ s → G d hi xs → G' d hi xs) :
    GrownCell E G' agg seed order s := by
  obtain ⟨d, h1, h2, h3, h4, h5⟩ := h
  refine ⟨d, h1, h2, h3, h4, fun hh => ?_⟩
  obtain ⟨xs, κ, m, g1, g2, g3⟩ := h5 hh
  refine ⟨xs, κ, m, hG _ _ _ g2 ?_ g1, g2, g3⟩
  obtain ⟨_, _, _, hb, hs⟩ := g3
  rw [hs, NSet.mem_ofList]
  have hm := hb.1
  cases xs with
  | nil => cases g2
  | cons a xs =>
    simp only [List.head?_cons, Option.some.injEq] at g2
    subst g2
    obtain ⟨m', rfl⟩ : ∃ m', m = m' + 1 := ⟨m - 1, by omega⟩
    simp

end CoMMA
