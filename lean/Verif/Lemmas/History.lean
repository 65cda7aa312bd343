import Verif.Model.History
import Verif.Lemmas.HashTag
/-! # A call with changing iteration orders does what the call with one order does -/

set_option linter.unusedSectionVars false

namespace CoMMA

variable {W F : Type} [Num W]

/-- `m` gives the result of `m0`, whatever number of iterations have been done -/
def SameAs {α : Type} (m : HM α) (m0 : M α) : Prop := ∀ t, (m t).map Prod.fst = m0

namespace SameAs

theorem pure {α : Type} (a : α) : SameAs (Pure.pure a : HM α) (Pure.pure a) := fun _ => rfl

theorem plainly {α : Type} (m : M α) : SameAs (CoMMA.plainly m) m := by
  intro t
  unfold CoMMA.plainly
  cases m <;> rfl

theorem iteration {α : Type} {Ω : Nat → Hash} {f : Hash → M α} {m0 : M α} (h : ∀ t, f (Ω t) = m0) :
    SameAs (CoMMA.iteration Ω f) m0 := by
  intro t
  unfold CoMMA.iteration
  rw [h]
  cases m0 <;> rfl

theorem bind {α β : Type} {m : HM α} {m0 : M α} {f : α → HM β} {f0 : α → M β} (h : SameAs m m0)
    (hf : ∀ a, SameAs (f a) (f0 a)) : SameAs (m >>= f) (m0 >>= f0) := by
  intro t
  have := h t
  show ((m t >>= fun p => f p.1 p.2 : M (β × Nat))).map Prod.fst = m0 >>= f0
  cases hm : m t with
  | error e =>
    rw [hm] at this
    rw [← this]; rfl
  | ok r =>
    rw [hm] at this
    rw [← this]
    exact hf r.1 r.2

theorem ite {α : Type} {c : Prop} [Decidable c] {m m' : HM α} {m0 m0' : M α} (h : SameAs m m0) (h' : SameAs m' m0') :
    SameAs (if c then m else m') (if c then m0 else m0') := by
  split
  · exact h
  · exact h'

theorem foldlM {α β : Type} {f : β → α → HM β} {f0 : β → α → M β} (h : ∀ b a, SameAs (f b a) (f0 b a)) (l : List α) (b : β) :
    SameAs (l.foldlM f b) (l.foldlM f0 b) := by
  induction l generalizing b with
  | nil => exact SameAs.pure b
  | cons a l ih =>
    rw [List.foldlM_cons, List.foldlM_cons]
    exact (h b a).bind ih

/-- a fold whose steps agree as long as an invariant holds -/
theorem foldlM_inv {α β : Type} {f : β → α → HM β} {f0 : β → α → M β} {l : List α} {b : β} {I : List α → β → Prop}
    (h0 : I [] b) (hs : ∀ pre a post b, l = pre ++ a :: post → I pre b → Ok (f0 b a) (I (pre ++ [a])))
    (he : ∀ pre a post b, l = pre ++ a :: post → I pre b → SameAs (f b a) (f0 b a)) :
    SameAs (l.foldlM f b) (l.foldlM f0 b) := by
  have key : ∀ (post pre : List α) (b : β), l = pre ++ post → I pre b → SameAs (post.foldlM f b) (post.foldlM f0 b) := by
    intro post
    induction post with
    | nil => intro _ b _ _; exact SameAs.pure b
    | cons a post ih =>
      intro pre b hl hI t
      rw [List.foldlM_cons, List.foldlM_cons]
      obtain ⟨b', hb', hI'⟩ := (hs pre a post b hl hI).eq
      have h1 := he pre a post b hl hI t
      rw [hb'] at h1 ⊢
      show ((f b a t >>= fun p => post.foldlM f p.1 p.2 : M (β × Nat))).map Prod.fst = post.foldlM f0 b'
      cases hm : f b a t with
      | error e => rw [hm] at h1; cases h1
      | ok r =>
        rw [hm] at h1
        injection h1 with h1
        have := ih (pre ++ [a]) b' (by simp [hl]) hI' r.2
        rw [← h1] at this ⊢
        exact this
  exact key l [] b rfl h0

end SameAs

theorem nbhLoopH_same (Ω : Nat → Hash) (g : Graph W) (h : Hash) (agg : List Bool) (no mc fuel : Nat) (s : NbhState) :
    SameAs (nbhLoopH Ω g agg no mc fuel s) (g.nbhLoop h agg no mc fuel s) := by
  induction fuel generalizing s with
  | zero =>
    unfold nbhLoopH Graph.nbhLoop
    exact (SameAs.plainly _).ite (SameAs.pure _)
  | succ fuel ih =>
    unfold nbhLoopH Graph.nbhLoop
    refine SameAs.ite ?_ (SameAs.pure _)
    refine (SameAs.iteration (fun k => nbhLayer_hash g (Ω k) h _ _ _ _)).bind (fun cur => ?_)
    exact (SameAs.pure _).ite (ih _)

theorem neighbourhoodH_same (Ω : Nat → Hash) (g : Graph W) (h : Hash) (seeds : NSet) (no mc : Nat) (agg : List Bool) :
    SameAs (neighbourhoodH Ω g seeds no mc agg) (g.neighbourhood h seeds no mc agg) := by
  unfold neighbourhoodH Graph.neighbourhood
  exact (SameAs.plainly _).bind (fun _ => (nbhLoopH_same Ω g h agg no mc _ _).bind (fun _ => SameAs.pure _))

section
variable {A : Hash → ARComp W F} {E : IsoEnv W F} {Ω : Nat → Hash} (hA : ∀ t, (A (Ω t)).compute = E.ar.compute)
include hA

theorem bicBestH_same (cands : List Nat) (d : NMap Nat) (feats : F) (cc : NSet) :
    SameAs (bicBestH Ω A E cands d feats cc) (bicBest E cands d feats cc) := by
  unfold bicBestH bicBest
  refine (SameAs.plainly _).bind (fun a0 => (SameAs.foldlM (fun s i => ?_) _ _).bind (fun s => SameAs.pure _))
  unfold bicStepH bicStep
  exact (SameAs.iteration (fun k => by rw [hA])).bind (fun r => SameAs.plainly _)

theorem iterBestH_same (d : NMap Nat) (k : Nat) (nb : Nbh W) (feats : F) (cc : NSet) :
    SameAs (iterBestH Ω A E d k nb feats cc) (iterBest E d k nb feats cc) := by
  induction k generalizing nb feats cc with
  | zero =>
    unfold iterBestH iterBest
    refine (SameAs.foldlM (fun s i => ?_) _ _).bind (fun s => SameAs.pure _)
    exact (SameAs.iteration (fun k => by rw [hA])).bind (fun r => (SameAs.plainly _).bind (fun _ =>
      (SameAs.plainly _).bind (fun _ => SameAs.plainly _)))
  | succ k ih =>
    unfold iterBestH iterBest
    refine (SameAs.foldlM (fun s i => ?_) _ _).bind (fun s => SameAs.pure _)
    exact (SameAs.iteration (fun k => by rw [hA])).bind (fun r => (SameAs.plainly _).bind (fun _ =>
      (SameAs.plainly _).bind (fun _ => (ih _ _ _).bind (fun _ => SameAs.plainly _))))

theorem bestH_same (k : Nat) (nb : Nbh W) (d : NMap Nat) (feats : F) (cc : NSet) :
    SameAs (bestH Ω A E k nb d feats cc) (best E k nb d feats cc) := by
  unfold bestH best
  exact (bicBestH_same hA _ _ _ _).ite (iterBestH_same hA _ _ _ _ _)

theorem growLoopH_same (mi fuel : Nat) (s : GrowSt W F) :
    SameAs (growLoopH Ω A E mi fuel s) (growLoop E mi fuel s) := by
  induction fuel generalizing s with
  | zero =>
    unfold growLoopH growLoop
    exact (SameAs.plainly _).ite (SameAs.pure _)
  | succ fuel ih =>
    unfold growLoopH growLoop
    refine SameAs.ite (SameAs.bind ?_ ih) (SameAs.pure _)
    unfold growStepH growStep
    exact (SameAs.plainly _).bind (fun row => (SameAs.plainly _).bind (fun nb => (bestH_same hA _ _ _ _ _).bind (fun r =>
      SameAs.plainly _)))

omit hA in
theorem updateH_same (hW : LawfulLt W ∨ ∀ t, Ω t = E.h) (p : Pool) (s : NSet) :
    SameAs (updateH Ω E p s) (if s.card = 0 then Pure.pure p else p.orderUpdate E.pool E.h s) := by
  unfold updateH
  refine (SameAs.pure _).ite (SameAs.iteration (fun k => ?_))
  rcases hW with hW | hW
  · exact orderUpdate_hash hW _ _ _ _ _
  · rw [hW]

omit hA in
theorem pushNeighsH_same (hW : LawfulLt W ∨ ∀ t, Ω t = E.h) (gr : NMap NSet × NSet) (p : Pool) :
    SameAs (pushNeighsH Ω E gr p) (pushNeighs E gr p) := by
  unfold pushNeighsH pushNeighs
  exact (SameAs.foldlM (fun (p : Pool) (e : Nat × NSet) => updateH_same hW p e.2) _ _).bind (fun p => updateH_same hW p _)

theorem chooseOptimalH_same (hW : LawfulLt W ∨ ∀ t, Ω t = E.h) (agg : List Bool) (p : Pool) (seed : Nat) :
    SameAs (chooseOptimalH Ω A E agg p seed) (chooseOptimal E agg p seed) := by
  have hg : ∀ d, SameAs (growH Ω A E agg p seed d) (grow E agg p seed d) := by
    intro d
    unfold growH grow
    exact (SameAs.plainly _).bind (fun s0 => (growLoopH_same hA _ _ _).bind (fun s =>
      (SameAs.iteration (fun k => neighbourhoodOf_hash _ _ _ _ _)).bind (fun ns =>
        (pushNeighsH_same hW _ _).bind (fun p => (SameAs.plainly _).bind (fun _ => SameAs.pure _)))))
  unfold chooseOptimalH chooseOptimal
  refine (SameAs.plainly _).bind (fun _ => (neighbourhoodH_same Ω E.g E.h _ _ _ _).bind (fun r => ?_))
  exact (SameAs.pure _).ite (SameAs.ite ((SameAs.plainly _).bind (fun _ => SameAs.pure _)) (hg _))

theorem isoRunH_same (hW : LawfulLt W ∨ ∀ t, Ω t = E.h) (c : Cont) (p : Pool) :
    SameAs (isoRunH Ω A E c p) (isoRun E c p) := by
  have hs : ∀ c p, SameAs (isoStepH Ω A E c p) (isoStep E c p) := by
    intro c p
    unfold isoStepH isoStep
    exact (SameAs.plainly _).bind (fun r => (SameAs.plainly _).bind (fun _ => (SameAs.plainly _).bind (fun seed =>
      (chooseOptimalH_same hA hW _ _ _).bind (fun o => (SameAs.plainly _).bind (fun k => SameAs.pure _)))))
  have hl : ∀ fuel c p, SameAs (isoLoopH Ω A E fuel c p) (isoLoop E fuel c p) := by
    intro fuel
    induction fuel with
    | zero =>
      intro c p
      unfold isoLoopH isoLoop
      exact (SameAs.plainly _).ite (SameAs.pure _)
    | succ fuel ih =>
      intro c p
      unfold isoLoopH isoLoop
      exact SameAs.ite ((hs c p).bind (fun r => ih _ _)) (SameAs.pure _)
  unfold isoRunH isoRun
  exact (hl _ _ _).bind (fun r => (SameAs.plainly _).bind (fun _ => SameAs.pure _))

end

theorem correctH_same {g : Graph W} (hv : ValidCRS g.nbC g.rowPtr g.colInd) (Ω : Nat → Hash) (h : Hash) {Q : NSet → Nat → Prop}
    (hQ : Absorbs g Q) {c : Cont} (hc : CInv g.nbC c) (ht : c.thresh = 1)
    (hgood : ∀ k cc, c.ccs.find? k = some cc → cc.iso = true → Q cc.fcs cc.compact)
    (hcomp : ∀ i : Nat, i < g.nbC → ∃ k, c.fc2cc[i]? = some (some k)) : SameAs (correctH Ω g c) (c.correct g h) := by
  unfold correctH Cont.correct
  refine SameAs.bind ?_ (fun r => SameAs.plainly _)
  refine SameAs.foldlM_inv (I := fun pre (r : Cont × NSet) => KInv g Q c pre r.1 r.2) (KInv_init hc hgood hcomp) ?_ ?_
  · rintro pre a post ⟨c', rem⟩ hsp hI
    refine correctStep_inv hv h hQ hc ht hI (by rw [hsp]; simp) ?_
    intro hp
    have hs := hc.singSorted
    rw [hsp, List.pairwise_append] at hs
    exact absurd (hs.2.2 a hp a (by simp)) (Nat.lt_irrefl a)
  · rintro pre a post ⟨c', rem⟩ hsp hI
    refine SameAs.iteration (fun k => ?_)
    unfold correctStep
    cases hcc : c'.ccs.at! a with
    | error e => simp only [hcc]; rfl
    | ok cc =>
      simp only [hcc, ok_bind]
      rw [hI.thresh, ht]
      by_cases hle : cc.card ≤ 1
      · have hord : ∀ k : Hash, k.ord 5 cc.fcs.elems = cc.fcs.elems := by
          intro k
          have hcard := hI.card a cc (NMap.at_eq.1 hcc)
          obtain ⟨x, hx⟩ := NSet.single_of_card (s := cc.fcs) (by omega)
          have := k.perm 5 cc.fcs.elems
          rw [hx] at this ⊢
          exact List.perm_singleton.1 this
        simp only [neighsByFc, hord]
      · rw [if_neg hle, if_neg hle]

theorem correctH_const {g : Graph W} {Ω : Nat → Hash} {h : Hash} (hΩ : ∀ t, Ω t = h) (c : Cont) :
    SameAs (correctH Ω g c) (c.correct g h) := by
  unfold correctH Cont.correct
  exact (SameAs.foldlM (fun a old => SameAs.iteration (fun t => by rw [hΩ])) _ _).bind (fun r => SameAs.plainly _)

end CoMMA
