import Verif.Lemmas.Numbering
import Verif.Spec.NumberingLines
/-! # Lines under another numbering of the cells -/

set_option linter.unusedSectionVars false

namespace CoMMA

variable {W F : Type} [Num W] {σ τ : Nat → Nat}

/-! ### Faces and couplings -/

theorem mem_faces {g : Graph W} {i n : Nat} {w : W} :
    (n, w) ∈ facesOf g i ↔ ∃ k, FaceAt g i k n ∧ g.values[k]? = some w := by
  unfold facesOf rowOf entriesOfRow FaceAt
  cases hb : g.rowPtr[i]? with
  | none => simp
  | some b =>
    cases he : g.rowPtr[i + 1]? with
    | none => simp
    | some e =>
      simp only [List.mem_iff_getElem?]
      constructor
      · rintro ⟨k, hk⟩
        rw [List.getElem?_zip_eq_some] at hk
        obtain ⟨h1, h2⟩ := hk
        have hlt : k < e - b := by
          have := (List.getElem?_eq_some_iff.1 h1).1
          rw [List.length_take] at this
          omega
        rw [List.getElem?_take_of_lt hlt, List.getElem?_drop] at h1 h2
        exact ⟨b + k, ⟨b, e, rfl, rfl, by omega, by omega, h1⟩, h2⟩
      · rintro ⟨k, ⟨b', e', hb', he', h1, h2, h3⟩, h4⟩
        cases hb'
        cases he'
        refine ⟨k - b, ?_⟩
        rw [List.getElem?_zip_eq_some, List.getElem?_take_of_lt (by omega), List.getElem?_take_of_lt (by omega),
          List.getElem?_drop, List.getElem?_drop, show b + (k - b) = k by omega]
        exact ⟨h3, h4⟩

theorem face_adj {g : Graph W} {i n : Nat} : (∃ k, FaceAt g i k n) ↔ Adj g.rowPtr g.colInd i n := by
  unfold FaceAt Adj
  constructor
  · rintro ⟨k, b, e, h1, h2, h3, h4, h5⟩
    exact ⟨b, e, k, h1, h2, h3, h4, h5⟩
  · rintro ⟨b, e, k, h1, h2, h3, h4, h5⟩
    exact ⟨k, b, e, h1, h2, h3, h4, h5⟩

section couplings
variable {g g' : Graph W} (h : Renumbering σ τ) (hg : ImgGraph σ g g') {coupling : Coupling} {force : Bool}
include h hg

theorem ImgGraph.mem_faces_iff (i n : Nat) (w : W) : (σ n, w) ∈ facesOf g' (σ i) ↔ (n, w) ∈ facesOf g i := by
  rw [(hg.faces i).mem_iff, List.mem_map]
  constructor
  · rintro ⟨⟨m, w'⟩, h1, h2⟩
    simp only [Prod.mk.injEq] at h2
    rw [← h.inj h2.1, ← h2.2]
    exact h1
  · intro h1
    exact ⟨_, h1, rfl⟩

theorem ImgGraph.coupled (i n : Nat) (w : W) : CouplingOf g' coupling (σ i) (σ n) w ↔ CouplingOf g coupling i n w := by
  cases coupling with
  | unknown => unfold CouplingOf; simp
  | maxWeight =>
    have := hg.mem_faces_iff h i n w
    rw [mem_faces, mem_faces] at this
    exact this
  | minDistance =>
    have := hg.adj h (x := i) (y := n)
    rw [← face_adj, ← face_adj] at this
    unfold CouplingOf
    simp only [hg.centers]
    constructor
    · rintro ⟨k, h1, h2⟩
      obtain ⟨k', h1'⟩ := this.1 ⟨k, h1⟩
      exact ⟨k', h1', h2⟩
    · rintro ⟨k, h1, h2⟩
      obtain ⟨k', h1'⟩ := this.2 ⟨k, h1⟩
      exact ⟨k', h1', h2⟩

theorem ImgGraph.strong (i n : Nat) (w : W) : StrongCoupling g' coupling (σ i) (σ n) w ↔ StrongCoupling g coupling i n w := by
  unfold StrongCoupling StrongestOf
  rw [hg.coupled h]
  have e1 : ∀ m, (∀ n w, CouplingOf g' coupling (σ i) n w → Num.lt m w = false) ↔ ∀ n w, CouplingOf g coupling i n w → Num.lt m w = false := by
    intro m
    constructor
    · intro hall n w hc
      exact hall (σ n) w ((hg.coupled h i n w).2 hc)
    · intro hall
      exact h.all (fun n w hc => hall n w ((hg.coupled h i n w).1 hc))
  have e2 : ∀ m, (∃ n, CouplingOf g' coupling (σ i) n m) ↔ ∃ n, CouplingOf g coupling i n m := by
    intro m
    rw [h.ex]
    simp only [hg.coupled h]
  simp only [e1, e2]

omit h in
theorem ImgGraph.stepDir (i n : Nat) (d : List W) : StepDir g' (σ i) (σ n) d ↔ StepDir g i n d := by
  unfold StepDir
  rw [hg.centers, hg.centers]

omit h in
theorem ImgGraph.ahead (d : List W) (i n : Nat) (c : W) : Ahead g' d (σ i) (σ n) c ↔ Ahead g d i n c := by
  unfold Ahead
  simp only [hg.stepDir]

omit hg in
/-- the best candidate -/
theorem BestOf.img (hW : LawfulLt W) {R R' : Nat → W → Prop} (hR : ∀ n w, R' (σ n) w ↔ R n w)
    (ht : ∀ j k w, R j w → R k w → j < k → σ j < σ k) {x : Nat} (hb : BestOf R x) : BestOf R' (σ x) := by
  obtain ⟨w, h1, h2⟩ := hb
  refine ⟨w, (hR _ _).2 h1, h.all (fun n w' hn => ?_)⟩
  obtain ⟨h3, h4⟩ := h2 n w' ((hR _ _).1 hn)
  refine ⟨h3, ?_⟩
  by_cases hlt : Num.lt w' w = true
  · exact Or.inl hlt
  · have hle : x ≤ n := by
      rcases h4 with h4 | h4
      · exact absurd h4 hlt
      · exact h4
    have he : w = w' := hW.total _ _ h3 (by simpa using hlt)
    subst he
    right
    rcases Nat.lt_or_eq_of_le hle with hlt | rfl
    · exact Nat.le_of_lt (ht x n w h1 ((hR _ _).1 hn) hlt)
    · exact Nat.le_refl _

omit hg in
theorem NoneOf.img {R R' : Nat → W → Prop} (hR : ∀ n w, R' (σ n) w ↔ R n w) (hb : NoneOf R) : NoneOf R' :=
  h.all (fun n w hn => hb n w ((hR _ _).1 hn))

end couplings

theorem CouplingOf.adj {g : Graph W} {coupling : Coupling} {i n : Nat} {w : W} (hc : CouplingOf g coupling i n w) :
    Adj g.rowPtr g.colInd i n := by
  obtain ⟨k, h1, _⟩ := hc
  exact face_adj.1 ⟨k, h1⟩

section lines
variable {g g' : Graph W} (h : Renumbering σ τ) (hg : ImgGraph σ g g') {coupling : Coupling} {force : Bool} (hW : LawfulLt W)
  (hk : KeepsLineTies σ g coupling force)
include h hg hW hk

theorem NextCell.img {free free' : Nat → Prop} (hf : ∀ x, free' (σ x) ↔ free x) {d : Option (List W)} {i : Nat} {r : Option Nat}
    (hd : ∀ e, d = some e → Arrives g i e) (hn : NextCell g coupling force free d i r) :
    NextCell g' coupling force free' d (σ i) (r.map σ) := by
  have hC : ∀ n w, ByCoupling g' coupling free' (σ i) (σ n) w ↔ ByCoupling g coupling free i n w := by
    intro n w; unfold ByCoupling; rw [hf, hg.strong h]
  have hD : ∀ e n c, ByDirection g' coupling free' e (σ i) (σ n) c ↔ ByDirection g coupling free e i n c := by
    intro e n c; unfold ByDirection; simp only [hf, hg.strong h, hg.ahead]
  have hA : ∀ e n c, AnyDirection g' free' e (σ i) (σ n) c ↔ AnyDirection g free e i n c := by
    intro e n c; unfold AnyDirection; simp only [hf, hg.adj h, hg.ahead]
  cases hn with
  | strongest h1 h2 =>
    exact .strongest h1 (h2.img h hW hC (fun j k w hj hk' hlt => hk.coupling i j k w hj.2.1 hk'.2.1 hlt))
  | noStrong h1 h2 => exact .noStrong h1 (h2.img h hC)
  | straight h1 h2 =>
    refine .straight h1 (h2.img h hW (hD _) (fun j k c hj hk' hlt => ?_))
    obtain ⟨_, ⟨w, hw⟩, hj⟩ := hj
    obtain ⟨_, ⟨w', hw'⟩, hk'⟩ := hk'
    exact hk.direction h1 i j k _ c hw.1.adj hw'.1.adj (hd _ rfl) hj hk' hlt
  | loose h1 h2 h3 =>
    refine .loose h1 (h2.img h (hD _)) (h3.img h hW (hA _) (fun j k c hj hk' hlt => ?_))
    exact hk.direction h1 i j k _ c hj.2.1 hk'.2.1 (hd _ rfl) hj.2.2 hk'.2.2 hlt
  | noWay h1 h2 h3 => exact .noWay h1 (h2.img h (hD _)) (h3.img h (hA _))

omit h hg hW hk in
theorem NextCell.adj {free : Nat → Prop} {d : Option (List W)} {i x : Nat} (hn : NextCell g coupling force free d i (some x)) :
    Adj g.rowPtr g.colInd i x := by
  cases hn with
  | strongest _ h2 => obtain ⟨w, h2, _⟩ := h2; exact h2.2.1.adj
  | straight _ h2 => obtain ⟨w, ⟨_, ⟨_, h2⟩, _⟩, _⟩ := h2; exact h2.1.adj
  | loose _ _ h2 => obtain ⟨w, h2, _⟩ := h2; exact h2.2.1

theorem LineWalk.img {free : Nat → Prop} {d : Option (List W)} {i : Nat} {l : List Nat} (hw : LineWalk g coupling force free d i l) :
    (∀ e, d = some e → Arrives g i e) → ∀ {free' : Nat → Prop}, (∀ x, free' (σ x) ↔ free x) →
      LineWalk g' coupling force free' d (σ i) (l.map σ) := by
  induction hw with
  | stop h1 => intro hd free' hf; exact .stop (h1.img h hg hW hk hf hd)
  | @step free d i x d' rest h1 h2 h3 ih =>
    intro hd free' hf
    refine .step (h1.img h hg hW hk hf hd) ((hg.stepDir _ _ _).2 h2) (ih ?_ (fun y => ?_))
    · intro e he
      cases he
      exact Or.inl ⟨i, h1.adj, h2⟩
    · rw [hf, h.inj.ne_iff]

theorem LineFrom.img {free free' : Nat → Prop} (hf : ∀ x, free' (σ x) ↔ free x) {p : Nat} {l : List Nat}
    (hw : LineFrom g coupling force free p l) : LineFrom g' coupling force free' (σ p) (l.map σ) := by
  have hf1 : ∀ x, (free' (σ x) ∧ σ x ≠ σ p) ↔ (free x ∧ x ≠ p) := fun x => by rw [hf, h.inj.ne_iff]
  cases hw with
  | alone h1 =>
    exact .alone (h1.img h hg hW hk (by intro e he; cases he) hf1)
  | @both x front back d h1 h2 h3 =>
    rw [List.map_append, List.map_reverse, List.map_cons, List.map_cons]
    refine .both (h1.img h hg hW hk (by intro e he; cases he) hf1) ((hg.stepDir _ _ _).2 h2)
      (h3.img h hg hW hk ?_ (fun y => ?_))
    · intro e he
      cases he
      refine Or.inr ⟨x, d, ?_, h2, rfl⟩
      cases h1 with
      | step h1 _ _ => exact h1.adj
    · rw [hf1, ← List.map_cons, h.mem]

theorem LinesFrom.img {free : Nat → Prop} {seeds : List Nat} {ls : List (List Nat)} (hw : LinesFrom g coupling force free seeds ls) :
    ∀ {free' : Nat → Prop}, (∀ x, free' (σ x) ↔ free x) →
      LinesFrom g' coupling force free' (seeds.map σ) (ls.map (List.map σ)) := by
  induction hw with
  | done => intro free' hf; exact .done
  | taken h1 _ ih => intro free' hf; exact .taken (fun hc => h1 ((hf _).1 hc)) (ih hf)
  | single h1 h2 _ ih =>
    intro free' hf
    exact .single ((hf _).2 h1) (h2.img h hg hW hk hf) (ih (fun y => by rw [hf, h.inj.ne_iff]))
  | line h1 h2 h3 _ ih =>
    intro free' hf
    exact .line ((hf _).2 h1) (h2.img h hg hW hk hf) (by rw [List.length_map]; exact h3)
      (ih (fun y => by rw [hf, h.mem]))

end lines

section aniso
variable {g g' : Graph W} (h : Renumbering σ τ) (hg : ImgGraph σ g g')
include h hg

theorem ImgGraph.faceWeight (i : Nat) (w : W) : FaceWeight g' (σ i) w ↔ FaceWeight g i w := by
  have key : ∀ {g : Graph W} i, FaceWeight g i w ↔ ∃ n, n ≠ i ∧ (n, w) ∈ facesOf g i := by
    intro g i
    constructor
    · rintro ⟨b, e, k, n, h1, h2, h3, h4, h5, h6, h7⟩
      exact ⟨n, h6, mem_faces.2 ⟨k, ⟨b, e, h1, h2, h3, h4, h5⟩, h7⟩⟩
    · rintro ⟨n, h6, h7⟩
      obtain ⟨k, ⟨b, e, h1, h2, h3, h4, h5⟩, h7⟩ := mem_faces.1 h7
      exact ⟨b, e, k, n, h1, h2, h3, h4, h5, h6, h7⟩
  rw [key, key, h.ex]
  simp only [hg.mem_faces_iff h, h.inj.ne_iff]

theorem ImgGraph.anisotropic (thr : W) (i : Nat) : IsAnisotropic g' thr (σ i) ↔ IsAnisotropic g thr i := by
  unfold IsAnisotropic WeightRange
  simp only [hg.faceWeight h, hg.dim]

end aniso

/-! ### The groups of the lines -/

theorem KeepsTies.lt_iff {prio : List W} (hk : KeepsTies σ prio) {x y : Nat} {w : W} (hx : prio[x]? = some w) (hy : prio[y]? = some w) :
    σ x < σ y ↔ x < y := by
  constructor
  · intro h
    rcases Nat.lt_trichotomy x y with hlt | rfl | hgt
    · exact hlt
    · omega
    · have := hk y x w hy hx hgt
      omega
  · exact hk x y w hx hy

section groups
variable {nBnd nBnd' : List Nat} {prio prio' : List W} (hb : ∀ i : Nat, nBnd'[σ i]? = nBnd[i]?)
    (hp : ∀ i : Nat, prio'[σ i]? = prio[i]?) (heq : ExactEq W) (hk : KeepsTies σ prio)
include hb hp heq hk

theorem frontFirst_img (fr bk : Nat) : FrontFirst nBnd' prio' (σ fr) (σ bk) ↔ FrontFirst nBnd prio fr bk := by
  unfold FrontFirst
  simp only [hb, hp]
  constructor
  · rintro ⟨bf, bb, wf, wb, h1, h2, h3, h4, h5⟩
    refine ⟨bf, bb, wf, wb, h1, h2, h3, h4, ?_⟩
    rcases h5 with h5 | ⟨h5, h6 | ⟨h6, h7⟩⟩
    · exact Or.inl h5
    · exact Or.inr ⟨h5, Or.inl h6⟩
    · have := heq _ _ h6
      subst this
      exact Or.inr ⟨h5, Or.inr ⟨h6, (hk.lt_iff h3 h4).1 h7⟩⟩
  · rintro ⟨bf, bb, wf, wb, h1, h2, h3, h4, h5⟩
    refine ⟨bf, bb, wf, wb, h1, h2, h3, h4, ?_⟩
    rcases h5 with h5 | ⟨h5, h6 | ⟨h6, h7⟩⟩
    · exact Or.inl h5
    · exact Or.inr ⟨h5, Or.inl h6⟩
    · have := heq _ _ h6
      subst this
      exact Or.inr ⟨h5, Or.inr ⟨h6, (hk.lt_iff h3 h4).2 h7⟩⟩

theorem Oriented.img {line l : List Nat} (ho : Oriented nBnd prio line l) : Oriented nBnd' prio' (line.map σ) (l.map σ) := by
  obtain ⟨fr, bk, h1, h2, h3⟩ := ho
  refine ⟨σ fr, σ bk, by rw [List.head?_map, h1]; rfl, by rw [List.getLast?_map, h2]; rfl, ?_⟩
  rw [frontFirst_img hb hp heq hk]
  rcases h3 with ⟨h3, rfl⟩ | ⟨h3, rfl⟩
  · exact Or.inl ⟨h3, rfl⟩
  · exact Or.inr ⟨h3, List.map_reverse⟩

end groups

theorem Pairs.img {odd : Bool} {limit : Option Int} {k : Nat} {l : List Nat} {gs : List (List Nat)} (h : Pairs odd limit k l gs) :
    Pairs odd limit k (l.map σ) (gs.map (List.map σ)) := by
  induction h with
  | done => exact .done
  | full h1 => exact .full h1
  | three h1 h2 h3 => exact .three h1 (by rw [List.length_map]; exact h2) h3
  | last h1 h2 h3 => exact .last h1 (by rw [List.length_map]; exact h2) h3
  | two h1 h2 _ ih => exact .two h1 (by rw [List.length_map]; exact h2) ih

/-! ### The pool after the lines -/

section pool
variable {c c' : PoolCfg W} (h : Renumbering σ τ) (hc : ImgCfg σ c c')
include h hc

theorem waitOn_img (t : Nat) (w : List Nat) (k : Nat) : waitOn c' t (w.map σ) k = (waitOn c t w k).map σ := by
  unfold waitOn
  rw [List.filter_map]
  congr 1
  refine List.filter_congr (fun x _ => ?_)
  rw [Function.comp_apply, hc.bnd, hc.kind]

theorem PoolAfterLines.img {agg agg' : List Bool} (ha : ImgFlags σ agg agg') {w : List Nat} {p p' : Pool} (hp : ImgPool σ p p')
    (hl : c'.nBnd.length = c.nBnd.length) (hq : PoolAfterLines c agg w p) : PoolAfterLines c' agg' (w.map σ) p' := by
  have hqs : ∀ t, ((List.range 4).map (waitOn c t w)).map (List.map σ) = (List.range 4).map (waitOn c' t (w.map σ)) := by
    intro t
    rw [List.map_map]
    refine List.map_congr_left (fun k _ => ?_)
    rw [Function.comp_apply, waitOn_img h hc]
  have hall : ∀ {P : Nat → Nat → Prop}, (∀ (i : Nat) b, c.nBnd[i]? = some b → agg[i]? = some false → P i b) →
      ∀ (i : Nat) b, c'.nBnd[i]? = some b → agg'[i]? = some false → P (τ i) b := by
    intro P hP
    refine h.all (fun i b h1 h2 => ?_)
    rw [h.back]
    exact hP i b (by rw [← hc.bnd]; exact h1) (by rw [← ha]; exact h2)
  cases hq with
  | fresh h1 h2 => exact .fresh (by rw [h1]; rfl) (h2.img h hc hp hl)
  | @near x t h1 h2 h3 h4 h5 =>
    exact .near (x := σ x) (t := t) (by rw [hc.kind]; exact h1) (by rw [List.head?_map, h2]; rfl) (by rw [hc.bnd]; exact h3)
      (by rw [hp.top]; exact h4) (by rw [hp.queues, h5, hqs])
  | @level x t h1 h2 h3 h4 h5 h6 =>
    exact .level (x := σ x) (t := t) (by rw [hc.kind]; exact h1) (h.mem.2 h2) (by rw [hc.bnd]; exact h3)
      (hall (P := fun _ b => b ≤ t) h4) (by rw [hp.top]; exact h5) (by rw [hp.queues, h6, hqs])
  | @higher i m l h1 h2 h3 h4 h5 h6 h7 h8 h9 =>
    refine .higher (i := σ i) (m := m) (l := l.map σ) (by rw [hc.kind]; exact h1) (by simpa using h2) (by rw [hc.bnd]; exact h3)
      (by rw [ha]; exact h4) (hall (P := fun _ b => b ≤ m) h5) ?_ ⟨hc.prio.ordered h7.1, h.all (fun x => ?_)⟩ (by rw [hp.top]; exact h8) ?_
    · intro x hx b hb
      obtain ⟨y, hy, rfl⟩ := List.mem_map.1 hx
      rw [hc.bnd] at hb
      exact h6 y hy b hb
    · rw [h.mem, h7.2]
      simp only [hc.bnd]
    · rw [hp.queues, h9, List.map_set, hqs, hc.onePoint]
      congr 1
      split
      · rw [List.map_take]
      · rfl

end pool

theorem TopBounds.after {c : PoolCfg W} (hk : c.kind = .boundary) {agg : List Bool} {w : List Nat} {p : Pool}
    (h : PoolAfterLines c agg w p) : TopBounds c agg p := by
  intro i b h1 h2
  cases h with
  | fresh _ h3 =>
    obtain ⟨t, l, g1, _, g3, _⟩ := h3.start
    exact ⟨t, g1, g3 b (List.mem_iff_getElem?.2 ⟨i, h1⟩)⟩
  | near h3 => rw [hk] at h3; cases h3
  | level _ _ _ h6 h7 _ => exact ⟨_, h7, h6 i b h1 h2⟩
  | higher _ _ _ _ h5 _ _ h8 _ => exact ⟨_, h8, h5 i b h1 h2⟩

end CoMMA
