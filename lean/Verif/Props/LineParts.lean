import Verif.Lemmas.LineParts
import Verif.Props.Walls
import Verif.Props.LineCuts
/-! # C101: lines with limits, level after level -/

set_option linter.unusedSectionVars false

namespace CoMMA

variable {W : Type} [Num W] {n : Nat} {col height len : Nat → Nat}

/-- one call: the lines are read from the end to start from, and the first cells are paired, as many as are to be taken -/
theorem CoarsensLines.pairedFront {a : Args W} {fls : List (List Nat)} {out : Outs} (h : CoarsensLines a fls out)
    (h2 : ∀ l ∈ fls, 2 ≤ l.length) :
    ∃ cls, Exports out cls ∧ List.Forall₂ (fun l l' => ∃ m, Oriented (a.nBnd.map (fun b => min b a.dim.toNat)) a.prio l m ∧
      PairedFront (takenCells a.oddLine (lineLimit a) l.length) out.fcToCc m l') fls cls := by
  obtain ⟨cls, gss, hexp, hpair, hden⟩ := h
  refine ⟨cls, hexp, ?_⟩
  rw [List.forall₂_iff_get]
  refine ⟨by rw [hpair.length_eq, hden.length_eq], fun q hql hcl => ?_⟩
  have hgl : q < gss.length := by rw [← hpair.length_eq]; exact hql
  obtain ⟨m, hor, hpr⟩ := (List.forall₂_iff_get.1 hpair).2 q hql hgl
  have hdq := (List.forall₂_iff_get.1 hden).2 q hgl hcl
  simp only [List.get_eq_getElem] at hor hpr hdq ⊢
  refine ⟨m, hor, ?_⟩
  have hm : m = fls[q] ∨ m = fls[q].reverse := by
    obtain ⟨_, _, _, _, h | h⟩ := hor
    · exact Or.inl h.2
    · exact Or.inr h.2
  have hlen : m.length = fls[q].length := by rcases hm with h | h <;> simp [h]
  have h2q := h2 _ (List.getElem_mem hql)
  obtain ⟨htot, hcnt⟩ := hpr.exact.total rfl (by omega) (fun _ _ => Or.inl rfl)
  simp only [Nat.zero_add, Nat.add_zero, hlen] at htot hcnt
  generalize takenCells a.oddLine (lineLimit a) fls[q].length = T at *
  obtain ⟨r, hr⟩ := hpr.front
  have hfl : ∀ p x : Nat, gss[q].flatten[p]? = some x ↔ p < T ∧ m[p]? = some x := by
    intro p x
    constructor
    · intro h
      have hpl := (List.getElem?_eq_some_iff.1 h).1
      rw [← hr, List.getElem?_append_left hpl]
      exact ⟨by omega, h⟩
    · rintro ⟨hpt, h⟩
      rw [← hr, List.getElem?_append_left (by omega)] at h
      exact h
  have hc' : gss[q].length = T / 2 := by omega
  refine ⟨?_, by rw [← hdq.length_eq, hc'], fun p k hk i => ?_⟩
  · rw [← htot, ← hr, List.length_append]
    omega
  · obtain ⟨hp1, hp2⟩ := List.getElem?_eq_some_iff.1 hk
    have hpg : p < gss[q].length := by rw [hdq.length_eq]; exact hp1
    have := (List.forall₂_iff_get.1 hdq).2 p hpg hp1
    simp only [List.get_eq_getElem, hp2] at this
    rw [this i, groups_at hpr.two p (List.getElem?_eq_getElem hpg) i, hc']
    constructor
    · rintro ⟨s, hs, hsp⟩
      exact ⟨s, ((hfl s i).1 hs).1, ((hfl s i).1 hs).2, hsp⟩
    · rintro ⟨s, hs1, hs2, hsp⟩
      exact ⟨s, (hfl s i).2 ⟨hs1, hs2⟩, hsp⟩

/-- one level of a call that uses the lines at hand -/
theorem FollowsWith.level {P : Platform} {z : Int} (hz : z ≤ 0) {a : Args W} {g : MeshData W} {o : Outs} {n : Nat} {odd : Bool}
    {limit : Option Int} {ls : List (List Nat)} (hg : GoodMesh g n) (hls : LinesOn g n o ls) (hu : FollowsWith P (a.onMesh g) odd limit)
    (hex : ∃ l ∈ ls, 2 ≤ l.length)
    (hfit : ∀ l ∈ ls, 2 ≤ l.length → ∀ m, limit = some m → ¬ (m % 2 = 1 ∧ 3 ≤ m ∧ (l.length : Int) + 1 = m)) :
    ∃ out g' N ls', LevelMade P z a g o n out g' N ∧ LinesOn g' N out ls' ∧
      List.Forall₂ (fun l l' => ∃ m, (m = l ∨ m = l.reverse) ∧ PairedFront (takenCells odd limit l.length) out.fcToCc m l')
        (ls.filter (fun l => decide (1 < l.length))) ls' := by
  obtain ⟨l0, hl0, h20⟩ := hex
  have hne : ls ≠ [] := List.ne_nil_of_mem hl0
  have henc : Encodes o.linesIdx o.lines ls := by
    rcases hls.enc with h | ⟨_, _, h⟩
    · exact h
    · exact absurd h hne
  have hflat : ls.flatten ≠ [] := by
    intro h
    rw [List.flatten_eq_nil_iff.1 h l0 hl0, List.length_nil] at h20
    omega
  have hgl : GivesLines (a.onMesh g) o n ls := ⟨hu.on, hu.given, henc, hflat, hls.disjoint, hls.range⟩
  have h2 : ∀ l ∈ ls.filter (fun l => decide (1 < l.length)), l ∈ ls ∧ 2 ≤ l.length := by
    intro l hl
    rw [List.mem_filter, decide_eq_true_eq] at hl
    exact ⟨hl.1, hl.2⟩
  have hfits : FitsLimit (a.onMesh g) (ls.filter (fun l => decide (1 < l.length))) := by
    intro l hl m hm
    rw [hu.limit] at hm
    exact hfit l (h2 l hl).1 (h2 l hl).2 m hm
  obtain ⟨out, hcall, hres⟩ := C40_given (P := P) (hg.validMesh a) hu.params hu.corr hgl hfits
  obtain ⟨cls, hexp, hpaired⟩ := hres.lines.pairedFront (fun l hl => (h2 l hl).2)
  have hk : KnownCall P (a.onMesh g) o n := ⟨hu.params, hu.corr, Or.inr (Or.inr ⟨ls, hgl, hfits⟩)⟩
  obtain ⟨g', N, h3, h4⟩ := level_exports hz hg hk (withLines_iff.2 (by
    unfold anisoOn
    rw [hu.on, hu.given, henc.1, henc.2, offsets_length]
    have := List.length_pos_iff.2 hne
    have h2 : ls.flatten.isEmpty = false := by simpa using hflat
    rw [h2]
    simp; omega)) (fun _ ls' hls' l hl' => by
      rw [encodes_unique hls' henc] at hl'
      exact hls.paths l hl') hcall hexp
  refine ⟨out, g', N, cls, h3, h4, hpaired.imp ?_⟩
  rintro l l' ⟨m, hor, hp⟩
  rw [hu.odd, hu.limit] at hp
  refine ⟨m, ?_, hp⟩
  obtain ⟨_, _, _, _, h | h⟩ := hor
  · exact Or.inl h.2
  · exact Or.inr h.2

/-- the line of which a coarse line is made -/
theorem forall₂_back {α β : Type} {R : α → β → Prop} {l : List α} {l' : List β} (h : List.Forall₂ R l l') :
    ∀ y ∈ l', ∃ x ∈ l, R x y := by
  induction h with
  | nil => simp
  | cons hr _ ih =>
    intro y hy
    rcases List.mem_cons.1 hy with rfl | hy
    · exact ⟨_, by simp, hr⟩
    · obtain ⟨x, hx, hxy⟩ := ih y hy
      exact ⟨x, List.mem_cons_of_mem _ hx, hxy⟩

/-- the cut points of the line, from those of its coarse line -/
theorem PairedFront.step {T N c k : Nat} {f m l' : List Nat} {b : Nat → Nat} {g : Nat → Option Nat} (hc : 0 < c) (h : PairedFront T f m l')
    (hf : f.length = n) (hN : ∀ j ∈ f, j < N) (hcut : CutPart g N c l' k b) (hk : 0 < k) :
    ∃ d, CutPart (fun i => (f[i]?).bind g) n (2 * c) m k d ∧ d k ≤ T ∧
      (b 0 = 0 ∧ b k = l'.length → d 0 = 0 ∧ d k = T) := by
  refine ⟨_, h.cut hc hf hN hcut, ?_, ?_⟩
  · have h1 := hcut.last
    rw [h.2.1] at h1
    split_ifs <;> omega
  · rintro ⟨h0, h1⟩
    rw [h.2.1] at h1
    have := hcut.lt hc hk
    refine ⟨?_, by simp [h1]⟩
    show (if b 0 = T / 2 then T else 2 * b 0) = 0
    rw [if_neg (by omega), h0]

/-- **C101** Lines followed through several levels, with any settings: at each level odd numbers of cells of a line may be allowed or not and there may be a
maximum of cells of a line.  The number `k` of coarsest cells of a line follows from its number of cells and the settings alone (`cellsLeft`).  They are made of
consecutive cells of the line, one stretch right after the other, each of at least `2 ^ levels` and fewer than `2 ^ (levels + 1)` cells, and
of no other cell.  If at each level all cells are taken, the stretches make up the line. -/
theorem C101_followed {P : Platform} {z : Int} (hz : z ≤ 0) (hirr : Num.lt (Num.lmin : W) Num.lmin = false) {above : Prop}
    (levels : List ((MeshData W → Outs → Args W) × (Bool × Option Int))) {n : Nat} {g : MeshData W} (hg : GoodMesh g n)
    (hab : above → PrioritiesAbove g) {o : Outs} {ls : List (List Nat)} (hls : LinesOn g n o ls)
    (hex : ∃ l ∈ ls, 0 < cellsLeft (levels.map Prod.snd) l.length)
    (hshort : ∀ l ∈ ls, NeverShort (levels.map Prod.snd) l.length)
    (hl : ∀ s ∈ levels, ∀ g' o' n', GoodMesh g' n' → n' ≤ n → (above → PrioritiesAbove g') →
      FollowsWith P ((s.1 g' o').onMesh g') s.2.1 s.2.2) :
    ∃ maps gN, runLevels P z (levels.map Prod.fst) g o = .ok (maps, gN) ∧
      ∀ l ∈ ls, 0 < cellsLeft (levels.map Prod.snd) l.length →
        ∃ b, CutPart (composeMaps maps) n (2 ^ levels.length) l (cellsLeft (levels.map Prod.snd) l.length) b ∧
          (AllTaken (levels.map Prod.snd) l.length → b 0 = 0 ∧ b (cellsLeft (levels.map Prod.snd) l.length) = l.length) := by
  have main : ∀ (levels : List ((MeshData W → Outs → Args W) × (Bool × Option Int))) (m : Nat) (g : MeshData W) (o : Outs)
      (ls : List (List Nat)), GoodMesh g m → m ≤ n → (above → PrioritiesAbove g) → LinesOn g m o ls →
      (∃ l ∈ ls, 0 < cellsLeft (levels.map Prod.snd) l.length) → (∀ l ∈ ls, NeverShort (levels.map Prod.snd) l.length) →
      (∀ s ∈ levels, ∀ g' o' n', GoodMesh g' n' → n' ≤ n → (above → PrioritiesAbove g') →
        FollowsWith P ((s.1 g' o').onMesh g') s.2.1 s.2.2) →
      ∃ maps gN, runLevels P z (levels.map Prod.fst) g o = .ok (maps, gN) ∧
        ∀ l ∈ ls, 0 < cellsLeft (levels.map Prod.snd) l.length →
          ∃ b, CutPart (composeMaps maps) m (2 ^ levels.length) l (cellsLeft (levels.map Prod.snd) l.length) b ∧
            (AllTaken (levels.map Prod.snd) l.length → b 0 = 0 ∧ b (cellsLeft (levels.map Prod.snd) l.length) = l.length) := by
    intro levels
    induction levels with
    | nil =>
      intro m g o ls _ _ _ _ _ _ _
      exact ⟨[], g, rfl, fun l _ _ => ⟨_, CutPart.ones, fun _ => ⟨rfl, rfl⟩⟩⟩
    | cons s r ih =>
      intro m g o ls hg hm hab hls hex hshort hl
      have hpow : 2 ^ (s :: r).length = 2 * 2 ^ r.length := by rw [List.length_cons, pow_succ, Nat.mul_comm]
      have hpp : 0 < 2 ^ r.length := Nat.pow_pos (by omega)
      have hu := hl s (by simp) g o m hg hm hab
      obtain ⟨l0, hl0, h0⟩ := hex
      rw [List.map_cons] at h0
      have hmem : ∀ l ∈ ls, 2 ≤ l.length → l ∈ ls.filter (fun l => decide (1 < l.length)) := by
        intro l hl' h2
        rw [List.mem_filter, decide_eq_true_eq]
        exact ⟨hl', h2⟩
      obtain ⟨out, g', N, ls', h1, h2, h3⟩ := FollowsWith.level hz hg hls hu ⟨l0, hl0, two_of_left h0⟩
        (fun l hl' => (hshort l hl').1)
      have hle := h1.le
      obtain ⟨l0', hl0', m0, _, hp0⟩ := forall₂_mem h3 l0 (hmem l0 hl0 (two_of_left h0))
      obtain ⟨maps, gN, h5, h6⟩ := ih N g' out ls' h1.good (by omega) (fun hh => h1.above hirr (hab hh)) h2
        ⟨l0', hl0', by rw [hp0.2.1]; exact h0⟩
        (fun l' hl' => by
          obtain ⟨l, hl1, _, _, hp⟩ := forall₂_back h3 l' hl'
          rw [hp.2.1]
          exact (hshort l (List.mem_filter.1 hl1).1).2)
        (fun s hs => hl s (List.mem_cons_of_mem _ hs))
      refine ⟨out.fcToCc :: maps, gN, ?_, ?_⟩
      · rw [List.map_cons]
        unfold runLevels
        rw [h1.call]
        simp only [h1.build, h5]
      · intro l hl' hleft
        rw [List.map_cons] at hleft
        obtain ⟨l', hl1, m', hm', hp⟩ := forall₂_mem h3 l (hmem l hl' (two_of_left hleft))
        have hleft' : 0 < cellsLeft (r.map Prod.snd) l'.length := by rw [hp.2.1]; exact hleft
        obtain ⟨b, hb, hball⟩ := h6 l' hl1 hleft'
        obtain ⟨d, hd, _, hdall⟩ := hp.step hpp h1.len (fun k hk => (h1.all k).1 hk) hb hleft'
        have hk : cellsLeft ((s :: r).map Prod.snd) l.length = cellsLeft (r.map Prod.snd) l'.length := by rw [hp.2.1]; rfl
        have hmL : m'.length = l.length := by rcases hm' with rfl | rfl <;> simp
        have hall : AllTaken ((s :: r).map Prod.snd) l.length → d 0 = 0 ∧ d (cellsLeft (r.map Prod.snd) l'.length) = l.length := by
          rintro ⟨e1, e2⟩
          obtain ⟨e3, e4⟩ := hdall (hball (by rw [hp.2.1]; exact e2))
          exact ⟨e3, e4.trans e1⟩
        rw [hpow, hk]
        rcases hm' with rfl | rfl
        · exact ⟨d, hd, hall⟩
        · have hr := hd.reverse
          rw [List.reverse_reverse] at hr
          refine ⟨_, hr, fun ha => ?_⟩
          obtain ⟨e1, e2⟩ := hall ha
          simp only [Nat.sub_zero, Nat.sub_self, e1, e2, hmL]
          exact ⟨trivial, trivial⟩
  exact main levels n g o ls hg (Nat.le_refl n) hab hls hex hshort hl

/-- the cells of a column, read from the end to start from -/
theorem column_oriented (hW : LawfulLt W) (hE : EqExact W) {a : Args W} (hm : ValidMesh a n) (hb : BuildsLines a n)
    (hg : Stacked (InLayers a) col height len) {fls : List (List Nat)} (h4 : fls.flatten.Nodup) (htwo : ∀ l ∈ fls, 2 ≤ l.length)
    (hlt : ∀ l ∈ fls, ∀ i ∈ l, InLayers a i) (hcolumn : ∀ l ∈ fls, ∀ i ∈ l, ∀ x, x ∈ l ↔ InLayers a x ∧ col x = col i)
    (hcons : ∀ l ∈ fls, Consecutive (OnTop col height) l) {l l' : List Nat} (hl : l ∈ fls)
    (hor : Oriented (a.nBnd.map (fun k => min k a.dim.toNat)) a.prio l l') {b t c : Nat} (hbT : InLayers a b) (htT : InLayers a t)
    (hc : col b = c) (hbt : c = col t) (hb0' : height b = 0) (ht0 : height t + 1 = len c) (hne : b ≠ t) (hil : b ∈ l) :
    l'.length = len c ∧ (∀ x, x ∈ l' ↔ InLayers a x ∧ col x = c) ∧
      ∃ up : Bool, (up = true ↔ FrontFirst (a.nBnd.map (fun k => min k a.dim.toNat)) a.prio b t) ∧
        ∀ q x : Nat, l'[q]? = some x → fromEnd (len c) up (height x) = q := by
    have hl' : l' = l ∨ l' = l.reverse := by
      obtain ⟨_, _, _, _, h | h⟩ := hor
      · exact Or.inl h.2
      · exact Or.inr h.2
    have hmem : ∀ x, x ∈ l' ↔ x ∈ l := by
      intro x
      rcases hl' with rfl | rfl <;> simp
    have hnd : l'.Nodup := by
      have : l.Nodup := (List.nodup_flatten.1 h4).1 l hl
      rcases hl' with rfl | rfl
      · exact this
      · exact List.nodup_reverse.2 this
    have hcons' : Consecutive (OnTop col height) l' := by
      rcases hl' with rfl | rfl
      · exact hcons _ hl
      · intro k u v hu hv
        have hk : k + 1 < l.length := by
          have := (List.getElem?_eq_some_iff.1 hv).1
          simpa using this
        rw [List.getElem?_reverse (by omega)] at hu hv
        refine (hcons l hl (l.length - 1 - (k + 1)) v u hv ?_).symm
        rw [← hu]
        congr 1
        omega
    have hcol' : ∀ x, x ∈ l' ↔ InLayers a x ∧ col x = col b := fun x => by rw [hmem, hcolumn l hl b hil]
    obtain ⟨hlen, hht⟩ := hg.listed hnd hcons' hbT hcol'
    rw [hc] at hlen hht hcol'
    have hnb : b < n := hb.compliant b hbT.1
    have hnt : t < n := hb.compliant t htT.1
    have hff := frontFirst_swap hW hE (nBnd := a.nBnd.map (fun k => min k a.dim.toNat)) (prio := a.prio) (b := b) (t := t)
      (by rw [List.length_map, hm.bnd]; exact hnb) (by rw [List.length_map, hm.bnd]; exact hnt) (by rw [hm.prio]; exact hnb)
      (by rw [hm.prio]; exact hnt) hne
    have hbl : b ∈ l' := (hcol' b).2 ⟨hbT, hc⟩
    have htl : t ∈ l' := (hcol' t).2 ⟨htT, hbt.symm⟩
    refine ⟨hlen, hcol', ?_⟩
    have h2l : 2 ≤ l'.length := by
      have := htwo l hl
      rcases hl' with h | h <;> simpa [h] using this
    -- the first and the last cell of the line as it is read
    obtain ⟨x0, hx0⟩ : ∃ x0, l'[0]? = some x0 := ⟨_, List.getElem?_eq_getElem (by omega)⟩
    obtain ⟨x1, hx1⟩ : ∃ x1, l'[l'.length - 1]? = some x1 := ⟨_, List.getElem?_eq_getElem (by omega)⟩
    have hstart : FrontFirst (a.nBnd.map (fun k => min k a.dim.toNat)) a.prio x0 x1 := by
      obtain ⟨fr, bk, e1, e2, h | h⟩ := hor
      · obtain ⟨h5, rfl⟩ := h
        rw [List.head?_eq_getElem?, hx0] at e1
        rw [List.getLast?_eq_getElem?, hx1] at e2
        cases e1; cases e2
        exact h5
      · obtain ⟨h5, rfl⟩ := h
        rw [List.length_reverse] at hx1
        have hll : 0 < l.length := by have := htwo l hl; omega
        rw [List.getElem?_reverse (by omega), Nat.sub_zero] at hx0
        rw [List.getElem?_reverse (by omega)] at hx1
        rw [List.head?_eq_getElem?] at e1
        rw [List.getLast?_eq_getElem?, hx0] at e2
        rw [show l.length - 1 - (l.length - 1) = 0 by omega, e1] at hx1
        cases e2
        have hx1 : fr = x1 := Option.some.inj hx1
        subst hx1
        have hx0n := hb.compliant x0 (hlt l hl x0 (List.mem_of_getElem? hx0)).1
        have hx1n := hb.compliant fr (hlt l hl fr (List.mem_of_getElem? e1)).1
        refine (frontFirst_swap hW hE (by rw [List.length_map, hm.bnd]; exact hx1n) (by rw [List.length_map, hm.bnd]; exact hx0n)
          (by rw [hm.prio]; exact hx1n) (by rw [hm.prio]; exact hx0n) ?_).2 h5
        rintro rfl
        have h6 := (List.getElem?_eq_some_iff.1 e1).2
        have h7 := (List.getElem?_eq_some_iff.1 hx0).2
        have := (List.Nodup.getElem_inj_iff ((List.nodup_flatten.1 h4).1 l hl)).1 (h6.trans h7.symm)
        have := htwo l hl
        omega
    have hx0l := (hcol' x0).1 (List.mem_of_getElem? hx0)
    have hx1l := (hcol' x1).1 (List.mem_of_getElem? hx1)
    rcases hht with h | h
    · refine ⟨true, ⟨fun _ => ?_, fun _ => rfl⟩, fun q x hx => h q x hx⟩
      have e1 : x0 = b := hg.inj x0 b hx0l.1 hbT (by rw [hx0l.2, hc]) (by rw [h 0 x0 hx0, hb0'])
      have e2 : x1 = t := hg.inj x1 t hx1l.1 htT (by rw [hx1l.2, hbt]) (by rw [h _ x1 hx1]; omega)
      rw [e1, e2] at hstart
      exact hstart
    · refine ⟨false, ⟨fun h => (nomatch h), fun h5 => ?_⟩, fun q x hx => ?_⟩
      · have e1 : x0 = t := hg.inj x0 t hx0l.1 htT (by rw [hx0l.2, hbt]) (by rw [h 0 x0 hx0]; omega)
        have e2 : x1 = b := hg.inj x1 b hx1l.1 hbT (by rw [hx1l.2, hc]) (by rw [h _ x1 hx1]; omega)
        rw [e1, e2] at hstart
        exact absurd h5 (hff.1 hstart)
      · have := (List.getElem?_eq_some_iff.1 hx).1
        show len c - 1 - height x = q
        rw [h q x hx]
        omega

/-- **C101** Boundary layers as in C98 and C99, through several levels with any settings: a first call builds the lines, the others follow them.  Let `b` and
`t` be the first and the last cell of a column; `up` tells the end from which the first call pairs it, as in C99, and the places of
cells are counted from there.  The column is cut as in C101_followed: into as many stretches as `cellsLeft` says, all of them among the cells taken by the first
call; if the other levels take all cells, the stretches make up the cells taken by the first call. -/
theorem C101_columns (hW : LawfulLt W) (hE : EqExact W) {P : Platform} {z : Int} (hz : z ≤ 0) {above : Prop} (a : Args W)
    (levels : List ((MeshData W → Outs → Args W) × (Bool × Option Int))) {g : MeshData W} (hg : GoodMesh g n)
    (hab : above → PrioritiesAbove g) (o : Outs) (hp : ValidParams P (a.onMesh g)) (hcor : CorrectsSingletons (a.onMesh g))
    (hb : BuildsLines (a.onMesh g) n) (hns : NoSelfLoop g.adjIdx g.adj)
    (hpos : NonnegCouplings (graphOf (a.onMesh g)) (meantCoupling (a.onMesh g)))
    (hforce : a.forceDir = false ∨ StraightChains (graphOf (a.onMesh g)) (meantCoupling (a.onMesh g)) (InLayers (a.onMesh g)))
    (hst : Stacked (InLayers (a.onMesh g)) col height len)
    (hs : StrongColumns (graphOf (a.onMesh g)) (meantCoupling (a.onMesh g)) (InLayers (a.onMesh g)) col height)
    {set : List (Bool × Option Int)} (hset : set = (a.oddLine, lineLimit (a.onMesh g)) :: levels.map Prod.snd)
    (hsome : ∃ i, InLayers (a.onMesh g) i ∧ 0 < cellsLeft set (len (col i)))
    (hshort : ∀ i, InLayers (a.onMesh g) i → NeverShort set (len (col i)))
    (hl : ∀ s ∈ levels, ∀ g' o' n', GoodMesh g' n' → n' ≤ n → (above → PrioritiesAbove g') →
      FollowsWith P ((s.1 g' o').onMesh g') s.2.1 s.2.2) :
    ∃ maps gN, runLevels P z ((fun _ _ => a) :: levels.map Prod.fst) g o = .ok (maps, gN) ∧
      ∀ b t, InLayers (a.onMesh g) b → InLayers (a.onMesh g) t → col b = col t → height b = 0 → height t + 1 = len (col b) →
        0 < cellsLeft set (len (col b)) →
        ∃ up : Bool, (up = true ↔ FrontFirst ((a.onMesh g).nBnd.map (fun k => min k a.dim.toNat)) (a.onMesh g).prio b t) ∧
          ∃ d : Nat → Nat, d (cellsLeft set (len (col b))) ≤ takenCells a.oddLine (lineLimit (a.onMesh g)) (len (col b)) ∧
            (∀ s < cellsLeft set (len (col b)), d s + 2 ^ (levels.length + 1) ≤ d (s + 1) ∧ d (s + 1) < d s + 2 ^ (levels.length + 2)) ∧
            (∀ x, InLayers (a.onMesh g) x → col x = col b → d 0 ≤ fromEnd (len (col b)) up (height x) →
              fromEnd (len (col b)) up (height x) < d (cellsLeft set (len (col b))) → ∀ y < n,
              (composeMaps maps y = composeMaps maps x ↔ InLayers (a.onMesh g) y ∧ col y = col b ∧
                ∀ s ≤ cellsLeft set (len (col b)),
                  (d s ≤ fromEnd (len (col b)) up (height x) ↔ d s ≤ fromEnd (len (col b)) up (height y)))) ∧
            (AllTaken (levels.map Prod.snd) (takenCells a.oddLine (lineLimit (a.onMesh g)) (len (col b)) / 2) →
              d 0 = 0 ∧ d (cellsLeft set (len (col b))) = takenCells a.oddLine (lineLimit (a.onMesh g)) (len (col b))) := by
  subst hset
  have hm := hg.validMesh a
  obtain ⟨fls, h1, h4, htwo, hline, hlt, hcolumn, hcons⟩ := columns_fine (P := P) (o := o) hW hm hb hns hpos hforce hst hs
  have hlisted : ∀ l ∈ fls, ∀ i ∈ l, l.length = len (col i) := fun l hl i hi =>
    (hst.listed ((List.nodup_flatten.1 h4).1 l hl) (hcons l hl) (hlt l hl i hi) (hcolumn l hl i hi)).1
  have hcell : ∀ l ∈ fls, ∃ i ∈ l, InLayers (a.onMesh g) i ∧ l.length = len (col i) := by
    intro l hl
    obtain ⟨i, hi⟩ := List.exists_mem_of_ne_nil l (fun h => by have := htwo l hl; rw [h] at this; simp at this)
    exact ⟨i, hi, hlt l hl i hi, hlisted l hl i hi⟩
  have hfits : ∀ fls', fineLines P (a.onMesh g) o = .ok fls' → FitsLimit (a.onMesh g) fls' := by
    intro fls' h l hl m hm'
    rw [h1] at h
    cases h
    obtain ⟨i, hi, hiT, hiL⟩ := hcell l hl
    have h2 := htwo l hl
    rw [hiL] at h2 ⊢
    exact (hshort i hiT).1 h2 m hm'
  obtain ⟨fls', out, g1, hcall, hres, _, _, _⟩ := C40_built (P := P) (o := o) hW hm hp hcor hb (fun fls h => hfits fls h)
  rw [h1] at g1
  cases g1
  obtain ⟨cls, hexp, hpaired⟩ := hres.lines.pairedFront htwo
  obtain ⟨g', N, hmade, hon⟩ := level_exports hz hg ⟨hp, hcor, Or.inr (Or.inl ⟨hb, fun fls h => hfits fls h⟩)⟩
    (withLines_iff.2 (by
      unfold anisoOn
      rw [hb.on, hb.build]; rfl)) (fun h => by
        have : (a.onMesh g).buildLines = true := hb.build
        have h' : (a.onMesh g).buildLines = false := h
        rw [this] at h'
        cases h') hcall hexp
  have hle := hmade.le
  obtain ⟨i0, hi0, h0⟩ := hsome
  obtain ⟨l0, hl0, hil0⟩ := hline i0 hi0 (two_of_left h0)
  obtain ⟨l0', hl0', m0, _, hp0⟩ := forall₂_mem hpaired l0 hl0
  obtain ⟨maps, gN, hrun, hcut⟩ := C101_followed (P := P) hz (hW.irrefl _) (above := above) levels hmade.good
    (fun hh => hmade.above (hW.irrefl _) (hab hh)) hon
    ⟨l0', hl0', by rw [hp0.2.1, hlisted l0 hl0 i0 hil0]; exact h0⟩
    (fun l' hl' => by
      obtain ⟨l, hl1, _, _, hpf⟩ := forall₂_back hpaired l' hl'
      obtain ⟨i, hi, hiT, hiL⟩ := hcell l hl1
      rw [hpf.2.1, hiL]
      exact (hshort i hiT).2)
    (fun s hs g' o' n' h1 h2 h3 => hl s hs g' o' n' h1 (by omega) h3)
  refine ⟨out.fcToCc :: maps, gN, ?_, ?_⟩
  · unfold runLevels
    rw [hmade.call]
    simp only [hmade.build, hrun]
  · intro b t hbT htT hbt hb0 ht0 hleft
    have h2b := two_of_left hleft
    have hne : b ≠ t := by
      rintro rfl
      omega
    obtain ⟨l, hl', hbl⟩ := hline b hbT h2b
    obtain ⟨l', hl1, m, hor, hpf⟩ := forall₂_mem hpaired l hl'
    obtain ⟨hlen, hmem, up, hup, hplace⟩ := column_oriented hW hE hm hb hst h4 htwo hlt hcolumn hcons hl' hor hbT htT rfl hbt hb0 ht0 hne hbl
    rw [hlisted l hl' b hbl] at hpf
    have hleft' : 0 < cellsLeft (levels.map Prod.snd) l'.length := by rw [hpf.2.1]; exact hleft
    have hk : cellsLeft ((a.oddLine, lineLimit (a.onMesh g)) :: levels.map Prod.snd) (len (col b)) =
        cellsLeft (levels.map Prod.snd) l'.length := by rw [hpf.2.1]; rfl
    obtain ⟨b', hb', hball⟩ := hcut l' hl1 hleft'
    obtain ⟨d, hd, hdT, hdall⟩ := hpf.step (Nat.pow_pos (by omega)) hmade.len (fun k hk => (hmade.all k).1 hk) hb' hleft'
    have hpow : 2 ^ (levels.length + 1) = 2 * 2 ^ levels.length := by rw [pow_succ, Nat.mul_comm]
    have hpow2 : 2 ^ (levels.length + 2) = 2 * (2 * 2 ^ levels.length) := by rw [pow_succ, hpow, Nat.mul_comm]
    rw [hk, hpow, hpow2]
    refine ⟨up, hup, d, hdT, fun s hs => ⟨hd.least s hs, hd.most s hs⟩, fun x hx hxc hx1 hx2 y hy => ?_, fun ha => ?_⟩
    · obtain ⟨p, hp1⟩ := List.mem_iff_getElem?.1 ((hmem x).2 ⟨hx, hxc⟩)
      rw [hplace p x hp1] at hx1 hx2 ⊢
      show (out.fcToCc[y]?).bind (composeMaps maps) = (out.fcToCc[x]?).bind (composeMaps maps) ↔ _
      rw [hd.same p x hp1 hx1 hx2 y hy]
      constructor
      · rintro ⟨q, hq, hqs⟩
        obtain ⟨h8, h9⟩ := (hmem y).1 (List.mem_of_getElem? hq)
        rw [hplace q y hq]
        exact ⟨h8, h9, hqs⟩
      · rintro ⟨hyl, hyc, hys⟩
        obtain ⟨q, hq⟩ := List.mem_iff_getElem?.1 ((hmem y).2 ⟨hyl, hyc⟩)
        rw [hplace q y hq] at hys
        exact ⟨q, hq, hys⟩
    · exact hdall (hball (by rw [hpf.2.1]; exact ha))

/-- lines that are not longer than the limit -/
theorem short_lines {m : Int} (hm : 2 ≤ m) (k : Nat) : ∀ {len : Nat}, (len : Int) ≤ m → ¬ (m % 2 = 1 ∧ (len : Int) + 1 = m) →
    NeverShort (List.replicate k (true, some m)) len ∧ cellsLeft (List.replicate k (true, some m)) len = len / 2 ^ k ∧
      AllTaken (List.replicate k (true, some m)) len := by
  induction k with
  | zero =>
    intro len _ _
    exact ⟨trivial, by simp [cellsLeft], trivial⟩
  | succ k ih =>
    intro len h1 h2
    have hT : takenCells true (some m) len = len := by
      unfold takenCells
      simp only [if_true]
      split_ifs <;> omega
    obtain ⟨e1, e2, e3⟩ := ih (len := len / 2) (by omega) (by omega)
    rw [List.replicate_succ]
    unfold NeverShort cellsLeft AllTaken
    simp only [hT]
    refine ⟨⟨?_, e1⟩, ?_, trivial, e3⟩
    · rintro _ m' hm' ⟨h4, _, h5⟩
      cases hm'
      exact h2 ⟨h4, h5⟩
    · rw [e2, Nat.div_div_eq_div_mul, ← pow_succ']

/-- **C101** What the numbers are if odd numbers of cells are allowed and the same limit holds at each level: only the first level leaves cells out, and
the cells it takes are divided by two to the number of levels. -/
theorem C101_same_limit {m : Int} (hm : 2 ≤ m) (k : Nat) {len : Nat} (h : ¬ (m % 2 = 1 ∧ (len : Int) + 1 = m)) :
    NeverShort (List.replicate (k + 1) (true, some m)) len ∧
      cellsLeft (List.replicate (k + 1) (true, some m)) len = takenCells true (some m) len / 2 ^ (k + 1) ∧
      AllTaken (List.replicate k (true, some m)) (takenCells true (some m) len / 2) := by
  have hT : (takenCells true (some m) len : Int) ≤ m + 1 ∧ ((takenCells true (some m) len : Int) = m + 1 → m % 2 = 0) := by
    unfold takenCells
    simp only [if_true]
    split_ifs <;> omega
  obtain ⟨e1, e2, e3⟩ := short_lines hm k (len := takenCells true (some m) len / 2) (by omega) (by omega)
  rw [List.replicate_succ]
  unfold NeverShort
  unfold cellsLeft
  refine ⟨⟨?_, e1⟩, ?_, e3⟩
  · rintro _ m' hm' ⟨h4, _, h5⟩
    cases hm'
    exact h ⟨h4, h5⟩
  · rw [e2, Nat.div_div_eq_div_mul, ← pow_succ']

/-- eleven cells, a limit of eight and three levels: one coarsest cell -/
example := C101_same_limit (m := 8) (by decide) 2 (len := 11) (by decide)

/-! ## Concrete cases -/

/-- a level with at most eight cells of each line, then one without odd lines -/
def exFollowParts : List ((MeshData Int → Outs → Args Int) × (Bool × Option Int)) :=
  [(fun _ _ => { exGiven with maxCells := some 8 }, (true, some 8)), (fun _ _ => { exGiven with oddLine := false }, (false, none))]

/-- the row of eleven cells -/
example := C101_followed (P := exPlatform) (z := -100) (by decide) (by decide) (above := False) exFollowParts exRow11_good
  (fun h => h.elim) (o := exRow11Outs) (ls := [[0, 1, 2, 3, 4, 5, 6, 7, 8, 9, 10]]) ⟨Or.inl ⟨rfl, rfl⟩, by decide, by decide, by
    intro l hl
    simp only [List.mem_singleton] at hl
    subst hl
    intro k x y hx hy
    have hk : k + 1 < 11 := (List.getElem?_eq_some_iff.1 hy).1
    have key : ∀ k < 10, k + 1 ∈ rowOf exRow11.adjIdx exRow11.adj k := by decide
    have hx' : (List.range 11)[k]? = some x := hx
    have hy' : (List.range 11)[k + 1]? = some y := hy
    rw [List.getElem?_range (by omega)] at hx' hy'
    cases hx'
    cases hy'
    exact adj_iff_rowOf.2 (key k (by omega))⟩ ⟨_, List.mem_singleton.2 rfl, by decide⟩ (by
    intro l hl
    simp only [List.mem_singleton] at hl
    subst hl
    exact ⟨fun _ m hm h => by cases hm; omega, fun _ m hm => (nomatch hm), trivial⟩) (by
    intro s hs g' o' n' _ _ _
    simp only [exFollowParts, List.mem_cons, List.not_mem_nil, or_false] at hs
    rcases hs with rfl | rfl <;>
      exact ⟨⟨exGiven_params.dim, exGiven_params.minCard, exGiven_params.goalCard, exGiven_params.maxCard,
        exGiven_params.iter, exGiven_params.thresh, exGiven_params.order, exGiven_params.aspect, by
          rintro (h | h) <;> cases h⟩, fun _ => Or.inl rfl, rfl, rfl, rfl, rfl⟩)

/-- two coarsest cells of four cells each are left of the line -/
example : cellsLeft (exFollowParts.map Prod.snd) 11 = 2 := by decide

example : (runLevels exPlatform (-100) (exFollowParts.map Prod.fst) exRow11 exRow11Outs).map Prod.fst =
    .ok [[0, 0, 1, 1, 2, 2, 3, 3, 4, 4, 4], [0, 0, 1, 1, 2]] := by
  decide +kernel

/-- two levels with towers, of which at most four cells are taken -/
example := C101_columns rat_lawful rat_eqExact (P := exPlatform) (z := -100) (by decide) (above := False)
  { exTowerCall with maxCells := some 4 }
  [(fun _ _ => { exWall with buildLines := false, maxCells := some 4 }, (true, some 4))] exTower_good (fun h => h.elim) ⟨[], [], []⟩
  ⟨exWall_params.dim, exWall_params.minCard, exWall_params.goalCard, exWall_params.maxCard, exWall_params.iter,
    exWall_params.thresh, exWall_params.order, exWall_params.aspect, by rintro (h | h) <;> cases h⟩
  (fun _ => Or.inl rfl)
  { on := rfl, build := rfl, compliant := by decide, isolated := fun _ _ i hi => by
      have : ∀ i < 9, rowOf exTower.adjIdx exTower.adj i ≠ [] := by decide
      obtain ⟨j, hj⟩ := List.exists_mem_of_ne_nil _ (this i (by revert i; decide))
      exact ⟨j, adj_iff_rowOf.2 hj⟩ }
  (checkNoLoop_sound exTower_crs (by decide)) (by
    rintro i j w ⟨k, _, hk⟩
    have : ∀ w ∈ exTower.weights, Num.lt w (Num.ofNat 0) = false := by decide +kernel
    exact this w (List.mem_of_getElem? hk)) (Or.inl rfl) exTower_stacked exTower_strong rfl
  ⟨0, (exTower_layers 0).2 (by decide), by decide⟩
  (fun i _ => ⟨fun _ m hm h => by cases hm; omega, fun _ m hm h => by cases hm; omega, trivial⟩)
  (by
    intro s hs g' o' n' _ _ _
    simp only [List.mem_singleton] at hs
    subst hs
    exact ⟨⟨exWall_params.dim, exWall_params.minCard, exWall_params.goalCard, exWall_params.maxCard, exWall_params.iter,
      exWall_params.thresh, exWall_params.order, exWall_params.aspect, by rintro (h | h) <;> cases h⟩, fun _ => Or.inl rfl,
      rfl, rfl, rfl, rfl⟩)

end CoMMA
