import Verif.Spec.PoolSteps
import Verif.Lemmas.PoolRun
import Verif.Props.PoolOrder
/-! # What each operation of a seeds pool does: proofs -/

set_option linter.unusedSectionVars false

namespace CoMMA

variable {W : Type} [Num W]

/-- exact value of `get_highest_n_bnd_yet_to_agglomerate` -/
theorem highestAux_exact {c : PoolCfg W} {n : Nat} (h : c.Sized n) {agg : List Bool} (ha : agg.length = n)
    (e : Nat) (l : List Nat) (hl : ∀ i ∈ l, i < n) (m : Option Nat) (hm : ∀ b, m = some b → b < e) :
    Ok (highestAux c.nBnd agg e l m) (fun r =>
      (r = none → m = none ∧ ∀ i ∈ l, isAgg agg i = true) ∧
      (∀ b, r = some b →
        (∃ pre i post, l = pre ++ i :: post ∧ isAgg agg i = false ∧ c.nb i = b ∧ e ≤ b ∧
          ∀ j ∈ pre, isAgg agg j = false → c.nb j < e) ∨
        ((m = some b ∨ ∃ i ∈ l, isAgg agg i = false ∧ c.nb i = b) ∧ b < e ∧ (∀ b', m = some b' → b' ≤ b) ∧
          ∀ i ∈ l, isAgg agg i = false → c.nb i ≤ b))) := by
  induction l generalizing m with
  | nil =>
    simp only [highestAux]
    refine ⟨fun h => ⟨h, by simp⟩, fun b hb => Or.inr ⟨Or.inl hb, hm b hb, fun b' hb' => ?_, by simp⟩⟩
    rw [hb] at hb'; cases hb'; exact Nat.le_refl _
  | cons i l ih =>
    have hi := hl i (by simp)
    have ih' := fun m hm => ih (fun j hj => hl j (by simp [hj])) m hm
    unfold highestAux
    rw [rdAgg ha hi]
    simp only [ok_bind]
    by_cases hg : isAgg agg i = true
    · rw [if_pos hg]
      refine (ih' m hm).mono (fun r ⟨h1, h2⟩ => ⟨fun hr => ?_, fun b hb => ?_⟩)
      · obtain ⟨h3, h4⟩ := h1 hr
        exact ⟨h3, by simpa [hg] using h4⟩
      · rcases h2 b hb with ⟨pre, j, post, h3, h4, h5, h6, h7⟩ | ⟨h3, h4, h5, h6⟩
        · refine Or.inl ⟨i :: pre, j, post, by rw [h3]; rfl, h4, h5, h6, fun x hx hxa => ?_⟩
          rcases List.mem_cons.1 hx with rfl | hx
          · rw [hg] at hxa; cases hxa
          · exact h7 x hx hxa
        · refine Or.inr ⟨?_, h4, h5, fun x hx hxa => ?_⟩
          · rcases h3 with h3 | ⟨j, hj, hj'⟩
            · exact Or.inl h3
            · exact Or.inr ⟨j, by simp [hj], hj'⟩
          · rcases List.mem_cons.1 hx with rfl | hx
            · rw [hg] at hxa; cases hxa
            · exact h6 x hx hxa
    · rw [if_neg hg, h.rdB hi]
      simp only [Bool.not_eq_true] at hg
      simp only [ok_bind]
      by_cases hb : e ≤ c.nb i
      · rw [if_pos hb]
        simp only [Ok_pure]
        refine ⟨(fun h => by cases h), fun b hb' => ?_⟩
        cases hb'
        exact Or.inl ⟨[], i, l, rfl, hg, rfl, hb, by simp⟩
      · rw [if_neg hb]
        obtain ⟨m', hm', hle, hor, hm0⟩ : ∃ m', (if optLt (if m.isNone then some (c.nb i) else m) (c.nb i) then some (c.nb i)
              else (if m.isNone then some (c.nb i) else m)) = some m' ∧ c.nb i ≤ m' ∧
              (m' = c.nb i ∨ m = some m') ∧ (∀ b', m = some b' → b' ≤ m') := by
          cases m with
          | none => exact ⟨c.nb i, by simp [optLt], Nat.le_refl _, Or.inl rfl, by simp⟩
          | some x =>
            by_cases hx : x < c.nb i
            · exact ⟨c.nb i, by simp [optLt, hx], Nat.le_refl _, Or.inl rfl, by
                intro b' hb'; cases hb'; omega⟩
            · exact ⟨x, by simp [optLt, hx], by omega, Or.inr rfl, by
                intro b' hb'; cases hb'; omega⟩
        rw [hm']
        have hme : m' < e := by
          rcases hor with h | h
          · omega
          · exact hm _ h
        refine (ih' (some m') (by intro b hb; cases hb; exact hme)).mono (fun r ⟨h1, h2⟩ => ⟨fun hr => ?_, fun b hb' => ?_⟩)
        · have := (h1 hr).1; cases this
        · rcases h2 b hb' with ⟨pre, j, post, h3, h4, h5, h6, h7⟩ | ⟨h3, h4, h5, h6⟩
          · refine Or.inl ⟨i :: pre, j, post, by rw [h3]; rfl, h4, h5, h6, fun x hx hxa => ?_⟩
            rcases List.mem_cons.1 hx with rfl | hx
            · omega
            · exact h7 x hx hxa
          · have hmb := h5 m' rfl
            refine Or.inr ⟨?_, h4, fun b' hb'' => Nat.le_trans (hm0 b' hb'') hmb, fun x hx hxa => ?_⟩
            · rcases h3 with h3 | ⟨j, hj, hj'⟩
              · cases h3
                rcases hor with hor | hor
                · exact Or.inr ⟨i, by simp, hg, hor.symm⟩
                · exact Or.inl hor
              · exact Or.inr ⟨j, by simp [hj], hj'⟩
            · rcases List.mem_cons.1 hx with rfl | hx
              · exact Nat.le_trans hle hmb
              · exact h6 x hx hxa

theorem range_split_at {n i : Nat} {pre post : List Nat} (h : List.range n = pre ++ i :: post) :
    i < n ∧ ∀ j < i, j ∈ pre := by
  have hs := List.pairwise_lt_range (n := n)
  rw [h] at hs
  have hi : i < n := by
    have : i ∈ List.range n := by rw [h]; simp
    simpa using this
  refine ⟨hi, fun j hj => ?_⟩
  have hm : j ∈ List.range n := by simp; omega
  rw [h] at hm
  rcases List.mem_append.1 hm with hm | hm
  · exact hm
  · rcases List.mem_cons.1 hm with hm | hm
    · omega
    · have := (List.pairwise_append.1 hs).2.1
      have := (List.pairwise_cons.1 this).1 j hm
      omega

theorem highest_exact {c : PoolCfg W} {n : Nat} (hc : PoolInput c n) {agg : List Bool} (ha : agg.length = n)
    (e : Nat) : Ok (highest c.nBnd agg e) (fun r =>
      (r = none → ∀ (i : Nat) b, c.nBnd[i]? = some b → agg[i]? = some true) ∧
      (∀ b, r = some b → NextLevel c.nBnd agg e b)) := by
  have h := hc.sized
  unfold highest
  rw [h.bnd]
  refine (highestAux_exact h ha e (List.range n) (by simp) none (by simp)).mono (fun r ⟨h1, h2⟩ => ⟨fun hr i b hb => ?_,
    fun b hb => ?_⟩)
  · obtain ⟨h3, h4⟩ := lt_of_bnd hc hb
    exact (isAgg_true_iff ha h3).1 ((h1 hr).2 i (by simpa using h3))
  · rcases h2 b hb with ⟨pre, i, post, h3, h4, h5, h6, h7⟩ | ⟨h3, h4, _, h6⟩
    · obtain ⟨hi, hpre⟩ := range_split_at h3
      refine Or.inl ⟨i, by rw [nb_of_some hc hi, h5], isAgg_false_iff.1 h4, h6, fun j b' hj hb' hja => ?_⟩
      rw [← (lt_of_bnd hc hb').2]
      exact h7 j (hpre j hj) (isAgg_false_iff.2 hja)
    · rcases h3 with h3 | ⟨i, hi, hia, hib⟩
      · cases h3
      · have hi' : i < n := by simpa using hi
        refine Or.inr ⟨⟨i, by rw [nb_of_some hc hi', hib], isAgg_false_iff.1 hia⟩, h4, fun j b' hb' hja => ?_⟩
        obtain ⟨h7, h8⟩ := lt_of_bnd hc hb'
        rw [← h8]
        exact h6 j (by simpa using h7) (isAgg_false_iff.2 hja)

/-- all the queues hold cells, four of them -/
def QOk (n : Nat) (qs : List (List Nat)) : Prop := QAll (fun _ i => i < n) qs

theorem spoil_cases {agg : List Bool} {n : Nat} (ha : agg.length = n) {q : List Nat} (hq : ∀ i ∈ q, i < n) :
    (spoil agg q = .ok (none, []) ∧ ∀ x ∈ q, agg[x]? = some true) ∨
    (∃ s rest, spoil agg q = .ok (some s, rest) ∧ FirstFree agg q s rest) := by
  rcases spoil_spec ha hq with ⟨h1, h2⟩ | ⟨pre, s, post, h1, h2, h3, h4⟩
  · exact Or.inl ⟨h1, fun x hx => (isAgg_true_iff ha (hq x hx)).1 (h2 x hx)⟩
  · exact Or.inr ⟨s, post, h4, pre, h1, fun x hx => (isAgg_true_iff ha (hq x (by rw [h1]; simp [hx]))).1 (h2 x hx),
      isAgg_false_iff.1 h3⟩

/-- the queues from `lo` to `t` are emptied, the others kept -/
def Emptied (qs qs' : List (List Nat)) (lo t : Nat) : Prop :=
  qs'.length = qs.length ∧
    ∀ (j : Nat) r, qs[j]? = some r → qs'[j]? = some (if lo ≤ j ∧ j ≤ t then [] else r)

theorem FreeOfLevel.ne_nil {c : PoolCfg W} {agg : List Bool} {t cur : Nat} {l : List Nat} (h : FreeOfLevel c agg cur l)
    (hn : NextLevel c.nBnd agg t cur) : l ≠ [] := by
  intro hl
  subst hl
  rcases hn with ⟨i, h1, h2, _⟩ | ⟨⟨i, h1, h2⟩, _⟩
  · exact absurd ((h.2 i).2 ⟨h1, h2⟩) (by simp)
  · exact absurd ((h.2 i).2 ⟨h1, h2⟩) (by simp)

theorem NextLevel.mem {nBnd : List Nat} {agg : List Bool} {t cur : Nat} (h : NextLevel nBnd agg t cur) : cur ∈ nBnd := by
  rcases h with ⟨i, h1, _⟩ | ⟨⟨i, h1, _⟩, _⟩ <;> exact List.mem_of_getElem? h1

theorem chooseFallback_exact (hW : LawfulLt W) {c : PoolCfg W} {n : Nat} (hc : PoolInput c n) {agg : List Bool}
    (ha : agg.length = n) {p0 p : Pool} (hq : QOk n p0.queues) {t : Nat} (htop : p0.top = some t)
    (hnone : NoneWaiting agg p0 (lowestLevel c.kind t) t)
    (hE : Emptied p0.queues p.queues (lowestLevel c.kind t) t) :
    Ok (chooseFallback c agg p t) (fun r => SeedChosen c agg p0 r.1 r.2) := by
  unfold chooseFallback
  refine (highest_exact hc ha t).bind (fun r ⟨hr1, hr2⟩ => ?_)
  cases r with
  | none =>
    simp only [Ok_pure]
    exact .finished htop hnone (hr1 rfl) rfl hE.1 hE.2
  | some cur =>
    have hN := hr2 cur rfl
    have hcur4 : cur < 4 := by have := hc.le3 _ hN.mem; omega
    obtain ⟨q0, _, hq0, hq0n⟩ := QAll.rd hq hcur4
    have hlen : p.queues.length = 4 := by rw [hE.1]; exact hq.1
    have hlt : cur < p.queues.length := by rw [hlen]; exact hcur4
    have hq1 := hE.2 cur q0 hq0
    generalize hq1' : (if lowestLevel c.kind t ≤ cur ∧ cur ≤ t then [] else q0) = q1 at hq1
    have hq1n : ∀ i ∈ q1, i < n := by
      intro i hi
      rw [← hq1'] at hi
      split at hi
      · cases hi
      · exact hq0n i hi
    -- the queues in the end
    have hset : ∀ {qs : List (List Nat)} {rest : List Nat}, qs.length = 4 →
        (∀ j : Nat, j ≠ cur → qs[j]? = p.queues[j]?) → ∀ (j : Nat) r, p0.queues[j]? = some r →
        (qs.set cur rest)[j]? = some (if j = cur then rest else if lowestLevel c.kind t ≤ j ∧ j ≤ t then [] else r) := by
      intro qs rest hl hsame j r hr
      by_cases hj : j = cur
      · subst hj
        rw [if_pos rfl, List.getElem?_set_self (by rw [hl]; exact hcur4)]
      · rw [if_neg hj, List.getElem?_set_ne (fun h => hj h.symm), hsame j hj]
        exact hE.2 j r hr
    simp only
    rw [rd_ok.2 hq1]
    simp only [ok_bind]
    rcases spoil_cases ha hq1n with ⟨hs, hall⟩ | ⟨s, rest, hs, hff⟩
    · rw [hs]
      simp only [ok_bind]
      rw [wr_of_lt hlt]
      simp only [ok_bind]
      have hget : (p.queues.set cur [])[cur]? = some [] := List.getElem?_set_self hlt
      obtain ⟨l, hb, hl1, hl2⟩ := C08_rebuild hW hc ha (p := ⟨p.queues.set cur [], some cur⟩) hget
      rw [hb]
      simp only [ok_bind, List.nil_append]
      have hget2 : ((p.queues.set cur []).set cur l)[cur]? = some l :=
        List.getElem?_set_self (by rw [List.length_set]; exact hlt)
      rw [rd_ok.2 hget2]
      simp only [ok_bind]
      have hF : FreeOfLevel c agg cur l := ⟨hl1, hl2⟩
      cases l with
      | nil => exact absurd rfl (hF.ne_nil hN)
      | cons s rest =>
        simp only
        rw [wr_of_lt (by rw [List.length_set, List.length_set]; exact hlt)]
        simp only [ok_bind, Ok_pure]
        refine .otherLevel htop hnone hN hq0 (Or.inr ⟨?_, hF⟩) rfl ?_ ?_
        · intro x hx
          by_cases hin : lowestLevel c.kind t ≤ cur ∧ cur ≤ t
          · exact hnone cur q0 hin.1 hin.2 hq0 x hx
          · rw [if_neg hin] at hq1'
            exact hall x (by rw [← hq1']; exact hx)
        · simp [hE.1]
        · refine hset (by simp [hlen]) (fun j hj => ?_)
          rw [List.getElem?_set_ne (fun h => hj h.symm), List.getElem?_set_ne (fun h => hj h.symm)]
    · rw [hs]
      simp only [ok_bind]
      rw [wr_of_lt hlt]
      simp only [ok_bind, Ok_pure]
      have hin : ¬ (lowestLevel c.kind t ≤ cur ∧ cur ≤ t) := by
        intro hin
        rw [if_pos hin] at hq1'
        obtain ⟨pre, h1, _⟩ := hff
        rw [← hq1'] at h1
        simp at h1
      rw [if_neg hin] at hq1'
      subst hq1'
      exact .otherLevel htop hnone hN hq0 (Or.inl hff) rfl (by simp [hE.1]) (hset hlen (fun _ _ => rfl))

theorem spoilDown_exact {n : Nat} {agg : List Bool} (ha : agg.length = n) (t : Nat) (ht : t < 4) {p : Pool}
    (hq : QOk n p.queues) :
    Ok (spoilDown agg t p) (fun r =>
      (∃ s k q rest, r.1 = some s ∧ k ≤ t ∧ NoneWaiting agg p (k + 1) t ∧ p.queues[k]? = some q ∧ FirstFree agg q s rest ∧
        r.2.top = some k ∧ r.2.queues.length = p.queues.length ∧
        ∀ (j : Nat) x, p.queues[j]? = some x →
          r.2.queues[j]? = some (if j = k then rest else if k < j ∧ j ≤ t then [] else x)) ∨
      (r.1 = none ∧ r.2.top = p.top ∧ NoneWaiting agg p 0 t ∧ Emptied p.queues r.2.queues 0 t)) := by
  induction t generalizing p with
  | zero =>
    unfold spoilDown
    obtain ⟨q, h1, h2, h3⟩ := QAll.rd hq (k := 0) (by omega)
    have hlt : 0 < p.queues.length := by rw [hq.1]; omega
    rw [h1]
    simp only [ok_bind]
    rcases spoil_cases ha h3 with ⟨hs, hall⟩ | ⟨s, rest, hs, hff⟩
    · rw [hs]
      simp only [ok_bind]
      rw [wr_of_lt hlt]
      simp only [ok_bind, Ok_pure]
      refine Or.inr ⟨trivial, trivial, ?_, by simp, ?_⟩
      · intro k q' _ hk hq'
        obtain rfl : k = 0 := by omega
        rw [h2] at hq'; cases hq'; exact hall
      · intro j x hx
        by_cases hj : j = 0
        · subst hj
          rw [if_pos (by omega), List.getElem?_set_self hlt]
        · rw [if_neg (by omega), List.getElem?_set_ne (by omega), hx]
    · rw [hs]
      simp only [ok_bind]
      rw [wr_of_lt hlt]
      simp only [ok_bind, Ok_pure]
      refine Or.inl ⟨s, 0, q, rest, rfl, Nat.le_refl _, ?_, h2, hff, rfl, by simp, ?_⟩
      · intro k q' h4 h5; omega
      · intro j x hx
        by_cases hj : j = 0
        · subst hj
          rw [if_pos rfl, List.getElem?_set_self hlt]
        · rw [if_neg hj, if_neg (by omega), List.getElem?_set_ne (by omega), hx]
  | succ t ih =>
    unfold spoilDown
    obtain ⟨q, h1, h2, h3⟩ := QAll.rd hq (k := t + 1) ht
    have hlt : t + 1 < p.queues.length := by rw [hq.1]; omega
    rw [h1]
    simp only [ok_bind]
    rcases spoil_cases ha h3 with ⟨hs, hall⟩ | ⟨s, rest, hs, hff⟩
    · rw [hs]
      simp only [ok_bind]
      rw [wr_of_lt hlt]
      simp only [ok_bind]
      have hnw : ∀ lo, NoneWaiting agg { p with queues := p.queues.set (t + 1) [] } lo t → NoneWaiting agg p lo (t + 1) := by
        intro lo hN k q' h4 h5 hq'
        by_cases hk : k = t + 1
        · subst hk
          rw [h2] at hq'; cases hq'; exact hall
        · refine hN k q' h4 (by omega) ?_
          rw [List.getElem?_set_ne (by omega)]; exact hq'
      refine (ih (by omega) (p := { p with queues := p.queues.set (t + 1) [] }) (QAll.set hq (by simp))).mono (fun r hr => ?_)
      rcases hr with ⟨s, k, q', rest, e1, e2, e3, e4, e5, e6, e7, e8⟩ | ⟨e1, e2, e3, e4, e5⟩
      · refine Or.inl ⟨s, k, q', rest, e1, by omega, hnw _ e3, ?_, e5, e6, by rw [e7]; simp, ?_⟩
        · rw [List.getElem?_set_ne (by omega)] at e4; exact e4
        · intro j x hx
          by_cases hj : j = t + 1
          · subst hj
            rw [e8 (t + 1) [] (List.getElem?_set_self hlt)]
            rw [if_neg (by omega), if_neg (by omega), if_neg (by omega), if_pos (by omega)]
          · rw [e8 j x (by rw [List.getElem?_set_ne (by omega)]; exact hx)]
            congr 1
            by_cases hjk : j = k
            · rw [if_pos hjk, if_pos hjk]
            · rw [if_neg hjk, if_neg hjk]
              by_cases hjt : k < j ∧ j ≤ t
              · rw [if_pos hjt, if_pos (by omega)]
              · rw [if_neg hjt, if_neg (by omega)]
      · refine Or.inr ⟨e1, e2, hnw _ e3, by rw [e4]; simp, ?_⟩
        intro j x hx
        by_cases hj : j = t + 1
        · subst hj
          rw [e5 (t + 1) [] (List.getElem?_set_self hlt)]
          rw [if_neg (by omega), if_pos (by omega)]
        · rw [e5 j x (by rw [List.getElem?_set_ne (by omega)]; exact hx)]
          congr 1
          by_cases hjt : 0 ≤ j ∧ j ≤ t
          · rw [if_pos hjt, if_pos (by omega)]
          · rw [if_neg hjt, if_neg (by omega)]
    · rw [hs]
      simp only [ok_bind]
      rw [wr_of_lt hlt]
      simp only [ok_bind, Ok_pure]
      refine Or.inl ⟨s, t + 1, q, rest, rfl, Nat.le_refl _, ?_, h2, hff, rfl, by simp, ?_⟩
      · intro k q' h4 h5; omega
      · intro j x hx
        by_cases hj : j = t + 1
        · subst hj
          rw [if_pos rfl, List.getElem?_set_self hlt]
        · rw [if_neg hj, if_neg (by omega), List.getElem?_set_ne (by omega), hx]

/-- what `choose_new_seed` does -/
theorem choose_exact (hW : LawfulLt W) {c : PoolCfg W} {n : Nat} (hc : PoolInput c n) {agg : List Bool}
    (ha : agg.length = n) {p : Pool} (hq : QOk n p.queues) (ht : TopOk c n p.top) :
    Ok (p.choose c agg) (fun r => SeedChosen c agg p r.1 r.2) := by
  unfold Pool.choose
  cases htop : p.top with
  | none => exact .off htop
  | some t =>
    rw [htop] at ht
    have ht4 := ht.lt4 hc.sized
    have hlt : t < p.queues.length := by rw [hq.1]; exact ht4
    simp only
    cases hk : c.kind with
    | boundary =>
      simp only
      obtain ⟨q, h1, h2, h3⟩ := QAll.rd hq ht4
      rw [h1]
      simp only [ok_bind]
      have hlow : lowestLevel c.kind t = t := by rw [hk]; rfl
      rcases spoil_cases ha h3 with ⟨hs, hall⟩ | ⟨s, rest, hs, hff⟩
      · rw [hs]
        simp only [ok_bind]
        rw [wr_of_lt hlt]
        simp only [ok_bind]
        refine chooseFallback_exact hW hc ha hq htop ?_ ?_
        · rw [hlow]
          intro k q' h4 h5 hq'
          obtain rfl : k = t := by omega
          rw [h2] at hq'; cases hq'; exact hall
        · rw [hlow]
          refine ⟨by simp, fun j x hx => ?_⟩
          by_cases hj : j = t
          · subst hj
            rw [if_pos (by omega), List.getElem?_set_self hlt]
          · rw [if_neg (by omega), List.getElem?_set_ne (by omega), hx]
      · rw [hs]
        simp only [ok_bind]
        rw [wr_of_lt hlt]
        simp only [ok_bind, Ok_pure]
        refine .waiting htop (by omega) (Nat.le_refl _) ?_ h2 hff rfl (by simp) ?_
        · intro k q' h4 h5; omega
        · intro j x hx
          by_cases hj : j = t
          · subst hj
            rw [if_pos rfl, List.getElem?_set_self hlt]
          · rw [if_neg hj, if_neg (by omega), List.getElem?_set_ne (by omega), hx]
    | neighbourhood =>
      simp only
      have hlow : lowestLevel c.kind t = 0 := by rw [hk]; rfl
      refine (spoilDown_exact ha t ht4 hq).bind (fun r hr => ?_)
      obtain ⟨o, p'⟩ := r
      rcases hr with ⟨s, k, q', rest, e1, e2, e3, e4, e5, e6, e7, e8⟩ | ⟨e1, e2, e3, e4⟩
      · simp only at e1
        subst e1
        exact .waiting htop (by omega) e2 e3 e4 e5 e6 e7 e8
      · simp only at e1
        subst e1
        exact chooseFallback_exact hW hc ha hq htop (by rw [hlow]; exact e3) (by rw [hlow]; exact e4)

/-- what `order_new_seeds_and_update` does -/
theorem orderUpdate_exact (hW : LawfulLt W) {c : PoolCfg W} {n : Nat} (hc : PoolInput c n) (hh : Hash)
    {p : Pool} (hp : p.queues.length = 4) {seeds : NSet} (hs : ∀ s ∈ seeds, s < n) :
    Ok (p.orderUpdate c hh seeds) (SeedsJoined c seeds p) := by
  obtain ⟨p', h1, _, h3, h4, h5⟩ := orderUpdate_queues hW hc.sized hh hp hs (seedLevel c.kind p.top) (by
    funext b
    unfold seedLevel pushLevel
    cases c.kind <;> cases p.top <;> rfl)
  obtain ⟨p2, h6, h7⟩ := C08_ordered_update hW hc hh hp hs
  rw [h1] at h6
  cases h6
  rw [h1]
  refine ⟨by rw [h3, hp], h7, h4, fun hk he => ?_⟩
  obtain ⟨mx, h8, ⟨s0, hs0, hb0⟩, h9⟩ := h5 hk he
  rw [h8]
  have hs0b : c.nBnd[s0]? = some mx := by rw [nb_of_some hc (hs s0 hs0), hb0]
  have hle : ∀ s ∈ seeds, ∀ b, c.nBnd[s]? = some b → b ≤ mx := by
    intro s hs' b hb
    rw [← (lt_of_bnd hc hb).2]; exact h9 s hs'
  unfold raiseTop
  cases p.top with
  | none => exact ⟨mx, rfl, (fun _ h => by cases h), hle, Or.inr ⟨s0, hs0, hs0b⟩⟩
  | some t0 =>
    by_cases hlt : t0 < mx
    · simp only [if_pos hlt]
      exact ⟨mx, rfl, (fun _ h => by cases h; omega), hle, Or.inr ⟨s0, hs0, hs0b⟩⟩
    · simp only [if_neg hlt]
      refine ⟨t0, rfl, (fun _ h => by cases h; omega), fun s hs' b hb => ?_, Or.inl rfl⟩
      have := hle s hs' b hb
      omega

theorem Before.asymm (hW : LawfulLt W) {prio : List W} {a b : Nat} (h1 : Before prio a b) (h2 : Before prio b a) : False := by
  obtain ⟨wa, wb, e1, e2, h⟩ := h1
  obtain ⟨wb', wa', e3, e4, h'⟩ := h2
  rw [e1] at e4; cases e4
  rw [e2] at e3; cases e3
  rcases h with h | ⟨rfl, h⟩
  · rcases h' with h' | ⟨rfl, _⟩
    · have := hW.trans _ _ _ h h'
      rw [hW.irrefl] at this; cases this
    · rw [hW.irrefl] at h; cases h
  · rcases h' with h' | ⟨_, h'⟩
    · rw [hW.irrefl] at h'; cases h'
    · omega

theorem exists_freeOfLevel (hW : LawfulLt W) {c : PoolCfg W} {n : Nat} (hc : PoolInput c n) {agg : List Bool}
    (ha : agg.length = n) (t : Nat) : ∃ l, FreeOfLevel c agg t l := by
  refine ⟨firsts (psetOf c.w ((List.range n).filter (fun i => !isAgg agg i && decide (c.nb i = t)))),
    priorityOrdered_psetOf hW hc (by intro i hi; rw [List.mem_filter] at hi; simpa using hi.1), fun i => ?_⟩
  rw [mem_firsts_psetOf, List.mem_filter]
  simp only [List.mem_range, Bool.and_eq_true, Bool.not_eq_true', decide_eq_true_eq]
  rw [isAgg_false_iff]
  constructor
  · rintro ⟨hi, h2, h3⟩
    exact ⟨by rw [nb_of_some hc hi, h3], h2⟩
  · rintro ⟨h1, h2⟩
    obtain ⟨h3, h4⟩ := lt_of_bnd hc h1
    exact ⟨h3, h2, h4⟩

/-- what `initialize` does to a new pool -/
theorem poolStarted (hW : LawfulLt W) {c : PoolCfg W} {n : Nat} (hc : PoolInput c n) (hp : PrioritiesOk c) {p : Pool}
    (h : Pool.new.initialize c = .ok p) : PoolStarted c p := by
  have hrep : ∀ (i t : Nat), c.nBnd[i]? = some t → (List.replicate c.nBnd.length false)[i]? = some false := by
    intro i t hi
    rw [List.getElem?_replicate, if_pos (List.getElem?_eq_some_iff.1 hi).1]
  cases ho : c.onePoint with
  | false =>
    obtain ⟨p', t, l, h1, h2, h3, h4, h5, h6, h7⟩ := C08_full_initialisation hW hc ho
    rw [h] at h1; cases h1
    refine ⟨t, l, h2, h3, h4, by rw [ho]; exact h5, h6, fun i => ?_⟩
    rw [h7]
    exact ⟨fun hi => ⟨hi, hrep i t hi⟩, fun hi => hi.1⟩
  | true =>
    obtain ⟨p', t, s, h1, h2, h3, h4, h5, h6⟩ := C33_one_point_partial hW hc ho hp
    rw [h] at h1; cases h1
    obtain ⟨l, hl⟩ := exists_freeOfLevel hW hc (agg := List.replicate c.nBnd.length false) (by simp [hc.bnd]) t
    refine ⟨t, l, h2, List.mem_of_getElem? h5, h3, ?_, hl⟩
    rw [h4, ho]
    have hs : s ∈ l := (hl.2 s).2 ⟨h5, hrep s t h5⟩
    cases l with
    | nil => cases hs
    | cons x r =>
      by_cases hx : x = s
      · subst hx; rfl
      · exfalso
        have hb := h6 x ((hl.2 x).1 (by simp)).1 hx
        have hsr : s ∈ r := by
          rcases List.mem_cons.1 hs with h | h
          · exact absurd h.symm hx
          · exact h
        exact hb.asymm hW ((List.pairwise_cons.1 hl.1).1 s hsr)

/-- lists without repetition ordered by an asymmetric relation are equal if they have the same members -/
theorem ordered_unique {α : Type} {R : α → α → Prop} (hR : ∀ a b, R a b → R b a → False) :
    ∀ {l l' : List α}, l.Pairwise R → l'.Pairwise R → (∀ x, x ∈ l ↔ x ∈ l') → l = l'
  | [], [], _, _, _ => rfl
  | [], y :: l', _, _, h => absurd ((h y).2 (by simp)) (by simp)
  | x :: l, [], _, _, h => absurd ((h x).1 (by simp)) (by simp)
  | x :: l, y :: l', h1, h2, h => by
    have ⟨a1, a2⟩ := List.pairwise_cons.1 h1
    have ⟨b1, b2⟩ := List.pairwise_cons.1 h2
    have hxy : x = y := by
      by_contra hne
      have hx : x ∈ l' := by
        rcases List.mem_cons.1 ((h x).1 (by simp)) with h | h
        · exact absurd h hne
        · exact h
      have hy : y ∈ l := by
        rcases List.mem_cons.1 ((h y).2 (by simp)) with h | h
        · exact absurd h.symm hne
        · exact h
      exact hR _ _ (a1 y hy) (b1 x hx)
    subst hxy
    rw [ordered_unique hR a2 b2]
    intro z
    constructor
    · intro hz
      rcases List.mem_cons.1 ((h z).1 (by simp [hz])) with rfl | h'
      · exact (hR _ _ (a1 z hz) (a1 z hz)).elim
      · exact h'
    · intro hz
      rcases List.mem_cons.1 ((h z).2 (by simp [hz])) with rfl | h'
      · exact (hR _ _ (b1 z hz) (b1 z hz)).elim
      · exact h'

end CoMMA
