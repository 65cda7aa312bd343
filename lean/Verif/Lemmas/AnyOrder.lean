import Verif.Lemmas.AnyThreshold
import Verif.Lemmas.HistoryAny
/-! # Correction with any threshold: every result the description allows is obtained for some order -/

set_option linter.unusedSectionVars false

namespace CoMMA

variable {W : Type} [Num W]

/-! ## The treatment of one coarse cell is determined by the order of its cells -/

theorem BestWhole.unique {rp ci f : List Nat} {m k r s : Nat} (h : BestWhole rp ci f m k r) (h' : BestWhole rp ci f m k s) :
    r = s := by
  have h1 := h.2 s h'.1
  have h2 := h'.2 r h.1
  omega

theorem BestReceiverSince.unique {rp ci start f : List Nat} {m x r s : Nat} (h : BestReceiverSince rp ci start f m x r)
    (h' : BestReceiverSince rp ci start f m x s) : r = s := by
  have h1 := h.2 s h'.1
  have h2 := h'.2 r h.1
  rcases h1 with ⟨a1, b1⟩ | ⟨i1, h1⟩
  · rcases h2 with ⟨a, _⟩ | ⟨a, _⟩
    · exact absurd a b1
    · exact absurd (a.2 a1) b1
  · rcases h2 with ⟨a, b⟩ | ⟨_, h2⟩
    · exact absurd (i1.2 a) b
    · unfold Closer at h1 h2
      omega

theorem CellByCell.unique {rp ci start xs f f1 f2 : List Nat} {m : Nat} (h : CellByCell rp ci m start xs f f1)
    (h' : CellByCell rp ci m start xs f f2) : f1 = f2 := by
  induction h with
  | done => cases h'; rfl
  | stays hn _ ih =>
    cases h' with
    | stays _ h' => exact ih h'
    | given hb _ => exact absurd hb.1 (hn _)
  | given hb _ ih =>
    cases h' with
    | stays hn _ => exact absurd hb.1 (hn _)
    | given hb' h' =>
      obtain rfl := hb.unique hb'
      exact ih h'

theorem WholeReceiver.cell {rp ci f : List Nat} {m k r : Nat} (h : WholeReceiver rp ci f m k r) :
    ∃ x : Nat, f[x]? = some k ∧ Receiver rp ci f m x r := by
  obtain ⟨h1, h2, ⟨x, y, h3, h4, h5⟩, _⟩ := h
  refine ⟨x, h3, ?_, h2, y, h4, h5⟩
  rw [h3]
  intro he
  cases he
  exact h1 rfl

theorem StepT.unique {rp ci xs f f1 f2 : List Nat} {m k : Nat} {b1 b2 : Bool} (hx : ∀ x : Nat, x ∈ xs ↔ f[x]? = some k)
    (h : StepT rp ci m k xs f f1 b1) (h' : StepT rp ci m k xs f f2 b2) : f1 = f2 ∧ b1 = b2 := by
  cases h with
  | whole h1 h2 =>
    cases h' with
    | whole _ h2' => rw [h2.unique h2']; exact ⟨rfl, rfl⟩
    | cells h1' => exact absurd h2.1 (h1' h1 _)
    | alone h1' =>
      obtain ⟨x, e1, e2⟩ := h2.1.cell
      exact absurd e2 (h1' x e1 _)
  | cells h1 h2 h3 =>
    cases h' with
    | whole h1' h2' => exact absurd h2'.1 (h1 h1' _)
    | cells _ _ h3' => exact ⟨h3.unique h3', rfl⟩
    | alone h1' =>
      obtain ⟨x, e1, r, e2⟩ := h2
      exact absurd e2 (h1' x ((hx x).1 e1) r)
  | alone h1 =>
    cases h' with
    | whole h1' h2' =>
      obtain ⟨x, e1, e2⟩ := h2'.1.cell
      exact absurd e2 (h1 x e1 _)
    | cells _ h2' =>
      obtain ⟨x, e1, r, e2⟩ := h2'
      exact absurd e2 (h1 x ((hx x).1 e1) r)
    | alone _ => exact ⟨rfl, rfl⟩

theorem TreatsSmall.first {rp ci ks f D f2 D2 : List Nat} {m k : Nat} (h : TreatsSmall rp ci m (k :: ks) f D f2 D2) :
    ∃ xs f' b, xs.Nodup ∧ (∀ x : Nat, x ∈ xs ↔ f[x]? = some k) ∧ StepT rp ci m k xs f f' b ∧
      TreatsSmall rp ci m ks f' (if b then k :: D else D) f2 D2 := by
  have hs : (fcsOf f k).elems.Nodup := (fcsOf f k).sorted.imp Nat.ne_of_lt
  have hx : ∀ x : Nat, x ∈ (fcsOf f k).elems ↔ f[x]? = some k := fun x => by rw [NSet.mem_elems, mem_fcsOf]
  cases h with
  | whole h1 h2 h3 => exact ⟨_, _, true, hs, hx, .whole h1 h2, h3⟩
  | cells h1 h2 h3 h4 h5 h6 => exact ⟨_, _, true, h2, h3, .cells h1 h4 h5, h6⟩
  | alone h1 h2 => exact ⟨_, _, false, hs, hx, .alone h1, h2⟩

/-- an order changed for one set, whose cells are met in the order `xs` -/
def Hash.listing (h : Hash) (s xs : List Nat) (hp : xs.Perm s) : Hash where
  ord site l := if l = s then xs else h.ord site l
  perm site l := by
    split
    · rename_i he; exact he ▸ hp
    · exact h.perm site l

variable {g : Graph W} {c0 : Cont} {f0 : List Nat} {m : Nat}

/-- the small coarse cells have different cells -/
theorem AEnv.sets_ne (hE : AEnv g c0 f0 m) {j k : Nat} (hj : j ∈ c0.singular) (hjk : j ≠ k) :
    (fcsOf f0 j).elems ≠ (fcsOf f0 k).elems := by
  intro he
  obtain ⟨cc, h1, _⟩ := (hE.cinv.sing j).1 hj
  obtain ⟨h2, h3⟩ := hE.cinv.card j cc h1
  obtain ⟨x, hx⟩ := NSet.card_pos_iff.1 (h2 ▸ h3)
  have hx' := (ThrInv_init hE).live j cc h1
  rw [hx'.fcs, ← NSet.mem_elems] at hx
  have hk := hx
  rw [he] at hk
  rw [NSet.mem_elems, mem_fcsOf] at hx hk
  rw [hx] at hk
  cases hk
  exact hjk rfl

theorem correctLoop_reach (hE : AEnv g c0 f0 m) (hu : UniqueRows g.rowPtr g.colInd) (hl : NoSelfLoop g.rowPtr g.colInd) :
    ∀ (post pre : List Nat), c0.singular = pre ++ post → ∀ (c : Cont) (rem : NSet) (f D f1 D1 : List Nat),
      ThrInv g c0 f0 m pre f c rem → (∀ k, k ∈ D ↔ k ∈ rem) → TreatsSmall g.rowPtr g.colInd m post f D f1 D1 →
      ∃ h : Hash, ∀ h' : Hash, (∀ j ∈ post, h'.ord 5 (fcsOf f0 j).elems = h.ord 5 (fcsOf f0 j).elems) →
        Ok (post.foldlM (correctStep g h') (c, rem)) (fun r => ThrInv g c0 f0 m c0.singular f1 r.1 r.2 ∧
          ∀ k, k ∈ D1 ↔ k ∈ r.2) := by
  intro post
  induction post with
  | nil =>
    intro pre hsp c rem f D f1 D1 h hD ht
    cases ht
    refine ⟨Hash.id, fun h' _ => ?_⟩
    rw [List.foldlM_nil, Ok_pure]
    rw [List.append_nil] at hsp
    rw [hsp]
    exact ⟨h, hD⟩
  | cons k ks ih =>
    intro pre hsp c rem f D f1 D1 h hD ht
    have hk : k ∈ c0.singular := by rw [hsp]; simp
    have hs := hE.cinv.singSorted
    rw [hsp, List.pairwise_append, List.pairwise_cons] at hs
    have hkp : k ∉ pre := fun hp => absurd (hs.2.2 k hp k (by simp)) (Nat.lt_irrefl k)
    have hkk : k ∉ ks := fun hp => absurd (hs.2.1.1 k hp) (Nat.lt_irrefl k)
    obtain ⟨xs, f', b, hx1, hx2, hst, ht'⟩ := ht.first
    have hperm : xs.Perm (fcsOf f0 k).elems := by
      refine (List.perm_ext_iff_of_nodup hx1 ((fcsOf f0 k).sorted.imp Nat.ne_of_lt)).2 (fun x => ?_)
      rw [hx2, NSet.mem_elems, h.untouched hE hk hkp]
    have hxs : ∀ h : Hash, (h.listing _ xs hperm).ord 5 (fcsOf f0 k).elems = xs := fun h => if_pos rfl
    obtain ⟨⟨c', rem'⟩, heq, f'', b', h', hb, hT, hr⟩ := (correctStep_step hE (Hash.id.listing _ xs hperm) h
      (fun j hj => by rw [hsp]; simp [hj]) hk hkp).eq
    simp only at h' hb hT hr
    rw [hxs] at hT
    obtain ⟨rfl, rfl⟩ := StepT.unique hx2 hst (hT hu hl)
    obtain ⟨h1, hh1⟩ := ih (pre ++ [k]) (by rw [hsp]; simp) c' rem' f' (if b then k :: D else D) f1 D1 h' (by
      intro j
      rw [hr]
      cases b with
      | true =>
        rw [if_pos rfl, List.mem_cons, hD]
        constructor
        · rintro (rfl | hj)
          · exact Or.inr ⟨rfl, hb.1 rfl⟩
          · exact Or.inl hj
        · rintro (hj | ⟨rfl, _⟩)
          · exact Or.inr hj
          · exact Or.inl rfl
      | false =>
        rw [if_neg (by simp), hD]
        constructor
        · exact Or.inl
        · rintro (hj | ⟨_, hj⟩)
          · exact hj
          · exact absurd (hb.2 hj) (by simp)) ht'
    refine ⟨h1.listing _ xs hperm, fun h2 hh2 => ?_⟩
    have hstep : correctStep g h2 (c, rem) k = .ok (c', rem') := by
      rw [← heq]
      refine correctStep_order (fun cc hcc => ?_)
      have : fcsOf f0 k = cc.fcs := by
        apply NSet.ext
        intro x
        rw [h.untouched hE hk hkp, (h.live k cc hcc).part]
      rw [← this, hh2 k (by simp), hxs, hxs]
    rw [List.foldlM_cons, hstep, ok_bind]
    refine hh1 h2 (fun j hj => ?_)
    rw [hh2 j (List.mem_cons_of_mem _ hj)]
    exact if_neg (hE.sets_ne (by rw [hsp]; simp [hj]) (fun he : j = k => hkk (he ▸ hj)))

/-- every result that the description allows is the one with some order -/
theorem correct_reach (hE : AEnv g c0 f0 m) (hu : UniqueRows g.rowPtr g.colInd) (hl : NoSelfLoop g.rowPtr g.colInd)
    {f1 D : List Nat} (ht : TreatsSmall g.rowPtr g.colInd m (smallsOf f0 m c0.thresh c0.counter) f0 [] f1 D) :
    ∃ h : Hash, Ok (c0.correct g h) (fun c' => Views g.nbC (renumberedBut f1 D) c' ∧ c'.fc2cc.length = g.nbC) := by
  rw [← smalls_eq hE] at ht
  obtain ⟨h, hh⟩ := correctLoop_reach hE hu hl c0.singular [] rfl c0 NSet.empty f0 [] f1 D (ThrInv_init hE) (by simp) ht
  refine ⟨h, ?_⟩
  unfold Cont.correct
  refine Ok.bind (hh h (fun _ _ => rfl)) ?_
  rintro ⟨c1, rem⟩ ⟨hT, hD⟩
  exact hT.after hE hD

end CoMMA
