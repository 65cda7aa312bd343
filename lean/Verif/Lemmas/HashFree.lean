import Verif.Lemmas.TopLevel
import Verif.Lemmas.LineSpec
/-! # Results do not depend on the iteration order of unordered containers -/

set_option linter.unusedSectionVars false

namespace CoMMA

variable {W : Type} [Num W]

/-- the only error is undefined behaviour -/
def UbOnly {α : Type} (m : M α) : Prop := ∀ e, m = .error e → e = .ub

theorem UbOnly.pure {α : Type} (a : α) : UbOnly (Pure.pure a : M α) := by
  intro e h; cases h

theorem UbOnly.bind {α β : Type} {m : M α} {f : α → M β} (hm : UbOnly m) (hf : ∀ a, UbOnly (f a)) : UbOnly (m >>= f) := by
  intro e h
  cases m with
  | error e' => cases h; exact hm e rfl
  | ok a => exact hf a e h

theorem UbOnly.rd {α : Type} (v : List α) (i : Nat) : UbOnly (CoMMA.rd v i) := by
  intro e h
  unfold CoMMA.rd at h
  split at h
  · cases h
  · cases h; rfl

theorem UbOnly.foldlM {α β : Type} {f : β → α → M β} (hf : ∀ b a, UbOnly (f b a)) (l : List α) (b : β) :
    UbOnly (l.foldlM f b) := by
  induction l generalizing b with
  | nil => exact UbOnly.pure b
  | cons a l ih => rw [List.foldlM_cons]; exact (hf b a).bind (fun b => ih b)

/-- a fold whose steps commute does not depend on the order -/
theorem foldlM_perm_inv {α β : Type} {f : β → α → M β} {l l' : List α} (h : l.Perm l') {I : β → Prop}
    (hI : ∀ b x b', I b → x ∈ l → f b x = .ok b' → I b')
    (hc : ∀ b x y, I b → x ∈ l → y ∈ l → x ≠ y → (f b x >>= fun b => f b y) = (f b y >>= fun b => f b x)) :
    ∀ b, I b → l.foldlM f b = l'.foldlM f b := by
  induction h with
  | nil => intro b _; rfl
  | @cons x l l' _ ih =>
    intro b hb
    rw [List.foldlM_cons, List.foldlM_cons]
    cases hx : f b x with
    | error e => rfl
    | ok b' =>
      exact ih (fun b y b' h1 h2 h3 => hI b y b' h1 (List.mem_cons_of_mem _ h2) h3)
        (fun b y z h1 h2 h3 h4 => hc b y z h1 (List.mem_cons_of_mem _ h2) (List.mem_cons_of_mem _ h3) h4) b'
        (hI b x b' hb (by simp) hx)
  | @swap x y l =>
    intro b hb
    rw [List.foldlM_cons, List.foldlM_cons]
    simp only [List.foldlM_cons]
    by_cases hxy : y = x
    · subst hxy; rfl
    · rw [← bind_assoc, ← bind_assoc, hc b y x hb (by simp) (by simp) hxy]
  | @trans l₁ l₂ l₃ h1 h2 ih1 ih2 =>
    intro b hb
    rw [ih1 hI hc b hb]
    exact ih2 (fun b x b' g1 g2 g3 => hI b x b' g1 (h1.mem_iff.2 g2) g3)
      (fun b x y g1 g2 g3 g4 => hc b x y g1 (h1.mem_iff.2 g2) (h1.mem_iff.2 g3) g4) b hb

theorem foldlM_perm {α β : Type} {f : β → α → M β} {l l' : List α} (h : l.Perm l')
    (hc : ∀ b x y, (f b x >>= fun b => f b y) = (f b y >>= fun b => f b x)) (b : β) : l.foldlM f b = l'.foldlM f b :=
  foldlM_perm_inv h (I := fun _ => True) (fun _ _ _ _ _ _ => trivial) (fun b x y _ _ _ _ => hc b x y) b trivial

/-- steps that compute a value, then update the state with it -/
theorem eval_comm {α β D : Type} {E : α → M D} {u : β → D → β} (hE : ∀ x, UbOnly (E x))
    (hu : ∀ b d d', u (u b d) d' = u (u b d') d) (b : β) (x y : α) :
    ((E x >>= fun d => (pure (u b d) : M β)) >>= fun b => E y >>= fun d => pure (u b d)) =
      ((E y >>= fun d => (pure (u b d) : M β)) >>= fun b => E x >>= fun d => pure (u b d)) := by
  cases hx : E x with
  | error e =>
    have := hE x e hx; subst this
    cases hy : E y with
    | error e' => have := hE y e' hy; subst this; rfl
    | ok d => rfl
  | ok d =>
    cases hy : E y with
    | error e' => have := hE y e' hy; subst this; rfl
    | ok d' =>
      show (Except.ok (u (u b d) d') : M β) = .ok (u (u b d') d)
      rw [hu]

/-- folds over a list found first commute if their steps do -/
theorem nested_comm {α β K : Type} {R : K → M (List α)} {v : β → α → M β} (hR : ∀ k, UbOnly (R k))
    (hv : ∀ b a, UbOnly (v b a)) (hc : ∀ b x y, (v b x >>= fun b => v b y) = (v b y >>= fun b => v b x)) (b : β) (x y : K) :
    ((R x >>= fun l => l.foldlM v b) >>= fun b => R y >>= fun l => l.foldlM v b) =
      ((R y >>= fun l => l.foldlM v b) >>= fun b => R x >>= fun l => l.foldlM v b) := by
  have herr : ∀ (l : List α), ((l.foldlM v b) >>= fun _ => (Except.error .ub : M β)) = .error .ub := by
    intro l
    cases hl : l.foldlM v b with
    | error e => rw [UbOnly.foldlM hv l b e hl]; rfl
    | ok b' => rfl
  cases hx : R x with
  | error e =>
    have := hR x e hx; subst this
    cases hy : R y with
    | error e' => have := hR y e' hy; subst this; rfl
    | ok l => exact (herr l).symm
  | ok l =>
    cases hy : R y with
    | error e' => have := hR y e' hy; subst this; exact herr l
    | ok l' =>
      show (l.foldlM v b >>= fun b => l'.foldlM v b) = (l'.foldlM v b >>= fun b => l.foldlM v b)
      rw [← List.foldlM_append, ← List.foldlM_append]
      exact foldlM_perm List.perm_append_comm hc b

theorem Hash.perm_both (h h' : Hash) (s : Nat) (l : List Nat) : (h.ord s l).Perm (h'.ord s l) :=
  (h.perm s l).trans (h'.perm s l).symm

theorem UbOnly.rowM {α : Type} (rp : List Nat) (v : List α) (i : Nat) : UbOnly (CoMMA.rowM rp v i) := by
  unfold CoMMA.rowM
  refine (UbOnly.rd _ _).bind (fun b => (UbOnly.rd _ _).bind (fun e => ?_))
  unfold slice
  intro e h
  split at h
  · cases h
  · cases h; rfl

theorem NSet.insert_comm (s : NSet) (x y : Nat) : (s.insert x).insert y = (s.insert y).insert x := by
  apply NSet.ext
  intro a
  simp only [NSet.mem_insert]
  tauto

theorem NMap.insert_comm {V : Type} (m : NMap V) {x y : Nat} (h : x ≠ y) (a b : V) :
    (m.insert x a).insert y b = (m.insert y b).insert x a := by
  apply NMap.ext
  intro k
  simp only [NMap.find?_insert]
  by_cases h1 : k = y
  · subst h1; simp [Ne.symm h]
  · simp [h1]

theorem neighbourhoodOf_hash (g : Graph W) (h h' : Hash) (seeds : NSet) (agg : List Bool) :
    g.neighbourhoodOf h seeds agg = g.neighbourhoodOf h' seeds agg := by
  unfold Graph.neighbourhoodOf
  refine foldlM_perm (h.perm_both h' _ _) ?_ _
  intro b x y
  refine nested_comm (R := fun k => g.neighs k) (fun k => UbOnly.rowM _ _ _)
    (fun b a => (UbOnly.rd _ _).bind (fun _ => UbOnly.pure _)) ?_ b x y
  intro b x y
  have := eval_comm (E := fun n => (CoMMA.rd agg n >>= fun a => (pure (a, n) : M (Bool × Nat))))
    (u := fun (s : NSet) (d : Bool × Nat) => if !d.1 && !seeds.has d.2 then s.insert d.2 else s)
    (fun n => (UbOnly.rd _ _).bind (fun _ => UbOnly.pure _)) ?_ b x y
  · simpa [bind_assoc] using this
  · rintro s ⟨a, n⟩ ⟨a', n'⟩
    simp only
    split <;> split <;> first | rfl | exact NSet.insert_comm _ _ _

theorem nbhAdd_comm (prev : NMap Nat) (o : Nat) (cur : NMap Nat) (x y : Nat) :
    nbhAdd prev o (nbhAdd prev o cur x) y = nbhAdd prev o (nbhAdd prev o cur y) x := by
  by_cases hxy : x = y
  · subst hxy; rfl
  have key : ∀ (c : NMap Nat) (z : Nat), nbhAdd prev o c z = if c.has z = false ∧ (∀ p, prev.find? z = some p → o < p) then c.insert z o else c := by
    intro c z
    unfold nbhAdd
    cases hz : c.has z with
    | true => simp
    | false =>
      cases hp : prev.find? z with
      | none => simp
      | some p => simp
  have hh : ∀ (c : NMap Nat) (a b : Nat), a ≠ b → (c.insert a o).has b = c.has b := by
    intro c a b hab
    unfold NMap.has
    rw [NMap.find?_insert, if_neg (Ne.symm hab)]
  simp only [key]
  by_cases hx : cur.has x = false ∧ (∀ p, prev.find? x = some p → o < p)
  · by_cases hy : cur.has y = false ∧ (∀ p, prev.find? y = some p → o < p)
    · rw [if_pos hx, if_pos hy, if_pos (by rw [hh _ _ _ hxy]; exact hy), if_pos (by rw [hh _ _ _ (Ne.symm hxy)]; exact hx)]
      exact NMap.insert_comm _ hxy _ _
    · rw [if_pos hx, if_neg hy, if_neg (by rw [hh _ _ _ hxy]; exact hy), if_pos hx]
  · by_cases hy : cur.has y = false ∧ (∀ p, prev.find? y = some p → o < p)
    · rw [if_neg hx, if_pos hy, if_neg (by rw [hh _ _ _ (Ne.symm hxy)]; exact hx)]
    · rw [if_neg hx, if_neg hy, if_neg hx]

theorem nbhLayer_hash (g : Graph W) (h h' : Hash) (d prev : NMap Nat) (agg : List Bool) (o : Nat) :
    g.nbhLayer h d prev agg o = g.nbhLayer h' d prev agg o := by
  unfold Graph.nbhLayer
  refine foldlM_perm (h.perm_both h' _ _) ?_ _
  intro b x y
  have hub : ∀ (b : NMap Nat) (a : Nat), UbOnly (nbhVisit d prev agg o b a) := by
    intro b a
    unfold nbhVisit
    split
    · exact UbOnly.pure _
    · exact (UbOnly.rd _ _).bind (fun _ => UbOnly.pure _)
  refine nested_comm (R := fun k => g.neighs k) (fun k => UbOnly.rowM _ _ _) hub ?_ b x y
  intro b x y
  have := eval_comm (E := fun n => if d.has n then (pure (true, n) : M (Bool × Nat)) else
      (CoMMA.rd agg n >>= fun a => (pure (a, n) : M (Bool × Nat))))
    (u := fun (s : NMap Nat) (e : Bool × Nat) => if e.1 then s else nbhAdd prev o s e.2)
    (fun n => by
      show UbOnly (if d.has n then _ else _)
      split
      · exact UbOnly.pure _
      · exact (UbOnly.rd _ _).bind (fun _ => UbOnly.pure _)) ?_ b x y
  · have e : ∀ (s : NMap Nat) (n : Nat), nbhVisit d prev agg o s n =
        ((if d.has n then (pure (true, n) : M (Bool × Nat)) else (CoMMA.rd agg n >>= fun a => (pure (a, n) : M (Bool × Nat)))) >>=
          fun e => (pure (if e.1 then s else nbhAdd prev o s e.2) : M (NMap Nat))) := by
      intro s n
      unfold nbhVisit
      split
      · rfl
      · simp
    simp only [e]
    exact this
  · rintro s ⟨a, n⟩ ⟨a', n'⟩
    cases a <;> cases a' <;> simp [nbhAdd_comm]

theorem nbhLoop_hash (g : Graph W) (h h' : Hash) (agg : List Bool) (no mc fuel : Nat) (s : NbhState) :
    g.nbhLoop h agg no mc fuel s = g.nbhLoop h' agg no mc fuel s := by
  induction fuel generalizing s with
  | zero => unfold Graph.nbhLoop; rfl
  | succ fuel ih =>
    unfold Graph.nbhLoop
    simp only [nbhLayer_hash g h h', ih]

theorem neighbourhood_hash (g : Graph W) (h h' : Hash) (seeds : NSet) (no mc : Nat) (agg : List Bool) :
    g.neighbourhood h seeds no mc agg = g.neighbourhood h' seeds no mc agg := by
  unfold Graph.neighbourhood
  simp only [nbhLoop_hash g h h']

/-! ## Seeds pool -/

theorem pinsert_comm (hW : LawfulLt W) (x y : Nat × W) (l : List (Nat × W)) :
    pinsert x (pinsert y l) = pinsert y (pinsert x l) := by
  have no : ∀ {p q : Nat × W}, greaterPair p q = true → greaterPair p q = false → False := fun h1 h2 => by rw [h1] at h2; cases h2
  have tr : ∀ {p q r : Nat × W}, greaterPair p q = true → greaterPair q r = true → greaterPair p r = true :=
    fun h1 h2 => greaterPair_trans hW h1 h2
  have irr := greaterPair_irrefl hW
  induction l with
  | nil =>
    simp only [pinsert]
    cases h1 : greaterPair x y <;> cases h2 : greaterPair y x <;> simp
    · exact (greaterPair_total hW h1 h2).symm
    · exact (no (tr h1 h2) (irr _)).elim
  | cons e es ih =>
    cases a1 : greaterPair e x <;> cases a2 : greaterPair x e <;> cases b1 : greaterPair e y <;> cases b2 : greaterPair y e <;>
      cases h1 : greaterPair x y <;> cases h2 : greaterPair y x <;>
      simp only [pinsert, a1, a2, b1, b2, h1, h2, Bool.false_eq_true, if_false, if_true]
    all_goals first
      | exact (no (tr h1 b2) a2).elim
      | exact (no (tr h2 a2) b2).elim
      | exact (no (tr h1 h2) (irr _)).elim
      | exact (no (tr a1 a2) (irr _)).elim
      | exact (no (tr b1 b2) (irr _)).elim
      | exact (no (tr a2 b1) h1).elim
      | exact (no (tr b2 a1) h2).elim
      | (rw [ih])
      | (rw [greaterPair_total hW h1 h2])

theorem groupSeeds_hash (hW : LawfulLt W) (c : PoolCfg W) (h h' : Hash) (seeds : NSet) :
    groupSeeds c h seeds = groupSeeds c h' seeds := by
  unfold groupSeeds
  refine foldlM_perm (h.perm_both h' _ _) ?_ _
  intro b x y
  have := eval_comm (E := fun s => (CoMMA.rd c.nBnd s >>= fun b => CoMMA.rd c.prio s >>= fun w => (pure (b, s, w) : M (Nat × Nat × W))))
    (u := fun (m : NMap (List (Nat × W))) d => m.insert d.1 (pinsert d.2 ((m.find? d.1).getD [])))
    (fun n => (UbOnly.rd _ _).bind (fun _ => (UbOnly.rd _ _).bind (fun _ => UbOnly.pure _))) ?_ b x y
  · simpa [bind_assoc] using this
  · rintro m ⟨b1, x1⟩ ⟨b2, x2⟩
    simp only [NMap.find?_insert]
    by_cases hb : b2 = b1
    · subst hb
      apply NMap.ext
      intro k
      simp only [NMap.find?_insert]
      split
      · simp [pinsert_comm hW]
      · rfl
    · rw [if_neg hb, if_neg (Ne.symm hb)]
      exact NMap.insert_comm _ (Ne.symm hb) _ _

theorem orderUpdate_hash (hW : LawfulLt W) (c : PoolCfg W) (h h' : Hash) (seeds : NSet) (p : Pool) :
    p.orderUpdate c h seeds = p.orderUpdate c h' seeds := by
  unfold Pool.orderUpdate
  simp only [groupSeeds_hash hW c h h']

/-! ## Aspect ratios -/

theorem UbOnly.sqDist (a b : List W) : UbOnly (CoMMA.sqDist a b) :=
  UbOnly.foldlM (fun _ _ => (UbOnly.rd _ _).bind (fun _ => (UbOnly.rd _ _).bind (fun _ => UbOnly.pure _))) _ _

/-- the larger of two numbers -/
theorem maxLt_comm (hW : LawfulLt W) (a x y : W) :
    (if Num.lt (if Num.lt a x then x else a) y then y else (if Num.lt a x then x else a)) =
      (if Num.lt (if Num.lt a y then y else a) x then x else (if Num.lt a y then y else a)) := by
  have e : ∀ {p q : W}, Num.lt p q = false → Num.lt q p = false → p = q := fun h1 h2 => hW.total _ _ h1 h2
  have no : ∀ {p q : W}, Num.lt p q = true → Num.lt p q = false → False := fun h1 h2 => by rw [h1] at h2; cases h2
  cases h1 : Num.lt a x <;> cases h2 : Num.lt a y <;> cases h3 : Num.lt x y <;> cases h4 : Num.lt y x <;>
    simp only [h1, h2, h3, h4, Bool.false_eq_true, if_false, if_true]
  all_goals first
    | exact e h3 h4
    | exact (e h3 h4).symm
    | exact (no (hW.trans _ _ _ h2 h4) h1).elim
    | exact (no (hW.trans _ _ _ h1 h3) h2).elim
    | exact (no (hW.trans _ _ _ h3 h4) (hW.irrefl _)).elim

theorem minLt_comm (hW : LawfulLt W) (a x y : W) :
    (if Num.lt y (if Num.lt x a then x else a) then y else (if Num.lt x a then x else a)) =
      (if Num.lt x (if Num.lt y a then y else a) then x else (if Num.lt y a then y else a)) := by
  have e : ∀ {p q : W}, Num.lt p q = false → Num.lt q p = false → p = q := fun h1 h2 => hW.total _ _ h1 h2
  have no : ∀ {p q : W}, Num.lt p q = true → Num.lt p q = false → False := fun h1 h2 => by rw [h1] at h2; cases h2
  cases h1 : Num.lt x a <;> cases h2 : Num.lt y a <;> cases h3 : Num.lt x y <;> cases h4 : Num.lt y x <;>
    simp only [h1, h2, h3, h4, Bool.false_eq_true, if_false, if_true]
  all_goals first
    | exact e h3 h4
    | exact (e h3 h4).symm
    | exact (no (hW.trans _ _ _ h3 h2) h1).elim
    | exact (no (hW.trans _ _ _ h4 h1) h2).elim
    | exact (no (hW.trans _ _ _ h3 h4) (hW.irrefl _)).elim

theorem updateGeom_hash (hW : LawfulLt W) (g : Graph W) (h h' : Hash) (i : Nat) (f : Feats W) (cc : NSet) :
    updateGeom g h i f cc = updateGeom g h' i f cc := by
  unfold updateGeom
  congr 1
  funext c
  refine foldlM_perm (h.perm_both h' _ _) ?_ _
  intro b x y
  have := eval_comm (E := fun x => (CoMMA.rd g.centers x >>= fun cx => CoMMA.sqDist c cx))
    (u := fun (a : W × W) d => (if Num.lt a.1 d then d else a.1, if Num.lt d a.2 then d else a.2))
    (fun n => (UbOnly.rd _ _).bind (fun _ => UbOnly.sqDist _ _)) ?_ b x y
  · simpa [bind_assoc] using this
  · rintro ⟨a1, a2⟩ d d'
    simp only [Prod.mk.injEq]
    exact ⟨maxLt_comm hW _ _ _, minLt_comm hW _ _ _⟩

theorem maxBary_hash (hW : LawfulLt W) (g : Graph W) (h h' : Hash) (bary : List W) (i : Nat) (cc : NSet) :
    maxBary g h bary i cc = maxBary g h' bary i cc := by
  unfold maxBary
  congr 1
  funext c
  congr 1
  funext d
  refine foldlM_perm (h.perm_both h' _ _) ?_ _
  intro b x y
  have := eval_comm (E := fun x => (CoMMA.rd g.centers x >>= fun cx => CoMMA.sqDist bary cx))
    (u := fun (a : W) d => (if Num.lt a d then d else a))
    (fun n => (UbOnly.rd _ _).bind (fun _ => UbOnly.sqDist _ _)) ?_ b x y
  · simpa [bind_assoc] using this
  · intro a d d'
    exact maxLt_comm hW _ _ _

theorem minMaxBary_hash (hW : LawfulLt W) (g : Graph W) (h h' : Hash) (bary : List W) (facets : NMap Int) (i : Nat) (cc : NSet) :
    minMaxBary g h bary facets i cc = minMaxBary g h' bary facets i cc := by
  unfold minMaxBary
  congr 1
  funext s
  refine foldlM_perm (h.perm_both h' _ _) ?_ _
  intro b x y
  have := eval_comm (E := fun x => if 0 < (facets.find? x).getD 0 then
      (CoMMA.rd g.centers x >>= fun cx => CoMMA.sqDist bary cx >>= fun d => (pure (some (Num.sqrt d)) : M (Option W)))
      else (pure none : M (Option W)))
    (u := fun (a : W × W) (o : Option W) => match o with
      | none => a
      | some d => if Num.lt Num.ctol d then (if Num.lt d a.1 then d else a.1, if Num.lt a.2 d then d else a.2) else a)
    (fun n => by
      show UbOnly (if _ then _ else _)
      split
      · exact (UbOnly.rd _ _).bind (fun _ => (UbOnly.sqDist _ _).bind (fun _ => UbOnly.pure _))
      · exact UbOnly.pure _) ?_ b x y
  · have e : ∀ (a : W × W) (x : Nat), (if 0 < (facets.find? x).getD 0 then (do
        let cx ← CoMMA.rd g.centers x
        let d ← CoMMA.sqDist bary cx
        let dist := Num.sqrt d
        pure (if Num.lt Num.ctol dist then
          (if Num.lt dist a.1 then dist else a.1, if Num.lt a.2 dist then dist else a.2) else a) : M (W × W)) else pure a) =
        ((if 0 < (facets.find? x).getD 0 then
      (CoMMA.rd g.centers x >>= fun cx => CoMMA.sqDist bary cx >>= fun d => (pure (some (Num.sqrt d)) : M (Option W)))
      else (pure none : M (Option W))) >>= fun o => (pure (match o with
      | none => a
      | some d => if Num.lt Num.ctol d then (if Num.lt d a.1 then d else a.1, if Num.lt a.2 d then d else a.2) else a) : M (W × W))) := by
      intro a x
      split
      · simp [bind_assoc]
      · rfl
    simp only [e]
    exact this
  · rintro a (_ | d) (_ | d')
    · rfl
    · rfl
    · rfl
    · simp only
      by_cases h1 : Num.lt Num.ctol d = true
      · by_cases h2 : Num.lt Num.ctol d' = true
        · simp only [h1, h2, if_true, Prod.mk.injEq]
          exact ⟨minLt_comm hW _ _ _, maxLt_comm hW _ _ _⟩
        · simp only [h1, h2, if_true, Bool.false_eq_true, if_false]
      · by_cases h2 : Num.lt Num.ctol d' = true
        · simp only [h1, h2, if_true, Bool.false_eq_true, if_false]
        · simp only [h1, h2, Bool.false_eq_true, if_false]

theorem arOf_hash (hW : LawfulLt W) (g : Graph W) (h h' : Hash) (kind : ARKind) : arOf g h kind = arOf g h' kind := by
  unfold arOf
  congr 1
  funext i f cc
  unfold arBary arGeom
  simp only [updateGeom_hash hW g h h', maxBary_hash hW g h h', minMaxBary_hash hW g h h']

/-! ## Growth -/

variable {F : Type}

/-- the same agglomerator with another iteration order -/
def IsoEnv.withHash (E : IsoEnv W F) (h : Hash) : IsoEnv W F := { E with h := h }

theorem iterBest_hash (E : IsoEnv W F) (h : Hash) (d : NMap Nat) (k : Nat) (nb : Nbh W) (f : F) (cc : NSet) :
    iterBest (E.withHash h) d k nb f cc = iterBest E d k nb f cc := by
  induction k generalizing nb f cc with
  | zero => rfl
  | succ k ih =>
    unfold iterBest
    simp only [ih]
    rfl

theorem best_hash (E : IsoEnv W F) (h : Hash) (k : Nat) (nb : Nbh W) (d : NMap Nat) (f : F) (cc : NSet) :
    best (E.withHash h) k nb d f cc = best E k nb d f cc := by
  unfold best
  rw [iterBest_hash]
  rfl

theorem growLoop_hash (E : IsoEnv W F) (h : Hash) (mi fuel : Nat) (s : GrowSt W F) :
    growLoop (E.withHash h) mi fuel s = growLoop E mi fuel s := by
  induction fuel generalizing s with
  | zero => unfold growLoop; rfl
  | succ fuel ih =>
    unfold growLoop
    have e : ∀ s, growStep (E.withHash h) mi s = growStep E mi s := by
      intro s
      unfold growStep
      simp only [best_hash]
      rfl
    simp only [ih, e]

theorem pushNeighs_hash (hW : LawfulLt W) (E : IsoEnv W F) (h : Hash) (gr : NMap NSet × NSet) (p : Pool) :
    pushNeighs (E.withHash h) gr p = pushNeighs E gr p := by
  unfold pushNeighs
  simp only [fun s (p : Pool) => show p.orderUpdate (E.withHash h).pool (E.withHash h).h s = p.orderUpdate E.pool E.h s from
    orderUpdate_hash hW _ _ _ _ _]

theorem chooseOptimal_hash (hW : LawfulLt W) (E : IsoEnv W F) (h : Hash) (agg : List Bool) (p : Pool) (seed : Nat) :
    chooseOptimal (E.withHash h) agg p seed = chooseOptimal E agg p seed := by
  have e : ∀ d, grow (E.withHash h) agg p seed d = grow E agg p seed d := by
    intro d
    unfold grow
    simp only [growLoop_hash, pushNeighs_hash hW,
      fun s => show (E.withHash h).g.neighbourhoodOf (E.withHash h).h s agg = E.g.neighbourhoodOf E.h s agg from
        neighbourhoodOf_hash _ _ _ _ _]
    rfl
  unfold chooseOptimal
  simp only [e, show ∀ s no mc, (E.withHash h).g.neighbourhood (E.withHash h).h s no mc agg = E.g.neighbourhood E.h s no mc agg from
        fun s no mc => neighbourhood_hash _ _ _ _ _ _ _]
  rfl

theorem isoRun_hash (hW : LawfulLt W) (E : IsoEnv W F) (h : Hash) (c : Cont) (p : Pool) :
    isoRun (E.withHash h) c p = isoRun E c p := by
  have hs : ∀ c p, isoStep (E.withHash h) c p = isoStep E c p := by
    intro c p
    unfold isoStep
    simp only [chooseOptimal_hash hW]
    rfl
  have hl : ∀ fuel c p, isoLoop (E.withHash h) fuel c p = isoLoop E fuel c p := by
    intro fuel
    induction fuel with
    | zero => intro c p; unfold isoLoop; rfl
    | succ fuel ih =>
      intro c p
      unfold isoLoop
      simp only [ih, hs]
      rfl
  unfold isoRun
  rw [hl]
  rfl

/-! ## Correction of single cells -/

theorem foldlM_congr_prefix {α β : Type} {f f' : β → α → M β} {l : List α} {b : β} {I : List α → β → Prop} (h0 : I [] b)
    (hs : ∀ pre a post b, l = pre ++ a :: post → I pre b → Ok (f b a) (I (pre ++ [a])))
    (he : ∀ pre a post b, l = pre ++ a :: post → I pre b → f b a = f' b a) : l.foldlM f b = l.foldlM f' b := by
  have key : ∀ (post pre : List α) (b : β), l = pre ++ post → I pre b → post.foldlM f b = post.foldlM f' b := by
    intro post
    induction post with
    | nil => intro _ _ _ _; rfl
    | cons a post ih =>
      intro pre b hl hI
      rw [List.foldlM_cons, List.foldlM_cons, ← he pre a post b hl hI]
      obtain ⟨b', hb', hI'⟩ := (hs pre a post b hl hI).eq
      rw [hb']
      exact ih (pre ++ [a]) b' (by simp [hl]) hI'
  exact key l [] b rfl h0

theorem correct_hash {g : Graph W} (hv : ValidCRS g.nbC g.rowPtr g.colInd) (h h' : Hash) {Q : NSet → Nat → Prop}
    (hQ : Absorbs g Q) {c : Cont} (hc : CInv g.nbC c) (ht : c.thresh = 1)
    (hgood : ∀ k cc, c.ccs.find? k = some cc → cc.iso = true → Q cc.fcs cc.compact)
    (hcomp : ∀ i : Nat, i < g.nbC → ∃ k, c.fc2cc[i]? = some (some k)) : c.correct g h = c.correct g h' := by
  unfold Cont.correct
  rw [foldlM_congr_prefix (f' := correctStep g h') (I := fun pre (r : Cont × NSet) => KInv g Q c pre r.1 r.2) (KInv_init hc hgood hcomp)]
  · rintro pre a post ⟨c', rem⟩ hsp hI
    refine correctStep_inv hv h hQ hc ht hI (by rw [hsp]; simp) ?_
    intro hp
    have hs := hc.singSorted
    rw [hsp, List.pairwise_append] at hs
    exact absurd (hs.2.2 a hp a (by simp)) (Nat.lt_irrefl a)
  · rintro pre a post ⟨c', rem⟩ hsp hI
    unfold correctStep
    cases hcc : c'.ccs.at! a with
    | error e => simp only [hcc]; rfl
    | ok cc =>
      simp only [hcc, ok_bind]
      rw [hI.thresh, ht]
      by_cases hle : cc.card ≤ 1
      · have hord : ∀ k : Hash, k.ord 5 cc.fcs.elems = cc.fcs.elems := by
          intro k
          have hcard := hI.card a cc (NMap.at_eq.1 hcc)
          obtain ⟨x, hx⟩ := NSet.single_of_card (s := cc.fcs) (by omega)
          have := k.perm 5 cc.fcs.elems
          rw [hx] at this ⊢
          exact List.perm_singleton.1 this
        simp only [neighsByFc, hord]
      · rw [if_neg hle, if_neg hle]

end CoMMA
