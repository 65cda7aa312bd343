import Mathlib.Data.List.Pairwise
import Verif.Spec.Shape
import Verif.Lemmas.CorrectionExact
import Verif.Lemmas.Shape
import Verif.Props.Candidates
import Verif.Props.PoolSteps
import Verif.Props.Features
/-! # The description of an isotropic agglomeration determines it -/

set_option linter.unusedSectionVars false

namespace CoMMA

variable {W F : Type} [Num W]

theorem FirstBest.unique {R : Nat → Merit W → F → Prop} {cands : List Nat} {c c' : Nat} {m m' : Merit W} {f f' : F}
    (hR : ∀ x ∈ cands, ∀ m f m' f', R x m f → R x m' f' → m = m' ∧ f = f')
    (h : FirstBest R cands c m f) (h' : FirstBest R cands c' m' f') : c = c' ∧ m = m' ∧ f = f' := by
  obtain ⟨μ, h1, h2, h3, pre, post, h4, h5⟩ := h
  obtain ⟨μ', h1', h2', h3', pre', post', h4', h5'⟩ := h'
  have heq : ∀ x ∈ cands, μ x = μ' x := by
    intro x hx
    obtain ⟨a, b⟩ := hR x hx _ _ _ _ (h1 x hx) (h1' x hx)
    exact Prod.ext a b
  have hc : c ∈ cands := by rw [h4]; simp
  have hc' : c' ∈ cands := by rw [h4']; simp
  have hcc : c = c' := by
    have hn : c' ∉ pre := by
      intro hh
      apply h5 c' hh
      have := h3' c hc
      rw [← heq c hc, h2] at this
      rw [heq c' hc', h2']
      exact this
    have hn' : c ∉ pre' := by
      intro hh
      apply h5' c hh
      have := h3 c' hc'
      rw [heq c' hc', h2'] at this
      rw [← heq c hc, h2]
      exact this
    have e := h4.symm.trans h4'
    rw [List.append_eq_append_iff] at e
    rcases e with ⟨as, e1, e2⟩ | ⟨as, e1, e2⟩
    · cases as with
      | nil => simp at e2; exact e2.1
      | cons a as =>
        simp only [List.cons_append, List.cons.injEq] at e2
        exact absurd (by rw [e1, e2.1]; simp) hn'
    · cases as with
      | nil => simp at e2; exact e2.1.symm
      | cons a as =>
        simp only [List.cons_append, List.cons.injEq] at e2
        exact absurd (by rw [e1, e2.1]; simp) hn
  subst hcc
  have := heq c hc
  rw [h2, h2'] at this
  cases this
  exact ⟨rfl, rfl, rfl⟩

theorem HasMerit.unique {E : IsoEnv W F} {d : NMap Nat} {f : F} {cc : NSet} {c : Nat} {m m' : Merit W} {f1 f2 : F}
    (h : HasMerit E d f cc c m f1) (h' : HasMerit E d f cc c m' f2) : m = m' ∧ f1 = f2 := by
  obtain ⟨a, b, n, e⟩ := h
  obtain ⟨a', b', n', e'⟩ := h'
  rw [e] at e'
  obtain ⟨x, y, z⟩ := m
  obtain ⟨x', y', z'⟩ := m'
  simp only [Except.ok.injEq, Prod.mk.injEq] at a b a' b' e'
  rw [b] at b'
  cases b'
  obtain ⟨_, rfl, rfl⟩ := e'
  rw [a, a']
  exact ⟨rfl, rfl⟩

theorem LookAhead.unique (hW : LawfulLt W) {E : IsoEnv W F} {al : NSet} {d : NMap Nat} (k : Nat) :
    ∀ {xs : List Nat} {f : F} {c : Nat} {m m' : Merit W} {f1 f2 : F},
    LookAhead E al d k xs f c m f1 → LookAhead E al d k xs f c m' f2 → m = m' ∧ f1 = f2 := by
  induction k with
  | zero => intro xs f c m m' f1 f2 h h'; exact HasMerit.unique h h'
  | succ k ih =>
    intro xs f c m m' f1 f2 h h'
    obtain ⟨m0, l, a1, a2, a3⟩ := h
    obtain ⟨m0', l', b1, b2, b3⟩ := h'
    obtain ⟨rfl, rfl⟩ := a1.unique b1
    obtain rfl := C63_unique hW a2 b2
    refine ⟨?_, rfl⟩
    rcases a3 with ⟨a3, rfl⟩ | ⟨c2, m2, f2, a3, rfl⟩ <;> rcases b3 with ⟨b3, rfl⟩ | ⟨c2', m2', f2', b3, rfl⟩
    · rfl
    · exact absurd b3.mem.1 (by rw [a3]; simp)
    · exact absurd a3.mem.1 (by rw [b3]; simp)
    · obtain ⟨rfl, _⟩ := FirstBest.unique (R := LookAhead E al d k (xs ++ [c]) f1) (fun x _ m f m' f' h h' => ih h h') a3 b3
      rfl

theorem TrueLook.unique (hW : LawfulLt W) {E : IsoEnv W F} {kind : ARKind} (hk : kind ≠ .unknown) {d : NMap Nat} (k : Nat) :
    ∀ {xs : List Nat} {c : Nat} {m m' : Merit W}, TrueLook E kind d k xs c m () → TrueLook E kind d k xs c m' () → m = m' := by
  have hbase : ∀ {cc : NSet} {c : Nat} {m m' : Merit W}, TrueMerit E.g kind d cc c m → TrueMerit E.g kind d cc c m' → m = m' := by
    intro cc c m m' h h'
    obtain ⟨a, b, e⟩ := h
    obtain ⟨a', b', e'⟩ := h'
    obtain ⟨x, y, z⟩ := m
    obtain ⟨x', y', z'⟩ := m'
    simp only at a b e a' b' e'
    rw [b] at b'
    cases b'
    rw [a, a', e.unique hW hk ⟨c, NSet.mem_insert.2 (Or.inl rfl)⟩ e']
  induction k with
  | zero => intro xs c m m' h h'; exact hbase h h'
  | succ k ih =>
    intro xs c m m' h h'
    obtain ⟨m0, l, a1, a2, a3⟩ := h
    obtain ⟨m0', l', b1, b2, b3⟩ := h'
    obtain rfl := hbase a1 b1
    obtain rfl := C63_unique hW a2 b2
    rcases a3 with ⟨a3, rfl⟩ | ⟨c2, m2, a3, rfl⟩ <;> rcases b3 with ⟨b3, rfl⟩ | ⟨c2', m2', b3, rfl⟩
    · rfl
    · exact absurd b3.mem.1 (by rw [a3]; simp)
    · exact absurd a3.mem.1 (by rw [b3]; simp)
    · obtain ⟨rfl, _⟩ := FirstBest.unique (R := TrueLook E kind d k (xs ++ [c])) (fun x _ m f m' f' h h' => ⟨ih h h', rfl⟩) a3 b3
      rfl

/-- a way of growing that leaves no freedom: the seed and the size determine the sequence,
which stays in the cells allowed -/
structure Determined (Grown : NMap Nat → Nat → List Nat → Prop) : Prop where
  unique : ∀ {d hi xs xs'}, Grown d hi xs → Grown d hi xs' → xs.head? = xs'.head? → xs.length = xs'.length → xs = xs'
  sub : ∀ {d hi xs seed}, Grown d hi xs → xs.head? = some seed → ∀ x ∈ xs, x = seed ∨ x ∈ d.keySet

theorem GreedySeq.unique (hW : LawfulLt W) {E : IsoEnv W F} {d : NMap Nat} {hi : Nat} {xs : List Nat} {f : F}
    (h : GreedySeq E d hi xs f) : ∀ {xs' : List Nat} {f' : F}, GreedySeq E d hi xs' f' → xs.head? = xs'.head? →
    xs.length = xs'.length → xs = xs' ∧ f = f' := by
  induction h with
  | @seed s f h =>
    intro xs' f' h' hh hl
    cases h' with
    | @seed s' f' h' =>
      simp only [List.head?_cons, Option.some.injEq] at hh
      subst hh
      rw [h] at h'
      cases h'
      exact ⟨rfl, rfl⟩
    | @next ys l g g' c m h1 _ _ =>
      have := h1.ne_nil
      have : 0 < ys.length := List.length_pos_of_ne_nil this
      simp only [List.length_append, List.length_cons, List.length_nil] at hl; omega
  | @next xs l f f1 c m hg hc hb ih =>
    intro xs' f' h' hh hl
    cases h' with
    | @seed s' f' h' =>
      have : 0 < xs.length := List.length_pos_of_ne_nil hg.ne_nil
      simp only [List.length_append, List.length_cons, List.length_nil] at hl; omega
    | @next ys l' g g' c' m' h1 h2 h3 =>
      have hl' : xs.length = ys.length := by simpa using hl
      have hh' : xs.head? = ys.head? := by
        have n1 := hg.ne_nil
        have n2 := h1.ne_nil
        cases xs with
        | nil => exact absurd rfl n1
        | cons a xs =>
          cases ys with
          | nil => exact absurd rfl n2
          | cons b ys => simpa using hh
      obtain ⟨rfl, rfl⟩ := ih h1 hh' hl'
      obtain rfl := C63_unique hW hc h2
      obtain ⟨rfl, _, rfl⟩ := FirstBest.unique (R := LookAhead E d.keySet d (min (hi - xs.length) E.fcIter - 1) xs f)
        (fun x _ m f m' f' h h' => LookAhead.unique hW _ h h') hb h3
      exact ⟨rfl, rfl⟩

theorem ShapedSeq.ne_nil {E : IsoEnv W F} {kind : ARKind} {d : NMap Nat} {hi : Nat} {xs : List Nat}
    (h : ShapedSeq E kind d hi xs) : xs ≠ [] := by
  cases h <;> simp

theorem head_of_append {xs : List Nat} {c s : Nat} (hne : xs ≠ []) (h : (xs ++ [c]).head? = some s) : xs.head? = some s := by
  cases xs with
  | nil => exact absurd rfl hne
  | cons a xs => simpa using h

theorem determined_greedy (hW : LawfulLt W) (E : IsoEnv W F) : Determined (GrownGreedily E) where
  unique := by
    rintro d hi xs xs' ⟨f, h⟩ ⟨f', h'⟩ hh hl
    exact (h.unique hW h' hh hl).1
  sub := by
    rintro d hi xs seed ⟨f, h⟩
    induction h with
    | seed _ => intro hs x hx; simp at hs hx; left; rw [hx, hs]
    | @next xs l f f1 c m hg hc hb ih =>
      intro hs x hx
      rcases List.mem_append.1 hx with hx | hx
      · exact ih (head_of_append hg.ne_nil hs) x hx
      · rw [List.mem_singleton.1 hx]; exact Or.inr (hc.front hb.mem.1).1

theorem determined_shaped (hW : LawfulLt W) (E : IsoEnv W F) {kind : ARKind} (hk : kind ≠ .unknown) :
    Determined (ShapedSeq E kind) where
  unique := by
    intro d hi xs xs' h
    induction h generalizing xs' with
    | @seed s =>
      intro h' hh hl
      cases h' with
      | @seed s' => simpa using hh
      | @next ys l c m h1 _ _ =>
        have : 0 < ys.length := List.length_pos_of_ne_nil h1.ne_nil
        simp only [List.length_append, List.length_cons, List.length_nil] at hl; omega
    | @next xs l c m hg hc hb ih =>
      intro h' hh hl
      cases h' with
      | @seed s' =>
        have : 0 < xs.length := List.length_pos_of_ne_nil hg.ne_nil
        simp only [List.length_append, List.length_cons, List.length_nil] at hl; omega
      | @next ys l' c' m' h1 h2 h3 =>
        have hl' : xs.length = ys.length := by simpa using hl
        have hh' : xs.head? = ys.head? := by
          have n1 := hg.ne_nil
          have n2 := h1.ne_nil
          cases xs with
          | nil => exact absurd rfl n1
          | cons a xs =>
            cases ys with
            | nil => exact absurd rfl n2
            | cons b ys => simpa using hh
        obtain rfl := ih h1 hh' hl'
        obtain rfl := C63_unique hW hc h2
        obtain ⟨rfl, _⟩ := FirstBest.unique (R := TrueLook E kind d (min (hi - xs.length) E.fcIter - 1) xs)
          (fun x _ m f m' f' h h' => ⟨TrueLook.unique hW hk _ h h', rfl⟩) hb h3
        rfl
  sub := by
    intro d hi xs seed h
    induction h with
    | seed => intro hs x hx; simp at hs hx; left; rw [hx, hs]
    | @next xs l c m hg hc hb ih =>
      intro hs x hx
      rcases List.mem_append.1 hx with hx | hx
      · exact ih (head_of_append hg.ne_nil hs) x hx
      · rw [List.mem_singleton.1 hx]; exact Or.inr (hc.front hb.mem.1).1

theorem BestSize.unique {lo hi goal : Nat} {κ κ' : Nat → Nat} {e : Nat → Int} {m m' : Nat}
    (hκ : ∀ j, lo ≤ j → j ≤ hi → κ j = κ' j)
    (h : BestSize lo hi goal κ e m) (h' : BestSize lo hi goal κ' e m') : m = m' := by
  obtain ⟨h1, h2, h3⟩ := h
  obtain ⟨h1', h2', h3'⟩ := h'
  have a := h3 m' h1' h2'
  have b := h3' m h1 h2
  rw [← hκ m h1 h2, ← hκ m' h1' h2'] at b
  omega

section Cell
variable {E : IsoEnv W F} {Grown : NMap Nat → Nat → List Nat → Prop} {agg : List Bool} {seed : Nat}

local notation "Dist" => IsDistance (FreeAdj E.g.rowPtr E.g.colInd agg) (· = seed)

/-- two limits of the search that find the same cells -/
def SameLimit (E : IsoEnv W F) (agg : List Bool) (seed o o' : Nat) : Prop :=
  o = o' ∨ ∀ x k, IsDistance (FreeAdj E.g.rowPtr E.g.colInd agg) (· = seed) x k → 0 < k → k < o ∧ k < o'

theorem search_unique_lt {o o' : Nat} {d d' : NMap Nat} (hd : ∀ x k, d.find? x = some k ↔ Dist x k ∧ 0 < k ∧ k < o)
    (hd' : ∀ x k, d'.find? x = some k ↔ Dist x k ∧ 0 < k ∧ k < o') {B m : Nat} (hlt : o < o')
    (h1 : (∀ x, ReachableFrom (FreeAdj E.g.rowPtr E.g.colInd agg) (· = seed) x → x = seed ∨ x ∈ d.keySet) ∨
      (B < o ∧ m ≤ d.size + 1))
    (h2 : o' ≤ B + 1 ∨ FewBefore (FreeAdj E.g.rowPtr E.g.colInd agg) (· = seed) o' m) :
    d = d' ∧ SameLimit E agg seed o o' := by
  rcases h1 with h1 | ⟨h1, h3⟩
  · have hall : ∀ x k, Dist x k → k < o ∨ k = 0 := by
      intro x k h
      obtain ⟨w, hw, hr⟩ := h.1
      rcases h1 x ⟨k, w, hw, hr⟩ with rfl | hx
      · exact Or.inr (h.unique (IsDistance.zero.2 rfl))
      · obtain ⟨l, hl⟩ := NMap.mem_keys.1 (NMap.mem_keySet.1 hx)
        obtain ⟨a, _, c⟩ := (hd x l).1 hl
        rw [h.unique a]
        exact Or.inl c
    refine ⟨NMap.ext (fun x => ?_), ?_⟩
    · apply Option.ext
      intro k
      rw [hd, hd']
      constructor
      · rintro ⟨a, b, c⟩; exact ⟨a, b, by omega⟩
      · rintro ⟨a, b, c⟩
        rcases hall x k a with h | h
        · exact ⟨a, b, h⟩
        · omega
    · right
      intro x k h
      rcases hall x k h with h | h <;> omega
  · exfalso
    rcases h2 with h2 | ⟨t, ht, hm, hl⟩
    · omega
    · have hs : seed ∉ d.keys := by
        intro h
        obtain ⟨l, hl⟩ := NMap.mem_keys.1 h
        obtain ⟨a, b, _⟩ := (hd _ l).1 hl
        have := a.unique (IsDistance.zero.2 rfl)
        omega
      have hn : (seed :: d.keys).Nodup := List.nodup_cons.2 ⟨hs, d.keys_nodup⟩
      have hsub : (seed :: d.keys) ⊆ t := by
        intro x hx
        rw [hm]
        rcases List.mem_cons.1 hx with rfl | hx
        · exact ⟨0, IsDistance.zero.2 rfl, by omega⟩
        · obtain ⟨l, hl⟩ := NMap.mem_keys.1 hx
          obtain ⟨a, b, c⟩ := (hd _ l).1 hl
          exact ⟨l, a, by omega⟩
      have := NSet.card_le_of_subset (s := NSet.ofList (seed :: d.keys)) (t := NSet.ofList t)
        (fun a ha => NSet.mem_ofList.2 (hsub (NSet.mem_ofList.1 ha)))
      rw [NSet.card_ofList hn, NSet.card_ofList ht, List.length_cons, ← NMap.size_eq_keys] at this
      omega

theorem SameLimit.symm {o o' : Nat} (h : SameLimit E agg seed o o') : SameLimit E agg seed o' o := by
  rcases h with h | h
  · exact Or.inl h.symm
  · exact Or.inr (fun x k hk h0 => (h x k hk h0).symm)

theorem search_unique {o o' : Nat} {d d' : NMap Nat} (hd : ∀ x k, d.find? x = some k ↔ Dist x k ∧ 0 < k ∧ k < o)
    (hd' : ∀ x k, d'.find? x = some k ↔ Dist x k ∧ 0 < k ∧ k < o') {B m : Nat}
    (h1 : (∀ x, ReachableFrom (FreeAdj E.g.rowPtr E.g.colInd agg) (· = seed) x → x = seed ∨ x ∈ d.keySet) ∨
      (B < o ∧ m ≤ d.size + 1))
    (h2 : o ≤ B + 1 ∨ FewBefore (FreeAdj E.g.rowPtr E.g.colInd agg) (· = seed) o m)
    (h1' : (∀ x, ReachableFrom (FreeAdj E.g.rowPtr E.g.colInd agg) (· = seed) x → x = seed ∨ x ∈ d'.keySet) ∨
      (B < o' ∧ m ≤ d'.size + 1))
    (h2' : o' ≤ B + 1 ∨ FewBefore (FreeAdj E.g.rowPtr E.g.colInd agg) (· = seed) o' m) :
    d = d' ∧ SameLimit E agg seed o o' := by
  rcases Nat.lt_trichotomy o o' with hlt | rfl | hlt
  · exact search_unique_lt hd hd' hlt h1 h2'
  · refine ⟨NMap.ext (fun x => ?_), Or.inl rfl⟩
    apply Option.ext
    intro k
    rw [hd, hd']
  · obtain ⟨a, b⟩ := search_unique_lt hd' hd hlt h1' h2
    exact ⟨a.symm, b.symm⟩

theorem GrownCell.unique (hG : Determined Grown) {o o' : Nat} {s s' : NSet} (h : GrownCell E Grown agg seed o s)
    (h' : GrownCell E Grown agg seed o' s') : s = s' ∧ SameLimit E agg seed o o' ∧
      (∀ x ∈ s, ReachableFrom (FreeAdj E.g.rowPtr E.g.colInd agg) (· = seed) x) ∧ ((∃ x, x ∈ s) → seed ∈ s) := by
  obtain ⟨d, h1, h2, h3, h4, h5⟩ := h
  obtain ⟨d', h1', h2', h3', h4', h5'⟩ := h'
  obtain ⟨rfl, hl⟩ := search_unique h1 h1' h2 h3 h2' h3'
  have hr : ∀ x, x = seed ∨ x ∈ d.keySet → ReachableFrom (FreeAdj E.g.rowPtr E.g.colInd agg) (· = seed) x := by
    rintro x (rfl | hx)
    · exact ⟨0, x, rfl, .nil x⟩
    · obtain ⟨k, hk⟩ := NMap.mem_keys.1 (NMap.mem_keySet.1 hx)
      obtain ⟨⟨⟨w, hw, hwk⟩, _⟩, _⟩ := (h1 x k).1 hk
      exact ⟨k, w, hw, hwk⟩
  by_cases hc : d.size + 1 < E.goalCard
  · have a := h4 hc
    have b := h4' hc
    refine ⟨NSet.ext (fun x => (a x).trans (b x).symm), hl, fun x hx => hr x ((a x).1 hx), fun _ => (a seed).2 (Or.inl rfl)⟩
  · obtain ⟨xs, κ, m, a1, a2, a3, a4, a5, a6, a7⟩ := h5 (by omega)
    obtain ⟨ys, κ', m', b1, b2, b3, b4, b5, b6, b7⟩ := h5' (by omega)
    obtain rfl := hG.unique a1 b1 (a2.trans b2.symm) (a3.trans b3.symm)
    obtain rfl := BestSize.unique (fun j hj hj' => (a5 j hj hj').unique (b5 j hj hj')) a6 b6
    refine ⟨a7.trans b7.symm, hl, ?_, ?_⟩
    · intro x hx
      rw [a7, NSet.mem_ofList] at hx
      exact hr x (hG.sub a1 a2 x (List.mem_of_mem_take hx))
    · rintro ⟨x, hx⟩
      rw [a7, NSet.mem_ofList] at hx ⊢
      cases xs with
      | nil => simp at a2
      | cons y ys =>
        simp only [List.head?_cons, Option.some.injEq] at a2
        subst a2
        cases m with
        | zero => simp at hx
        | succ m => simp

theorem groups_mem {key : Nat → Nat} {A : Nat → Prop} {gs gs' : List NSet} (hne : ∀ t ∈ gs, 0 < t.card)
    (hA : ∀ x, (∃ t ∈ gs, x ∈ t) ↔ A x) (hk : ∀ t ∈ gs, ∀ x ∈ t, ∀ y ∈ t, key x = key y)
    (hp : gs.Pairwise (fun t u => ∀ x ∈ t, ∀ y ∈ u, key x < key y))
    (hA' : ∀ x, (∃ t ∈ gs', x ∈ t) ↔ A x) (hk' : ∀ t ∈ gs', ∀ x ∈ t, ∀ y ∈ t, key x = key y)
    (hp' : gs'.Pairwise (fun t u => ∀ x ∈ t, ∀ y ∈ u, key x < key y)) : ∀ t ∈ gs, t ∈ gs' := by
  have aux : ∀ {gs : List NSet}, (gs.Pairwise (fun t u => ∀ x ∈ t, ∀ y ∈ u, key x < key y)) →
      ∀ t ∈ gs, ∀ u ∈ gs, ∀ x ∈ t, ∀ y ∈ u, key x = key y → t = u := by
    intro gs hp t ht u hu x hx y hy he
    by_contra hne
    have hsym : Std.Symm (fun t u : NSet => t = u ∨ ∀ x ∈ t, ∀ y ∈ u, key x ≠ key y) := ⟨by
      rintro a b (h | h)
      · exact Or.inl h.symm
      · exact Or.inr (fun x hx y hy e => h y hy x hx e.symm)⟩
    have := List.Pairwise.forall_of_forall (R := fun t u : NSet => t = u ∨ ∀ x ∈ t, ∀ y ∈ u, key x ≠ key y)
      (fun _ _ => Or.inl rfl) (hp.imp (fun h => Or.inr (fun x hx y hy => Nat.ne_of_lt (h x hx y hy)))) ht hu
    rcases this with h | h
    · exact hne h
    · exact h x hx y hy he
  intro t ht
  obtain ⟨x, hx⟩ := NSet.card_pos_iff.1 (hne t ht)
  obtain ⟨u, hu, hxu⟩ := (hA' x).2 ((hA x).1 ⟨t, ht, hx⟩)
  have : t = u := by
    apply NSet.ext
    intro y
    constructor
    · intro hy
      obtain ⟨v, hv, hyv⟩ := (hA' y).2 ((hA y).1 ⟨t, ht, hy⟩)
      rw [aux hp' u hu v hv x hxu y hyv (hk t ht x hx y hy)]
      exact hyv
    · intro hy
      obtain ⟨v, hv, hyv⟩ := (hA y).2 ((hA' y).1 ⟨u, hu, hy⟩)
      rw [aux hp t ht v hv x hx y hyv (hk' u hu x hxu y hy)]
      exact hyv
  rw [this]
  exact hu

theorem groups_unique {key : Nat → Nat} {A : Nat → Prop} {gs gs' : List NSet} (hne : ∀ t ∈ gs, 0 < t.card)
    (hA : ∀ x, (∃ t ∈ gs, x ∈ t) ↔ A x) (hk : ∀ t ∈ gs, ∀ x ∈ t, ∀ y ∈ t, key x = key y)
    (hp : gs.Pairwise (fun t u => ∀ x ∈ t, ∀ y ∈ u, key x < key y)) (hne' : ∀ t ∈ gs', 0 < t.card)
    (hA' : ∀ x, (∃ t ∈ gs', x ∈ t) ↔ A x) (hk' : ∀ t ∈ gs', ∀ x ∈ t, ∀ y ∈ t, key x = key y)
    (hp' : gs'.Pairwise (fun t u => ∀ x ∈ t, ∀ y ∈ u, key x < key y)) : gs = gs' := by
  have strong : ∀ {gs : List NSet}, (∀ t ∈ gs, 0 < t.card) →
      gs.Pairwise (fun t u => ∀ x ∈ t, ∀ y ∈ u, key x < key y) →
      gs.Pairwise (fun t u => ∃ x ∈ t, ∃ y ∈ u, ∀ x ∈ t, ∀ y ∈ u, key x < key y) := by
    intro gs hne hp
    refine hp.imp_of_mem ?_
    intro a b ha hb h
    obtain ⟨x, hx⟩ := NSet.card_pos_iff.1 (hne a ha)
    obtain ⟨y, hy⟩ := NSet.card_pos_iff.1 (hne b hb)
    exact ⟨x, hx, y, hy, h⟩
  refine ordered_unique ?_ (strong hne hp) (strong hne' hp') (fun t => ⟨groups_mem hne hA hk hp hA' hk' hp' t,
    groups_mem hne' hA' hk' hp' hA hk hp t⟩)
  rintro a b ⟨x, hx, y, hy, h⟩ ⟨_, _, _, _, h'⟩
  have := h x hx y hy
  have := h' y hy x hx
  omega

theorem JoinedInTurn.unique (hW : LawfulLt W) {c : PoolCfg W} {gs : List NSet} {p p1 p2 : Pool}
    (h : JoinedInTurn c gs p p1) : JoinedInTurn c gs p p2 → p1 = p2 := by
  induction h with
  | none => intro h'; cases h'; rfl
  | next h1 _ ih =>
    intro h'
    cases h' with
    | next h1' h2' =>
      obtain rfl := C61_update_unique hW h1 h1'
      exact ih h2'

/-- the new seeds of a turn, in groups -/
structure NewSeeds (E : IsoEnv W F) (agg : List Bool) (seed order : Nat) (s : NSet) (gs : List NSet) : Prop where
  ne : ∀ t ∈ gs, 0 < t.card
  mem : ∀ x, (∃ t ∈ gs, x ∈ t) ↔ x ∉ s ∧ agg[x]? = some false ∧ ∃ y ∈ s, Adj E.g.rowPtr E.g.colInd y x
  same : ∀ t ∈ gs, ∀ x ∈ t, ∀ y ∈ t, ∀ k l, IsDistance (FreeAdj E.g.rowPtr E.g.colInd agg) (· = seed) x k →
      IsDistance (FreeAdj E.g.rowPtr E.g.colInd agg) (· = seed) y l → k = l ∨ (order ≤ k ∧ order ≤ l)
  sorted : gs.Pairwise (fun t u => ∀ x ∈ t, ∀ y ∈ u, ∀ k l, IsDistance (FreeAdj E.g.rowPtr E.g.colInd agg) (· = seed) x k →
      IsDistance (FreeAdj E.g.rowPtr E.g.colInd agg) (· = seed) y l → k < l ∧ k < order)

open Classical in
theorem NewSeeds.unique {o o' : Nat} {s : NSet} {gs gs' : List NSet} (hl : SameLimit E agg seed o o')
    (hr : ∀ x ∈ s, ReachableFrom (FreeAdj E.g.rowPtr E.g.colInd agg) (· = seed) x) (hs : (∃ x, x ∈ s) → seed ∈ s)
    (h : NewSeeds E agg seed o s gs) (h' : NewSeeds E agg seed o' s gs') : gs = gs' := by
  obtain ⟨a1, a2, a3, a4⟩ := h
  obtain ⟨b1, b2, b3, b4⟩ := h'
  have hdist : ∀ x, x ∉ s ∧ agg[x]? = some false ∧ (∃ y ∈ s, Adj E.g.rowPtr E.g.colInd y x) → ∃ k, Dist x k ∧ 0 < k := by
    rintro x ⟨hx, hf, y, hy, hadj⟩
    obtain ⟨k, w, hw, hwk⟩ := hr y hy
    obtain ⟨l, hlx⟩ := ReachableFrom.dist (R := FreeAdj E.g.rowPtr E.g.colInd agg) (S := (· = seed))
      ⟨k + 1, w, hw, .step hwk ⟨hadj, hf⟩⟩
    refine ⟨l, hlx, Nat.pos_of_ne_zero ?_⟩
    rintro rfl
    have : x = seed := (IsDistance.zero (S := (· = seed))).1 hlx
    exact hx (this ▸ hs ⟨y, hy⟩)
  let dist : Nat → Nat := fun x => if h : ∃ k, Dist x k then h.choose else 0
  have hspec : ∀ x k, Dist x k → dist x = k := by
    intro x k hk
    have he : ∃ k, Dist x k := ⟨k, hk⟩
    show (if h : ∃ k, Dist x k then h.choose else 0) = k
    rw [dif_pos he]
    exact he.choose_spec.unique hk
  have conv : ∀ (o : Nat) (gs : List NSet),
      (∀ x, (∃ t ∈ gs, x ∈ t) ↔ x ∉ s ∧ agg[x]? = some false ∧ ∃ y ∈ s, Adj E.g.rowPtr E.g.colInd y x) →
      (∀ t ∈ gs, ∀ x ∈ t, ∀ y ∈ t, ∀ k l, Dist x k → Dist y l → k = l ∨ (o ≤ k ∧ o ≤ l)) →
      (gs.Pairwise (fun t u => ∀ x ∈ t, ∀ y ∈ u, ∀ k l, Dist x k → Dist y l → k < l ∧ k < o)) →
      (∀ t ∈ gs, ∀ x ∈ t, ∀ y ∈ t, min (dist x) o = min (dist y) o) ∧
      gs.Pairwise (fun t u => ∀ x ∈ t, ∀ y ∈ u, min (dist x) o < min (dist y) o) := by
    intro o gs h2 h3 h4
    have hd : ∀ t ∈ gs, ∀ x ∈ t, Dist x (dist x) := by
      intro t ht x hx
      obtain ⟨k, hk, _⟩ := hdist x ((h2 x).1 ⟨t, ht, hx⟩)
      rw [hspec x k hk]
      exact hk
    constructor
    · intro t ht x hx y hy
      have := h3 t ht x hx y hy _ _ (hd t ht x hx) (hd t ht y hy)
      omega
    · refine h4.imp_of_mem ?_
      intro a b ha hb h x hx y hy
      have := h x hx y hy _ _ (hd a ha x hx) (hd b hb y hy)
      omega
  obtain ⟨c1, c2⟩ := conv o gs a2 a3 a4
  obtain ⟨d1, d2⟩ := conv o' gs' b2 b3 b4
  have hkey : ∀ t ∈ gs', ∀ x ∈ t, min (dist x) o = min (dist x) o' := by
    intro t ht x hx
    rcases hl with rfl | hl
    · rfl
    · obtain ⟨k, hk, h0⟩ := hdist x ((b2 x).1 ⟨t, ht, hx⟩)
      have := hl x k hk h0
      rw [hspec x k hk]
      omega
  refine groups_unique (key := fun x => min (dist x) o) a1 a2 c1 c2 b1 b2 ?_ ?_
  · intro t ht x hx y hy
    show min (dist x) o = min (dist y) o
    rw [hkey t ht x hx, hkey t ht y hy]
    exact d1 t ht x hx y hy
  · refine d2.imp_of_mem ?_
    intro a b ha hb h x hx y hy
    show min (dist x) o < min (dist y) o
    rw [hkey a ha x hx, hkey b hb y hy]
    exact h x hx y hy

theorem SeedsQueued.unique (hW : LawfulLt W) {o o' : Nat} {s : NSet} {p p1 p2 : Pool} (hl : SameLimit E agg seed o o')
    (hr : ∀ x ∈ s, ReachableFrom (FreeAdj E.g.rowPtr E.g.colInd agg) (· = seed) x) (hs : (∃ x, x ∈ s) → seed ∈ s)
    (h : SeedsQueued E agg seed o s p p1) (h' : SeedsQueued E agg seed o' s p p2) : p1 = p2 := by
  obtain ⟨gs, a1, a2, a3, a4, a5⟩ := h
  obtain ⟨gs', b1, b2, b3, b4, b5⟩ := h'
  obtain rfl := NewSeeds.unique hl hr hs ⟨a1, a2, a3, a4⟩ ⟨b1, b2, b3, b4⟩
  exact a5.unique hW b5

end Cell

theorem SeedChosen.free {c : PoolCfg W} {agg : List Bool} {p p' : Pool} {s : Nat} (h : SeedChosen c agg p (some s) p') :
    agg[s]? = some false := by
  cases h with
  | waiting _ _ _ _ _ h => obtain ⟨_, _, _, h⟩ := h; exact h
  | otherLevel _ _ _ _ h =>
    rcases h with h | ⟨_, _, h⟩
    · obtain ⟨_, _, _, h⟩ := h; exact h
    · exact ((h _).1 (by simp)).2

/-- two runs of the same number of turns are the same -/
theorem IsoTrace.unique (hW : LawfulLt W) {E : IsoEnv W F} {Grown : NMap Nat → Nat → List Nat → Prop}
    (hG : Determined Grown) {agg0 : List Bool} {p0 : Pool} {cs : List (Nat × NSet)} {agg : List Bool} {p : Pool}
    (h : IsoTrace E Grown agg0 p0 cs agg p) : ∀ {cs' : List (Nat × NSet)} {agg' : List Bool} {p' : Pool},
    IsoTrace E Grown agg0 p0 cs' agg' p' → cs.length = cs'.length → cs = cs' ∧ agg = agg' ∧ p = p' := by
  induction h with
  | start =>
    intro cs' agg' p' h' hl
    cases h' with
    | start => exact ⟨rfl, rfl, rfl⟩
    | turn => simp at hl
  | @turn cs agg agg2 p p1 p2 seed order s h1 h2 h3 h4 h5 ih =>
    intro cs' agg' p' h' hl
    cases h' with
    | start => simp at hl
    | @turn cs' aggB aggB2 pB pB1 pB2 seed' order' s' k1 k2 k3 k4 k5 =>
      obtain ⟨rfl, rfl, rfl⟩ := ih k1 (by simpa using hl)
      obtain ⟨he, rfl⟩ := C61_choice_unique hW h2 k2
      cases he
      obtain ⟨rfl, hl, hr, hs⟩ := h3.unique hG k3
      obtain rfl := h4.unique hW hl hr hs k4
      refine ⟨rfl, List.ext_getElem? (fun i => ?_), rfl⟩
      rw [h5 i, k5 i]

/-- a shorter run is the beginning of a longer one -/
theorem IsoTrace.shorter {E : IsoEnv W F} {Grown : NMap Nat → Nat → List Nat → Prop}
    {agg0 : List Bool} {p0 : Pool} {cs : List (Nat × NSet)} {agg : List Bool} {p : Pool}
    (h : IsoTrace E Grown agg0 p0 cs agg p) {k : Nat} (hk : k < cs.length) :
    ∃ cs' agg' p' seed p1, IsoTrace E Grown agg0 p0 cs' agg' p' ∧ cs'.length = k ∧
      SeedChosen E.pool agg' p' (some seed) p1 := by
  induction h with
  | start => simp at hk
  | @turn cs agg agg2 p p1 p2 seed order s h1 h2 h3 h4 h5 ih =>
    by_cases hk' : k < cs.length
    · exact ih hk'
    · simp at hk
      exact ⟨cs, agg, p, seed, p1, h1, by omega, h2⟩

/-- two complete runs are the same -/
theorem IsoTrace.complete_unique (hW : LawfulLt W) {E : IsoEnv W F} {Grown : NMap Nat → Nat → List Nat → Prop}
    (hG : Determined Grown) {agg0 : List Bool} {p0 : Pool} {cs cs' : List (Nat × NSet)} {agg agg' : List Bool} {p p' : Pool}
    (h : IsoTrace E Grown agg0 p0 cs agg p) (h' : IsoTrace E Grown agg0 p0 cs' agg' p')
    (hall : ∀ b ∈ agg, b = true) (hall' : ∀ b ∈ agg', b = true) : cs = cs' := by
  rcases Nat.lt_trichotomy cs.length cs'.length with hlt | he | hlt
  · obtain ⟨cs2, agg2, p2, seed, p3, k1, k2, k3⟩ := h'.shorter hlt
    obtain ⟨_, rfl, _⟩ := h.unique hW hG k1 k2.symm
    cases hall _ (List.mem_of_getElem? k3.free)
  · exact (h.unique hW hG h' he).1
  · obtain ⟨cs2, agg2, p2, seed, p3, k1, k2, k3⟩ := h.shorter hlt
    obtain ⟨_, rfl, _⟩ := h'.unique hW hG k1 k2.symm
    cases hall' _ (List.mem_of_getElem? k3.free)

end CoMMA
