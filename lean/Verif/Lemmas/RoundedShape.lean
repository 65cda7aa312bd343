import Verif.Spec.RoundedShape
import Verif.Lemmas.Shape
import Verif.Lemmas.DoubleArith
/-! # Growth by aspect ratios that are known up to rounding -/

set_option linter.unusedSectionVars false

namespace CoMMA

variable {W F : Type} [Num W]

/-! ### Growth, for any aspect-ratio computer -/

/-- `I` describes the features of a set, `R` the aspect ratios found from them -/
structure ComputerBy (E : IsoEnv W F) (I : NSet → F → Prop) (R : NSet → W → Prop) : Prop where
  crs : ValidCRS E.g.nbC E.g.rowPtr E.g.colInd
  init : ∀ x f, x < E.g.nbC → E.ar.init x = .ok f → I (NSet.single x) f
  step : ∀ (c : Nat) (cc : NSet) (f f' : F) (n : Nat) (r : W), c < E.g.nbC → (∀ y ∈ cc, y < E.g.nbC) → (∃ y, y ∈ cc) → c ∉ cc → I cc f →
    E.ar.compute c f cc = .ok (n, r, f') → R (cc.insert c) r ∧ I (cc.insert c) f'

theorem look_by {E : IsoEnv W F} {I : NSet → F → Prop} {R : NSet → W → Prop} (hC : ComputerBy E I R) {d : NMap Nat} (k : Nat) :
    ∀ {f f' : F} {c : Nat} {m : Merit W} {xs l : List Nat},
    Candidates E.g E.nbh E.pool.prio d.keySet xs l → (∀ y ∈ xs, y < E.g.nbC) → xs ≠ [] → I (NSet.ofList xs) f →
    c ∈ l → LookAhead E d.keySet d k xs f c m f' →
    LookBy E R d k xs c m () ∧ I (NSet.ofList (xs ++ [c])) f' := by
  have hbase : ∀ {f f' : F} {c : Nat} {m : Merit W} {xs l : List Nat},
      Candidates E.g E.nbh E.pool.prio d.keySet xs l → (∀ y ∈ xs, y < E.g.nbC) → xs ≠ [] → I (NSet.ofList xs) f →
      c ∈ l → HasMerit E d f (NSet.ofList xs) c m f' → c < E.g.nbC ∧
      MeritBy E.g R d (NSet.ofList xs) c m ∧ I (NSet.ofList (xs ++ [c])) f' := by
    intro f f' c m xs l hl hlt hne hf hc h
    obtain ⟨_, h2, y, hy, hyc⟩ := hl.front hc
    have hcl := (hC.crs.adj_lt hyc).2
    rw [ofList_append]
    obtain ⟨n, hn⟩ := h.ar
    obtain ⟨h3, h4⟩ := hC.step c _ f f' n m.ar hcl (fun y hy => hlt y (NSet.mem_ofList.1 hy)) ⟨y, NSet.mem_ofList.2 hy⟩
      (fun hx => h2 (NSet.mem_ofList.1 hx)) hf hn
    exact ⟨hcl, ⟨h.faces, h.order, h3⟩, h4⟩
  induction k with
  | zero =>
    intro f f' c m xs l hl hlt hne hf hc h
    exact (hbase hl hlt hne hf hc h).2
  | succ k ih =>
    intro f f' c m xs l hl hlt hne hf hc h
    obtain ⟨m0, l', hm, hl', hrest⟩ := h
    obtain ⟨hcl, t1, t2⟩ := hbase hl hlt hne hf hc hm
    refine ⟨⟨m0, l', t1, hl', ?_⟩, t2⟩
    rcases hrest with hrest | ⟨c2, m2, f2, hb, hm2⟩
    · exact Or.inl hrest
    · refine Or.inr ⟨c2, m2, hb.forget ?_, hm2⟩
      intro x hx m f hlk
      refine (ih hl' ?_ (by simp) t2 hx hlk).1
      intro x hx
      rcases List.mem_append.1 hx with hx | hx
      · exact hlt x hx
      · rw [List.mem_singleton.1 hx]; exact hcl

theorem greedy_by {E : IsoEnv W F} {I : NSet → F → Prop} {R : NSet → W → Prop} (hC : ComputerBy E I R) {d : NMap Nat} {hi : Nat}
    {xs : List Nat} {f : F} (h : GreedySeq E d hi xs f) : ∀ {s : Nat}, xs.head? = some s → s < E.g.nbC →
    SeqBy E R d hi xs ∧ I (NSet.ofList xs) f ∧ (∀ x ∈ xs, x < E.g.nbC) := by
  induction h with
  | @seed s f h =>
    intro s' hs hlt
    simp only [List.head?_cons, Option.some.injEq] at hs
    subst hs
    exact ⟨SeqBy.seed, hC.init s f hlt h, by simpa using hlt⟩
  | @next xs l f f' c m hg hn hb ih =>
    intro s hs hlt
    have hne : xs ≠ [] := hg.ne_nil
    have hs' : xs.head? = some s := by
      cases xs with
      | nil => exact absurd rfl hne
      | cons a xs => simpa using hs
    obtain ⟨h1, h2, h3⟩ := ih hs' hlt
    obtain ⟨hcm, hcl⟩ := hb.mem
    obtain ⟨_, _, y, _, hyc⟩ := hn.front hcm
    refine ⟨SeqBy.next h1 hn (hb.forget ?_), (look_by hC _ hn h3 hne h2 hcm hcl).2, ?_⟩
    · intro x hx m f hl
      exact (look_by hC _ hn h3 hne h2 hx hl).1
    · intro x hx
      rcases List.mem_append.1 hx with hx | hx
      · exact h3 x hx
      · rw [List.mem_singleton.1 hx]; exact (hC.crs.adj_lt hyc).2

/-! ### Quotients and small numbers -/

theorem Near.div {u : ℚ} (hu : 0 ≤ u) {p q : Nat} {e x y A B S : ℚ} (h1 : Near u p e x A S) (h2 : Near u q 0 y B B) (hA : |A| ≤ S) (he : 0 ≤ e)
    (hB : 0 < B) (hq : (1 + u) ^ q ≤ 3 / 2) : 0 < y ∧ Near u (p + 2 * q) (e / B) (x / y) (A / B) (S / B) := by
  unfold Near at h1 h2 ⊢
  rw [mul_zero, add_zero, abs_le] at h2
  have ha := one_le_grow hu p
  have hb := one_le_grow hu q
  have hS : 0 ≤ S := (abs_nonneg _).trans hA
  rw [pow_add, pow_mul', ]
  generalize (1 + u) ^ p = a at *
  generalize (1 + u) ^ q = b at *
  have hy1 : y ≤ b * B := by linarith [h2.2]
  have hy2 : (2 - b) * B ≤ y := by linarith [h2.1]
  have hy : 0 < y := lt_of_lt_of_le (mul_pos (by linarith) hB) hy2
  refine ⟨hy, ?_⟩
  -- B ≤ b ^ 2 * y
  have hby : B ≤ b ^ 2 * y := by
    have h3 : b ^ 2 * ((2 - b) * B) ≤ b ^ 2 * y := mul_le_mul_of_nonneg_left hy2 (by positivity)
    have h4 : 1 ≤ b ^ 2 * (2 - b) := by
      have h6 : 0 ≤ 1 + b - b ^ 2 := by nlinarith
      have h7 := mul_nonneg (show 0 ≤ b - 1 by linarith) h6
      linarith [show (b - 1) * (1 + b - b ^ 2) = b ^ 2 * (2 - b) - 1 by ring]
    have h5 : 1 * B ≤ b ^ 2 * (2 - b) * B := mul_le_mul_of_nonneg_right h4 hB.le
    linarith
  have e1 : x / y - A / B = (x - A) / y + A * (1 / y - 1 / B) := by field_simp; ring
  rw [e1]
  have i1 : 1 / y ≤ b ^ 2 / B := by
    rw [div_le_div_iff₀ hy hB]; linarith
  have i2 : |1 / y - 1 / B| ≤ (b ^ 2 - 1) / B := by
    rw [abs_le]
    constructor
    · have : 1 / (b * B) ≤ 1 / y := one_div_le_one_div_of_le hy hy1
      have e2 : 1 / (b * B) = 1 / b / B := by field_simp
      have h6 : 2 - b ^ 2 ≤ 1 / b := by
        rw [le_div_iff₀ (by linarith)]
        nlinarith
      have h7 : (2 - b ^ 2) / B ≤ 1 / b / B := div_le_div_of_nonneg_right h6 hB.le
      have e3 : (2 - b ^ 2) / B = 1 / B - (b ^ 2 - 1) / B := by ring
      linarith
    · have e3 : (b ^ 2 - 1) / B = b ^ 2 / B - 1 / B := by ring
      linarith
  have h0 : 0 ≤ (a - 1) * S + a * e := add_nonneg (mul_nonneg (by linarith) hS) (mul_nonneg (by linarith) he)
  have t1 : |(x - A) / y| ≤ ((a - 1) * S + a * e) * (b ^ 2 / B) := by
    rw [abs_div, abs_of_pos hy, div_eq_mul_one_div]
    exact mul_le_mul h1 i1 (by positivity) h0
  have t2 : |A * (1 / y - 1 / B)| ≤ S * ((b ^ 2 - 1) / B) := by
    rw [abs_mul]
    exact mul_le_mul hA i2 (abs_nonneg _) hS
  refine (abs_add_le _ _).trans ((add_le_add t1 t2).trans (le_of_eq ?_))
  field_simp
  ring

theorem grow_ge {u : ℚ} (hu : 0 ≤ u) (c : Nat) : 1 + c * u ≤ (1 + u) ^ c := one_add_mul_le_pow (by linarith) c

/-- errors of underflow are absorbed if the numbers are not too small -/
theorem Near.absorb {u : ℚ} (hu : 0 ≤ u) {p c : Nat} {η x A S : ℚ} (h : Near u p (c * η) x A S) (hη : η ≤ u * S) (hS : 0 ≤ S) :
    Near u (p + c) 0 x A S := by
  unfold Near at h ⊢
  have ha := one_le_grow hu p
  have hc := grow_ge hu c
  rw [pow_add]
  generalize (1 + u) ^ p = a at *
  generalize (1 + u) ^ c = b at *
  have h1 : (c : ℚ) * η ≤ c * (u * S) := mul_le_mul_of_nonneg_left hη (by positivity)
  have h2 : a * (c * η) ≤ a * (c * (u * S)) := mul_le_mul_of_nonneg_left h1 (by linarith)
  have h3 : a * (1 + c * u) * S ≤ a * b * S := mul_le_mul_of_nonneg_right (mul_le_mul_of_nonneg_left hc (by linarith)) hS
  rw [mul_zero, add_zero]
  refine h.trans ?_
  linarith

end CoMMA
