import Mathlib.Tactic.Linarith
import Verif.Lemmas.GridLarger
import Verif.Lemmas.TileRun
/-! # Growth of a coarse cell from the corner of a square block of any width -/

set_option linter.unusedSectionVars false

namespace CoMMA.Tile

variable {W F : Type} [Num W]

/-- the seed and the cells that may be taken -/
def Known (d : NMap Nat) (s x : Nat) : Prop := x = s ∨ x ∈ d.keySet

/-- The surroundings of a corner `s` of a block: `a` and `b` are the coordinates, from the corner into the block. -/
structure Quad (g : Graph W) (d : NMap Nat) (B s : Nat) (a b : Nat → Int) : Prop where
  a0 : a s = 0
  b0 : b s = 0
  hs : s ∉ d.keySet
  cell : ∀ i j : Nat, i < B → j < B → (i ≠ 0 ∨ j ≠ 0) → ∃ x, d.find? x = some (i + j) ∧ a x = i ∧ b x = j
  inj : ∀ x y, Known d s x → Known d s y → a x = a y → b x = b y → x = y
  adj : ∀ x y, Known d s x → Known d s y → (y ∈ rowOf g.rowPtr g.colInd x ↔
    (a x = a y ∧ (b x = b y + 1 ∨ b y = b x + 1)) ∨ (b x = b y ∧ (a x = a y + 1 ∨ a y = a x + 1)))
  nearA : ∀ x ∈ d.keySet, 0 ≤ b x → b x < B → a x ≠ -1
  nearB : ∀ x ∈ d.keySet, 0 ≤ a x → a x < B → b x ≠ -1
  dist : ∀ x k, d.find? x = some k → a x + b x ≤ k

theorem Quad.swap {g : Graph W} {d : NMap Nat} {B s : Nat} {a b : Nat → Int} (h : Quad g d B s a b) : Quad g d B s b a where
  a0 := h.b0
  b0 := h.a0
  hs := h.hs
  cell := fun i j hi hj hij => by
    obtain ⟨x, h1, h2, h3⟩ := h.cell j i hj hi hij.symm
    exact ⟨x, by rw [Nat.add_comm]; exact h1, h3, h2⟩
  inj := fun x y hx hy h1 h2 => h.inj x y hx hy h2 h1
  adj := fun x y hx hy => by rw [h.adj x y hx hy]; exact or_comm
  nearA := h.nearB
  nearB := h.nearA
  dist := fun x k hk => by have := h.dist x k hk; omega

/-- a cell of the block -/
theorem Quad.get {g : Graph W} {d : NMap Nat} {B s : Nat} {a b : Nat → Int} (h : Quad g d B s a b) {i j : Nat} (hi : i < B)
    (hj : j < B) : ∃ x, Known d s x ∧ a x = i ∧ b x = j := by
  by_cases h0 : i ≠ 0 ∨ j ≠ 0
  · obtain ⟨x, h1, h2, h3⟩ := h.cell i j hi hj h0
    exact ⟨x, Or.inr (mem_keySet_of h1), h2, h3⟩
  · refine ⟨s, Or.inl rfl, ?_, ?_⟩
    · rw [h.a0]; omega
    · rw [h.b0]; omega

/-- a rectangle of `p` by `q` cells and `r` more cells along its longer side -/
structure Shape (d : NMap Nat) (B s : Nat) (a b : Nat → Int) (p q r : Nat) (xs : List Nat) : Prop where
  hp : 1 ≤ p
  pq : p ≤ q
  qp : q ≤ p + 1
  qB : q ≤ B
  rq : r < q
  rB : 0 < r → p < B
  len : p * q + r = xs.length
  mem : ∀ x, x ∈ xs ↔ Known d s x ∧ 0 ≤ a x ∧ 0 ≤ b x ∧ ((a x < p ∧ b x < q) ∨ (a x = p ∧ b x < r))

theorem Shape.turn {d : NMap Nat} {B s : Nat} {a b : Nat → Int} {p : Nat} {xs : List Nat} (h : Shape d B s a b p p 0 xs) :
    Shape d B s b a p p 0 xs :=
  ⟨h.hp, h.pq, h.qp, h.qB, h.rq, h.rB, h.len, fun x => by
    rw [h.mem x]
    constructor
    · rintro ⟨h1, h2, h3, h4⟩; exact ⟨h1, h3, h2, by omega⟩
    · rintro ⟨h1, h2, h3, h4⟩; exact ⟨h1, h3, h2, by omega⟩⟩

/-- the next cell along the side -/
theorem Shape.extend {g : Graph W} {d : NMap Nat} {B s : Nat} {a b : Nat → Int} (hq : Quad g d B s a b) {p q r : Nat}
    {xs : List Nat} (h : Shape d B s a b p q r xs) (hpB : p < B) {c : Nat} (hc : Known d s c) (ha : a c = p) (hb : b c = r) :
    ∃ p' q' r', Shape d B s a b p' q' r' (xs ++ [c]) ∨ Shape d B s b a p' q' r' (xs ++ [c]) := by
  have hmem : ∀ x, x ∈ xs ++ [c] ↔ Known d s x ∧ 0 ≤ a x ∧ 0 ≤ b x ∧ ((a x < p ∧ b x < q) ∨ (a x = p ∧ b x < r + 1)) := by
    intro x
    rw [List.mem_append, List.mem_singleton, h.mem x]
    constructor
    · rintro (⟨h1, h2, h3, h4⟩ | rfl)
      · exact ⟨h1, h2, h3, by omega⟩
      · exact ⟨hc, by omega, by omega, by omega⟩
    · rintro ⟨h1, h2, h3, h4⟩
      by_cases hx : a x = p ∧ b x = r
      · exact Or.inr (hq.inj x c h1 hc (by omega) (by omega))
      · exact Or.inl ⟨h1, h2, h3, by omega⟩
  have hlen := h.len
  have h1 := h.hp
  have h2 := h.pq
  have h3 := h.qp
  have h4 := h.qB
  have h5 := h.rq
  by_cases hr : r + 1 < q
  · refine ⟨p, q, r + 1, Or.inl ⟨h1, h2, h3, h4, hr, fun _ => hpB, ?_, fun x => ?_⟩⟩
    · rw [List.length_append, List.length_singleton]; omega
    · rw [hmem x]; push_cast; rfl
  · have hrq : r + 1 = q := by omega
    have hl' : (p + 1) * q = (xs ++ [c]).length := by
      rw [List.length_append, List.length_singleton, Nat.add_mul, Nat.one_mul]; omega
    by_cases hqp : q = p + 1
    · refine ⟨p + 1, q, 0, Or.inl ⟨by omega, by omega, by omega, h4, by omega, by omega, hl', fun x => ?_⟩⟩
      rw [hmem x]
      push_cast
      constructor
      · rintro ⟨e1, e2, e3, e4⟩; exact ⟨e1, e2, e3, by omega⟩
      · rintro ⟨e1, e2, e3, e4⟩; exact ⟨e1, e2, e3, by omega⟩
    · refine ⟨q, p + 1, 0, Or.inr ⟨by omega, by omega, by omega, by omega, by omega, by omega, ?_, fun x => ?_⟩⟩
      · rw [Nat.mul_comm]; exact hl'
      · rw [hmem x]
        push_cast
        constructor
        · rintro ⟨e1, e2, e3, e4⟩; exact ⟨e1, e3, e2, by omega⟩
        · rintro ⟨e1, e2, e3, e4⟩; exact ⟨e1, e3, e2, by omega⟩

theorem two_le_cnt {g : Graph W} {x y z : Nat} {xs : List Nat} (hy : y ∈ xs) (hz : z ∈ xs) (hyz : y ≠ z)
    (h1 : y ∈ rowOf g.rowPtr g.colInd x) (h2 : z ∈ rowOf g.rowPtr g.colInd x) : 2 ≤ cnt g x xs := by
  unfold cnt
  rw [List.countP_eq_length_filter]
  have hsub : [y, z] ⊆ xs.filter (fun y => decide (y ∈ rowOf g.rowPtr g.colInd x)) := by
    intro w hw
    simp only [List.mem_cons, List.not_mem_nil, or_false] at hw
    rw [List.mem_filter]
    rcases hw with rfl | rfl
    · exact ⟨hy, by simpa using h1⟩
    · exact ⟨hz, by simpa using h2⟩
  have := (List.subperm_of_subset (by simpa using hyz) hsub).length_le
  simpa using this

theorem one_le_cnt {g : Graph W} {x y : Nat} {xs : List Nat} (hy : y ∈ xs)
    (h1 : y ∈ rowOf g.rowPtr g.colInd x) : 1 ≤ cnt g x xs := by
  unfold cnt
  exact List.countP_pos_iff.2 ⟨y, hy, by simpa using h1⟩

theorem exists_two {g : Graph W} {x : Nat} {xs : List Nat} (hn : xs.Nodup) (h : 2 ≤ cnt g x xs) :
    ∃ y ∈ xs, ∃ z ∈ xs, y ≠ z ∧ y ∈ rowOf g.rowPtr g.colInd x ∧ z ∈ rowOf g.rowPtr g.colInd x := by
  unfold cnt at h
  rw [List.countP_eq_length_filter] at h
  have hn' := hn.filter (fun y => decide (y ∈ rowOf g.rowPtr g.colInd x))
  have hm : ∀ y ∈ xs.filter (fun y => decide (y ∈ rowOf g.rowPtr g.colInd x)), y ∈ xs ∧ y ∈ rowOf g.rowPtr g.colInd x := by
    intro y hy
    rw [List.mem_filter] at hy
    exact ⟨hy.1, by simpa using hy.2⟩
  match hl : xs.filter (fun y => decide (y ∈ rowOf g.rowPtr g.colInd x)), h with
  | y :: z :: l, _ =>
    rw [hl] at hn' hm
    have h1 := hm y (by simp)
    have h2 := hm z (by simp)
    refine ⟨y, h1.1, z, h2.1, ?_, h1.2, h2.2⟩
    intro e
    subst e
    simp at hn'

/-- a cell outside with two neighbours in the shape -/
theorem two_inside {ac bc ay by' az bz p q r : Int} (h1 : 1 ≤ p) (hr : 0 ≤ r) (hrq : r < q)
    (hc : ¬ (0 ≤ ac ∧ 0 ≤ bc ∧ ((ac < p ∧ bc < q) ∨ (ac = p ∧ bc < r))))
    (hy : 0 ≤ ay ∧ 0 ≤ by' ∧ ((ay < p ∧ by' < q) ∨ (ay = p ∧ by' < r)))
    (hz : 0 ≤ az ∧ 0 ≤ bz ∧ ((az < p ∧ bz < q) ∨ (az = p ∧ bz < r)))
    (d1 : (ac = ay ∧ (bc = by' + 1 ∨ by' = bc + 1)) ∨ (bc = by' ∧ (ac = ay + 1 ∨ ay = ac + 1)))
    (d2 : (ac = az ∧ (bc = bz + 1 ∨ bz = bc + 1)) ∨ (bc = bz ∧ (ac = az + 1 ∨ az = ac + 1)))
    (hne : ¬ (ay = az ∧ by' = bz)) : ac = p ∧ bc = r ∧ 0 < r := by
  obtain ⟨y1, y2, y3⟩ := hy
  obtain ⟨z1, z2, z3⟩ := hz
  rcases d1 with ⟨e1, e2 | e2⟩ | ⟨e1, e2 | e2⟩ <;> rcases d2 with ⟨e3, e4 | e4⟩ | ⟨e3, e4 | e4⟩ <;>
    rcases y3 with ⟨y3, y4⟩ | ⟨y3, y4⟩ <;> rcases z3 with ⟨z3, z4⟩ | ⟨z3, z4⟩ <;> omega

/-- a cell next to a rectangle that is not further than its shorter side -/
theorem next_to {ac bc ay by' p q B k : Int} (hpq : p ≤ q) (hqp : q ≤ p + 1) (h1 : 1 ≤ p) (hpB : p < B) (hqB : q ≤ B)
    (hA : 0 ≤ bc → bc < B → ac ≠ -1) (hB : 0 ≤ ac → ac < B → bc ≠ -1)
    (hc : ¬ (0 ≤ ac ∧ 0 ≤ bc ∧ ((ac < p ∧ bc < q) ∨ (ac = p ∧ bc < 0))))
    (hy : 0 ≤ ay ∧ 0 ≤ by' ∧ ((ay < p ∧ by' < q) ∨ (ay = p ∧ by' < 0)))
    (d1 : (ay = ac ∧ (by' = bc + 1 ∨ bc = by' + 1)) ∨ (by' = bc ∧ (ay = ac + 1 ∨ ac = ay + 1)))
    (hd : ac + bc ≤ k) (hk : k ≤ p) : (ac = p ∧ bc = 0) ∨ (bc = q ∧ ac = 0 ∧ q = p) := by
  obtain ⟨y1, y2, y3⟩ := hy
  rcases d1 with ⟨e1, e2 | e2⟩ | ⟨e1, e2 | e2⟩ <;> omega

/-- one cell is added -/
theorem Quad.step {E : IsoEnv W F} {d : NMap Nat} {B s : Nat} {a b : Nat → Int} (h : Quad E.g d B s a b) {p q r : Nat}
    {xs : List Nat} (hsh : Shape d B s a b p q r xs) (hn : xs.Nodup) (hlt : xs.length < B * B) (hnb : E.nbh = .extended)
    {f f' : F} {l : List Nat} {m : Merit W} {c : Nat} (hl : Candidates E.g E.nbh E.pool.prio d.keySet xs l)
    (hb : FirstBest (LookAhead E d.keySet d 0 xs f) l c m f') :
    ∃ p' q' r', Shape d B s a b p' q' r' (xs ++ [c]) ∨ Shape d B s b a p' q' r' (xs ++ [c]) := by
  have h1 := hsh.hp
  have h2 := hsh.pq
  have h3 := hsh.qp
  have h4 := hsh.qB
  have h5 := hsh.rq
  have hpB : p < B := by
    rcases Nat.eq_zero_or_pos r with h0 | h0
    · by_contra hno
      have hp : p = B := by omega
      have hq : q = B := by omega
      have := hsh.len
      rw [hp, hq] at this
      omega
    · exact hsh.rB h0
  obtain ⟨t, ht, hta, htb⟩ := h.cell p r hpB (by omega) (by omega)
  obtain ⟨y1, hy1, hy1a, hy1b⟩ := h.get (i := p - 1) (j := r) (by omega) (by omega)
  have htk : Known d s t := Or.inr (mem_keySet_of ht)
  have hy1x : y1 ∈ xs := (hsh.mem y1).2 ⟨hy1, by omega, by omega, by omega⟩
  have hty1 : y1 ∈ rowOf E.g.rowPtr E.g.colInd t := (h.adj t y1 htk hy1).2 (by omega)
  have hy1t : t ∈ rowOf E.g.rowPtr E.g.colInd y1 := (h.adj y1 t hy1 htk).2 (by omega)
  have htn : t ∉ xs := fun hx => by
    have := (hsh.mem t).1 hx
    omega
  have htl : t ∈ l := cands_all hl (Or.inr hnb) ⟨mem_keySet_of ht, htn, y1, hy1x, adj_iff_rowOf.2 hy1t⟩
  obtain ⟨hcl, hcm, hbest⟩ := hb.spec
  obtain ⟨mt, ft, htm, hgood⟩ := hbest t htl
  obtain ⟨hcK, hcn, y0, hy0, hy0c⟩ := cands_inFront hl hcl
  have hck : Known d s c := Or.inr hcK
  have hcn' : ¬ (0 ≤ a c ∧ 0 ≤ b c ∧ ((a c < p ∧ b c < q) ∨ (a c = p ∧ b c < r))) := fun hx => hcn ((hsh.mem c).2 ⟨hck, hx⟩)
  have e1 := hcm.zero.faces
  have e2 := htm.zero.faces
  have e3 := hcm.zero.order
  have e4 := htm.zero.order
  rw [nbShared_ofList hn] at e1 e2
  rw [ht] at e4
  have e4 : mt.order = p + r := (Option.some.inj e4).symm
  have hdc := h.dist c _ e3
  have hA := h.nearA c hcK
  have hB := h.nearB c hcK
  -- two neighbours of the cell added
  have htwo : 2 ≤ cnt E.g c xs → a c = p ∧ b c = r ∧ 0 < r := by
    intro h6
    obtain ⟨y, hy, z, hz, hyz, hcy, hcz⟩ := exists_two hn h6
    obtain ⟨ky, m1⟩ := (hsh.mem y).1 hy
    obtain ⟨kz, m2⟩ := (hsh.mem z).1 hz
    have d1 := (h.adj c y hck ky).1 hcy
    have d2 := (h.adj c z hck kz).1 hcz
    have hne : ¬ (a y = a z ∧ b y = b z) := fun hh => hyz (h.inj y z ky kz hh.1 hh.2)
    have h7 := two_inside (by omega) (by omega) (by omega) hcn' m1 m2 d1 d2 hne
    exact ⟨h7.1, h7.2.1, by have := h7.2.2; omega⟩
  unfold Merit.AsGood at hgood
  by_cases hr : 0 < r
  · obtain ⟨y2, hy2, hy2a, hy2b⟩ := h.get (i := p) (j := r - 1) hpB (by omega)
    have hy2x : y2 ∈ xs := (hsh.mem y2).2 ⟨hy2, by omega, by omega, by omega⟩
    have hty2 : y2 ∈ rowOf E.g.rowPtr E.g.colInd t := (h.adj t y2 htk hy2).2 (by omega)
    have hct := two_le_cnt (g := E.g) hy1x hy2x (fun e => by rw [e] at hy1a; omega) hty1 hty2
    obtain ⟨h6, h7, _⟩ := htwo (by omega)
    exact hsh.extend h hpB hck h6 h7
  · have hr0 : r = 0 := by omega
    subst hr0
    have hct := one_le_cnt (g := E.g) hy1x hty1
    have hcc : ¬ 2 ≤ cnt E.g c xs := fun h6 => by have := (htwo h6).2.2; omega
    have hord : m.order ≤ p := by omega
    obtain ⟨ky, m1⟩ := (hsh.mem y0).1 hy0
    have d1 := (h.adj y0 c ky hck).1 (adj_iff_rowOf.1 hy0c)
    have hcase := next_to (k := m.order) (by omega) (by omega) (by omega) (by omega) (by omega) hA hB hcn' m1 d1 hdc (by omega)
    rcases hcase with ⟨h6, h7⟩ | ⟨h6, h7, h8⟩
    · exact hsh.extend h hpB hck h6 (by omega)
    · have h8 : q = p := by omega
      subst h8
      obtain ⟨p', q', r', h9⟩ := hsh.turn.extend h.swap hpB hck h6 (by omega)
      exact ⟨p', q', r', h9.symm⟩

/-- squares are filled one after the other -/
theorem Quad.shapes {E : IsoEnv W F} {d : NMap Nat} {B s hi : Nat} {a b : Nat → Int} (h : Quad E.g d B s a b) (hB : 1 ≤ B)
    (hnb : E.nbh = .extended) (hfc : E.fcIter ≤ 1) {xs : List Nat} {f : F} (hx : GreedySeq E d hi xs f) :
    xs.head? = some s → xs.Nodup → xs.length ≤ B * B →
    ∃ p q r, Shape d B s a b p q r xs ∨ Shape d B s b a p q r xs := by
  induction hx with
  | @seed s' f _ =>
    intro hh _ _
    cases hh
    refine ⟨1, 1, 0, Or.inl ⟨by omega, by omega, by omega, hB, by omega, by omega, rfl, fun x => ?_⟩⟩
    rw [List.mem_singleton]
    constructor
    · rintro rfl
      exact ⟨Or.inl rfl, by rw [h.a0], by rw [h.b0], by rw [h.a0, h.b0]; omega⟩
    · rintro ⟨h1, h2, h3, h4⟩
      exact h.inj x s h1 (Or.inl rfl) (by rw [h.a0]; omega) (by rw [h.b0]; omega)
  | @next xs l f f' c m hg hn hb ih =>
    intro hh hnd hlen
    rw [List.length_append, List.length_singleton] at hlen
    have hnd' : xs.Nodup := (List.nodup_append.1 hnd).1
    rw [show min (hi - xs.length) E.fcIter - 1 = 0 by omega] at hb
    obtain ⟨p, q, r, h1 | h1⟩ := ih (head_of_snoc hh hg.not_nil) hnd' (by omega)
    · exact h.step h1 hnd' (by omega) hnb hn hb
    · obtain ⟨p', q', r', h2⟩ := h.swap.step h1 hnd' (by omega) hnb hn hb
      exact ⟨p', q', r', h2.symm⟩

/-- the block is filled -/
theorem Quad.full {E : IsoEnv W F} {d : NMap Nat} {B s hi : Nat} {a b : Nat → Int} (h : Quad E.g d B s a b) (hB : 1 ≤ B)
    (hnb : E.nbh = .extended) (hfc : E.fcIter ≤ 1) {xs : List Nat} {f : F} (hx : GreedySeq E d hi xs f)
    (hh : xs.head? = some s) (hn : xs.Nodup) (hl : xs.length = B * B) :
    ∀ x, x ∈ xs ↔ Known d s x ∧ 0 ≤ a x ∧ a x < B ∧ 0 ≤ b x ∧ b x < B := by
  have key : ∀ {a b : Nat → Int} {p q r : Nat}, Shape d B s a b p q r xs → p = B ∧ q = B ∧ r = 0 := by
    intro a b p q r hs
    have h1 := hs.hp
    have h2 := hs.pq
    have h4 := hs.qB
    have h5 := hs.rq
    have h6 := hs.len
    have hp : p = B := by
      by_contra hne
      have h7 : (p + 1) * q ≤ B * B := Nat.mul_le_mul (by omega) h4
      rw [Nat.add_mul, Nat.one_mul] at h7
      omega
    have hq : q = B := by omega
    refine ⟨hp, hq, ?_⟩
    rw [hp, hq] at h6
    omega
  obtain ⟨p, q, r, hs | hs⟩ := h.shapes hB hnb hfc hx hh hn (by omega)
  · obtain ⟨rfl, rfl, rfl⟩ := key hs
    intro x
    rw [hs.mem x]
    constructor
    · rintro ⟨e1, e2, e3, e4⟩; exact ⟨e1, by omega⟩
    · rintro ⟨e1, e2⟩; exact ⟨e1, by omega⟩
  · obtain ⟨rfl, rfl, rfl⟩ := key hs
    intro x
    rw [hs.mem x]
    constructor
    · rintro ⟨e1, e2, e3, e4⟩; exact ⟨e1, by omega⟩
    · rintro ⟨e1, e2⟩; exact ⟨e1, by omega⟩

end CoMMA.Tile
