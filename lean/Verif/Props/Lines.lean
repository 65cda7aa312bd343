import Verif.Lemmas.Export
import Verif.Lemmas.AnisoPool
import Verif.Lemmas.BuildLines
import Verif.Lemmas.WeightRange
import Verif.Lemmas.ExampleTools
import Verif.Spec.Examples
/-! # C19-C22, C34: anisotropic lines -/

set_option linter.unusedSectionVars false

namespace CoMMA

variable {W : Type} [Num W]

/-- **C34** The tagged cells are the compliant cells that are anisotropic for the threshold,
listed once, by decreasing priority and then increasing index, whatever the iteration order
of the set of compliant cells.  If layers of quadrilaterals are to be preserved (`layers` is
2) and the threshold is not negative, only cells with the faces of a quadrilateral are
tagged.  (The library always takes 0.) -/
theorem C34_tagging (hW : LawfulLt W) {g : Graph W} (hh : Hash) {prio : List W} {coupling : Coupling} {thr : W}
    (layers : Nat) (hI : LinesInput g prio coupling thr) {maxW : List W} (hmw : maxW.length = g.nbC) :
    ∃ alt maxW' flags l, g.tagCells hh prio coupling layers thr maxW (List.replicate g.nbC false) = .ok (alt, maxW', flags, l) ∧
      (∀ i, i ∈ l ↔ i ∈ g.compliant ∧ IsAnisotropic g thr i ∧
        (layers = 2 → Num.lt thr (Num.ofNat 0) = true ∨ QuadLike g i)) ∧
      l.Nodup ∧ PriorityOrdered prio l ∧
      flags.length = g.nbC ∧ ∀ i : Nat, flags[i]? = some true ↔ i ∈ l := by
  obtain ⟨⟨alt, maxW', flags, l⟩, heq, h1, h2, h3, h4, h5⟩ := (tagCells_okL hh layers hI hmw).eq
  simp only at h1 h2 h3 h4 h5
  have hmem : ∀ i, i ∈ l ↔ i ∈ g.compliant ∧ IsAnisotropic g thr i ∧
        (layers = 2 → Num.lt thr (Num.ofNat 0) = true ∨ QuadLike g i) := by
    intro i
    rw [h5, mem_firsts_psetOf, List.mem_filter, (hh.perm 6 _).mem_iff, NSet.mem_elems]
    constructor
    · rintro ⟨a, b⟩
      exact ⟨a, (isTaggedL_iff hW hI.crs hI.sizes (hI.compliant i a)).1 b⟩
    · rintro ⟨a, b⟩
      exact ⟨a, (isTaggedL_iff hW hI.crs hI.sizes (hI.compliant i a)).2 b⟩
  refine ⟨alt, maxW', flags, l, heq, hmem, ?_, ?_, h3, h4⟩
  · rw [h5]; exact firsts_psetOf_nodup hW
  · have hlt : ∀ i ∈ l, i < prio.length := fun i hi => by rw [hI.prio]; exact hI.compliant i ((hmem i).1 hi).1
    rw [h5] at hlt ⊢
    refine (firsts_psetOf_sorted hW).imp_of_mem (fun {a b} ha hb hab => ?_)
    have ha' := hlt a ha
    have hb' := hlt b hb
    exact ⟨prioAt prio a, prioAt prio b, by simp [prioAt, ha'], by simp [prioAt, hb'], hab⟩

/-- **C19** The construction of the lines ends; the lines have at least two cells and share
no cell, consecutive cells are neighbours, and all cells are compliant and anisotropic. -/
theorem C19_lines (hW : LawfulLt W) {g : Graph W} (hh : Hash) {prio : List W} {coupling : Coupling} {thr : W}
    (hI : LinesInput g prio coupling thr) (hsym : SymmetricCRS g.rowPtr g.colInd) (force : Bool) :
    ∃ ls, buildLines g hh prio coupling force thr = .ok ls ∧ ls.flatten.Nodup ∧ (∀ l ∈ ls, 2 ≤ l.length) ∧
      (∀ l ∈ ls, IsPath g.rowPtr g.colInd l) ∧
      ∀ l ∈ ls, ∀ x ∈ l, x ∈ g.compliant ∧ IsAnisotropic g thr x := by
  obtain ⟨ls, heq, h1, h2, h3, h4⟩ := (buildLines_ok hh hI hsym force).eq
  refine ⟨ls, heq, h1, h2, h3, ?_⟩
  intro l hl x hx
  obtain ⟨a, b⟩ := h4 x (List.mem_flatten.2 ⟨l, hl, hx⟩)
  exact ⟨a, (isTagged_iff hW hI.crs hI.sizes.values (hI.compliant x a)).1 b⟩

/-- what is needed to agglomerate lines: a mesh, a pool, and disjoint lines of at least two
free cells -/
structure LinesReady (g : Graph W) (c : PoolCfg W) (lines : List (List Nat)) : Prop where
  crs : ValidCRS g.nbC g.rowPtr g.colInd
  pool : PoolInput c g.nbC
  prio : PrioritiesOk c
  bnd : g.nBnd = c.nBnd
  two : ∀ l ∈ lines, 2 ≤ l.length
  disjoint : lines.flatten.Nodup
  range : ∀ x ∈ lines.flatten, x < g.nbC

theorem LinesReady.done {g : Graph W} {c : PoolCfg W} {lines : List (List Nat)} (h : LinesReady g c lines) {L : LineCfg}
    (hno : ∀ l ∈ lines, NoOverrun L l.length) (t : Nat) :
    ∃ k p cls gss, agglomLines g c L lines (Cont.new g.nbC t) Pool.new = .ok (k, p, cls) ∧
      AnisoDone g c L lines (Cont.new g.nbC t) (k, p, cls) gss := by
  obtain ⟨⟨k, p, cls⟩, heq, gss, hd⟩ := (agglomLines_ok h.crs h.pool h.prio h.bnd (L := L) (CInv_new g.nbC t) h.two hno
    h.disjoint (by
      intro x hx
      have := h.range x hx
      simp [Cont.new, this])).eq
  exact ⟨k, p, cls, gss, heq, hd⟩

/-- **C20** (for lines on which the loop does not run past the end, see C21) Line by line,
read from the end with more boundary faces (then larger priority, then smaller index), a
prefix is cut in consecutive pairs, the last group possibly of three cells; the coarse line
lists the coarse cells made of these groups, in order; all other cells stay free. -/
theorem C20_pairs {g : Graph W} {c : PoolCfg W} {lines : List (List Nat)} (h : LinesReady g c lines) {odd : Bool}
    {limit : Option Int} (hno : ∀ l ∈ lines, ∀ m, limit = some m → ¬ (m % 2 = 1 ∧ 3 ≤ m ∧ (l.length : Int) + 1 = m))
    (t : Nat) :
    ∃ k p cls gss, agglomLines g c ⟨odd, limit⟩ lines (Cont.new g.nbC t) Pool.new = .ok (k, p, cls) ∧
      List.Forall₂ (fun line groups => ∃ l, Oriented g.nBnd c.prio line l ∧ Pairing odd limit l groups) lines gss ∧
      List.Forall₂ (List.Forall₂ (Denotes k.fc2cc)) gss cls ∧
      (∀ i : Nat, i < g.nbC → i ∉ gss.flatten.flatten → k.fc2cc[i]? = some none) ∧
      cls.flatten = List.range gss.flatten.length := by
  obtain ⟨k, p, cls, gss, heq, hd⟩ := h.done (L := ⟨odd, limit⟩) hno t
  refine ⟨k, p, cls, gss, heq, hd.cut.imp (fun _ _ hc => hc.paired),
    hd.listed.imp (fun _ _ hl => Listed.denotes hd.made.cinv hl), ?_, ?_⟩
  · intro i hi hn
    have := hd.made.fc i hn
    simp only at this
    rw [this]
    simp [Cont.new, hi]
  · have := hd.all
    simp only at this
    rw [this, List.range_eq_range']
    rfl

/-- **C21** (partial) If the limit is not odd with a line one cell shorter, the loop stays
in the line; if moreover odd lengths are not allowed or no line is one cell longer than the
limit, at most `limit` cells of each line are taken. -/
theorem C21_limit_partial {g : Graph W} {c : PoolCfg W} {lines : List (List Nat)} (h : LinesReady g c lines) {odd : Bool}
    {m : Int} (hm : 0 ≤ m) (hno : ∀ l ∈ lines, ¬ (m % 2 = 1 ∧ 3 ≤ m ∧ (l.length : Int) + 1 = m))
    (hex : ∀ l ∈ lines, ¬ (odd = true ∧ (l.length : Int) = m + 1)) (t : Nat) :
    ∃ k p cls gss, agglomLines g c ⟨odd, some m⟩ lines (Cont.new g.nbC t) Pool.new = .ok (k, p, cls) ∧
      List.Forall₂ (fun line groups => ∃ l, Oriented g.nBnd c.prio line l ∧ Pairing odd (some m) l groups ∧
        (groups.flatten.length : Int) ≤ m) lines gss ∧
      List.Forall₂ (List.Forall₂ (Denotes k.fc2cc)) gss cls ∧
      ∀ i : Nat, i < g.nbC → i ∉ gss.flatten.flatten → k.fc2cc[i]? = some none := by
  obtain ⟨k, p, cls, gss, heq, hd⟩ := h.done (L := ⟨odd, some m⟩) (by
    intro l hl M hM
    cases hM
    exact hno l hl) t
  refine ⟨k, p, cls, gss, heq, ?_, hd.listed.imp (fun _ _ hl => Listed.denotes hd.made.cinv hl), ?_⟩
  · have hcut := hd.cut
    have : ∀ {lines : List (List Nat)} {gss : List (List (List Nat))},
        (∀ l ∈ lines, ¬ (odd = true ∧ (l.length : Int) = m + 1)) →
        List.Forall₂ (CutLine g c.prio ⟨odd, some m⟩) lines gss →
        List.Forall₂ (fun line groups => ∃ l, Oriented g.nBnd c.prio line l ∧ Pairing odd (some m) l groups ∧
        (groups.flatten.length : Int) ≤ m) lines gss := by
      intro lines gss hex hc
      induction hc with
      | nil => exact .nil
      | @cons line groups _ _ hc _ ih =>
        refine .cons ?_ (ih (fun l hl => hex l (by simp [hl])))
        obtain ⟨fwd, h1, h2⟩ := hc
        refine ⟨_, isForward_oriented h1, h2.pairing, ?_⟩
        have hlen : (if fwd then line else line.reverse).length = line.length := by split <;> simp
        rcases h2.bound m rfl with h3 | h3 | ⟨_, h4, h5⟩
        · rw [h3]; simpa using hm
        · simpa using h3
        · rw [hlen] at h5
          exact absurd ⟨h4, h5⟩ (hex line (by simp))
    exact this hex hcut
  · intro i hi hn
    have := hd.made.fc i hn
    simp only at this
    rw [this]
    simp [Cont.new, hi]

/-- **C22** A non-empty list of lines is exported as offsets and data: the offsets start at
0, end at the size of the data, and the slice between offsets `k` and `k+1` is line `k`;
reading the result back gives the lines with at least two cells.  No line is exported as
two empty vectors. -/
theorem C22_export (ls : List (List Nat)) :
    (ls = [] → exportLines ls = ([], [])) ∧
    (ls ≠ [] → ∃ idx data, exportLines ls = (idx, data) ∧ Encodes idx data ls ∧
      idx.length = ls.length + 1 ∧ idx[0]? = some 0 ∧ idx.getLast? = some data.length ∧
      (∀ (k : Nat) l, ls[k]? = some l → ∃ b e, idx[k]? = some b ∧ idx[k + 1]? = some e ∧ b ≤ e ∧
        (data.drop b).take (e - b) = l) ∧
      givenLines idx data = .ok (ls.filter (fun l => decide (1 < l.length)))) := by
  refine ⟨fun h => by rw [h]; rfl, fun h => ?_⟩
  refine ⟨offsets 0 ls, ls.flatten, exportLines_eq h, ⟨rfl, rfl⟩, offsets_length 0 ls, ?_, ?_, ?_, ?_⟩
  · rw [offsets_getElem ls 0 0 (Nat.zero_le _)]; simp
  · rw [List.getLast?_eq_getElem?, offsets_length, Nat.add_sub_cancel, offsets_getElem ls 0 _ (Nat.le_refl _)]
    simp
  · intro k l hk
    have hlt := (List.getElem?_eq_some_iff.1 hk).1
    refine ⟨_, _, offsets_getElem ls 0 k (by omega), offsets_getElem ls 0 (k + 1) (by omega), ?_, ?_⟩
    · rw [List.take_add_one, hk]
      simp
    · have h1 : ls = ls.take k ++ l :: ls.drop (k + 1) := by
        conv_lhs => rw [← List.take_append_drop k ls]
        rw [List.drop_eq_getElem_cons hlt, (List.getElem?_eq_some_iff.1 hk).2]
      have h2 : (ls.take (k + 1)).flatten.length = (ls.take k).flatten.length + l.length := by
        rw [List.take_add_one, hk]; simp
      have h3 : ls.flatten = (ls.take k).flatten ++ (l ++ (ls.drop (k + 1)).flatten) := by
        conv_lhs => rw [h1]
        simp
      rw [h2, h3, Nat.zero_add, Nat.zero_add, List.drop_left, Nat.add_sub_cancel_left, List.take_left]
  · have := givenLines_export h
    rwa [exportLines_eq h] at this

/-! ## A concrete case: two columns of three cells, strongly coupled vertically -/

/-- columns `0 1 2` and `3 4 5` -/
def exCols : Graph Int where
  nbC := 6
  rowPtr := [0, 2, 5, 7, 9, 12, 14]
  colInd := [1, 3, 0, 2, 4, 1, 5, 4, 0, 3, 5, 1, 4, 2]
  values := [10, 1, 10, 10, 1, 10, 1, 10, 1, 10, 10, 1, 10, 1]
  volumes := [1, 1, 1, 1, 1, 1]
  centers := [[0, 0], [0, 1], [0, 2], [5, 0], [5, 1], [5, 2]]
  nBnd := [2, 1, 2, 2, 1, 2]
  dim := 2
  compliant := NSet.ofList [0, 1, 2, 3, 4, 5]

def exColsPrio : List Int := [6, 5, 4, 3, 2, 1]

def exColsPool : PoolCfg Int := ⟨.boundary, false, exColsPrio, exCols.nBnd, 1000⟩

theorem exCols_crs : ValidCRS exCols.nbC exCols.rowPtr exCols.colInd := checkCRS_sound (by decide)

theorem exCols_sizes : MeshSizes exCols := ⟨rfl, rfl, rfl, rfl, ⟨2, by decide⟩⟩

theorem exCols_input : LinesInput exCols exColsPrio .maxWeight 4 where
  crs := exCols_crs
  sizes := exCols_sizes
  prio := rfl
  known := by decide
  compliant := by
    intro i hi
    have : i ∈ [0, 1, 2, 3, 4, 5] := NSet.mem_ofList.1 hi
    simp at this
    show i < 6
    omega
  isolated h := by cases h

/-- all six cells are tagged, by decreasing priority -/
example : (exCols.tagCells Hash.rev exColsPrio .maxWeight 0 4 (List.replicate 6 0) (List.replicate 6 false)).map
    (fun r => r.2.2.2) = .ok [0, 1, 2, 3, 4, 5] := by decide +kernel
example := C34_tagging exLawful Hash.rev 2 exCols_input (maxW := List.replicate 6 0) rfl

/-- the two columns are the lines -/
example : buildLines exCols Hash.rev exColsPrio .maxWeight true 4 = .ok [[0, 1, 2], [3, 4, 5]] := by
  decide +kernel
example := C19_lines exLawful Hash.rev exCols_input (checkSym_sound exCols_crs (by decide)) true

theorem exCols_ready : LinesReady exCols exColsPool [[0, 1, 2], [3, 4, 5]] where
  crs := exCols_crs
  pool := ⟨by decide, rfl, rfl, by decide⟩
  prio := by intro h; cases h
  bnd := rfl
  two := by decide
  disjoint := by decide
  range := by decide

/-- with odd lengths: one coarse cell of three cells per line -/
example : (agglomLines exCols exColsPool ⟨true, none⟩ [[0, 1, 2], [3, 4, 5]] (Cont.new 6 1) Pool.new).map
    (fun r => (r.1.fc2cc, r.2.2)) = .ok ([some 0, some 0, some 0, some 1, some 1, some 1], [[0], [1]]) := by
  decide +kernel
/-- without: the third cell of each line is left over -/
example : (agglomLines exCols exColsPool ⟨false, none⟩ [[0, 1, 2], [3, 4, 5]] (Cont.new 6 1) Pool.new).map
    (fun r => (r.1.fc2cc, r.2.2)) = .ok ([some 0, some 0, none, some 1, some 1, none], [[0], [1]]) := by
  decide +kernel
example := C20_pairs exCols_ready (odd := true) (limit := none) (by intro l _ m h; cases h) 1

/-- a limit of three cells, odd lengths allowed: met exactly -/
example := C21_limit_partial exCols_ready (odd := true) (m := 3) (by decide) (by decide) (by decide) 1

/-- **C21** fails in general: with a limit of two cells and odd lengths allowed, three cells
of each line are taken -/
theorem C21_counterexample_limit :
    (agglomLines exCols exColsPool ⟨true, some 2⟩ [[0, 1, 2], [3, 4, 5]] (Cont.new 6 1) Pool.new).map
      (fun r => r.1.fc2cc) = .ok [some 0, some 0, some 0, some 1, some 1, some 1] := by decide +kernel

/-- **C21** fails in general: with a limit of three cells, a line of two cells makes the
iterator run past the end of the line -/
theorem C21_counterexample_overrun (odd : Bool) :
    (agglomLines exCols exColsPool ⟨odd, some 3⟩ [[0, 1]] (Cont.new 6 1) Pool.new).map
      (fun r => r.1.fc2cc) = .error .ub := by
  cases odd <;> decide +kernel

/-- offsets and data of three lines, one of them empty -/
example : exportLines [[4, 5], [], [6, 7, 8]] = ([0, 2, 2, 5], [4, 5, 6, 7, 8]) := by decide

end CoMMA
