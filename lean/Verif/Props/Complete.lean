import Verif.Spec.Complete
import Verif.Lemmas.Unique
import Verif.Props.Growth
/-! # C64: the result of an isotropic call is determined by its description -/

set_option linter.unusedSectionVars false

namespace CoMMA

variable {W F : Type} [Num W]

theorem CallEnv.unique {P : Platform} {a : Args W} {E E' : IsoEnv W (Feats W)} (h : CallEnv P a E) (h' : CallEnv P a E') :
    E = E' := by
  obtain ⟨⟨g1, g2, g3, g4, g5, g6, g7, g8, g9⟩, hh, ⟨q1, q2, q3, q4, q5⟩, ar, nb, it, gc, mi, ma, im⟩ := E
  obtain ⟨⟨g1', g2', g3', g4', g5', g6', g7', g8', g9'⟩, hh', ⟨q1', q2', q3', q4', q5'⟩, ar', nb', it', gc', mi', ma', im'⟩ := E'
  obtain ⟨a1, a2, a3, a4, a5, a6, a7, a8, a9, a10, a11, a12, a13, a14, a15, a16, a17, a18, a19, a20, a21, a22⟩ := h
  obtain ⟨b1, b2, b3, b4, b5, b6, b7, b8, b9, b10, b11, b12, b13, b14, b15, b16, b17, b18, b19, b20, b21, b22⟩ := h'
  simp only at *
  have e8 : g8 = g8' := by omega
  have e9 : g9 = g9' := NSet.ext (fun i => (a20 i).trans (b20 i).symm)
  have k1 : q1 = q1' := by
    cases q1 <;> cases q1' <;> simp_all
  have k2 : q2 = q2' := by
    cases q2 <;> cases q2' <;> simp_all
  have e12 : it = it' := by omega
  have e13 : gc = gc' := by omega
  have e14 : mi = mi' := by omega
  have e15 : ma = ma' := by omega
  subst e8 e9 k1 k2 e12 e13 e14 e15
  simp_all

theorem numbers_run {n : Nat} {cs : List (Nat × NSet)} {f : List Nat} (hl : f.length = n)
    (h : ∀ i k : Nat, f[i]? = some k ↔ ∃ c, cs[k]? = some c ∧ i ∈ c.2) : Numbers n (cs.map Prod.snd) f := by
  refine ⟨hl, fun i k => ?_⟩
  rw [h, List.getElem?_map]
  constructor
  · rintro ⟨c, hc, hi⟩
    exact ⟨c.2, by rw [hc]; rfl, hi⟩
  · rintro ⟨s, hs, hi⟩
    obtain ⟨c, hc, rfl⟩ := Option.map_eq_some_iff.1 hs
    exact ⟨c, hc, hi⟩

theorem Numbers.unique {n : Nat} {cs : List NSet} {f f' : List Nat} (h : Numbers n cs f) (h' : Numbers n cs f') :
    f = f' := by
  apply List.ext_getElem?
  intro i
  apply Option.ext
  intro k
  rw [h.2, h'.2]

theorem IsotropicMap.unique (hW : LawfulLt W) {E : IsoEnv W F} {Grown : NMap Nat → Nat → List Nat → Prop}
    (hG : Determined Grown) {n : Nat} {f f' : List Nat} (h : IsotropicMap E Grown n f) (h' : IsotropicMap E Grown n f') :
    f = f' := by
  obtain ⟨p0, cs, agg, p, a1, a2, a3, a4⟩ := h
  obtain ⟨p0', cs', agg', p', b1, b2, b3, b4⟩ := h'
  obtain rfl := C61_start_unique hW a1 b1
  have : cs = cs' := a2.complete_unique hW hG b2 (by rw [a3]; exact fun b hb => (List.mem_replicate.1 hb).2)
    (by rw [b3]; exact fun b hb => (List.mem_replicate.1 hb).2)
  subst this
  exact a4.unique b4

/-- **C64** The description determines the result. -/
theorem C64_unique (hW : LawfulLt W) {P : Platform} {a : Args W} (hk : a.aspect ≠ .unknown) {n : Nat} {f f' : List Nat}
    (h : IsotropicResult P a n f) (h' : IsotropicResult P a n f') : f = f' := by
  obtain ⟨E, hE, h⟩ := h
  obtain ⟨E', hE', h'⟩ := h'
  obtain rfl := hE.unique hE'
  exact h.unique hW (determined_shaped hW E hk) h'

/-- **C64** The same for the description with the aspect ratio updated cell after cell. -/
theorem C64_greedy_unique (hW : LawfulLt W) {P : Platform} {a : Args W} {n : Nat} {f f' : List Nat}
    (h : GreedyResult P a n f) (h' : GreedyResult P a n f') : f = f' := by
  obtain ⟨E, hE, h⟩ := h
  obtain ⟨E', hE', h'⟩ := h'
  obtain rfl := hE.unique hE'
  exact h.unique hW (determined_greedy hW E) h'

/-- **C64** An isotropic call without correction returns the map that fulfils the description:
with the aspect ratios updated by the code, for any number type with an order. -/
theorem C64_greedy {P : Platform} {a : Args W} {o : Outs} {n : Nat} (hm : ValidMesh a n) (hp : ValidParams P a)
    (hW : LawfulLt W) (hu : UniqueRows a.rowPtr a.colInd) (hl : NoSelfLoop a.rowPtr a.colInd)
    (hcor : a.correction = false) (hoff : WithoutLines a o) (f : List Nat) :
    agglomerateOneLevel P a o = (⟨f, o.linesIdx, o.lines⟩, .ok ()) ↔ GreedyResult P a n f := by
  obtain ⟨f0, hf, hlen⟩ := C01_total (o := o) hm hp (fun h => by rw [hcor] at h; cases h) hoff
  obtain ⟨E, p0, cs, agg, p, h1, h2, h3, h4, h5⟩ := C42_run (o := o) hm hp hW hu hl hcor hoff
  rw [hf] at h5
  have hr : GreedyResult P a n f0 := ⟨E, h1, p0, cs, agg, p, h2, h3, h4, numbers_run hlen h5⟩
  constructor
  · intro h
    rw [hf] at h
    cases h
    exact hr
  · intro h
    rw [hf, C64_greedy_unique hW hr h]

theorem IsoTrace.mono {E : IsoEnv W F} {G G' : NMap Nat → Nat → List Nat → Prop} {agg0 : List Bool} {p0 : Pool}
    {cs : List (Nat × NSet)} {agg : List Bool} {p : Pool} (h : IsoTrace E G agg0 p0 cs agg p) (hmin : 1 ≤ E.minCard)
    {n : Nat} (hn : agg.length ≤ n)
    (hG : ∀ d hi xs seed, xs.head? = some seed → seed < n → G d hi xs → G' d hi xs) :
    IsoTrace E G' agg0 p0 cs agg p := by
  induction h with
  | start => exact .start
  | @turn cs agg agg2 p p1 p2 seed order s h1 h2 h3 h4 h5 ih =>
    have hle : agg.length ≤ agg2.length := by
      by_contra hlt
      have h6 := h5 agg2.length
      rw [List.getElem?_eq_none (Nat.le_refl _)] at h6
      by_cases hs : agg2.length ∈ s
      · rw [if_pos hs] at h6; cases h6
      · rw [if_neg hs] at h6
        have := List.getElem?_eq_none_iff.1 h6.symm
        omega
    have hs : seed < n := by
      have := (List.getElem?_eq_some_iff.1 h2.free).1
      omega
    exact .turn (ih (by omega)) h2 (h3.mono hmin (fun d hi xs hh _ hg => hG d hi xs seed hh hs hg)) h4 h5

/-- **C64** An isotropic call without correction returns the map that fulfils the description:
with the aspect ratios of the enlarged coarse cells, in exact arithmetic. -/
theorem C64_call {P : Platform} {a : Args W} {o : Outs} {n : Nat} (hm : ValidMesh a n) (hp : ValidParams P a)
    (hW : LawfulLt W) (hu : UniqueRows a.rowPtr a.colInd) (hl : NoSelfLoop a.rowPtr a.colInd)
    (hF : FeatInput (graphOf a) a.aspect)
    (hcor : a.correction = false) (hoff : WithoutLines a o) (f : List Nat) :
    agglomerateOneLevel P a o = (⟨f, o.linesIdx, o.lines⟩, .ok ()) ↔ IsotropicResult P a n f := by
  obtain ⟨f0, hf, hlen⟩ := C01_total (o := o) hm hp (fun h => by rw [hcor] at h; cases h) hoff
  obtain ⟨c, p0, cs, agg, p, hc, h2, h3, h4, h5⟩ := run_trace (o := o) hm hp hW hu hl hcor hoff
  rw [hf] at h5
  have hE := isoInput hm hp hc
  have hn : (isoEnvOf P a c).g.nbC = n := graphOf_nbC hm
  have hr : IsotropicResult P a n f0 := by
    refine ⟨isoEnvOf P a c, callEnv hp hc, p0, cs, agg, p, poolStarted hW hE.pool hE.prio h2, ?_, h4, numbers_run hlen h5⟩
    refine h3.mono (by have := hE.minCard; omega) (n := n) (by rw [h4]; simp) ?_
    rintro d hi xs seed hh hs ⟨ft, hg⟩
    exact (greedy_shaped (E := isoEnvOf P a c) (kind := a.aspect) hF hp.aspect rfl hg hh (by rw [hn]; exact hs)).1
  constructor
  · intro h
    rw [hf] at h
    cases h
    exact hr
  · intro h
    rw [hf, C64_unique hW hp.aspect hr h]

/-! ### Concrete cases -/

/-- the description is fulfilled by the result on a row of three cells, and by no other map -/
example : IsotropicResult exPlatform exRow 3 [0, 0, 0] ∧ GreedyResult exPlatform exRow 3 [0, 0, 0] ∧
    ¬ IsotropicResult exPlatform exRow 3 [0, 0, 1] := by
  have h : agglomerateOneLevel exPlatform exRow ⟨[], [], []⟩ = (⟨[0, 0, 0], [], []⟩, .ok ()) := by
    obtain ⟨f, h, _⟩ := C01_total (o := ⟨[], [], []⟩) exRow_valid exRow_params (fun h => by cases h) (Or.inl rfl)
    have := C41_counterexample.1
    rw [h] at this ⊢
    rw [show f = [0, 0, 0] from this]
  have h1 := (C64_call (o := ⟨[], [], []⟩) exRow_valid exRow_params exLawful exRow_uniq exRow_loop exRow_input rfl (Or.inl rfl) _).1 h
  refine ⟨h1, (C64_greedy (o := ⟨[], [], []⟩) exRow_valid exRow_params exLawful exRow_uniq exRow_loop rfl (Or.inl rfl) _).1 h, ?_⟩
  intro h2
  have := C64_unique exLawful (by decide) h1 h2
  cases this

end CoMMA
