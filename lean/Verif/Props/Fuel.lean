import Verif.Props.AnyInput
/-! # C82: the bound given to the loops of the model plays no part

The loops of the source have no bound.  The model gives them one and fails with `fuel` when it is
used up (C82_ends: never).  Here: once the bound is enough, any larger bound gives the same. -/

set_option linter.unusedSectionVars false

namespace CoMMA

variable {W F : Type} [Num W]

/-- `f` started with a larger bound ends as with the smaller one -/
def FuelFree {α β : Type} (f : Nat → α → M β) : Prop :=
  ∀ n m x, n ≤ m → f n x ≠ .error .fuel → f m x = f n x

theorem FuelFree.of_succ {α β : Type} {f : Nat → α → M β}
    (h : ∀ n x, f n x ≠ .error .fuel → f (n + 1) x = f n x) : FuelFree f := by
  intro n m x hnm hx
  induction m with
  | zero => rw [Nat.le_zero.1 hnm]
  | succ m ih =>
    rcases Nat.lt_or_ge n (m + 1) with hl | hl
    · have := ih (by omega)
      rw [← this]
      exact h m x (by rw [this]; exact hx)
    · rw [show n = m + 1 by omega]

theorem bind_fuel {α β : Type} {m : M α} {f g : α → M β} (h : (m >>= f) ≠ .error .fuel)
    (hf : ∀ a, f a ≠ .error .fuel → g a = f a) : (m >>= g) = (m >>= f) := by
  cases m with
  | ok a => exact hf a h
  | error e => rfl

/-- **C82** Bounds of the six unbounded loops: distances in the neighbourhood search, choice of
the front, growth of a coarse cell, creation of the coarse cells, construction of a line, and
pairing of its cells. -/
theorem C82_bounds :
    (∀ (g : Graph W) (h : Hash) (agg : List Bool) (nbOrder maxCard : Nat),
      FuelFree (fun n s => g.nbhLoop h agg nbOrder maxCard n s)) ∧
    (∀ qs : List (List (Nat × W)), FuelFree (fun n (x : Nat × Nat) => pfSearch qs n x.1 x.2)) ∧
    (∀ (E : IsoEnv W F) (maxInd : Nat), FuelFree (fun n s => growLoop E maxInd n s)) ∧
    (∀ E : IsoEnv W F, FuelFree (fun n (x : Cont × Pool) => isoLoop E n x.1 x.2)) ∧
    (∀ (L : LineEnv W) (primal : Nat), FuelFree (fun n s => lineLoop L primal n s)) ∧
    (∀ (g : Graph W) (L : LineCfg) (line : List Nat), FuelFree (fun n (x : Nat × PairSt) => pairLoop g L line n x.1 x.2)) := by
  refine ⟨fun g h agg nbOrder maxCard => .of_succ ?_, fun qs => .of_succ ?_, fun E maxInd => .of_succ ?_,
    fun E => .of_succ ?_, fun L primal => .of_succ ?_, fun g L line => .of_succ ?_⟩
  · intro n
    induction n with
    | zero =>
      intro s hs
      unfold Graph.nbhLoop at hs ⊢
      split
      · rename_i hc; rw [if_pos hc] at hs; exact absurd rfl hs
      · rfl
    | succ n ih =>
      intro s hs
      rw [Graph.nbhLoop] at hs ⊢
      conv_rhs => rw [Graph.nbhLoop]
      split
      · rename_i hc
        rw [if_pos hc] at hs
        refine bind_fuel hs (fun cur hcur => ?_)
        split
        · rfl
        · rename_i he
          rw [if_neg he] at hcur
          exact ih _ hcur
      · rfl
  · intro n
    induction n with
    | zero =>
      intro s hs
      unfold pfSearch at hs ⊢
      split
      · rename_i hc; rw [if_pos hc] at hs; exact absurd rfl hs
      · rfl
    | succ n ih =>
      intro s hs
      rw [pfSearch] at hs ⊢
      conv_rhs => rw [pfSearch]
      split
      · rename_i hc
        rw [if_pos hc] at hs
        refine bind_fuel hs (fun q hq => ?_)
        split
        · rfl
        · rename_i h1
          rw [if_neg h1] at hq
          refine bind_fuel hq (fun q' hq' => ?_)
          split
          · rfl
          · rename_i h2
            rw [if_neg h2] at hq'
            split
            · rfl
            · rename_i h3
              rw [if_neg h3] at hq'
              exact ih (s.1 + 1, s.2 - 1) hq'
      · rfl
  · intro n
    induction n with
    | zero =>
      intro s hs
      unfold growLoop at hs ⊢
      split
      · rename_i hc; rw [if_pos hc] at hs; exact absurd rfl hs
      · rfl
    | succ n ih =>
      intro s hs
      rw [growLoop] at hs ⊢
      conv_rhs => rw [growLoop]
      split
      · rename_i hc
        rw [if_pos hc] at hs
        exact bind_fuel hs (fun s' hs' => ih s' hs')
      · rfl
  · intro n
    induction n with
    | zero =>
      intro s hs
      unfold isoLoop at hs ⊢
      split
      · rename_i hc; rw [if_pos hc] at hs; exact absurd rfl hs
      · rfl
    | succ n ih =>
      intro s hs
      rw [isoLoop] at hs ⊢
      conv_rhs => rw [isoLoop]
      split
      · rename_i hc
        rw [if_pos hc] at hs
        exact bind_fuel hs (fun s' hs' => ih s' hs')
      · rfl
  · intro n
    induction n with
    | zero =>
      intro s hs
      unfold lineLoop at hs ⊢
      split
      · rfl
      · rename_i hc; rw [if_neg hc] at hs; exact absurd rfl hs
    | succ n ih =>
      intro s hs
      rw [lineLoop] at hs ⊢
      conv_rhs => rw [lineLoop]
      split
      · rfl
      · rename_i hc
        rw [if_neg hc] at hs
        exact bind_fuel hs (fun s' hs' => ih s' hs')
  · intro n
    induction n with
    | zero =>
      intro s hs
      unfold pairLoop at hs ⊢
      split
      · rfl
      · split
        · rfl
        · rename_i h1 h2; rw [if_neg h1, if_neg h2] at hs; exact absurd rfl hs
    | succ n ih =>
      intro s hs
      rw [pairLoop] at hs ⊢
      conv_rhs => rw [pairLoop]
      split
      · rfl
      · rename_i h1
        rw [if_neg h1] at hs
        split
        · rfl
        · rename_i h2
          rw [if_neg h2] at hs
          refine bind_fuel hs (fun grp hg => bind_fuel hg (fun s' hs' => ?_))
          dsimp only at hs' ⊢
          by_cases h3 : (if L.third (line.length - s.1) (s.2.nCells + 2) = true then s.1 + 3 else s.1 + 2) ≤ line.length
          · rw [if_pos h3] at hs' ⊢
            rw [if_pos h3]
            exact ih (_, s') hs'
          · rw [if_neg h3, if_neg h3]

/-! ## Concrete cases -/

/-- a mesh with neighbours out of range -/
def exBroken : Args Int :=
  { exArgs with
    colInd := exArgs.colInd.map (fun j => if j = 3 then 9 else j) }

example : (agglomerateOneLevel exPlatform exBroken ⟨[], [], []⟩).2 = .error .ub := by decide +kernel
/-- with self references and faces without a reverse face the call may still return -/
example : agglomerateOneLevel exPlatform { exArgs with colInd := exArgs.colInd.map (fun j => if j = 3 then 0 else j) }
    ⟨[], [], []⟩ = (⟨[0, 0, 1, 0, 0, 1, 1], [], []⟩, .ok ()) := by decide +kernel
example : (agglomerateOneLevel exPlatform exBroken ⟨[], [], []⟩).2 ≠ .error .fuel := C82_ends _ _ _
example : ¬ ((agglomerateOneLevel exPlatform exBroken ⟨[], [], []⟩).2 = .error .invalidArgument) := by
  rw [C23_exactly (by decide)]
  unfold BadArgs
  decide

/-- with too small a bound the loop reports it -/
example : growLoop (isoEnvOf exPlatform exArgs ⟨.boundary, false, exArgs.prio, exArgs.nBnd, 100⟩) 3 0
    ⟨1, NSet.single 0, Feats.default, NMap.empty, 100, 0, 2, 2, Nbh.new .extended 2 (NSet.single 1), NMap.empty, NMap.empty, 0⟩
    matches .error .fuel := by decide +kernel

end CoMMA
