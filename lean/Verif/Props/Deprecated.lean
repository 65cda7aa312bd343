import Verif.Lemmas.Deprecated
import Mathlib.Data.List.Induction
/-! # Deprecated containers (C37) -/

namespace CoMMA

/-! ## Queue -/

theorem Queue.calls_snoc {T : Type} (m1 : T) (l : List (QueueCall T)) (c : QueueCall T) :
    Queue.calls m1 (l ++ [c]) = Queue.call m1 (Queue.calls m1 l) c := by
  simp [Queue.calls]

/-- **C37** (Queue) After any history of pushes and pops, the values returned by the pops on a
queue that was not empty, followed by the values still to come, are the values pushed, in the
same order.  The next pop and `top` give the first value still to come, and -1 if there is none;
`empty` tells whether there is none. -/
theorem C37_queue {T : Type} (minusOne : T) (l : List (QueueCall T)) :
    ∃ rest, pushed l = returned (Queue.calls minusOne l).1 ++ rest ∧
      (Queue.calls minusOne l).2.top minusOne = rest.headD minusOne ∧
      ((Queue.calls minusOne l).2.pop minusOne).1 = rest.headD minusOne ∧
      ((Queue.calls minusOne l).2.empty = true ↔ rest = []) := by
  have key : pushed l = returned (Queue.calls minusOne l).1 ++ (Queue.calls minusOne l).2.elems := by
    induction l using List.reverseRecOn with
    | nil => rfl
    | append_singleton l c ih =>
      rw [Queue.calls_snoc]
      have hp : pushed (l ++ [c]) = pushed l ++ pushed [c] := by simp [pushed]
      rw [hp, ih]
      generalize Queue.calls minusOne l = s
      obtain ⟨out, ⟨els⟩⟩ := s
      cases c with
      | push x => simp [Queue.call, Queue.push, pushed]
      | pop =>
        cases els with
        | nil => simp [Queue.call, Queue.pop, Queue.empty, pushed, returned]
        | cons x t => simp [Queue.call, Queue.pop, Queue.empty, pushed, returned]
  refine ⟨(Queue.calls minusOne l).2.elems, key, ?_, ?_, ?_⟩
  · unfold Queue.top; cases (Queue.calls minusOne l).2.elems <;> rfl
  · unfold Queue.pop; cases (Queue.calls minusOne l).2.elems <;> rfl
  · unfold Queue.empty; simp

example : returned (Queue.calls (-1 : Int) [.push 3, .pop, .pop, .push 4, .push 5, .pop]).1 = [3, 4] := by
  decide

/-! ## Priority_Pair -/

/-- **C37** (Priority_Pair) If the elements are ordered, so are the pairs: a strict total order,
larger first elements before smaller ones, then smaller second elements before larger ones; and
`==` holds exactly when neither of two pairs comes before the other. -/
theorem C37_priority_pair {A B : Type} [DecidableEq A] [DecidableEq B] {ltA : A → A → Bool}
    {ltB : B → B → Bool} (hA : StrictTotal ltA) (hB : StrictTotal ltB) :
    StrictTotal (ppLt ltA ltB) ∧
    (∀ x y : A × B, ppLt ltA ltB x y = true ↔ ltA y.1 x.1 = true ∨ (x.1 = y.1 ∧ ltB x.2 y.2 = true)) ∧
    (∀ x y : A × B, ppEq x y = true ↔ ppLt ltA ltB x y = false ∧ ppLt ltA ltB y x = false) := by
  have asymA : ∀ a b, ltA a b = true → ltA b a = true → False := by
    intro a b h1 h2
    have := hA.trans a b a h1 h2
    rw [hA.irrefl] at this; cases this
  have char : ∀ x y : A × B,
      ppLt ltA ltB x y = true ↔ ltA y.1 x.1 = true ∨ (x.1 = y.1 ∧ ltB x.2 y.2 = true) := by
    intro x y
    unfold ppLt
    by_cases h1 : ltA y.1 x.1 = true
    · simp [h1]
    · rw [if_neg h1]
      by_cases h2 : ltA x.1 y.1 = true
      · rw [if_pos h2]
        constructor
        · intro h; cases h
        · rintro (h | ⟨h, _⟩)
          · exact absurd h h1
          · rw [h, hA.irrefl] at h2; cases h2
      · rw [if_neg h2]
        have e : x.1 = y.1 := by
          rcases hA.total x.1 y.1 with h | h | h
          · exact absurd h h2
          · exact h
          · exact absurd h h1
        constructor
        · intro h; exact .inr ⟨e, h⟩
        · rintro (h | ⟨_, h⟩)
          · exact absurd h h1
          · exact h
  have tot : ∀ x y : A × B, ppLt ltA ltB x y = true ∨ x = y ∨ ppLt ltA ltB y x = true := by
    intro x y
    simp only [char]
    rcases hA.total x.1 y.1 with h | h | h
    · exact .inr (.inr (.inl h))
    · rcases hB.total x.2 y.2 with h' | h' | h'
      · exact .inl (.inr ⟨h, h'⟩)
      · exact .inr (.inl (Prod.ext h h'))
      · exact .inr (.inr (.inr ⟨h.symm, h'⟩))
    · exact .inl (.inl h)
  have irr : ∀ x : A × B, ppLt ltA ltB x x = false := by
    intro x
    unfold ppLt; simp [hA.irrefl, hB.irrefl]
  refine ⟨⟨irr, ?_, tot⟩, char, ?_⟩
  · intro x y z h1 h2
    rw [char] at h1 h2 ⊢
    rcases h1 with h1 | ⟨e1, h1⟩ <;> rcases h2 with h2 | ⟨e2, h2⟩
    · exact .inl (hA.trans _ _ _ h2 h1)
    · left; rw [← e2]; exact h1
    · left; rw [e1]; exact h2
    · exact .inr ⟨e1.trans e2, hB.trans _ _ _ h1 h2⟩
  · intro x y
    constructor
    · intro h
      have : x = y := by
        unfold ppEq at h
        simp only [Bool.and_eq_true, decide_eq_true_eq] at h
        exact Prod.ext h.1 h.2
      subst this
      exact ⟨irr x, irr x⟩
    · rintro ⟨h1, h2⟩
      rcases tot x y with h | h | h
      · rw [h1] at h; cases h
      · subst h; simp [ppEq]
      · rw [h2] at h; cases h

example : StrictTotal (fun a b : Int => decide (a < b)) :=
  ⟨by simp, by intro a b c; simp; omega, by intro a b; simp; omega⟩

/-! ## Bimap -/

/-- **C37** (Bimap, partial) After any history of calls on a new bimap that keep the pairs
one-to-one, the two lookups are inverse of each other: each of them finds exactly the pairs
inserted and not erased, under their current names; any other lookup is undefined behaviour.
Missing: insertions that reuse an element of another pair (`C37_bimap_reuse`). -/
theorem C37_bimap_partial {A B : Type} [DecidableEq A] [DecidableEq B] (l : List (BimapCall A B))
    (h : OneToOneFrom [] l) :
    ∃ m, Bimap.calls l = .ok m ∧
      (∀ a b, m.getB a = .ok b ↔ (a, b) ∈ pairsFrom [] l) ∧
      (∀ a b, m.getA b = .ok a ↔ (a, b) ∈ pairsFrom [] l) ∧
      (∀ a b, m.getB a = .ok b ↔ m.getA b = .ok a) ∧
      (∀ a, a ∉ (pairsFrom [] l).map (·.1) → m.getB a = .error .ub) ∧
      (∀ b, b ∉ (pairsFrom [] l).map (·.2) → m.getA b = .error .ub) ∧
      m.lung = (pairsFrom [] l).length ∧ (m.empty = true ↔ pairsFrom [] l = []) := by
  obtain ⟨m, hm, L, hL, e⟩ := (Bimap.calls_linked (l := l) SonsLinked.new h).eq
  have e' : linkPairs L = pairsFrom [] l := e
  have hB : ∀ a b, m.getB a = .ok b ↔ (a, b) ∈ pairsFrom [] l := by
    intro a b
    rw [← e']
    unfold Bimap.getB
    by_cases ha : a ∈ L.map (·.a)
    · obtain ⟨x, hx, rfl⟩ := List.mem_map.1 ha
      rw [hL.findB hx]
      simp only
      rw [hL.derefA hx]
      constructor
      · intro h'; cases h'; exact List.mem_map.2 ⟨x, hx, rfl⟩
      · intro h'
        obtain ⟨y, hy, ey⟩ := List.mem_map.1 h'
        obtain ⟨e1, e2⟩ := Prod.mk.inj ey
        rw [← e2, inj_of_nodup hL.ndA hy hx e1]
    · rw [hL.findB_none ha]
      constructor
      · intro h'; cases h'
      · intro h'
        obtain ⟨y, hy, ey⟩ := List.mem_map.1 h'
        exact absurd (List.mem_map.2 ⟨y, hy, (Prod.mk.inj ey).1⟩) ha
  have hA : ∀ a b, m.getA b = .ok a ↔ (a, b) ∈ pairsFrom [] l := by
    intro a b
    rw [← e']
    unfold Bimap.getA
    by_cases hb : b ∈ L.map (·.b)
    · obtain ⟨x, hx, rfl⟩ := List.mem_map.1 hb
      rw [hL.findA hx]
      simp only
      rw [hL.derefB hx]
      constructor
      · intro h'; cases h'; exact List.mem_map.2 ⟨x, hx, rfl⟩
      · intro h'
        obtain ⟨y, hy, ey⟩ := List.mem_map.1 h'
        obtain ⟨e1, e2⟩ := Prod.mk.inj ey
        rw [← e1, inj_of_nodup hL.ndB hy hx e2]
    · rw [hL.findA_none hb]
      constructor
      · intro h'; cases h'
      · intro h'
        obtain ⟨y, hy, ey⟩ := List.mem_map.1 h'
        exact absurd (List.mem_map.2 ⟨y, hy, (Prod.mk.inj ey).2⟩) hb
  refine ⟨m, hm, hB, hA, fun a b => (hB a b).trans (hA a b).symm, ?_, ?_, ?_, ?_⟩
  · intro a ha
    rw [← e', linkPairs_fst] at ha
    unfold Bimap.getB; rw [hL.findB_none ha]
  · intro b hb
    rw [← e', linkPairs_snd] at hb
    unfold Bimap.getA; rw [hL.findA_none hb]
  · unfold Bimap.lung; rw [hL.mapB, ← e']; simp [linkPairs]
  · unfold Bimap.empty; rw [hL.mapA, ← e']; simp [linkPairs]

/-- a history with every kind of call -/
def exBimap : List (BimapCall Nat Nat) :=
  [.insert 1 10, .insert 2 20, .insert 3 30, .insert 1 10, .updateB 2 5, .updateA 30 31, .eraseB 1]

example : OneToOneFrom [] exBimap ∧ pairsFrom [] exBimap = [(5, 20), (3, 31)] := by
  simp [exBimap, OneToOneFrom, OneToOneCall, pairsAfter, pairsFrom]

/-- **C37** (Bimap) is violated by insertions that reuse an element: `insert(1, 10)` and then
`insert(1, 20)` leave 1 with 10, but 20 with 1. -/
theorem C37_bimap_reuse : ∃ m : Bimap Nat Nat, Bimap.calls [.insert 1 10, .insert 1 20] = .ok m ∧
    m.getB 1 = .ok 10 ∧ m.getA 20 = .ok 1 ∧ m.getA 10 = .ok 1 := ⟨_, rfl, rfl, rfl, rfl⟩

/-- **C37** (Bimap) is violated: after `update_nodeB(1, 2)` with 2 in use, the lookup of 10 reads
a node that is gone. -/
theorem C37_bimap_dangling : ∃ m : Bimap Nat Nat,
    Bimap.calls [.insert 1 10, .insert 2 20, .updateB 1 2] = .ok m ∧ m.getA 10 = .error .ub :=
  ⟨_, rfl, rfl⟩

/-! ## Tree -/

/-- one call on a tree -/
def Tree.call {T : Type} [DecidableEq T] (t : Tree T) : TreeCall T → M (Tree T)
  | .addSon i => t.insertSon i i 1
  | .addLeaf f i => t.insertSon f i 0
  | .delete v => t.deleteNode v

/-- **C37** (Tree, partial) After any history of allowed calls, the sons of the root are the ones
added and not deleted, in the order of insertion, and all counters of sons are right.  Missing:
deletion of the only son (`C37_tree_only_son`). -/
theorem C37_tree_partial {T : Type} [DecidableEq T] (l : List (TreeCall T)) (h : TreeCallsAllowed [] l) :
    ∃ t : Tree T, l.foldlM Tree.call Tree.new = .ok t ∧
      t.sons.map (·.index) = l.foldl sonsAfter [] ∧ t.sonc = (l.foldl sonsAfter []).length ∧
      ∀ s ∈ t.sons, s.sonc = s.sons.length := by
  have key : ∀ (l : List (TreeCall T)) (t : Tree T) (idx : List T), TreeOk t idx →
      TreeCallsAllowed idx l → Ok (l.foldlM Tree.call t) (fun t' => TreeOk t' (l.foldl sonsAfter idx)) := by
    intro l
    induction l with
    | nil => intro t idx ht _; exact ht
    | cons c l ih =>
      intro t idx ht hc
      rw [List.foldlM_cons]
      refine Ok.bind (P := fun t' => TreeOk t' (sonsAfter idx c)) ?_ (fun t' ht' => ih t' _ ht' hc.2)
      cases c with
      | addSon i =>
        refine ⟨?_, ?_, ?_⟩
        · show t.sonc + 1 = _; rw [ht.sonc]; simp [sonsAfter]
        · simp [sonsAfter, ht.idx]
        · intro s hs
          rcases List.mem_append.1 hs with hs | hs
          · exact ht.leaves s hs
          · rw [List.mem_singleton.1 hs]; rfl
      | addLeaf f i =>
        have hf : f ∈ t.sons.map (·.index) := by rw [ht.idx]; exact hc.1
        obtain ⟨s, hs, hsf⟩ := List.mem_map.1 hf
        have hne : t.sons ≠ [] := List.ne_nil_of_mem hs
        show Ok (t.insertSon f i 0) _
        unfold Tree.insertSon
        rw [if_neg (by decide), if_neg hne, if_pos (List.any_eq_true.2 ⟨s, hs, by simpa using hsf⟩)]
        exact ⟨ht.sonc, by rw [addLeaf_idx]; exact ht.idx, addLeaf_leaves f i _ ht.leaves⟩
      | delete v =>
        show Ok (t.deleteNode v) _
        unfold Tree.deleteNode
        have hv : idx ≠ [v] := hc.1
        refine Ok.bind (deleteSon_ok v t.sons true (by rw [ht.idx]; exact fun h => hv h.2)) ?_
        rintro r ⟨h1, h2, h3⟩
        refine ⟨?_, ?_, ?_⟩
        · show (if r.1 = true then t.sonc - 1 else t.sonc) = _
          rw [ht.idx] at h3
          by_cases hin : v ∈ idx
          · rw [if_pos (h3.2 hin), ht.sonc]
            have := List.length_pos_of_mem hin
            simp only [sonsAfter]
            rw [List.length_erase_of_mem hin]; omega
          · rw [if_neg (fun h => hin (h3.1 h)), ht.sonc]
            simp only [sonsAfter]
            rw [List.erase_of_not_mem hin]
        · show r.2.map (·.index) = _
          rw [h1, ht.idx]; rfl
        · intro s hs; exact ht.leaves s (h2 s hs)
  obtain ⟨t, ht, h1⟩ := (key l Tree.new [] ⟨rfl, rfl, by simp [Tree.new]⟩ h).eq
  exact ⟨t, ht, h1.idx, h1.sonc, h1.leaves⟩

example : TreeCallsAllowed [] [.addSon 1, .addSon 3, .addSon 4, .addLeaf 4 2, .delete 4, .delete 1] := by
  simp [TreeCallsAllowed, TreeCallAllowed, sonsAfter]

/-- **C37** (Tree) is violated: deleting the only son dereferences a null pointer. -/
theorem C37_tree_only_son :
    [TreeCall.addSon 1, TreeCall.delete 1].foldlM Tree.call (Tree.new (T := Nat)) = .error .ub := rfl

end CoMMA
