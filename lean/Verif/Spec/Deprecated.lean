import Verif.Model.Deprecated
/-! # What the deprecated containers are for

Only the types of calls are taken from the model. -/

namespace CoMMA

/-- values pushed by a history -/
def pushed {T : Type} (l : List (QueueCall T)) : List T :=
  l.filterMap (fun c => match c with | .push x => some x | .pop => none)

/-- values returned by the pops made on a queue that was not empty -/
def returned {T : Type} (out : List (Bool × T)) : List T :=
  out.filterMap (fun r => if r.1 then none else some r.2)

/-- a strict total order given by a comparison -/
structure StrictTotal {A : Type} (lt : A → A → Bool) : Prop where
  irrefl : ∀ a, lt a a = false
  trans : ∀ a b c, lt a b = true → lt b c = true → lt a c = true
  total : ∀ a b, lt a b = true ∨ a = b ∨ lt b a = true

/-- what a call does to a set of pairs -/
def pairsAfter {A B : Type} [DecidableEq A] [DecidableEq B] (R : List (A × B)) :
    BimapCall A B → List (A × B)
  | .insert a b => if (a, b) ∈ R then R else R ++ [(a, b)]
  | .updateB o n => R.map (fun p => if p.1 = o then (n, p.2) else p)
  | .updateA o n => R.map (fun p => if p.2 = o then (p.1, n) else p)
  | .eraseB a => R.filter (fun p => !decide (p.1 = a))

/-- calls that keep the pairs one-to-one: a new pair uses new elements, a new name is not in use,
only elements that are there are erased -/
def OneToOneCall {A B : Type} (R : List (A × B)) : BimapCall A B → Prop
  | .insert a b => (a, b) ∈ R ∨ (a ∉ R.map (·.1) ∧ b ∉ R.map (·.2))
  | .updateB o n => o = n ∨ n ∉ R.map (·.1)
  | .updateA o n => o = n ∨ n ∉ R.map (·.2)
  | .eraseB a => a ∈ R.map (·.1)

/-- the pairs after a history that starts with the pairs `R` -/
def pairsFrom {A B : Type} [DecidableEq A] [DecidableEq B] (R : List (A × B)) (l : List (BimapCall A B)) :
    List (A × B) := l.foldl pairsAfter R

/-- all calls of a history that starts with the pairs `R` keep the pairs one-to-one -/
def OneToOneFrom {A B : Type} [DecidableEq A] [DecidableEq B] (R : List (A × B)) :
    List (BimapCall A B) → Prop
  | [] => True
  | c :: l => OneToOneCall R c ∧ OneToOneFrom (pairsAfter R c) l

/-- calls that change a tree: `insertSon` under the root or under the son `father`, `deleteNode` -/
inductive TreeCall (T : Type) where
  | addSon (index : T)
  | addLeaf (father index : T)
  | delete (value : T)

/-- indices of the sons of the root after a call -/
def sonsAfter {T : Type} [DecidableEq T] (s : List T) : TreeCall T → List T
  | .addSon i => s ++ [i]
  | .addLeaf _ _ => s
  | .delete v => s.erase v

/-- calls that are allowed: the father of a leaf is there, the only son is not deleted -/
def TreeCallAllowed {T : Type} (s : List T) : TreeCall T → Prop
  | .addSon _ => True
  | .addLeaf f _ => f ∈ s
  | .delete v => s ≠ [v]

/-- all calls of a history are allowed -/
def TreeCallsAllowed {T : Type} [DecidableEq T] (s : List T) : List (TreeCall T) → Prop
  | [] => True
  | c :: l => TreeCallAllowed s c ∧ TreeCallsAllowed (sonsAfter s c) l

end CoMMA
