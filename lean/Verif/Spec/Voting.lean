import Verif.Model.Forest

/-!
# How the trees of a forest vote (C165)
-/

namespace Spec

variable {K : Type} [Field K] [LinearOrder K]

/-- Choice `i` wins among `n` choices: it has the highest score, and a higher one than all the choices before it. -/
structure Wins (n : Nat) (score : Nat → K) (i : Nat) : Prop where
  lt : i < n
  top : ∀ j < n, score j ≤ score i
  first : ∀ j < i, score j < score i

end Spec

namespace FF

variable {K : Type} [Field K] [LinearOrder K] [FloorRing K] [NpFun K] {G : Type}

/-- Tree `t` answers the point with the label. -/
def Votes (t : Tree K G) (x : List K) (label : K) : Prop := ∃ probs, (t.predict x).map Prod.fst = .ok (.cls label probs)

/-- Tree `t` answers the point with the label and gives it the probability 1: the probabilities are those of a sure answer. -/
def SureOf (classes : ClassDict K) (t : Tree K G) (x : List K) (label : K) : Prop :=
  (t.predict x).map Prod.fst = .ok (.cls label (classes.map (fun c => if c.1 = label then 1 else 0)))

/-- Tree `t` gives class number `j` the probability `q`. -/
def Gives (t : Tree K G) (x : List K) (j : Nat) (q : K) : Prop := ∃ label probs, (t.predict x).map Prod.fst = .ok (.cls label probs) ∧ probs[j]? = some q

end FF
