import Verif.Spec.Grow

/-!
# How large a tree is (C160)
-/

namespace FF

variable {K : Type} [Field K] [LinearOrder K] [FloorRing K] [NpFun K] {G : Type}

/-- Exactly `n` numbers have the property `P`. -/
def Counts (P : Nat → Prop) (n : Nat) : Prop := ∃ l : List Nat, l.Nodup ∧ l.length = n ∧ ∀ i, i ∈ l ↔ P i

/-- The number of different datapoints among the training rows (a row drawn several times counts once, and so do equal rows). -/
def distinctPoints (A : TreeArgs K) : Nat := (A.rows.map (fun i => A.data.getD i [])).dedup.length

/-- All training rows have the label `y`. -/
def OneLabel (A : TreeArgs K) (y : K) : Prop := ∀ i ∈ A.rows, A.labels.getD i 0 = y

end FF
