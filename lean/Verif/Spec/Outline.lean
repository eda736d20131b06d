import Verif.Model.Print

/-!
# Reading a printed tree

How a person reads the printed rules, without knowing the tree.
-/

namespace FF

variable {K : Type} [Field K] [LinearOrder K] {G : Type}

/-- The indentation of a line. -/
def Line.depth : Line K → Nat
  | .le d _ _ => d
  | .gt d _ _ => d
  | .cls d _ => d
  | .value d _ => d

/-- Read the lines from the top for the point `x`. If the line is an answer, that is the answer. If it says `feature_f <= v` and that is
true of `x`, read on in the next line; otherwise skip to the next line with the same indentation (`skip` remembers it), which must say
`>`, and read on below it. -/
def follow (x : List K) : Option Nat → List (Line K) → Option K
  | _, [] => none
  | some d, l :: ls =>
    if l.depth = d then
      match l with
      | .gt _ (some f) v =>
        match x[f]? with
        | none => none
        | some a => if v < a then follow x none ls else none
      | _ => none
    else follow x (some d) ls
  | none, l :: ls =>
    match l with
    | .cls _ c => some c
    | .value _ v => some v
    | .le d (some f) v =>
      match x[f]? with
      | none => none
      | some a => if a ≤ v then follow x none ls else follow x (some d) ls
    | _ => none

/-- The lines are a properly nested outline at indentation `d`: one answer, or a question, below it an outline one step further in, the
opposite of the question, and below it an outline one step further in. -/
inductive Outline : Nat → List (Line K) → Prop
  | cls (d : Nat) (c : K) : Outline d [.cls d c]
  | value (d : Nat) (v : K) : Outline d [.value d v]
  | node (d f : Nat) (v : K) {yes no : List (Line K)} (hy : Outline (d + 1) yes) (hn : Outline (d + 1) no) :
      Outline d (.le d (some f) v :: yes ++ .gt d (some f) v :: no)

/-- The label or value of an answer of `predict`. -/
def Pred.answer : Pred K → K
  | .cls l _ => l
  | .reg v => v

end FF
