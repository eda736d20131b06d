import Verif.Model.Compare

/-!
# Comparisons of two models
-/

namespace FF

variable {K : Type} [Field K] [LinearOrder K] [FloorRing K] [NpFun K] {G : Type}

/-- The model answers the points `xs` with `ps`. -/
def AnswersTo (f : Forest K G) (xs : List (List K)) (ps : List (Pred K)) : Prop :=
  List.Forall₂ (fun (x : List K) (p : Pred K) => ∃ f', f.predict x = .ok (p, f')) xs ps

/-- `s` is the score of the answers: the share of correct ones, or the mean squared error. -/
structure ScoreIs (isCls : Bool) (ps : List (Pred K)) (targets : List K) (s : K) : Prop where
  some : ps ≠ []
  length : ps.length = targets.length
  accuracy : isCls = true → s * (ps.length : K) = ((ps.zip targets).countP (fun q => decide (q.1.value = q.2)) : K)
  error : isCls = false → s * (ps.length : K) = ((ps.zip targets).map (fun q => (q.1.value - q.2) ^ 2)).sum

/-- `s` is what the comparison `c` is to report about the model `f`, measured against the given targets. -/
structure SideIs (c : Cmp K) (f : Forest K G) (targets testTargets : List K) (s : CmpSide K) : Prop where
  queries : s.queries = f.numQueries
  trees : s.trees = f.trees.length
  train : ∃ ps, AnswersTo f c.data ps ∧ ScoreIs c.kind.isCls ps targets s.train
  test : c.predict = true → ∃ v ps, s.test = .some v ∧ AnswersTo f c.testData ps ∧ ScoreIs c.kind.isCls ps testTargets v
  noTest : c.predict = false → s.test = none

/-- `f` is the model of the given kind and settings that is constructed and fitted in a process in which nothing else happens: there is one
array, the targets. `g` is the state of the process-wide generators before. If `g'` is given, the generators are put into this state
between construction and `fit`. -/
def BuiltAlone (R : Rng K G) (mem : Nat → Nat → Junk K) (k : Wrapper) (a : WrapArgs K) (g : Glob G) (g' : Option (Glob G)) (data : List (List K))
    (targets : List K) (f : Forest K G) : Prop :=
  ∃ (o o' : WrapObj K G) (w1 w2 : World K G), Wrapper.init R k a ⟨g, [targets]⟩ (some data) (some 0) = .ok (o, w1) ∧
    o.fit R mem { w1 with glob := g'.getD w1.glob } none none = .ok (o', w2) ∧ f = o'.forest

/-- A round of a comparison as one expects it: each of the two models is the one built from the same settings, seed, data and targets (only the
solver differs), and what is reported about it is measured against the caller's targets. If `g'` is given, the second model is the one that is
fitted with the generators in this state. -/
structure FairRow (R : Rng K G) (mem : Bool → Nat → Nat → Junk K) (c : Cmp K) (seed : Nat) (targets testTargets : List K) (g' : Option (Glob G))
    (row : CmpRow K) : Prop where
  ours : ∀ g, ∃ f, BuiltAlone R (mem true) c.kind (c.side .mab seed) g none c.data targets f ∧ SideIs c f targets testTargets row.ours
  theirs : c.runTheirs = true → ∃ s, row.theirs = some s ∧
    ∀ g, ∃ f, BuiltAlone R (mem false) c.kind (c.side .exact seed) g g' c.data targets f ∧ SideIs c f targets testTargets s
  noTheirs : c.runTheirs = false → row.theirs = none

/-- The intervals `(m - s, m + s)` and `(m' - s', m' + s')` have a common point. -/
def OpenMeet (m s m' s' : K) : Prop := ∃ x, |x - m| < s ∧ |x - m'| < s'

/-- The intervals `[m - s, m + s]` and `[m' - s', m' + s']` have a common point. -/
def ClosedMeet (m s m' s' : K) : Prop := ∃ x, |x - m| ≤ s ∧ |x - m'| ≤ s'

end FF
