import Verif.Spec.Basic
import Mathlib.Data.Fintype.Perm
import Mathlib.Data.Fintype.Pi
import Mathlib.Algebra.BigOperators.Group.Finset.Basic

/-!
# Random samples of a population

Nothing here mentions the model. A population is a list of labels. A random quantity is a function of the outcome, all outcomes
are equally likely.
-/

namespace Spec

variable {K : Type} [Field K] [LinearOrder K]

/-- The mean of a quantity over all outcomes. -/
def average {Ω : Type} [Fintype Ω] (f : Ω → K) : K := (∑ ω, f ω) / (Fintype.card Ω : K)

/-- A sample of size `n` without replacement: shuffle the population and keep the first `n`. The outcomes are the shuffles. -/
def sampleWithout (ys : List K) (n : Nat) (σ : Equiv.Perm (Fin ys.length)) : List K :=
  (List.ofFn (fun i => ys.get (σ i))).take n

/-- A sample of size `n` with replacement: `n` independent draws. The outcomes are the sequences of `n` positions. -/
def sampleWith (ys : List K) (n : Nat) (s : Fin n → Fin ys.length) : List K := List.ofFn (fun i => ys.get (s i))

/-- Fourth central moment: the mean of the fourth powers of the distances from the mean. -/
def fourthMoment (ys : List K) : K := mean (ys.map (fun y => (y - mean ys) ^ 4))

/-- The linear part of the error of the Gini index of `l` as an estimate of that of `ys`: the partial derivatives `-2·freq(c)`
times the errors of the frequencies. -/
def giniLinear (ys l : List K) : K := (ys.dedup.map (fun c => -2 * freq ys c * (freq l c - freq ys c))).sum

/-- The linear part of the error of the entropy of `l` as an estimate of that of `ys`. The derivatives are `-log freq(c) - 1`; the
errors of the frequencies add up to 0, so that the constant can be left out. -/
def entropyLinear (log : K → K) (ys l : List K) : K :=
  (ys.dedup.map (fun c => -log (freq ys c) * (freq l c - freq ys c))).sum

end Spec
