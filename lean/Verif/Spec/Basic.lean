import Mathlib.Algebra.Order.Field.Basic
import Mathlib.Data.List.Dedup
import Mathlib.Data.List.Sort
import Mathlib.Algebra.BigOperators.Group.List.Basic

/-!
# Specifications

Plain mathematical notions used in the statements of the properties. Nothing here mentions the model.
A *sample* is a pair (feature value, label).
-/

namespace Spec

variable {K : Type} [Field K] [LinearOrder K]

/-- Number of samples with label `c` and feature value at most `t`. -/
def countLe (S : List (K × K)) (t c : K) : Nat := S.countP (fun s => decide (s.1 ≤ t ∧ s.2 = c))

/-- Number of samples with label `c` and feature value larger than `t`. -/
def countGt (S : List (K × K)) (t c : K) : Nat := S.countP (fun s => decide (t < s.1 ∧ s.2 = c))

/-- Labels of the samples with feature value at most `t`. -/
def labelsLe (S : List (K × K)) (t : K) : List K := (S.filter (fun s => decide (s.1 ≤ t))).map Prod.snd

/-- Labels of the samples with feature value larger than `t`. -/
def labelsGt (S : List (K × K)) (t : K) : List K := (S.filter (fun s => decide (t < s.1))).map Prod.snd

/-- Arithmetic mean. -/
def mean (ys : List K) : K := ys.sum / (ys.length : K)

/-- Population variance: the mean squared distance from the mean. -/
def variance (ys : List K) : K := mean (ys.map (fun y => (y - mean ys) ^ 2))

/-- Relative frequency of `c` among `ys`. -/
def freq (ys : List K) (c : K) : K := (ys.count c : K) / (ys.length : K)

/-- Gini impurity of a list of labels: `1 - Σ_c freq(c)²` over the distinct labels. -/
def gini (ys : List K) : K := 1 - (ys.dedup.map (fun c => freq ys c ^ 2)).sum

/-- Entropy of a list of labels, for a given logarithm: `-Σ_c freq(c)·log freq(c)` over the distinct labels. -/
def entropy (log : K → K) (ys : List K) : K := -(ys.dedup.map (fun c => freq ys c * log (freq ys c))).sum

/-- Change of the weighted impurity when the samples `S` are separated at threshold `t`:
`(|L|/n)·imp(L) + (|R|/n)·imp(R) - imp(all)`. Negative = improvement. -/
def change (imp : List K → K) (S : List (K × K)) (t : K) : K :=
  ((labelsLe S t).length : K) / (S.length : K) * imp (labelsLe S t)
    + ((labelsGt S t).length : K) / (S.length : K) * imp (labelsGt S t)
    - imp (S.map Prod.snd)

end Spec
