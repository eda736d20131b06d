import Verif.Model.Tables

/-!
# What a table should say
-/

namespace Spec

variable {K : Type} [Field K] [LinearOrder K]

/-- A cell shows the two numbers, with three digits after the point. -/
def Shows (c : FF.TableCell K) (x e : K) : Prop :=
  ∃ a b : K, c = .pm a b ∧ (∃ n : ℤ, a * 1000 = n) ∧ (∃ n : ℤ, b * 1000 = n) ∧ |a - x| ≤ 1 / 2000 ∧ |b - e| ≤ 1 / 2000

/-- The ordinal numbers of English. -/
def englishOrdinal (n : Nat) : String :=
  toString n ++
    (if n % 100 = 11 ∨ n % 100 = 12 ∨ n % 100 = 13 then "th"
    else if n % 10 = 1 then "st" else if n % 10 = 2 then "nd" else if n % 10 = 3 then "rd" else "th")

/-- A table has two lines for each of the experiments, theirs above ours, both numbered with the experiment. -/
def PairedLines (t : FF.Table K) (files : List String) (theirs ours : String → List (FF.TableCell K) → Prop) : Prop :=
  t.rows.length = 2 * files.length ∧
    ∀ (i : Nat) (f : String), files[i]? = some f → ∃ a b : List (FF.TableCell K),
      t.rows[2 * i]? = some (englishOrdinal (i + 1) ++ " row", a) ∧ t.rows[2 * i + 1]? = some (englishOrdinal (i + 1) ++ " row", b) ∧
      theirs f a ∧ ours f b

end Spec
