import Verif.Model.Utils

/-!
# `utils/data_generator.py`
-/

namespace FF

variable {K : Type} [Field K]

/-- `create_data` — `data_generator.py:4-22`. The draws of the two generators are arguments: `coin i` is the label drawn for row `i` (line 17), `z i` the
standardised normal draw (line 20: `loc=y`, `scale=0.2`), `u i` the uniform one (line 21). -/
def createData (N : Nat) (coin : Nat → Bool) (z u : Nat → K) : List (List K) :=
  (List.range N).map (fun i =>
    let y : K := if coin i then 1 else 0
    [y + 1 / 5 * z i, u i, y])

/-- The columns used as data, `toy[:, :-1]` — `tests/test_forests.py:87`. -/
def toyPoints (toy : List (List K)) : List (List K) := toy.map List.dropLast

/-- The column used as labels, `toy[:, -1]` — `tests/test_forests.py:88`. -/
def toyLabels (toy : List (List K)) : List K := toy.map (fun row => row.getLastD 0)

end FF
