import Verif.Model.Compare
import Verif.Model.Tables
import Mathlib.Data.List.Sort

/-!
# The scaling experiment: `experiments/scaling_exps/`

`investigate_scaling.py` trains on samples of several sizes and records what it costs; `make_scaling_plot.py` fits two curves to the costs and
prints how well they fit. Times and the drawing of the plot are not modelled.
-/

namespace FF

variable {K : Type} [Field K] [LinearOrder K] [FloorRing K] [NpFun K] {G : Type}

/-- One trial — `investigate_scaling.py:55-73`: a sample with replacement, `compare_runtimes` with its default of one seed, without test scores and
without the second model; the result is `np.mean(results["our_num_queries"])`. -/
def scalingTrial (R : Rng K G) (mem : Nat → Bool → Nat → Nat → Junk K) (kind : Wrapper) (data : List (List K)) (labels : List K) (size seed : Nat)
    (w : World K G) : Except Err (K × World K G) :=
  match rngChoiceRep R (R.seed seed) (data.zip labels) ([], 0) size with
  | .error e => .error e
  | .ok (rows, _) =>
    match compareModels R mem ⟨kind, runtimeArgs kind, rows.map Prod.fst, w.arrays.length, [], 0, false, false⟩ 1
        ⟨{ w.glob with np := R.seed seed }, w.arrays ++ [rows.map Prod.snd]⟩ with
    | .error e => .error e
    | .ok (r, w') => .ok (npMean (ourQueries r.rows), w')

/-- The loop over the trials — `investigate_scaling.py:54-75`; the result is `num_queries` before the division. -/
def scalingTrials (R : Rng K G) (mem : Nat → Nat → Bool → Nat → Nat → Junk K) (kind : Wrapper) (data : List (List K)) (labels : List K) (size : Nat) :
    List Nat → K → World K G → Except Err (K × World K G)
  | [], acc, w => .ok (acc, w)
  | seed :: seeds, acc, w =>
    match scalingTrial R (mem seed) kind data labels size seed w with
    | .error e => .error e
    | .ok (x, w') => scalingTrials R mem kind data labels size seeds (acc + x) w'

/-- The loop over the sizes — `investigate_scaling.py:49-79`: `size_to_insertions_dict`. -/
def scalingExp (R : Rng K G) (mem : Nat → Nat → Nat → Bool → Nat → Nat → Junk K) (kind : Wrapper) (data : List (List K)) (labels : List K)
    (numSeeds : Nat) : List Nat → World K G → Except Err (List (Nat × K) × World K G)
  | [], w => .ok ([], w)
  | size :: sizes, w =>
    match scalingTrials R (mem size) kind data labels size (List.range numSeeds) 0 w with
    | .error e => .error e
    | .ok (x, w1) =>
      match scalingExp R mem kind data labels numSeeds sizes w1 with
      | .error e => .error e
      | .ok (rest, w2) => .ok ((size, x / (numSeeds : K)) :: rest, w2)

/-- `sizes` and `counts` — `make_scaling_plot.py:12-13`: the entries in the order of the sizes. -/
def plotPoints (dict : List (Nat × K)) : List (K × K) :=
  ((dict.map Prod.fst).insertionSort (· ≤ ·)).filterMap (fun k => (dict.lookup k).map (fun c => ((k : K), c)))

/-- `LinearRegression().fit(x, y)` — `make_scaling_plot.py:16-20`, for one feature: slope and intercept of the least-squares line, the one with
slope 0 if all `x` are equal (sklearn takes the solution of smallest norm after centring). -/
def lineFit (ps : List (K × K)) : K × K :=
  let mx := npMean (ps.map Prod.fst)
  let my := npMean (ps.map Prod.snd)
  let sxx := (ps.map (fun p => (p.1 - mx) * (p.1 - mx))).sum
  let sxy := (ps.map (fun p => (p.1 - mx) * (p.2 - my))).sum
  let b := if sxx = 0 then 0 else sxy / sxx
  (b, my - b * mx)

/-- `hashes_R2` — `make_scaling_plot.py:26-31`. -/
def rSquared (ps : List (K × K)) : XF K :=
  let f := lineFit ps
  let my := npMean (ps.map Prod.snd)
  (XF.fin 1).sub ((XF.fin (ps.map (fun p => (f.1 * p.1 + f.2 - p.2) * (f.1 * p.1 + f.2 - p.2))).sum).div
    (XF.fin (ps.map (fun p => (my - p.2) * (my - p.2))).sum))

/-- The points of the logarithmic fit — `make_scaling_plot.py:19-20`. -/
def logPoints (ps : List (K × K)) : List (K × K) := ps.map (fun p => (NpFun.log p.1 / NpFun.log 10, p.2))

end FF
