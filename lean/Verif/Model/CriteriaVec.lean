import Verif.Model.Criteria

/-!
# The vectorised branch of `get_impurity_reductions`

The code runs it if the constant `VECTORIZE` is set (`constants.py:10` clears it).
-/

namespace FF

variable {K : Type} [Field K] [LinearOrder K] [FloorRing K] [NpFun K]

/-- What `get_impurity_reductions` returns: one array, or a tuple of two arrays (here a list of pairs) — `criteria.py:178, 244-247,
320-324`. -/
inductive Reds (K : Type) where
  | plain (l : List (XF K))
  | both (l : List (XF K × XF K))
  deriving DecidableEq, Repr

/-- `get_impurity_reductions` with `VECTORIZE = False` and the parameter `ret_vars` — `criteria.py:249-324`. -/
def getReductions (h : Hist K) (bins : List Nat) (m : Criterion) (retVars : Bool) (pop : Option Nat) : Except Err (Reds K) :=
  match impurityReductions h bins m pop with
  | .error e => .error e
  | .ok l => .ok (if retVars then .both l else .plain (l.map Prod.fst))

/-- The same computation for all bins, stopping at the first exception. -/
def mapE {α β : Type} (f : α → Except Err β) : List α → Except Err (List β)
  | [] => .ok []
  | x :: xs =>
    match f x with
    | .error e => .error e
    | .ok y =>
      match mapE f xs with
      | .error e => .error e
      | .ok ys => .ok (y :: ys)

/-- Variance part of `get_entropy` for one of several bins — `criteria.py:88-91`. `log_p[:, :-1]` has shape `(b, C-1)` and
`np.expand_dims(log_p[-1], 0)` has shape `(1, C)`: `last` is the row of the *last bin*. -/
def entropyVarVec (last lp vp : List (XF K)) : Except Err (XF K) :=
  match lp, last, vp with
  | [l0, _], [m0, m1], v0 :: _ =>
    let d0 := (l0.neg).add m0
    let d1 := (l0.neg).add m1
    .ok (XF.sum [(d0.mul d0).mul v0, (d1.mul d1).mul v0])
  | _ :: _ :: _ :: _, _, _ => .error .valueError
  | _, _, _ => .ok (.fin 0)

/-- `log_p[-1]`, the row of the last bin — `criteria.py:89`. -/
def lastLogs (rows : List (List Nat × Option Nat)) : List (XF K) :=
  match rows.getLast? with
  | none => []
  | some r => logProbs (probs r.1 r.1.sum)

/-- `get_impurity(counts_vec=…, ret_var=True, pop_size=…, n=…)` on several bins, each with its counts and population size —
`criteria.py:9-93, 220-226`. `get_mse` has no parameter `counts_vec`: TypeError. -/
def clsSideVec (m : Criterion) (rows : List (List Nat × Option Nat)) : Except Err (List (XF K × XF K)) :=
  match m with
  | .gini => mapE (fun r => getGini r.1 r.1.sum r.2) rows
  | .entropy =>
    mapE (fun r =>
      match entropyVarVec (lastLogs rows) (logProbs (probs r.1 r.1.sum)) (varProbs (probs r.1 r.1.sum) r.1.sum r.2) with
      | .error e => .error e
      | .ok v => .ok (entropyImp (probs r.1 r.1.sum), v)) rows
  | .mse => .error .typeError

/-- `get_impurity(args=…, ret_var=True, pop_size=…)` on several bins — `criteria.py:96-154, 231-236`. `get_gini` and `get_entropy` have
no parameter `args`: TypeError. -/
def regSideVec (m : Criterion) (rows : List (Pile K × Option Nat)) : Except Err (List (XF K × XF K)) :=
  match m with
  | .mse => mapE (fun r => getMse r.1 r.2) rows
  | _ => .error .typeError

/-- One entry of the result — `criteria.py:215-216, 239-247`; `x` and `y` are the sizes of the two sides. -/
def combineVec (x y : Nat) (l r c : XF K × XF K) : XF K × XF K :=
  let wl : XF K := (xnat x).div (xnat (x + y))
  let wr : XF K := (xnat y).div (xnat (x + y))
  (((l.1.mul wl).add (r.1.mul wr)).sub c.1, (c.2.add (l.2.mul (wl.mul wl))).add (r.2.mul (wr.mul wr)))

/-- The part that classification and regression share — `criteria.py:205-247`. Without samples the sizes with a population are `nan`
converted to an integer, which is not modelled. -/
def sidesVec {α : Type} (size : α → Nat) (side : List (α × Option Nat) → Except Err (List (XF K × XF K)))
    (curr : Except Err (XF K × XF K)) (left right : List α) (pop : Option Nat) : Except Err (List (XF K × XF K)) :=
  if pop.isSome ∧ (left.zip right).any (fun q => decide (size q.1 + size q.2 = 0)) then .error (.unmodelled "int of nan")
  else
    match side ((left.zip right).map (fun q => (q.1, pop.map (fun s => size q.1 * s / (size q.1 + size q.2))))) with
    | .error e => .error e
    | .ok ls =>
      match side ((left.zip right).map (fun q => (q.2, pop.map (fun s => size q.2 * s / (size q.1 + size q.2))))) with
      | .error e => .error e
      | .ok rs =>
        match curr with
        | .error e => .error e
        | .ok c => .ok (List.zipWith (fun q v => combineVec (size q.1) (size q.2) v.1 v.2 c) (left.zip right) (ls.zip rs))

/-- The vectorised branch — `criteria.py:195-247`. The current impurity is that of the first requested bin (classification) or of
`curr_pile` (regression). The result is a tuple whatever `ret_vars` is. -/
def getReductionsVec (h : Hist K) (bins : List Nat) (m : Criterion) (_retVars : Bool) (pop : Option Nat) : Except Err (Reds K) :=
  let res : Except Err (List (XF K × XF K)) :=
    if h.isCls then
      match takeE h.left [] bins, takeE h.right [] bins with
      | .ok left, .ok right =>
        sidesVec List.sum (clsSideVec m)
          (match left, right with
            | l0 :: _, r0 :: _ => clsImpurity m (addRows l0 r0) (addRows l0 r0).sum pop
            | _, _ => .error .indexError) left right pop
      | _, _ => .error .indexError
    else
      match takeE h.leftPile Pile.zero bins, takeE h.rightPile Pile.zero bins with
      | .ok left, .ok right => sidesVec Pile.n (regSideVec m) (regImpurity m h.currPile pop) left right pop
      | _, _ => .error .indexError
  match res with
  | .error e => .error e
  | .ok l => .ok (.both l)

end FF
