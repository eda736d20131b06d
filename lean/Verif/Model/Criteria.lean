import Verif.Model.Histogram

/-!
# `utils/criteria.py`
-/

namespace FF

variable {K : Type} [Field K] [LinearOrder K] [FloorRing K] [NpFun K] {G : Type}

/-- Impurity measures — `utils/constants.py:26-28`. -/
inductive Criterion where
  | gini
  | entropy
  | mse
  deriving DecidableEq, Repr

/-- A python integer as a float. -/
def xnat (n : Nat) : XF K := .fin (n : K)

/-- `p = nan_to_num(counts / n)` — `criteria.py:32-33` and `75-76`. -/
def probs (counts : List Nat) (n : Nat) : List (XF K) := counts.map (fun c => ((xnat c).div (xnat n)).nanToNum)

/-- `V_p`, with the finite population correction when `pop` is given — `criteria.py:36-40` and `80-84`. -/
def varProbs (p : List (XF K)) (n : Nat) (pop : Option Nat) : List (XF K) :=
  p.map (fun x =>
    let v := (x.mul ((XF.fin 1).sub x)).div (xnat n)
    match pop with
    | none => v
    | some s => v.mul (((xnat s).sub (xnat n)).div ((xnat s).sub (.fin 1))))

/-- Gini impurity without the variance — `criteria.py:34`. -/
def giniImp (p : List (XF K)) : XF K := (XF.fin 1).sub (XF.sum (p.map (fun x => x.mul x)))

/-- `get_gini(counts, ret_var=True, pop_size=pop, n=n)` for one bin — `criteria.py:9-49`. With no class at all `p[:, -1]` is
an IndexError. -/
def getGini (counts : List Nat) (n : Nat) (pop : Option Nat) : Except Err (XF K × XF K) :=
  let p : List (XF K) := probs counts n
  match p.getLast? with
  | none => .error .indexError
  | some pl =>
    let vp := varProbs p n pop
    let dG := p.dropLast.map (fun x => ((XF.fin (-2)).mul x).add ((XF.fin 2).mul pl))
    .ok (giniImp p, XF.sum ((dG.zip vp.dropLast).map (fun q => (q.1.mul q.1).mul q.2)))

/-- `log_p` — `criteria.py:77`. -/
def logProbs (p : List (XF K)) : List (XF K) := p.map (fun x => x.log.nanToNum)

/-- Entropy without the variance — `criteria.py:78`. -/
def entropyImp (p : List (XF K)) : XF K :=
  XF.sum (((logProbs p).zip p).map (fun q => (q.1.neg).mul q.2))

/-- Variance part of `get_entropy` for one bin with `C` classes — `criteria.py:88-91`.
`log_p[:, :-1]` has shape `(1, C-1)` and `np.expand_dims(log_p[-1], 0)` has shape `(1, C)` (the last *row*, not the last
column), so numpy broadcasts only for `C ≤ 2` and raises ValueError for `C ≥ 3`. For `C = 2` the sum below has the two
broadcast columns; for `C ≤ 1` it is empty. -/
def entropyVar (lp vp : List (XF K)) : Except Err (XF K) :=
  match lp, vp with
  | [l0, l1], v0 :: _ =>
    let d0 := (l0.neg).add l0
    let d1 := (l0.neg).add l1
    .ok (XF.sum [(d0.mul d0).mul v0, (d1.mul d1).mul v0])
  | _ :: _ :: _ :: _, _ => .error .valueError
  | _, _ => .ok (.fin 0)

/-- `get_entropy(counts, ret_var=True, pop_size=pop, n=n)` for one bin — `criteria.py:52-93`. -/
def getEntropy (counts : List Nat) (n : Nat) (pop : Option Nat) : Except Err (XF K × XF K) :=
  let p : List (XF K) := probs counts n
  match entropyVar (logProbs p) (varProbs p n pop) with
  | .error e => .error e
  | .ok v => .ok (entropyImp p, v)

/-- The estimated MSE — `criteria.py:114-122` (after `nan_to_num`). -/
def mseEst (pile : Pile K) (pop : Option Nat) : XF K :=
  let n : XF K := xnat pile.n
  let m2 : XF K := .fin pile.var
  match pop with
  | none => ((m2.mul n).div (n.sub (.fin 1))).nanToNum
  | some s =>
    let N : XF K := xnat s
    ((m2.mul (n.mul (N.sub (.fin 1)))).div ((n.sub (.fin 1)).mul N)).nanToNum

/-- The variance of the estimated MSE — `criteria.py:123-151` (after `nan_to_num`), `KURTOSIS = 3` (`constants.py:53`). -/
def mseVar (pile : Pile K) (pop : Option Nat) (est : XF K) : XF K :=
  let n : XF K := xnat pile.n
  let e2 := est.mul est
  let fourth := (XF.fin 3).mul e2
  match pop with
  | none => ((fourth.sub ((e2.mul (n.sub (.fin 3))).div (n.sub (.fin 1)))).div n).nanToNum
  | some s =>
    let N : XF K := xnat s
    let one : XF K := .fin 1
    let c1 := ((N.mul (N.sub n)).mul ((((N.mul n).sub N).sub n).sub one)).div
      ((((n.mul (n.sub one)).mul (N.sub one)).mul (N.sub (.fin 2))).mul (N.sub (.fin 3)))
    let c3 := (((N.mul (N.sub n)).mul
        ((((((N.mul N).mul n).sub ((XF.fin 3).mul n)).sub ((XF.fin 3).mul (N.mul N))).add ((XF.fin 6).mul N)).sub (.fin 3))).div
      ((((n.mul (n.sub one)).mul ((N.sub one).mul (N.sub one))).mul (N.sub (.fin 2))).mul (N.sub (.fin 3)))).neg
    ((c1.mul fourth).add (c3.mul e2)).nanToNum

/-- `get_mse(pile, ret_var=True, pop_size=pop)` for one bin — `criteria.py:96-154`. -/
def getMse (pile : Pile K) (pop : Option Nat) : Except Err (XF K × XF K) :=
  match pop with
  | some s =>
    if s < pile.n then .error (.assertion "population size should not be less than sample size")
    else .ok (mseEst pile pop, mseVar pile pop (mseEst pile pop))
  | none => .ok (mseEst pile pop, mseVar pile pop (mseEst pile pop))

/-- `get_impurity` on class counts — `criteria.py:157-168, 281-287`. `get_mse` has no parameter `n`: TypeError. -/
def clsImpurity (m : Criterion) (counts : List Nat) (n : Nat) (pop : Option Nat) : Except Err (XF K × XF K) :=
  match m with
  | .gini => getGini counts n pop
  | .entropy => getEntropy counts n pop
  | .mse => .error .typeError

/-- `get_impurity` on a regression pile — `criteria.py:157-168, 288-294`. Gini or entropy of a pile is not modelled: no
caller in the repository asks for it. -/
def regImpurity (m : Criterion) (pile : Pile K) (pop : Option Nat) : Except Err (XF K × XF K) :=
  match m with
  | .mse => getMse pile pop
  | _ => .error (.unmodelled "classification criterion on a regression pile")

/-- Two tables' rows added, `h.left[0, :] + h.right[0, :]` — `criteria.py:307`. -/
def addRows (a b : List Nat) : List Nat := List.zipWith (· + ·) a b

/-- Weighted terms of one bin edge — `criteria.py:268-303`: `(wl*IL, wl²*V_IL, wr*IR, wr²*V_IR)`. `n = 0` raises
ZeroDivisionError (python integers). `left_size = int(left_sum * pop / n)`. -/
def edgeTerms (f : Bool → Nat → Option Nat → Except Err (XF K × XF K)) (ls rs n : Nat) (pop : Option Nat) :
    Except Err ((XF K × XF K) × (XF K × XF K)) :=
  if n = 0 then .error .zeroDivision
  else
    let wl : XF K := .fin ((ls : K) / (n : K))
    let wr : XF K := .fin ((rs : K) / (n : K))
    match f true ls (pop.map (fun s => ls * s / n)) with
    | .error e => .error e
    | .ok (il, vl) =>
      match f false rs (pop.map (fun s => rs * s / n)) with
      | .error e => .error e
      | .ok (ir, vr) => .ok ((wl.mul il, (wl.mul wl).mul vl), (wr.mul ir, (wr.mul wr).mul vr))

/-- The loop over the requested bin edges — `criteria.py:265-303`. -/
def edgeLoop (f : Nat → Bool → Nat → Option Nat → Except Err (XF K × XF K)) (sums : Nat → Option (Nat × Nat)) (n : Nat)
    (pop : Option Nat) : List Nat → Except Err (List ((XF K × XF K) × (XF K × XF K)))
  | [] => .ok []
  | b :: bs =>
    match sums b with
    | none => .error .indexError
    | some (ls, rs) =>
      match edgeTerms (f b) ls rs n pop with
      | .error e => .error e
      | .ok t =>
        match edgeLoop f sums n pop bs with
        | .error e => .error e
        | .ok ts => .ok (t :: ts)

/-- Estimated reduction and its variance from the weighted terms — `criteria.py:318-323`. -/
def combineEdge (ic vc : XF K) (t : (XF K × XF K) × (XF K × XF K)) : XF K × XF K :=
  ((t.1.1.add t.2.1).sub ic, (t.1.2.add t.2.2).add vc)

/-- `get_impurity_reductions(..., ret_vars=True)` for classification, `VECTORIZE = False` — `criteria.py:249-323`.
The current impurity uses `n = left_sum + right_sum` of the *last* edge visited (line 307). An empty `bins` leaves
`left_sum` unbound (NameError). -/
def clsReductions (h : Hist K) (bins : List Nat) (m : Criterion) (pop : Option Nat) :
    Except Err (List (XF K × XF K)) :=
  if h.numBins < bins.length then .error (.assertion "more bin edges than bins")
  else
    match h.left[0]?, h.right[0]? with
    | some l0, some r0 =>
      let n := l0.sum + r0.sum
      let sums : Nat → Option (Nat × Nat) := fun b =>
        match h.left[b]?, h.right[b]? with
        | some l, some r => some (l.sum, r.sum)
        | _, _ => none
      let f : Nat → Bool → Nat → Option Nat → Except Err (XF K × XF K) := fun b side s p =>
        clsImpurity m (if side then h.left.getD b [] else h.right.getD b []) s p
      match edgeLoop f sums n pop bins with
      | .error e => .error e
      | .ok ts =>
        match bins.getLast?.bind sums with
        | none => .error .nameError
        | some (ls, rs) =>
          match clsImpurity m (addRows l0 r0) (ls + rs) pop with
          | .error e => .error e
          | .ok (ic, vc) => .ok (ts.map (combineEdge ic vc))
    | _, _ => .error .indexError

/-- `get_impurity_reductions(..., ret_vars=True)` for regression, `VECTORIZE = False` — `criteria.py:249-323`. -/
def regReductions (h : Hist K) (bins : List Nat) (m : Criterion) (pop : Option Nat) :
    Except Err (List (XF K × XF K)) :=
  if h.numBins < bins.length then .error (.assertion "more bin edges than bins")
  else
    match h.leftPile[0]?, h.rightPile[0]? with
    | some l0, some r0 =>
      let n := l0.n + r0.n
      let sums : Nat → Option (Nat × Nat) := fun b =>
        match h.leftPile[b]?, h.rightPile[b]? with
        | some l, some r => some (l.n, r.n)
        | _, _ => none
      let f : Nat → Bool → Nat → Option Nat → Except Err (XF K × XF K) := fun b side _ p =>
        regImpurity m (if side then h.leftPile.getD b Pile.zero else h.rightPile.getD b Pile.zero) p
      match edgeLoop f sums n pop bins with
      | .error e => .error e
      | .ok ts =>
        match regImpurity m h.currPile pop with
        | .error e => .error e
        | .ok (ic, vc) => .ok (ts.map (combineEdge ic vc))
    | _, _ => .error .indexError

/-- `get_impurity_reductions` — `criteria.py:171-324`. -/
def impurityReductions (h : Hist K) (bins : List Nat) (m : Criterion) (pop : Option Nat) :
    Except Err (List (XF K × XF K)) :=
  if h.isCls then clsReductions h bins m pop else regReductions h bins m pop

end FF
