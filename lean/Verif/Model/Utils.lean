import Verif.Model.Criteria

/-!
# `utils/utils.py`
-/

namespace FF

variable {K : Type} [Field K] [LinearOrder K] [FloorRing K] [NpFun K] {G : Type}

/-- A class dictionary: pairs (class name, class index) in insertion order. -/
abbrev ClassDict (K : Type) := List (K × Nat)

/-- `count_occurrence` — `utils.py:40-48`. -/
def countOccurrence (c : K) (labels : List K) : Nat := (labels.filter (fun y => decide (y = c))).length

/-- `class_to_idx` — `utils.py:51-59`. -/
def classToIdx (classes : List K) : ClassDict K := classes.zip (List.range classes.length)

/-- Loop of `counts_of_labels` — `utils.py:72-74`: KeyError for an unknown class, IndexError for an index out of range. -/
def countsLoop (d : ClassDict K) (labels : List K) : List K → List Nat → Except Err (List Nat)
  | [], counts => .ok counts
  | c :: cs, counts =>
    match d.lookup c with
    | none => .error .keyError
    | some i =>
      if i < counts.length then countsLoop d labels cs (counts.set i (countOccurrence c labels))
      else .error .indexError

/-- `counts_of_labels` — `utils.py:62-75`. -/
def countsOfLabels (d : ClassDict K) (labels : List K) : Except Err (List Nat) :=
  countsLoop d labels (npUnique labels) (List.replicate d.length 0)

/-- Values collected for one feature — `utils.py:99-110`; `none` = more than 10 distinct values (the parameter `n` of the
function is ignored by the code). -/
def discreteVals : List K → List K → Option (List K)
  | [], seen => some seen
  | v :: vs, seen =>
    let seen' := if seen.contains v then seen else seen ++ [v]
    if seen'.length > 10 then none else discreteVals vs seen'

/-- `data_to_discrete(data, n)` — `utils.py:78-111`. The stored values are a python `set` (`isSet := true`; the order of
`vals` is not observable). `data[0]` on empty data is an IndexError. -/
def dataToDiscrete (data : List (List K)) (_n : Nat) : Except Err (List (Nat × DiscVals K)) :=
  match data with
  | [] => .error .indexError
  | row :: _ =>
    .ok ((List.range row.length).filterMap (fun f =>
      (discreteVals (data.map (fun r => r.getD f 0)) []).map (fun vs => (f, { isSet := true, vals := vs }))))

/-- `choose_bin_type` — `utils.py:114-128`; `D = none` is `float("inf")`. -/
def chooseBinType (D : Option Nat) (N B : Nat) : BinType :=
  match D with
  | some d => if d ≤ min N B then .discrete else if N ≤ B then .identity else .linear
  | none => if N ≤ B then .identity else .linear

/-- A dictionary of discrete features, a `defaultdict(list)` (or `None`). -/
abbrev DiscDict (K : Type) := Option (List (Nat × DiscVals K))

/-- `discrete_bins_dict[f]` if it is there and not empty — `utils.py:161-166`. -/
def discLookup (d : DiscDict K) (f : Nat) : Option (DiscVals K) :=
  match d with
  | none => none
  | some l =>
    match l.lookup f with
    | none => none
    | some v => if v.vals = [] then none else some v

/-- What `make_histograms` decides for one feature: `(min_bin, max_bin, num_bins)` — `utils.py:173-186`. `curBins` is the
current value of the local `num_bins`, which leaks from one feature to the next. -/
def binParams (data : List (List K)) (minmax : Option (List K × List K)) (d : DiscDict K) (uf : Option (DiscVals K))
    (bt : BinType) (f : Nat) (fData : List K) (curBins : Nat) : Except Err (K × K × Nat) :=
  match bt with
  | .discrete =>
    match d, uf with
    | none, _ => .error .typeError
    | some _, none => .error (.assertion "discrete_bins_dict[f_idx] is empty")
    | some _, some u => .ok (0, 0, u.vals.length)
  | .identity => .ok (0, 0, data.length)
  | .linear =>
    match minmax with
    | none =>
      match npMin fData, npMax fData with
      | some lo, some hi => .ok (lo, hi, curBins)
      | _, _ => .error .valueError
    | some (mins, maxs) =>
      match mins[f]?, maxs[f]? with
      | some lo, some hi => .ok (lo, hi, curBins)
      | _, _ => .error .indexError
  | .random =>
    match npMin fData, npMax fData with
    | some lo, some hi => .ok (lo, hi, curBins)
    | _, _ => .error .valueError

/-- An arm: (feature index, bin edge index). -/
abbrev Arm := Nat × Nat

/-- Result of `make_histograms` — `utils.py:208`. -/
structure Hists (K G : Type) where
  hists : List (Hist K)
  notCons : List Arm
  cons : List Arm
  numBins : Nat
  g : G

/-- One iteration of the loop of `make_histograms` — `utils.py:158-207`. -/
def makeHistStep (R : Rng K G) (isCls : Bool) (data : List (List K)) (classes : List K)
    (minmax : Option (List K × List K)) (d : DiscDict K) (binType : Option BinType) (B : Nat) (f : Nat)
    (st : Hists K G) : Except Err (Hists K G) :=
  match colE data f with
  | .error e => .error e
  | .ok fData =>
    let uf := discLookup d f
    let bt := match binType with
      | some t => t
      | none => chooseBinType (uf.map (fun u => u.vals.length)) data.length B
    match binParams data minmax d uf bt f fData st.numBins with
    | .error e => .error e
    | .ok (lo, hi, nb) =>
      match Hist.init R st.g isCls f uf fData classes nb lo hi bt with
      | .error e => .error e
      | .ok (h, g') =>
        .ok { hists := st.hists ++ [h]
              notCons := st.notCons ++ (List.range' h.numBins (B - h.numBins)).map (fun b => (f, b))
              cons := st.cons ++ (List.range h.numBins).map (fun b => (f, b))
              numBins := nb
              g := g' }

/-- The loop of `make_histograms` over the features. -/
def makeHistLoop (R : Rng K G) (isCls : Bool) (data : List (List K)) (classes : List K)
    (minmax : Option (List K × List K)) (d : DiscDict K) (binType : Option BinType) (B : Nat) :
    List Nat → Hists K G → Except Err (Hists K G)
  | [], st => .ok st
  | f :: fs, st =>
    match makeHistStep R isCls data classes minmax d binType B f st with
    | .error e => .error e
    | .ok st' => makeHistLoop R isCls data classes minmax d binType B fs st'

/-- `make_histograms` — `utils.py:131-208`. `g` is the global `np.random` state (used by RANDOM bins only). -/
def makeHistograms (R : Rng K G) (g : G) (isCls : Bool) (data : List (List K)) (labels : List K)
    (minmax : Option (List K × List K)) (d : DiscDict K) (binType : Option BinType) (B : Nat) :
    Except Err (Hists K G) :=
  match data with
  | [] => .error .indexError
  | row :: _ =>
    makeHistLoop R isCls data (if isCls then npUnique labels else []) minmax d binType B (List.range row.length)
      { hists := [], notCons := [], cons := [], numBins := B, g := g }

/-- The parameter `feature_subsampling`: `None`, `"SQRT"`, an int or a float. -/
inductive FeatSub (K : Type) where
  | none
  | sqrt
  | int (k : Nat)
  | float (x : K)
  deriving DecidableEq, Repr

/-- `math.ceil(math.sqrt(F))`: the least `k` with `F ≤ k * k`. -/
def ceilSqrt (n : Nat) : Nat := ((List.range (n + 1)).find? (fun k => decide (n ≤ k * k))).getD 0

/-- How many features `choose_features` asks for; `none` = all of them. A negative request is a ValueError. -/
def featCount (F : Nat) : FeatSub K → Except Err (Option Nat)
  | .none => .ok Option.none
  | .sqrt => .ok (some (ceilSqrt F))
  | .int k => .ok (some k)
  | .float x => if ⌈x * (F : K)⌉ < 0 then .error .valueError else .ok (some (⌈x * (F : K)⌉).toNat)

/-- `choose_features` — `utils.py:211-238`. Returns the chosen features and the advanced generator. -/
def chooseFeatures (R : Rng K G) (g : G) (feats : List Nat) (sub : FeatSub K) : Except Err (List Nat × G) :=
  match featCount feats.length sub with
  | .error e => .error e
  | .ok none => .ok (feats, g)
  | .ok (some k) => rngChoice R g feats 0 k

/-- `remap_discrete_features` — `utils.py:241-259`. Missing keys of the `defaultdict` read as the empty list. (They are also inserted into the
caller's dictionary, which nothing can notice, as empty lists count as missing; a plain `dict` would raise KeyError, which is not modelled.)
`Node.__init__` calls it (node.py:55-58) and then overwrites the result (line 75), so `Node.init` leaves the call out. -/
def remapDiscrete (feats : List Nat) (d : List (Nat × DiscVals K)) : List (Nat × DiscVals K) :=
  if d.length = 0 then []
  else feats.zipIdx.map (fun p => (p.2, (d.lookup p.1).getD { isSet := false, vals := [] }))

/-- `empty_histograms` — `utils.py:262-269`. -/
def emptyHistograms (hs : List (Hist K)) (arms : List Arm) : List (Hist K) :=
  hs.mapIdx (fun f h => if arms.any (fun a => a.1 = f) then h.emptySamples else h)

/-- `get_subset_2d` — `utils.py:272-281`. The jitted code does not check bounds; the model raises IndexError instead. -/
def getSubset2d (src : List (List K)) (rows cols : List Nat) : Except Err (List (List K)) :=
  if rows.all (fun i => decide (i < src.length) && cols.all (fun j => decide (j < (src.getD i []).length))) then
    .ok (rows.map (fun i => cols.map (fun j => (src.getD i []).getD j 0)))
  else .error .indexError

end FF
