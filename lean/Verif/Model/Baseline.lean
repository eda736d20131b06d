import Verif.Model.Compare

/-!
# `experiments/sklearn_exps/compare_baseline_implementations.py`

Models of this repository against those of scikit-learn. The other library is a parameter: a function from the settings, the data and the
targets to the fitted model. It is taken to keep its arguments as they are and to be determined by them (`random_state` is always given).
Printing is not modelled; the file is the dictionary that was written (`str` and `ast.literal_eval` are taken to be inverse).
-/

namespace FF

variable {K : Type} [Field K] [LinearOrder K] [FloorRing K] [NpFun K] {G : Type}

/-- The values of `compare` — `compare_baseline_implementations.py:47,74,104,132,161,193`. Any other value is a
NotImplementedError (`223-224`) in the first round, and is not represented here. -/
inductive BaseKind where
  | rfc | erfc | rfr | erfr | gbrfr | gbhrfr
  deriving DecidableEq, Repr

/-- Our model — `compare_baseline_implementations.py:48,75,105,133,162,195`. -/
def BaseKind.wrapper : BaseKind → Wrapper
  | .rfc => .forestC
  | .erfc => .extraC
  | .rfr => .forestR
  | .erfr => .extraR
  | .gbrfr => .gbForestR
  | .gbhrfr => .extraR

/-- Its parameters — `compare_baseline_implementations.py:48-62`, `75-90`, `105-119`, `133-148`, `162-179`, `195-210`. Parameters that are not
given have their default values. -/
def BaseKind.args (k : BaseKind) (seed : Nat) : WrapArgs K where
  nEstimators := 5
  maxDepth := .some 5
  numBins := match k with
    | .erfc | .erfr => some 1
    | .gbhrfr => none
    | _ => some 11
  minSamplesSplit := 2
  minImpDec := 0
  maxLeafNodes := none
  budget := none
  criterion := if k.wrapper.isCls then .gini else .mse
  splitter := .best
  solver := .exact
  randomState := seed
  withRep := false
  boostingLr := match k with
    | .gbrfr => some (1 / 10)
    | _ => none
  alphaN := none
  alphaF := none
  bootstrap := false

/-- The kinds of models of the other library. -/
inductive LibFamily where
  | forest | extraTrees | boosting
  deriving DecidableEq, Repr

/-- The settings of a model of the other library. `sqrtFeatures`: `max_features` is `"sqrt"`, or the default for a classifier, which means
the same; otherwise all columns are looked at. -/
structure LibArgs (K : Type) where
  family : LibFamily
  isCls : Bool
  trees : Nat
  maxDepth : Nat
  minSamplesSplit : Nat
  minImpDec : K
  maxLeafNodes : Option Nat
  bootstrap : Bool
  sqrtFeatures : Bool
  lr : Option K
  seed : Nat
  deriving DecidableEq, Repr

/-- Their model — `compare_baseline_implementations.py:63-73`, `91-103`, `120-131`, `149-160`, `180-191`, `211-222`.
Parameters that are not given have the other library's defaults: `bootstrap=True` for `RandomForestClassifier`, no limit on the leaves. -/
def BaseKind.libArgs (k : BaseKind) (seed : Nat) : LibArgs K where
  family := match k with
    | .rfc | .rfr => .forest
    | .erfc | .erfr | .gbhrfr => .extraTrees
    | .gbrfr => .boosting
  isCls := match k with
    | .rfc | .erfc => true
    | _ => false
  trees := match k with
    | .gbhrfr => 1
    | _ => 5
  maxDepth := 5
  minSamplesSplit := 2
  minImpDec := 0
  maxLeafNodes := none
  bootstrap := match k with
    | .rfc | .rfr => true
    | _ => false
  sqrtFeatures := match k with
    | .rfc | .erfc | .gbrfr => true
    | _ => false
  lr := match k with
    | .gbrfr => some (1 / 10)
    | _ => none
  seed := seed

/-- The other library: settings, data and targets give a model, which answers points. -/
abbrev Lib (K : Type) := LibArgs K → List (List K) → List K → List K → K

/-- The arguments of `compare_accuracies` — `compare_baseline_implementations.py:33-40`. -/
structure BaseCmp (K : Type) where
  kind : BaseKind
  data : List (List K)
  ref : Nat
  testData : List (List K)
  testRef : Nat

/-- Our side as a comparison of `compare_budgets` with test scores; only the scores are used. -/
def BaseCmp.cmp (c : BaseCmp K) (seed : Nat) : Cmp K where
  kind := c.kind.wrapper
  args := c.kind.args seed
  data := c.data
  ref := c.ref
  testData := c.testData
  testRef := c.testRef
  predict := true
  runTheirs := false

/-- The four numbers of one round. -/
structure BaseRow (K : Type) where
  ourTrain : K
  ourTest : K
  theirTrain : K
  theirTest : K
  deriving DecidableEq, Repr

/-- Their scores — `compare_baseline_implementations.py:237-238`, `252-257`. -/
def libScores (isCls : Bool) (m : List K → K) (data testData : List (List K)) (targets testTargets : List K) : Except Err (K × K) :=
  match cmpScore isCls (data.map (fun x => Pred.reg (m x))) targets with
  | .error e => .error e
  | .ok train =>
    match cmpScore isCls (testData.map (fun x => Pred.reg (m x))) testTargets with
    | .error e => .error e
    | .ok test => .ok (train, test)

/-- One round of the loop over the seeds — `compare_baseline_implementations.py:45-270`. Our model is fitted first; both models are then
measured. -/
def baseRound (R : Rng K G) (mem : Nat → Nat → Junk K) (lib : Lib K) (c : BaseCmp K) (seed : Nat) (w : World K G) :
    Except Err (BaseRow K × World K G) :=
  match Wrapper.init R c.kind.wrapper (c.kind.args seed) w (some c.data) (some c.ref) with
  | .error e => .error e
  | .ok (ours, w1) =>
    match ours.fit R mem w1 none none with
    | .error e => .error e
    | .ok (ours', w2) =>
      let theirs := lib (c.kind.libArgs seed) c.data (w2.arrays.getD c.ref [])
      match cmpMeasure (c.cmp seed) w2 ours'.forest with
      | .error e => .error e
      | .ok s =>
        match libScores c.kind.wrapper.isCls theirs c.data c.testData (w2.arrays.getD c.ref []) (w2.arrays.getD c.testRef []) with
        | .error e => .error e
        | .ok (tr, te) =>
          match s.test with
          | none => .error .nameError
          | some t => .ok (⟨s.train, t, tr, te⟩, w2)

/-- The loop over the seeds — `compare_baseline_implementations.py:45`. -/
def baseRounds (R : Rng K G) (mem : Nat → Nat → Nat → Junk K) (lib : Lib K) (c : BaseCmp K) :
    List Nat → World K G → Except Err (List (BaseRow K) × World K G)
  | [], w => .ok ([], w)
  | seed :: seeds, w =>
    match baseRound R (mem seed) lib c seed w with
    | .error e => .error e
    | .ok (row, w1) =>
      match baseRounds R mem lib c seeds w1 with
      | .error e => .error e
      | .ok (rows, w2) => .ok (row :: rows, w2)

/-- The dictionary `results`: the lists and `overlap` (the averages and deviations in it are those of the lists) —
`compare_baseline_implementations.py:272-300`. -/
structure BaseResult (K : Type) where
  rows : List (BaseRow K)
  overlap : Bool
  deriving DecidableEq, Repr

/-- `overlap` — `compare_baseline_implementations.py:285`; `np.std` is not divided by the square root of the number of seeds. -/
def baseOverlap (ours theirs : List K) : Bool :=
  decide (|npMean theirs - npMean ours| < NpFun.sqrt (npVar theirs) + NpFun.sqrt (npVar ours))

/-- What a call leaves: the dictionary, whether it said that the file was reproduced, and the file. -/
structure BaseOut (K : Type) where
  result : BaseResult K
  reproduced : Bool
  file : Option (BaseResult K)
  deriving DecidableEq, Repr

/-- `compare_accuracies` — `compare_baseline_implementations.py:33-322`; `file` is the file found at the start (`301-311`). Averages of no
rounds are not modelled. -/
def compareBaseline (R : Rng K G) (mem : Nat → Nat → Nat → Junk K) (lib : Lib K) (c : BaseCmp K) (numSeeds : Nat)
    (file : Option (BaseResult K)) (w : World K G) : Except Err (BaseOut K × World K G) :=
  match baseRounds R mem lib c (List.range numSeeds) w with
  | .error e => .error e
  | .ok (rows, w') =>
    if rows = [] then .error (.unmodelled "averages of no rounds")
    else
      let r : BaseResult K := ⟨rows, baseOverlap (rows.map BaseRow.ourTest) (rows.map BaseRow.theirTest)⟩
      if file = some r then .ok (⟨r, true, file⟩, w') else .ok (⟨r, false, some r⟩, w')

end FF
