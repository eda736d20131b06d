import Verif.Model.Utils

/-!
# `utils/solvers.py`
-/

namespace FF

variable {K : Type} [Field K] [LinearOrder K] [FloorRing K] [NpFun K] {G : Type}

/-- `list(itertools.product(range(F), range(B)))` — `solvers.py:207,327`. -/
def allArms (F B : Nat) : List Arm := (List.range F).flatMap (fun f => (List.range B).map (fun b => (f, b)))

/-- `f2bin_dict[feature].append(bin_edge)` — `solvers.py:108`; an insertion-ordered dictionary. -/
def insertArm (d : List (Nat × List Nat)) (a : Arm) : List (Nat × List Nat) :=
  if d.any (fun p => p.1 = a.1) then d.map (fun p => if p.1 = a.1 then (p.1, p.2 ++ [a.2]) else p)
  else d ++ [(a.1, [a.2])]

/-- `f2bin_dict` — `solvers.py:100-108`. -/
def groupArms (arms : List Arm) : List (Nat × List Nat) := arms.foldl insertArm []

/-- What the loop of `sample_targets` accumulates — `solvers.py:137-157`. -/
structure SampleAcc (K : Type) where
  hists : List (Hist K)
  reds : List (XF K)
  cbs : List (XF K)
  nq : Nat
  deriving Repr

/-- The loop of `sample_targets` over the features — `solvers.py:138-157`. -/
def sampleLoop (samples : List (List K)) (slabels : List K) (m : Criterion) (pop : Option Nat) :
    List (Nat × List Nat) → SampleAcc K → Except Err (SampleAcc K)
  | [], acc => .ok acc
  | (f, bins) :: rest, acc =>
    match acc.hists[f]? with
    | none => .error .indexError
    | some h =>
      match h.add samples slabels with
      | .error e => .error e
      | .ok h' =>
        match impurityReductions h' bins m pop with
        | .error e => .error e
        | .ok rs =>
          sampleLoop samples slabels m pop rest
            { hists := acc.hists.set f h'
              reds := acc.reds ++ rs.map Prod.fst
              cbs := acc.cbs ++ rs.map (fun r => r.2.sqrt)
              nq := acc.nq + samples.length }

/-- Result of `sample_targets` (`solvers.py:160`) plus the mutated histograms and generator, and the sample indices drawn
(an observation the code does not return; used in statements about sampling). -/
structure SampleOut (K G : Type) where
  acc : SampleAcc K
  pop : Option (List Nat)
  g : G
  drawn : List Nat

/-- The draw of `sample_targets` — `solvers.py:115-133`: (sample indices, population size for the finite population
correction, remaining population, generator). `popIdcs = none` means sampling with replacement. -/
def drawSamples (R : Rng K G) (g : G) (N batch : Nat) (popIdcs : Option (List Nat)) :
    Except Err (List Nat × Option Nat × Option (List Nat) × G) :=
  match popIdcs with
  | none =>
    if N ≤ batch then .ok (List.range N, some N, none, g)
    else
      match rngChoiceRep R g (List.range N) 0 batch with
      | .error e => .error e
      | .ok (s, g') => .ok (s, none, none, g')
  | some p =>
    if p.length ≤ batch then .ok (p, some N, some [], g)
    else
      let idcs := (R.choice g p.length batch).1
      .ok (idcs.map (fun i => p.getD i 0), some N, some (npDelete p idcs), (R.choice g p.length batch).2)

/-- `sample_targets` — `solvers.py:71-160`. -/
def sampleTargets (R : Rng K G) (g : G) (data : List (List K)) (labels : List K) (arms : List Arm)
    (hists : List (Hist K)) (batch : Nat) (m : Criterion) (popIdcs : Option (List Nat)) :
    Except Err (SampleOut K G) :=
  match drawSamples R g data.length batch popIdcs with
  | .error e => .error e
  | .ok (idcs, pop, popIdcs', g') =>
    match takeE data [] idcs with
    | .error e => .error e
    | .ok samples =>
      match takeE labels 0 idcs with
      | .error e => .error e
      | .ok slabels =>
        match sampleLoop samples slabels m pop (groupArms arms) { hists := hists, reds := [], cbs := [], nq := 0 } with
        | .error e => .error e
        | .ok acc => .ok { acc := acc, pop := popIdcs', g := g', drawn := idcs }

/-- A float array of shape `(F, B)`, as a function of the arm. -/
abbrev Mat (K : Type) := Arm → XF K

/-- `np.empty((F, B))` with the given uninitialised contents — `solvers.py:208, 328-330`. An array of that shape has no other
entries; the function is NaN elsewhere. -/
def npEmpty (F B : Nat) (junk : Mat K) : Mat K := fun x => if x.1 < F ∧ x.2 < B then junk x else .nan

/-- `a[accesses] = vals` for distinct arms — e.g. `solvers.py:235`: IndexError if an arm is outside `(F, B)`, ValueError
(cannot broadcast) if the lengths differ. (Broadcasting of a length-one right hand side is not modelled; the solver theorems
show that the lengths always agree.) -/
def assignMat (F B : Nat) (a : Mat K) (arms : List Arm) (vals : List (XF K)) : Except Err (Mat K) :=
  if arms.all (fun x => decide (x.1 < F) && decide (x.2 < B)) then
    if vals.length = arms.length then
      .ok (fun x => if x ∈ arms then vals.getD (arms.idxOf x) .nan else a x)
    else .error .valueError
  else .error .indexError

/-- `a[accesses] = v` for a scalar `v` — `solvers.py:226,352,353`. -/
def fillMat (F B : Nat) (a : Mat K) (arms : List Arm) (v : XF K) : Except Err (Mat K) :=
  if arms.all (fun x => decide (x.1 < F) && decide (x.2 < B)) then
    .ok (fun x => if x ∈ arms then v else a x)
  else .error .indexError

/-- The flattened array. -/
def flatMat (F B : Nat) (a : Mat K) : List (XF K) := (allArms F B).map a

/-- A split decision: feature (position among the node's features), threshold, estimated reduction. -/
structure SplitRes (K : Type) where
  feat : Nat
  value : K
  red : XF K
  deriving DecidableEq, Repr

/-- The final choice — `solvers.py:253-260` and `459-476` — for an already selected arm. -/
def finishSplit (hists : List (Hist K)) (est : Mat K) (arm : Arm) : Except Err (Option (SplitRes K)) :=
  match hists[arm.1]? with
  | none => .error .indexError
  | some h =>
    match h.edges with
    | none => .error (.attributeError "bin_edges")
    | some edges =>
      match edges[arm.2]? with
      | none => .error .indexError
      | some v =>
        if (est arm).lt (.fin 0) then .ok (some { feat := arm.1, value := v, red := est arm }) else .ok none

/-- The arms whose estimate equals the smallest non-NaN estimate, in row-major order — `solvers.py:249-252, 454-457`.
ValueError if the array is empty. -/
def bestArms (F B : Nat) (est : Mat K) : Except Err (List Arm) :=
  match XF.nanmin (flatMat F B est) with
  | none => .error .valueError
  | some m => .ok ((allArms F B).filter (fun a => (est a).eqv m))

/-- `solve_exactly` — `solvers.py:163-260`. `junk` is the content of the uninitialised array `np.empty((F, B))`.
`min_impurity_reduction` is always its default 0. Returns the split (or none) and the number of queries. `g` is the global
`np.random` state (RANDOM bins). The module-level default generator of `sample_targets` is never drawn from, because the
batch is the whole population. -/
def solveExactly (R : Rng K G) (g : G) (junk : Mat K) (data : List (List K)) (labels : List K)
    (minmax : Option (List K × List K)) (d : DiscDict K) (binType : Option BinType) (numBins : Option Nat)
    (isCls : Bool) (m : Criterion) : Except Err (Option (SplitRes K) × Nat × G) :=
  match data with
  | [] => .error .indexError
  | row :: _ =>
    let F := row.length
    match (if binType = some .identity then some data.length else numBins) with
    | none => .error .typeError
    | some B =>
      match makeHistograms R g isCls data labels minmax d binType B with
      | .error e => .error e
      | .ok hs =>
        match fillMat F B (npEmpty F B junk) hs.notCons .pinf with
        | .error e => .error e
        | .ok est0 =>
          let cands := if hs.notCons.length > 0 then hs.cons else allArms F B
          if cands = [] then .error .indexError
          else
            match sampleTargets R hs.g data labels cands hs.hists data.length m (some (List.range data.length)) with
            | .error e => .error e
            | .ok out =>
              match assignMat F B est0 cands out.acc.reds with
              | .error e => .error e
              | .ok est =>
                match bestArms F B est with
                | .error e => .error e
                | .ok [] => .error .stopIteration
                | .ok (arm :: _) =>
                  match finishSplit out.acc.hists est arm with
                  | .error e => .error e
                  | .ok r => .ok (r, out.acc.nq, hs.g)

/-- The local variables of the loop of `solve_mab`. -/
structure MabState (K G : Type) where
  cands : List Arm
  est : Mat K
  lcb : Mat K
  ucb : Mat K
  cbDelta : Mat K
  numSamples : Arm → Nat
  exact : Arm → Bool
  hists : List (Hist K)
  pop : Option (List Nat)
  total : Nat
  g : G
  rounds : Nat
  /-- all sample index lists drawn so far (ghost, for statements about sampling) -/
  log : List (List Nat)

/-- `ndarray.min()` of an `(F, B)` array (`none` = ValueError on an empty array). -/
def matMin (F B : Nat) (a : Mat K) : Except Err (XF K) :=
  match XF.minArr (flatMat F B a) with
  | none => .error .valueError
  | some m => .ok m

/-- `budget is not None and budget - total_queries <= 0` — `solvers.py:389, 432`. -/
def overBudget (budget : Option Int) (total : Nat) : Bool :=
  match budget with
  | none => false
  | some b => decide (b - (total : Int) ≤ 0)

/-- What one pass through the loop body decides. -/
inductive Loop (S : Type) where
  | done (s : S)
  | next (s : S)

/-- The arms to compute exactly — `solvers.py:363-365`. -/
def exactArms (F B N batch : Nat) (s : MabState K G) : List Arm :=
  (allArms F B).filter (fun a => decide (N ≤ s.numSamples a + batch) && !(s.exact a))

/-- The exact computation inside the loop (with replacement only) — `solvers.py:361-394`. -/
def mabExactPart (R : Rng K G) (F B : Nat) (data : List (List K)) (labels : List K) (m : Criterion)
    (withRep : Bool) (budget : Option Int) (batch : Nat) (s : MabState K G) : Except Err (Loop (MabState K G)) :=
  if withRep then
    let ea := exactArms F B data.length batch s
    if 0 < ea.length then
      match sampleTargets R s.g data labels ea (emptyHistograms s.hists ea) data.length m none with
      | .error e => .error e
      | .ok out =>
        match assignMat F B s.est ea out.acc.reds with
        | .error e => .error e
        | .ok est =>
          let lcb : Mat K := fun x => if x ∈ ea then est x else s.lcb x
          let ucb : Mat K := fun x => if x ∈ ea then est x else s.ucb x
          let exact : Arm → Bool := fun x => if x ∈ ea then true else s.exact x
          match matMin F B ucb with
          | .error e => .error e
          | .ok mu =>
            match matMin F B lcb with
            | .error e => .error e
            | .ok ml =>
              let s' : MabState K G :=
                { s with
                  cands := (allArms F B).filter (fun a => (lcb a).lt mu && !(exact a))
                  est := est, lcb := lcb, ucb := ucb, exact := exact
                  numSamples := fun x => if x ∈ ea then s.numSamples x + data.length else s.numSamples x
                  hists := out.acc.hists
                  total := s.total + out.acc.nq
                  log := s.log ++ [out.drawn] }
              if overBudget budget s'.total then .ok (.done s')
              else if (XF.fin 0).lt ml then .ok (.done s')
              else .ok (.next s')
    else .ok (.next s)
  else .ok (.next s)

/-- The sampling part of the loop — `solvers.py:396-452`. -/
def mabSamplePart (R : Rng K G) (F B : Nat) (data : List (List K)) (labels : List K) (m : Criterion)
    (epsilon : K) (budget : Option Int) (batch : Nat) (s : MabState K G) : Except Err (Loop (MabState K G)) :=
  if s.cands.length ≤ 1 then .ok (.done s)
  else if s.pop = some [] then .ok (.done { s with lcb := s.est, ucb := s.est })
  else
    match sampleTargets R s.g data labels s.cands s.hists batch m s.pop with
    | .error e => .error e
    | .ok out =>
      match assignMat F B s.est s.cands out.acc.reds with
      | .error e => .error e
      | .ok est =>
        match assignMat F B s.cbDelta s.cands out.acc.cbs with
        | .error e => .error e
        | .ok cbd =>
          let lcb : Mat K := fun x => if x ∈ s.cands then (est x).sub ((XF.fin 1).mul (cbd x)) else s.lcb x
          let ucb : Mat K := fun x => if x ∈ s.cands then (est x).add ((XF.fin 1).mul (cbd x)) else s.ucb x
          let s' : MabState K G :=
            { s with
              est := est, cbDelta := cbd, lcb := lcb, ucb := ucb
              numSamples := fun x => if x ∈ s.cands then s.numSamples x + batch else s.numSamples x
              hists := out.acc.hists
              pop := out.pop
              g := out.g
              total := s.total + out.acc.nq
              log := s.log ++ [out.drawn] }
          if overBudget budget s'.total then .ok (.done s')
          else
            match matMin F B lcb with
            | .error e => .error e
            | .ok ml =>
              if (XF.fin 0).lt ml then .ok (.done s')
              else
                match XF.argmin (flatMat F B est) with
                | none => .error .valueError
                | some mi =>
                  let minArm := (allArms F B).getD mi (0, 0)
                  let thr := (XF.fin (1 - epsilon)).mul (est minArm)
                  match matMin F B ucb with
                  | .error e => .error e
                  | .ok mu =>
                    .ok (.next { s' with
                      cands := (allArms F B).filter (fun a =>
                        !(s'.exact a) && (lcb a).lt mu && (lcb a).lt (.fin 0) &&
                          (!((est a).lt thr) || decide (a = minArm)))
                      rounds := s.rounds + 1 })

/-- One pass through the loop body — `solvers.py:357-452`. -/
def mabStep (R : Rng K G) (F B : Nat) (data : List (List K)) (labels : List K) (m : Criterion) (epsilon : K)
    (withRep : Bool) (budget : Option Int) (batch : Nat) (s : MabState K G) : Except Err (Loop (MabState K G)) :=
  match mabExactPart R F B data labels m withRep budget batch s with
  | .error e => .error e
  | .ok (.done s') => .ok (.done s')
  | .ok (.next s') => mabSamplePart R F B data labels m epsilon budget batch s'

/-- `while len(candidates) > 5` — `solvers.py:357`; `fuel` bounds the number of passes. -/
def mabLoop (R : Rng K G) (F B : Nat) (data : List (List K)) (labels : List K) (m : Criterion) (epsilon : K)
    (withRep : Bool) (budget : Option Int) (batch : Nat) : Nat → MabState K G → Except Err (MabState K G)
  | 0, s => if s.cands.length > 5 then .error .outOfFuel else .ok s
  | fuel + 1, s =>
    if s.cands.length > 5 then
      match mabStep R F B data labels m epsilon withRep budget batch s with
      | .error e => .error e
      | .ok (.done s') => .ok s'
      | .ok (.next s') => mabLoop R F B data labels m epsilon withRep budget batch fuel s'
    else .ok s

/-- Contents of the three uninitialised arrays of `solve_mab` (`np.empty`, `solvers.py:328-330`). -/
structure Junk (K : Type) where
  est : Mat K
  lcb : Mat K
  ucb : Mat K

/-- Everything `solve_mab` leaves behind. -/
structure MabOut (K G : Type) where
  split : Option (SplitRes K)
  total : Nat
  g : G
  glob : Glob G
  final : MabState K G

/-- Local variables before the loop — `solvers.py:321-356`. -/
def mabInit (F B N : Nat) (junk : Junk K) (withRep : Bool) (hs : Hists K G) (g : G) :
    Except Err (MabState K G) :=
  match fillMat F B (npEmpty F B junk.est) hs.notCons .pinf, fillMat F B (npEmpty F B junk.ucb) hs.notCons .pinf,
      fillMat F B (npEmpty F B junk.lcb) hs.notCons .ninf with
  | .ok est, .ok ucb, .ok lcb =>
    .ok { cands := if hs.notCons.length > 0 then hs.cons else allArms F B
          est := est, lcb := lcb, ucb := ucb, cbDelta := fun _ => .fin 0
          numSamples := fun _ => 0
          exact := fun a => decide (a ∈ hs.notCons)
          hists := hs.hists
          pop := if withRep then none else some (List.range N)
          total := 0, g := g, rounds := 0, log := [] }
  | _, _, _ => .error .indexError

/-- The choice among the tied best arms with python's `random.choice` — `solvers.py:454-476`. -/
def mabFinish (R : Rng K G) (F B : Nat) (glob : Glob G) (s : MabState K G) : Except Err (MabOut K G) :=
  match bestArms F B s.est with
  | .error e => .error e
  | .ok arms =>
    if arms.length = 0 then .error .indexError
    else
      let pc := R.pyChoice glob.py arms.length
      match finishSplit s.hists s.est (arms.getD pc.1 (0, 0)) with
      | .error e => .error e
      | .ok r => .ok { split := r, total := s.total, g := s.g, glob := { glob with py := pc.2 }, final := s }

/-- Passes through the loop that always suffice (see the termination theorem): one per arm and data point. -/
def mabFuel (F B N : Nat) : Nat := F * B * (N + 1) + N + 2

/-- `solve_mab` — `solvers.py:263-476`. `junk` gives the contents of the uninitialised arrays, `g` the tree's generator,
`glob` the process-wide generators. `min_impurity_reduction` is always its default 0. -/
def solveMab (R : Rng K G) (g : G) (glob : Glob G) (junk : Junk K) (data : List (List K)) (labels : List K)
    (minmax : Option (List K × List K)) (d : DiscDict K) (binType : Option BinType) (numBins : Option Nat)
    (isCls : Bool) (m : Criterion) (epsilon : K) (withRep : Bool) (budget : Option Int) (batch : Nat) :
    Except Err (MabOut K G) :=
  match data with
  | [] => .error .indexError
  | row :: _ =>
    let F := row.length
    if binType = some .identity then .error (.exception "You're running solve_mab without histogramming")
    else
      match numBins with
      | none => .error .typeError
      | some B =>
        match makeHistograms R glob.np isCls data labels minmax d binType B with
        | .error e => .error e
        | .ok hs =>
          match mabInit F B data.length junk withRep hs g with
          | .error e => .error e
          | .ok s0 =>
            match mabLoop R F B data labels m epsilon withRep budget batch (mabFuel F B data.length) s0 with
            | .error e => .error e
            | .ok s => mabFinish R F B { glob with np := hs.g } s

/-- `verify_reduction` — `solvers.py:34-68`; `TOLERANCE = -0.1` (`constants.py:4`). -/
def verifyReduction (data : List (List K)) (labels : List K) (feature : Nat) (value : K) : Except Err Bool :=
  let cd := classToIdx (npUnique labels)
  match countsOfLabels cd labels with
  | .error e => .error e
  | .ok counts =>
    let imp := fun (cs : List Nat) (n : K) => 1 - (cs.map (fun (c : Nat) => ((c : K) / n) * ((c : K) / n))).sum
    let root := imp counts (labels.length : K)
    match colE data feature with
    | .error e => .error e
    | .ok col =>
      if col.length ≠ labels.length then .error .indexError
      else
        let ll := ((col.zip labels).filter (fun p => decide (p.1 ≤ value))).map Prod.snd
        let rl := ((col.zip labels).filter (fun p => decide (value < p.1))).map Prod.snd
        match countsOfLabels cd ll with
        | .error e => .error e
        | .ok lc =>
          if ll.length = 0 then .ok false
          else
            match countsOfLabels cd rl with
            | .error e => .error e
            | .ok rc =>
              if rl.length = 0 then .ok false
              else
                let ls : K := (lc.sum : Nat)
                let rs : K := (rc.sum : Nat)
                let split := (imp lc ls * ls + imp rc rs * rs) / (labels.length : K)
                .ok (decide (-(1 / 10) < root - split))

/-- `filter_tied_arms` — `solvers.py:479-496`: `np.setdiff1d` sorts and removes duplicates. `B = 0` with a non-empty result
is a ZeroDivisionError (integer numpy division warns and yields 0; the model follows numpy and uses `x // 0 = 0`). -/
def filterTiedArms (cands tied : List Arm) (B : Nat) : List Arm :=
  let c := cands.map (fun a => B * a.1 + a.2)
  let t := tied.map (fun a => B * a.1 + a.2)
  (((c.filter (fun x => !(t.contains x))).dedup).insertionSort (· ≤ ·)).map (fun x => (x / B, x % B))

end FF
