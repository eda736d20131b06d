import Verif.Model.Solvers

/-!
# The `while` loop of `solve_mab` as a relation

The model runs the loop with a bound on the number of passes (`mabLoop`). Here is the loop without any bound.
-/

namespace FF

variable {K : Type} [Field K] [LinearOrder K] [FloorRing K] [NpFun K] {G : Type}

/-- `s` can be the local state at the head of the loop, starting from `s0`. -/
inductive MabHead (R : Rng K G) (F B : Nat) (data : List (List K)) (labels : List K) (m : Criterion) (epsilon : K)
    (withRep : Bool) (budget : Option Int) (batch : Nat) (s0 : MabState K G) : MabState K G → Prop
  | init : MabHead R F B data labels m epsilon withRep budget batch s0 s0
  | step {s s' : MabState K G} (h : MabHead R F B data labels m epsilon withRep budget batch s0 s)
      (h5 : 5 < s.cands.length) (hs : mabStep R F B data labels m epsilon withRep budget batch s = .ok (.next s')) :
      MabHead R F B data labels m epsilon withRep budget batch s0 s'

/-- `s` can be the local state at the head of the loop or after a `break`. -/
def MabVisited (R : Rng K G) (F B : Nat) (data : List (List K)) (labels : List K) (m : Criterion) (epsilon : K)
    (withRep : Bool) (budget : Option Int) (batch : Nat) (s0 s : MabState K G) : Prop :=
  MabHead R F B data labels m epsilon withRep budget batch s0 s ∨
  ∃ s1, MabHead R F B data labels m epsilon withRep budget batch s0 s1 ∧ 5 < s1.cands.length ∧
    mabStep R F B data labels m epsilon withRep budget batch s1 = .ok (.done s)

/-- The loop, started in `s`, ends with `r` after exactly `n` passes. -/
inductive MabRuns (R : Rng K G) (F B : Nat) (data : List (List K)) (labels : List K) (m : Criterion) (epsilon : K)
    (withRep : Bool) (budget : Option Int) (batch : Nat) : MabState K G → Nat → Except Err (MabState K G) → Prop
  | stop {s : MabState K G} (h5 : ¬ 5 < s.cands.length) : MabRuns R F B data labels m epsilon withRep budget batch s 0 (.ok s)
  | raise {s : MabState K G} {e : Err} (h5 : 5 < s.cands.length)
      (hs : mabStep R F B data labels m epsilon withRep budget batch s = .error e) :
      MabRuns R F B data labels m epsilon withRep budget batch s 1 (.error e)
  | leave {s s' : MabState K G} (h5 : 5 < s.cands.length)
      (hs : mabStep R F B data labels m epsilon withRep budget batch s = .ok (.done s')) :
      MabRuns R F B data labels m epsilon withRep budget batch s 1 (.ok s')
  | again {s s' : MabState K G} {n : Nat} {r : Except Err (MabState K G)} (h5 : 5 < s.cands.length)
      (hs : mabStep R F B data labels m epsilon withRep budget batch s = .ok (.next s'))
      (hr : MabRuns R F B data labels m epsilon withRep budget batch s' n r) :
      MabRuns R F B data labels m epsilon withRep budget batch s (n + 1) r

/-- `s` can be the local state of `solve_mab` at the head of the loop or after a `break`, when it is called with these arguments
(`B` bins, no IDENTITY binning) and its histograms are `hs`. -/
def MabDuring (R : Rng K G) (g : G) (glob : Glob G) (junk : Junk K) (data : List (List K)) (labels : List K)
    (minmax : Option (List K × List K)) (d : DiscDict K) (binType : Option BinType) (B : Nat) (isCls : Bool) (m : Criterion)
    (epsilon : K) (withRep : Bool) (budget : Option Int) (batch : Nat) (hs : Hists K G) (s : MabState K G) : Prop :=
  ∃ row rest s0, data = row :: rest ∧ binType ≠ some .identity ∧
    makeHistograms R glob.np isCls data labels minmax d binType B = .ok hs ∧
    mabInit row.length B data.length junk withRep hs g = .ok s0 ∧
    MabVisited R row.length B data labels m epsilon withRep budget batch s0 s
/-- `solve_mab`, called with these arguments, makes a pass through its loop from local state `s` to local state `s'`. -/
def MabRound (R : Rng K G) (g : G) (glob : Glob G) (junk : Junk K) (data : List (List K)) (labels : List K)
    (minmax : Option (List K × List K)) (d : DiscDict K) (binType : Option BinType) (B : Nat) (isCls : Bool) (m : Criterion)
    (epsilon : K) (withRep : Bool) (budget : Option Int) (batch : Nat) (hs : Hists K G) (s s' : MabState K G) : Prop :=
  ∃ row rest s0, data = row :: rest ∧ binType ≠ some .identity ∧
    makeHistograms R glob.np isCls data labels minmax d binType B = .ok hs ∧
    mabInit row.length B data.length junk withRep hs g = .ok s0 ∧
    MabHead R row.length B data labels m epsilon withRep budget batch s0 s ∧ 5 < s.cands.length ∧
    mabStep R row.length B data labels m epsilon withRep budget batch s = .ok (.next s')

/-- The number of features that take two different values in the node. -/
def numVarying (data : List (List K)) (F : Nat) : Nat :=
  ((List.range F).filter (fun f => decide (∃ x ∈ data, ∃ y ∈ data, x.getD f 0 ≠ y.getD f 0))).length

/-- Two arms with overlapping confidence intervals (no interval that contains NaN overlaps another). -/
def overlap (s : MabState K G) (a b : Arm) : Bool := (s.lcb a).lt (s.ucb b) && (s.lcb b).lt (s.ucb a)

/-- The interval `[l, u]` contains the number `t`. -/
def Contains (l u : XF K) (t : K) : Prop := (l = .fin t ∨ l.lt (.fin t) = true) ∧ (u = .fin t ∨ (XF.fin t).lt u = true)

end FF
