import Verif.Spec.Crit
import Verif.Model.Solvers

/-!
# Sampling histories of the histograms of a node
-/

namespace FF

variable {K : Type} [Field K] [LinearOrder K] [FloorRing K] [NpFun K] {G : Type}

/-- The arms refer to existing edges `E` of the `F` features. -/
def ArmsValid (E : Nat → List K) (F : Nat) (arms : List Arm) : Prop := ∀ a ∈ arms, a.1 < F ∧ a.2 < (E a.1).length

/-- Arms ordered by feature. -/
def FeatSorted (l : List Arm) : Prop := l.Pairwise (fun a b => a.1 ≤ b.1)

/-- The number of bins `solve_exactly` works with: the number of rows for IDENTITY, otherwise `num_bins`. -/
def exactBins (data : List (List K)) (binType : Option BinType) (numBins : Option Nat) : Option Nat :=
  if binType = some .identity then some data.length else numBins

/-- `v` is candidate threshold number `b` of feature `f`, when at most `B` bins per feature are considered. -/
def IsCand (hists : List (Hist K)) (B f b : Nat) (v : K) : Prop := (edgesOf hists f)[b]? = some v ∧ b < B

/-- The number of candidate splits of a node: bin edges with index below `B`, summed over the features. -/
def numCands (hists : List (Hist K)) (F B : Nat) : Nat :=
  ((List.range F).map (fun f => min B (edgesOf hists f).length)).sum

/-- Histograms that can occur in a node: made by `make_histograms`, then changed by any number of `sample_targets` and
`empty_histograms` calls. `E f` are the edges of feature `f` and `I f` the rows inserted into its histogram since it was last
emptied, in order and with repeats. -/
inductive HistReach (R : Rng K G) (isCls : Bool) (data : List (List K)) (labels : List K) (m : Criterion)
    (minmax : Option (List K × List K)) (d : DiscDict K) (binType : Option BinType) (B : Nat) :
    (Nat → List K) → (Nat → List Nat) → List (Hist K) → Prop
  | fresh {g : G} {hs : Hists K G} (h : makeHistograms R g isCls data labels minmax d binType B = .ok hs) :
      HistReach R isCls data labels m minmax d binType B (edgesOf hs.hists) (fun _ => []) hs.hists
  | sample {E : Nat → List K} {I : Nat → List Nat} {hists : List (Hist K)} {g : G} {arms : List Arm} {batch : Nat}
      {pop : Option (List Nat)} {out : SampleOut K G}
      (hr : HistReach R isCls data labels m minmax d binType B E I hists)
      (hs : FeatSorted arms) (hn : arms.Nodup) (hv : ArmsValid E hists.length arms)
      (h : sampleTargets R g data labels arms hists batch m pop = .ok out) :
      HistReach R isCls data labels m minmax d binType B E
        (fun f => if f ∈ arms.map Prod.fst then I f ++ out.drawn else I f) out.acc.hists
  | empty {E : Nat → List K} {I : Nat → List Nat} {hists : List (Hist K)} (arms : List Arm)
      (hr : HistReach R isCls data labels m minmax d binType B E I hists) :
      HistReach R isCls data labels m minmax d binType B E
        (fun f => if f ∈ arms.map Prod.fst then [] else I f) (emptyHistograms hists arms)

end FF
