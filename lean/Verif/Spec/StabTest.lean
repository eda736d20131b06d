import Verif.Spec.Experiment
import Verif.Spec.Compare

/-!
# The stability test
-/

namespace FF

variable {K : Type} [Field K] [LinearOrder K] [FloorRing K] [NpFun K] {G : Type}

/-- `x` is the stability of a new object that is built with the given settings and seed on arrays that hold what the caller's arrays hold, whatever
the state of the process-wide generators. -/
def StabilityOf (R : Rng K G) (sortIdx : List K → List Nat) (cfg : PermCfg K) (score : ImpScore) (best : Option Int) (data : List (List K))
    (ref : Nat) (arrays : List (List K)) (seed : Nat) (x : K) : Prop :=
  ∃ (mem : Nat → Nat → Nat → Junk K) (more : List (List K)), ∀ g : Glob G, ∃ p w p' w',
    PermImp.init R ⟨g, arrays ++ more⟩ cfg score seed data ref = .ok (p, w) ∧ p.runBaseline R mem sortIdx w best = .ok (.fin x, p', w')

/-- The stabilities of all trials: trial number `i` compares two new objects, built with the settings `exact` and `mab` and with the draws number `2i`
and `2i + 1` of a generator that is started from the seed of the test. -/
def StabilitiesOf (R : Rng K G) (sortIdx : List K → List Nat) (s : StabTest K) (exact mab : PermCfg K) (data : List (List K)) (ref : Nat)
    (arrays : List (List K)) (xs ys : List K) : Prop :=
  xs.length = s.trials ∧ ys.length = s.trials ∧
  (∀ (i : Nat) (x : K), xs[i]? = some x → StabilityOf R sortIdx exact s.score s.best data ref arrays (seedAt R (R.seed s.seed) (2 * i)) x) ∧
  ∀ (i : Nat) (y : K), ys[i]? = some y → StabilityOf R sortIdx mab s.score s.best data ref arrays (seedAt R (R.seed s.seed) (2 * i + 1)) y

end FF
