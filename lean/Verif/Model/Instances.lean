import Verif.Model.Forest
import Mathlib.Analysis.SpecialFunctions.Log.Basic
import Mathlib.Analysis.SpecialFunctions.Pow.Real

/-!
# Concrete instances

Real numbers with the real square root and logarithm; rational numbers with an approximate square root, for evaluating
examples in the kernel; a small concrete random generator. They show that the assumptions of `NpFun` and `Rng` can be met, and
serve in examples and counterexamples. They model no particular code.
-/

namespace FF

noncomputable instance : NpFun ℝ where
  sqrt := Real.sqrt
  log := Real.log
  sqrt_nonneg := fun x _ => Real.sqrt_nonneg x
  sqrt_zero := Real.sqrt_zero

/-- Integer square root by bisection between `lo` and `hi`. -/
def isqrtGo : Nat → Nat → Nat → Nat → Nat
  | 0, _, lo, _ => lo
  | k + 1, n, lo, hi =>
    let mid := (lo + hi) / 2
    if mid * mid ≤ n then isqrtGo k n mid hi else isqrtGo k n lo mid

/-- Integer square root. -/
def isqrt (n : Nat) : Nat := if n = 0 then 0 else isqrtGo 64 n 0 (n + 1)

/-- Square root of a rational, rounded down to a multiple of `1 / (den * 1000)`. -/
def sqrtQ (x : ℚ) : ℚ := (isqrt (x.num.toNat * x.den * 1000000) : ℚ) / ((x.den : ℚ) * 1000)

instance : NpFun ℚ where
  sqrt := sqrtQ
  log := fun x => x - 1
  sqrt_nonneg := fun x _ => by unfold sqrtQ; positivity
  sqrt_zero := by simp [sqrtQ, isqrt]

/-- A generator whose state is a number: draws without replacement are a rotated range. -/
def rngQ : Rng ℚ Nat where
  seed := fun s => s
  choice := fun g n k => ((List.range k).map (fun i => (g + i) % n), g + k + 1)
  choiceRep := fun g n k => ((List.range k).map (fun i => (g * 7 + i * i) % n), g + k + 1)
  randint := fun g h => ((g * 13 + 5) % h, g + 1)
  uniform := fun g lo hi k =>
    ((List.range k).map (fun i => lo + (hi - lo) * ((((g * 5 + i * 3) % 8 : Nat) : ℚ) / 8)), g + 1)
  pyChoice := fun g n => (g % n, g + 1)
  shuffle := fun g n => ((List.range n).rotate g, g + 1)
  choice_length := by intros; simp
  choice_nodup := by
    intro g n k hk
    apply List.Nodup.map_on _ List.nodup_range
    intro x hx y hy h
    simp only [List.mem_range] at hx hy
    have h1 : (g + x) ≡ (g + y) [MOD n] := h
    have h2 : x ≡ y [MOD n] := Nat.ModEq.add_left_cancel' g h1
    exact Nat.ModEq.eq_of_lt_of_lt h2 (by omega) (by omega)
  choice_lt := by
    intro g n k hk i hi
    simp only [List.mem_map, List.mem_range] at hi
    obtain ⟨a, ha, rfl⟩ := hi
    exact Nat.mod_lt _ (by omega)
  choiceRep_length := by intros; simp
  choiceRep_lt := by
    intro g n k hn i hi
    simp only [List.mem_map, List.mem_range] at hi
    obtain ⟨a, _, rfl⟩ := hi
    exact Nat.mod_lt _ hn
  randint_lt := fun g h hh => Nat.mod_lt _ hh
  uniform_length := by intros; simp
  uniform_mem := by
    intro g lo hi k hle x hx
    simp only [List.mem_map, List.mem_range] at hx
    obtain ⟨a, _, rfl⟩ := hx
    have h1 : (((g * 5 + a * 3) % 8 : Nat) : ℚ) ≤ 8 := by
      exact_mod_cast (Nat.mod_lt _ (by norm_num)).le
    have h0 : (0 : ℚ) ≤ (((g * 5 + a * 3) % 8 : Nat) : ℚ) := by positivity
    have h2 : (((g * 5 + a * 3) % 8 : Nat) : ℚ) / 8 ≤ 1 := by linarith
    have h3 : (0 : ℚ) ≤ (((g * 5 + a * 3) % 8 : Nat) : ℚ) / 8 := by positivity
    constructor <;> nlinarith
  pyChoice_lt := fun g n hn => Nat.mod_lt _ hn
  shuffle_perm := fun g n => List.rotate_perm _ g

/-- Some contents of uninitialised memory. -/
def junkQ : Junk ℚ := { est := fun _ => .fin 0, lcb := fun _ => .fin 0, ucb := fun _ => .fin 0 }

/-- A classification tree configuration used in examples. -/
def cfgQ : TreeCfg ℚ :=
  { isCls := true, maxDepth := .some 3, classes := [(0, 0), (1, 1)], featSub := .none, minSamplesSplit := 1
    minImpDec := 0, maxLeafNodes := none, binType := some .identity, numBins := none, criterion := .gini
    splitter := .best, solver := .exact, withRep := false, makeDiscrete := false, minmax := none
    useLog := false, useDynEps := false, epsilon := 0, batch := 1000 }

/-- A regression tree configuration used in examples. -/
def cfgQr : TreeCfg ℚ := { cfgQ with isCls := false, classes := [], criterion := .mse }

/-- A forest configuration used in examples. -/
def fcfgQ : ForestCfg ℚ :=
  { isCls := true, nEstimators := 2, maxDepth := .some 3, bootstrap := true, featSub := .none, minSamplesSplit := 1
    minImpDec := 0, maxLeafNodes := none, binType := some .identity, numBins := none, criterion := .gini
    splitter := .best, solver := .exact, randomState := 3, withRep := false, boosting := false, boostingLr := none
    makeDiscrete := false, precompMinmax := false, useLog := false, useDynEps := false, epsilon := 0
    oobScore := false, batch := 1000, alphaF := 1, alphaN := 1 }

end FF
