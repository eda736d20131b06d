import Mathlib.Algebra.Order.Floor.Ring
import Mathlib.Algebra.Order.Field.Basic
import Mathlib.Data.Rat.Floor
import Mathlib.Data.List.Sort

/-!
# Numbers, exceptions and the numpy primitives used by FastForest

Floats are modelled by an arbitrary linearly ordered field `K` (exact arithmetic, no rounding) extended with
`nan`, `+inf` and `-inf` (`XF K`).  Signed zeros and rounding are not modelled.
-/

namespace FF

/-- Python exceptions as values. `outOfFuel` is not a Python exception: it marks a loop whose fuel ran out; the
termination theorems show that no modelled loop ever produces it. `unmodelled` marks inputs that the model does not
follow (see DESIGN.md). -/
inductive Err where
  | typeError
  | attributeError (msg : String)
  | indexError
  | valueError
  | keyError
  | nameError
  | zeroDivision
  | assertion (msg : String)
  | exception (msg : String)
  | notImplemented
  | stopIteration
  | unmodelled (msg : String)
  | outOfFuel
  deriving DecidableEq, Repr

/-- `np.sqrt` and `np.log` on finite non-negative / positive arguments. They are parameters of the model; only the two
laws below are ever used about `sqrt`, none about `log` (except in theorems that instantiate `K := ℝ`). -/
class NpFun (K : Type) [Field K] [LinearOrder K] where
  sqrt : K → K
  log : K → K
  sqrt_nonneg : ∀ x, 0 ≤ x → 0 ≤ sqrt x
  sqrt_zero : sqrt 0 = 0

/-- Extended floats: IEEE special values over exact arithmetic. -/
inductive XF (K : Type) where
  | nan
  | ninf
  | fin (x : K)
  | pinf
  deriving DecidableEq, Repr

namespace XF

variable {K : Type} [Field K] [LinearOrder K]

/-- IEEE negation. -/
def neg : XF K → XF K
  | nan => nan
  | ninf => pinf
  | pinf => ninf
  | fin x => fin (-x)

/-- IEEE addition (exact on finite values). -/
def add : XF K → XF K → XF K
  | nan, _ => nan
  | _, nan => nan
  | pinf, ninf => nan
  | ninf, pinf => nan
  | pinf, _ => pinf
  | _, pinf => pinf
  | ninf, _ => ninf
  | _, ninf => ninf
  | fin x, fin y => fin (x + y)

/-- IEEE subtraction. -/
def sub (a b : XF K) : XF K := add a (neg b)

/-- `inf` with the sign of a finite `x`; `nan` for zero. Used by `0 * inf` and `x / 0`. -/
def signInf (x : K) : XF K := if x = 0 then nan else if 0 < x then pinf else ninf

/-- IEEE multiplication (exact on finite values). -/
def mul : XF K → XF K → XF K
  | nan, _ => nan
  | _, nan => nan
  | fin x, fin y => fin (x * y)
  | fin x, pinf => signInf x
  | fin x, ninf => signInf (-x)
  | pinf, fin y => signInf y
  | ninf, fin y => signInf (-y)
  | pinf, pinf => pinf
  | pinf, ninf => ninf
  | ninf, pinf => ninf
  | ninf, ninf => pinf

/-- IEEE division (exact on finite values; a zero divisor counts as `+0`, see DESIGN.md on signed zeros). -/
def div : XF K → XF K → XF K
  | nan, _ => nan
  | _, nan => nan
  | fin x, fin y => if y = 0 then signInf x else fin (x / y)
  | fin _, pinf => fin 0
  | fin _, ninf => fin 0
  | pinf, fin y => if 0 ≤ y then pinf else ninf
  | ninf, fin y => if 0 ≤ y then ninf else pinf
  | _, _ => nan

/-- `np.nan_to_num(x, nan=0, posinf=0, neginf=0)`. -/
def nanToNum : XF K → XF K
  | fin x => fin x
  | _ => fin 0

/-- `np.sqrt`: NaN for negative arguments. -/
def sqrt [NpFun K] : XF K → XF K
  | nan => nan
  | ninf => nan
  | pinf => pinf
  | fin x => if x < 0 then nan else fin (NpFun.sqrt x)

/-- `np.log`: `-inf` at zero, NaN for negative arguments. -/
def log [NpFun K] : XF K → XF K
  | nan => nan
  | ninf => nan
  | pinf => pinf
  | fin x => if x < 0 then nan else if x = 0 then ninf else fin (NpFun.log x)

/-- IEEE `<` (false as soon as a NaN is involved). -/
def lt : XF K → XF K → Bool
  | nan, _ => false
  | _, nan => false
  | fin x, fin y => decide (x < y)
  | ninf, ninf => false
  | ninf, _ => true
  | _, ninf => false
  | pinf, _ => false
  | fin _, pinf => true

/-- IEEE `==` (NaN is not equal to itself). -/
def eqv : XF K → XF K → Bool
  | nan, _ => false
  | _, nan => false
  | a, b => decide (a = b)

/-- `isnan`. -/
def isNan : XF K → Bool
  | nan => true
  | _ => false

/-- `np.abs`. -/
def abs : XF K → XF K
  | nan => nan
  | ninf => pinf
  | pinf => pinf
  | fin x => fin (if 0 ≤ x then x else -x)

/-- Sum of an array, `np.sum`. -/
def sum (l : List (XF K)) : XF K := l.foldl add (fin 0)

/-- Two-argument minimum that propagates NaN, the reduction step of `ndarray.min`. -/
def min2 (a b : XF K) : XF K :=
  if a.isNan then nan else if b.isNan then nan else if lt b a then b else a

/-- `ndarray.min()`: NaN if any element is NaN. `none` (ValueError) on an empty array. -/
def minArr : List (XF K) → Option (XF K)
  | [] => none
  | x :: xs => some (xs.foldl min2 x)

/-- `np.nanmin`: ignores NaNs; NaN if all are NaN. `none` (ValueError) on an empty array. -/
def nanmin (l : List (XF K)) : Option (XF K) :=
  if l = [] then none else
  match l.filter (fun x => !x.isNan) with
  | [] => some nan
  | x :: xs => some (xs.foldl min2 x)

/-- Index of the first minimum for `ndarray.argmin()`: the first NaN if there is one, else the first smallest.
`go` carries (next index, best index, best value). -/
def argminGo : List (XF K) → Nat → Nat → XF K → Nat
  | [], _, bi, _ => bi
  | x :: xs, i, bi, b =>
    if b.isNan then bi
    else if x.isNan then i
    else if lt x b then argminGo xs (i + 1) i x
    else argminGo xs (i + 1) bi b

/-- `ndarray.argmin()`. `none` (ValueError) on an empty array. -/
def argmin : List (XF K) → Option Nat
  | [] => none
  | x :: xs => some (argminGo xs 1 0 x)

end XF

/-! ### numpy / python list primitives -/

section Np

variable {K : Type} [Field K] [LinearOrder K]

/-- `np.unique(a)`: the sorted distinct elements. -/
def npUnique (l : List K) : List K := l.dedup.insertionSort (· ≤ ·)

/-- `np.mean(a)` of a non-empty array. -/
def npMean (l : List K) : K := l.sum / (l.length : K)

/-- `np.var(a)` (ddof = 0) of a non-empty array. -/
def npVar (l : List K) : K := (l.map (fun x => (x - npMean l) * (x - npMean l))).sum / (l.length : K)

/-- `np.min(a)`; `none` (ValueError) on an empty array. -/
def npMin : List K → Option K
  | [] => none
  | x :: xs => some (xs.foldl min x)

/-- `np.max(a)`; `none` (ValueError) on an empty array. -/
def npMax : List K → Option K
  | [] => none
  | x :: xs => some (xs.foldl max x)

/-- `ndarray.argmax()`: first index of a largest element; `0` on an empty array (numpy raises; never reached). -/
def argmaxGo : List K → Nat → Nat → K → Nat
  | [], _, bi, _ => bi
  | x :: xs, i, bi, b => if b < x then argmaxGo xs (i + 1) i x else argmaxGo xs (i + 1) bi b

/-- `ndarray.argmax()`; `none` (ValueError) on an empty array. -/
def npArgmax : List K → Option Nat
  | [] => none
  | x :: xs => some (argmaxGo xs 1 0 x)

/-- Column `X[:, f]` of a 2-d array; IndexError if some row has no entry `f`. -/
def colE (X : List (List K)) (f : Nat) : Except Err (List K) :=
  if X.all (fun row => decide (f < row.length)) then .ok (X.map (fun row => row.getD f 0)) else .error .indexError

/-- Fancy indexing `a[idcs]`; IndexError if an index is out of range. -/
def takeE {α : Type} (a : List α) (d : α) (idcs : List Nat) : Except Err (List α) :=
  if idcs.all (fun i => decide (i < a.length)) then .ok (idcs.map (fun i => a.getD i d)) else .error .indexError

/-- `np.delete(a, idcs)`: removes the positions `idcs`. -/
def npDelete {α : Type} (a : List α) (idcs : List Nat) : List α :=
  (a.zipIdx.filter (fun p => !(idcs.contains p.2))).map Prod.fst

/-- `np.linspace(lo, hi, n)`. -/
def linspace (lo hi : K) (n : Nat) : List K :=
  if n = 1 then [lo] else (List.range n).map (fun (i : Nat) => lo + (i : K) * ((hi - lo) / ((n : K) - 1)))

/-- `np.searchsorted(edges, v)` (side='left') on a sorted array: how many edges are smaller than `v`. -/
def searchsorted (edges : List K) (v : K) : Nat := (edges.filter (fun e => decide (e < v))).length

/-- `astype(np.int32)`: truncation toward zero (no wrap-around modelled). -/
def truncInt [FloorRing K] (x : K) : K := if 0 ≤ x then ((⌊x⌋ : Int) : K) else ((⌈x⌉ : Int) : K)

end Np

/-! ### Random generators -/

/-- A pseudo random generator with state `G` (numpy `Generator`, the global `np.random` and python `random`).
The drawing functions are parameters; the fields `*_spec` record what their documentation promises, and every theorem
holds for every implementation that keeps these promises. -/
structure Rng (K G : Type) [Field K] [LinearOrder K] where
  /-- `default_rng(seed)`, `np.random.seed(seed)`, `random.seed(seed)`. -/
  seed : Nat → G
  /-- positions drawn by `rng.choice(a, k, replace=False)` from an array of length `n` -/
  choice : G → Nat → Nat → List Nat × G
  /-- positions drawn by `rng.choice(a, size=k, replace=True)` from an array of length `n` -/
  choiceRep : G → Nat → Nat → List Nat × G
  /-- `np.random.randint(high)`, `rng.integers(0, high)` -/
  randint : G → Nat → Nat × G
  /-- `np.random.uniform(lo, hi, size=k)` -/
  uniform : G → K → K → Nat → List K × G
  /-- position drawn by python's `random.choice` from a sequence of length `n` -/
  pyChoice : G → Nat → Nat × G
  /-- `rng.shuffle(a)` on an array of length `n`: the old positions of the elements, in their new order -/
  shuffle : G → Nat → List Nat × G
  choice_length : ∀ g n k, k ≤ n → (choice g n k).1.length = k
  choice_nodup : ∀ g n k, k ≤ n → (choice g n k).1.Nodup
  choice_lt : ∀ g n k, k ≤ n → ∀ i ∈ (choice g n k).1, i < n
  choiceRep_length : ∀ g n k, 0 < n → (choiceRep g n k).1.length = k
  choiceRep_lt : ∀ g n k, 0 < n → ∀ i ∈ (choiceRep g n k).1, i < n
  randint_lt : ∀ g h, 0 < h → (randint g h).1 < h
  uniform_length : ∀ g lo hi k, (uniform g lo hi k).1.length = k
  uniform_mem : ∀ g lo hi k, lo ≤ hi → ∀ x ∈ (uniform g lo hi k).1, lo ≤ x ∧ x ≤ hi
  pyChoice_lt : ∀ g n, 0 < n → (pyChoice g n).1 < n
  shuffle_perm : ∀ g n, (shuffle g n).1.Perm (List.range n)

/-- The process-wide generators: `np.random` and `random` (`utils/utils.py:35-37` seeds both). -/
structure Glob (G : Type) where
  np : G
  py : G

/-- `set_seed` — `utils/utils.py:35-37`. -/
def setSeed {K G : Type} [Field K] [LinearOrder K] (R : Rng K G) (seed : Nat) : Glob G :=
  { np := R.seed seed, py := R.seed seed }

/-- `rng.choice(a, k, replace=False)` on an array: ValueError if `k > len(a)`. -/
def rngChoice {K G α : Type} [Field K] [LinearOrder K] (R : Rng K G) (g : G) (a : List α) (d : α) (k : Nat) :
    Except Err (List α × G) :=
  if k ≤ a.length then .ok ((R.choice g a.length k).1.map (fun i => a.getD i d), (R.choice g a.length k).2)
  else .error .valueError

/-- `rng.choice(a, size=k, replace=True)` on an array: ValueError if the array is empty (and `k > 0`). -/
def rngChoiceRep {K G α : Type} [Field K] [LinearOrder K] (R : Rng K G) (g : G) (a : List α) (d : α) (k : Nat) :
    Except Err (List α × G) :=
  if 0 < a.length then .ok ((R.choiceRep g a.length k).1.map (fun i => a.getD i d), (R.choiceRep g a.length k).2)
  else .error .valueError

end FF
