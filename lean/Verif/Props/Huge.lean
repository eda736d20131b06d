import Verif.Model.Compare
import Verif.Props.CartMore

set_option linter.unusedSectionVars false

/-!
# Enlarged data sets (C117)
-/

namespace FF

open Spec

variable {K : Type} [Field K] [LinearOrder K] [IsStrictOrderedRing K] [FloorRing K] [NpFun K] {G G' : Type}

theorem copies_double {α : Type} (k : Nat) (l : List α) : copies k (l ++ l) = copies (2 * k) l := by
  unfold copies
  induction k with
  | zero => rfl
  | succ k ih =>
    rw [List.replicate_succ, List.flatten_cons, ih, show 2 * (k + 1) = 2 * k + 1 + 1 by ring, List.replicate_succ, List.replicate_succ,
      List.flatten_cons, List.flatten_cons, List.append_assoc]

/-- `make_huge` repeats the data `2 ** doubles` times. -/
theorem C117_make_huge {α : Type} (d : Nat) (l : List α) : makeHuge d l = copies (2 ^ d) l := by
  induction d generalizing l with
  | zero => simp [makeHuge, copies]
  | succ d ih => rw [makeHuge, ih, copies_double, pow_succ, mul_comm]

theorem makeHuge_length {α : Type} (d : Nat) (l : List α) : (makeHuge d l).length = 2 ^ d * l.length := by
  induction d generalizing l with
  | zero => simp [makeHuge]
  | succ d ih =>
    rw [makeHuge, ih, List.length_append, pow_succ]
    ring

theorem makeHuge_zip {α β : Type} (d : Nat) (l : List α) (m : List β) (h : l.length = m.length) :
    (makeHuge d l).zip (makeHuge d m) = makeHuge d (l.zip m) := by
  induction d generalizing l m with
  | zero => rfl
  | succ d ih => rw [makeHuge, makeHuge, makeHuge, ih _ _ (by simp [h]), List.zip_append h]

/-- C117, the experiments' way to enlarge a data set: a forest without sampling that is trained on `make_huge(X, y, doubles)` answers every point
as the forest trained on `X, y`, if its `min_samples_split` is enlarged in the same way. -/
theorem C117_huge (R : Rng K G) (R' : Rng K G') (mem mem' : Nat → Nat → Junk K) (w w1 : World K G) (w' w1' : World K G')
    (cfg : ForestCfg K) (hp : PlainForest cfg) (hlog : cfg.useLog = false ∨ cfg.binType = some .identity) (data : List (List K))
    (ref ref' F d : Nat) (hrect : ∀ row ∈ data, row.length = F) (hlen : data.length = (w.arrays.getD ref []).length)
    (hhuge : w'.arrays.getD ref' [] = makeHuge d (w.arrays.getD ref [])) (n seed : Nat) (f f1 : Forest K G) (f' f1' : Forest K G')
    (h : runForest R mem w cfg data ref none = .ok (f, w1))
    (h' : runForest R' mem' w' { cfg with minSamplesSplit := 2 ^ d * cfg.minSamplesSplit, nEstimators := n, randomState := seed } (makeHuge d data)
      ref' none = .ok (f', w1'))
    (hn : 1 ≤ cfg.nEstimators) (hn' : 1 ≤ n) (ha : AfterReads f f1) (ha' : AfterReads f' f1') (x : List K) (hx : F ≤ x.length) :
    ∃ p f2 f2', f1.predict x = .ok (p, f2) ∧ f1'.predict x = .ok (p, f2') := by
  have hpos : 0 < 2 ^ d := by positivity
  refine C117_forest R R' mem mem' w w1 w' w1' cfg hp hlog data (makeHuge d data) ref ref' F hrect hlen ?_ (2 ^ d) hpos ?_ _ n seed ?_ f f1 f' f1'
    h h' hn hn' ha ha' x hx
  · rw [hhuge, makeHuge_length, makeHuge_length, hlen]
  · rw [hhuge, makeHuge_zip d _ _ hlen, C117_make_huge]
  · intro m _
    exact Nat.mul_lt_mul_left hpos

/-- The hypotheses can be met: eight times the data. -/
example : PlainForest fcfgPlainReg ∧
    (runForest rngQ exMems exWorldReg fcfgPlainReg exData 0 none).toOption.map (fun r => r.1.trees.length) = some 3 ∧
    (runForest rngQ exMems ⟨exWorldReg.glob, [makeHuge 3 (exWorldReg.arrays.getD 0 [])]⟩
      { fcfgPlainReg with minSamplesSplit := 2 ^ 3 * fcfgPlainReg.minSamplesSplit, nEstimators := 2, randomState := 5 } (makeHuge 3 exData) 0
      none).toOption.map (fun r => r.1.trees.length) = some 2 := by
  exact ⟨⟨rfl, .inr rfl, fun _ => by decide, rfl, by decide, rfl, rfl, rfl, rfl, rfl⟩, by decide +kernel, by decide +kernel⟩

end FF
