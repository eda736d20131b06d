import Verif.Props.Boost
import Verif.Props.Forest

set_option linter.unusedSectionVars false

/-!
# Boosting on random rows (C53)

With bootstrap or random subsets the targets of a row lose only the answers of the trees that were grown on it.
-/

namespace FF

open Spec

variable {K : Type} [Field K] [LinearOrder K] [IsStrictOrderedRing K] [FloorRing K] [NpFun K] {G : Type}

/-! ### Specification -/

/-- The answer of a regression tree. -/
def answerOf (t : Tree K G) (x : List K) : K :=
  match (t.predict x).map Prod.fst with
  | .ok (.reg v) => v
  | _ => 0

/-- What the trees from number `k` on take away from the target of row `j`, which is the point `x`: their answers, times the learning rate
except for the first tree, and nothing if the tree was not grown on the row. -/
def takenFrom (lr : K) (j : Nat) (x : List K) : Nat → List (Tree K G) → K
  | _, [] => 0
  | k, t :: ts => (if j ∈ rowsOf t 0 then (if k = 0 then answerOf t x else lr * answerOf t x) else 0) + takenFrom lr j x (k + 1) ts

/-! ### Proof -/

variable {R : Rng K G} {mem : Nat → Nat → Junk K} {data : List (List K)} {F : Nat}

theorem Kept.rows {i : Nat} {f f' : Forest K G} {w w' : World K G} {m : Made K G} {t : Tree K G}
    (h : Kept R mem data F i f w f' w' m t) : rowsOf t 0 = m.args.rows := by
  obtain ⟨dd, t0, hfacts⟩ := h.fitted.facts
  have hcache := h.after.cache hfacts.cache
  obtain ⟨nd, h1, h2, _⟩ := hfacts.shape.root
  unfold rowsOf
  cases hn : t.nodes[0]? with
  | none =>
    rw [List.getElem?_eq_none_iff, hcache.len, ← List.getElem?_eq_none_iff] at hn
    rw [show m.tree.nodes[0]? = some nd from h1] at hn
    cases hn
  | some nd' =>
    have := (hcache.nodes 0 nd nd' h1 hn).eq
    rw [this]
    exact h2

theorem ForestRun.sampled (hne : data ≠ []) (lr : K) (r j : Nat) (n : Nat) :
    ∀ {k : Nat} {f f' : Forest K G} {w w' : World K G} {l : List (Made K G × Tree K G)},
      ForestRun R mem data F (List.range' k n) f w l f' w' → f.cfg.isCls = false → f.cfg.boosting = true → f.cfg.boostingLr = some lr →
      f.newRef = some r → (w'.arrays.getD r []).getD j 0 =
        (w.arrays.getD r []).getD j 0 - takenFrom lr j (data.getD j []) k (l.map Prod.snd) := by
  induction n with
  | zero =>
    intro k f f' w w' l h _ _ _ _
    cases h
    simp [takenFrom]
  | succ n ih =>
    intro k f f' w w' l h hc hb hlr hr
    rw [List.range'_succ] at h
    cases h with
    | stop _ hw => rw [hw]; simp [takenFrom]
    | @keep _ _ _ f1 _ _ w1 _ m t l hk hrun =>
      obtain ⟨_, _, c3, _, c5⟩ := hk.next_cfg
      rw [ih hrun (by rw [c3]; exact hc) (by rw [c3]; exact hb) (by rw [c3]; exact hlr) (by rw [c5]; exact hr)]
      obtain ⟨arr, arr', a1, a2, _, _, a5, a6⟩ := hk.boosted_all hne hc hb r hr
      have e1 : w.arrays.getD r [] = arr := by rw [List.getD_eq_getElem?_getD, a1]; rfl
      have e2 : w1.arrays.getD r [] = arr' := by rw [List.getD_eq_getElem?_getD, a2]; rfl
      rw [e1, e2, List.map_cons]
      show _ = arr.getD j 0 - ((if j ∈ rowsOf t 0 then _ else 0) + _)
      rw [hk.rows]
      by_cases hj : j ∈ m.args.rows
      · obtain ⟨v, v1, v2⟩ := a5 j hj
        have hv : answerOf t (data.getD j []) = v := by unfold answerOf; rw [v1]
        rw [if_pos hj, v2, hv]
        unfold boostWeight
        rw [hlr]
        split_ifs
        · ring
        · simp only [Option.getD_some]; ring
      · rw [if_neg hj, a6 j hj]
        ring

variable (R mem)

/-- C53, boosting on random rows. After `fit` with boosting, whatever the subsampling, the array of targets holds for every training row the
target it held before minus the weighted answers of those trees that were grown on the row. -/
theorem C53_residuals_sampled (f f' : Forest K G) (w w' : World K G) (data : Option (List (List K))) (labels : Option Nat)
    (hf : Forest.fit R mem f w data labels = .ok (f', w')) (hc : f.cfg.isCls = false) (hb : f.cfg.boosting = true) (lr : K)
    (hlr : f.cfg.boostingLr = some lr) (r : Nat) (hr : labels.or f.newRef = some r) (j : Nat) :
    (w'.arrays.getD r []).getD j 0 =
      (w.arrays.getD r []).getD j 0 - takenFrom lr j ((trainData f data).getD j []) 0 f'.trees := by
  obtain ⟨dat, f0, w0, hs, hl⟩ := Forest_fit_start hf
  obtain ⟨l, hrun⟩ := forestLoop_run hl
  have htr : f'.trees = l.map Prod.snd := by rw [hrun.trees, hs.eq]; rfl
  have hcfg0 : f0.cfg = f.cfg := by rw [hs.eq]
  obtain ⟨_, e2, e3⟩ := hs.reg hc
  rw [List.range_eq_range'] at hrun
  have := hrun.sampled hs.ne lr r j _ (by rw [hcfg0]; exact hc) (by rw [hcfg0]; exact hb) (by rw [hcfg0]; exact hlr) (by rw [e2]; exact hr)
  rw [this, e3, htr, hs.dat_eq]

/-! ### Example -/

/-- Two boosted trees with learning rate 1/2 on bootstrap samples. Row 5 has the target 16 and is in the second sample only: half of the second
tree's answer 16 is taken away, although the forest answers 19. -/
example :
    ((do let (f, w) ← runForest rngQ exMems exWorldReg { fcfgBoost with bootstrap := true } exData 0 none
         let (ps, _) ← f.predictBatch exData
         pure (w.arrays, ps, f.trees.map (fun (t : Tree ℚ Nat) => rowsOf t 0))).toOption ==
    some ([[0, 0, 8 / 3, 0, -4 / 3, 8]],
      [.reg 1, .reg 2, .reg (25 / 3), .reg (25 / 3), .reg (37 / 3), .reg 19], [[3, 4, 1, 0, 1, 4], [4, 5, 2, 1, 2, 5]])) = true := by
  decide +kernel

end FF
