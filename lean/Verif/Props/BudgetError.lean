import Verif.Proofs.BudgetScan
import Verif.Props.MoreBudget
import Verif.Props.MoreLeaves

/-!
# A larger budget fits the training set no worse (C150)
-/

namespace FF

set_option linter.unusedSectionVars false

open Spec

variable {K : Type} [Field K] [LinearOrder K] [IsStrictOrderedRing K] [FloorRing K] [NpFun K] {G : Type}

section
variable {R : Rng K G} {mem : Nat → Junk K} {B1 B2 : Option Int} {A1 A2 : TreeArgs K} {dd1 dd2 : DiscDict K} {t01 t02 : Tree K G}

theorem fitLoop_two (hle : ∀ q, Within B1 q → Within B2 q) (hA1 : ArgsOK A1) (hA2 : ArgsOK A2) (hs1 : A1.cfg.solver = .exact)
    (hs2 : A2.cfg.solver = .exact) : ∀ (n : Nat) {t t1 t2 : Tree K G} {gl gl1 gl2 : Glob G},
    GrowFacts R mem A1 dd1 t01 (t.under B1) → GrowFacts R mem A2 dd2 t02 (t.under B2) →
    fitLoop R mem n (t.under B1) gl = .ok (t1, gl1) → fitLoop R mem n (t.under B2) gl = .ok (t2, gl2) → redSum t2 ≤ redSum t1
  | 0, _, _, _, _, _, _, _, _, h, _ => by cases h
  | n + 1, t, t1, t2, gl, gl1, gl2, hf1, hf2, h1, h2 => by
    have hlow : redSum t2 ≤ redSum t := (hf2.redSum_steps hA2 hs2 (fitLoop_tsteps hf2.sim h2)).2.1
    have hsolver : t.cfg.solver = .exact := by
      have e := hf1.base.cfg
      rw [hf1.start.cfg] at e
      have e' : t.cfg = _ := e
      rw [e']
      exact hs1
    unfold fitLoop at h1 h2
    cases p1 : fitStep R mem (t.under B1) gl with
    | error e => rw [p1] at h1; cases h1
    | ok q1 =>
    obtain ⟨b1, u1, g1⟩ := q1
    rw [p1] at h1
    cases p2 : fitStep R mem (t.under B2) gl with
    | error e => rw [p2] at h2; cases h2
    | ok q2 =>
    obtain ⟨b2, u2, g2⟩ := q2
    rw [p2] at h2
    cases b1 with
    | false =>
      cases h1
      rw [hf1.pass_false hA1 hs1 p1]
      exact hlow
    | true =>
      dsimp only at h1
      have k1 := hf1.next (fitStep_sim hf1.sim p1)
      have k2 := hf2.next (fitStep_sim hf2.sim p2)
      obtain ⟨s, pos, id, red, tt, d, hlim, hscan, hbest, himp, hperf, hdep, hu1⟩ := fitStep_true p1
      obtain ⟨s', k, e1, e2, e3⟩ := scanLeaves_two hle t.leaves (s := { t := t, glob := gl, best := none }) hsolver hscan
      by_cases hk : t.leaves.drop k = []
      · -- both scans see the same
        have hscan2 : scanLeaves R mem 0 t.leaves (Scan.under B2 { t := t, glob := gl, best := none }) = .ok (s'.under B2) := by
          rw [e2, hk]
          rfl
        have hsb : splitBest R mem (s'.under B1) = .ok (true, tt, g1) := by
          rw [← e1]
          unfold splitBest
          rw [hbest]
          dsimp only
          rw [if_pos himp, hperf]
        rw [splitBest_under] at hsb
        cases hsb' : splitBest R mem s' with
        | error e => rw [hsb'] at hsb; cases hsb
        | ok q =>
          obtain ⟨b0, tt0, g0⟩ := q
          rw [hsb'] at hsb
          simp only [Except.map, Except.ok.injEq, Prod.mk.injEq] at hsb
          obtain ⟨rfl, rfl, rfl⟩ := hsb
          have hstep2 : fitStep R mem (t.under B2) gl = .ok (true, Tree.under B2 { tt0 with depth := d }, g0) := by
            unfold fitStep
            have l1 : leafLimit (t.under B2).cfg.maxLeafNodes (t.under B2).leaves.length = .ok false := hlim
            rw [l1]
            dsimp only
            have l2 : scanLeaves R mem 0 (t.under B2).leaves { t := t.under B2, glob := gl, best := none } = .ok (s'.under B2) := hscan2
            rw [l2]
            dsimp only
            rw [splitBest_under, hsb']
            have l3 : getDepth (tt0.under B2) = .ok d := hdep
            dsimp only [Except.map]
            rw [l3]
            rfl
          rw [p2] at hstep2
          simp only [Except.ok.injEq, Prod.mk.injEq] at hstep2
          obtain ⟨rfl, rfl, rfl⟩ := hstep2
          dsimp only at h2
          have hu : u1 = Tree.under B1 { tt0 with depth := d } := hu1
          rw [hu] at h1 k1
          exact fitLoop_two hle hA1 hA2 hs1 hs2 n k1 k2 h1 h2
      · -- the smaller budget is spent
        have hsp : ¬ Within B1 s'.t.numQueries := e3.resolve_left hk
        obtain ⟨x1, m1, m2⟩ := hf1.pass_true hA1 hs1 p1 hscan
        have hrem : noBudget u1.remaining = true := by
          have hsb : splitBest R mem (s'.under B1) = .ok (true, tt, g1) := by
            rw [← e1]
            unfold splitBest
            rw [hbest]
            dsimp only
            rw [if_pos himp, hperf]
          have hq := splitBest_queries hsb
          rw [splitBest_under] at hsb
          cases hsb' : splitBest R mem s' with
          | error e => rw [hsb'] at hsb; cases hsb
          | ok q =>
            obtain ⟨b0, tt0, g0⟩ := q
            rw [hsb'] at hsb
            simp only [Except.map, Except.ok.injEq, Prod.mk.injEq] at hsb
            obtain ⟨_, rfl, _⟩ := hsb
            have hq' : tt0.numQueries = s'.t.numQueries := hq
            rw [hu1]
            show noBudget (leftOf B1 tt0.numQueries) = true
            rw [hq']
            by_contra hn
            exact hsp (noBudget_leftOf.1 (Bool.eq_false_iff.2 hn))
        have hend : redSum t1 = redSum u1 := by
          cases n with
          | zero => cases h1
          | succ n =>
            unfold fitLoop at h1
            cases p3 : fitStep R mem u1 g1 with
            | error e => rw [p3] at h1; cases h1
            | ok q3 =>
              obtain ⟨b3, u3, g3⟩ := q3
              obtain rfl := fitStep_spent hrem p3
              rw [p3] at h1
              cases h1
              exact k1.pass_false hA1 hs1 p3
        have hred : s.bestRed = red := by unfold Scan.bestRed; rw [hbest]
        have hsame : s.bestRed = s'.bestRed := by rw [e1]; rfl
        have hcfg : s.t.cfg = t.cfg := (scanLeaves_same _ hscan).1
        rw [m1] at hred
        -- the scan of the second run
        have two : ∀ s2 : Scan K G, scanLeaves R mem 0 (t.under B2).leaves { t := t.under B2, glob := gl, best := none } = .ok s2 →
            s2.bestRed = .fin x1 ∨ s2.bestRed.lt (.fin x1) = true := by
          intro s2 hs2
          have hs2' : scanLeaves R mem 0 t.leaves (Scan.under B2 { t := t, glob := gl, best := none }) = .ok s2 := hs2
          rw [e2] at hs2'
          have e5 : (s'.under B2).bestRed = .fin x1 := by rw [← m1, hsame]; rfl
          rcases scanLeaves_best _ hs2' with a | a
          · left
            rw [← e5]
            unfold Scan.bestRed
            rw [a]
          · right
            rw [← e5]
            exact a
        cases b2 with
        | false =>
          exfalso
          rcases fitStep_false p2 with ⟨a, _⟩ | ⟨s2, d2, _, c1, c2, _⟩
          · have : leafLimit t.cfg.maxLeafNodes t.leaves.length = .ok true := a
            have hlim' : leafLimit t.cfg.maxLeafNodes t.leaves.length = .ok false := hlim
            rw [hlim'] at this
            cases this
          · have hcfg2 : s2.t.cfg = t.cfg := (scanLeaves_same _ c1).1
            rw [← hred, hcfg] at himp
            have hb2 : s2.bestRed.lt (.fin t.cfg.minImpDec) = true := by
              rcases two s2 c1 with a | a
              · rw [a]; exact himp
              · exact XF.lt_trans a himp
            cases hb : s2.best with
            | none =>
              unfold Scan.bestRed at hb2
              rw [hb] at hb2
              cases hb2
            | some b =>
              obtain ⟨p, i, r⟩ := b
              have := c2 p i r hb
              unfold Scan.bestRed at hb2
              rw [hb] at hb2
              rw [hcfg2] at this
              rw [this] at hb2
              cases hb2
        | true =>
          dsimp only at h2
          obtain ⟨s2, _, _, _, _, _, _, c1, _⟩ := fitStep_true p2
          obtain ⟨x2, n1, n2⟩ := hf2.pass_true hA2 hs2 p2 c1
          have hx : x2 ≤ x1 := by
            have := two s2 c1
            rw [n1] at this
            rcases this with a | a
            · exact le_of_eq (XF.fin.inj a)
            · simp only [XF.lt, decide_eq_true_eq] at a
              exact a.le
          have hlast : redSum t2 ≤ redSum u2 := (k2.redSum_steps hA2 hs2 (fitLoop_tsteps k2.sim h2)).2.1
          rw [hend, m2]
          rw [n2] at hlast
          have z1 : redSum (t.under B1) = redSum t := rfl
          have z2 : redSum (t.under B2) = redSum t := rfl
          rw [z1]
          rw [z2] at hlast
          linarith

end

/-- C150, quality. Fit a tree with the exact solver twice with the same seed (features may be subsampled), the second time with a larger budget
or without one. The total impurity of the leaves, weighted by their shares of the training rows, is no larger the second time. -/
theorem C150_impurity (R : Rng K G) (mem : Nat → Junk K) (A : TreeArgs K) (hA : ArgsOK A) (hs : A.cfg.solver = .exact) (hr : A.rows ≠ [])
    (b B : Option Int) (hle : ∀ b2, B = some b2 → ∃ b1, b = some b1 ∧ b1 ≤ b2) (glob : Glob G) (t t' : Tree K G)
    (h : runTree R mem { A with budget := b } glob = .ok t) (h' : runTree R mem { A with budget := B } glob = .ok t') :
    (t'.leaves.map (weightedImp A t')).sum ≤ (t.leaves.map (weightedImp A t)).sum := by
  have e1 := (C43_telescopes R mem _ t (runTree_fitted h) ⟨hA.crit, hA.minmax_le, hA.sorted, hA.linear_bins, hA.auto_bins⟩ hs hr).1
  have e2 := (C43_telescopes R mem _ t' (runTree_fitted h') ⟨hA.crit, hA.minmax_le, hA.sorted, hA.linear_bins, hA.auto_bins⟩ hs hr).1
  have f1 : (t.leaves.map (weightedImp A t)).sum = critImp A.cfg.criterion (labelsOf A.labels A.rows) + redSum t := e1
  have f2 : (t'.leaves.map (weightedImp A t')).sum = critImp A.cfg.criterion (labelsOf A.labels A.rows) + redSum t' := e2
  rw [f1, f2]
  refine add_le_add (le_refl _) ?_
  unfold runTree at h h'
  cases h1 : Tree.init R A.cfg A.data A.labels A.disc b A.seed A.idcs A.feats with
  | error e => rw [h1] at h; cases h
  | ok p =>
    obtain ⟨t0, g0⟩ := p
    obtain ⟨a1, a2, a3⟩ := init_under B h1
    have c1 : Constructed R { A with budget := b } (t0.under b) := ⟨g0, by rw [← a2]; exact h1⟩
    have c2 : Constructed R { A with budget := B } (t0.under B) := ⟨g0, a1⟩
    rw [h1] at h
    simp only [Bind.bind, Except.bind] at h h'
    rw [a1] at h'
    dsimp only at h h'
    rw [a2] at h
    cases h2 : Tree.fit R mem (t0.under b) glob none none with
    | error e => rw [h2] at h; cases h
    | ok q =>
      obtain ⟨u, gu⟩ := q
      rw [h2] at h
      cases h
      cases h2' : Tree.fit R mem (t0.under B) glob none none with
      | error e => rw [h2'] at h'; cases h'
      | ok q' =>
        obtain ⟨u', gu'⟩ := q'
        rw [h2'] at h'
        cases h'
        unfold Tree.fit bothOrNeither at h2 h2'
        have i1 : ∀ B : Option Int, (t0.under B).cfg = t0.cfg := fun _ => rfl
        have i2 : ∀ B : Option Int, (t0.under B).data = t0.data := fun _ => rfl
        have i3 : ∀ B : Option Int, (t0.under B).discrete = t0.discrete := fun _ => rfl
        simp only [i1, i2, i3] at h2 h2'
        cases hd : maybeDiscrete t0.cfg.makeDiscrete t0.data t0.discrete with
        | error e => rw [hd] at h2; cases h2
        | ok dd =>
          rw [hd] at h2 h2'
          simp only [] at h2 h2'
          have s1 := c1.start dd
          have s2 := c2.start dd
          have d1 : maybeDiscrete t0.cfg.makeDiscrete A.data A.disc = .ok dd := by
            have x1 : t0.data = A.data := s1.1.data
            have x2 : t0.discrete = A.disc := s1.2
            rw [← x1, ← x2]
            exact hd
          cases hsp : t0.cfg.splitter with
          | depth => rw [hsp] at h2; cases h2
          | other => rw [hsp] at h2; cases h2
          | best =>
            rw [hsp] at h2 h2'
            exact fitLoop_two (A1 := { A with budget := b }) (A2 := { A with budget := B }) (t := { t0 with discrete := dd, leaves := t0.leaves ++ [0] })
              (fun q hq => hq.larger hle)
              ⟨hA.crit, hA.minmax_le, hA.sorted, hA.linear_bins, hA.auto_bins⟩ ⟨hA.crit, hA.minmax_le, hA.sorted, hA.linear_bins, hA.auto_bins⟩
              hs hs _ (.of_steps s1.1 d1 .refl) (.of_steps s2.1 d1 .refl) h2 h2'

/-- The squared error of a regression tree on its training rows is the total impurity of its leaves times the number of rows. -/
theorem Fitted.sqError_eq {R : Rng K G} {mem : Nat → Junk K} {A : TreeArgs K} {t : Tree K G} (h : Fitted R mem A t) (hm : A.cfg.criterion = .mse)
    (hr : A.rows ≠ []) (v : Nat → K) (hv : ∀ leaf ∈ t.leaves, ∀ i ∈ rowsOf t leaf, v i = mean (labelsOf A.labels (rowsOf t leaf))) :
    sqError A.rows (fun i => A.labels.getD i 0) v = (A.rows.length : K) * (t.leaves.map (weightedImp A t)).sum := by
  obtain ⟨_, _, hp⟩ := C29_partition R mem A t h
  have hn : (A.rows.length : K) ≠ 0 := by
    have := List.length_pos_iff.2 hr
    exact_mod_cast this.ne'
  rw [← sqError_perm hp, sqError_flatMap, ← List.sum_map_mul_left]
  congr 1
  apply List.map_congr_left
  intro leaf hl
  rw [sqError_congr (hv leaf hl)]
  unfold weightedImp
  rw [hm]
  show _ = (A.rows.length : K) * (((rowsOf t leaf).length : K) / (A.rows.length : K) * variance (labelsOf A.labels (rowsOf t leaf)))
  have e1 : (A.rows.length : K) * (((rowsOf t leaf).length : K) / (A.rows.length : K) * variance (labelsOf A.labels (rowsOf t leaf))) =
      ((rowsOf t leaf).length : K) * variance (labelsOf A.labels (rowsOf t leaf)) := by
    field_simp
  rw [e1]
  cases hrow : rowsOf t leaf with
  | nil => simp [sqError]
  | cons i0 rest =>
    rw [← hrow]
    have hne : (labelsOf A.labels (rowsOf t leaf)).map (fun y => (y - mean (labelsOf A.labels (rowsOf t leaf))) ^ 2) ≠ [] := by
      rw [hrow]
      simp [labelsOf]
    have := mean_mul_length hne
    rw [List.length_map] at this
    have e2 : (labelsOf A.labels (rowsOf t leaf)).length = (rowsOf t leaf).length := by simp [labelsOf]
    rw [e2] at this
    unfold variance
    rw [this]
    unfold sqError labelsOf
    rw [List.map_map]
    rfl

/-- C150, quality of a regression tree: with a larger budget, or without one, the squared error of its answers on the training rows is no
larger. -/
theorem C150_error (R : Rng K G) (mem : Nat → Junk K) (A : TreeArgs K) (hA : ArgsOK A) (hs : A.cfg.solver = .exact) (hc : A.cfg.isCls = false)
    (hr : A.rows ≠ []) (b B : Option Int) (hle : ∀ b2, B = some b2 → ∃ b1, b = some b1 ∧ b1 ≤ b2) (glob : Glob G) (t t' : Tree K G)
    (h : runTree R mem { A with budget := b } glob = .ok t) (h' : runTree R mem { A with budget := B } glob = .ok t') :
    ∃ v v' : Nat → K, (∀ i ∈ A.rows, ∃ t2, t.predict (A.data.getD i []) = .ok (.reg (v i), t2)) ∧
      (∀ i ∈ A.rows, ∃ t2, t'.predict (A.data.getD i []) = .ok (.reg (v' i), t2)) ∧
      sqError A.rows (fun i => A.labels.getD i 0) v' ≤ sqError A.rows (fun i => A.labels.getD i 0) v := by
  have hm : A.cfg.criterion = .mse := by
    have := hA.crit
    unfold CritFits at this
    rw [hc] at this
    simpa using this
  have f := runTree_fitted h
  have f' := runTree_fitted h'
  obtain ⟨v, a1, a2⟩ := f.values hc .none
  obtain ⟨v', b1, b2⟩ := f'.values hc .none
  refine ⟨v, v', a1, b1, ?_⟩
  have e := f.sqError_eq hm hr v a2
  have e' := f'.sqError_eq hm hr v' b2
  have g : sqError A.rows (fun i => A.labels.getD i 0) v = (A.rows.length : K) * (t.leaves.map (weightedImp A t)).sum := e
  have g' : sqError A.rows (fun i => A.labels.getD i 0) v' = (A.rows.length : K) * (t'.leaves.map (weightedImp A t')).sum := e'
  rw [g, g']
  exact mul_le_mul_of_nonneg_left (C150_impurity R mem A hA hs hr b B hle glob t t' h h') (Nat.cast_nonneg _)

/-- The example of `C150_not_monotone`: the squared errors with budgets of 3, 5, 7 and without one. -/
example : ArgsOK exArgsSpend ∧ exArgsSpend.cfg.solver = .exact ∧ exArgsSpend.cfg.isCls = false ∧ exArgsSpend.rows ≠ [] ∧
    [some 3, some 5, some 7, none].map (fun b : Option Int => (runTree rngQ exMem { exArgsSpend with budget := b } exGlob).toOption.map
      (fun t => sqError exArgsSpend.rows (fun i => exArgsSpend.labels.getD i 0) (fun i => match t.predict (exArgsSpend.data.getD i []) with
        | .ok (.reg v, _) => v
        | _ => -100))) = [some (17 / 2), some 8, some (1 / 2), some 0] := by
  exact ⟨exArgsSpend_noChoice.args, rfl, rfl, by decide, by decide +kernel⟩

/-- Eighteen points on a line in two classes. -/
def exArgsLine : TreeArgs ℚ :=
  { exArgs with
    data := (List.range 18).map (fun (i : Nat) => [(i : ℚ)]), labels := [0, 1, 1, 1, 0, 0, 0, 0, 0, 0, 0, 0, 1, 0, 1, 0, 1, 0] }

/-- How many training rows a tree gets right, for examples. -/
def rightOf (A : TreeArgs ℚ) (t : Tree ℚ Nat) : Nat :=
  numRight A.rows (fun i => A.labels.getD i 0) (fun i => match t.predict (A.data.getD i []) with
    | .ok (.cls l _, _) => l
    | _ => -100)

/-- C150, no such claim holds for the number of right answers of a classification tree: with a budget of 22 queries 15 training rows are
right, with a budget of 23 only 14, although the impurity is smaller. -/
theorem C150_accuracy_may_fall : ArgsOK exArgsLine ∧ ∃ t t' : Tree ℚ Nat,
    runTree rngQ exMem { exArgsLine with budget := some 22 } exGlob = .ok t ∧ rightOf exArgsLine t = 15 ∧
    runTree rngQ exMem { exArgsLine with budget := some 23 } exGlob = .ok t' ∧ rightOf exArgsLine t' = 14 := by
  refine ⟨⟨exArgs_ok.crit, exArgs_ok.minmax_le, exArgs_ok.sorted, exArgs_ok.linear_bins, exArgs_ok.auto_bins⟩, ?_⟩
  have h1 : (runTree rngQ exMem { exArgsLine with budget := some 22 } exGlob).map (rightOf exArgsLine) = .ok 15 := by decide +kernel
  have h2 : (runTree rngQ exMem { exArgsLine with budget := some 23 } exGlob).map (rightOf exArgsLine) = .ok 14 := by decide +kernel
  cases e1 : runTree rngQ exMem { exArgsLine with budget := some 22 } exGlob with
  | error e => rw [e1] at h1; cases h1
  | ok t =>
    cases e2 : runTree rngQ exMem { exArgsLine with budget := some 23 } exGlob with
    | error e => rw [e2] at h2; cases h2
    | ok t' =>
      rw [e1] at h1
      rw [e2] at h2
      exact ⟨t, t', rfl, Except.ok.inj h1, rfl, Except.ok.inj h2⟩

end FF
