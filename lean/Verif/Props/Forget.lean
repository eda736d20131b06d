import Verif.Props.Importance
import Verif.Props.Forest

set_option linter.unusedSectionVars false

/-!
# Properties C98–C100: rearranged columns, exhausted budgets, forgetting
-/

namespace FF

open Spec

variable {K : Type} [Field K] [LinearOrder K] [IsStrictOrderedRing K] [FloorRing K] [NpFun K] {G : Type}

/-! ### C98 -/

/-- The values of column `j`, from the first row to the last. -/
def columnOf (data : List (List K)) (j : Nat) : List K := data.map (fun row => row.getD j 0)

/-- `data'` is `data` with the values of column `j` rearranged; all other entries are where they were. -/
structure ColumnShuffled (data data' : List (List K)) (j : Nat) : Prop where
  rows : data'.length = data.length
  widths : ∀ i, (data'.getD i []).length = (data.getD i []).length
  column : (columnOf data' j).Perm (columnOf data j)
  others : ∀ i k, k ≠ j → (data'.getD i [])[k]? = (data.getD i [])[k]?

theorem shuffleCol_shuffled {data : List (List K)} {j : Nat} (hj : ∀ row ∈ data, j < row.length) {order : List Nat}
    (ho : order.Perm (List.range data.length)) : ColumnShuffled data (shuffleCol data j order) j := by
  have hlen : order.length = data.length := by rw [ho.length_eq, List.length_range]
  have hl : (shuffleCol data j order).length = data.length := by simp [shuffleCol, hlen]
  have hget : ∀ i (hi : i < data.length), (shuffleCol data j order).getD i [] =
      data[i].set j ((data.getD (order[i]'(by omega)) []).getD j 0) := by
    intro i hi
    rw [List.getD_eq_getElem _ _ (by rw [hl]; exact hi)]
    simp only [shuffleCol, List.getElem_zipWith]
  have hout : ∀ i, ¬ i < data.length → (shuffleCol data j order).getD i [] = data.getD i [] := by
    intro i hi
    rw [List.getD_eq_getElem?_getD, List.getD_eq_getElem?_getD, List.getElem?_eq_none (by rw [hl]; omega), List.getElem?_eq_none (by omega)]
  refine ⟨hl, fun i => ?_, ?_, fun i k hk => ?_⟩
  · by_cases hi : i < data.length
    · rw [hget i hi, List.length_set, List.getD_eq_getElem _ _ hi]
    · rw [hout i hi]
  · have e1 : columnOf (shuffleCol data j order) j = order.map (fun i => (data.getD i []).getD j 0) := by
      apply List.ext_getElem
      · simp [columnOf, hl, hlen]
      · intro i h1 h2
        have hi : i < data.length := by simpa [columnOf, hl] using h1
        have h3 := hget i hi
        rw [List.getD_eq_getElem _ _ (by rw [hl]; exact hi)] at h3
        simp only [columnOf, List.getElem_map]
        rw [h3, List.getD_eq_getElem?_getD, List.getElem?_set_self (hj _ (List.getElem_mem hi)), Option.getD_some]
    have e2 : columnOf data j = (List.range data.length).map (fun i => (data.getD i []).getD j 0) := by
      apply List.ext_getElem
      · simp [columnOf]
      · intro i h1 h2
        have hi : i < data.length := by simpa [columnOf] using h1
        simp only [columnOf, List.getElem_map, List.getElem_range]
        rw [List.getD_eq_getElem data _ hi]
    rw [e1, e2]
    exact ho.map _
  · by_cases hi : i < data.length
    · rw [hget i hi, List.getElem?_set_ne (Ne.symm hk), List.getD_eq_getElem _ _ hi]
    · rw [hout i hi]

section
variable (R : Rng K G)

/-- C98. Entry `j` of a permutation importance vector is `|n - s|`, where `n` is a score of the forest on the data, the same for all
features, and `s` the out-of-bag score on the data with column `j` rearranged and nothing else changed. There is one entry per column. -/
theorem C98_permutation (w : World K G) (p : PermImp K G) (f f' : Forest K G) (g g' : G) (v : List (XF K)) (hs : p.score = .permutation)
    (hrect : ∀ row ∈ p.data, row.length = (p.data.getD 0 []).length) (h : importanceVec R w p f g = .ok (v, f', g')) :
    v.length = (p.data.getD 0 []).length ∧ ∃ n : Nat, ∀ (j : Nat) (x : XF K), v[j]? = some x →
      ∃ (data' : List (List K)) (f1 f2 : Forest K G) (s : XF K), ColumnShuffled p.data data' j ∧ AfterReads f f1 ∧
        f1.oobScore w (some data') = .ok (s, f2) ∧ x = ((xnat n).sub s).abs := by
  unfold importanceVec at h
  rw [hs] at h
  simp only [] at h
  cases hb : f.predictBatch p.data with
  | error e => rw [hb] at h; cases h
  | ok q =>
    obtain ⟨ps, f1⟩ := q
    rw [hb] at h
    simp only [] at h
    cases hm : modelScore p.cfg.isCls ps (w.arrays.getD p.labelsRef []) with
    | error e => rw [hm] at h; cases h
    | ok sc =>
      rw [hm] at h
      obtain ⟨h1, h2, h3⟩ := permLoop_parts R _ h
      rw [List.length_range] at h2
      refine ⟨h2, sc, ?_⟩
      intro j x hx
      have hj : (List.range (p.data.getD 0 []).length)[j]? = some j := by
        rw [List.getElem?_range]
        have := (List.getElem?_eq_some_iff.1 hx).1
        omega
      have hjw : j < (p.data.getD 0 []).length := by simpa using (List.getElem?_eq_some_iff.1 hj).1
      obtain ⟨f2, f3, g1, s, e1, e2, e3⟩ := h3 j j x hj hx
      exact ⟨_, f2, f3, s, shuffleCol_shuffled (fun row hr => by rw [hrect row hr]; exact hjw) (R.shuffle_perm g1 p.data.length),
        (predictBatch_reads _ hb).1.trans' e1, e2, e3⟩

/-- The order drawn by the example generator rearranges column 1 only. -/
example : ((shuffleCol exData 1 [5, 4, 3, 2, 1, 0]) == [[0, 2], [1, 9], [2, 1], [3, 8], [4, 3], [5, 5]]) = true ∧
    ((exImportance .permutation exData).map Prod.fst).isSome = true := by
  decide +kernel

/-! ### C99 -/

variable (mem : Nat → Nat → Junk K)

/-- C99. If the budget is used up — 0 or less is left — `fit` trains nothing: the forest ends without trees, the queries spent and the
budget left are unchanged, and the process-wide generators, which training a tree reseeds, are not touched. -/
theorem C99_exhausted (f f' : Forest K G) (b : Int) (hb : f.remaining = some b) (hb0 : b ≤ 0) (w w' : World K G)
    (data : Option (List (List K))) (labels : Option Nat) (h : Forest.fit R mem f w data labels = .ok (f', w')) :
    f'.trees = [] ∧ f'.numQueries = f.numQueries ∧ f'.remaining = some b ∧ w'.glob = w.glob := by
  obtain ⟨dat, f0, w0, st, hl⟩ := Forest_fit_start h
  have e1 : f0.remaining = some b := by rw [st.eq]; exact hb
  have e2 : f0.trees = [] := by rw [st.eq]
  have e3 : f0.numQueries = f.numQueries := by rw [st.eq]
  rcases hn : List.range f.cfg.nEstimators with _ | ⟨i, is⟩
  · rw [hn] at hl
    cases hl
    exact ⟨e2, e3, e1, st.glob⟩
  · rw [hn] at hl
    unfold forestLoop at hl
    cases hs : forestStep R mem dat (dat.getD 0 []).length i f0 w0 with
    | error e => rw [hs] at hl; cases hl
    | ok q =>
      have hs0 := hs
      rw [hs] at hl
      unfold forestStep at hs
      simp only [] at hs
      cases hsub : subsets R f0.rng dat.length (dat.getD 0 []).length f0.cfg with
      | error e => rw [hsub] at hs; cases hs
      | ok p =>
        obtain ⟨rows0, cols, g1⟩ := p
        rw [hsub] at hs
        simp only [] at hs
        have hsp : spent f0.remaining = true := by
          rw [e1]
          exact decide_eq_true hb0
        rw [hsp, if_pos rfl] at hs
        cases hs
        cases hl
        exact ⟨e2, e3, e1, st.glob⟩

/-- C99, every tree that is kept was trained while a positive budget was left. -/
theorem C99_positive (data : List (List K)) (F i : Nat) (f f' : Forest K G) (w w' : World K G) (b : Int) (hb : f.remaining = some b)
    (h : forestStep R mem data F i f w = .ok (true, f', w')) : 0 < b := by
  rcases forestStep_cases h with ⟨_, m, t, hk⟩ | ⟨hf, _⟩
  · have := hk.go
    rw [hb] at this
    unfold spent at this
    simpa using this
  · cases hf

/-- A forest that has overdrawn its budget (34 of 30 queries) is fitted again: no trees, and the generators are as before. -/
example : (do let (f, w) ← runForest rngQ exMems exWorld { fcfgQ with nEstimators := 5 } exData 0 (some 30)
              let (f', w') ← Forest.fit rngQ exMems f w none none
              pure (f.trees.length, f.remaining, f'.trees.length, f'.numQueries, f'.remaining, w.glob.np, w'.glob.np)).toOption ==
    (do let (_, w) ← runForest rngQ exMems exWorld { fcfgQ with nEstimators := 5 } exData 0 (some 30)
        pure (2, some (-4), 0, 34, some (-4), w.glob.np, w.glob.np)).toOption := by
  decide +kernel

/-! ### C100 -/

/-- C100. What a forest was trained on before, and the trees it has, leave no trace when it is fitted to new data. -/
theorem C100_refit_forgets (f : Forest K G) (d0 : Option (List (List K))) (o0 n0 : Option Nat) (ts : List (Tree K G)) (w : World K G)
    (data : List (List K)) (labels : Nat) :
    Forest.fit R mem { f with data := d0, orgRef := o0, newRef := n0, trees := ts } w (some data) (some labels) =
      Forest.fit R mem f w (some data) (some labels) := by
  unfold Forest.fit
  simp only [bothOrNeither]
  cases data with
  | nil => rfl
  | cons row rows =>
    simp only []
    cases hc : f.cfg.isCls <;> cases hm : f.cfg.makeDiscrete <;> cases hp : f.cfg.precompMinmax <;> cases ho : f.cfg.oobScore <;>
      simp [fitTargets, hc, hm, hp, ho, maybeDiscrete]

/-- C100. After `reset` the forest holds no trees, no data and no count of queries; it refuses to be fitted without data, and answers no
query. -/
theorem C100_reset (f : Forest K G) (b : Option Int) :
    (f.reset b).trees = [] ∧ (f.reset b).numQueries = 0 ∧ (∀ w, Forest.fit R mem (f.reset b) w none none = .error .typeError) ∧
      (∀ x r, (f.reset b).predict x ≠ .ok r) := by
  refine ⟨rfl, rfl, fun w => rfl, fun x r h => ?_⟩
  have h1 : ((f.reset b).predict x).map Prod.fst = .ok r.1 := by rw [h]; rfl
  rw [Forest_predict_fst] at h1
  have h2 : (f.reset b).trees.mapM (fun (t : Tree K G) => (t.predict x).map Prod.fst) = .ok [] := rfl
  rw [h2] at h1
  have h3 : forestAnswer (f.reset b).cfg (f.reset b).classes [] = .ok r.1 := h1
  unfold forestAnswer at h3
  split_ifs at h3 <;> simp_all

end

end FF
