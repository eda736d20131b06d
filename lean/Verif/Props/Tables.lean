import Verif.Spec.Tables
import Verif.Props.Compare
import Verif.Props.Verdict
import Mathlib.Tactic.Linarith
import Mathlib.Tactic.Ring
import Mathlib.Tactic.FieldSimp
import Mathlib.Tactic.Push

/-!
# C151: the tables
-/

set_option linter.unusedSectionVars false

namespace FF
open Spec

variable {K : Type} [Field K] [LinearOrder K] [IsStrictOrderedRing K] [FloorRing K] [NpFun K] {G : Type}

/-! ## Numbers -/

theorem round3_spec (x : K) : (∃ n : ℤ, round3 x * 1000 = n) ∧ |round3 x - x| ≤ 1 / 2000 := by
  have h1 := Int.floor_le (x * 1000)
  have h2 := Int.lt_floor_add_one (x * 1000)
  have h0 : (1000 : K) ≠ 0 := by norm_num
  have lo : (∃ n : ℤ, (⌊x * 1000⌋ : K) / 1000 * 1000 = n) := ⟨⌊x * 1000⌋, by rw [div_mul_cancel₀ _ h0]⟩
  have hi : (∃ n : ℤ, ((⌊x * 1000⌋ : K) + 1) / 1000 * 1000 = n) := ⟨⌊x * 1000⌋ + 1, by rw [div_mul_cancel₀ _ h0]; push_cast; rfl⟩
  have elo : (⌊x * 1000⌋ : K) / 1000 = x - (x * 1000 - ⌊x * 1000⌋) / 1000 := by field_simp; ring
  have ehi : ((⌊x * 1000⌋ : K) + 1) / 1000 = x + (1 - (x * 1000 - ⌊x * 1000⌋)) / 1000 := by field_simp; ring
  unfold round3
  dsimp only
  by_cases a : x * 1000 - (⌊x * 1000⌋ : K) < 1 / 2
  · rw [if_pos a]
    refine ⟨lo, ?_⟩
    rw [elo, abs_le]
    constructor <;> linarith
  · rw [if_neg a]
    push Not at a
    by_cases b : 1 / 2 < x * 1000 - (⌊x * 1000⌋ : K)
    · rw [if_pos b]
      refine ⟨hi, ?_⟩
      rw [ehi, abs_le]
      constructor <;> linarith
    · rw [if_neg b]
      push Not at b
      by_cases c : ⌊x * 1000⌋ % 2 = 0
      · rw [if_pos c]
        refine ⟨lo, ?_⟩
        rw [elo, abs_le]
        constructor <;> linarith
      · rw [if_neg c]
        refine ⟨hi, ?_⟩
        rw [ehi, abs_le]
        constructor <;> linarith

/-- C151: a number in a table has three digits after the point and is at most half a thousandth away from the number in the log; if the number in
the log has three digits itself, it is that number. -/
theorem C151_round (x : K) :
    (∃ n : ℤ, round3 x * 1000 = n) ∧ |round3 x - x| ≤ 1 / 2000 ∧ ((∃ n : ℤ, x * 1000 = n) → round3 x = x) := by
  refine ⟨(round3_spec x).1, (round3_spec x).2, ?_⟩
  rintro ⟨n, hn⟩
  have hf : ⌊x * 1000⌋ = n := by rw [hn]; exact Int.floor_intCast n
  unfold round3
  dsimp only
  rw [hf, hn, sub_self, if_pos (by norm_num), ← hn]
  field_simp

/-- C151: rounding does not reverse an order. -/
theorem C151_round_mono {x y : K} (h : x ≤ y) : round3 x ≤ round3 y := by
  rcases eq_or_lt_of_le h with rfl | h
  · exact le_refl _
  by_contra hc
  push Not at hc
  obtain ⟨⟨n, hn⟩, hx⟩ := round3_spec x
  obtain ⟨⟨m, hm⟩, hy⟩ := round3_spec y
  have h1 : (m : K) < n := by rw [← hn, ← hm]; linarith
  have h2 : m + 1 ≤ n := by exact_mod_cast h1
  have h3 : (m : K) + 1 ≤ n := by exact_mod_cast h2
  rw [abs_le] at hx hy
  have : round3 y + 1 / 1000 ≤ round3 x := by linarith
  linarith [hx.2, hy.1]

theorem shows_round (x e : K) : Shows (.pm (round3 x) (round3 e)) x e :=
  ⟨_, _, rfl, (round3_spec x).1, (round3_spec e).1, (round3_spec x).2, (round3_spec e).2⟩

/-! ## Lines -/

/-- C151: a line of Tables 1 and 2 shows what its column is called: the mean and the standard error of the training times, of the numbers of
insertions and of the test scores; the first line is the exact solver's. -/
theorem C151_runtime_lines (rows : List (CmpRow K)) (ours theirs : List K) (f : String) :
    ∃ a b c a' b' c' : TableCell K,
      runtimeLines (runtimeLog true true rows ours theirs) f =
        .ok [[.text (modelName f), a', b', c'], [.text (modelName f ++ " + MABSplit"), a, b, c]] ∧
      Shows a' (npMean theirs) (stdErr theirs) ∧ Shows b' (npMean (theirQueries rows)) (stdErr (theirQueries rows)) ∧
      Shows c' (npMean (theirTests rows)) (stdErr (theirTests rows)) ∧
      Shows a (npMean ours) (stdErr ours) ∧ Shows b (npMean (ourQueries rows)) (stdErr (ourQueries rows)) ∧
      Shows c (npMean (ourTests rows)) (stdErr (ourTests rows)) :=
  ⟨_, _, _, _, _, _, rfl, shows_round _ _, shows_round _ _, shows_round _ _, shows_round _ _, shows_round _ _, shows_round _ _⟩

/-- C151: a line of Tables 3 and 4. -/
theorem C151_budget_lines (rows : List (CmpRow K)) (f : String) :
    ∃ a b a' b' : TableCell K,
      budgetLines (budgetLog true true rows) f = .ok [[.text (modelName f), a', b'], [.text (modelName f ++ " + MABSplit"), a, b]] ∧
      Shows a' (npMean (theirTrees rows)) (stdErr (theirTrees rows)) ∧ Shows b' (npMean (theirTests rows)) (stdErr (theirTests rows)) ∧
      Shows a (npMean (ourTrees rows)) (stdErr (ourTrees rows)) ∧ Shows b (npMean (ourTests rows)) (stdErr (ourTests rows)) :=
  ⟨_, _, _, _, rfl, shows_round _ _, shows_round _ _, shows_round _ _, shows_round _ _⟩

/-- C151: a line of Table 5 shows the mean of the stabilities, and the half width of the confidence interval. -/
theorem C151_stability_lines {z : K} (hz : 0 ≤ z) (exact mab : List K) (f : String) :
    ∃ (s : String) (a a' : TableCell K),
      stabilityLines (stabilityLog z exact mab) f =
        .ok [[.text (modelName f), .text s, a'], [.text (modelName f ++ " + MABSplit"), .text s, a]] ∧
      Shows a' (npMean exact) (stdErr exact * z) ∧ Shows a (npMean mab) (stdErr mab * z) := by
  have key : ∀ l : List K, Shows (intervalCell (confInterval z l).1 (confInterval z l).2) (npMean l) (stdErr l * z) := by
    intro l
    have hs : 0 ≤ stdErr l * z := mul_nonneg (div_nonneg (NpFun.sqrt_nonneg _ (npVar_nonneg' l)) (NpFun.sqrt_nonneg _ (Nat.cast_nonneg _))) hz
    have e1 : ((confInterval z l).1 + (confInterval z l).2) / 2 = npMean l := by unfold confInterval; dsimp only; ring
    have e2 : |(confInterval z l).1 - (confInterval z l).2| / 2 = stdErr l * z := by
      have : (confInterval z l).1 - (confInterval z l).2 = - (2 * (stdErr l * z)) := by unfold confInterval; dsimp only; ring
      rw [this, abs_neg, abs_of_nonneg (by linarith)]
      ring
    unfold intervalCell
    rw [e1, e2]
    exact shows_round _ _
  exact ⟨_, _, _, rfl, key exact, key mab⟩

/-- C151 is false of Table 6, partly: under "Test Performance" it shows the mean of the training scores, and after the plus-minus sign the standard
deviation, not the standard error as in the tables before. -/
theorem C151_baseline_lines_partial (ours theirs : BaseScores K) (f : String) :
    ∃ (s m : String) (a a' : TableCell K),
      baselineLines (baselineLog ours theirs) f =
        .ok [[.text (modelName f ++ "(Sklearn)"), .text s, .text m, a'], [.text (modelName f ++ "(Ours)"), .text s, .text m, a]] ∧
      Shows a' (npMean theirs.train) (NpFun.sqrt (npVar theirs.train)) ∧ Shows a (npMean ours.train) (NpFun.sqrt (npVar ours.train)) :=
  ⟨_, _, _, _, rfl, shows_round _ _, shows_round _ _⟩

/-- C151: the test scores have no influence on Table 6. -/
theorem C151_baseline_tests_ignored (ours theirs : BaseScores K) (t t' : List K) (f : String) :
    baselineLines (baselineLog { ours with test := t } { theirs with test := t' }) f = baselineLines (baselineLog ours theirs) f := rfl

/-- C151: the log of a comparison without test scores, or without the second model, makes no lines but an exception. -/
theorem C151_needs_both (p r : Bool) (h : (p && r) = false) (rows : List (CmpRow K)) (ours theirs : List K) (f : String) :
    runtimeLines (runtimeLog p r rows ours theirs) f = .error .typeError ∧ budgetLines (budgetLog p r rows) f = .error .typeError := by
  cases p <;> cases r
  · exact ⟨rfl, rfl⟩
  · exact ⟨rfl, rfl⟩
  · exact ⟨rfl, rfl⟩
  · cases h

/-! ## Tables -/

/-- C151: the lines are numbered as in English, up to the twentieth. -/
theorem C151_ordinal {n : Nat} (h0 : 0 < n) (h : n ≤ 20) : ordinalNum n = .ok (englishOrdinal n) := by
  have : ∀ m : Fin 21, 0 < m.1 → ordinalNum m.1 = .ok (englishOrdinal m.1) := by decide +kernel
  exact this ⟨n, by omega⟩ h0

/-- The 21st would be called the 21th. -/
example : ordinalNum 21 = .ok "21th" ∧ englishOrdinal 21 = "21st" := by decide +kernel

theorem printRows_get : ∀ (l : List (List (TableCell K))) (i : Nat), (i + l.length) / 2 + 1 ≤ 20 →
    ∃ rows : List (String × List (TableCell K)), printRows i l = .ok rows ∧ rows.length = l.length ∧
      ∀ (j : Nat) (c : List (TableCell K)), l[j]? = some c → rows[j]? = some (englishOrdinal ((i + j) / 2 + 1) ++ " row", c)
  | [], _, _ => ⟨[], rfl, rfl, fun j c h => by simp at h⟩
  | row :: l, i, h => by
    simp only [List.length_cons] at h
    obtain ⟨rows, h1, h2, h3⟩ := printRows_get l (i + 1) (by rw [show i + 1 + l.length = i + (l.length + 1) by omega]; exact h)
    have ho : ordinalNum (i / 2 + 1) = .ok (englishOrdinal (i / 2 + 1)) := C151_ordinal (by omega) (by omega)
    refine ⟨(englishOrdinal (i / 2 + 1) ++ " row", row) :: rows, ?_, by simp [h2], ?_⟩
    · unfold printRows
      rw [ho]
      dsimp only
      rw [h1]
    · intro j c hj
      cases j with
      | zero =>
        simp only [List.getElem?_cons_zero, Option.some.injEq] at hj
        subst hj
        rfl
      | succ j =>
        rw [List.getElem?_cons_succ] at hj ⊢
        rw [h3 j c hj, show i + 1 + j = i + (j + 1) by omega]

theorem tableLines_get {d : Disk K} {dir : DirPath} {lines : LogDict K → String → Except Err (List (List (TableCell K)))}
    {theirs ours : String → List (TableCell K) → Prop} :
    ∀ (files : List String),
      (∀ f ∈ files, ∃ (log : LogDict K) (a b : List (TableCell K)), d.read (dir ++ [f]) = .ok log ∧ lines log f = .ok [a, b] ∧ theirs f a ∧ ours f b) →
      ∃ l : List (List (TableCell K)), tableLines d dir lines files = .ok l ∧ l.length = 2 * files.length ∧
        ∀ (i : Nat) (f : String), files[i]? = some f → ∃ a b : List (TableCell K), l[2 * i]? = some a ∧ l[2 * i + 1]? = some b ∧ theirs f a ∧ ours f b
  | [], _ => ⟨[], rfl, rfl, fun i f h => by simp at h⟩
  | g :: files, h => by
    obtain ⟨l, h1, h2, h3⟩ := tableLines_get files (fun f hf => h f (List.mem_cons_of_mem _ hf))
    obtain ⟨log, a, b, g1, g2, g3, g4⟩ := h g List.mem_cons_self
    refine ⟨a :: b :: l, ?_, by simp only [List.length_cons, h2]; omega, ?_⟩
    · unfold tableLines
      rw [g1]
      dsimp only
      rw [g2]
      dsimp only
      rw [h1]
      rfl
    · intro i f hi
      cases i with
      | zero =>
        simp only [List.getElem?_cons_zero, Option.some.injEq] at hi
        subst hi
        exact ⟨a, b, rfl, rfl, g3, g4⟩
      | succ i =>
        rw [List.getElem?_cons_succ] at hi
        obtain ⟨a', b', q1, q2, q3, q4⟩ := h3 i f hi
        refine ⟨a', b', ?_, ?_, q3, q4⟩
        · rw [show 2 * (i + 1) = (2 * i) + 1 + 1 by omega, List.getElem?_cons_succ, List.getElem?_cons_succ]
          exact q1
        · rw [show 2 * (i + 1) + 1 = (2 * i + 1) + 1 + 1 by omega, List.getElem?_cons_succ, List.getElem?_cons_succ]
          exact q2

theorem makeTable_get {d : Disk K} {dir : DirPath} {lines : LogDict K → String → Except Err (List (List (TableCell K)))}
    {theirs ours : String → List (TableCell K) → Prop} (files headers : List String) (title : String) (hlen : files.length < 20)
    (h : ∀ f ∈ files, ∃ (log : LogDict K) (a b : List (TableCell K)), d.read (dir ++ [f]) = .ok log ∧ lines log f = .ok [a, b] ∧ theirs f a ∧ ours f b) :
    ∃ t : Table K, makeTable d dir lines files headers title = .ok t ∧ t.title = title ∧ t.headers = headers ∧ PairedLines t files theirs ours := by
  obtain ⟨l, h1, h2, h3⟩ := tableLines_get files h
  obtain ⟨rows, r1, r2, r3⟩ := printRows_get l 0 (by omega)
  refine ⟨⟨title, headers, rows⟩, ?_, rfl, rfl, ?_, ?_⟩
  · unfold makeTable
    rw [h1]
    dsimp only
    rw [r1]
  · show rows.length = _
    rw [r2, h2]
  · intro i f hi
    obtain ⟨a, b, q1, q2, q3, q4⟩ := h3 i f hi
    refine ⟨a, b, ?_, ?_, q3, q4⟩
    · have := r3 _ _ q1
      rw [show (0 + 2 * i) / 2 + 1 = i + 1 by omega] at this
      exact this
    · have := r3 _ _ q2
      rw [show (0 + (2 * i + 1)) / 2 + 1 = i + 1 by omega] at this
      exact this

/-- A comparison: its rounds and the times of the two models. -/
structure TimedRows (K : Type) where
  rows : List (CmpRow K)
  ours : List K
  theirs : List K

/-- A line shows, in this order, the mean and the standard error of each of these lists of numbers, after the name. -/
def ShowsMeans (name : String) (ls : List (List K)) (line : List (TableCell K)) : Prop :=
  ∃ cells : List (TableCell K), line = .text name :: cells ∧ List.Forall₂ (fun c l => Shows c (npMean l) (stdErr l)) cells ls

/-- Two lines for each of the runtime experiments. -/
def RuntimeTable (t : Table K) (files : List String) (exp : String → TimedRows K) : Prop :=
  PairedLines t files (fun f => ShowsMeans (modelName f) [(exp f).theirs, theirQueries (exp f).rows, theirTests (exp f).rows])
    (fun f => ShowsMeans (modelName f ++ " + MABSplit") [(exp f).ours, ourQueries (exp f).rows, ourTests (exp f).rows])

/-- Two lines for each of the budget experiments. -/
def BudgetTable (t : Table K) (files : List String) (exp : String → List (CmpRow K)) : Prop :=
  PairedLines t files (fun f => ShowsMeans (modelName f) [theirTrees (exp f), theirTests (exp f)])
    (fun f => ShowsMeans (modelName f ++ " + MABSplit") [ourTrees (exp f), ourTests (exp f)])

theorem runtime_table {cwd : DirPath} {d : Disk K} (exp : String → TimedRows K) (files : List String) (headers : List String) (title : String)
    (hlen : files.length < 20)
    (h : ∀ f ∈ files, d.read (cwd ++ ["runtime_exps"] ++ [f]) = .ok (runtimeLog true true (exp f).rows (exp f).ours (exp f).theirs)) :
    ∃ t : Table K, makeTable d (cwd ++ ["runtime_exps"]) runtimeLines files headers title = .ok t ∧ t.title = title ∧ t.headers = headers ∧
      RuntimeTable t files exp := by
  refine makeTable_get files headers title hlen ?_
  intro f hf
  obtain ⟨a, b, c, a', b', c', e, s1, s2, s3, s4, s5, s6⟩ := C151_runtime_lines (exp f).rows (exp f).ours (exp f).theirs f
  exact ⟨_, _, _, h f hf, e, ⟨_, rfl, .cons s1 (.cons s2 (.cons s3 .nil))⟩, ⟨_, rfl, .cons s4 (.cons s5 (.cons s6 .nil))⟩⟩

theorem budget_table {cwd : DirPath} {d : Disk K} (exp : String → List (CmpRow K)) (files : List String) (headers : List String) (title : String)
    (hlen : files.length < 20) (h : ∀ f ∈ files, d.read (cwd ++ ["budget_exps"] ++ [f]) = .ok (budgetLog true true (exp f))) :
    ∃ t : Table K, makeTable d (cwd ++ ["budget_exps"]) budgetLines files headers title = .ok t ∧ t.title = title ∧ t.headers = headers ∧
      BudgetTable t files exp := by
  refine makeTable_get files headers title hlen ?_
  intro f hf
  obtain ⟨a, b, a', b', e, s1, s2, s3, s4⟩ := C151_budget_lines (exp f) f
  exact ⟨_, _, _, h f hf, e, ⟨_, rfl, .cons s1 (.cons s2 .nil)⟩, ⟨_, rfl, .cons s3 (.cons s4 .nil)⟩⟩

/-- C151: if the logs of comparisons are where `produce_tables.py` looks for them, then Tables 1 to 4 have two lines for each comparison, theirs
before ours, and under the headers "Time(s)", "# insertions", "# trees" and "Accuracy" or "MSE" stand the means and the standard errors of the
training times, the numbers of insertions, the numbers of trees and the test scores. -/
theorem C151_tables {cwd : DirPath} {d : Disk K} (times : String → TimedRows K) (budgets : String → List (CmpRow K))
    (h1 : ∀ f ∈ ["HRFC_dict", "ERFC_dict", "HRPC_dict", "HRFR_dict", "ERFR_dict", "HRPR_dict"],
      d.read (cwd ++ ["runtime_exps"] ++ [f]) = .ok (runtimeLog true true (times f).rows (times f).ours (times f).theirs))
    (h2 : ∀ f ∈ ["HRFC_dict", "ERFC_dict", "HRPC_dict", "HRFR_dict", "ERFR_dict", "HRPR_dict"],
      d.read (cwd ++ ["budget_exps"] ++ [f]) = .ok (budgetLog true true (budgets f))) :
    ∃ t1 t2 t3 t4 : Table K,
      (produceTables cwd d).1.take 4 = [t1, t2, t3, t4] ∧
      t1.headers = ["Model", "Time(s)", "# insertions", "Accuracy"] ∧ RuntimeTable t1 ["HRFC_dict", "ERFC_dict", "HRPC_dict"] times ∧
      t2.headers = ["Model", "Time(s)", "# insertions", "MSE"] ∧ RuntimeTable t2 ["HRFR_dict", "ERFR_dict", "HRPR_dict"] times ∧
      t3.headers = ["Model", "# trees", "Accuracy"] ∧ BudgetTable t3 ["HRFC_dict", "ERFC_dict", "HRPC_dict"] budgets ∧
      t4.headers = ["Model", "# trees", "MSE"] ∧ BudgetTable t4 ["HRFR_dict", "ERFR_dict", "HRPR_dict"] budgets := by
  have sub1 : ∀ f ∈ ["HRFC_dict", "ERFC_dict", "HRPC_dict"], f ∈ ["HRFC_dict", "ERFC_dict", "HRPC_dict", "HRFR_dict", "ERFR_dict", "HRPR_dict"] := by
    intro f hf
    exact List.mem_append_left ["HRFR_dict", "ERFR_dict", "HRPR_dict"] hf
  have sub2 : ∀ f ∈ ["HRFR_dict", "ERFR_dict", "HRPR_dict"], f ∈ ["HRFC_dict", "ERFC_dict", "HRPC_dict", "HRFR_dict", "ERFR_dict", "HRPR_dict"] := by
    intro f hf
    exact List.mem_append_right ["HRFC_dict", "ERFC_dict", "HRPC_dict"] hf
  obtain ⟨t1, a1, _, a2, a3⟩ := runtime_table (cwd := cwd) (d := d) times ["HRFC_dict", "ERFC_dict", "HRPC_dict"]
    ["Model", "Time(s)", "# insertions", "Accuracy"] "Table 1 Classification: MNIST" (by decide) (fun f hf => h1 f (sub1 f hf))
  obtain ⟨t2, b1, _, b2, b3⟩ := runtime_table (cwd := cwd) (d := d) times ["HRFR_dict", "ERFR_dict", "HRPR_dict"]
    ["Model", "Time(s)", "# insertions", "MSE"] "Table 2 Regression: Random Linear Model" (by decide) (fun f hf => h1 f (sub2 f hf))
  obtain ⟨t3, c1, _, c2, c3⟩ := budget_table (cwd := cwd) (d := d) budgets ["HRFC_dict", "ERFC_dict", "HRPC_dict"]
    ["Model", "# trees", "Accuracy"] "Table 3 Classification: MNIST (budget = 10M)" (by decide) (fun f hf => h2 f (sub1 f hf))
  obtain ⟨t4, d1, _, d2, d3⟩ := budget_table (cwd := cwd) (d := d) budgets ["HRFR_dict", "ERFR_dict", "HRPR_dict"]
    ["Model", "# trees", "MSE"] "Table 4 Classification: Random Linear (budget = Q * 24M)" (by decide) (fun f hf => h2 f (sub2 f hf))
  refine ⟨t1, t2, t3, t4, ?_, a2, a3, b2, b3, c2, c3, d2, d3⟩
  have e1 : produceTable1 cwd d = .ok t1 := a1
  have e2 : produceTable2 cwd d = .ok t2 := b1
  have e3 : produceTable3 cwd d = .ok t3 := c1
  have e4 : produceTable4 cwd d = .ok t4 := d1
  unfold produceTables
  rw [e1, e2, e3, e4]
  rfl

/-- C151: if the logs of the stability experiments are where the program looks for them, Table 5 shows the means and the half widths of the confidence
intervals. -/
theorem C151_table5 {cwd : DirPath} {d : Disk K} {z : K} (hz : 0 ≤ z) (exact mab : String → List K)
    (h : ∀ f ∈ ["HRFC+MID_dict", "HRFR+MID_dict", "HRFC+Perm_dict", "HRFR+Perm_dict"],
      d.read (cwd.dropLast ++ ["tests", "stat_test_stability_log"] ++ [f]) = .ok (stabilityLog z (exact f) (mab f))) :
    ∃ t : Table K, produceTable5 cwd d = .ok t ∧ t.headers = ["Importance Model", "Dataset", "Stability"] ∧
      PairedLines t ["HRFC+MID_dict", "HRFR+MID_dict", "HRFC+Perm_dict", "HRFR+Perm_dict"]
        (fun f l => ∃ (s : String) (c : TableCell K), l = [.text (modelName f), .text s, c] ∧
          Shows c (npMean (exact f)) (stdErr (exact f) * z))
        (fun f l => ∃ (s : String) (c : TableCell K), l = [.text (modelName f ++ " + MABSplit"), .text s, c] ∧
          Shows c (npMean (mab f)) (stdErr (mab f) * z)) := by
  have e : (cwd ++ ["produce_tables.py"]).dropLast.dropLast = cwd.dropLast := by rw [List.dropLast_concat]
  obtain ⟨t, a1, _, a2, a3⟩ := makeTable_get (d := d) (dir := cwd.dropLast ++ ["tests", "stat_test_stability_log"]) (lines := stabilityLines)
    (theirs := fun f l => ∃ (s : String) (c : TableCell K), l = [.text (modelName f), .text s, c] ∧ Shows c (npMean (exact f)) (stdErr (exact f) * z))
    (ours := fun f l => ∃ (s : String) (c : TableCell K), l = [.text (modelName f ++ " + MABSplit"), .text s, c] ∧
      Shows c (npMean (mab f)) (stdErr (mab f) * z))
    ["HRFC+MID_dict", "HRFR+MID_dict", "HRFC+Perm_dict", "HRFR+Perm_dict"] ["Importance Model", "Dataset", "Stability"]
    "Table 5 Stability Model (Budget: Q * 100000)" (by decide) (by
      intro f hf
      obtain ⟨s, a, a', q1, q2, q3⟩ := C151_stability_lines hz (exact f) (mab f) f
      exact ⟨_, _, _, h f hf, q1, ⟨s, a', rfl, q2⟩, ⟨s, a, rfl, q3⟩⟩)
  refine ⟨t, ?_, a2, a3⟩
  unfold produceTable5
  rw [e]
  exact a1

/-! ## All the seeds are counted -/

theorem cmpMeasure_test {c : Cmp K} {w : World K G} {f : Forest K G} {s : CmpSide K} (h : cmpMeasure c w f = .ok s) (hp : c.predict = true) :
    ∃ x, s.test = some x := by
  unfold cmpMeasure at h
  cases h1 : f.predictBatch c.data with
  | error e => rw [h1] at h; cases h
  | ok q =>
    obtain ⟨ps, f1⟩ := q
    rw [h1] at h
    dsimp only at h
    cases h2 : cmpScore c.kind.isCls ps (w.arrays.getD c.ref []) with
    | error e => rw [h2] at h; cases h
    | ok tr =>
      rw [h2] at h
      dsimp only at h
      rw [if_pos hp] at h
      cases h3 : f1.predictBatch c.testData with
      | error e => rw [h3] at h; cases h
      | ok q =>
        obtain ⟨ps2, f2⟩ := q
        rw [h3] at h
        dsimp only at h
        cases h4 : cmpScore c.kind.isCls ps2 (w.arrays.getD c.testRef []) with
        | error e => rw [h4] at h; cases h
        | ok te =>
          rw [h4] at h
          dsimp only at h
          cases h
          exact ⟨te, rfl⟩

theorem cmpRounds_full {R : Rng K G} {mem : Nat → Bool → Nat → Nat → Junk K} {c : Cmp K} (hp : c.predict = true) (hr : c.runTheirs = true) :
    ∀ {seeds : List Nat} {w w' : World K G} {rows : List (CmpRow K)}, cmpRounds R mem c seeds w = .ok (rows, w') → rows.length = seeds.length ∧
      ∀ row ∈ rows, ∃ (x y : K) (s : CmpSide K), row.ours.test = some x ∧ row.theirs = some s ∧ s.test = some y
  | [], w, w', rows, h => by
    unfold cmpRounds at h
    cases h
    exact ⟨rfl, fun _ hq => by cases hq⟩
  | seed :: seeds, w, w', rows, h => by
    unfold cmpRounds at h
    cases h1 : cmpRound R (mem seed) c seed w with
    | error e => rw [h1] at h; cases h
    | ok q =>
      obtain ⟨row, w1⟩ := q
      rw [h1] at h
      dsimp only at h
      cases h2 : cmpRounds R mem c seeds w1 with
      | error e => rw [h2] at h; cases h
      | ok q =>
        obtain ⟨rest, w2⟩ := q
        rw [h2] at h
        dsimp only at h
        cases h
        obtain ⟨ih1, ih2⟩ := cmpRounds_full hp hr h2
        refine ⟨by rw [List.length_cons, List.length_cons, ih1], ?_⟩
        intro r hq
        rcases List.mem_cons.1 hq with rfl | hq
        · obtain ⟨_, _, _, _, _, _, _, _, _, m1, _, m2⟩ := cmpRound_parts h1
          obtain ⟨t', s, _, m3, m4⟩ := m2 hr
          obtain ⟨x, hx⟩ := cmpMeasure_test m1 hp
          obtain ⟨y, hy⟩ := cmpMeasure_test m4 hp
          exact ⟨x, y, s, hx, m3, hy⟩
        · exact ih2 r hq

theorem filterMap_length_of_some {α β : Type} (f : α → Option β) : ∀ l : List α, (∀ a ∈ l, ∃ b, f a = some b) → (l.filterMap f).length = l.length
  | [], _ => rfl
  | a :: l, h => by
    obtain ⟨b, hb⟩ := h a List.mem_cons_self
    rw [List.filterMap_cons_some hb, List.length_cons, List.length_cons,
      filterMap_length_of_some f l (fun a' ha => h a' (List.mem_cons_of_mem _ ha))]

/-- C151: the means and standard errors of a comparison with both models and with test scores are taken over all the seeds. -/
theorem C151_all_seeds (R : Rng K G) (mem : Nat → Bool → Nat → Nat → Junk K) (c : Cmp K) (hp : c.predict = true) (hr : c.runTheirs = true)
    (n : Nat) (w w' : World K G) (r : CmpResult K) (h : compareModels R mem c n w = .ok (r, w')) :
    (ourTests r.rows).length = n ∧ (theirTests r.rows).length = n ∧ (ourQueries r.rows).length = n ∧ (theirQueries r.rows).length = n ∧
      (ourTrees r.rows).length = n ∧ (theirTrees r.rows).length = n := by
  have hrows : ∃ w1, cmpRounds R mem c (List.range n) w = .ok (r.rows, w1) := by
    unfold compareModels at h
    cases h1 : cmpRounds R mem c (List.range n) w with
    | error e => rw [h1] at h; cases h
    | ok q =>
      obtain ⟨rows, w1⟩ := q
      rw [h1] at h
      dsimp only at h
      by_cases h0 : rows = []
      · rw [if_pos h0] at h
        cases h
      · rw [if_neg h0, if_pos hr, if_pos hp] at h
        cases h
        exact ⟨_, rfl⟩
  obtain ⟨w1, hrows⟩ := hrows
  obtain ⟨hl, hf⟩ := cmpRounds_full hp hr hrows
  rw [List.length_range] at hl
  refine ⟨?_, ?_, ?_, ?_, ?_, ?_⟩
  · unfold ourTests
    rw [filterMap_length_of_some _ _ (fun a ha => by obtain ⟨x, y, s, q1, q2, q3⟩ := hf a ha; exact ⟨x, q1⟩), hl]
  · unfold theirTests
    rw [filterMap_length_of_some _ _ (fun a ha => by obtain ⟨x, y, s, q1, q2, q3⟩ := hf a ha; exact ⟨y, by rw [q2]; exact q3⟩), hl]
  · unfold ourQueries
    rw [List.length_map, hl]
  · unfold theirQueries
    rw [filterMap_length_of_some _ _ (fun a ha => by obtain ⟨x, y, s, q1, q2, q3⟩ := hf a ha; exact ⟨_, by rw [q2]; rfl⟩), hl]
  · unfold ourTrees
    rw [List.length_map, hl]
  · unfold theirTrees
    rw [filterMap_length_of_some _ _ (fun a ha => by obtain ⟨x, y, s, q1, q2, q3⟩ := hf a ha; exact ⟨_, by rw [q2]; rfl⟩), hl]

/-! ## The script -/

theorem read_writeAll {p dir : DirPath} (h : ∀ n : String, p ≠ dir ++ [n]) : ∀ (fs : List (String × LogDict K)) (d : Disk K),
    (d.writeAll dir fs).read p = d.read p
  | [], _ => rfl
  | f :: fs, d => by
    unfold Disk.writeAll
    rw [read_writeAll h fs]
    unfold Disk.read Disk.write
    dsimp only
    rw [List.lookup_cons, beq_eq_false_iff_ne.2 (h f.1)]

theorem dirs_writeAll (dir : DirPath) : ∀ (fs : List (String × LogDict K)) (d : Disk K), (d.writeAll dir fs).dirs = d.dirs ∧
    (d.writeAll dir fs).programs = d.programs
  | [], _ => ⟨rfl, rfl⟩
  | f :: fs, d => by
    unfold Disk.writeAll
    obtain ⟨h1, h2⟩ := dirs_writeAll dir fs (d.write (dir ++ [f.1]) f.2)
    exact ⟨h1, h2⟩

/-- The directories the tables are made from. -/
def tableDirs : List DirPath :=
  [["experiments", "runtime_exps"], ["experiments", "budget_exps"], ["tests", "stat_test_stability_log"], ["experiments", "sklearn_exps"]]

theorem tableLines_congr {d d' : Disk K} {dir : DirPath} (h : ∀ n : String, d'.read (dir ++ [n]) = d.read (dir ++ [n]))
    (lines : LogDict K → String → Except Err (List (List (TableCell K)))) : ∀ files : List String,
    tableLines d' dir lines files = tableLines d dir lines files
  | [] => rfl
  | f :: fs => by
    unfold tableLines
    rw [h f, tableLines_congr h lines fs]

theorem makeTable_congr {d d' : Disk K} {dir : DirPath} (h : ∀ n : String, d'.read (dir ++ [n]) = d.read (dir ++ [n]))
    (lines : LogDict K → String → Except Err (List (List (TableCell K)))) (files headers : List String) (title : String) :
    makeTable d' dir lines files headers title = makeTable d dir lines files headers title := by
  unfold makeTable
  rw [tableLines_congr h]

theorem produceTables_congr {d d' : Disk K} (h : ∀ dir ∈ tableDirs, ∀ n : String, d'.read (dir ++ [n]) = d.read (dir ++ [n])) :
    produceTables ["experiments"] d' = produceTables ["experiments"] d := by
  unfold tableDirs at h
  have e1 : produceTable1 ["experiments"] d' = produceTable1 ["experiments"] d := makeTable_congr (h ["experiments", "runtime_exps"] (by simp)) _ _ _ _
  have e2 : produceTable2 ["experiments"] d' = produceTable2 ["experiments"] d := makeTable_congr (h ["experiments", "runtime_exps"] (by simp)) _ _ _ _
  have e3 : produceTable3 ["experiments"] d' = produceTable3 ["experiments"] d := makeTable_congr (h ["experiments", "budget_exps"] (by simp)) _ _ _ _
  have e4 : produceTable4 ["experiments"] d' = produceTable4 ["experiments"] d := makeTable_congr (h ["experiments", "budget_exps"] (by simp)) _ _ _ _
  have e5 : produceTable5 ["experiments"] d' = produceTable5 ["experiments"] d :=
    makeTable_congr (h ["tests", "stat_test_stability_log"] (by simp)) _ _ _ _
  have e6 : produceTable6 ["experiments"] d' = produceTable6 ["experiments"] d := makeTable_congr (h ["experiments", "sklearn_exps"] (by simp)) _ _ _ _
  unfold produceTables
  rw [e1, e2, e3, e4, e5, e6]

/-- What the shell keeps, until the tables are printed: nothing the tables are made from has changed. -/
structure Untouched (d : Disk K) (cwd : DirPath) (sh : Shell K) : Prop where
  cwd_eq : sh.cwd = cwd
  out : sh.out = none
  programs : sh.disk.programs = d.programs
  dirs : ∀ p ∈ d.dirs, p ∈ sh.disk.dirs
  missing : ["experiments", "experiments", "sklearn_exps"] ∉ sh.disk.dirs
  reads : ∀ dir ∈ tableDirs, ∀ n : String, sh.disk.read (dir ++ [n]) = d.read (dir ++ [n])

theorem Untouched.cd {d : Disk K} {cwd : DirPath} {sh : Shell K} (h : Untouched d cwd sh) (runs : Runs K) (path : List String)
    (hp : resolvePath cwd path ∈ d.dirs) : Untouched d (resolvePath cwd path) (shellStep runs sh (.cd path)) := by
  have e : shellStep runs sh (.cd path) = { sh with cwd := resolvePath sh.cwd path } := by
    unfold shellStep
    exact if_pos (h.dirs _ (by rw [h.cwd_eq]; exact hp))
  rw [e, h.cwd_eq]
  exact ⟨rfl, h.out, h.programs, h.dirs, h.missing, h.reads⟩

theorem Untouched.cd_fails {d : Disk K} {cwd : DirPath} {sh : Shell K} (h : Untouched d cwd sh) (runs : Runs K) (path : List String)
    (hp : resolvePath cwd path = ["experiments", "experiments", "sklearn_exps"]) : Untouched d cwd (shellStep runs sh (.cd path)) := by
  have e : shellStep runs sh (.cd path) = sh := by
    unfold shellStep
    exact if_neg (by rw [h.cwd_eq, hp]; exact h.missing)
  rw [e]
  exact h

theorem Untouched.write {d : Disk K} {cwd : DirPath} {sh : Shell K} (h : Untouched d cwd sh) (dir : DirPath) (hd : dir ∉ tableDirs)
    (fs : List (String × LogDict K)) : Untouched d cwd { sh with disk := sh.disk.writeAll dir fs } := by
  refine ⟨h.cwd_eq, h.out, (dirs_writeAll dir fs sh.disk).2.trans h.programs, ?_, ?_, ?_⟩
  · intro p hp
    show p ∈ (sh.disk.writeAll dir fs).dirs
    rw [(dirs_writeAll dir fs sh.disk).1]
    exact h.dirs p hp
  · show _ ∉ (sh.disk.writeAll dir fs).dirs
    rw [(dirs_writeAll dir fs sh.disk).1]
    exact h.missing
  · intro dir' hd' n
    show (sh.disk.writeAll dir fs).read _ = _
    rw [read_writeAll, h.reads dir' hd' n]
    intro m e
    have := List.append_inj_left' e rfl
    exact hd (this ▸ hd')

theorem Untouched.makeDir {d : Disk K} {cwd : DirPath} {sh : Shell K} (h : Untouched d cwd sh) (p : DirPath)
    (hp : ["experiments", "experiments", "sklearn_exps"] ≠ p) : Untouched d cwd { sh with disk := sh.disk.makeDir p } := by
  refine ⟨h.cwd_eq, h.out, h.programs, fun q hq => List.mem_cons_of_mem _ (h.dirs q hq), ?_, h.reads⟩
  intro hm
  rcases List.mem_cons.1 hm with e | e
  · exact hp e
  · exact h.missing e

theorem Untouched.python {d : Disk K} {cwd : DirPath} {sh : Shell K} (h : Untouched d cwd sh) (runs : Runs K) (program : String)
    (h1 : program ≠ "produce_tables.py") (h2 : cwd ++ ["logs"] ∉ tableDirs) (h3 : ["experiments", "experiments", "sklearn_exps"] ≠ cwd ++ ["logs"])
    (h4 : program = "feature_importance_tests.py" ∨ program = "compare_baseline_implementations.py" → cwd ∉ tableDirs) :
    Untouched d cwd (shellStep runs sh (.python program)) := by
  obtain rfl := h.cwd_eq
  unfold shellStep
  dsimp only
  by_cases hp : sh.cwd ++ [program] ∈ sh.disk.programs
  · rw [if_pos hp]
    unfold runProgram
    by_cases a1 : program = "compare_runtimes.py"
    · rw [if_pos a1]
      exact (h.makeDir (sh.cwd ++ ["logs"]) h3).write _ h2 _
    rw [if_neg a1]
    by_cases a2 : program = "compare_budgets.py"
    · rw [if_pos a2]
      exact (h.makeDir (sh.cwd ++ ["logs"]) h3).write _ h2 _
    rw [if_neg a2]
    by_cases a3 : program = "feature_importance_tests.py"
    · rw [if_pos a3]
      exact h.write _ (h4 (Or.inl a3)) _
    rw [if_neg a3]
    by_cases a4 : program = "compare_baseline_implementations.py"
    · rw [if_pos a4]
      exact h.write _ (h4 (Or.inr a4)) _
    rw [if_neg a4, if_neg h1]
    exact h
  · rw [if_neg hp]
    exact h

/-- C151 is false of the script: whatever the experiments compute, the script prints the tables of the logs that were there before it was started. The
comparisons write their logs into directories the tables are not made from, and the baseline experiment is not found. -/
theorem C151_script_stale (runs : Runs K) (d : Disk K)
    (hdirs : ∀ p ∈ [["experiments"], ["experiments", "runtime_exps"], ["experiments", "budget_exps"], ["experiments", "scaling_exps"],
      ["experiments", "feature_stability"]], p ∈ d.dirs)
    (hno : ["experiments", "experiments", "sklearn_exps"] ∉ d.dirs) (hprog : ["experiments", "produce_tables.py"] ∈ d.programs) :
    (reproScript runs d).out = some (produceTables ["experiments"] d) := by
  have s0 : Untouched d [] (⟨[], d, none⟩ : Shell K) := ⟨rfl, rfl, rfl, fun _ h => h, hno, fun _ _ _ => rfl⟩
  have s1 := s0.cd runs ["experiments", "runtime_exps"] (hdirs _ (by simp [resolvePath]))
  have s2 := s1.python runs "compare_runtimes.py" (by decide) (by decide) (by decide) (by decide)
  have s3 := s2.cd runs ["..", "budget_exps"] (hdirs _ (by simp [resolvePath]))
  have s4 := s3.python runs "compare_budgets.py" (by decide) (by decide) (by decide) (by decide)
  have s5 := s4.cd runs ["..", "scaling_exps"] (hdirs _ (by simp [resolvePath]))
  have s6 := s5.python runs "investigate_scaling.py" (by decide) (by decide) (by decide) (by decide)
  have s7 := s6.python runs "make_scaling_plot.py" (by decide) (by decide) (by decide) (by decide)
  have s8 := s7.cd runs ["..", "feature_stability"] (hdirs _ (by simp [resolvePath]))
  have s9 := s8.python runs "feature_importance_tests.py" (by decide) (by decide) (by decide) (by decide)
  have s10 := s9.cd_fails runs ["..", "experiments", "sklearn_exps"] (by decide)
  have s11 := s10.python runs "compare_baseline_implementations.py" (by decide) (by decide) (by decide) (by decide)
  have s12 := s11.cd runs [".."] (hdirs _ (by simp [resolvePath]))
  unfold reproScript reproCmds
  simp only [List.foldl_cons, List.foldl_nil]
  generalize shellStep runs _ (.cd [".."]) = sh at s12 ⊢
  have hc : sh.cwd = ["experiments"] := s12.cwd_eq
  unfold shellStep
  dsimp only
  rw [if_pos (by rw [hc, s12.programs]; exact hprog)]
  unfold runProgram
  rw [if_neg (by decide), if_neg (by decide), if_neg (by decide), if_neg (by decide), if_pos rfl, hc, produceTables_congr s12.reads]

/-- C151 is false of the script as it stands in the repository, where there are no logs of the runtime experiments outside `logs/`: whatever the
experiments compute, no table is printed. -/
theorem C151_script_no_tables (runs : Runs K) (d : Disk K)
    (hdirs : ∀ p ∈ [["experiments"], ["experiments", "runtime_exps"], ["experiments", "budget_exps"], ["experiments", "scaling_exps"],
      ["experiments", "feature_stability"]], p ∈ d.dirs)
    (hno : ["experiments", "experiments", "sklearn_exps"] ∉ d.dirs) (hprog : ["experiments", "produce_tables.py"] ∈ d.programs)
    (hlog : d.logs.lookup ["experiments", "runtime_exps", "HRFC_dict"] = none) :
    (reproScript runs d).out = some ([], some (.exception "FileNotFoundError")) := by
  rw [C151_script_stale runs d hdirs hno hprog]
  have hread : d.read (["experiments"] ++ ["runtime_exps"] ++ ["HRFC_dict"]) = .error (.exception "FileNotFoundError") := by
    unfold Disk.read
    show (match d.logs.lookup ["experiments", "runtime_exps", "HRFC_dict"] with
      | none => Except.error (Err.exception "FileNotFoundError")
      | some log => Except.ok log) = _
    rw [hlog]
  have e : produceTable1 ["experiments"] d = .error (.exception "FileNotFoundError") := by
    unfold produceTable1 makeTable tableLines
    rw [hread]
  unfold produceTables
  rw [e]
  rfl

/-! ## Examples -/

/-- The rounds of a comparison over two seeds. -/
def tabRows : List (CmpRow ℚ) := [⟨⟨9 / 10, some (1 / 2), 10, 3⟩, some ⟨8 / 10, some (1 / 3), 20, 1⟩⟩, ⟨⟨1, some (2 / 3), 14, 4⟩, some ⟨8 / 10, some (1 / 3), 22, 1⟩⟩]

/-- The directories and programs of the repository. -/
def repoDirs : List DirPath :=
  [["experiments"], ["tests"], ["experiments", "runtime_exps"], ["experiments", "runtime_exps", "logs"], ["experiments", "budget_exps"],
    ["experiments", "scaling_exps"], ["experiments", "feature_stability"], ["experiments", "sklearn_exps"]]

/-- See `repoDirs`. -/
def repoPrograms : List DirPath :=
  [["experiments", "runtime_exps", "compare_runtimes.py"], ["experiments", "budget_exps", "compare_budgets.py"],
    ["experiments", "scaling_exps", "investigate_scaling.py"], ["experiments", "scaling_exps", "make_scaling_plot.py"],
    ["experiments", "feature_stability", "feature_importance_tests.py"], ["experiments", "sklearn_exps", "compare_baseline_implementations.py"],
    ["experiments", "produce_tables.py"]]

/-- The repository: there are logs of the budget experiments only. -/
def repoDisk : Disk ℚ :=
  ⟨repoDirs, repoPrograms, ["HRFC_dict", "ERFC_dict", "HRPC_dict", "HRFR_dict", "ERFR_dict", "HRPR_dict"].map
    (fun f => (["experiments", "budget_exps", f], budgetLog true true tabRows))⟩

/-- A disk with all the logs of runtime experiments and budget experiments. -/
def fullDisk : Disk ℚ :=
  ⟨repoDirs, repoPrograms, repoDisk.logs ++ ["HRFC_dict", "ERFC_dict", "HRPC_dict", "HRFR_dict", "ERFR_dict", "HRPR_dict"].map
    (fun f => (["experiments", "runtime_exps", f], runtimeLog true true tabRows [1, 2] [3, 4]))⟩

/-- New results. -/
def newRuns : Runs ℚ :=
  ⟨[("HRFC_dict", runtimeLog true true tabRows [5, 6] [7, 8])], [("HRFC_dict", budgetLog true true (tabRows ++ tabRows))],
    [("HRFC+MID_dict", stabilityLog 2 [1, 2] [3, 4])], [("RFC_dict", baselineLog ⟨[1], [1 / 2]⟩ ⟨[1], [3 / 4]⟩)]⟩

/-- The script as it is prints no table. -/
example : (reproScript newRuns repoDisk).out = some ([], some (.exception "FileNotFoundError")) :=
  C151_script_no_tables newRuns repoDisk (by decide) (by decide) (by decide) (by decide)

/-- The new logs are on the disk, though. -/
example : ((reproScript newRuns repoDisk).disk.read ["experiments", "runtime_exps", "logs", "HRFC_dict"]).toOption.map (fun l => l.lookup "our_avg_train_time") =
    some (some (some (11 / 2))) ∧
    ((reproScript newRuns repoDisk).disk.read ["experiments", "budget_exps", "logs", "HRFC_dict"]).toOption.isSome = true ∧
    ((reproScript newRuns repoDisk).disk.read ["experiments", "feature_stability", "HRFC+MID_dict"]).toOption.isSome = true ∧
    ((reproScript newRuns repoDisk).disk.read ["experiments", "sklearn_exps", "RFC_dict"]).toOption.isSome = false := by decide +kernel

/-- On the disk with all the logs, the script prints four tables of the old logs and then stops. -/
example : (reproScript newRuns fullDisk).out.map (fun q => (q.1.length, q.2)) = some (4, some (.exception "FileNotFoundError")) ∧
    ((reproScript newRuns fullDisk).out.bind (fun q => q.1[0]?)).bind (fun t => t.rows[1]?) =
      some ("1st row", [.text "HRFC + MABSplit", .pm (3 / 2) (round3 (stdErr [1, 2])), .pm 12 (round3 (stdErr [10, 14])), .pm (583 / 1000) (round3 (stdErr [1 / 2, 2 / 3]))]) := by
  decide +kernel

/-- `C151_tables` applies to that disk. -/
example : ∃ t1 t2 t3 t4 : Table ℚ, (produceTables ["experiments"] fullDisk).1.take 4 = [t1, t2, t3, t4] ∧
    RuntimeTable t1 ["HRFC_dict", "ERFC_dict", "HRPC_dict"] (fun _ => ⟨tabRows, [1, 2], [3, 4]⟩) ∧
    BudgetTable t3 ["HRFC_dict", "ERFC_dict", "HRPC_dict"] (fun _ => tabRows) := by
  obtain ⟨t1, t2, t3, t4, h, _, h1, _, _, _, h3, _, _⟩ := C151_tables (cwd := ["experiments"]) (d := fullDisk) (fun _ => ⟨tabRows, [1, 2], [3, 4]⟩)
    (fun _ => tabRows) (by decide +kernel) (by decide +kernel)
  exact ⟨t1, t2, t3, t4, h, h1, h3⟩

/-- A disk with logs of the baseline experiments. -/
def baseDisk : Disk ℚ :=
  ⟨repoDirs, repoPrograms, ["RFC_dict", "ERFC_dict", "RFR_dict", "ERFR_dict"].map
    (fun f => (["experiments", "sklearn_exps", f], baselineLog ⟨[1, 1], [1 / 2, 1 / 2]⟩ ⟨[1, 1], [3 / 4, 3 / 4]⟩))⟩

/-- C151 is false of Table 6: the model has a test accuracy of one half, and under "Test Performance" the table says 1. -/
theorem C151_refuted_table6 :
    ∃ (d : Disk ℚ) (t : Table ℚ), d.read ["experiments", "sklearn_exps", "RFC_dict"] = .ok (baselineLog ⟨[1, 1], [1 / 2, 1 / 2]⟩ ⟨[1, 1], [3 / 4, 3 / 4]⟩) ∧
      produceTable6 ["experiments"] d = .ok t ∧ t.headers = ["Model", "Task and Dataset", "Performance Metric", "Test Performance"] ∧
      t.rows[1]? = some ("1st row", [.text "RFC(Ours)", .text "Classification: 20 Newsgroups", .text "Accuracy", .pm 1 0]) := by
  have h : (produceTable6 ["experiments"] baseDisk).toOption.map (fun t => (t.headers, t.rows[1]?)) =
      some (["Model", "Task and Dataset", "Performance Metric", "Test Performance"],
        some ("1st row", [.text "RFC(Ours)", .text "Classification: 20 Newsgroups", .text "Accuracy", .pm 1 0])) := by decide +kernel
  cases ht : produceTable6 ["experiments"] baseDisk with
  | error e => rw [ht] at h; cases h
  | ok t =>
    rw [ht] at h
    have h' := Option.some.inj h
    exact ⟨baseDisk, t, by decide +kernel, ht, congrArg Prod.fst h', congrArg Prod.snd h'⟩

/-- The names are made from the file names, and the table of the regression experiments calls them a classification. -/
example : modelName "HRFC+MID_dict" = "HRFC+MID" ∧ isRFR "HRFR+MID_dict" = true ∧ isRFR "HRFC+MID_dict" = false ∧
    (produceTable4 ["experiments"] fullDisk).toOption.map (fun t => (t.title, t.headers)) =
      some ("Table 4 Classification: Random Linear (budget = Q * 24M)", ["Model", "# trees", "MSE"]) := by decide +kernel

/-- Ties are rounded to the even neighbour. -/
example : round3 (1 / 2000 : ℚ) = 0 ∧ round3 (3 / 2000 : ℚ) = 2 / 1000 ∧ round3 (-1 / 3 : ℚ) = -333 / 1000 := by decide +kernel

end FF
