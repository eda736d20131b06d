import Verif.Spec.Reproduce
import Mathlib.Tactic.Linarith
import Mathlib.Algebra.Order.Ring.Rat

/-!
# C169: what is announced as reproduced
-/

set_option linter.unusedSectionVars false

namespace FF

open Spec

variable {K : Type} [Field K] [LinearOrder K] [IsStrictOrderedRing K] {N : Type} [DecidableEq N]

theorem closeTo_iff (eps : K) (a b : Option K) : closeTo eps a b = true ↔ Near eps a b := by
  cases a with
  | none => simp [closeTo, Near]
  | some x =>
    cases b with
    | none => simp [closeTo, Near]
    | some y =>
      simp only [closeTo, Near, decide_eq_true_eq, abs_lt, Option.some.injEq]
      constructor
      · intro h
        exact ⟨x, y, rfl, rfl, by linarith [h.2], by linarith [h.1]⟩
      · rintro ⟨_, _, rfl, rfl, h1, h2⟩
        exact ⟨by linarith, by linarith⟩

theorem lineMatches_iff (eps : K) (r l : StabLine K) : lineMatches eps r l = true ↔ Reproduced eps r l := by
  simp [lineMatches, Reproduced, closeTo_iff, and_assoc]

theorem lineOverlap_iff (l : StabLine K) : lineOverlap l = true ↔ NotBetter l := by
  obtain ⟨a, b, c, d⟩ := l
  cases b <;> cases c <;> simp [lineOverlap, NotBetter]

/-- C169, reproducing. A line is announced as reproduced exactly if its run and all earlier ones came to an end, all four ends of their intervals are near to those in
their rows of the log, and the intervals do not overlap. -/
theorem C169_reproduced (eps : K) (rows : List (StabLine K)) (runs : List (Option (StabLine K))) (i : Nat) :
    i < reproduceLines eps rows runs ↔ ∀ j ≤ i, ∃ r l, rows[j]? = some r ∧ runs[j]? = some (some l) ∧ Reproduced eps r l ∧ Better l := by
  have hb : ∀ r l : StabLine K, Reproduced eps r l → (Better l ↔ ¬ lineOverlap l = true) := by
    intro r l h
    rw [lineOverlap_iff]
    obtain ⟨-, ⟨-, x, -, hx, -⟩, ⟨-, y, -, hy, -⟩, -⟩ := h
    simp [Better, NotBetter, hx, hy]
  induction rows generalizing runs i with
  | nil =>
    have h0 : reproduceLines eps [] runs = 0 := by simp [reproduceLines]
    rw [h0]
    refine ⟨fun h => absurd h (by omega), fun h => ?_⟩
    obtain ⟨r, l, h1, -⟩ := h 0 (by omega)
    simp at h1
  | cons r rows ih =>
    match runs with
    | [] =>
      refine ⟨fun h => absurd h (by simp [reproduceLines]), fun h => ?_⟩
      obtain ⟨_, l, -, h1, -⟩ := h 0 (by omega)
      simp at h1
    | none :: runs =>
      refine ⟨fun h => absurd h (by simp [reproduceLines]), fun h => ?_⟩
      obtain ⟨_, l, -, h1, -⟩ := h 0 (by omega)
      simp at h1
    | some l :: runs =>
      rw [reproduceLines]
      constructor
      · intro h
        split_ifs at h with h1 h2
        · omega
        · have hr := (lineMatches_iff eps r l).1 h2
          intro j hj
          cases j with
          | zero => exact ⟨r, l, rfl, rfl, hr, (hb r l hr).2 h1⟩
          | succ j =>
            have h3 : i - 1 < reproduceLines eps rows runs := by omega
            simpa using (ih runs (i - 1)).1 h3 j (by omega)
        · omega
      · intro h
        obtain ⟨r', l', h1, h2, h3, h4⟩ := h 0 (by omega)
        simp only [List.getElem?_cons_zero, Option.some.injEq] at h1 h2
        subst h1 h2
        rw [if_neg ((hb _ _ h3).1 h4), if_pos ((lineMatches_iff eps _ _).2 h3)]
        cases i with
        | zero => omega
        | succ i =>
          have := (ih runs i).2 (fun j hj => by simpa using h (j + 1) (by omega))
          omega

/-- C169, producing. A line is announced as produced exactly if its run and all earlier ones came to an end and their intervals are not known to overlap. -/
theorem C169_produced (runs : List (N × Option (StabLine K))) (disk : N → Option (StabLine K)) (i : Nat) :
    i < (produceLines runs disk).1 ↔ ∀ j ≤ i, ∃ n l, runs[j]? = some (n, some l) ∧ ¬ NotBetter l := by
  induction runs generalizing disk i with
  | nil =>
    refine ⟨fun h => absurd h (by simp [produceLines]), fun h => ?_⟩
    obtain ⟨n, l, h1, -⟩ := h 0 (by omega)
    simp at h1
  | cons a runs ih =>
    obtain ⟨n, o⟩ := a
    cases o with
    | none =>
      refine ⟨fun h => absurd h (by simp [produceLines]), fun h => ?_⟩
      obtain ⟨n, l, h1, -⟩ := h 0 (by omega)
      simp at h1
    | some l =>
      rw [produceLines]
      dsimp only
      constructor
      · intro h
        split_ifs at h with h1
        · exact absurd h (by simp)
        · intro j hj
          cases j with
          | zero => exact ⟨n, l, rfl, fun hh => h1 ((lineOverlap_iff l).2 hh)⟩
          | succ j =>
            have h3 : i - 1 < (produceLines runs (fun f => if f = n then some l else disk f)).1 := by
              dsimp only at h
              omega
            simpa using (ih _ (i - 1)).1 h3 j (by omega)
      · intro h
        obtain ⟨n', l', h1, h2⟩ := h 0 (by omega)
        simp only [List.getElem?_cons_zero, Option.some.injEq, Prod.mk.injEq] at h1
        obtain ⟨rfl, rfl⟩ := h1
        rw [if_neg (fun hh => h2 ((lineOverlap_iff _).1 hh))]
        cases i with
        | zero => dsimp only; omega
        | succ i =>
          have := (ih (fun f => if f = n then some l else disk f) i).2 (fun j hj => by simpa using h (j + 1) (by omega))
          dsimp only
          omega

theorem produce_other (runs : List (N × Option (StabLine K))) (disk : N → Option (StabLine K)) (f : N) (hf : f ∉ runs.map Prod.fst) :
    (produceLines runs disk).2 f = disk f := by
  induction runs generalizing disk with
  | nil => simp [produceLines]
  | cons a runs ih =>
    obtain ⟨n, o⟩ := a
    simp only [List.map_cons, List.mem_cons, not_or] at hf
    cases o with
    | none => simp [produceLines]
    | some l =>
      rw [produceLines]
      dsimp only
      split_ifs
      · simp [hf.1]
      · dsimp only
        rw [ih _ hf.2]
        simp [hf.1]

/-- C169, files. Every announced line is in its file. So is the line after them, if its run came to an end: it is the one that failed. The files of all later lines are
as they were before, and show an earlier run if there was one. -/
theorem C169_files_partial (runs : List (N × Option (StabLine K))) (hn : (runs.map Prod.fst).Nodup) (disk : N → Option (StabLine K)) (i : Nat) (n : N)
    (o : Option (StabLine K)) (hi : runs[i]? = some (n, o)) :
    (∀ l, o = some l → i ≤ (produceLines runs disk).1 → (produceLines runs disk).2 n = some l) ∧
    ((produceLines runs disk).1 < i → (produceLines runs disk).2 n = disk n) := by
  induction runs generalizing disk i with
  | nil => simp at hi
  | cons a runs ih =>
    obtain ⟨m, p⟩ := a
    simp only [List.map_cons, List.nodup_cons] at hn
    have hm : ∀ i : Nat, runs[i]? = some (n, o) → n ≠ m := by
      intro k hk h
      exact hn.1 (List.mem_map.2 ⟨(n, o), List.mem_of_getElem? hk, h⟩)
    cases i with
    | zero =>
      simp only [List.getElem?_cons_zero, Option.some.injEq, Prod.mk.injEq] at hi
      obtain ⟨rfl, rfl⟩ := hi
      refine ⟨?_, fun h => absurd h (by omega)⟩
      rintro l rfl -
      rw [produceLines]
      dsimp only
      split_ifs
      · simp
      · dsimp only
        rw [produce_other _ _ _ hn.1]
        simp
    | succ i =>
      rw [List.getElem?_cons_succ] at hi
      have hne := hm i hi
      cases p with
      | none =>
        have h0 : produceLines ((m, none) :: runs) disk = (0, disk) := by simp [produceLines]
        rw [h0]
        exact ⟨fun l _ h => absurd h (by simp), fun _ => rfl⟩
      | some l' =>
        rw [produceLines]
        dsimp only
        split_ifs
        · exact ⟨fun l _ h => absurd h (by simp), fun _ => by simp [hne]⟩
        · obtain ⟨h1, h2⟩ := ih hn.2 (fun f => if f = m then some l' else disk f) i hi
          refine ⟨fun l hl h => h1 l hl (by dsimp only at h; omega), fun h => ?_⟩
          dsimp only at h ⊢
          rw [h2 (by omega)]
          simp [hne]

/-- C169 fails for files: the line of a run whose intervals overlap is written and not announced, and so are none of the later ones, whose files stay. -/
theorem C169_refuted_files (n : N) (l : StabLine K) (hl : NotBetter l) (runs : List (N × Option (StabLine K))) (disk : N → Option (StabLine K)) :
    (produceLines ((n, some l) :: runs) disk).1 = 0 ∧ (produceLines ((n, some l) :: runs) disk).2 n = some l ∧
    ∀ f ≠ n, (produceLines ((n, some l) :: runs) disk).2 f = disk f := by
  rw [produceLines]
  dsimp only
  rw [if_pos ((lineOverlap_iff l).2 hl)]
  exact ⟨rfl, by simp, fun f hf => by simp [hf]⟩

/-- C169 fails for stabilities that are NaN: such a line is announced as produced although its intervals say nothing; it is never announced as reproduced. -/
theorem C169_refuted_nan (eps : K) (n : N) (l : StabLine K) (hl : l.ubExact = none ∨ l.lbMab = none) (disk : N → Option (StabLine K)) (r : StabLine K) :
    (produceLines [(n, some l)] disk).1 = 1 ∧ ¬ Better l ∧ reproduceLines eps [r] [some l] = 0 := by
  have h1 : lineOverlap l = false := by
    obtain ⟨a, b, c, d⟩ := l
    cases b <;> cases c <;> simp_all [lineOverlap]
  have h2 : ¬ Better l := by
    rintro ⟨x, y, hx, hy, -⟩
    rcases hl with h | h
    · rw [h] at hx; cases hx
    · rw [h] at hy; cases hy
  refine ⟨by simp [produceLines, h1], h2, ?_⟩
  by_contra h
  obtain ⟨_, l', -, h3, -, h4⟩ := (C169_reproduced eps [r] [some l] 0).1 (by omega) 0 (by omega)
  simp only [List.getElem?_cons_zero, Option.some.injEq] at h3
  exact h2 (h3 ▸ h4)

/-! ### Examples -/

/-- Rounded intervals of the first line of the log, and a second line whose intervals overlap. -/
def exLineQ : StabLine ℚ := ⟨some (535 / 1000), some (606 / 1000), some (799 / 1000), some (860 / 1000)⟩

def exOverlapQ : StabLine ℚ := ⟨some (4 / 10), some (6 / 10), some (5 / 10), some (8 / 10)⟩

/-- Two lines are announced: near ones. The third is off by the tolerance. -/
example : reproduceLines (1 / 100) [exLineQ, exLineQ, exLineQ, exLineQ]
    [some exLineQ, some { exLineQ with lbMab := some (805 / 1000) }, some { exLineQ with ubMab := some (870 / 1000) }, some exLineQ] = 2 := by
  decide +kernel

/-- A run that stops at the second line; the third file is left from an earlier run. -/
example : let runs := [("HRFC+MID_dict", some exLineQ), ("HRFR+MID_dict", some exOverlapQ), ("HRFC+Perm_dict", some exLineQ)]
    let old : String → Option (StabLine ℚ) := fun f => if f = "HRFC+Perm_dict" then some exOverlapQ else none
    (runs.map Prod.fst).Nodup ∧ (produceLines runs old).1 = 1 ∧ (produceLines runs old).2 "HRFR+MID_dict" = some exOverlapQ ∧
      (produceLines runs old).2 "HRFC+Perm_dict" = some exOverlapQ := by
  decide +kernel

/-- The hypotheses of the refutations are met. -/
example : NotBetter exOverlapQ ∧ ({ exLineQ with ubExact := none } : StabLine ℚ).ubExact = none := by
  exact ⟨⟨6 / 10, 5 / 10, rfl, rfl, by decide +kernel⟩, rfl⟩

end FF
