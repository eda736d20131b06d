import Verif.Spec.Holdout
import Verif.Props.Compare

/-!
# C154: the balanced accuracy and the choice of hyperparameters
-/

namespace FF

open Spec

variable {K : Type} [Field K] [LinearOrder K] [IsStrictOrderedRing K] [FloorRing K] [NpFun K] {G : Type}

set_option linter.unusedSectionVars false

theorem npUnique_dedup (l : List K) : (npUnique l).Perm l.dedup := List.perm_insertionSort _ _

theorem npUnique_numClasses (l : List K) : (npUnique l).length = l.dedup.length := (npUnique_dedup l).length_eq

theorem sum_map_single (l : List K) (hl : l.Nodup) (f : K → K) (t : K) (ht : t ∈ l) : (l.map (fun c => if t = c then f c else 0)).sum = f t := by
  induction l with
  | nil => cases ht
  | cons a l ih =>
    rw [List.map_cons, List.sum_cons]
    have ha := (List.nodup_cons.1 hl).1
    rcases List.mem_cons.1 ht with h | h
    · subst h
      have : (l.map (fun c => if t = c then f c else 0)) = l.map (fun _ => (0 : K)) :=
        List.map_congr_left (fun c hc => if_neg (fun e : t = c => ha (e ▸ hc)))
      rw [this, if_pos rfl]
      simp
    · rw [ih (List.nodup_cons.1 hl).2 h, if_neg (fun e : t = a => ha (e ▸ h)), zero_add]

theorem countP_cast (l : List (K × K)) (p : K × K → Bool) : ((l.countP p : Nat) : K) = (l.map (fun x => if p x then (1 : K) else 0)).sum := by
  induction l with
  | nil => simp
  | cons a l ih =>
    rw [List.countP_cons, List.map_cons, List.sum_cons, ← ih]
    by_cases h : p a <;> simp [h, add_comm]

theorem sum_map_swap {α β : Type} (l : List α) (m : List β) (f : α → β → K) :
    (l.map (fun a => (m.map (fun b => f a b)).sum)).sum = (m.map (fun b => (l.map (fun a => f a b)).sum)).sum := by
  induction l with
  | nil => simp
  | cons a l ih => simp only [List.map_cons, List.sum_cons, ih, List.sum_map_add]

/-- C154: the balanced accuracy is the worth of the right answers, when every class is worth the same and so is every point of a class. -/
theorem C154_weights (truth answers : List K) :
    balancedAccuracy truth answers = rightWorth truth answers := by
  unfold balancedAccuracy npMean rightWorth recall
  rw [List.length_map, npUnique_numClasses]
  have h1 : ∀ c : K, (((truth.zip answers).countP (fun p => decide (p.1 = c) && decide (p.2 = c)) : Nat) : K) / ((truth.count c : Nat) : K) =
      ((truth.zip answers).map (fun p : K × K => if p.1 = c then (if p.2 = p.1 then 1 / (truth.count c : K) else 0) else 0)).sum := by
    intro c
    rw [countP_cast, div_eq_mul_one_div, ← List.sum_map_mul_right]
    refine congrArg List.sum (List.map_congr_left (fun p _ => ?_))
    by_cases e1 : p.1 = c
    · by_cases e2 : p.2 = c
      · simp [e1, e2]
      · simp [e1, e2]
    · simp [e1]
  rw [List.map_congr_left (fun c _ => h1 c), sum_map_swap, div_eq_mul_one_div, ← List.sum_map_mul_right]
  refine congrArg List.sum (List.map_congr_left (fun p hp => ?_))
  have hmem : p.1 ∈ npUnique truth := by
    rw [(npUnique_dedup truth).mem_iff, List.mem_dedup]
    exact (List.of_mem_zip hp).1
  rw [sum_map_single (npUnique truth) ((npUnique_dedup truth).nodup_iff.2 (List.nodup_dedup _))
    (fun c => if p.2 = p.1 then 1 / (truth.count c : K) else 0) p.1 hmem]
  unfold worth
  by_cases e : p.2 = p.1
  · simp only [if_pos e]
    rw [one_div_mul_one_div, mul_comm]
  · simp only [if_neg e, zero_mul]

theorem worth_pos {truth : List K} {c : K} (hc : c ∈ truth) : 0 < worth truth c := by
  unfold worth
  have h1 : 0 < truth.dedup.length := List.length_pos_of_mem (List.mem_dedup.2 hc)
  have h2 : 0 < truth.count c := List.count_pos_iff.2 hc
  have h1' : (0 : K) < (truth.dedup.length : K) := by exact_mod_cast h1
  have h2' : (0 : K) < (truth.count c : K) := by exact_mod_cast h2
  exact one_div_pos.2 (mul_pos h1' h2')

/-- C154: all answers right. -/
theorem C154_all_right (truth : List K) (hne : truth ≠ []) : balancedAccuracy truth truth = 1 := by
  unfold balancedAccuracy npMean
  have h1 : ∀ c ∈ npUnique truth, recall c truth truth = 1 := by
    intro c hc
    have hc' : c ∈ truth := List.mem_dedup.1 ((npUnique_dedup truth).mem_iff.1 hc)
    have e : (truth.zip truth).countP (fun p => decide (p.1 = c) && decide (p.2 = c)) = truth.count c := by
      have : truth.zip truth = truth.map (fun x => (x, x)) := by
        clear hne hc hc'
        induction truth with
        | nil => rfl
        | cons a l ih => simp [List.zip_cons_cons, ih]
      rw [this, List.countP_map, List.count]
      refine List.countP_congr (fun x _ => ?_)
      simp
    have h2 : (truth.count c : K) ≠ 0 := by
      have := List.count_pos_iff.2 hc'
      exact_mod_cast this.ne'
    unfold recall
    rw [e, div_self h2]
  rw [List.map_congr_left h1, List.length_map]
  have h0 : (npUnique truth).length ≠ 0 := by
    rw [npUnique_numClasses]
    obtain ⟨c, hc⟩ := List.exists_mem_of_ne_nil truth hne
    exact (List.length_pos_of_mem (List.mem_dedup.2 hc)).ne'
  have h0' : ((npUnique truth).length : K) ≠ 0 := by exact_mod_cast h0
  simp [h0']

/-- The worth of the wrong answers. -/
theorem wrong_worth (truth answers : List K) (hne : truth ≠ []) (hlen : answers.length = truth.length) :
    balancedAccuracy truth answers + ((truth.zip answers).map (fun p : K × K => if p.2 = p.1 then 0 else worth truth p.1)).sum = 1 := by
  rw [C154_weights truth answers, ← C154_all_right truth hne, C154_weights truth truth]
  unfold rightWorth
  rw [← List.sum_map_add]
  have e1 : (truth.zip answers).map (fun p : K × K => (if p.2 = p.1 then worth truth p.1 else 0) + if p.2 = p.1 then 0 else worth truth p.1) =
      ((truth.zip answers).map Prod.fst).map (worth truth) := by
    rw [List.map_map]
    refine List.map_congr_left (fun p _ => ?_)
    by_cases e : p.2 = p.1 <;> simp [e]
  have e2 : (truth.zip truth).map (fun p : K × K => if p.2 = p.1 then worth truth p.1 else 0) = truth.map (worth truth) := by
    generalize worth truth = w
    induction truth with
    | nil => rfl
    | cons a l ih =>
      clear hne hlen
      simp only [List.zip_cons_cons, List.map_cons, if_true]
      refine congrArg _ ?_
      clear ih e1
      induction l with
      | nil => rfl
      | cons b l ih => simp only [List.zip_cons_cons, List.map_cons, if_true, ih]
  rw [e1, e2, List.map_fst_zip (le_of_eq hlen.symm)]

theorem sum_nonneg_zero {l : List K} (h : ∀ x ∈ l, 0 ≤ x) : 0 ≤ l.sum ∧ (l.sum = 0 → ∀ x ∈ l, x = 0) := by
  induction l with
  | nil => simp
  | cons a l ih =>
    obtain ⟨h1, h2⟩ := ih (fun x hx => h x (List.mem_cons_of_mem _ hx))
    have ha := h a List.mem_cons_self
    rw [List.sum_cons]
    refine ⟨by linarith, fun e x hx => ?_⟩
    rcases List.mem_cons.1 hx with hx | hx
    · rw [hx]; linarith
    · exact h2 (by linarith) x hx

theorem zip_agree : ∀ {l m : List K}, m.length = l.length → (∀ p ∈ l.zip m, p.2 = p.1) → m = l
  | [], [], _, _ => rfl
  | a :: l, b :: m, hl, h => by
    have h1 := h (a, b) (by simp [List.zip_cons_cons])
    have h2 := zip_agree (l := l) (m := m) (by simpa using hl) (fun p hp => h p (by rw [List.zip_cons_cons]; exact List.mem_cons_of_mem _ hp))
    simp only at h1
    rw [h1, h2]

/-- C154: the balanced accuracy lies between 0 and 1. It is 1 exactly if all answers are right, and 0 exactly if none is. -/
theorem C154_between (truth answers : List K) (hne : truth ≠ []) (hlen : answers.length = truth.length) :
    0 ≤ balancedAccuracy truth answers ∧ balancedAccuracy truth answers ≤ 1 ∧
    (balancedAccuracy truth answers = 1 ↔ answers = truth) ∧
    (balancedAccuracy truth answers = 0 ↔ ∀ p ∈ truth.zip answers, p.2 ≠ p.1) := by
  have hw := wrong_worth truth answers hne hlen
  have hpos : ∀ p ∈ truth.zip answers, 0 < worth truth p.1 := fun p hp => worth_pos (List.of_mem_zip hp).1
  obtain ⟨a1, a2⟩ := sum_nonneg_zero (l := (truth.zip answers).map (fun p : K × K => if p.2 = p.1 then worth truth p.1 else 0)) (by
    intro x hx
    obtain ⟨p, hp, rfl⟩ := List.mem_map.1 hx
    by_cases e : p.2 = p.1
    · simp only [if_pos e]; exact (hpos p hp).le
    · simp only [if_neg e]; exact le_rfl)
  obtain ⟨b1, b2⟩ := sum_nonneg_zero (l := (truth.zip answers).map (fun p : K × K => if p.2 = p.1 then 0 else worth truth p.1)) (by
    intro x hx
    obtain ⟨p, hp, rfl⟩ := List.mem_map.1 hx
    by_cases e : p.2 = p.1
    · simp only [if_pos e]; exact le_rfl
    · simp only [if_neg e]; exact (hpos p hp).le)
  have hb := C154_weights truth answers
  unfold rightWorth at hb
  refine ⟨by rw [hb]; exact a1, by linarith, ⟨fun h => ?_, fun h => by rw [h]; exact C154_all_right truth hne⟩, ⟨fun h p hp e => ?_, fun h => ?_⟩⟩
  · refine zip_agree hlen (fun p hp => ?_)
    by_contra e
    have := b2 (by linarith) _ (List.mem_map_of_mem hp)
    rw [if_neg e] at this
    exact absurd this (hpos p hp).ne'
  · have := a2 (by rw [← hb]; exact h) _ (List.mem_map_of_mem hp)
    rw [if_pos e] at this
    exact absurd this (hpos p hp).ne'
  · rw [hb, List.map_congr_left (g := fun _ => (0 : K)) (fun p hp => if_neg (h p hp))]
    simp

/-- C154: a model that always gives the same answer gets one share for the one class it knows. -/
theorem C154_constant (truth : List K) (c : K) (hc : c ∈ truth) :
    balancedAccuracy truth (List.replicate truth.length c) = 1 / (truth.dedup.length : K) := by
  rw [C154_weights]
  unfold rightWorth
  have e : (truth.zip (List.replicate truth.length c)).map (fun p : K × K => if p.2 = p.1 then worth truth p.1 else 0) =
      truth.map (fun t => if t = c then worth truth c else 0) := by
    generalize worth truth = w
    clear hc
    induction truth with
    | nil => rfl
    | cons a l ih =>
      rw [List.length_cons, List.replicate_succ, List.zip_cons_cons, List.map_cons, List.map_cons, ih]
      by_cases h : c = a
      · subst h; simp
      · simp [h, Ne.symm h]
  rw [e]
  have e2 : (truth.map (fun t => if t = c then worth truth c else 0)).sum = (truth.count c : K) * worth truth c := by
    generalize worth truth c = w
    clear e hc
    induction truth with
    | nil => simp
    | cons a l ih =>
      rw [List.map_cons, List.sum_cons, ih, List.count_cons]
      by_cases h : a = c
      · subst h; simp; ring
      · simp [h]
  rw [e2]
  unfold worth
  have h2 : (truth.count c : K) ≠ 0 := by
    have := List.count_pos_iff.2 hc
    exact_mod_cast this.ne'
  rw [mul_one_div, mul_comm (truth.dedup.length : K), div_mul_eq_div_div, div_self h2]

/-- C154: on balanced data the balanced accuracy is the share of right answers. -/
theorem C154_balanced_plain (truth answers : List K) (m : Nat) (hm : ∀ c ∈ truth, truth.count c = m) :
    balancedAccuracy truth answers = (((truth.zip answers).countP (fun p => decide (p.2 = p.1)) : Nat) : K) / (truth.length : K) := by
  have hn : truth.length = truth.dedup.length * m := by
    have h := List.sum_map_count_dedup_eq_length truth
    rw [List.map_congr_left (fun c hc => hm c (List.mem_dedup.1 hc))] at h
    simpa using h.symm
  rw [C154_weights, countP_cast, div_eq_mul_one_div, ← List.sum_map_mul_right]
  unfold rightWorth
  refine congrArg List.sum (List.map_congr_left (fun p hp => ?_))
  unfold worth
  rw [hm p.1 (List.of_mem_zip hp).1, hn]
  by_cases e : p.2 = p.1 <;> simp [e]

theorem firstMax_spec (l : List K) :
    (l = [] ∧ firstMax l = none) ∨ ∃ i a, firstMax l = some i ∧ l[i]? = some a ∧ (∀ b ∈ l, b ≤ a) ∧ ∀ (j : Nat) (b : K), j < i → l[j]? = some b → b < a := by
  induction l with
  | nil => exact Or.inl ⟨rfl, rfl⟩
  | cons x l ih =>
    right
    rw [firstMax]
    rcases ih with ⟨rfl, h⟩ | ⟨i, a, h, hi, hall, hfirst⟩
    · rw [h]
      exact ⟨0, x, rfl, rfl, by simp, fun j b hj => absurd hj (Nat.not_lt_zero j)⟩
    · rw [h]
      dsimp only
      have hg : l.getD i 0 = a := by rw [List.getD_eq_getElem?_getD, hi]; rfl
      rw [hg]
      by_cases hx : a ≤ x
      · rw [if_pos hx]
        refine ⟨0, x, rfl, rfl, fun b hb => ?_, fun j b hj => absurd hj (Nat.not_lt_zero j)⟩
        rcases List.mem_cons.1 hb with hb | hb
        · exact hb.le
        · exact (hall b hb).trans hx
      · rw [if_neg hx]
        refine ⟨i + 1, a, rfl, by simpa using hi, fun b hb => ?_, fun j b hj hb => ?_⟩
        · rcases List.mem_cons.1 hb with hb | hb
          · rw [hb]; exact (not_le.1 hx).le
          · exact hall b hb
        · cases j with
          | zero =>
            simp only [List.getElem?_cons_zero, Option.some.injEq] at hb
            rw [← hb]; exact not_le.1 hx
          | succ j => exact hfirst j b (by omega) (by simpa using hb)

/-- C154: the hyperparameters that are used are those of the first logged run with the best validation accuracy. -/
theorem C154_best (log : List (String × K × K)) (hne : log ≠ []) :
    ∃ (i : Nat) (r : String × K × K), findBest log = .ok r ∧ log[i]? = some r ∧ (∀ q ∈ log, q.2.1 ≤ r.2.1) ∧
      ∀ (j : Nat) (q : String × K × K), j < i → log[j]? = some q → q.2.1 < r.2.1 := by
  rcases firstMax_spec (log.map (fun r => r.2.1)) with ⟨h, -⟩ | ⟨i, a, h, hi, hall, hfirst⟩
  · exact absurd (List.map_eq_nil_iff.1 h) hne
  · rw [List.getElem?_map] at hi
    obtain ⟨r, hr, rfl⟩ := Option.map_eq_some_iff.1 hi
    refine ⟨i, r, ?_, hr, fun q hq => hall _ (List.mem_map_of_mem hq), fun j q hj hq => hfirst j _ hj (by rw [List.getElem?_map, hq]; rfl)⟩
    unfold findBest
    rw [h]
    simp [hr]

/-- C154: without a logged run there is nothing to choose. -/
theorem C154_best_none : findBest ([] : List (String × K × K)) = .error .valueError := rfl

/-- C154: a sweep logs the runs that succeed, each once and in their order, with the validation accuracy first. -/
theorem C154_log (runs : List (Except Err (K × K))) (log : List (String × K × K)) :
    runs.foldl (fun l run => sweepLog l "SKLEARN" run) log =
      log ++ runs.flatMap (fun run => match run with | .ok r => [("SKLEARN", r.1, r.2)] | .error _ => []) := by
  induction runs generalizing log with
  | nil => simp
  | cons run runs ih =>
    rw [List.foldl_cons, ih, List.flatMap_cons, ← List.append_assoc]
    congr 1
    cases run <;> simp [sweepLog, fitHeart]

/-- C154: so a sweep followed by the choice gives a run that succeeded and whose validation accuracy no run of the sweep exceeds. -/
theorem C154_sweep (runs : List (Except Err (K × K))) (hok : ∃ r, Except.ok r ∈ runs) :
    ∃ r : K × K, Except.ok r ∈ runs ∧ findBest (runs.foldl (fun l run => sweepLog l "SKLEARN" run) []) = .ok ("SKLEARN", r.1, r.2) ∧
      ∀ q : K × K, Except.ok q ∈ runs → q.1 ≤ r.1 := by
  have hmem : ∀ e : String × K × K, e ∈ runs.foldl (fun l run => sweepLog l "SKLEARN" run) [] ↔
      ∃ r : K × K, Except.ok r ∈ runs ∧ e = ("SKLEARN", r.1, r.2) := by
    intro e
    rw [C154_log, List.nil_append, List.mem_flatMap]
    constructor
    · rintro ⟨run, hr, he⟩
      cases run with
      | error _ => simp at he
      | ok r => exact ⟨r, hr, by simpa using he⟩
    · rintro ⟨r, hr, he⟩
      exact ⟨.ok r, hr, by simpa using he⟩
  obtain ⟨r0, h0⟩ := hok
  have hne : runs.foldl (fun l run => sweepLog l "SKLEARN" run) [] ≠ [] := by
    intro hc
    have := (hmem ("SKLEARN", r0.1, r0.2)).2 ⟨r0, h0, rfl⟩
    rw [hc] at this
    exact absurd this (by simp)
  obtain ⟨i, e, hbest, hi, hall, _⟩ := C154_best _ hne
  obtain ⟨r, hr, rfl⟩ := (hmem e).1 (List.mem_of_getElem? hi)
  exact ⟨r, hr, hbest, fun q hq => hall ("SKLEARN", q.1, q.2) ((hmem _).2 ⟨q, hq, rfl⟩)⟩

example : ∃ r : ℚ × ℚ, Except.ok r ∈ ([.error .valueError, .ok (1 / 2, 1 / 3), .ok (3 / 4, 1)] : List (Except Err (ℚ × ℚ))) :=
  ⟨(1 / 2, 1 / 3), by simp⟩

/-- C154 is false of the code: the heart experiment never measures our forest, and no run of it is ever logged. -/
theorem C154_refuted (sklearn : Except Err (K × K)) (log : List (String × K × K)) :
    fitHeart "FASTFOREST" sklearn = .error .nameError ∧ sweepLog log "FASTFOREST" sklearn = log ∧
    ∀ (algorithm : String) (r : K × K), fitHeart algorithm sklearn = .ok r → algorithm = "SKLEARN" := by
  have h : fitHeart "FASTFOREST" sklearn = .error .nameError := by
    unfold fitHeart
    rw [if_neg (by decide), if_pos rfl]
  refine ⟨h, ?_, fun algorithm r hr => ?_⟩
  · unfold sweepLog
    rw [h]
  · unfold fitHeart at hr
    by_cases e : algorithm = "SKLEARN"
    · exact e
    · rw [if_neg e] at hr
      split_ifs at hr

/-- Four points of class 0 and two of class 1: always answering 0 is right four times out of six, and gets a half. -/
example : ([0, 0, 0, 0, 1, 1] : List ℚ) ≠ [] ∧ balancedAccuracy ([0, 0, 0, 0, 1, 1] : List ℚ) [0, 0, 0, 0, 0, 0] = 1 / 2 ∧
    balancedAccuracy ([0, 0, 0, 0, 1, 1] : List ℚ) [0, 0, 0, 1, 1, 0] = 5 / 8 ∧
    (∀ c ∈ ([0, 1, 1, 0] : List ℚ), ([0, 1, 1, 0] : List ℚ).count c = 2) ∧ balancedAccuracy ([0, 1, 1, 0] : List ℚ) [0, 1, 0, 0] = 3 / 4 ∧
    findBest [("SKLEARN", (1 / 2 : ℚ), (1 / 3 : ℚ)), ("SKLEARN", 3 / 4, 1 / 2), ("SKLEARN", 3 / 4, 2 / 3)] = .ok ("SKLEARN", 3 / 4, 1 / 2) := by
  decide +kernel

end FF
