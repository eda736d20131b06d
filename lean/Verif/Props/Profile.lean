import Verif.Spec.Profile
import Verif.Props.LogRead

/-!
# C164: stored profiles
-/

namespace FF

/-! ### Names -/

theorem dash_not_digit : ('-' : Char).isDigit = false := by decide

theorem toDigits_no_dash (n : Nat) : ∀ c ∈ Nat.toDigits 10 n, c ≠ '-' := by
  intro c hc h
  have := Nat.isDigit_of_mem_toDigits (b := 10) (by omega) (by omega) hc
  rw [h] at this
  exact absurd this (by decide)

/-- A number ends where a dash follows. -/
theorem split_at_dash {l l' x y : List Char} (hl : ∀ c ∈ l, c ≠ '-') (hl' : ∀ c ∈ l', c ≠ '-') (h : l ++ '-' :: x = l' ++ '-' :: y) :
    l = l' ∧ x = y := by
  induction l generalizing l' with
  | nil =>
    cases l' with
    | nil => simpa using h
    | cons c l' =>
      simp only [List.nil_append, List.cons_append, List.cons.injEq] at h
      exact absurd h.1.symm (hl' c List.mem_cons_self)
  | cons c l ih =>
    cases l' with
    | nil =>
      simp only [List.nil_append, List.cons_append, List.cons.injEq] at h
      exact absurd h.1 (hl c List.mem_cons_self)
    | cons c' l' =>
      simp only [List.cons_append, List.cons.injEq] at h
      obtain ⟨h1, h2⟩ := ih (fun c hc => hl c (List.mem_cons_of_mem _ hc)) (fun c hc => hl' c (List.mem_cons_of_mem _ hc)) h.2
      exact ⟨by rw [h.1, h1], h2⟩

theorem toDigits_inj {n m : Nat} (h : Nat.toDigits 10 n = Nat.toDigits 10 m) : n = m := by
  have h1 := pyInt_digits n
  rw [h, pyInt_digits m] at h1
  cases h1
  rfl

theorem pyStr_inj {a b : Int} (h : pyStr a = pyStr b) : a = b := by
  have key : ∀ z : Int, pyInt (pyStr z) = .ok z := by
    intro z
    cases z with
    | ofNat n => exact pyInt_digits n
    | negSucc n => exact (C156_signed (n + 1)).1
  have h1 := key a
  rw [h, key b] at h1
  cases h1
  rfl

/-- A number with its sign ends where a dash follows. -/
theorem pyStr_dash {a b : Int} {x y : List Char} (h : pyStr a ++ '-' :: x = pyStr b ++ '-' :: y) : a = b ∧ x = y := by
  cases a with
  | ofNat n =>
    cases b with
    | ofNat m =>
      obtain ⟨h1, h2⟩ := split_at_dash (toDigits_no_dash n) (toDigits_no_dash m) h
      exact ⟨by rw [toDigits_inj h1], h2⟩
    | negSucc m =>
      exfalso
      cases hd : Nat.toDigits 10 n with
      | nil => exact Nat.toDigits_ne_nil hd
      | cons c l =>
        have hc := toDigits_no_dash n c (by rw [hd]; exact List.mem_cons_self)
        rw [pyStr, hd, pyStr, List.cons_append, List.cons_append, List.cons.injEq] at h
        exact hc h.1
  | negSucc n =>
    cases b with
    | ofNat m =>
      exfalso
      cases hd : Nat.toDigits 10 m with
      | nil => exact Nat.toDigits_ne_nil hd
      | cons c l =>
        have hc := toDigits_no_dash m c (by rw [hd]; exact List.mem_cons_self)
        rw [pyStr, pyStr, hd, List.cons_append, List.cons_append, List.cons.injEq] at h
        exact hc h.1.symm
    | negSucc m =>
      rw [pyStr, pyStr, List.cons_append, List.cons_append, List.cons.injEq] at h
      obtain ⟨h1, h2⟩ := split_at_dash (toDigits_no_dash _) (toDigits_no_dash _) h.2
      have := toDigits_inj h1
      exact ⟨by rw [Nat.succ.inj this], h2⟩

theorem alg_no_dash {s : List Char} (h : s = "FASTFOREST".toList ∨ s = "SKLEARN".toList) : ∀ c ∈ s, c ≠ '-' := by
  rcases h with rfl | rfl <;> decide

theorem ds_no_dash {s : List Char} (h : s = "IRIS".toList ∨ s = "DIGITS".toList) : ∀ c ∈ s, c ≠ '-' := by
  rcases h with rfl | rfl <;> decide

theorem profName_inj {alg alg' ds ds' : List Char} {n n' seed seed' : Int} (a1 : ∀ c ∈ alg, c ≠ '-') (b1 : ∀ c ∈ alg', c ≠ '-')
    (a2 : ∀ c ∈ ds, c ≠ '-') (b2 : ∀ c ∈ ds', c ≠ '-') (h : profName ⟨alg, n, ds, seed⟩ = profName ⟨alg', n', ds', seed'⟩) :
    alg = alg' ∧ n = n' ∧ ds = ds' ∧ seed = seed' := by
  have e1 : "-n-".toList = '-' :: "n-".toList := rfl
  have e2 : "-d-".toList = '-' :: "d-".toList := rfl
  have e3 : "-s-".toList = '-' :: "s-".toList := rfl
  unfold profName at h
  dsimp only at h
  rw [e1, e2, e3] at h
  simp only [List.append_assoc, List.cons_append] at h
  have h1 := List.append_cancel_left h
  obtain ⟨g1, h2⟩ := split_at_dash a1 b1 h1
  have h3 := List.append_cancel_left h2
  obtain ⟨g2, h4⟩ := pyStr_dash h3
  have h5 := List.append_cancel_left h4
  obtain ⟨g3, h6⟩ := split_at_dash a2 b2 h5
  have h7 := List.append_cancel_left h6
  exact ⟨g1, g2, g3, pyStr_inj h7⟩

/-- **C164** (names). Profiles of different runs have different names: two lists of accepted arguments with the same name are the same. -/
theorem C164_names (a b : ProfArgs) (ha : a.accepted = true) (hb : b.accepted = true) (h : profName a = profName b) : a = b := by
  unfold ProfArgs.accepted at ha hb
  rw [Bool.and_eq_true, Bool.or_eq_true, Bool.or_eq_true, beq_iff_eq, beq_iff_eq, beq_iff_eq, beq_iff_eq] at ha hb
  have := profName_inj (alg_no_dash ha.1) (alg_no_dash hb.1) (ds_no_dash ha.2) (ds_no_dash hb.2) h
  obtain ⟨h1, h2, h3, h4⟩ := this
  cases a
  cases b
  dsimp only at h1 h2 h3 h4
  rw [h1, h2, h3, h4]

/-! ### Files -/

variable {P : Type}

/-- Our forest is never profiled. -/
theorem profMain_ours (lib : ProfArgs → Except Err P) (a : ProfArgs) (fs : Profiles P) (h : a.algorithm = "FASTFOREST".toList) :
    (profMain lib a fs).1.isSome = true ∧ (profMain lib a fs).2 = fs := by
  unfold profMain
  by_cases h1 : a.accepted = false
  · rw [if_pos h1]; exact ⟨rfl, rfl⟩
  rw [if_neg h1]
  by_cases h2 : a.seed < 0 ∨ 2 ^ 32 ≤ a.seed
  · rw [if_pos h2]; exact ⟨rfl, rfl⟩
  rw [if_neg h2]
  unfold profFit
  by_cases h3 : a.dataset = "IRIS".toList ∨ a.dataset = "DIGITS".toList
  · rw [if_pos h3, if_pos h]; exact ⟨rfl, rfl⟩
  · rw [if_neg h3]; exact ⟨rfl, rfl⟩

/-- **C164** (one run). A run that gets a profile stores it under its name, changes nothing else and raises nothing. -/
theorem C164_run (lib : ProfArgs → Except Err P) (a : ProfArgs) (fs : Profiles P) (p : P) (h : Profiled lib a p) :
    (profMain lib a fs).1 = none ∧ (profMain lib a fs).2 (profName a) = some p ∧ ∀ name ≠ profName a, (profMain lib a fs).2 name = fs name := by
  have h1 : a.accepted = true := by
    unfold ProfArgs.accepted
    rw [Bool.and_eq_true, Bool.or_eq_true, Bool.or_eq_true, beq_iff_eq, beq_iff_eq, beq_iff_eq, beq_iff_eq]
    exact ⟨Or.inr h.algorithm, h.dataset⟩
  have h2 : ¬ (a.seed < 0 ∨ 2 ^ 32 ≤ a.seed) := by
    have := h.seed
    omega
  have h4 : a.algorithm ≠ "FASTFOREST".toList := by
    rw [h.algorithm]; decide
  have hf : profFit lib a = .ok p := by
    unfold profFit
    rw [if_pos h.dataset, if_neg h4, if_pos h.algorithm, h.trained]
  unfold profMain
  rw [if_neg (by rw [h1]; decide), if_neg h2, hf]
  exact ⟨rfl, if_pos rfl, fun name hn => if_neg hn⟩

/-- **C164** (failed runs). A run that gets no profile raises an error and leaves the stored profiles alone. -/
theorem C164_failed (lib : ProfArgs → Except Err P) (a : ProfArgs) (fs : Profiles P) (h : ∀ p, ¬ Profiled lib a p) :
    (profMain lib a fs).1.isSome = true ∧ (profMain lib a fs).2 = fs := by
  unfold profMain
  by_cases h1 : a.accepted = false
  · rw [if_pos h1]; exact ⟨rfl, rfl⟩
  rw [if_neg h1]
  by_cases h2 : a.seed < 0 ∨ 2 ^ 32 ≤ a.seed
  · rw [if_pos h2]; exact ⟨rfl, rfl⟩
  rw [if_neg h2]
  cases hf : profFit lib a with
  | error e => exact ⟨rfl, rfl⟩
  | ok p =>
    exfalso
    unfold profFit at hf
    by_cases h3 : a.dataset = "IRIS".toList ∨ a.dataset = "DIGITS".toList
    · rw [if_pos h3] at hf
      by_cases h4 : a.algorithm = "FASTFOREST".toList
      · rw [if_pos h4] at hf; cases hf
      rw [if_neg h4] at hf
      by_cases h5 : a.algorithm = "SKLEARN".toList
      · rw [if_pos h5] at hf
        exact h p ⟨h5, h3, by push Not at h2; exact h2, hf⟩
      · rw [if_neg h5] at hf; cases hf
    · rw [if_neg h3] at hf; cases hf

theorem Profiled.accepted {lib : ProfArgs → Except Err P} {a : ProfArgs} {p : P} (h : Profiled lib a p) : a.accepted = true := by
  unfold ProfArgs.accepted
  rw [Bool.and_eq_true, Bool.or_eq_true, Bool.or_eq_true, beq_iff_eq, beq_iff_eq, beq_iff_eq, beq_iff_eq]
  exact ⟨Or.inr h.algorithm, h.dataset⟩

/-- Runs that do not get a profile with the arguments `a` do not touch the file of `a`. -/
theorem profRuns_other (runs : List (ProfArgs × (ProfArgs → Except Err P))) (a : ProfArgs) (ha : a.accepted = true)
    (h : ∀ lib, (a, lib) ∈ runs → ∀ p, ¬ Profiled lib a p) (fs : Profiles P) : profRuns runs fs (profName a) = fs (profName a) := by
  induction runs generalizing fs with
  | nil => rfl
  | cons r rest ih =>
    obtain ⟨b, lib⟩ := r
    show profRuns rest (profMain lib b fs).2 (profName a) = _
    rw [ih (fun lib' hl => h lib' (List.mem_cons_of_mem _ hl))]
    by_cases hp : ∃ p, Profiled lib b p
    · obtain ⟨p, hp⟩ := hp
      refine (C164_run lib b fs p hp).2.2 _ (fun hn => ?_)
      obtain rfl := C164_names a b ha hp.accepted hn
      exact h lib List.mem_cons_self p hp
    · rw [(C164_failed lib b fs (fun p hp' => hp ⟨p, hp'⟩)).2]

/-- **C164** (what is kept). After any sequence of runs, the file with the name of `a` holds the profile of the last run with exactly the arguments `a` that got
one; runs with other arguments, and runs that failed, do not touch it. -/
theorem C164_kept_partial (before after : List (ProfArgs × (ProfArgs → Except Err P))) (a : ProfArgs) (lib : ProfArgs → Except Err P) (p : P)
    (hp : Profiled lib a p) (hafter : ∀ lib', (a, lib') ∈ after → ∀ p', ¬ Profiled lib' a p') (fs : Profiles P) :
    profRuns (before ++ (a, lib) :: after) fs (profName a) = some p := by
  induction before generalizing fs with
  | nil =>
    show profRuns after (profMain lib a fs).2 (profName a) = _
    rw [profRuns_other after a hp.accepted hafter, (C164_run lib a fs p hp).2.1]
  | cons r rest ih => exact ih _

/-- **C164, refuted for our forest**: profiling FASTFOREST, the default, always raises (with the arguments the script accepts: a NameError) and stores
nothing, whatever the other arguments; after any number of such runs the folder is as before. -/
theorem C164_refuted_ours (lib : ProfArgs → Except Err P) (a : ProfArgs) (fs : Profiles P) (h : a.algorithm = "FASTFOREST".toList) :
    (profMain lib a fs).2 = fs ∧ (profMain lib a fs).1.isSome = true ∧
    (a.accepted = true → 0 ≤ a.seed → a.seed < 2 ^ 32 → (profMain lib a fs).1 = some .nameError) := by
  obtain ⟨h1, h2⟩ := profMain_ours lib a fs h
  refine ⟨h2, h1, fun h3 h4 h5 => ?_⟩
  have hds : a.dataset = "IRIS".toList ∨ a.dataset = "DIGITS".toList := by
    unfold ProfArgs.accepted at h3
    rw [Bool.and_eq_true, Bool.or_eq_true, Bool.or_eq_true, beq_iff_eq, beq_iff_eq, beq_iff_eq, beq_iff_eq] at h3
    exact h3.2
  unfold profMain profFit
  rw [if_neg (by rw [h3]; decide), if_neg (by omega), if_pos hds, if_pos h]

/-! ### The hypotheses can be met -/

/-- Arguments for the other library. -/
def exProf (n seed : Int) : ProfArgs := ⟨"SKLEARN".toList, n, "IRIS".toList, seed⟩

/-- A library that refuses forests without trees. -/
def exLib (p : Nat) : ProfArgs → Except Err Nat := fun a => if a.nEstimators < 1 then .error .valueError else .ok p

example : Profiled (exLib 7) (exProf 10 1) 7 ∧ (exProf 10 1).accepted = true ∧ (⟨"FASTFOREST".toList, 1, "IRIS".toList, 1⟩ : ProfArgs).accepted = true ∧
    profName (exProf 10 1) = "-a-SKLEARN-n-10-d-IRIS-s-1".toList ∧
    profRuns [(exProf 10 1, exLib 5), (exProf 1 0, exLib 6), (exProf 10 1, exLib 7), (exProf 0 1, exLib 8)] (fun _ => none)
      "-a-SKLEARN-n-10-d-IRIS-s-1".toList = some 7 :=
  ⟨⟨rfl, Or.inl rfl, by decide, rfl⟩, by decide, by decide, by decide, by decide +kernel⟩

end FF
