import Verif.Model.RunFiles
import Mathlib.Data.List.Induction
import Mathlib.Tactic.SplitIfs

/-!
# C168: what the runtime and scaling experiments leave on the disk
-/

namespace FF

variable {α : Type}

theorem dec_inj {a b : Nat} (h : Nat.toDigits 10 a = Nat.toDigits 10 b) : a = b := by
  have h1 := Nat.ofDigitChars_toDigits (b := 10) (n := a) (by omega) (by omega)
  rw [h, Nat.ofDigitChars_toDigits (by omega) (by omega)] at h1
  exact h1.symm

theorem dec_digit {n : Nat} {c : Char} (h : c ∈ Nat.toDigits 10 n) : c.isDigit = true :=
  Nat.isDigit_of_mem_toDigits (by omega) (by omega) h

theorem dec_bar (n : Nat) : '_' ∉ Nat.toDigits 10 n := fun h => absurd (dec_digit h) (by decide)

theorem split_first {c : Char} : ∀ {a a' b b' : List Char}, c ∉ a → c ∉ a' → a ++ c :: b = a' ++ c :: b' → a = a' ∧ b = b'
  | [], [], _, _, _, _, h => ⟨rfl, by simpa using h⟩
  | [], x :: a', _, _, _, h2, h => by
    simp only [List.nil_append, List.cons_append, List.cons.injEq] at h
    exact absurd (by simp [h.1]) h2
  | x :: a, [], _, _, h1, _, h => by
    simp only [List.nil_append, List.cons_append, List.cons.injEq] at h
    exact absurd (by simp [h.1]) h1
  | x :: a, y :: a', _, _, h1, h2, h => by
    simp only [List.cons_append, List.cons.injEq] at h
    have := split_first (fun hh => h1 (List.mem_cons_of_mem _ hh)) (fun hh => h2 (List.mem_cons_of_mem _ hh)) h.2
    exact ⟨by rw [h.1, this.1], this.2⟩

theorem split_last {c : Char} {a a' b b' : List Char} (h1 : c ∉ b) (h2 : c ∉ b') (h : a ++ c :: b = a' ++ c :: b') : a = a' ∧ b = b' := by
  have h3 := congrArg List.reverse h
  simp only [List.reverse_append, List.reverse_cons, List.append_assoc, List.singleton_append] at h3
  have h4 := split_first (by simpa using h1) (by simpa using h2) h3
  exact ⟨List.reverse_injective h4.2, List.reverse_injective h4.1⟩

/-- C168, names. Two trainings share a profile only if the name of the comparison, the side and the seed are the same. -/
theorem C168_profile_names {c c' : List Char} {w w' : Bool} {n n' : Nat} (h : profileName c w n = profileName c' w' n') : c = c' ∧ w = w' ∧ n = n' := by
  unfold profileName at h
  have h1 := List.append_cancel_right h
  have h2 : (c ++ ['_'] ++ whoText w ++ "_5k".toList) ++ '_' :: Nat.toDigits 10 n = (c' ++ ['_'] ++ whoText w' ++ "_5k".toList) ++ '_' :: Nat.toDigits 10 n' := by
    simpa using h1
  obtain ⟨h3, h4⟩ := split_last (dec_bar n) (dec_bar n') h2
  have h5 := List.append_cancel_right h3
  have h6 := congrArg List.reverse h5
  refine ⟨?_, ?_, dec_inj h4⟩ <;> cases w <;> cases w' <;> simp [whoText] at h6 ⊢ <;> exact h6

/-- C168, names. Two trials of the scaling experiment share a file of results only if model, size and seed are the same. -/
theorem C168_result_names {m m' : List Char} {s s' n n' : Nat} (h : resultName (scalingFile m s n) = resultName (scalingFile m' s' n')) :
    m = m' ∧ s = s' ∧ n = n' := by
  have h1 := List.append_cancel_left h
  unfold scalingFile at h1
  have h2 : (m ++ ['_'] ++ Nat.toDigits 10 s ++ "_profile".toList) ++ '_' :: Nat.toDigits 10 n =
      (m' ++ ['_'] ++ Nat.toDigits 10 s' ++ "_profile".toList) ++ '_' :: Nat.toDigits 10 n' := by
    simpa using h1
  obtain ⟨h3, h4⟩ := split_last (dec_bar n) (dec_bar n') h2
  have h5 := List.append_cancel_right h3
  have h6 : m ++ '_' :: Nat.toDigits 10 s = m' ++ '_' :: Nat.toDigits 10 s' := by simpa using h5
  obtain ⟨h7, h8⟩ := split_last (dec_bar s) (dec_bar s') h6
  exact ⟨h7, dec_inj h8, dec_inj h4⟩

/-- C168, names. Results and profiles never share a file, in the scaling experiment. -/
theorem C168_kinds (c m : List Char) (w : Bool) (k s n : Nat) : profileName c w k ≠ resultName (scalingFile m s n) := by
  intro h
  have h1 := congrArg List.getLast? h
  have h2 : (profileName c w k).getLast? = some 'e' := by
    unfold profileName
    rw [List.getLast?_append]
    rfl
  have h3 : (resultName (scalingFile m s n)).getLast? = (Nat.toDigits 10 n).getLast? := by
    unfold resultName scalingFile
    rw [List.getLast?_append, List.getLast?_append, List.getLast?_eq_some_getLast (Nat.toDigits_ne_nil (n := n) (b := 10))]
    rfl
  rw [h2, h3] at h1
  exact absurd (dec_digit (List.mem_of_getLast? h1.symm)) (by decide)

/-- The profiles after the first `n` seeds. -/
theorem profiles_kept (compare : List Char) (runTheirs : Bool) (prof : Bool → Nat → α) (disk : RunDisk α) (n : Nat) :
    ∀ seed < n, ∀ theirs : Bool, (theirs = true → runTheirs = true) →
      ((List.range n).foldl (fun disk seed =>
        let disk := disk.write (profileName compare false seed) (prof false seed)
        if runTheirs then disk.write (profileName compare true seed) (prof true seed) else disk) disk) (profileName compare theirs seed) =
        some (prof theirs seed) := by
  induction n with
  | zero => intro seed h; omega
  | succ n ih =>
    intro seed hs theirs ht
    rw [List.range_succ, List.foldl_append]
    simp only [List.foldl_cons, List.foldl_nil]
    generalize hd : (List.range n).foldl _ disk = d at ih ⊢
    have key : ∀ w, profileName compare theirs seed = profileName compare w n ↔ theirs = w ∧ seed = n := fun w =>
      ⟨fun h => (C168_profile_names h).2, fun h => by rw [h.1, h.2]⟩
    rcases Nat.lt_succ_iff_lt_or_eq.1 hs with h | h
    · have h1 := ih seed h theirs ht
      split_ifs <;> simp [RunDisk.write, key, h1, Nat.ne_of_lt h]
    · subst h
      cases theirs
      · split_ifs <;> simp [RunDisk.write, key]
      · simp [RunDisk.write, key, ht rfl]

/-- C168, comparisons. After a comparison over any number of seeds every training has its profile on the disk, provided the results are not written over one. -/
theorem C168_profiles_partial (compare filename : List Char) (numSeeds : Nat) (runTheirs : Bool) (prof : Bool → Nat → α) (results : α) (disk : RunDisk α)
    (hf : ∀ w k, profileName compare w k ≠ resultName filename) :
    compareFiles compare filename numSeeds runTheirs prof results disk (resultName filename) = some results ∧
    ∀ seed < numSeeds, ∀ theirs : Bool, (theirs = true → runTheirs = true) →
      compareFiles compare filename numSeeds runTheirs prof results disk (profileName compare theirs seed) = some (prof theirs seed) := by
  refine ⟨by simp [compareFiles, RunDisk.write], fun seed hs theirs ht => ?_⟩
  have h := profiles_kept compare runTheirs prof disk numSeeds seed hs theirs ht
  unfold compareFiles
  simp only [RunDisk.write, hf, if_false] at h ⊢
  exact h

theorem compareFiles_one (m f : List Char) (p : α) (r : α) (disk : RunDisk α) :
    compareFiles m f 1 false (fun _ _ => p) r disk = (disk.write (profileName m false 0) p).write (resultName f) r := by
  simp [compareFiles, List.range_succ]

theorem scalingFiles_snoc (model : List Char) (prof results : Nat → Nat → α) (ts : List (Nat × Nat)) (t : Nat × Nat) (disk : RunDisk α) :
    scalingFiles model prof results (ts ++ [t]) disk =
      ((scalingFiles model prof results ts disk).write (profileName model false 0) (prof t.1 t.2)).write (resultName (scalingFile model t.1 t.2))
        (results t.1 t.2) := by
  unfold scalingFiles
  rw [List.foldl_append]
  exact compareFiles_one ..

/-- C168, scaling. The results of all trials are on the disk afterwards. -/
theorem C168_results (model : List Char) (prof results : Nat → Nat → α) (trials : List (Nat × Nat)) (disk : RunDisk α) :
    ∀ t ∈ trials, scalingFiles model prof results trials disk (resultName (scalingFile model t.1 t.2)) = some (results t.1 t.2) := by
  induction trials using List.reverseRecOn with
  | nil => simp
  | append_singleton ts u ih =>
    intro t ht
    rw [scalingFiles_snoc]
    unfold RunDisk.write
    by_cases h : resultName (scalingFile model t.1 t.2) = resultName (scalingFile model u.1 u.2)
    · obtain ⟨-, h1, h2⟩ := C168_result_names h
      rw [if_pos h, h1, h2]
    · rw [if_neg h, if_neg (fun hh => C168_kinds _ _ _ _ _ _ hh.symm)]
      rcases List.mem_append.1 ht with h1 | h1
      · exact ih t h1
      · rw [List.mem_singleton.1 h1] at h
        exact absurd rfl h

/-- C168, scaling. After the whole experiment the results of every size and every fitting seed are on the disk. -/
theorem C168_all_results (model : List Char) (prof results : Nat → Nat → α) (sizes : List Nat) (numSeeds : Nat) (disk : RunDisk α) :
    ∀ size ∈ sizes, ∀ seed < numSeeds,
      scalingFiles model prof results (scalingTrialList sizes numSeeds) disk (resultName (scalingFile model size seed)) = some (results size seed) := by
  intro size hs seed hk
  refine C168_results model prof results _ disk (size, seed) ?_
  unfold scalingTrialList
  rw [List.mem_flatMap]
  exact ⟨size, hs, List.mem_map.2 ⟨seed, List.mem_range.2 hk, rfl⟩⟩

/-- C168 fails for the profiles of the scaling experiment: however many trials there are, they are all written to one file, in which the profile of the last trial
is left; no other file is changed but the results. -/
theorem C168_refuted_scaling (model : List Char) (prof results : Nat → Nat → α) (trials : List (Nat × Nat)) (last : Nat × Nat) (disk : RunDisk α) :
    scalingFiles model prof results (trials ++ [last]) disk (profileName model false 0) = some (prof last.1 last.2) ∧
    ∀ f, scalingFiles model prof results (trials ++ [last]) disk f ≠ disk f →
      f = profileName model false 0 ∨ ∃ t ∈ trials ++ [last], f = resultName (scalingFile model t.1 t.2) := by
  constructor
  · rw [scalingFiles_snoc]
    unfold RunDisk.write
    rw [if_neg (C168_kinds _ _ _ _ _ _), if_pos rfl]
  · generalize trials ++ [last] = ts
    induction ts using List.reverseRecOn with
    | nil => intro f h; exact absurd rfl h
    | append_singleton ts u ih =>
      intro f h
      rw [scalingFiles_snoc] at h
      unfold RunDisk.write at h
      by_cases h1 : f = resultName (scalingFile model u.1 u.2)
      · exact Or.inr ⟨u, by simp, h1⟩
      · rw [if_neg h1] at h
        by_cases h2 : f = profileName model false 0
        · exact Or.inl h2
        · rw [if_neg h2] at h
          rcases ih f h with h3 | ⟨t, h3, h4⟩
          · exact Or.inl h3
          · exact Or.inr ⟨t, by simp [h3], h4⟩

/-! ### Examples -/

/-- The names of the experiment. -/
example : String.ofList (profileName "HRFC".toList false 12) = "HRFC_ours_5k_12_profile" ∧
    String.ofList (resultName (scalingFile "HRFC".toList 10000 3)) = "logs/HRFC_10000_profile_3" := by decide +kernel

/-- The hypothesis of `C168_profiles_partial` is met by the files of `main`, such as `HRFC_dict` — `compare_runtimes.py:730`. -/
example : ∀ w k, profileName "HRFC".toList w k ≠ resultName "HRFC_dict".toList := by
  intro w k h
  have h1 := congrArg List.head? h
  simp [profileName, resultName] at h1

/-- Four trials, each with its results and its profile: one profile is left. -/
example : let disk := scalingFiles "HRFC".toList (fun s k => ("profile", s, k)) (fun s k => ("results", s, k)) (scalingTrialList [10000, 20000] 2) (fun _ => none)
    disk "HRFC_ours_5k_0_profile".toList = some ("profile", 20000, 1) ∧ disk "logs/HRFC_10000_profile_0".toList = some ("results", 10000, 0) ∧
    disk "HRFC_ours_5k_1_profile".toList = none := by
  decide +kernel

end FF
