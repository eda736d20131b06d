import Verif.Model.CsvLog
import Verif.Spec.CsvLog
import Mathlib.Tactic.Linarith

/-!
# C167: logged results are read back under their own names
-/

namespace FF

open Spec

theorem read_plain (fs : List Text) (x cur : Text) (hx : x.any csvSpecial = false) (rest : Text) :
    (CsvState.plain fs cur).read (x ++ rest) = (CsvState.plain fs (cur ++ x)).read rest := by
  induction x generalizing cur with
  | nil => rw [List.nil_append, List.append_nil]
  | cons c x ih =>
    rw [List.any_cons, Bool.or_eq_false_iff] at hx
    obtain ⟨h1, h2⟩ := hx
    simp only [csvSpecial, Bool.or_eq_false_iff, beq_eq_false_iff_ne] at h1
    obtain ⟨⟨⟨h3, h4⟩, h5⟩, h6⟩ := h1
    rw [List.cons_append]
    simp only [CsvState.read, CsvState.step, h3, h5, h6, if_false, or_self]
    rw [ih _ h2, List.append_assoc]
    rfl

theorem read_quoted (fs : List Text) (x cur rest : Text) :
    (CsvState.quoted fs cur).read (csvDouble x ++ rest) = (CsvState.quoted fs (cur ++ x)).read rest := by
  induction x generalizing cur with
  | nil => rw [csvDouble, List.nil_append, List.append_nil]
  | cons c x ih =>
    unfold csvDouble
    by_cases hc : c = '"'
    · subst hc
      rw [if_pos rfl]
      simp only [List.cons_append, CsvState.read, CsvState.step, if_true, reduceCtorEq, Char.reduceEq, or_self, if_false]
      rw [ih, List.append_assoc]
      rfl
    · rw [if_neg hc, List.cons_append]
      simp only [CsvState.read, CsvState.step, hc, if_false]
      rw [ih, List.append_assoc]
      rfl

/-- What follows a field: a comma, or a line end. -/
def readOn (fs : List Text) (d : Char) (rest : Text) : List (List Text) :=
  if d = ',' then (CsvState.start fs).read rest else fs :: CsvState.row.read rest

theorem read_field (fs : List Text) (x : Text) (d : Char) (hd : d = ',' ∨ d = '\n' ∨ d = '\r') (rest : Text) :
    (CsvState.start fs).read (csvField x ++ d :: rest) = readOn (fs ++ [x]) d rest := by
  unfold csvField
  by_cases hx : x.any csvSpecial = true
  · rw [if_pos hx]
    rw [List.cons_append]
    simp only [CsvState.read, CsvState.step, Char.reduceEq, or_self, if_false, if_true]
    rw [List.append_assoc, read_quoted, List.nil_append]
    rcases hd with rfl | rfl | rfl <;> simp [CsvState.read, CsvState.step, readOn]
  · rw [if_neg hx]
    have hx' : x.any csvSpecial = false := by simpa using hx
    cases x with
    | nil => rcases hd with rfl | rfl | rfl <;> simp [CsvState.read, CsvState.step, readOn]
    | cons c x =>
      rw [List.any_cons, Bool.or_eq_false_iff] at hx'
      obtain ⟨h1, h2⟩ := hx'
      simp only [csvSpecial, Bool.or_eq_false_iff, beq_eq_false_iff_ne] at h1
      obtain ⟨⟨⟨h3, h4⟩, h5⟩, h6⟩ := h1
      rw [List.cons_append]
      simp only [CsvState.read, CsvState.step, h3, h4, h5, h6, if_false, or_self]
      rw [read_plain _ _ _ h2]
      rcases hd with rfl | rfl | rfl <;> simp [CsvState.read, CsvState.step, readOn]

theorem read_fields (fs xs : List Text) (hx : xs ≠ []) (d : Char) (hd : d = '\n' ∨ d = '\r') (rest : Text) :
    (CsvState.start fs).read (csvFields xs ++ d :: rest) = (fs ++ xs) :: CsvState.row.read rest := by
  induction xs generalizing fs with
  | nil => exact absurd rfl hx
  | cons x r ih =>
    cases r with
    | nil =>
      rw [csvFields, read_field _ _ _ (Or.inr hd)]
      rcases hd with rfl | rfl <;> simp [readOn]
    | cons y r =>
      rw [csvFields, List.append_assoc, List.cons_append, read_field _ _ _ (Or.inl rfl)]
      unfold readOn
      rw [if_pos rfl, ih _ (by simp), List.append_assoc]
      rfl

/-- The start of a row is the start of a field, unless the line is empty. -/
theorem read_row_start (c : Char) (cs : Text) (hc : c ≠ '\n' ∧ c ≠ '\r') : CsvState.row.read (c :: cs) = (CsvState.start []).read (c :: cs) := by
  simp only [CsvState.read, CsvState.step, hc.1, hc.2, or_self, if_false, List.nil_append]

theorem csvField_start (x : Text) : csvField x = [] ∧ x = [] ∨ ∃ c cs, csvField x = c :: cs ∧ c ≠ '\n' ∧ c ≠ '\r' := by
  unfold csvField
  by_cases hx : x.any csvSpecial = true
  · rw [if_pos hx]
    exact Or.inr ⟨_, _, rfl, by decide, by decide⟩
  · rw [if_neg hx]
    cases x with
    | nil => exact Or.inl ⟨rfl, rfl⟩
    | cons c x =>
      refine Or.inr ⟨c, x, rfl, ?_⟩
      have hx' : (c :: x).any csvSpecial = false := by simpa using hx
      rw [List.any_cons, Bool.or_eq_false_iff] at hx'
      have h1 := hx'.1
      simp only [csvSpecial, Bool.or_eq_false_iff, beq_eq_false_iff_ne] at h1
      exact ⟨h1.1.2, h1.2⟩

theorem read_line (xs : List Text) (hx : xs ≠ []) (d : Char) (hd : d = '\n' ∨ d = '\r') (rest : Text) :
    CsvState.row.read ((if xs = [[]] then ['"', '"'] else csvFields xs) ++ d :: rest) = xs :: CsvState.row.read rest := by
  by_cases h1 : xs = [[]]
  · subst h1
    rw [if_pos rfl]
    rcases hd with rfl | rfl <;> simp [CsvState.read, CsvState.step]
  · rw [if_neg h1]
    have hstart : ∃ c cs, csvFields xs ++ d :: rest = c :: cs ∧ c ≠ '\n' ∧ c ≠ '\r' := by
      cases xs with
      | nil => exact absurd rfl hx
      | cons x r =>
        rcases csvField_start x with ⟨e1, e2⟩ | ⟨c, cs, e1, e2⟩
        · cases r with
          | nil => subst e2; exact absurd rfl h1
          | cons y r =>
            rw [csvFields, e1]
            exact ⟨',', _, rfl, by decide, by decide⟩
        · cases r with
          | nil => rw [csvFields, e1]; exact ⟨c, _, rfl, e2⟩
          | cons y r => rw [csvFields, e1]; exact ⟨c, _, rfl, e2⟩
    obtain ⟨c, cs, e1, e2⟩ := hstart
    have := read_fields [] xs hx d hd rest
    rw [e1] at this ⊢
    rw [read_row_start _ _ e2, this]
    rfl

theorem read_header (names : List Text) (hn : names ≠ []) (rest : Text) :
    CsvState.row.read (csvHeader names ++ rest) = names :: CsvState.row.read rest := by
  unfold csvHeader csvLine
  rw [List.append_assoc]
  exact read_line names hn '\n' (Or.inl rfl) rest

theorem read_crlf (xs : List Text) (hx : xs ≠ []) (rest : Text) :
    CsvState.row.read (csvLine ['\r', '\n'] xs ++ rest) = xs :: CsvState.row.read rest := by
  unfold csvLine
  rw [List.append_assoc]
  show CsvState.row.read (_ ++ '\r' :: '\n' :: rest) = _
  rw [read_line xs hx '\r' (Or.inr rfl)]
  simp [CsvState.read, CsvState.step]

/-- The text that some results leave behind. -/
def rowsText (ds : List CsvDict) : Text := ds.flatMap (fun d => csvLine ['\r', '\n'] (d.map Prod.snd))

theorem logResults_some (t : Text) (ds : List CsvDict) : logResults (some t) ds = some (t ++ rowsText ds) := by
  induction ds generalizing t with
  | nil => simp [logResults, rowsText]
  | cons d ds ih =>
    rw [logResults, ih]
    unfold logResult appendDictAsRow rowsText
    rw [List.flatMap_cons, List.append_assoc]

theorem read_rowsText (ds : List CsvDict) (hd : ∀ d ∈ ds, d ≠ []) (rest : Text) :
    CsvState.row.read (rowsText ds ++ rest) = ds.map (fun d => d.map Prod.snd) ++ CsvState.row.read rest := by
  induction ds with
  | nil => rfl
  | cons d ds ih =>
    unfold rowsText at ih ⊢
    rw [List.flatMap_cons, List.append_assoc, read_crlf _ (by simpa using hd d (List.mem_cons_self ..)), ih (fun e he => hd e (List.mem_cons_of_mem _ he))]
    rfl

theorem zip_names (d : CsvDict) : (d.map Prod.fst).zip (d.map Prod.snd) = d := by
  induction d with
  | nil => rfl
  | cons a d ih => rw [List.map_cons, List.map_cons, List.zip_cons_cons, ih]

theorem zip_fst_prefix (a b : List Text) : (a.zip b).map Prod.fst <+: a := by
  induction a generalizing b with
  | nil => simp
  | cons x a ih =>
    cases b with
    | nil => simp
    | cons y b =>
      rw [List.zip_cons_cons, List.map_cons]
      exact (List.prefix_cons_inj x).2 (ih b)

/-- What is read from a log that was started with the names `names`, whatever results are appended. -/
theorem C167_rows (names : List Text) (hn : names ≠ []) (ds : List CsvDict) (hd : ∀ d ∈ ds, d ≠ []) :
    (logResults (some (csvHeader names)) ds).map readTable = some (ds.map (fun d => names.zip (d.map Prod.snd))) := by
  rw [logResults_some]
  refine congrArg some ?_
  unfold readTable readRows
  have h := read_rowsText ds hd []
  rw [List.append_nil] at h
  rw [read_header names hn, h]
  simp [CsvState.read, CsvState.finish]

/-- **C167**. A log that is started by the first of some results with the same names, and to which the others are appended: reading it gives the results,
each value under its name, whatever characters the values and the names contain. -/
theorem C167_read_back_partial (names : List Text) (hn : names ≠ []) (ds : List CsvDict) (hne : ds ≠ []) (hd : ∀ d ∈ ds, d.map Prod.fst = names) :
    (logResults none ds).map readTable = some ds := by
  cases ds with
  | nil => exact absurd rfl hne
  | cons d ds =>
    have h1 : logResults none (d :: ds) = logResults (some (csvHeader names)) (d :: ds) := by
      rw [logResults, logResults]
      unfold logResult
      rw [hd d (List.mem_cons_self ..)]
    have h2 : ∀ e ∈ d :: ds, e ≠ [] := by
      rintro e he rfl
      exact hn (hd _ he).symm
    rw [h1, C167_rows names hn _ h2]
    refine congrArg some ?_
    conv_rhs => rw [← List.map_id (d :: ds)]
    apply List.map_congr_left
    intro e he
    rw [← hd e he, zip_names]
    rfl

/-- C167 fails for logs that are shared: a result whose names are not among the first names of the log is never read back as it was. -/
theorem C167_refuted_shared (names : List Text) (hn : names ≠ []) (ds : List CsvDict) (hd : ∀ d ∈ ds, d ≠ []) (d : CsvDict) (hd0 : d ≠ [])
    (hp : ¬ d.map Prod.fst <+: names) : ∃ rows row, (logResults (some (csvHeader names)) (ds ++ [d])).map readTable = some (rows ++ [row]) ∧ row ≠ d := by
  have h := C167_rows names hn (ds ++ [d]) (by
    intro e he
    rcases List.mem_append.1 he with h | h
    · exact hd e h
    · rw [List.mem_singleton.1 h]; exact hd0)
  rw [List.map_append] at h
  refine ⟨_, _, h, ?_⟩
  intro heq
  apply hp
  have h1 : (names.zip (d.map Prod.snd)).map Prod.fst = d.map Prod.fst := congrArg (List.map Prod.fst) heq
  rw [← h1]
  exact zip_fst_prefix _ _

/-! ### Interruptions -/

theorem step_live (s : CsvState) (hs : s ≠ .row) (c : Char) : ((s.step c).2 = none ∧ (s.step c).1 ≠ .row) ∨ ∃ r, (s.step c).2 = some r := by
  cases s with
  | row => exact absurd rfl hs
  | start fs => simp only [CsvState.step]; split_ifs <;> simp
  | plain fs cur => simp only [CsvState.step]; split_ifs <;> simp
  | quoted fs cur => simp only [CsvState.step]; split_ifs <;> simp
  | closed fs cur => simp only [CsvState.step]; split_ifs <;> simp

theorem read_live (s : CsvState) (hs : s ≠ .row) (q : Text) : 1 ≤ (s.read q).length := by
  induction q generalizing s with
  | nil => cases s with
    | row => exact absurd rfl hs
    | start fs => simp [CsvState.read, CsvState.finish]
    | plain fs cur => simp [CsvState.read, CsvState.finish]
    | quoted fs cur => simp [CsvState.read, CsvState.finish]
    | closed fs cur => simp [CsvState.read, CsvState.finish]
  | cons c q ih =>
    rw [CsvState.read]
    rcases step_live s hs c with ⟨h1, h2⟩ | ⟨r, h1⟩
    · generalize s.step c = x at h1 h2
      obtain ⟨s', o⟩ := x
      cases h1
      exact ih s' h2
    · generalize s.step c = x at h1
      obtain ⟨s', o⟩ := x
      cases h1
      simp

/-- A longer text has at least as many rows. -/
theorem read_mono (s : CsvState) (p q : Text) : (s.read p).length ≤ (s.read (p ++ q)).length := by
  induction p generalizing s with
  | nil =>
    rw [List.nil_append, CsvState.read]
    cases s with
    | row => simp [CsvState.finish]
    | start fs => exact read_live _ (by simp) q
    | plain fs cur => exact read_live _ (by simp) q
    | quoted fs cur => exact read_live _ (by simp) q
    | closed fs cur => exact read_live _ (by simp) q
  | cons c p ih =>
    rw [List.cons_append, CsvState.read, CsvState.read]
    generalize s.step c = x
    obtain ⟨s', o⟩ := x
    cases o with
    | none => exact ih s'
    | some r => simp only [List.length_cons]; exact Nat.succ_le_succ (ih s')

/-- C167, interruptions that do no harm. If logging is interrupted at any point after the log was started, all earlier results are still read back, and at
most one damaged row is read after them. -/
theorem C167_interrupted (names : List Text) (hn : names ≠ []) (ds : List CsvDict) (hd : ∀ d ∈ ds, d.map Prod.fst = names) (d : CsvDict) (hd0 : d ≠ [])
    (k : Nat) (t : Text) (ht : logResults (some (csvHeader names)) ds = some t) :
    ∃ damaged, readTable (logInterrupted (some t) d k) = ds ++ damaged ∧ damaged.length ≤ 1 := by
  rw [logResults_some] at ht
  cases ht
  have h2 : ∀ e ∈ ds, e ≠ [] := by
    rintro e he rfl
    exact hn (hd _ he).symm
  have h3 : ds.map (fun e => names.zip (e.map Prod.snd)) = ds := by
    conv_rhs => rw [← List.map_id ds]
    apply List.map_congr_left
    intro e he
    rw [← hd e he, zip_names]
    rfl
  refine ⟨(CsvState.row.read ((csvLine ['\r', '\n'] (d.map Prod.snd)).take k)).map (fun r => names.zip r), ?_, ?_⟩
  · unfold logInterrupted readTable readRows
    dsimp only
    rw [List.append_assoc, read_header names hn, read_rowsText ds h2]
    dsimp only
    rw [List.map_append, List.map_map]
    exact congrArg (· ++ _) h3
  · rw [List.length_map]
    have h4 := read_mono .row ((csvLine ['\r', '\n'] (d.map Prod.snd)).take k) ((csvLine ['\r', '\n'] (d.map Prod.snd)).drop k)
    rw [List.take_append_drop] at h4
    have h5 := read_crlf (d.map Prod.snd) (by simpa using hd0) []
    rw [List.append_nil] at h5
    rw [h5] at h4
    simpa [CsvState.read, CsvState.finish] using h4

/-- C167 fails after an interruption at the very start: the log then exists and is empty, the values of the next result become the names, and that result is
never read. -/
theorem C167_refuted_start (d0 d : CsvDict) (hd0 : d ≠ []) (ds : List CsvDict) (hd : ∀ e ∈ ds, e ≠ []) :
    (logResults (some (logInterrupted none d0 0)) (d :: ds)).map readTable = some (ds.map (fun e => (d.map Prod.snd).zip (e.map Prod.snd))) := by
  rw [logResults_some]
  refine congrArg some ?_
  have h := read_rowsText (d :: ds) (by
    intro e he
    rcases List.mem_cons.1 he with rfl | h
    · exact hd0
    · exact hd e h) []
  rw [List.append_nil] at h
  unfold readTable readRows logInterrupted
  dsimp only
  rw [List.take_zero, List.nil_append, h]
  simp [CsvState.read, CsvState.finish]

/-- The names of the two stability tests, and those of sweeps with and without tracking, do not fit together, in either order. -/
theorem C167_names : ¬ budgetNames <+: statNames ∧ ¬ statNames <+: budgetNames ∧
    (∀ a b c d e f g h i j k tracked, tracked ≠ [] → (∀ p ∈ tracked, p.1 ≠ "algorithm".toList) →
      ¬ (sweepDict a b [] c d e f g h i j k).map Prod.fst <+: (sweepDict a b tracked c d e f g h i j k).map Prod.fst) := by
  refine ⟨by decide, by decide, ?_⟩
  intro a b c d e f g h i j k tracked ht ha hp
  cases tracked with
  | nil => exact ht rfl
  | cons p tracked =>
    unfold sweepDict at hp
    simp only [List.append_nil, List.map_append, List.map_cons, List.cons_append, List.nil_append, List.map_nil, List.cons_prefix_cons] at hp
    exact ha p (List.mem_cons_self ..) hp.2.2.1.symm

/-- Two calls of the stability tests that log to the same file. -/
theorem C167_same_file : budgetFile (some "stat_test_stability_log/a.csv".toList) = statFile (some "a.csv".toList) := by decide

/-! ### Examples -/

/-- A value under a name in a row of a table. -/
def valueOf (name : String) (row : CsvDict) : Option String := (row.lookup name.toList).map String.ofList

/-- A sweep with tracking, as in the log of the repository, and a later one whose tracking adds nothing. -/
def trackedRun : CsvDict :=
  sweepDict "0.74".toList "0.75".toList [("_timestamp".toList, "1650630508".toList), ("_runtime".toList, "9".toList)] "SKLEARN".toList "True".toList
    "HEART".toList "3000".toList "1".toList "16".toList "43".toList "True".toList "True".toList

def untrackedRun : CsvDict :=
  sweepDict "0.76".toList "0.77".toList [] "SKLEARN".toList "True".toList "HEART".toList "3000".toList "1".toList "10".toList "56".toList "True".toList
    "True".toList

/-- C167 fails for sweeps: the second run has the better validation accuracy, so that its row is the one whose parameters are used; the size of the sample
is read from the depth, the depth from `verbose` and the number of trees from `is_balanced`. -/
theorem C167_refuted_sweep :
    ((logResults none [trackedRun, untrackedRun]).map readTable).map (fun t => t.map (fun row =>
      [valueOf "val_acc" row, valueOf "sub_size" row, valueOf "n_estimators" row, valueOf "max_depth" row])) =
    some [[some "0.74", some "3000", some "43", some "16"], [some "0.76", some "10", some "True", some "True"]] := by
  decide +kernel

/-- C167 fails after an interruption within a row: the next result is put behind the damaged row, on the same line. It is not a row
of its own any more, and the row that is read has too many values. -/
theorem C167_refuted_torn : let run (a b : String) : CsvDict := [("val_acc".toList, a.toList), ("seed".toList, b.toList)]
    (logResults none [run "0.5" "1"]).bind (fun t => (logResults (some (logInterrupted (some t) (run "0.6" "2") 5)) [run "0.7" "3", run "0.8" "4"]).map
      (fun u => (readRows u).map (fun r => r.map String.ofList))) =
    some [["val_acc", "seed"], ["0.5", "1"], ["0.6", "20.7", "3"], ["0.8", "4"]] := by
  decide +kernel

/-- The hypotheses of `C167_interrupted` are met, with a damaged row (interrupted within a quoted value) and without one. -/
example : let run (a b : String) : CsvDict := [("val_acc".toList, a.toList), ("note".toList, b.toList)]
    let names := ["val_acc".toList, "note".toList]
    names ≠ [] ∧ (∀ d ∈ [run "0.5" "a,b", run "0.6" ""], d.map Prod.fst = names) ∧ run "0.7" "c,d" ≠ [] ∧
    (logResults (some (csvHeader names)) [run "0.5" "a,b", run "0.6" ""]).map (fun t => readTable (logInterrupted (some t) (run "0.7" "c,d") 7)) =
      some [run "0.5" "a,b", run "0.6" "", run "0.7" "c,"] ∧
    (logResults (some (csvHeader names)) [run "0.5" "a,b", run "0.6" ""]).map (fun t => readTable (logInterrupted (some t) (run "0.7" "c,d") 0)) =
      some [run "0.5" "a,b", run "0.6" ""] := by
  decide +kernel

/-- The hypotheses of `C167_read_back_partial` are met: values with commas, quotes, line ends, and empty ones. -/
example : let run (a b : String) : CsvDict := [("val_acc".toList, a.toList), ("note, \"x\"".toList, b.toList)]
    (logResults none [run "0.5" "a,b", run "" "say \"hi\"\r\n", run "\n" ""]).map readTable =
      some [run "0.5" "a,b", run "" "say \"hi\"\r\n", run "\n" ""] ∧
    (logResults none [run "0.5" "a,b"]).map String.ofList = some "val_acc,\"note, \"\"x\"\"\"\n0.5,\"a,b\"\r\n" := by
  decide +kernel

end FF
