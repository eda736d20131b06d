import Verif.Model.LogRead
import Verif.Model.Instances
import Verif.Spec.LogRead
import Verif.Spec.Basic

/-!
# C156: what the analysis of a log prints
-/

set_option linter.unusedSectionVars false

namespace FF

open Spec

variable {K : Type} [Field K] [LinearOrder K] [IsStrictOrderedRing K] [FloorRing K] [NpFun K]

/-! ## Reading one line -/

theorem pyTokens_append (a b : List Char) (c : Char) (hc : c.isWhitespace = true) : pyTokens (a ++ c :: b) = pyTokens a ++ pyTokens b := by
  unfold pyTokens
  rw [List.splitOnP_append_cons _ _ hc, List.filter_append]

theorem pyTokens_word (a : List Char) (h : ∀ c ∈ a, c.isWhitespace = false) (hne : a ≠ []) : pyTokens a = [a] := by
  unfold pyTokens
  rw [List.splitOnP_eq_singleton h]
  cases a with
  | nil => exact absurd rfl hne
  | cons x xs => rfl

theorem digit_not_space (c : Char) (h : c.isDigit = true) : c.isWhitespace = false := by
  by_contra hw
  rw [Bool.not_eq_false] at hw
  have : c = ' ' ∨ c = '\t' ∨ c = '\r' ∨ c = '\n' := by
    simpa [Char.isWhitespace, or_assoc] using hw
  rcases this with rfl | rfl | rfl | rfl <;> exact absurd h (by decide)

theorem digits_no_space (n : Nat) : ∀ c ∈ Nat.toDigits 10 n, c.isWhitespace = false := fun c hc =>
  digit_not_space c (Nat.isDigit_of_mem_toDigits (by omega) (by omega) hc)

theorem pyInt_digits (n : Nat) : pyInt (Nat.toDigits 10 n) = .ok (n : Int) := by
  have hall : ∀ c ∈ Nat.toDigits 10 n, c.isDigit = true := fun c hc => Nat.isDigit_of_mem_toDigits (by omega) (by omega) hc
  have hnat : pyNat (Nat.toDigits 10 n) = .ok n := by
    unfold pyNat
    rw [if_pos ⟨Nat.toDigits_ne_nil, List.all_eq_true.2 hall⟩, Nat.ofDigitChars_ten_toDigits]
  unfold pyInt
  split
  · rename_i heq
    exact absurd (hall '-' (by rw [heq]; exact List.mem_cons_self)) (by decide)
  · rename_i heq
    exact absurd (hall '+' (by rw [heq]; exact List.mem_cons_self)) (by decide)
  · rw [hnat]; rfl

/-- **C156** (numbers with a sign). A number is read with its sign, as `int` reads it. -/
theorem C156_signed (n : Nat) :
    pyInt ('-' :: Nat.toDigits 10 n) = .ok (-(n : Int)) ∧ pyInt ('+' :: Nat.toDigits 10 n) = .ok (n : Int) := by
  have hall : ∀ c ∈ Nat.toDigits 10 n, c.isDigit = true := fun c hc => Nat.isDigit_of_mem_toDigits (by omega) (by omega) hc
  have hnat : pyNat (Nat.toDigits 10 n) = .ok n := by
    unfold pyNat
    rw [if_pos ⟨Nat.toDigits_ne_nil, List.all_eq_true.2 hall⟩, Nat.ofDigitChars_ten_toDigits]
  unfold pyInt
  constructor <;> (simp only []; rw [hnat]; rfl)

theorem rounds_has (n : Nat) : lineHas "Round count:".toList (LogLine.rounds n).text = true := by
  unfold lineHas LogLine.text
  rw [decide_eq_true_iff]
  exact ⟨[], ' ' :: (Nat.toDigits 10 n ++ ['\n']), by simp⟩

theorem done_has (n : Nat) : lineHas "Results for".toList (LogLine.done n).text = true := by
  unfold lineHas LogLine.text
  rw [decide_eq_true_iff]
  exact ⟨[], ' ' :: ' ' :: (Nat.toDigits 10 n ++ "  above\n".toList), by simp⟩

/-- The line of a size has no colon. -/
theorem done_not_rounds (n : Nat) : lineHas "Round count:".toList (LogLine.done n).text = false := by
  unfold lineHas
  rw [decide_eq_false_iff_not]
  intro h
  have hm : ':' ∈ (LogLine.done n).text := h.subset (by decide)
  unfold LogLine.text at hm
  rw [List.mem_append, List.mem_append] at hm
  rcases hm with (hm | hm) | hm
  · exact absurd hm (by decide)
  · exact absurd (Nat.isDigit_of_mem_toDigits (by omega) (by omega) hm) (by decide)
  · exact absurd hm (by decide)

theorem rounds_int (n : Nat) : intFromEnd 1 (LogLine.rounds n).text = .ok (n : Int) := by
  have ht : pyTokens (LogLine.rounds n).text = ["Round".toList, "count:".toList, Nat.toDigits 10 n] := by
    have e : (LogLine.rounds n).text = ("Round".toList ++ ' ' :: ("count:".toList ++ ' ' :: (Nat.toDigits 10 n ++ '\n' :: []))) := by
      unfold LogLine.text; simp
    rw [e, pyTokens_append _ _ _ (by decide), pyTokens_append _ _ _ (by decide), pyTokens_append _ _ _ (by decide),
      pyTokens_word _ (digits_no_space n) Nat.toDigits_ne_nil, pyTokens_word "Round".toList (by decide) (by decide),
      pyTokens_word "count:".toList (by decide) (by decide)]
    rfl
  unfold intFromEnd
  rw [ht]
  exact pyInt_digits n

theorem done_int (n : Nat) : intFromEnd 2 (LogLine.done n).text = .ok (n : Int) := by
  have ht : pyTokens (LogLine.done n).text = ["Results".toList, "for".toList, Nat.toDigits 10 n, "above".toList] := by
    have e : (LogLine.done n).text = ("Results".toList ++ ' ' :: ("for".toList ++ ' ' :: ([] ++ ' ' :: (Nat.toDigits 10 n ++ ' ' ::
        ([] ++ ' ' :: ("above".toList ++ '\n' :: [])))))) := by
      unfold LogLine.text; simp
    rw [e, pyTokens_append _ _ _ (by decide), pyTokens_append _ _ _ (by decide), pyTokens_append _ _ _ (by decide),
      pyTokens_append _ _ _ (by decide), pyTokens_append _ _ _ (by decide), pyTokens_append _ _ _ (by decide),
      pyTokens_word _ (digits_no_space n) Nat.toDigits_ne_nil, pyTokens_word "Results".toList (by decide) (by decide),
      pyTokens_word "for".toList (by decide) (by decide), pyTokens_word "above".toList (by decide) (by decide)]
    rfl
  unfold intFromEnd
  rw [ht]
  exact pyInt_digits n

/-! ## The table -/

theorem padRow_length (w : Nat) (l : List Nat) (h : l.length ≤ w) : (padRow w l).length = w := by
  unfold padRow; simp; omega

theorem padTable_length (h w : Nat) (rows : List (List Nat)) : (padTable h w rows).length = h := by simp [padTable]

theorem padTable_get (h w : Nat) (rows : List (List Nat)) (i : Nat) (hi : i < h) :
    (padTable h w rows)[i]? = some (padRow w (rows[i]?.getD [])) := by
  simp [padTable, hi]

theorem padRow_set (w : Nat) (s : List Nat) (n : Nat) (h : s.length < w) : (padRow w s).set s.length (n : Int) = padRow w (s ++ [n]) := by
  unfold padRow
  obtain ⟨k, hk⟩ : ∃ k, w - s.length = k + 1 := ⟨w - s.length - 1, by omega⟩
  have hk' : w - (s ++ [n]).length = k := by simp; omega
  rw [hk, hk', List.replicate_succ, List.set_append_right _ _ (by simp)]
  simp

theorem padTable_set (h w : Nat) (A : List (List Nat)) (s : List Nat) (n : Nat) (hs : s.length < w) :
    (padTable h w (A ++ [s])).set A.length ((padRow w s).set s.length (n : Int)) = padTable h w (A ++ [s ++ [n]]) := by
  rw [padRow_set w s n hs]
  apply List.ext_getElem?
  intro i
  rw [List.getElem?_set]
  by_cases hi : i < h
  · rw [padTable_get _ _ _ _ hi, padTable_get _ _ _ _ hi]
    by_cases he : A.length = i
    · subst he
      simp [padTable_length, hi]
    · rw [if_neg he]
      rcases Nat.lt_or_gt_of_ne he with hlt | hgt
      · rw [List.getElem?_eq_none (by simp; omega), List.getElem?_eq_none (by simp; omega)]
      · rw [List.getElem?_append_left (by omega), List.getElem?_append_left (by omega)]
  · rw [List.getElem?_eq_none (by rw [padTable_length]; omega), List.getElem?_eq_none (by rw [padTable_length]; omega)]
    split_ifs with h1 h2
    · rw [padTable_length] at h2; omega
    · rfl
    · rfl

theorem padTable_next (h w : Nat) (A : List (List Nat)) : padTable h w (A ++ [[]]) = padTable h w A := by
  unfold padTable
  apply List.map_congr_left
  intro i _
  rcases Nat.lt_trichotomy i A.length with hlt | he | hgt
  · rw [List.getElem?_append_left hlt]
  · subst he; simp
  · rw [List.getElem?_eq_none (by simp; omega), List.getElem?_eq_none (by omega)]

theorem padTable_start (h w : Nat) : padTable h w [[]] = List.replicate h (List.replicate w 0) := by
  have e : padTable h w ([] ++ [[]]) = padTable h w [] := padTable_next h w []
  rw [List.nil_append] at e
  rw [e]
  apply List.ext_getElem
  · simp [padTable]
  · intro i h1 h2
    simp [padTable, padRow]

/-! ## The loop -/

/-- The rows of a log of which a part was read. -/
theorem rows_prefix (log : List LogLine) : ∀ (seen : List Nat),
    ∃ (row : List Nat) (rest : List (List Nat)), (runsOf seen log).map Prod.snd ++ [unfinished seen log] = row :: rest ∧ seen <+: row := by
  induction log with
  | nil => exact fun seen => ⟨seen, [], rfl, List.prefix_rfl⟩
  | cons l log ih =>
    intro seen
    cases l with
    | rounds n =>
      obtain ⟨row, rest, h1, h2⟩ := ih (seen ++ [n])
      exact ⟨row, rest, h1, (List.prefix_append _ _).trans h2⟩
    | done s => exact ⟨seen, _, rfl, List.prefix_rfl⟩
    | other t => exact ih seen

theorem fits_snoc {h w : Nat} {A : List (List Nat)} {s : List Nat} :
    Fits h w (A ++ [s]) ↔ Fits h w A ∧ s.length ≤ w ∧ (s ≠ [] → A.length < h) := by
  constructor
  · intro hf
    refine ⟨fun i row hi => hf i row ?_, hf A.length s (by simp)⟩
    rw [List.getElem?_append_left ((List.getElem?_eq_some_iff.1 hi).1)]; exact hi
  · rintro ⟨hA, hs⟩ i row hi
    rcases Nat.lt_or_ge i A.length with hlt | hge
    · rw [List.getElem?_append_left hlt] at hi; exact hA i row hi
    · have hlen := (List.getElem?_eq_some_iff.1 hi).1
      simp at hlen
      have : i = A.length := by omega
      subst this
      simp at hi
      subst hi
      exact hs

theorem logLoop_cons (l : LogLine) (rest : List LogLine) (st : LogState) : logLoop ((l :: rest).map LogLine.text) st =
    (match logStep st l.text with
    | .error e => .error e
    | .ok st' => logLoop (rest.map LogLine.text) st') := rfl

theorem logStep_other (t : List Char) (hp : LogLine.Plain (.other t)) (st : LogState) : logStep st (LogLine.other t).text = .ok st := by
  have h1 : lineHas "Round count:".toList t = false := decide_eq_false hp.1
  have h2 : lineHas "Results for".toList t = false := decide_eq_false hp.2
  show logStep st t = .ok st
  unfold logStep
  rw [h1, h2]
  rfl

theorem logLoop_spec (h w : Nat) (log : List LogLine) : ∀ (F : List (Nat × List Nat)) (seen : List Nat),
    (∀ l ∈ log, LogLine.Plain l) → Fits h w (F.map Prod.snd ++ [seen]) →
    (Fits h w (F.map Prod.snd ++ ((runsOf seen log).map Prod.snd ++ [unfinished seen log])) →
      logLoop (log.map LogLine.text) ⟨F.map (fun r => (r.1 : Int)), padTable h w (F.map Prod.snd ++ [seen]), F.length, seen.length⟩ =
        .ok ⟨(F ++ runsOf seen log).map (fun r => (r.1 : Int)),
          padTable h w (F.map Prod.snd ++ ((runsOf seen log).map Prod.snd ++ [unfinished seen log])),
          (F ++ runsOf seen log).length, (unfinished seen log).length⟩) ∧
    (¬ Fits h w (F.map Prod.snd ++ ((runsOf seen log).map Prod.snd ++ [unfinished seen log])) →
      logLoop (log.map LogLine.text) ⟨F.map (fun r => (r.1 : Int)), padTable h w (F.map Prod.snd ++ [seen]), F.length, seen.length⟩ =
        .error .indexError) := by
  induction log with
  | nil =>
    intro F seen _ hfit
    refine ⟨fun _ => by simp [logLoop, runsOf, unfinished], fun hn => absurd ?_ hn⟩
    simpa [runsOf, unfinished] using hfit
  | cons l log ih =>
    intro F seen hplain hfit
    have hplain' : ∀ l ∈ log, LogLine.Plain l := fun l hl => hplain l (List.mem_cons_of_mem _ hl)
    cases l with
    | rounds n =>
      have hrows : ∀ t, runsOf seen (LogLine.rounds n :: t) = runsOf (seen ++ [n]) t := fun t => rfl
      have hunf : ∀ t, unfinished seen (LogLine.rounds n :: t) = unfinished (seen ++ [n]) t := fun t => rfl
      rw [hrows, hunf]
      rw [logLoop_cons]
      by_cases hok : F.length < h ∧ seen.length < w
      · have hstep : logStep ⟨F.map (fun r => (r.1 : Int)), padTable h w (F.map Prod.snd ++ [seen]), F.length, seen.length⟩
            (LogLine.rounds n).text = .ok ⟨F.map (fun r => (r.1 : Int)), padTable h w (F.map Prod.snd ++ [seen ++ [n]]), F.length,
              (seen ++ [n]).length⟩ := by
          unfold logStep
          rw [if_pos (rounds_has n), rounds_int n]
          dsimp only
          have hset : setCell (padTable h w (F.map Prod.snd ++ [seen])) F.length seen.length (n : Int)
              = .ok (padTable h w (F.map Prod.snd ++ [seen ++ [n]])) := by
            unfold setCell
            rw [padTable_get _ _ _ _ hok.1]
            have e : (F.map Prod.snd ++ [seen])[F.length]?.getD [] = seen := by
              have : F.length = (F.map Prod.snd).length := by simp
              rw [this]; simp
            rw [e]
            dsimp only
            rw [if_pos (by rw [padRow_length w seen hok.2.le]; exact hok.2)]
            have := padTable_set h w (F.map Prod.snd) seen n hok.2
            rw [List.length_map] at this
            rw [this]
          rw [hset]
          simp
        rw [hstep]
        dsimp only
        refine ih F (seen ++ [n]) hplain' ?_
        rw [fits_snoc] at hfit ⊢
        refine ⟨hfit.1, by simp; omega, fun _ => by simpa using hok.1⟩
      · have hnot : ¬ Fits h w (F.map Prod.snd ++ ((runsOf (seen ++ [n]) log).map Prod.snd ++ [unfinished (seen ++ [n]) log])) := by
          intro hf
          obtain ⟨row, rest, h1, h2⟩ := rows_prefix log (seen ++ [n])
          rw [h1] at hf
          have := hf F.length row (by
            have : F.length = (F.map Prod.snd).length := by simp
            rw [this]; simp)
          have hl := h2.length_le
          simp at hl
          refine hok ⟨this.2 ?_, by omega⟩
          intro hr; rw [hr] at hl; simp at hl
        refine ⟨fun hf => absurd hf hnot, fun _ => ?_⟩
        have hstep : logStep ⟨F.map (fun r => (r.1 : Int)), padTable h w (F.map Prod.snd ++ [seen]), F.length, seen.length⟩
            (LogLine.rounds n).text = .error .indexError := by
          unfold logStep
          rw [if_pos (rounds_has n), rounds_int n]
          dsimp only
          have hset : setCell (padTable h w (F.map Prod.snd ++ [seen])) F.length seen.length (n : Int) = .error .indexError := by
            unfold setCell
            by_cases hh : F.length < h
            · rw [padTable_get _ _ _ _ hh]
              have e : (F.map Prod.snd ++ [seen])[F.length]?.getD [] = seen := by
                have : F.length = (F.map Prod.snd).length := by simp
                rw [this]; simp
              rw [e]
              dsimp only
              have hsl := (fits_snoc.1 hfit).2.1
              rw [if_neg (by rw [padRow_length w seen hsl]; exact fun hc => hok ⟨hh, hc⟩)]
            · rw [List.getElem?_eq_none (by rw [padTable_length]; omega)]
          rw [hset]
        rw [hstep]
    | done s =>
      have hrows : ∀ t, runsOf seen (LogLine.done s :: t) = (s, seen) :: runsOf [] t := fun t => rfl
      have hunf : ∀ t, unfinished seen (LogLine.done s :: t) = unfinished [] t := fun t => rfl
      rw [hrows, hunf, logLoop_cons]
      have hstep : logStep ⟨F.map (fun r => (r.1 : Int)), padTable h w (F.map Prod.snd ++ [seen]), F.length, seen.length⟩
          (LogLine.done s).text = .ok ⟨(F ++ [(s, seen)]).map (fun r => (r.1 : Int)), padTable h w ((F ++ [(s, seen)]).map Prod.snd ++ [[]]),
            (F ++ [(s, seen)]).length, ([] : List Nat).length⟩ := by
        unfold logStep
        rw [if_neg (by rw [done_not_rounds]; decide), if_pos (done_has s), done_int s]
        rw [padTable_next]
        simp
      rw [hstep]
      dsimp only
      have := ih (F ++ [(s, seen)]) [] hplain' (by
        rw [fits_snoc]
        exact ⟨by simpa using hfit, by simp, fun hc => absurd rfl hc⟩)
      simpa using this
    | other t =>
      have hrows : ∀ l, runsOf seen (LogLine.other t :: l) = runsOf seen l := fun l => rfl
      have hunf : ∀ l, unfinished seen (LogLine.other t :: l) = unfinished seen l := fun l => rfl
      rw [hrows, hunf, logLoop_cons]
      rw [logStep_other t (hplain (.other t) List.mem_cons_self)]
      dsimp only
      exact ih F seen hplain' hfit

/-! ## What is printed -/

theorem analyzeLog_eq (h w : Nat) (hh : 0 < h) (hw : 0 < w) (log : List LogLine) (hplain : ∀ l ∈ log, LogLine.Plain l) :
    (Fits h w (allRuns log) →
      ∃ (v : Int), lastCell (padTable h w (allRuns log)) = .ok v ∧
      analyzeLog (K := K) h w (log.map LogLine.text) = .ok ⟨decide (v = 0), padTable h w (allRuns log), (runsOf [] log).map (fun r => (r.1 : Int)),
        (padTable h w (allRuns log)).map (fun row => npMean (row.map (fun (n : Int) => (n : K)))),
        (padTable h w (allRuns log)).map (fun row => NpFun.sqrt (npVar (row.map (fun (n : Int) => (n : K)))))⟩) ∧
    (¬ Fits h w (allRuns log) → analyzeLog (K := K) h w (log.map LogLine.text) = .error .indexError) := by
  have hstart : Fits h w (([] : List (Nat × List Nat)).map Prod.snd ++ [[]]) := by
    rw [fits_snoc]
    exact ⟨fun i row hi => by simp at hi, by simp, fun hc => absurd rfl hc⟩
  obtain ⟨h1, h2⟩ := logLoop_spec h w log [] [] hplain hstart
  have hst : (⟨([] : List (Nat × List Nat)).map (fun r => (r.1 : Int)), padTable h w (([] : List (Nat × List Nat)).map Prod.snd ++ [[]]),
      ([] : List (Nat × List Nat)).length, ([] : List Nat).length⟩ : LogState) = logStart h w := by
    unfold logStart
    rw [List.map_nil, List.map_nil, List.nil_append, padTable_start]
    rfl
  rw [hst] at h1 h2
  rw [List.map_nil, List.nil_append] at h1 h2
  constructor
  · intro hf
    have hl := h1 hf
    have hlast : ∃ v, lastCell (padTable h w (allRuns log)) = .ok v := by
      unfold lastCell
      have hne : padTable h w (allRuns log) ≠ [] := by
        intro hc
        have := padTable_length h w (allRuns log)
        rw [hc] at this; simp at this; omega
      rw [List.getLast?_eq_some_getLast hne]
      dsimp only
      have hrow : (padTable h w (allRuns log)).getLast hne ≠ [] := by
        have hm := List.getLast_mem hne
        obtain ⟨i, hi, e⟩ := List.mem_map.1 hm
        rw [← e]
        intro hc
        have : (padRow w ((allRuns log)[i]?.getD [])).length = 0 := by rw [hc]; rfl
        unfold padRow at this
        simp at this
        have h0 := this.1
        rw [h0] at this
        simp at this
        omega
      rw [List.getLast?_eq_some_getLast hrow]
      exact ⟨_, rfl⟩
    obtain ⟨v, hv⟩ := hlast
    refine ⟨v, hv, ?_⟩
    unfold analyzeLog
    rw [hl]
    dsimp only
    change (match lastCell (padTable h w (allRuns log)) with
      | .error e => _
      | .ok v => _) = _
    rw [hv]
    rfl
  · intro hf
    unfold analyzeLog
    rw [h2 hf]

/-- The last cell of the table, in terms of the log: the last count of the last row, or zero. -/
theorem lastCell_padTable (h w : Nat) (hh : 0 < h) (hw : 0 < w) (rows : List (List Nat)) (hfit : Fits h w rows) :
    lastCell (padTable h w rows) = .ok (((rows[h - 1]?.getD [])[w - 1]?.getD 0 : Nat) : Int) := by
  unfold lastCell
  rw [List.getLast?_eq_getElem?, padTable_length, padTable_get _ _ _ _ (by omega)]
  dsimp only
  have hlen : (rows[h - 1]?.getD []).length ≤ w := by
    cases hr : rows[h - 1]? with
    | none => simp
    | some row => exact (hfit _ _ hr).1
  generalize rows[h - 1]?.getD [] = row at hlen
  rw [List.getLast?_eq_getElem?, padRow_length w row hlen]
  have : (padRow w row)[w - 1]? = some ((row[w - 1]?.getD 0 : Nat) : Int) := by
    unfold padRow
    by_cases hc : w - 1 < row.length
    · rw [List.getElem?_append_left (by simpa using hc)]
      simp [hc]
    · rw [List.getElem?_append_right (by simp; omega), List.getElem?_eq_none (l := row) (by omega), List.getElem?_replicate,
        if_pos (by rw [List.length_map]; omega)]
      rfl
  rw [this]

/-- The sum of a row is the sum of its counts. -/
theorem padRow_sum (w : Nat) (l : List Nat) : ((padRow w l).map (fun (n : Int) => (n : K))).sum = ((l.sum : Nat) : K) := by
  unfold padRow
  rw [List.map_append, List.sum_append, List.map_replicate, List.sum_replicate, List.map_map]
  have : ∀ l : List Nat, (l.map ((fun (n : Int) => (n : K)) ∘ (fun n : Nat => (n : Int)))).sum = ((l.sum : Nat) : K) := by
    intro l
    induction l with
    | nil => simp
    | cons a l ih => rw [List.map_cons, List.sum_cons, ih]; simp
  rw [this]
  simp

/-- **C156** (reading). If no size of a log has more than twenty counts and no count comes after the thirtieth size, the analysis prints, in the
order of the log, the sizes, and a table with a row for every size: its counts in their order, and zeros behind them. Other lines do not matter. -/
theorem C156_table (log : List LogLine) (hplain : ∀ l ∈ log, LogLine.Plain l) (hfit : Fits 30 20 (allRuns log)) :
    ∃ r : LogReport K, analyzeOutput (log.map LogLine.text) = .ok r ∧ r.sizes = (runsOf [] log).map (fun run => (run.1 : Int)) ∧
      r.cells = padTable 30 20 (allRuns log) ∧ r.means.length = 30 ∧ r.stds.length = 30 := by
  obtain ⟨v, _, he⟩ := (analyzeLog_eq (K := K) 30 20 (by omega) (by omega) log hplain).1 hfit
  refine ⟨_, he, rfl, rfl, ?_, ?_⟩ <;> rw [List.length_map, padTable_length]

/-- **C156** (refusal). Otherwise the script stops with an IndexError. -/
theorem C156_refuses (log : List LogLine) (hplain : ∀ l ∈ log, LogLine.Plain l) (hfit : ¬ Fits 30 20 (allRuns log)) :
    analyzeOutput (K := K) (log.map LogLine.text) = .error .indexError :=
  (analyzeLog_eq (K := K) 30 20 (by omega) (by omega) log hplain).2 hfit

/-- **C156** (the numbers of a complete size). For a size with exactly twenty counts, the mean and the standard deviation printed at its position
are those of its counts. -/
theorem C156_complete (log : List LogLine) (hplain : ∀ l ∈ log, LogLine.Plain l) (r : LogReport K)
    (hr : analyzeOutput (log.map LogLine.text) = .ok r) (i : Nat) (run : Nat × List Nat) (hi : (runsOf [] log)[i]? = some run)
    (hfull : run.2.length = 20) :
    r.sizes[i]? = some (run.1 : Int) ∧ r.means[i]? = some (mean (run.2.map (fun n : Nat => (n : K)))) ∧
      r.stds[i]? = some (NpFun.sqrt (variance (run.2.map (fun n : Nat => (n : K))))) := by
  obtain ⟨h1, h2⟩ := analyzeLog_eq (K := K) 30 20 (by omega) (by omega) log hplain
  by_cases hfit : Fits 30 20 (allRuns log)
  swap
  · have := h2 hfit
    unfold analyzeOutput at hr
    rw [this] at hr; exact absurd hr (by simp)
  obtain ⟨v, _, he⟩ := h1 hfit
  unfold analyzeOutput at hr
  rw [he] at hr
  injection hr with hr
  subst hr
  have hil := (List.getElem?_eq_some_iff.1 hi).1
  have hrow : (allRuns log)[i]? = some run.2 := by
    unfold allRuns
    rw [List.getElem?_append_left (by simpa using hil), List.getElem?_map, hi]
    rfl
  have hi30 : i < 30 := (hfit i run.2 hrow).2 (by intro hc; rw [hc] at hfull; simp at hfull)
  have hcell := padTable_get 30 20 (allRuns log) i hi30
  rw [hrow] at hcell
  have hpad : (padRow 20 run.2).map (fun (n : Int) => (n : K)) = run.2.map (fun n : Nat => (n : K)) := by
    unfold padRow
    rw [hfull]
    simp
  refine ⟨?_, ?_, ?_⟩
  · dsimp only
    rw [List.getElem?_map, hi]; rfl
  · dsimp only
    rw [List.getElem?_map, hcell]
    simp only [Option.map_some, Option.getD_some, hpad]
    rfl
  · dsimp only
    rw [List.getElem?_map, hcell]
    simp only [Option.map_some, Option.getD_some, hpad]
    unfold variance npVar
    congr 2
    unfold mean
    simp [npMean, pow_two]

/-- **C156** (every size). In general the number printed as the mean is the sum of the counts over twenty. -/
theorem C156_mean (log : List LogLine) (hplain : ∀ l ∈ log, LogLine.Plain l) (r : LogReport K)
    (hr : analyzeOutput (log.map LogLine.text) = .ok r) (i : Nat) (hi : i < 30) :
    r.means[i]? = some (((((allRuns log)[i]?.getD []).sum : Nat) : K) / 20) := by
  obtain ⟨h1, h2⟩ := analyzeLog_eq (K := K) 30 20 (by omega) (by omega) log hplain
  by_cases hfit : Fits 30 20 (allRuns log)
  swap
  · have := h2 hfit
    unfold analyzeOutput at hr
    rw [this] at hr; exact absurd hr (by simp)
  obtain ⟨v, _, he⟩ := h1 hfit
  unfold analyzeOutput at hr
  rw [he] at hr
  injection hr with hr
  subst hr
  dsimp only
  rw [List.getElem?_map, padTable_get _ _ _ _ hi, Option.map_some]
  unfold npMean
  have hlen : ((allRuns log)[i]?.getD []).length ≤ 20 := by
    cases hr : (allRuns log)[i]? with
    | none => simp
    | some row => exact (hfit _ _ hr).1
  rw [padRow_sum, List.length_map, padRow_length 20 _ hlen]
  norm_num

/-- **C156** (short sizes). So the printed mean of a size with some, but fewer than twenty, counts is below the mean of its counts, unless these are
all zero. -/
theorem C156_short (log : List LogLine) (hplain : ∀ l ∈ log, LogLine.Plain l) (r : LogReport K)
    (hr : analyzeOutput (log.map LogLine.text) = .ok r) (i : Nat) (run : Nat × List Nat) (hi : (runsOf [] log)[i]? = some run)
    (hshort : run.2.length < 20) (hpos : 0 < run.2.sum) :
    ∃ m, r.means[i]? = some m ∧ m < mean (run.2.map (fun n : Nat => (n : K))) := by
  have hfit : Fits 30 20 (allRuns log) := by
    by_contra hfit
    have := (analyzeLog_eq (K := K) 30 20 (by omega) (by omega) log hplain).2 hfit
    unfold analyzeOutput at hr
    rw [this] at hr; exact absurd hr (by simp)
  have hil := (List.getElem?_eq_some_iff.1 hi).1
  have hrow : (allRuns log)[i]? = some run.2 := by
    unfold allRuns
    rw [List.getElem?_append_left (by simpa using hil), List.getElem?_map, hi]
    rfl
  have hne : run.2 ≠ [] := by intro hc; rw [hc] at hpos; simp at hpos
  have hi30 : i < 30 := (hfit i run.2 hrow).2 hne
  refine ⟨_, C156_mean log hplain r hr i hi30, ?_⟩
  rw [hrow, Option.getD_some]
  unfold mean
  have hs : (run.2.map (fun n : Nat => (n : K))).sum = ((run.2.sum : Nat) : K) := by simp
  rw [hs, List.length_map]
  have hl0 : (0 : K) < (run.2.length : K) := by
    have := List.length_pos_of_ne_nil hne
    exact_mod_cast this
  have hs0 : (0 : K) < ((run.2.sum : Nat) : K) := by exact_mod_cast hpos
  have hl1 : (run.2.length : K) < 20 := by exact_mod_cast hshort
  exact div_lt_div_of_pos_left hs0 hl0 hl1

/-- **C156** (the warning). The warning appears exactly if the twentieth count of the thirtieth size is missing or zero. -/
theorem C156_warning (log : List LogLine) (hplain : ∀ l ∈ log, LogLine.Plain l) (r : LogReport K)
    (hr : analyzeOutput (log.map LogLine.text) = .ok r) :
    r.warning = true ↔ ¬ ∃ (counts : List Nat) (n : Nat), (allRuns log)[29]? = some counts ∧ counts[19]? = some n ∧ n ≠ 0 := by
  obtain ⟨h1, h2⟩ := analyzeLog_eq (K := K) 30 20 (by omega) (by omega) log hplain
  by_cases hfit : Fits 30 20 (allRuns log)
  swap
  · have := h2 hfit
    unfold analyzeOutput at hr
    rw [this] at hr; exact absurd hr (by simp)
  obtain ⟨v, hv, he⟩ := h1 hfit
  unfold analyzeOutput at hr
  rw [he] at hr
  injection hr with hr
  subst hr
  rw [lastCell_padTable 30 20 (by omega) (by omega) _ hfit] at hv
  injection hv with hv
  subst hv
  dsimp only
  rw [decide_eq_true_iff]
  norm_num
  cases hrow : (allRuns log)[29]? with
  | none => simp
  | some row =>
    cases hn : row[19]? with
    | none => simp [hn]
    | some n => simp [hn]

/-- **C156** (no warning for complete logs). With all thirty sizes, each with twenty positive counts, there is no warning. -/
theorem C156_no_warning (log : List LogLine) (hplain : ∀ l ∈ log, LogLine.Plain l) (r : LogReport K)
    (hr : analyzeOutput (log.map LogLine.text) = .ok r) (h30 : (runsOf [] log).length = 30)
    (hall : ∀ run ∈ runsOf [] log, run.2.length = 20 ∧ ∀ n ∈ run.2, 0 < n) : r.warning = false := by
  by_contra hc
  rw [Bool.not_eq_false, C156_warning log hplain r hr] at hc
  apply hc
  have hrun := List.getElem_mem (l := runsOf [] log) (n := 29) (by omega)
  obtain ⟨hlen, hpos⟩ := hall _ hrun
  refine ⟨((runsOf [] log)[29]'(by omega)).2, ((runsOf [] log)[29]'(by omega)).2[19]'(by omega), ?_, ?_, ?_⟩
  · unfold allRuns
    rw [List.getElem?_append_left (by simp; omega), List.getElem?_map, List.getElem?_eq_getElem (by omega)]
    rfl
  · exact List.getElem?_eq_getElem (by omega)
  · exact (hpos _ (List.getElem_mem _)).ne'

/-- The lines of sizes with their counts. -/
def logOf (runs : List (Nat × List Nat)) : List LogLine := runs.flatMap (fun run => run.2.map LogLine.rounds ++ [LogLine.done run.1])

theorem logOf_plain (runs : List (Nat × List Nat)) : ∀ l ∈ logOf runs, LogLine.Plain l := by
  intro l hl
  unfold logOf at hl
  obtain ⟨run, _, h⟩ := List.mem_flatMap.1 hl
  rcases List.mem_append.1 h with h | h
  · obtain ⟨n, _, rfl⟩ := List.mem_map.1 h; trivial
  · rw [List.mem_singleton.1 h]; trivial

theorem runsOf_counts (l : List Nat) : ∀ (seen : List Nat) (rest : List LogLine),
    runsOf seen (l.map LogLine.rounds ++ rest) = runsOf (seen ++ l) rest ∧
    unfinished seen (l.map LogLine.rounds ++ rest) = unfinished (seen ++ l) rest := by
  induction l with
  | nil => intro seen rest; simp
  | cons a l ih =>
    intro seen rest
    obtain ⟨h1, h2⟩ := ih (seen ++ [a]) rest
    rw [List.append_assoc, List.singleton_append] at h1 h2
    exact ⟨h1, h2⟩

theorem runsOf_logOf (runs : List (Nat × List Nat)) : runsOf [] (logOf runs) = runs ∧ unfinished [] (logOf runs) = [] := by
  induction runs with
  | nil => exact ⟨rfl, rfl⟩
  | cons run runs ih =>
    have e : logOf (run :: runs) = run.2.map LogLine.rounds ++ (LogLine.done run.1 :: logOf runs) := by
      unfold logOf; simp
    rw [e]
    obtain ⟨h1, h2⟩ := runsOf_counts run.2 [] (LogLine.done run.1 :: logOf runs)
    rw [h1, h2]
    constructor
    · show (run.1, [] ++ run.2) :: runsOf [] (logOf runs) = _
      rw [ih.1, List.nil_append]
    · exact ih.2

/-- **C156** (false alarm). For the log kept in the repository, and for every other of nineteen sizes with twenty counts each, the script warns that
the last row is incomplete, and prints thirty means for nineteen sizes. -/
theorem C156_refuted_alarm (runs : List (Nat × List Nat)) (h19 : runs.length = 19) (hall : ∀ run ∈ runs, run.2.length = 20) :
    ∃ r : LogReport K, analyzeOutput ((logOf runs).map LogLine.text) = .ok r ∧ r.warning = true ∧ r.sizes.length = 19 ∧ r.means.length = 30 := by
  obtain ⟨hr, hu⟩ := runsOf_logOf runs
  have ha : allRuns (logOf runs) = runs.map Prod.snd ++ [[]] := by unfold allRuns; rw [hr, hu]
  have hfit : Fits 30 20 (allRuns (logOf runs)) := by
    rw [ha, fits_snoc]
    refine ⟨fun i row hi => ?_, by simp, fun hc => absurd rfl hc⟩
    have hil := (List.getElem?_eq_some_iff.1 hi).1
    rw [List.length_map] at hil
    obtain ⟨run, hm, rfl⟩ := List.mem_map.1 (List.mem_of_getElem? hi)
    exact ⟨(hall run hm).le, fun _ => by omega⟩
  obtain ⟨r, h1, h2, _, h4, _⟩ := C156_table (K := K) (logOf runs) (logOf_plain runs) hfit
  refine ⟨r, h1, ?_, ?_, h4⟩
  · rw [C156_warning _ (logOf_plain runs) r h1]
    rintro ⟨counts, n, hc, _⟩
    rw [ha, List.getElem?_eq_none (by simp; omega)] at hc
    exact absurd hc (by simp)
  · rw [h2, hr, List.length_map, h19]

/-- Thirty sizes, the first with one count, the others with twenty. -/
def exShortLog : List (Nat × List Nat) := (10, [40]) :: (List.range 29).map (fun i => (20 + i, List.replicate 20 7))

/-- **C156** (no alarm). A log with thirty sizes whose first one has a single count, 40: there is no warning and the printed mean is 2. -/
theorem C156_refuted_silent : ∃ r : LogReport K, analyzeOutput ((logOf exShortLog).map LogLine.text) = .ok r ∧ r.warning = false ∧
    r.sizes[0]? = some 10 ∧ r.means[0]? = some 2 ∧ mean ([40].map (fun n : Nat => (n : K))) = 40 := by
  obtain ⟨hr, hu⟩ := runsOf_logOf exShortLog
  have ha : allRuns (logOf exShortLog) = exShortLog.map Prod.snd ++ [[]] := by unfold allRuns; rw [hr, hu]
  have hfit : Fits 30 20 (allRuns (logOf exShortLog)) := by
    rw [ha, fits_snoc]
    refine ⟨fun i row hi => ?_, by simp, fun hc => absurd rfl hc⟩
    have hil := (List.getElem?_eq_some_iff.1 hi).1
    have h30 : (exShortLog.map Prod.snd).length = 30 := by decide
    rw [h30] at hil
    have hall : ∀ row ∈ exShortLog.map Prod.snd, row.length ≤ 20 := by decide
    exact ⟨hall row (List.mem_of_getElem? hi), fun _ => hil⟩
  obtain ⟨r, h1, h2, _, _, _⟩ := C156_table (K := K) (logOf exShortLog) (logOf_plain exShortLog) hfit
  refine ⟨r, h1, ?_, ?_, ?_, by simp [mean]⟩
  · by_contra hc
    rw [Bool.not_eq_false, C156_warning _ (logOf_plain exShortLog) r h1] at hc
    apply hc
    rw [ha]
    exact ⟨List.replicate 20 7, 7, by decide, by decide, by decide⟩
  · rw [h2, hr]; rfl
  · rw [C156_mean _ (logOf_plain exShortLog) r h1 0 (by omega), ha]
    simp [exShortLog]
    norm_num

/-- A log with a foreign line, a complete size and a count of an unfinished one. -/
def exLog : List LogLine := [.other "Best reduction: -0.5\n".toList] ++ logOf [(100, List.replicate 10 3 ++ List.replicate 10 5)] ++ [.rounds 8]

example : (∀ l ∈ exLog, LogLine.Plain l) ∧ Fits 30 20 (allRuns exLog) ∧ (runsOf [] exLog)[0]?.map (fun r => r.2.length) = some 20 := by
  have hp : ∀ l ∈ exLog, LogLine.Plain l := by
    intro l hl
    unfold exLog at hl
    rw [List.mem_append, List.mem_append] at hl
    rcases hl with (hl | hl) | hl
    · rw [List.mem_singleton.1 hl]
      exact ⟨by decide, by decide⟩
    · exact logOf_plain _ l hl
    · rw [List.mem_singleton.1 hl]; trivial
  refine ⟨hp, ?_, by decide⟩
  intro i row hi
  have hl := (List.getElem?_eq_some_iff.1 hi).1
  have h2 : (allRuns exLog).length = 2 := by decide
  have hall : ∀ row ∈ allRuns exLog, row.length ≤ 20 := by decide
  exact ⟨hall row (List.mem_of_getElem? hi), fun _ => by omega⟩

/-- The script on these lines. -/
example : (analyzeOutput (K := ℚ) (exLog.map LogLine.text)).map (fun r => (r.warning, r.sizes, r.means.take 3)) = .ok (true, [100], [4, 2 / 5, 0]) := by
  decide +kernel

/-- Twenty-one counts for one size. -/
example : (analyzeOutput (K := ℚ) ((logOf [(100, List.replicate 21 3)]).map LogLine.text)).isOk = false := by decide +kernel

/-- A complete log of nineteen sizes. -/
example : ((List.range 19).map (fun i => (i, List.replicate 20 5))).length = 19 ∧
    ∀ run ∈ (List.range 19).map (fun i => (i, List.replicate 20 5)), run.2.length = 20 := by decide

/-- A complete log of thirty sizes. -/
example : (runsOf [] (logOf ((List.range 30).map (fun i => (i, List.replicate 20 5))))).length = 30 ∧
    ∀ run ∈ runsOf [] (logOf ((List.range 30).map (fun i => (i, List.replicate 20 5)))), run.2.length = 20 ∧ ∀ n ∈ run.2, 0 < n := by
  rw [(runsOf_logOf _).1]
  decide

end FF
