import Verif.Proofs.MabRun

/-!
# Properties C18–C20, C22, C26 and the first half of C12 (`solve_mab`)
-/

namespace FF

open Spec

set_option linter.unusedSectionVars false

variable {K : Type} [Field K] [LinearOrder K] [IsStrictOrderedRing K] [FloorRing K] [NpFun K] {G : Type}

section
variable {R : Rng K G} {isCls : Bool} {data : List (List K)} {labels : List K} {m : Criterion}
    {minmax : Option (List K × List K)} {d : DiscDict K} {binType : Option BinType} {F B : Nat} {hs : Hists K G}
    {withRep : Bool} {I : Nat → List Nat} {s s0 s' : MabState K G} {epsilon : K} {budget : Option Int} {batch : Nat}
    {g : G} {glob : Glob G} {junk : Junk K} {numBins : Option Nat}

/-- The invariant holds during a run. -/
theorem MabDuring.inv (hm : CritFits isCls m) (hb : BinningOK minmax d binType B)
    (h : MabDuring R g glob junk data labels minmax d binType B isCls m epsilon withRep budget batch hs s) :
    data ≠ [] ∧ ∃ F, (∃ row rest, data = row :: rest ∧ F = row.length) ∧
      HistsGood R isCls data (nodeClasses isCls labels) minmax d binType F B hs ∧
      ∃ I, MabInv R isCls data labels m minmax d binType F B hs withRep I s := by
  obtain ⟨row, rest, s0, rfl, _, hmake, hinit, hvis⟩ := h
  have hg := makeHistograms_good hb hmake
  exact ⟨by simp, row.length, ⟨row, rest, rfl, rfl⟩, hg,
    (MabInv.init hg hmake hinit).visited hm hb (by simp) hg hvis⟩

/-- The final state of a successful call. -/
theorem solveMab_final {out : MabOut K G}
    (hok : solveMab R g glob junk data labels minmax d binType numBins isCls m epsilon withRep budget batch = .ok out) :
    ∃ B hs, numBins = some B ∧
      MabDuring R g glob junk data labels minmax d binType B isCls m epsilon withRep budget batch hs out.final := by
  obtain ⟨row, rest, B, hs, s0, hdata, hB, hid, hmake, hinit, hloop, _⟩ := solveMab_parts hok
  obtain ⟨n, hruns⟩ := mabLoop_ok_runs _ _ hloop
  exact ⟨B, hs, hB, row, rest, s0, hdata, hid, hmake, hinit, hruns.visited⟩

theorem solveMab_total_eq {out : MabOut K G}
    (hok : solveMab R g glob junk data labels minmax d binType numBins isCls m epsilon withRep budget batch = .ok out) :
    out.total = out.final.total := by
  obtain ⟨row, rest, B, hs, s0, _, _, _, _, _, _, hfin⟩ := solveMab_parts hok
  obtain ⟨_, _, _, _, _, h, _⟩ := mabFinish_ok hfin
  exact h
end

/-- C18. With a batch size of at least one the loop of `solve_mab` ends (normally or with an exception) after at most
`F·B·(n+1) + n + 2` passes, from the initial state of every call, with or without replacement, for every generator and all contents
of uninitialised memory; and `solve_mab` returns what follows from the state in which the loop ends. `MabRuns` is the loop without
any bound on the number of passes. -/
theorem C18_terminates (R : Rng K G) (g : G) (glob : Glob G) (junk : Junk K) (row : List K) (rest : List (List K))
    (labels : List K) (minmax : Option (List K × List K)) (d : DiscDict K) (binType : Option BinType) (B : Nat)
    (isCls : Bool) (m : Criterion) (epsilon : K) (withRep : Bool) (budget : Option Int) (batch : Nat)
    (hs : Hists K G) (s0 : MabState K G) (hbatch : 1 ≤ batch) (hid : binType ≠ some .identity)
    (hmake : makeHistograms R glob.np isCls (row :: rest) labels minmax d binType B = .ok hs)
    (hinit : mabInit row.length B (row :: rest).length junk withRep hs g = .ok s0) :
    ∃ n r, n ≤ row.length * B * ((row :: rest).length + 1) + (row :: rest).length + 2 ∧
      MabRuns R row.length B (row :: rest) labels m epsilon withRep budget batch s0 n r ∧
      solveMab R g glob junk (row :: rest) labels minmax d binType (some B) isCls m epsilon withRep budget batch =
        match r with
        | .error e => .error e
        | .ok s => mabFinish R row.length B { glob with np := hs.g } s := by
  obtain ⟨n, hn, hr⟩ := mabLoop_runs (R := R) (F := row.length) (B := B) (data := row :: rest) (labels := labels) (m := m)
    (epsilon := epsilon) (budget := budget) hbatch (mabInit_pop hinit)
  refine ⟨n, _, hn, hr, ?_⟩
  unfold solveMab
  simp only [if_neg hid, hmake, hinit]
  generalize mabLoop R row.length B (row :: rest) labels m epsilon withRep budget batch _ s0 = r
  cases r <;> rfl

/-- The loop is deterministic: the number of passes and the outcome of `C18_terminates` are unique. -/
theorem C18_unique (R : Rng K G) (F B : Nat) (data : List (List K)) (labels : List K) (m : Criterion) (epsilon : K)
    (withRep : Bool) (budget : Option Int) (batch : Nat) (s : MabState K G) (n n' : Nat) (r r' : Except Err (MabState K G))
    (h : MabRuns R F B data labels m epsilon withRep budget batch s n r)
    (h' : MabRuns R F B data labels m epsilon withRep budget batch s n' r') : n = n' ∧ r = r' := by
  induction h generalizing n' with
  | stop h5 => cases h' with
    | stop => exact ⟨rfl, rfl⟩
    | raise h => exact absurd h h5
    | leave h => exact absurd h h5
    | again h => exact absurd h h5
  | raise h5 hs => cases h' with
    | stop h => exact absurd h5 h
    | raise h hs' => rw [hs] at hs'; cases hs'; exact ⟨rfl, rfl⟩
    | leave h hs' => rw [hs] at hs'; cases hs'
    | again h hs' => rw [hs] at hs'; cases hs'
  | leave h5 hs => cases h' with
    | stop h => exact absurd h5 h
    | raise h hs' => rw [hs] at hs'; cases hs'
    | leave h hs' => rw [hs] at hs'; cases hs'; exact ⟨rfl, rfl⟩
    | again h hs' => rw [hs] at hs'; cases hs'
  | again h5 hs hr ih => cases h' with
    | stop h => exact absurd h5 h
    | raise h hs' => rw [hs] at hs'; cases hs'
    | leave h hs' => rw [hs] at hs'; cases hs'
    | again h hs' hr' =>
      rw [hs] at hs'
      cases hs'
      obtain ⟨h1, h2⟩ := ih _ hr'
      exact ⟨by omega, h2⟩

/-- A run with replacement that samples twice and then computes all arms exactly. -/
example :
    ((solveMab rngQ 0 ⟨0, 0⟩ junkQ [[0, 1], [1, 1], [2, 5], [3, 5], [4, 2], [5, 2]] [0, 3, 1, 7, 2, 1] none none
      (some .linear) (some 4) false .mse 0 true none 2).map (fun o => (o.final.rounds, o.total))).toOption = some (2, 20) := by
  decide +kernel

/-- C12, first half. During any run, for every arm that has been sampled: the estimate is a number, and the bounds are NaN, or the
whole line, or numbers with lower bound ≤ estimate ≤ upper bound. -/
theorem C12_interval_contains_estimate (R : Rng K G) (g : G) (glob : Glob G) (junk : Junk K) (data : List (List K))
    (labels : List K) (minmax : Option (List K × List K)) (d : DiscDict K) (binType : Option BinType) (B : Nat)
    (isCls : Bool) (m : Criterion) (epsilon : K) (withRep : Bool) (budget : Option Int) (batch : Nat)
    (hs : Hists K G) (s : MabState K G) (hm : CritFits isCls m) (hb : BinningOK minmax d binType B)
    (hrun : MabDuring R g glob junk data labels minmax d binType B isCls m epsilon withRep budget batch hs s)
    (a : Arm) (ha : 0 < s.numSamples a) :
    ∃ e, s.est a = .fin e ∧ ((s.lcb a = .nan ∧ s.ucb a = .nan) ∨ (s.lcb a = .ninf ∧ s.ucb a = .pinf) ∨
      ∃ l u, s.lcb a = .fin l ∧ s.ucb a = .fin u ∧ l ≤ e ∧ e ≤ u) := by
  obtain ⟨_, F, _, _, I, hi⟩ := hrun.inv hm hb
  obtain ⟨e, h1, h2, _⟩ := hi.touched a ha
  refine ⟨e, h1, ?_⟩
  rcases h2 with h | h | ⟨c, hc, hl, hu⟩
  · exact Or.inl h
  · exact Or.inr (Or.inl h)
  · exact Or.inr (Or.inr ⟨_, _, hl, hu, by linarith, by linarith⟩)

/-- C19. Without replacement the number of queries `solve_mab` reports is at most the number `solve_exactly` reports for the same
node and the same bins (same state of the generator that draws RANDOM bins). For all generators, batch sizes, budgets and contents
of uninitialised memory. -/
theorem C19_cost_at_most_exact (R : Rng K G) (g : G) (glob : Glob G) (junk : Junk K) (junk' : Mat K) (data : List (List K))
    (labels : List K) (minmax : Option (List K × List K)) (d : DiscDict K) (binType : Option BinType) (numBins : Option Nat)
    (isCls : Bool) (m : Criterion) (epsilon : K) (budget : Option Int) (batch : Nat) (out : MabOut K G)
    (r : Option (SplitRes K)) (nq : Nat) (g' : G)
    (hm : CritFits isCls m) (hb : ∀ B, numBins = some B → BinningOK minmax d binType B)
    (hok : solveMab R g glob junk data labels minmax d binType numBins isCls m epsilon false budget batch = .ok out)
    (hex : solveExactly R glob.np junk' data labels minmax d binType numBins isCls m = .ok (r, nq, g')) : out.total ≤ nq := by
  obtain ⟨B, hs, hB, hdur⟩ := solveMab_final hok
  have hid : binType ≠ some .identity := by
    obtain ⟨_, _, _, _, h, _⟩ := hdur
    exact h
  have hbins : exactBins data binType numBins = numBins := by unfold exactBins; rw [if_neg hid]
  obtain ⟨row, rest, B', hs', arm, hdata, hrun⟩ := solveExactly_run hm (fun B' h => hb B' (by rw [← h, hbins])) hex
  have hBB : B' = B := by
    have := hrun.bins
    rw [hbins, hB] at this
    exact (Option.some.inj this).symm
  subst hBB
  have hhs : hs' = hs := by
    obtain ⟨_, _, _, _, _, h, _⟩ := hdur
    have := hrun.make
    rw [h] at this
    exact (Except.ok.inj this).symm
  subst hhs
  obtain ⟨_, F, ⟨row', rest', hdata', hF⟩, _, I, hi⟩ := hdur.inv hm (hb _ hB)
  rw [hdata] at hdata'
  cases hdata'
  subst hF
  obtain ⟨p, _, hperm, _⟩ := hi.norep rfl
  have hlen := hperm.length_eq
  rw [List.length_append, List.length_range] at hlen
  rw [solveMab_total_eq hok, hrun.nq_eq]
  exact le_trans hi.cost (Nat.mul_le_mul_left _ (by omega))

/-- C19 without reference to `solve_exactly`: at most (datapoints) × (features that have a bin edge). -/
theorem C19_cost_bound (R : Rng K G) (g : G) (glob : Glob G) (junk : Junk K) (row : List K) (rest : List (List K))
    (labels : List K) (minmax : Option (List K × List K)) (d : DiscDict K) (binType : Option BinType) (B : Nat)
    (isCls : Bool) (m : Criterion) (epsilon : K) (budget : Option Int) (batch : Nat) (out : MabOut K G)
    (hm : CritFits isCls m) (hb : BinningOK minmax d binType B)
    (hok : solveMab R g glob junk (row :: rest) labels minmax d binType (some B) isCls m epsilon false budget batch = .ok out) :
    ∃ hs, makeHistograms R glob.np isCls (row :: rest) labels minmax d binType B = .ok hs ∧
      out.total ≤ (row :: rest).length * ((List.range row.length).filter (fun f => !(edgesOf hs.hists f).isEmpty)).length := by
  obtain ⟨B', hs, hB, hdur⟩ := solveMab_final hok
  cases hB
  obtain ⟨_, F, ⟨row', rest', hdata', hF⟩, hg, I, hi⟩ := hdur.inv hm hb
  cases hdata'
  subst hF
  obtain ⟨_, _, _, _, _, hmake, _⟩ := hdur
  refine ⟨hs, hmake, ?_⟩
  obtain ⟨p, _, hperm, _⟩ := hi.norep rfl
  have hlen := hperm.length_eq
  rw [List.length_append, List.length_range] at hlen
  rw [solveMab_total_eq hok, Nat.mul_comm]
  refine le_trans hi.cost (Nat.mul_le_mul ?_ (by omega))
  unfold featCountOf
  apply List.Subperm.length_le
  apply (List.nodup_dedup _).subperm
  intro f hf
  rw [List.mem_dedup] at hf
  obtain ⟨a, ha, rfl⟩ := List.mem_map.1 hf
  have hv := hg.cands_valid a ha
  rw [List.mem_filter, List.mem_range]
  refine ⟨hv.1, ?_⟩
  cases he : edgesOf hs.hists a.1 with
  | nil => have := hv.2; rw [he] at this; simp at this
  | cons => simp

/-- Strictly cheaper than the exact solver (6 instead of 12 queries), on a node where both return a split. -/
example :
    ((solveMab rngQ 0 ⟨0, 0⟩ junkQ [[0, 1], [1, 1], [2, 5], [3, 5], [4, 2], [5, 2]] [0, 0, 1, 1, 0, 1] none none
      (some .linear) (some 4) true .gini 0 false none 3).map (fun o => (o.split.isSome, o.total))).toOption = some (true, 6) ∧
    ((solveExactly rngQ 0 (fun _ => .nan) [[0, 1], [1, 1], [2, 5], [3, 5], [4, 2], [5, 2]] [0, 0, 1, 1, 0, 1] none none
      (some .linear) (some 4) true .gini).map (fun o => (o.1.isSome, o.2.1))).toOption = some (true, 12) := by
  constructor <;> decide +kernel

/-! ### C20 -/

section
variable {R : Rng K G} {isCls : Bool} {data : List (List K)} {labels : List K} {m : Criterion}
    {minmax : Option (List K × List K)} {d : DiscDict K} {binType : Option BinType} {F B : Nat} {hs : Hists K G}
    {withRep : Bool} {I : Nat → List Nat} {s s0 s' : MabState K G} {epsilon : K} {budget : Option Int} {batch : Nat}
    {classes : List K}

/-- Rows one sampling step can use. -/
def stepRows (N batch : Nat) (withRep : Bool) : Nat := if withRep then N else min batch N

theorem overBudget_false {b : Int} {t : Nat} (h : overBudget (some b) t = false) : (t : Int) < b := by
  unfold overBudget at h
  simp only [decide_eq_false_iff_not] at h
  omega

theorem exactPart_cost (hm : CritFits isCls m) (hb : BinningOK minmax d binType B) (hdata : data ≠ [])
    (hg : HistsGood R isCls data classes minmax d binType F B hs)
    (hi : MabInv R isCls data labels m minmax d binType F B hs withRep I s) {b : Int} (hlt : (s.total : Int) < b)
    {r : Loop (MabState K G)} (h : mabExactPart R F B data labels m withRep (some b) batch s = .ok r) :
    (r.state.total : Int) < b + F * stepRows data.length batch withRep ∧
    (∀ s', r = .next s' → (s'.total : Int) < b) := by
  rcases mabExactPart_cases h with ⟨rfl, _⟩ | ⟨hrep, ea, out, est, mu, ml, hea, _, hout, hest, _, _, hr⟩
  · refine ⟨?_, fun s' hs' => by cases hs'; exact hlt⟩
    have : (0 : Int) ≤ (F : Int) * stepRows data.length batch withRep := by positivity
    simp only [Loop.state]
    omega
  · obtain ⟨_, hvalid, _, _, _, _, hnq, _, _⟩ := hi.exact_call hm hb hdata hg hea hout
    have hst : r.state = afterExact F B data.length s ea est mu out := by
      rcases hr with ⟨rfl, _⟩ | ⟨rfl, _⟩ <;> rfl
    constructor
    · rw [hst]
      have h1 : out.acc.nq ≤ F * data.length := by
        rw [hnq]; exact Nat.mul_le_mul_right _ (featCountOf_le_F (fun a ha => (hvalid a ha).1))
      have h2 : ((s.total + out.acc.nq : Nat) : Int) < b + ((F * data.length : Nat) : Int) := by push_cast; omega
      simp only [FF.afterExact, stepRows, hrep, if_true]
      push_cast at h2 ⊢
      exact h2
    · intro s' hs'
      rcases hr with ⟨rfl, _⟩ | ⟨rfl, hb', _⟩
      · cases hs'
      · cases hs'
        exact overBudget_false hb'

theorem samplePart_cost (hm : CritFits isCls m) (hb : BinningOK minmax d binType B)
    (hg : HistsGood R isCls data classes minmax d binType F B hs)
    (hi : MabInv R isCls data labels m minmax d binType F B hs withRep I s) {b : Int} (hlt : (s.total : Int) < b)
    {r : Loop (MabState K G)} (h : mabSamplePart R F B data labels m epsilon (some b) batch s = .ok r) :
    (r.state.total : Int) < b + F * stepRows data.length batch withRep ∧
    (∀ s', r = .next s' → (s'.total : Int) < b) := by
  have h0 : (0 : Int) ≤ (F : Int) * stepRows data.length batch withRep := by positivity
  rcases mabSamplePart_cases h with ⟨_, rfl⟩ | ⟨_, _, rfl⟩ | ⟨_, _, out, est, cbd, hout, hest, hcbd, hr⟩
  · exact ⟨by simp only [Loop.state]; omega, fun s' hs' => by cases hs'⟩
  · exact ⟨by simp only [Loop.state]; omega, fun s' hs' => by cases hs'⟩
  · obtain ⟨pop, hdraw, hspec, hvalid, _⟩ := hi.sample_call hm hb hg hout
    have hst : r.state.total = s.total + out.acc.nq := by
      rcases hr with ⟨rfl, _⟩ | ⟨_, ml, mi, mu, _, _, _, _, rfl⟩ <;> rfl
    constructor
    · rw [hst]
      have hd : out.drawn.length ≤ stepRows data.length batch withRep := by
        unfold stepRows
        cases hw : withRep with
        | true =>
          rw [hi.rep hw] at hdraw
          have := (drawSamples_rep hdraw).2.1
          simp only [if_true]
          omega
        | false =>
          obtain ⟨p, hp, hperm, _⟩ := hi.norep hw
          rw [hp] at hdraw
          obtain ⟨_, _, _, _, hlen⟩ := drawSamples_norep hdraw
          have := hperm.length_eq
          rw [List.length_append, List.length_range] at this
          simp only [Bool.false_eq_true, if_false]
          omega
      have h1 : out.acc.nq ≤ F * stepRows data.length batch withRep := by
        rw [hspec.nq]
        refine Nat.mul_le_mul (featCountOf_le_F (fun a ha => ?_)) hd
        have := (hvalid a ha).1
        rw [hi.len] at this
        exact this
      have h2 : ((s.total + out.acc.nq : Nat) : Int) < b + ((F * stepRows data.length batch withRep : Nat) : Int) := by
        push_cast; omega
      push_cast at h2 ⊢
      exact h2
    · intro s' hs'
      rcases hr with ⟨rfl, _⟩ | ⟨hb', ml, mi, mu, _, _, _, _, rfl⟩
      · cases hs'
      · cases hs'
        exact overBudget_false hb'

theorem step_cost (hm : CritFits isCls m) (hb : BinningOK minmax d binType B) (hdata : data ≠ [])
    (hg : HistsGood R isCls data classes minmax d binType F B hs)
    (hi : MabInv R isCls data labels m minmax d binType F B hs withRep I s) {b : Int} (hlt : (s.total : Int) < b)
    {r : Loop (MabState K G)} (h : mabStep R F B data labels m epsilon withRep (some b) batch s = .ok r) :
    (r.state.total : Int) < b + F * stepRows data.length batch withRep ∧
    (∀ s', r = .next s' → (s'.total : Int) < b) := by
  rcases mabStep_cases h with ⟨s', h1, rfl⟩ | ⟨s', h1, h2⟩
  · exact exactPart_cost hm hb hdata hg hi hlt h1
  · obtain ⟨I', hi'⟩ := hi.exactPart hm hb hdata hg h1
    exact samplePart_cost hm hb hg hi' ((exactPart_cost hm hb hdata hg hi hlt h1).2 _ rfl) h2
end

/-- C20. With a positive budget `b`, `solve_mab` reports fewer than `b` plus one sampling step: `F` times the rows a step can use,
which is the batch size (at most `n`) without replacement, and `n` with replacement because of the exact computations. -/
theorem C20_budget (R : Rng K G) (g : G) (glob : Glob G) (junk : Junk K) (row : List K) (rest : List (List K))
    (labels : List K) (minmax : Option (List K × List K)) (d : DiscDict K) (binType : Option BinType) (B : Nat)
    (isCls : Bool) (m : Criterion) (epsilon : K) (withRep : Bool) (b : Int) (batch : Nat) (out : MabOut K G)
    (hm : CritFits isCls m) (hb : BinningOK minmax d binType B) (hpos : 0 < b)
    (hok : solveMab R g glob junk (row :: rest) labels minmax d binType (some B) isCls m epsilon withRep (some b) batch
      = .ok out) :
    (out.total : Int) <
      b + row.length * (if withRep then (row :: rest).length else min batch (row :: rest).length : Nat) := by
  obtain ⟨row', rest', B', hs, s0, hdata, hB, hid, hmake, hinit, hloop, _⟩ := solveMab_parts hok
  cases hdata
  cases hB
  have hg := makeHistograms_good hb hmake
  have hi := MabInv.init (m := m) hg hmake hinit
  have h0 : s0.total = 0 := (mabInit_ok hinit).2.2.2.2.2.2.2.1
  obtain ⟨n, hruns⟩ := mabLoop_ok_runs _ _ hloop
  rw [solveMab_total_eq hok]
  have head : ∀ s, MabHead R row.length B (row :: rest) labels m epsilon withRep (some b) batch s0 s →
      (s.total : Int) < b ∧ ∃ I, MabInv R isCls (row :: rest) labels m minmax d binType row.length B hs withRep I s := by
    intro s h
    induction h with
    | init => exact ⟨by rw [h0]; simpa using hpos, _, hi⟩
    | step h h5 hs' ih =>
      obtain ⟨hlt, I, hI⟩ := ih
      exact ⟨(step_cost hm hb (by simp) hg hI hlt hs').2 _ rfl, hI.step hm hb (by simp) hg hs'⟩
  rcases hruns.visited with h | ⟨s1, h, h5, hs'⟩
  · have h1 := (head _ h).1
    have : (0 : Int) ≤ (row.length : Int) * (if withRep then (row :: rest).length else min batch (row :: rest).length : Nat) := by
      positivity
    omega
  · obtain ⟨hlt, I, hI⟩ := head _ h
    exact (step_cost hm hb (by simp) hg hI hlt hs').1

/-- The budget 3 stops the run after the first batch: 4 queries instead of 12. -/
example :
    ((solveMab rngQ 0 ⟨0, 0⟩ junkQ [[0, 1], [1, 1], [2, 5], [3, 5], [4, 2], [5, 2]] [0, 3, 1, 7, 2, 1] none none
      (some .linear) (some 4) false .mse 0 false (some 3) 2).map (fun o => o.total)).toOption = some 4 ∧
    ((solveMab rngQ 0 ⟨0, 0⟩ junkQ [[0, 1], [1, 1], [2, 5], [3, 5], [4, 2], [5, 2]] [0, 3, 1, 7, 2, 1] none none
      (some .linear) (some 4) false .mse 0 false none 2).map (fun o => o.total)).toOption = some 12 := by
  constructor <;> decide +kernel

/-- C22. If the node has more than five candidate splits and `solve_mab` returns a split, the reported reduction is a negative
number, some datapoint has a value of the chosen feature at most the threshold and some datapoint a larger one. -/
theorem C22_split_separates (R : Rng K G) (g : G) (glob : Glob G) (junk : Junk K) (row : List K) (rest : List (List K))
    (labels : List K) (minmax : Option (List K × List K)) (d : DiscDict K) (binType : Option BinType) (B : Nat)
    (isCls : Bool) (m : Criterion) (epsilon : K) (withRep : Bool) (budget : Option Int) (batch : Nat) (out : MabOut K G)
    (hs : Hists K G) (r : SplitRes K) (hm : CritFits isCls m) (hb : BinningOK minmax d binType B)
    (hmake : makeHistograms R glob.np isCls (row :: rest) labels minmax d binType B = .ok hs)
    (h5 : 5 < numCands hs.hists row.length B)
    (hok : solveMab R g glob junk (row :: rest) labels minmax d binType (some B) isCls m epsilon withRep budget batch
      = .ok out) (hr : out.split = some r) :
    (∃ c, r.red = .fin c ∧ c < 0) ∧ r.feat < row.length ∧
    (∃ x ∈ row :: rest, x.getD r.feat 0 ≤ r.value) ∧ (∃ x ∈ row :: rest, r.value < x.getD r.feat 0) := by
  obtain ⟨row', rest', B', hs', s0, hdata, hB, hid, hmake', hinit, hloop, hfin⟩ := solveMab_parts hok
  cases hdata
  cases hB
  rw [hmake] at hmake'
  cases hmake'
  have hg := makeHistograms_good hb hmake
  have hi := MabInv.init (m := m) hg hmake hinit
  obtain ⟨n, hruns⟩ := mabLoop_ok_runs _ _ hloop
  obtain ⟨I, hI⟩ := hi.visited hm hb (by simp) hg hruns.visited
  have htouch := final_touched hm hb (by simp) hg hmake hinit (lt_of_lt_of_le h5 hg.numCands_le) hruns
  obtain ⟨arm, arms, harms, hmem, hsplit, _, _, _⟩ := mabFinish_ok hfin
  rw [hr] at hsplit
  obtain ⟨e1, e2, e3, hh, edges, e4, e5, e6⟩ := finishSplit_some hsplit
  have hall : arm ∈ allArms row.length B := by
    unfold bestArms at harms
    split at harms
    · cases harms
    · cases harms
      exact (List.mem_filter.1 hmem).1
  rcases htouch arm hall with hn | hn
  · rw [(hI.notCons arm hn).2.1] at e3
    simp [XF.lt] at e3
  · obtain ⟨e, he, _, hbs⟩ := hI.touched arm hn
    rw [he] at e3 e2
    have hneg : e < 0 := by simpa [XF.lt] using e3
    have hval : (edgesOf hs.hists arm.1).getD arm.2 0 = r.value := by
      have hrep := hI.reach.rep hm hb
      have hc : arm ∈ candArms row.length B hs := by
        rcases hg.mem_cands_or hall with h | h
        · exact h.1
        · rw [(hI.notCons arm h.1).2.2] at hn
          omega
      have hv := hg.cands_valid arm hc
      have hE : edgesOf hs.hists arm.1 ≠ [] := by
        intro h0
        have := hv.2
        rw [h0] at this
        simp at this
      have := (hrep.rep _ _ e4 hE).edges_some
      rw [e5] at this
      rw [← Option.some.inj this, List.getD_eq_getElem?_getD, e6]
      rfl
    rw [hval, ← e1] at hbs
    obtain ⟨i, hi', j, hj, h1, h2⟩ := hbs hneg
    rw [List.getD_eq_getElem _ _ hi'] at h1
    rw [List.getD_eq_getElem _ _ hj] at h2
    exact ⟨⟨e, e2, hneg⟩, by rw [e1]; exact (mem_allArms.1 hall).1, ⟨_, List.getElem_mem hi', h1⟩, ⟨_, List.getElem_mem hj, h2⟩⟩

example :
    (solveMab rngQ 0 ⟨0, 0⟩ junkQ [[0, 1], [1, 1], [2, 5], [3, 5], [4, 2], [5, 2]] [0, 0, 1, 1, 0, 1] none none
      (some .linear) (some 4) true .gini 0 false none 3).toOption.bind (fun o => o.split) = some ⟨0, 5 / 3, .fin (-4 / 9)⟩ ∧
    (makeHistograms rngQ 0 true [[0, 1], [1, 1], [2, 5], [3, 5], [4, 2], [5, 2]] [0, 0, 1, 1, 0, 1] none none
      (some .linear) 4).toOption.map (fun hs => numCands hs.hists 2 4) = some 8 := by
  constructor <;> decide +kernel

/-- C26. During any run without replacement: the batches drawn so far are pairwise disjoint and without repeats, the remaining
population is exactly the complement, and no datapoint has entered any histogram twice since the histogram was created (`I f` are
the rows inserted into the histogram of feature `f`). -/
theorem C26_disjoint_batches (R : Rng K G) (g : G) (glob : Glob G) (junk : Junk K) (data : List (List K))
    (labels : List K) (minmax : Option (List K × List K)) (d : DiscDict K) (binType : Option BinType) (B : Nat)
    (isCls : Bool) (m : Criterion) (epsilon : K) (budget : Option Int) (batch : Nat)
    (hs : Hists K G) (s : MabState K G) (hm : CritFits isCls m) (hb : BinningOK minmax d binType B)
    (hrun : MabDuring R g glob junk data labels minmax d binType B isCls m epsilon false budget batch hs s) :
    s.log.Pairwise List.Disjoint ∧ (∀ b ∈ s.log, b.Nodup) ∧
    (∃ p, s.pop = some p ∧ p.Nodup ∧ ∀ i, i ∈ p ↔ i < data.length ∧ ∀ b ∈ s.log, i ∉ b) ∧
    ∃ I, HistReach R isCls data labels m minmax d binType B (edgesOf hs.hists) I s.hists ∧ ∀ f, (I f).Nodup := by
  obtain ⟨_, F, _, _, I, hi⟩ := hrun.inv hm hb
  obtain ⟨p, hp, hperm, hsub⟩ := hi.norep rfl
  have hn : (s.log.flatten ++ p).Nodup := hperm.nodup_iff.2 List.nodup_range
  rw [List.nodup_append'] at hn
  obtain ⟨h1, h2, h3⟩ := hn
  rw [List.nodup_flatten] at h1
  refine ⟨h1.2, h1.1, ⟨p, hp, h2, fun i => ?_⟩, I, hi.reach, fun f => (hsub f).nodup ?_⟩
  · constructor
    · intro hip
      refine ⟨?_, fun b hb' hib => h3 (List.mem_flatten.2 ⟨b, hb', hib⟩) hip⟩
      have := hperm.mem_iff.1 (List.mem_append_right _ hip)
      simpa using this
    · rintro ⟨hlt, hno⟩
      have := hperm.mem_iff.2 (List.mem_range.2 hlt)
      rcases List.mem_append.1 this with h | h
      · obtain ⟨b, hb', hib⟩ := List.mem_flatten.1 h
        exact absurd hib (hno b hb')
      · exact h
  · rw [List.nodup_flatten]
    exact h1

/-- Three batches of two rows each. -/
example :
    ((solveMab rngQ 1 ⟨0, 0⟩ junkQ [[0, 1], [1, 1], [2, 5], [3, 5], [4, 2], [5, 2]] [0, 3, 1, 7, 2, 1] none none
      (some .linear) (some 4) false .mse 0 false none 2).map (fun o => (o.final.log, o.final.pop))).toOption
      = some ([[1, 2], [0, 3], [4, 5]], some []) := by decide +kernel

end FF
